import Verif.Props.Contents
import Verif.Props.Getting

/-!
# C82: what the lists of a slice hold

A slice of a sparse storage is a new object with lists of its own.  Here these lists are described item by item.
-/

namespace Gcs

open Spec

variable {V : Type} [DecidableEq V]

/-- `l` lists, in increasing order, the indices of the slice whose source satisfies `p`. -/
def Spec.SliceLists (l : List (List Int)) (index : Index) (shape : List Nat) (p : List Int → Prop) : Prop :=
  l.Pairwise lexLt ∧ ∀ j, j ∈ l ↔ InBox j (selShape (items index) shape) ∧ p (selSource (items index) shape j)

/-- What the lemmas about slices say, with the lists in the form of the specification. -/
theorem SparseSlice.lists {s : Storage V} {mem : List V} {index : Index} {rows : List (List Int)} {b : Buffer V} {r : Storage V}
    {vals : List V} {rows' : List (List Int)} (hs : Sparse s rows b) (hm : b.WF mem) (hp : PosShape s.shape)
    (hv : ValidItems (items index) s.shape)
    (g : SparseSlice s mem index rows b r vals rows' ⟨vals.length, 0, b.unspec⟩) {p : List Int → Prop}
    (hg : ∀ j, InBox j (selShape (items index) s.shape) → (j ∈ rows' ↔ p (selSource (items index) s.shape j)))
    {l : List (List Int)} (hl : Spec.SliceLists l index s.shape p) {w : List Int → V}
    (hw : ∀ j ∈ l, Reads s mem (selSource (items index) s.shape j) (w j)) :
    rows' = l ∧ vals = l.map w ∧ ∀ j ∈ l, InBox j (selShape (items index) s.shape) := by
  have hin : ∀ j ∈ rows', InBox j (selShape (items index) s.shape) := fun j hj => by
    have := g.sparse.rows_ok.inbox j hj
    rwa [g.shape_eq] at this
  have e : rows' = l := sorted_unique g.sparse.rows_ok.sorted hl.1 fun j => by
    rw [hl.2]
    exact ⟨fun hj => ⟨hin j hj, (hg j (hin j hj)).1 hj⟩, fun ⟨h1, h2⟩ => (hg j h1).2 h2⟩
  subst e
  refine ⟨rfl, ?_, hin⟩
  have := g.sparse.window_map vals g.buf w fun j hj => by
    have h1 := hin j hj
    have e1 := g.sparse.at vals g.buf j (by rw [g.shape_eq]; exact h1)
    have h2 := hs.at mem hm _ (source_inBox hp hv h1)
    have e2 := (hw j hj).at_eq
    have e3 := ((g.sparse.wf vals g.buf).reads j (by rw [g.shape_eq]; exact h1))
    rw [e1, g.values j h1, ← h2, e2] at e3
    exact e3
  rwa [buffer_window_map _ _ _ rfl] at this

theorem coo_slice_lists {c : COO V} {rows : List (List Int)} (h : c.Rep rows) (hp : PosShape c.shape)
    (mem : List V) (hm : c.data.WF mem) (index : Index) (hv : ValidItems (items index) c.shape)
    (hne : selShape (items index) c.shape ≠ []) :
    ∃ vals rows', SparseSlice (.coo c) mem index rows c.data
        (.coo (cooOf (selShape (items index) c.shape) rows' ⟨vals.length, 0, c.data.unspec⟩)) vals rows'
        ⟨vals.length, 0, c.data.unspec⟩ ∧
      ∀ j, InBox j (selShape (items index) c.shape) → (j ∈ rows' ↔ selSource (items index) c.shape j ∈ rows) := by
  obtain ⟨nix, st, off, L, es, vals, h1, h2, h3, h4, rfl, h6, h7, h8, h9, h10, h11⟩ :=
    slice_core h.rows_ok hp c.data mem hm h.size index hv hne
  refine ⟨vals, _, ⟨?_, .coo (cooOf_rep _ hne _ h8 _ (by simpa using h7)), ?_, rfl, rfl, ?_, ?_⟩, h9⟩
  · simp only [Storage.getItem, h1, h2, h3, bind, Except.bind, h.getSlice_ok mem _ st off L vals hne h4 h6 h7, pure,
      Except.pure]
  · simp [Buffer.WF]
  · exact fun j hj hm => (h9 j hj).1 hm
  · intro j hj
    rw [buffer_window_map _ _ _ rfl]
    exact h10 j hj

theorem flatcoo_slice_lists {f : FlatCOO V} {rows : List (List Int)} (h : f.Rep rows) (hp : PosShape f.shape)
    (mem : List V) (hm : f.data.WF mem) (index : Index) (hv : ValidItems (items index) f.shape)
    (hne : selShape (items index) f.shape ≠ []) :
    ∃ vals rows', SparseSlice (.flatcoo f) mem index rows f.data
        (.flatcoo (flatOf (selShape (items index) f.shape) rows' ⟨vals.length, 0, f.data.unspec⟩)) vals rows'
        ⟨vals.length, 0, f.data.unspec⟩ ∧
      ∀ j, InBox j (selShape (items index) f.shape) → (j ∈ rows' ↔ selSource (items index) f.shape j ∈ rows) := by
  obtain ⟨nix, st, off, L, es, vals, h1, h2, h3, h4, rfl, h6, h7, h8, h9, h10, h11⟩ :=
    slice_core h.rows_ok hp f.data mem hm h.size index hv hne
  refine ⟨vals, _, ⟨?_, .flatcoo (flatOf_rep _ _ h8 _ (by simpa using h7)), ?_, rfl, rfl, ?_, ?_⟩, h9⟩
  · simp only [Storage.getItem, h1, h2, h3, bind, Except.bind, h.getSlice_ok hp mem _ st off L vals h11 h4 h6 h7, pure,
      Except.pure]
  · simp [Buffer.WF]
  · exact fun j hj hm => (h9 j hj).1 hm
  · intro j hj
    rw [buffer_window_map _ _ _ rfl]
    exact h10 j hj

theorem csr_slice_lists2 {c : CSR V} {rows : List (List Int)} (h : c.Rep rows) (hp : PosShape c.shape)
    (mem : List V) (hm : c.data.WF mem) (index : Index) (hv : ValidItems (items index) c.shape)
    (hl : (selShape (items index) c.shape).length = 2) :
    ∃ vals rows', SparseSlice (.csr c) mem index rows c.data
        (.csr (csrOf (selShape (items index) c.shape) rows' ⟨vals.length, 0, c.data.unspec⟩)) vals rows'
        ⟨vals.length, 0, c.data.unspec⟩ ∧
      ∀ j, InBox j (selShape (items index) c.shape) → (j ∈ rows' ↔ selSource (items index) c.shape j ∈ rows) := by
  have hne : selShape (items index) c.shape ≠ [] := by intro he; rw [he] at hl; simp at hl
  obtain ⟨nix, st, off, L, es, vals, h1, h2, h3, h4, rfl, h6, h7, h8, h9, h10, h11⟩ :=
    slice_core h.rows_ok hp c.data mem hm h.size index hv hne
  refine ⟨vals, _, ⟨?_, .csr (csrOf_rep _ hl _ h8 _ (by simpa using h7)), ?_, rfl, rfl, ?_, ?_⟩, h9⟩
  · simp only [Storage.getItem, h1, h2, h3, bind, Except.bind, hl, h.getSlice2_ok mem _ st off L vals hl h8 h4 h6 h7,
      pure, Except.pure]
    rfl
  · simp [Buffer.WF]
  · exact fun j hj hm => (h9 j hj).1 hm
  · intro j hj
    rw [buffer_window_map _ _ _ rfl]
    exact h10 j hj

theorem csr_slice_lists1 {c : CSR V} {rows : List (List Int)} (h : c.Rep rows) (hp : PosShape c.shape)
    (mem : List V) (hm : c.data.WF mem) (index : Index) (hv : ValidItems (items index) c.shape)
    (hl : (selShape (items index) c.shape).length = 1) :
    ∃ vals rows', SparseSlice (.csr c) mem index rows c.data
        (.coo (cooOf (selShape (items index) c.shape) rows' ⟨vals.length, 0, c.data.unspec⟩)) vals rows'
        ⟨vals.length, 0, c.data.unspec⟩ ∧
      ∀ j, InBox j (selShape (items index) c.shape) →
        (j ∈ rows' ↔ lookup rows (c.data.window mem) c.data.unspec (selSource (items index) c.shape j) ≠ c.data.unspec) := by
  have hne : selShape (items index) c.shape ≠ [] := by intro he; rw [he] at hl; simp at hl
  have hcne : c.shape ≠ [] := by
    intro he
    rw [he] at hl
    simp [selShape_nil] at hl
  set f := fun ix => lookup rows (c.data.window mem) c.data.unspec ix with hf
  set K := keptRows c.shape f c.data.unspec with hK
  have hb := cooBuild_ok c.shape hcne (c.getElem mem) c.data.unspec c.data.unspec f
    (fun ix hi => csr_getElem h mem hm ix hi)
  simp only [subst_self] at hb
  have hKs : SortedRows c.shape K := keptRows_sorted _ _ _
  have hrep : (cooOf c.shape K (⟨K.length, 0, c.data.unspec⟩ : Buffer V)).Rep K := cooOf_rep _ hcne _ hKs _ rfl
  have hKm : Buffer.WF ⟨K.length, 0, c.data.unspec⟩ (K.map f) := by simp [Buffer.WF]
  obtain ⟨nix, st, off, L, es, vals, h1, h2, h3, h4, rfl, h6, h7, h8, h9, h10, h11⟩ :=
    slice_core hKs hp ⟨K.length, 0, c.data.unspec⟩ (K.map f) hKm rfl index hv hne
  have hs : ∀ j, InBox j (selShape (items index) c.shape) → InBox (selSource (items index) c.shape j) c.shape :=
    fun j hj => source_inBox hp hv hj
  refine ⟨vals, _, ⟨?_, .coo (cooOf_rep _ hne _ h8 _ (by simpa using h7)), ?_, rfl, rfl, ?_, ?_⟩, ?_⟩
  · have hg := hrep.getSlice_ok (K.map f) _ st off L vals hne h4 h6 h7
    simp only [Storage.getItem, h1, h2, h3, bind, Except.bind, hl, CSR.getSlice1, hb]
    simp only [← hK, hg, pure, Except.pure]
    rfl
  · simp [Buffer.WF]
  · intro j hj hmem
    have := (mem_keptRows _ _ _ _).1 ((h9 j hj).1 hmem)
    by_contra hc
    exact this.2 (lookup_none _ _ hc)
  · intro j hj
    rw [buffer_window_map _ _ _ rfl, h10 j hj, buffer_window_map _ _ _ (by simp)]
    exact lookup_kept c.shape f c.data.unspec _ (hs j hj)
  · intro j hj
    rw [h9 j hj, mem_keptRows]
    exact and_iff_right (hs j hj)

/-- C82.  A slice of a sparse storage holds the stored elements inside the selection, in the increasing order `l` of the indices
of the slice, in lists that are exactly as long as needed (C81).  A slice of a `CSR` with one axis is a `COO` of the elements
different from the unspecified value. -/
theorem C82_slice_lists (s : Storage V) (mem : List V) (h : s.WF mem) (hp : ∀ n ∈ s.shape, 0 < n) (index : Index)
    (hv : ValidItems (items index) s.shape) (shape : List Nat) (hsh : shape = selShape (items index) s.shape)
    (hne : shape ≠ []) (l : List (List Int)) (w : List Int → V)
    (hw : ∀ j ∈ l, Reads s mem (selSource (items index) s.shape j) (w j)) :
    (Spec.SliceLists l index s.shape (HasPlace s) →
      (s.cls = .coo → s.getItem mem index = .ok (.fresh (.coo (Spec.asCOO shape l s.unspec)) (l.map w))) ∧
      (s.cls = .flatcoo → s.getItem mem index = .ok (.fresh (.flatcoo (Spec.asFlatCOO shape l s.unspec)) (l.map w))) ∧
      (s.cls = .csr → ∀ n k, shape = [n, k] →
        s.getItem mem index = .ok (.fresh (.csr (Spec.asCSR n k l s.unspec)) (l.map w)))) ∧
    (s.cls = .csr → ∀ n, shape = [n] →
      Spec.SliceLists l index s.shape (fun ix => ∃ v, Reads s mem ix v ∧ v ≠ s.unspec) →
        s.getItem mem index = .ok (.fresh (.coo (Spec.asCOO shape l s.unspec)) (l.map w))) := by
  subst hsh
  have fin : ∀ {rows b r vals rows'} (hs : Sparse s rows b) (hm : b.WF mem)
      (g : SparseSlice s mem index rows b r vals rows' ⟨vals.length, 0, b.unspec⟩)
      (hg : ∀ j, InBox j (selShape (items index) s.shape) → (j ∈ rows' ↔ selSource (items index) s.shape j ∈ rows))
      (hl : Spec.SliceLists l index s.shape (HasPlace s)), rows' = l ∧ vals = l.map w ∧
        ∀ j ∈ l, InBox j (selShape (items index) s.shape) := fun hs hm g hg hl =>
    SparseSlice.lists hs hm hp hv g (p := HasPlace s) (fun j hj => by rw [hg j hj, hs.hasPlace]) hl hw
  refine ⟨fun hl => ⟨fun hc => ?_, fun hc => ?_, fun hc n k hnk => ?_⟩, fun hc n hn hl => ?_⟩
  · cases s with
    | coo c =>
      obtain ⟨⟨rows, hr⟩, hm⟩ := h
      obtain ⟨vals, rows', g, hg⟩ := coo_slice_lists hr hp mem hm index hv hne
      obtain ⟨rfl, rfl, hin⟩ := fin (.coo hr) hm g hg hl
      rw [g.eval, asCOO_eq, List.length_map]
      rfl
    | _ => simp [Storage.cls] at hc
  · cases s with
    | flatcoo f =>
      obtain ⟨⟨rows, hr⟩, hm⟩ := h
      obtain ⟨vals, rows', g, hg⟩ := flatcoo_slice_lists hr hp mem hm index hv hne
      obtain ⟨rfl, rfl, hin⟩ := fin (.flatcoo hr) hm g hg hl
      rw [g.eval, asFlatCOO_eq _ _ hin, List.length_map]
      rfl
    | _ => simp [Storage.cls] at hc
  · cases s with
    | csr c =>
      obtain ⟨⟨rows, hr⟩, hm⟩ := h
      have hnk' : selShape (items index) c.shape = [n, k] := hnk
      obtain ⟨vals, rows', g, hg⟩ := csr_slice_lists2 hr hp mem hm index hv (by rw [hnk']; rfl)
      obtain ⟨rfl, rfl, hin⟩ := fin (.csr hr) hm g hg hl
      rw [g.eval, asCSR_eq, List.length_map, hnk']
      rfl
    | _ => simp [Storage.cls] at hc
  · cases s with
    | csr c =>
      obtain ⟨⟨rows, hr⟩, hm⟩ := h
      have hn' : selShape (items index) c.shape = [n] := hn
      obtain ⟨vals, rows', g, hg⟩ := csr_slice_lists1 hr hp mem hm index hv (by rw [hn']; rfl)
      obtain ⟨rfl, rfl, hin⟩ := SparseSlice.lists (.csr hr) hm hp hv g (fun j hj => by
        have hi := source_inBox hp hv hj
        have e : lookup rows (c.data.window mem) c.data.unspec (selSource (items index) c.shape j) =
          (Storage.csr c).at mem (selSource (items index) c.shape j) := ((Sparse.csr hr).at mem hm _ hi).symm
        rw [hg j hj, e]
        constructor
        · exact fun h => ⟨_, ((Sparse.csr hr).wf mem hm).reads _ hi, h⟩
        · rintro ⟨v, h1, h2⟩
          have h3 : (Storage.csr c).at mem (selSource (items index) c.shape j) = v := h1.at_eq
          rw [h3]
          exact h2) hl hw
      rw [g.eval, asCOO_eq, List.length_map]
      rfl
    | _ => simp [Storage.cls] at hc

/-- C82, the number of items of a slice: the number of stored elements inside the selection, as each of them is at one index
of the slice only. -/
theorem C82_count (s : Storage V) (rows : List (List Int)) (hr : ∀ ix, ix ∈ rows ↔ HasPlace s ix) (index : Index) (l : List (List Int)) (hl : Spec.SliceLists l index s.shape (HasPlace s)) :
    l.length ≤ rows.length ∧ (l.map (selSource (items index) s.shape)).Nodup ∧
      ∀ ix, ix ∈ l.map (selSource (items index) s.shape) ↔
        ix ∈ rows ∧ ∃ j, InBox j (selShape (items index) s.shape) ∧ selSource (items index) s.shape j = ix := by
  have hnd : (l.map (selSource (items index) s.shape)).Nodup := by
    refine List.Nodup.map_on (fun a ha b hb e => ?_) (sorted_nodup hl.1)
    exact selSource_inj _ _ _ _ ((hl.2 a).1 ha).1 ((hl.2 b).1 hb).1 e
  have hmem : ∀ ix, ix ∈ l.map (selSource (items index) s.shape) ↔
        ix ∈ rows ∧ ∃ j, InBox j (selShape (items index) s.shape) ∧ selSource (items index) s.shape j = ix := by
    intro ix
    rw [List.mem_map]
    constructor
    · rintro ⟨j, hj, rfl⟩
      obtain ⟨h1, h2⟩ := (hl.2 j).1 hj
      exact ⟨(hr _).2 h2, j, h1, rfl⟩
    · rintro ⟨h1, j, h2, rfl⟩
      exact ⟨j, (hl.2 j).2 ⟨h2, (hr _).1 h1⟩, rfl⟩
  refine ⟨?_, hnd, hmem⟩
  have := (List.subperm_of_subset hnd fun ix hx => ((hmem ix).1 hx).1).length_le
  simpa using this

/-- A case of C82: `[::-1, 1:]` of a `COO`, a `FlatCOO` and a `CSR`, and a row of the `CSR`. -/
example :
    (Storage.coo sampleCOO).getItem sampleItems turned =
      .ok (.fresh (.coo (Spec.asCOO [2, 2] [[0, 0], [1, 1]] none)) [some 5, some 3]) ∧
    (Storage.flatcoo sampleFlat).getItem sampleItems turned =
      .ok (.fresh (.flatcoo (Spec.asFlatCOO [2, 2] [[0, 0], [1, 1]] none)) [some 5, some 3]) ∧
    (Storage.csr sampleCSR).getItem sampleItems turned =
      .ok (.fresh (.csr (Spec.asCSR 2 2 [[0, 0], [1, 1]] none)) [some 5, some 3]) ∧
    (Storage.csr sampleCSR).getItem sampleItems (.one (.int 0)) =
      .ok (.fresh (.coo (Spec.asCOO [3] [[0], [2]] none)) [some 1, some 3]) := by
  decide +kernel

end Gcs
