import Verif.Props.SettingDM
import Verif.Props.Observing

/-!
# C57, C58: assignments of values that do not have the shape of the selection
-/

namespace Gcs

open Spec

variable {V : Type}

/-! ## C57 -/

theorem writeAll_fail {P : Type} (write1 : List V → P → V → Wr V) (valueAt : List V → List Int → PyM V) (e : PyErr)
    (l : List (List Int × P)) (mem : List V) (hf : ∀ x ∈ l, valueAt mem x.1 = .error e) :
    (l = [] → writeAll write1 valueAt l mem = ⟨mem, none⟩) ∧
    (l ≠ [] → writeAll write1 valueAt l mem = ⟨mem, some e⟩) := by
  cases l with
  | nil => exact ⟨fun _ => rfl, fun h => absurd rfl h⟩
  | cons x l =>
    refine ⟨fun h => by simp at h, fun _ => ?_⟩
    obtain ⟨vi, p⟩ := x
    simp only [writeAll, hf (vi, p) (by simp)]

/-- An index that keeps an axis gives no empty index into the value. -/
theorem ne_nil_of_inBox {j : List Int} {shape : List Nat} (hne : shape ≠ []) (h : InBox j shape) : j ≠ [] := by
  rintro rfl
  cases shape with
  | nil => exact hne rfl
  | cons => exact h.elim

theorem scalar_fails (v : V) {j : List Int} (hj : j ≠ []) : (Nested.leaf v).getValue j = .error .assertion := by
  cases j with
  | nil => exact absurd rfl hj
  | cons => rfl

/-- The writes of an assignment to a sparse storage with an index that keeps an axis. -/
theorem Sparse.setItem_plan {s : Storage V} {rows : List (List Int)} {b : Buffer V} (h : Sparse s rows b)
    (hp : PosShape s.shape) (mem : List V) (index : Index) (hv : ValidItems (items index) s.shape)
    (hne : selShape (items index) s.shape ≠ []) :
    ∃ L : List (List Int × Int), (∀ j, (∃ p, (j, p) ∈ L) ↔ InBox j (selShape (items index) s.shape) ∧
        selSource (items index) s.shape j ∈ rows) ∧
      ∀ valueAt, s.setItem mem index valueAt = writeAll b.write1 valueAt L mem := by
  obtain ⟨nix, st, off, L, h1, h2, h3, h4, h5, h6, _⟩ := sliceEntries_ok (withPos rows) s.shape hp
    (by
      intro e he
      obtain ⟨q, hq, e1, _⟩ := (mem_withPos e.1 e.2).1 he
      rw [← e1]
      exact h.rows_ok.inbox _ (List.getElem_mem hq))
    (by rw [withPos_fst]; exact h.rows_ok.nodup) index hv hne
  refine ⟨L, ?_, fun valueAt => ?_⟩
  · intro j
    constructor
    · rintro ⟨p, hjp⟩
      obtain ⟨g1, g2⟩ := (h5 j p).1 hjp
      obtain ⟨q, hq, e1, _⟩ := (mem_withPos _ _).1 g2
      exact ⟨g1, e1 ▸ List.getElem_mem hq⟩
    · rintro ⟨g1, g2⟩
      obtain ⟨q, hq, e1⟩ := List.getElem_of_mem g2
      exact ⟨(q : Int), (h5 j q).2 ⟨g1, (mem_withPos _ _).2 ⟨q, hq, e1, rfl⟩⟩⟩
  · cases h with
    | coo h =>
      simp only [Storage.shape] at h1 h3 h4
      simp only [Storage.setItem, Storage.setPlan, h1, h3, h.entries_ok, bind, Except.bind, h4]
    | flatcoo h =>
      simp only [Storage.shape] at h1 h3 h4 hp
      simp only [Storage.setItem, Storage.setPlan, h1, h3, h.entries_ok hp, bind, Except.bind, h4]
    | csr h =>
      simp only [Storage.shape] at h1 h3 h4
      simp only [Storage.setItem, Storage.setPlan, h1, h3, h.entries_ok, bind, Except.bind, h4]

/-- C57.  `s[index] = v` with a scalar `v` and an index that keeps an axis: there is no broadcasting.  The assignment
raises an `AssertionError` and writes nothing when a selected element is stored; when none is, nothing happens. -/
theorem C57_no_broadcast (s : Storage V) (mem : List V) (h : s.WF mem) (hp : ∀ n ∈ s.shape, 0 < n) (index : Index)
    (hv : ValidItems (items index) s.shape) (hne : selShape (items index) s.shape ≠ []) (v : V) :
    ((∃ j, InBox j (selShape (items index) s.shape) ∧ HasPlace s (selSource (items index) s.shape j)) →
      s.assign mem index (.leaf v) = ⟨mem, some .assertion⟩) ∧
    (s.cls ≠ .buffer →
      (∀ j, InBox j (selShape (items index) s.shape) → ¬ HasPlace s (selSource (items index) s.shape j)) →
      s.assign mem index (.leaf v) = ⟨mem, none⟩) := by
  have sparse : ∀ {rows b}, Sparse s rows b →
      ((∃ j, InBox j (selShape (items index) s.shape) ∧ HasPlace s (selSource (items index) s.shape j)) →
        s.assign mem index (.leaf v) = ⟨mem, some .assertion⟩) ∧
      (s.cls ≠ .buffer →
        (∀ j, InBox j (selShape (items index) s.shape) → ¬ HasPlace s (selSource (items index) s.shape j)) →
        s.assign mem index (.leaf v) = ⟨mem, none⟩) := by
    intro rows b hs
    obtain ⟨L, hL, he⟩ := hs.setItem_plan hp mem index hv hne
    have hf := writeAll_fail b.write1 (fun _ vi => (Nested.leaf v).getValue vi) .assertion L mem (by
      intro x hx
      exact scalar_fails v (ne_nil_of_inBox hne ((hL x.1).1 ⟨x.2, hx⟩).1))
    simp only [Storage.assign, he, hs.hasPlace]
    refine ⟨fun ⟨j, h1, h2⟩ => hf.2 ?_, fun _ hno => hf.1 ?_⟩
    · obtain ⟨p, hjp⟩ := (hL j).2 ⟨h1, h2⟩
      exact List.ne_nil_of_mem hjp
    · apply List.eq_nil_iff_forall_not_mem.2
      intro x hx
      obtain ⟨g1, g2⟩ := (hL x.1).1 ⟨x.2, hx⟩
      exact hno x.1 g1 g2
  cases s with
  | coo c => obtain ⟨⟨rows, hr⟩, _⟩ := h; exact sparse (.coo hr)
  | flatcoo c => obtain ⟨⟨rows, hr⟩, _⟩ := h; exact sparse (.flatcoo hr)
  | csr c => obtain ⟨⟨rows, hr⟩, _⟩ := h; exact sparse (.csr hr)
  | buffer b =>
    refine ⟨fun _ => ?_, fun hc => absurd rfl hc⟩
    simp only [Storage.shape] at hne
    match index, hne with
    | .one (.int i), hne => simp [items, selShape] at hne
    | .tuple [.int i], hne => simp [items, selShape] at hne
    | .one .none, _ => rfl
    | .one .other, _ => rfl
    | .one (.slice _), _ => rfl
    | .tuple [], _ => rfl
    | .tuple [.none], _ => rfl
    | .tuple [.other], _ => rfl
    | .tuple [.slice _], _ => rfl
    | .tuple (a :: _ :: _), _ => cases a <;> rfl
  | strided s =>
    have h : s.WF mem := h
    simp only [Storage.shape] at hp hv hne ⊢
    obtain ⟨nix, st, off, h1, h2, h3, h4, h5⟩ := index_ok index s.shape s.strides hp hv h.len
    have he : ∀ valueAt, (Storage.strided s).setItem mem index valueAt = writeAll s.data.write1 valueAt
        ((indexProduct (selShape (items index) s.shape)).map fun j => (j, off + address j st)) mem := by
      intro valueAt
      simp only [Storage.setItem, Strided.setItem, h1, h3, bind, Except.bind, Strided.sliceEntries_ok _ st off h4]
    have hf := writeAll_fail s.data.write1 (fun _ vi => (Nested.leaf v).getValue vi) .assertion
      ((indexProduct (selShape (items index) s.shape)).map fun j => (j, off + address j st)) mem (by
      intro x hx
      obtain ⟨j, hj, rfl⟩ := List.mem_map.1 hx
      exact scalar_fails v (ne_nil_of_inBox hne ((mem_indexProduct _ _).1 hj)))
    simp only [Storage.assign, he]
    refine ⟨fun ⟨j, g1, _⟩ => hf.2 ?_, fun _ hno => hf.1 ?_⟩
    · exact List.ne_nil_of_mem (List.mem_map.2 ⟨j, (mem_indexProduct _ _).2 g1, rfl⟩)
    · apply List.eq_nil_iff_forall_not_mem.2
      intro x hx
      obtain ⟨j, hj, rfl⟩ := List.mem_map.1 hx
      have hj := (mem_indexProduct _ _).1 hj
      exact hno j hj (h5 j hj).1
  | dm m d =>
    obtain ⟨hm, hd⟩ := h
    simp only [Storage.shape] at hp hv hne ⊢
    obtain ⟨L, hL, g2, _, _⟩ := dm_plan hm hp index hv hne
    have hf := writeAll_fail
      (fun mem rindex v => d.setItem mem (.tuple (rindex.map .int)) (fun _ _ => .ok v))
      (fun _ vi => (Nested.leaf v).getValue vi) .assertion
      (L.map fun j => (j, target m.rdims m.rstrides m.roffset (selSource (items index) m.shape j))) mem (by
      intro x hx
      obtain ⟨j, hj, rfl⟩ := List.mem_map.1 hx
      exact scalar_fails v (ne_nil_of_inBox hne ((g2 j).1 hj)))
    simp only [Storage.assign, Storage.setItem, hL]
    refine ⟨fun ⟨j, g1, _⟩ => hf.2 ?_, fun _ hno => hf.1 ?_⟩
    · exact List.ne_nil_of_mem (List.mem_map.2 ⟨j, (g2 j).2 g1, rfl⟩)
    · apply List.eq_nil_iff_forall_not_mem.2
      intro x hx
      obtain ⟨j, hj, rfl⟩ := List.mem_map.1 hx
      exact hno j ((g2 j).1 hj) (source_inBox hp hv ((g2 j).1 hj))

/-- Cases of C57: `s[1] = 7` for a `Strided`, a `CSR`, a `DM`, and `s[1, 1:2] = 7` for a `COO` that has nothing there. -/
example : (Storage.strided sampleStrided).assign sampleCells (.one (.int 1)) (.leaf (some 7)) = ⟨sampleCells, some .assertion⟩ ∧
    (Storage.csr sampleCSR).assign sampleItems (.one (.int 1)) (.leaf (some 7)) = ⟨sampleItems, some .assertion⟩ ∧
    (Storage.dm sampleDM (.strided sampleStrided)).assign sampleCells (.one (.int 1)) (.leaf (some 7))
      = ⟨sampleCells, some .assertion⟩ ∧
    (Storage.coo sampleCOO).assign sampleItems (.tuple [.int 1, .slice ⟨some 0, some 1, none⟩]) (.leaf (some 7))
      = ⟨sampleItems, none⟩ := by
  decide +kernel

/-! ## C58 -/

/-- The index with every item taken modulo the size of its axis. -/
def Spec.wrapped (j : List Int) (shape : List Nat) : List Int := List.zipWith (fun i (n : Nat) => i % (n : Int)) j shape

theorem normalizeItems_wrapped (j : List Int) (shape : List Nat) (hp : ∀ n ∈ shape, 0 < n) (hl : j.length = shape.length) :
    normalizeItems (j.map .int) shape = normalizeItems ((wrapped j shape).map .int) shape := by
  induction j generalizing shape with
  | nil => cases shape with
    | nil => rfl
    | cons => simp at hl
  | cons i j ih => cases shape with
    | nil => simp at hl
    | cons n shape =>
      have hn : 0 < n := hp n (by simp)
      have e1 := pyMod_pos i n (by omega)
      have e2 := pyMod_pos (i % (n : Int)) n (by omega)
      rw [Int.emod_emod_of_dvd i (Int.dvd_refl _)] at e2
      simp only [wrapped, List.zipWith_cons_cons, List.map_cons, normalizeItems, e1, e2]
      rw [ih shape (fun m hm => hp m (by simp [hm])) (by simpa using hl)]
      rfl

theorem wrapped_inBox (j : List Int) (shape : List Nat) (hp : ∀ n ∈ shape, 0 < n) (hl : j.length = shape.length) :
    InBox (wrapped j shape) shape := by
  induction j generalizing shape with
  | nil => cases shape with
    | nil => trivial
    | cons => simp at hl
  | cons i j ih => cases shape with
    | nil => simp at hl
    | cons n shape =>
      have hn : 0 < n := hp n (by simp)
      exact ⟨⟨Int.emod_nonneg _ (by omega), Int.emod_lt_of_pos _ (by omega)⟩,
        ih shape (fun m hm => hp m (by simp [hm])) (by simpa using hl)⟩

theorem getVal_wrapped [DecidableEq V] {t : Storage V} {mem : List V} (h : t.WF mem) (hb : t.cls ≠ .buffer)
    (hp : ∀ n ∈ t.shape, 0 < n) (j : List Int) (hl : j.length = t.shape.length) :
    t.getVal mem j = .ok (t.at mem (wrapped j t.shape)) := by
  have hw := h.getVal_ok _ (wrapped_inBox j t.shape hp hl)
  rw [← hw]
  have e := normalizeItems_wrapped j t.shape hp hl
  cases t with
  | buffer b => exact absurd rfl hb
  | strided s => simp only [Storage.shape] at e; simp only [Storage.getVal, Storage.getItem, Strided.getItem, normalizeIndex, Storage.shape, e]
  | coo c => simp only [Storage.shape] at e; simp only [Storage.getVal, Storage.getItem, normalizeIndex, Storage.shape, e]
  | flatcoo c => simp only [Storage.shape] at e; simp only [Storage.getVal, Storage.getItem, normalizeIndex, Storage.shape, e]
  | csr c => simp only [Storage.shape] at e; simp only [Storage.getVal, Storage.getItem, normalizeIndex, Storage.shape, e]
  | dm m d => simp only [Storage.shape] at e; simp only [Storage.getVal, Storage.getItem, normalizeIndex, Storage.shape, e]

/-- C58.  The shape of a storage `t` that is assigned is not compared with the shape of the selection: when it has the
same number of axes, and is no `Buffer`, its elements are repeated (or only the first ones used), since reading takes
ints modulo the size of the axis. -/
theorem C58_assign_wraps [DecidableEq V] (s : Strided V) (mem : List V) (h : s.WF mem)
    (hd : DistinctAddresses s.shape s.strides) (hp : ∀ n ∈ s.shape, 0 < n) (index : Index)
    (hv : ValidItems (items index) s.shape) (hne : selShape (items index) s.shape ≠ []) (t : Storage V) (tmem : List V)
    (ht : t.WF tmem) (hb : t.cls ≠ .buffer) (htp : ∀ n ∈ t.shape, 0 < n)
    (hts : t.shape.length = (selShape (items index) s.shape).length) :
    ∃ mem', (Storage.strided s).assignStore mem index t tmem = ⟨mem', none⟩ ∧ mem'.length = mem.length ∧
      Assigned (.strided s) mem mem' index (fun j v => Reads t tmem (wrapped j t.shape) v) := by
  obtain ⟨mem', g1, g2, g3, _⟩ := strided_assigned h hd hp hv
    (fun _ vi => if vi = [] then .error .type else t.getVal tmem vi) (fun j => t.at tmem (wrapped j t.shape)) (by
      intro m _ j hj
      simp only [ne_nil_of_inBox hne hj, if_false]
      exact getVal_wrapped ht hb htp j (by rw [hts]; exact hj.length_eq))
  exact ⟨mem', g1, g2, ⟨fun j v hj hr => g3.1 j v hj hr.at_eq.symm, g3.2⟩⟩

/-- A case of C58: all of a 2x3 array is assigned a 1x2 array. -/
example : (let t : Strided (Option Int) := ⟨[1, 2], [2, 1], ⟨2, 0, none⟩⟩
    (Storage.strided sampleStrided).assignStore sampleCells (.one .none) (.strided t) [some 7, some 8]
      = ⟨[some 7, some 8, some 7, some 7, some 8, some 7], none⟩) := by
  decide +kernel

/-- A `Buffer` is not wrapped: a value that is a window of two items of a list of three is read beyond its end. -/
example : (let s : Strided (Option Int) := ⟨[3], [1], ⟨3, 0, none⟩⟩
    let t : Buffer (Option Int) := ⟨2, 0, none⟩
    (Storage.strided s).assignStore [none, none, none] (.one .none) (.buffer t) [some 7, some 8, some 9]
      = ⟨[some 7, some 8, some 9], none⟩) := by
  decide +kernel

end Gcs
