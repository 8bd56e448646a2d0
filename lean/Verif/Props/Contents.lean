import Verif.Props.Construct
import Verif.Props.Positions
import Verif.Props.Observing
import Verif.Props.Fullness

/-!
# C81: what the lists of an object hold, and how many items

`GentleIntroductionToGCS.md` describes the lists that the storage formats hold.  Here they are compared with what
`fromobject` makes, list by list.
-/

namespace Gcs

open Spec

variable {V : Type} [DecidableEq V] [HasNone V]

/-! ### Specification -/

/-- `src` is an array of the given shape with the elements `a`. -/
def Spec.IsArray (src : Src V) (shape : List Nat) (a : List Int → V) : Prop :=
  match src with
  | .nested n => HasShape n shape ∧ ∀ ix v, item n ix = some v → a ix = v
  | .store s mem => s.WF mem ∧ s.shape = shape ∧ ∀ ix, InBox ix shape → Reads s mem ix (a ix)

/-- `fromobject` returns its argument, or copies the stored indices of a `COO` or `FlatCOO`. -/
def Spec.Shortcut (cls : Cls) (src : Src V) (unspec : Option V) : Prop :=
  unspec = none ∧
  match src with
  | .nested _ => False
  | .store s _ =>
    match s.cls, cls with
    | .buffer, .buffer | .strided, .strided => True
    | .coo, .coo | .coo, .flatcoo | .coo, .csr => True
    | .flatcoo, .coo | .flatcoo, .flatcoo | .flatcoo, .csr => True
    | _, _ => False

/-- `l` lists the indices of the box where `w` is not `u`, in increasing order. -/
def Spec.Lists (l : List (List Int)) (shape : List Nat) (w : List Int → V) (u : V) : Prop :=
  l.Pairwise lexLt ∧ ∀ ix, ix ∈ l ↔ InBox ix shape ∧ w ix ≠ u

/-- Each axis counts the elements of the axes after it. -/
def Spec.steps : List Nat → List Int
  | [] => []
  | _ :: shape => (count shape : Int) :: steps shape

/-- The coordinates, one axis after the other. -/
def Spec.coordinates (d : Nat) (l : List (List Int)) : List (Option Int) :=
  (List.range d).flatMap fun j => l.map fun ix => some (ix.getD j 0)

/-- A `COO` with the indices `l`. -/
def Spec.asCOO (shape : List Nat) (l : List (List Int)) (u : V) : COO V :=
  ⟨shape, ⟨[shape.length, l.length], [(l.length : Int), 1], ⟨shape.length * l.length, 0, none⟩⟩,
    coordinates shape.length l, ⟨l.length, 0, u⟩⟩

/-- A `FlatCOO` with the indices `l`: the row-major positions. -/
def Spec.asFlatCOO (shape : List Nat) (l : List (List Int)) (u : V) : FlatCOO V :=
  ⟨shape, ⟨l.length, 0, none⟩, l.map fun ix => some (rowMajor ix shape 0), ⟨l.length, 0, u⟩⟩

/-- A `CSR` of `n` rows and `k` columns with the indices `l`: item `i` of the row pointers is the number of indices in
the rows before `i`. -/
def Spec.asCSR (n k : Nat) (l : List (List Int)) (u : V) : CSR V :=
  ⟨[n, k], ⟨n + 1, 0, none⟩,
    (List.range (n + 1)).map fun (i : Nat) => some ((l.countP fun ix => decide (ix.getD 0 0 < (i : Int)) : Nat) : Int),
    ⟨l.length, 0, none⟩, l.map fun ix => some (ix.getD 1 0), ⟨l.length, 0, u⟩⟩

/-- The number of items of all lists of an object. -/
def Spec.cells : Storage V → List V → Nat
  | .buffer _, mem => mem.length
  | .strided _, mem => mem.length
  | .coo c, mem => c.imem.length + mem.length
  | .flatcoo f, mem => f.fmem.length + mem.length
  | .csr c, mem => c.crowMem.length + c.colMem.length + mem.length
  | .dm _ d, mem => Spec.cells d mem

/-! ### The forms agree -/

theorem sorted_unique {l l' : List (List Int)} (h : l.Pairwise lexLt) (h' : l'.Pairwise lexLt)
    (he : ∀ ix, ix ∈ l ↔ ix ∈ l') : l = l' :=
  List.Perm.eq_of_pairwise (le := lexLt) (fun _ _ _ _ h1 h2 => (lexLt_asymm h1 h2).elim) h h'
    ((List.perm_ext_iff_of_nodup (sorted_nodup h) (sorted_nodup h')).2 he)

omit [HasNone V] in
theorem Spec.Lists.eq {l : List (List Int)} {shape : List Nat} {w : List Int → V} {u : V} (h : Spec.Lists l shape w u) :
    l = keptRows shape w u :=
  sorted_unique h.1 (keptRows_sorted shape w u).sorted fun ix => by rw [h.2, mem_keptRows]

theorem steps_eq (shape : List Nat) : Spec.steps shape = makeStrides shape := by
  induction shape with
  | nil => rfl
  | cons n shape ih => rw [Spec.steps, ih, count_eq, makeStrides_cons]

theorem coordinates_eq (d : Nat) (l : List (List Int)) : Spec.coordinates d l = imemOf d l := by
  have h : indexProduct [d, l.length] = (List.range d).flatMap fun (j : Nat) =>
      (List.range l.length).map fun (p : Nat) => [(j : Int), (p : Int)] := by
    simp only [indexProduct, List.map_cons, List.map_nil]
    congr 1
    funext j
    rw [List.map_flatMap, List.flatMap_def]
    induction List.range l.length with
    | nil => rfl
    | cons a t ih => simpa using ih
  rw [imemOf, h, Spec.coordinates, List.map_flatMap]
  congr 1
  funext j
  rw [List.map_map]
  apply List.ext_getElem (by simp)
  intro p h1 h2
  simp at h1
  simp [List.getD_eq_getElem?_getD, h1]

omit [DecidableEq V] [HasNone V] in
theorem asCOO_eq (shape : List Nat) (l : List (List Int)) (u : V) :
    Spec.asCOO shape l u = cooOf shape l ⟨l.length, 0, u⟩ := by
  simp [Spec.asCOO, cooOf, coordinates_eq, indicesOf, makeStrides_cons, product]
  rfl

omit [DecidableEq V] [HasNone V] in
theorem asFlatCOO_eq (shape : List Nat) (l : List (List Int)) (hl : ∀ ix ∈ l, InBox ix shape) (u : V) :
    Spec.asFlatCOO shape l u = flatOf shape l ⟨l.length, 0, u⟩ := by
  simp only [Spec.asFlatCOO, flatOf, fmemOf, FlatCOO.mk.injEq, and_true, true_and]
  apply List.map_congr_left
  intro ix hx
  rw [rowMajor_address ix shape (hl ix hx)]

omit [DecidableEq V] [HasNone V] in
theorem asCSR_eq (n k : Nat) (l : List (List Int)) (u : V) :
    Spec.asCSR n k l u = csrOf [n, k] l ⟨l.length, 0, u⟩ := by
  simp [Spec.asCSR, csrOf, below, firsts, List.countP_eq_length_filter, List.filter_map, Function.comp_def]

/-! ### The general branch -/

theorem Spec.IsArray.srcOk {src : Src V} {shape : List Nat} {a : List Int → V} (h : Spec.IsArray src shape a)
    (hne : shape ≠ []) : ∃ b, SrcOk src shape b ∧ ∀ ix, InBox ix shape → b ix = a ix := by
  cases src with
  | nested n =>
    refine ⟨_, SrcOk.nested h.1, fun ix hi => ?_⟩
    obtain ⟨v, hv⟩ := (h.1.item_iff ix).2 hi
    rw [itemD, hv, h.2 ix v hv]
    rfl
  | store s mem =>
    obtain ⟨h1, rfl, h3⟩ := h
    exact ⟨_, SrcOk.store h1 hne, fun ix hi => (h3 ix hi).at_eq⟩

theorem fromObject_general {cls : Cls} {src : Src V} {unspec : Option V} (h : ¬ Spec.Shortcut cls src unspec)
    (hd : cls ≠ .dm) : fromObject cls src unspec = (do
      let r ← buildFlat cls src.shape src.getValue src.unspec (unspec.getD src.unspec)
      return .fresh r.1 r.2) := by
  cases unspec with
  | some u => cases cls <;> first | rfl | exact absurd rfl hd
  | none =>
    cases src with
    | nested n => cases cls <;> first | rfl | exact absurd rfl hd
    | store s mem =>
      cases s <;> cases cls <;> first | rfl | exact absurd rfl hd | exact absurd ⟨rfl, trivial⟩ h

/-- The elements with the new unspecified value. -/
theorem keptRows_congr {shape : List Nat} {f g : List Int → V} {u : V} (h : ∀ ix, InBox ix shape → f ix = g ix) :
    keptRows shape f u = keptRows shape g u :=
  List.filter_congr fun ix hx => by rw [h ix ((mem_indexProduct shape ix).1 hx)]

/-- The lists that the loops over all indices make. -/
theorem buildFlat_lists (shape : List Nat) (hne : shape ≠ []) (value : List Int → PyM V) (b : List Int → V) (su u : V)
    (hv : ∀ ix, InBox ix shape → value ix = .ok (b ix)) (w : List Int → V)
    (hw : ∀ ix, InBox ix shape → w ix = if b ix = su then u else b ix) (l : List (List Int)) (hl : Spec.Lists l shape w u) :
    buildFlat .coo shape value su u = .ok (.coo (Spec.asCOO shape l u), l.map w) ∧
    buildFlat .flatcoo shape value su u = .ok (.flatcoo (Spec.asFlatCOO shape l u), l.map w) ∧
    (∀ n k, shape = [n, k] → l ≠ [] → buildFlat .csr shape value su u = .ok (.csr (Spec.asCSR n k l u), l.map w)) ∧
    buildFlat .strided shape value su u =
      .ok (.strided ⟨shape, Spec.steps shape, ⟨count shape, 0, u⟩⟩, (indexProduct shape).map w) := by
  have e : ∀ ix, InBox ix shape → subst su u (b ix) = w ix := by
    intro ix hi
    rw [hw ix hi]
    rfl
  have ek := keptRows_congr (u := u) e
  have hin : ∀ ix ∈ l, InBox ix shape := fun ix hx => ((hl.2 ix).1 hx).1
  have em : (keptRows shape (fun ix => subst su u (b ix)) u).map (fun ix => subst su u (b ix)) = l.map w := by
    rw [ek, ← hl.eq]
    exact List.map_congr_left fun ix hx => e ix (hin ix hx)
  rw [← hl.eq] at ek
  refine ⟨?_, ?_, fun n k hnk hlne => ?_, ?_⟩
  · simp only [buildFlat, cooBuild_ok _ hne _ su u b hv, bind, Except.bind, pure, Except.pure]
    rw [em, ek, asCOO_eq]
  · simp only [buildFlat, flatBuild_ok _ _ su u b hv, bind, Except.bind, pure, Except.pure]
    rw [em, ek, asFlatCOO_eq _ _ hin]
  · have hr := cooOf_rep shape hne l ⟨hl.1, hin⟩ (⟨l.length, 0, u⟩ : Buffer V) rfl
    simp only [buildFlat, csrBuild, cooBuild_ok _ hne _ su u b hv, bind, Except.bind, pure, Except.pure]
    rw [em, ek, cooToCsr_ok hr hlne (by simp [cooOf, hnk]) _ (by simp [cooOf, Buffer.WF])]
    simp only [cooOf]
    rw [buffer_window_map _ _ _ (by simp), asCSR_eq, hnk]
  · simp only [buildFlat, stridedBuild_ok _ _ su u b hv, bind, Except.bind, pure, Except.pure]
    rw [steps_eq, count_eq]
    congr 2
    exact List.map_congr_left fun ix hx => e ix ((mem_indexProduct shape ix).1 hx)

/-- C81, sparse classes.  `fromobject` of an array (other than the shortcuts) keeps the elements different from the
unspecified value `u`, in increasing order of the indices `l`: their values in one list, and the coordinates of `l` axis by
axis (`COO`), the row-major positions (`FlatCOO`), or the columns and for each row the number of elements before it (`CSR`). -/
theorem C81_sparse (src : Src V) (shape : List Nat) (a : List Int → V) (h : Spec.IsArray src shape a) (hne : shape ≠ [])
    (unspec : Option V) (u : V) (hu : u = unspec.getD src.unspec) (w : List Int → V)
    (hw : ∀ ix, InBox ix shape → w ix = if a ix = src.unspec then u else a ix)
    (l : List (List Int)) (hl : Spec.Lists l shape w u) :
    (¬ Spec.Shortcut .coo src unspec →
      fromObject .coo src unspec = .ok (.fresh (.coo (Spec.asCOO shape l u)) (l.map w))) ∧
    (¬ Spec.Shortcut .flatcoo src unspec →
      fromObject .flatcoo src unspec = .ok (.fresh (.flatcoo (Spec.asFlatCOO shape l u)) (l.map w))) ∧
    ∀ n k, shape = [n, k] → l ≠ [] → ¬ Spec.Shortcut .csr src unspec →
      fromObject .csr src unspec = .ok (.fresh (.csr (Spec.asCSR n k l u)) (l.map w)) := by
  obtain ⟨b, ⟨hs, hv⟩, hb⟩ := h.srcOk hne
  subst hu
  generalize hu : unspec.getD src.unspec = u at *
  obtain ⟨k1, k2, k3, _⟩ := buildFlat_lists shape hne _ b src.unspec u hv w (fun ix hi => by rw [hw ix hi, hb ix hi]) l hl
  refine ⟨fun hsc => ?_, fun hsc => ?_, fun n k hnk hlne hsc => ?_⟩
  · rw [fromObject_general hsc (by simp), hs, hu, k1]
    rfl
  · rw [fromObject_general hsc (by simp), hs, hu, k2]
    rfl
  · rw [fromObject_general hsc (by simp), hs, hu, k3 n k hnk hlne]
    rfl

/-- C81, dense classes.  `Strided` and `Buffer` hold all elements in row-major order. -/
theorem C81_dense (src : Src V) (shape : List Nat) (a : List Int → V) (h : Spec.IsArray src shape a) (hne : shape ≠ [])
    (unspec : Option V) (u : V) (hu : u = unspec.getD src.unspec) (w : List Int → V)
    (hw : ∀ ix, InBox ix shape → w ix = if a ix = src.unspec then u else a ix) :
    ∃ mem : List V, mem.length = count shape ∧
      (∀ ix, InBox ix shape → mem[(rowMajor ix shape 0).toNat]? = some (w ix)) ∧
      (¬ Spec.Shortcut .strided src unspec →
        fromObject .strided src unspec = .ok (.fresh (.strided ⟨shape, Spec.steps shape, ⟨count shape, 0, u⟩⟩) mem)) ∧
      ∀ n, shape = [n] → ¬ Spec.Shortcut .buffer src unspec →
        fromObject .buffer src unspec = .ok (.fresh (.buffer ⟨n, 0, u⟩) mem) := by
  obtain ⟨b, ⟨hs, hv⟩, hb⟩ := h.srcOk hne
  subst hu
  generalize hu : unspec.getD src.unspec = u at *
  have e : ∀ ix, InBox ix shape → subst src.unspec u (b ix) = w ix := by
    intro ix hi
    rw [hw ix hi, hb ix hi]
    rfl
  refine ⟨(indexProduct shape).map fun ix => subst src.unspec u (b ix), ?_, fun ix hi => ?_, fun hsc => ?_,
    fun n hn hsc => ?_⟩
  · simp [indexProduct_length, count_eq]
  · rw [rowMajor_address ix shape hi, List.getElem?_map, indexProduct_at shape ix hi, ← e ix hi]
    rfl
  · rw [fromObject_general hsc (by simp), hs, hu]
    simp only [buildFlat, stridedBuild_ok _ _ src.unspec u b hv, bind, Except.bind, pure, Except.pure]
    rw [steps_eq, count_eq]
  · rw [fromObject_general hsc (by simp), hs, hu]
    simp only [buildFlat, bufferBuild_ok _ _ src.unspec u b hv, bind, Except.bind, pure, Except.pure]
    rw [hn]
    simp [product]

omit [HasNone V] in
/-- The values of a sparse object, in the order of its indices. -/
theorem Sparse.window_map {s : Storage V} {rows : List (List Int)} {b : Buffer V} (h : Sparse s rows b) (mem : List V)
    (hm : b.WF mem) (w : List Int → V) (hw : ∀ ix ∈ rows, Reads s mem ix (w ix)) : b.window mem = rows.map w := by
  have hl := b.window_length mem hm
  apply List.ext_getElem (by simp [hl, h.size])
  intro p h1 h2
  have hp : p < rows.length := by simpa using h2
  have hi := h.rows_ok.inbox _ (List.getElem_mem hp)
  have e := (hw _ (List.getElem_mem hp)).at_eq
  rw [h.at mem hm _ hi, lookup_at (sorted_nodup h.rows_ok.sorted) _ _ p hp] at e
  rw [List.getElem_map, ← e, List.getD_eq_getElem?_getD, List.getElem?_eq_getElem h1]
  rfl

/-- C81, the shortcuts.  Between the sparse classes `fromobject` takes over all stored indices `l`, also those of elements
equal to the unspecified value. -/
theorem C81_stored (s : Storage V) (mem : List V) (h : s.WF mem) (hne : s.shape ≠ []) (l : List (List Int))
    (hl : l.Pairwise lexLt) (hp : ∀ ix, ix ∈ l ↔ HasPlace s ix) (w : List Int → V) (hw : ∀ ix ∈ l, Reads s mem ix (w ix)) :
    (s.cls = .coo → fromObject .flatcoo (.store s mem) none =
      .ok (.fresh (.flatcoo (Spec.asFlatCOO s.shape l s.unspec)) (l.map w))) ∧
    (s.cls = .flatcoo → (∀ n ∈ s.shape, 0 < n) → fromObject .coo (.store s mem) none =
      .ok (.fresh (.coo (Spec.asCOO s.shape l s.unspec)) (l.map w))) ∧
    (s.cls = .coo ∨ s.cls = .flatcoo → ∀ n k, s.shape = [n, k] → l ≠ [] → fromObject .csr (.store s mem) none =
      .ok (.fresh (.csr (Spec.asCSR n k l s.unspec)) (l.map w))) := by
  have key : ∀ {rows b}, Sparse s rows b → rows = l := fun hs =>
    sorted_unique hs.rows_ok.sorted hl fun ix => by rw [hp, hs.hasPlace]
  refine ⟨fun hc => ?_, fun hc hpos => ?_, fun hc n k hnk hlne => ?_⟩
  · cases s with
    | coo c =>
      obtain ⟨⟨rows, hr⟩, hm⟩ := h
      obtain rfl := key (.coo hr)
      simp only [fromObject, cooToFlat_ok hr mem hm, bind, Except.bind, pure, Except.pure]
      rw [(Sparse.coo hr).window_map mem hm w hw]
      rw [show Storage.shape (.coo c) = c.shape from rfl, asFlatCOO_eq _ _ hr.rows_ok.inbox]
      rfl
    | _ => simp [Storage.cls] at hc
  · cases s with
    | flatcoo f =>
      obtain ⟨⟨rows, hr⟩, hm⟩ := h
      obtain rfl := key (.flatcoo hr)
      simp only [fromObject, flatToCoo_ok hr hpos hne mem hm, bind, Except.bind, pure, Except.pure]
      rw [(Sparse.flatcoo hr).window_map mem hm w hw, asCOO_eq]
      rfl
    | _ => simp [Storage.cls] at hc
  · have hpos : l ≠ [] → (∀ ix ∈ l, InBox ix s.shape) → ∀ n ∈ s.shape, 0 < n := by
      intro h1 h2
      obtain ⟨ix, hx⟩ := List.exists_mem_of_ne_nil _ h1
      exact InBox_pos (h2 ix hx)
    cases s with
    | coo c =>
      obtain ⟨⟨rows, hr⟩, hm⟩ := h
      obtain rfl := key (.coo hr)
      have h2 : c.shape.length = 2 := by
        have : c.shape = [n, k] := hnk
        rw [this]; rfl
      simp only [fromObject, cooToCsr_ok hr hlne h2 mem hm, bind, Except.bind, pure, Except.pure]
      rw [(Sparse.coo hr).window_map mem hm w hw, asCSR_eq, ← hnk]
      rfl
    | flatcoo f =>
      obtain ⟨⟨rows, hr⟩, hm⟩ := h
      obtain rfl := key (.flatcoo hr)
      have h2 : f.shape.length = 2 := by
        have : f.shape = [n, k] := hnk
        rw [this]; rfl
      have hwl : (f.data.window mem).length = rows.length := by simp [f.data.window_length mem hm, hr.size]
      simp only [fromObject, flatToCoo_ok hr (hpos hlne hr.rows_ok.inbox) hne mem hm, bind, Except.bind, pure, Except.pure]
      rw [cooToCsr_ok (cooOf_rep f.shape hne rows hr.rows_ok (⟨rows.length, 0, f.data.unspec⟩ : Buffer V) rfl)
          hlne h2 (f.data.window mem) (by simp [cooOf, Buffer.WF, hwl])]
      simp only [cooOf]
      rw [buffer_window_map _ _ _ hwl, (Sparse.flatcoo hr).window_map mem hm w hw, asCSR_eq, ← hnk]
      rfl
    | _ => simp [Storage.cls] at hc

omit [DecidableEq V] [HasNone V] in
/-- C81, the number of items.  With `z` elements different from the unspecified value, in an array with `d` axes: `COO` takes
`(d + 1) * z` items, `FlatCOO` `2 * z`, `CSR` with `n` rows `2 * z + n + 1` (fewer than `COO` if and only if `z` is more than
`n + 1`). -/
theorem C81_sizes (shape : List Nat) (l : List (List Int)) (u : V) (vals : List V) (hv : vals.length = l.length) (n k : Nat) :
    Spec.cells (.coo (Spec.asCOO shape l u)) vals = (shape.length + 1) * l.length ∧
    Spec.cells (.flatcoo (Spec.asFlatCOO shape l u)) vals = 2 * l.length ∧
    Spec.cells (.csr (Spec.asCSR n k l u)) vals = 2 * l.length + n + 1 ∧
    (Spec.cells (.csr (Spec.asCSR n k l u)) vals < Spec.cells (.coo (Spec.asCOO [n, k] l u)) vals ↔ n + 1 < l.length) := by
  have hc : ∀ d, (Spec.coordinates d l).length = d * l.length := by
    intro d
    simp [Spec.coordinates, List.length_flatMap]
  refine ⟨?_, ?_, ?_, ?_⟩
  · simp only [Spec.cells, Spec.asCOO, hc, hv]
    rw [Nat.add_mul, Nat.one_mul]
  · simp only [Spec.cells, Spec.asFlatCOO, List.length_map, hv]
    omega
  · simp only [Spec.cells, Spec.asCSR, List.length_map, List.length_range, hv]
    omega
  · simp only [Spec.cells, Spec.asCSR, Spec.asCOO, List.length_map, List.length_range, hv, hc, List.length_cons,
      List.length_nil]
    omega

omit [DecidableEq V] [HasNone V] in
/-- C81, the row pointers: `n + 1` items, the first `0`, the last the number of elements, and the differences the numbers of
elements of the rows. -/
theorem C81_row_pointers (n k : Nat) (l : List (List Int)) (u : V) (hl : ∀ ix ∈ l, InBox ix [n, k]) :
    (Spec.asCSR n k l u).crowMem.length = n + 1 ∧ (Spec.asCSR n k l u).crowMem[0]? = some (some 0) ∧
    (Spec.asCSR n k l u).crowMem[n]? = some (some (l.length : Int)) ∧
    ∀ i, i < n → ∃ p q : Int, (Spec.asCSR n k l u).crowMem[i]? = some (some p) ∧
      (Spec.asCSR n k l u).crowMem[i + 1]? = some (some q) ∧ q = p + (l.countP fun ix => ix.getD 0 0 = (i : Int) : Nat) := by
  have hb : ∀ ix ∈ l, 0 ≤ ix.getD 0 0 ∧ ix.getD 0 0 < n := by
    intro ix hx
    have := hl ix hx
    match ix, this with
    | [i, j], h => exact h.1
  refine ⟨by simp [Spec.asCSR], ?_, ?_, fun i hi =>
    ⟨(l.countP fun ix => decide (ix.getD 0 0 < (i : Int)) : Nat), (l.countP fun ix => decide (ix.getD 0 0 < ((i + 1 : Nat) : Int)) : Nat),
      ?_, ?_, ?_⟩⟩
  · simp only [Spec.asCSR, List.getElem?_map, List.getElem?_range (Nat.succ_pos n), Option.map_some, Option.some.injEq]
    rw [List.countP_eq_zero.2]
    · rfl
    · intro ix hx
      have := hb ix hx
      simp only [decide_eq_true_eq]
      omega
  · simp only [Spec.asCSR, List.getElem?_map, List.getElem?_range (Nat.lt_succ_self n), Option.map_some, Option.some.injEq]
    rw [List.countP_eq_length.2]
    intro ix hx
    simpa using (hb ix hx).2
  · simp only [Spec.asCSR, List.getElem?_map, List.getElem?_range (show i < n + 1 by omega), Option.map_some]
  · simp only [Spec.asCSR, List.getElem?_map, List.getElem?_range (show i + 1 < n + 1 by omega), Option.map_some]
  · clear hb hl
    induction l with
    | nil => rfl
    | cons ix l ih =>
      simp only [List.countP_cons, decide_eq_true_eq, Nat.cast_add, Nat.cast_ite, Nat.cast_one, Nat.cast_zero] at ih ⊢
      split <;> split <;> split <;> omega

/-- Matrices as lists. -/
def table (rows : List (List (Option Int))) : Nested (Option Int) := .seq (rows.map fun r => .seq (r.map .leaf))

/-- The array of GentleIntroductionToGCS.md:200-208. -/
def introTable : Nested (Option Int) :=
  table [[none, none, some 1, none, some 2], [some 3, none, none, some 4, none], [some 5, none, some 6, some 7, none],
    [none, none, none, some 8, some 9]]

/-- A case of C81: the lists of GentleIntroductionToGCS.md:209-239. -/
example :
    fromObject .coo (.nested introTable) none = .ok (.fresh (.coo ⟨[4, 5], ⟨[2, 9], [9, 1], ⟨18, 0, none⟩⟩,
      ([0, 0, 1, 1, 2, 2, 2, 3, 3] ++ [2, 4, 0, 3, 0, 2, 3, 3, 4]).map some, ⟨9, 0, none⟩⟩)
      ([1, 2, 3, 4, 5, 6, 7, 8, 9].map some)) ∧
    fromObject .csr (.nested introTable) none = .ok (.fresh (.csr ⟨[4, 5], ⟨5, 0, none⟩, [0, 2, 4, 7, 9].map some,
      ⟨9, 0, none⟩, [2, 4, 0, 3, 0, 2, 3, 3, 4].map some, ⟨9, 0, none⟩⟩) ([1, 2, 3, 4, 5, 6, 7, 8, 9].map some)) := by
  decide +kernel

/-- A case of the hypotheses of C81: the array `[[1, None, 3], [None, 5, None]]` and the indices of its elements. -/
theorem sample_lists : Spec.Lists [[0, 0], [0, 2], [1, 1]] [2, 3] (itemD sample) none := by
  have e : [[0, 0], [0, 2], [1, 1]] = keptRows [2, 3] (itemD sample) none := by decide +kernel
  rw [e]
  exact ⟨(keptRows_sorted _ _ _).sorted, fun ix => mem_keptRows _ _ _ ix⟩

example : fromObject .csr (.nested sample) none = .ok (.fresh (.csr (Spec.asCSR 2 3 [[0, 0], [0, 2], [1, 1]] none))
    ([[0, 0], [0, 2], [1, 1]].map (itemD sample))) ∧
    (Spec.asCSR 2 3 [[0, 0], [0, 2], [1, 1]] (none : Option Int)).crowMem = [some 0, some 2, some 3] ∧
    (Spec.asCSR 2 3 [[0, 0], [0, 2], [1, 1]] (none : Option Int)).colMem = [some 0, some 2, some 1] :=
  ⟨(C81_sparse (.nested sample) [2, 3] (itemD sample) ⟨sample_shape, fun ix v h => by rw [itemD, h]; rfl⟩ (by simp) none none rfl
      (itemD sample) (fun ix _ => by
        change itemD sample ix = if itemD sample ix = none then none else itemD sample ix
        by_cases h : itemD sample ix = none
        · rw [if_pos h, h]
        · rw [if_neg h]) _ sample_lists).2.2 2 3 rfl (by simp) (fun h => h.2), by decide +kernel, by decide +kernel⟩

/-- A case of `C81_stored`: a `COO` holding its unspecified value at `(0, 2)`; the `FlatCOO` made of it holds it too. -/
example : fromObject .flatcoo (.store (.coo sampleCOO) [some 1, none, some 5]) none =
      .ok (.fresh (.flatcoo (Spec.asFlatCOO [2, 3] [[0, 0], [0, 2], [1, 1]] none)) [some 1, none, some 5]) ∧
    fromObject .flatcoo (.store (.coo sampleCOO) [some 1, none, some 5]) (some none) =
      .ok (.fresh (.flatcoo (Spec.asFlatCOO [2, 3] [[0, 0], [1, 1]] none)) [some 1, some 5]) := by
  decide +kernel

/-! ### `DM` -/

/-- The index of the wrapped storage: one item for each group of axes, its row-major position. -/
def Spec.grouped (shape : List Nat) (groups : List (List Nat)) (ix : List Int) : List Int :=
  groups.map fun g => rowMajor (g.map fun d => ix.getD d 0) (g.map fun d => shape.getD d 0) 0

/-- What `DM.fromobject` keeps beside the wrapped storage. -/
def Spec.metadata (shape : List Nat) (groups : List (List Nat)) : DMMeta :=
  ⟨shape, groups, groups.map fun g => g.map fun d => shape.getD d 0,
    groups.map fun g => steps (g.map fun d => shape.getD d 0), groups.map fun _ => 0⟩

omit [DecidableEq V] [HasNone V] in
/-- `DM.fromobject` builds the wrapped storage from the elements at the grouped indices. -/
theorem dmBuildWith_grouped (inner : List Nat → (List Int → PyM V) → PyM (Storage V × List V)) (isBuffer : Bool)
    (shape : List Nat) (dimensions partitioning : Option (List Nat)) (value : List Int → PyM V) (a : List Int → V)
    (G : List (List Nat)) (hG : G = dmGroups (dimensions.getD (List.range shape.length)) shape.length
      (dmPartitioning shape.length isBuffer partitioning) 0)
    (hs : GoodSplit shape.length (dimensions.getD (List.range shape.length)) (dmPartitioning shape.length isBuffer partitioning))
    (ha : ∀ ix, InBox ix shape → value ix = .ok (a ix))
    (st : Storage V) (mem : List V) (hst : st.shape.length = G.length)
    (hin : ∀ (value' : List Int → PyM V) (b : List Int → V), (∀ r, InBox r (groupSizes shape G) → value' r = .ok (b r) ∧
        ∃ ix, InBox ix shape ∧ r = Spec.grouped shape G ix ∧ b r = a ix) →
      inner (groupSizes shape G) value' = .ok (st, mem)) :
    dmBuildWith inner isBuffer shape dimensions partitioning value = .ok (.dm (Spec.metadata shape G) st, mem) := by
  have hprep := dmPrepare_ok shape dimensions partitioning isBuffer hs
  have hflat := hs.flatten
  have hlen := dmGroups_length (dimensions.getD (List.range shape.length)) shape.length
    (dmPartitioning shape.length isBuffer partitioning)
  rw [← hG] at hprep hflat hlen
  rw [← hlen] at hprep
  have hperm : G.flatten.Perm (List.range shape.length) := by rw [hflat]; exact hs.perm
  have hGne : G ≠ [] := by intro he; rw [he] at hlen; simp at hlen
  have hax : ∀ d, d ∈ G.flatten ↔ d < shape.length := fun d => by rw [hperm.mem_iff, List.mem_range]
  obtain ⟨rshape, rshapes, rstrides, e1, e2, e3, e4⟩ := C20_reduce_promote shape G (List.replicate G.length 0) hperm (by simp)
  rw [makeReduction_ok shape G fun g' hg' d hd => (hax d).1 (List.mem_flatten.2 ⟨g', hg', hd⟩)] at e1
  simp only [Except.ok.injEq, Prod.mk.injEq] at e1
  obtain ⟨rfl, rfl, rfl⟩ := e1
  have hz : ∀ r : List Int, r.length = G.length → List.zipWith (· - ·) r (List.replicate G.length 0) = r := by
    intro r hr
    apply List.ext_getElem (by simp [hr])
    intro i h1 h2
    simp
  have hg : ∀ ix, List.zipWith (fun off g => off + rowMajor (g.map fun d => ix.getD d 0) (g.map fun d => shape.getD d 0) 0)
      (List.replicate G.length 0) G = Spec.grouped shape G ix := by
    intro ix
    apply List.ext_getElem (by simp [Spec.grouped])
    intro i h1 h2
    simp [Spec.grouped]
  rw [← groupSizes_eq] at hprep e4
  have hr : inner (groupSizes shape G) (fun rindex => do
      let ix ← promoteIndex (groupShapes shape G) G ((groupShapes shape G).map makeStrides) (List.replicate G.length 0) rindex
      value ix) = .ok (st, mem) := by
    apply hin _ fun r => match promoteIndex (groupShapes shape G) G ((groupShapes shape G).map makeStrides)
      (List.replicate G.length 0) r with
      | .ok ix => a ix
      | .error _ => a []
    intro r hr
    have hrl : r.length = G.length := by rw [hr.length_eq]; simp [groupSizes]
    obtain ⟨ix, i1, i2, i3⟩ := e4 r hrl (by rw [hz r hrl]; exact hr)
    obtain ⟨r', j1, j2, _⟩ := e3 ix i1
    rw [i3, Except.ok.injEq] at j1
    subst j1
    refine ⟨by simp only [i2, bind, Except.bind, ha ix i1], ix, i1, by rw [← hg, ← j2], by simp only [i2]⟩
  have hr' := hr
  simp only [bind, Except.bind] at hr'
  simp only [dmBuildWith, hprep, bind, Except.bind, hr', hst, pyAssert, decide_true, if_true,
    DMMeta.new_ok _ _ _ _ hGne hax, pure, Except.pure]
  congr 3
  simp only [Spec.metadata, groupShapes, List.map_map, DMMeta.mk.injEq, true_and]
  refine ⟨?_, ?_⟩
  · apply List.map_congr_left
    intro g _
    simp [steps_eq]
  · simp [List.map_const']

/-- C81 for `DM.fromobject`.  It wraps the lists of the array with one axis for each group of axes: an element is at the
grouped index.  With `dims` a permutation of the axes and `part` increasing cuts, as in C29. -/
theorem C81_dm (src : Src V) (shape : List Nat) (a : List Int → V) (h : Spec.IsArray src shape a) (hne : shape ≠ [])
    (unspec : Option V) (u : V) (hu : u = unspec.getD src.unspec)
    (dims part : Option (List Nat)) (axes cuts : List Nat)
    (hdims : axes = dims.getD (List.range shape.length)) (hperm : axes.Perm (List.range shape.length))
    (hcuts : match part with
      | some p => cuts = p
      | none => cuts = if shape.length = 1 then [] else [shape.length - 1])
    (hpart : cuts.Pairwise (· < ·) ∧ ∀ p ∈ cuts, 0 < p ∧ p < shape.length)
    (groups : List (List Nat)) (hgroups : groups = cutAt axes 0 cuts) (w : List Int → V)
    (hw : ∀ ix, InBox ix shape → w (Spec.grouped shape groups ix) = if a ix = src.unspec then u else a ix)
    (l : List (List Int)) (hl : Spec.Lists l (groupSizes shape groups) w u) :
    fromObjectDM src dims part .coo unspec =
      .ok (.dm (Spec.metadata shape groups) (.coo (Spec.asCOO (groupSizes shape groups) l u)), l.map w) ∧
    fromObjectDM src dims part .flatcoo unspec =
      .ok (.dm (Spec.metadata shape groups) (.flatcoo (Spec.asFlatCOO (groupSizes shape groups) l u)), l.map w) ∧
    (∀ n k, groupSizes shape groups = [n, k] → l ≠ [] → fromObjectDM src dims part .csr unspec =
      .ok (.dm (Spec.metadata shape groups) (.csr (Spec.asCSR n k l u)), l.map w)) ∧
    ∃ mem : List V, mem.length = count shape ∧
      (∀ r, InBox r (groupSizes shape groups) → mem[(rowMajor r (groupSizes shape groups) 0).toNat]? = some (w r)) ∧
      fromObjectDM src dims part .strided unspec =
        .ok (.dm (Spec.metadata shape groups)
          (.strided ⟨groupSizes shape groups, Spec.steps (groupSizes shape groups), ⟨count shape, 0, u⟩⟩), mem) := by
  obtain ⟨a', ⟨hs, hv⟩, hb⟩ := h.srcOk hne
  subst hu
  generalize hu : unspec.getD src.unspec = u at *
  have hp : ∀ cls : Cls, cls ≠ .buffer → dmPartitioning shape.length (cls = .buffer) part = cuts := by
    intro cls hcls
    cases part with
    | some p => exact hcuts.symm
    | none => simp only at hcuts; rw [hcuts]; simp [dmPartitioning, hcls]
  have hlen : axes.length = shape.length := by rw [hperm.length_eq]; simp
  have hsp : GoodSplit shape.length axes cuts := ⟨hperm, hpart.1, fun p hp => (hpart.2 p hp).1, fun p hp => (hpart.2 p hp).2,
    List.length_pos_of_ne_nil hne⟩
  have hgr : groups = dmGroups axes shape.length cuts 0 := by rw [hgroups, ← hlen, dmGroups_cut]
  have hgl : groups.length = cuts.length + 1 := by rw [hgr, dmGroups_length]
  have hrne : groupSizes shape groups ≠ [] := by
    intro he
    have := congrArg List.length he
    simp [groupSizes, hgl] at this
  have hrl : (groupSizes shape groups).length = groups.length := by simp [groupSizes]
  have hcount : count (groupSizes shape groups) = count shape := by
    rw [count_eq, count_eq, groupSizes_eq, product_groups shape groups (by rw [hgr, hsp.flatten]; exact hperm)]
  have main : ∀ (cls : Cls) (st : Storage V) (mem : List V), cls ≠ .buffer → cls ≠ .dm → st.shape.length = groups.length →
      (∀ (value' : List Int → PyM V) (b : List Int → V), (∀ r, InBox r (groupSizes shape groups) → value' r = .ok (b r)) →
        (∀ r, InBox r (groupSizes shape groups) → w r = if b r = src.unspec then u else b r) →
        buildFlat cls (groupSizes shape groups) value' src.unspec u = .ok (st, mem)) →
      fromObjectDM src dims part cls unspec = .ok (.dm (Spec.metadata shape groups) st, mem) := by
    intro cls st mem hc hd hst hin
    have := dmBuildWith_grouped (fun rshape value' => buildFlat cls rshape value' src.unspec u) (cls = .buffer) shape dims part
      src.getValue a' groups (by rw [hp cls hc, ← hdims, hgr]) (by rw [hp cls hc, ← hdims]; exact hsp) hv st mem hst
      (fun value' b hvb => hin value' b (fun r hr => (hvb r hr).1) fun r hr => by
        obtain ⟨ix, i1, i2, i3⟩ := (hvb r hr).2
        rw [i3, hb ix i1, ← hw ix i1, i2])
    rw [fromObjectDM, hs, hu]
    cases cls <;> first | exact this | exact absurd rfl hd
  refine ⟨?_, ?_, fun n k hnk hlne => ?_, (indexProduct (groupSizes shape groups)).map w, ?_, fun r hr => ?_, ?_⟩
  · exact main .coo _ _ (by simp) (by simp) hrl fun value' b h1 h2 =>
      (buildFlat_lists _ hrne value' b src.unspec u h1 w h2 l hl).1
  · exact main .flatcoo _ _ (by simp) (by simp) hrl fun value' b h1 h2 =>
      (buildFlat_lists _ hrne value' b src.unspec u h1 w h2 l hl).2.1
  · exact main .csr _ _ (by simp) (by simp) (by rw [← hrl, hnk]; rfl) fun value' b h1 h2 =>
      (buildFlat_lists _ hrne value' b src.unspec u h1 w h2 l hl).2.2.1 n k hnk hlne
  · rw [List.length_map, indexProduct_length, ← count_eq, hcount]
  · rw [rowMajor_address r _ hr, List.getElem?_map, indexProduct_at _ r hr]
    rfl
  · exact main .strided _ _ (by simp) (by simp) hrl fun value' b h1 h2 => by
      rw [← hcount]
      exact (buildFlat_lists _ hrne value' b src.unspec u h1 w h2 l hl).2.2.2

/-- A case of C81: the compressed columns of GentleIntroductionToGCS.md:246-261 are the `CSR` of the swapped axes. -/
example : fromObjectDM (.nested introTable) (some [1, 0]) (some [1]) .csr none =
    .ok (.dm (Spec.metadata [4, 5] [[1], [0]]) (.csr ⟨[5, 4], ⟨6, 0, none⟩, [0, 2, 2, 4, 7, 9].map some, ⟨9, 0, none⟩,
      [1, 2, 0, 2, 1, 2, 3, 0, 3].map some, ⟨9, 0, none⟩⟩), [3, 5, 1, 6, 4, 7, 8, 2, 9].map some) := by
  decide +kernel

/-- The array of GentleIntroductionToGCS.md:403-416. -/
def introArray : Nested (Option Int) :=
  .seq [table [[none, some 1, some 2, some 3], [none, none, none, none], [none, some 4, none, none]],
    table [[some 5, none, none, some 6], [none, none, none, none], [some 7, none, some 8, some 9]]]

/-- Cases of C81: the reductions of GentleIntroductionToGCS.md:418-515, with `7 + 9 + 9`, `3 + 9 + 9` and `5 + 9 + 9` items. -/
example :
    fromObjectDM (.nested introArray) none (some [2]) .csr none =
      .ok (.dm (Spec.metadata [2, 3, 4] [[0, 1], [2]]) (.csr ⟨[6, 4], ⟨7, 0, none⟩, [0, 3, 3, 4, 6, 6, 9].map some,
        ⟨9, 0, none⟩, [1, 2, 3, 1, 0, 3, 0, 2, 3].map some, ⟨9, 0, none⟩⟩), [1, 2, 3, 4, 5, 6, 7, 8, 9].map some) ∧
    fromObjectDM (.nested introArray) none (some [1]) .csr none =
      .ok (.dm (Spec.metadata [2, 3, 4] [[0], [1, 2]]) (.csr ⟨[2, 12], ⟨3, 0, none⟩, [0, 4, 9].map some,
        ⟨9, 0, none⟩, [1, 2, 3, 9, 0, 3, 8, 10, 11].map some, ⟨9, 0, none⟩⟩), [1, 2, 3, 4, 5, 6, 7, 8, 9].map some) ∧
    fromObjectDM (.nested introArray) (some [2, 1, 0]) (some [1]) .csr none =
      .ok (.dm (Spec.metadata [2, 3, 4] [[2], [1, 0]]) (.csr ⟨[4, 6], ⟨5, 0, none⟩, [0, 2, 4, 6, 9].map some,
        ⟨9, 0, none⟩, [1, 5, 0, 4, 0, 5, 0, 1, 5].map some, ⟨9, 0, none⟩⟩), [5, 7, 1, 4, 2, 8, 3, 6, 9].map some) ∧
    Spec.grouped [2, 3, 4] [[2], [1, 0]] [1, 2, 3] = [3, 5] := by
  decide +kernel

end Gcs
