import Verif.Lemmas.Cell
import Verif.Lemmas.KeepMake

/-!
# Lemmas: assignments to a `DM`
-/

namespace Gcs

open Spec

variable {V : Type}

/-- The writes of an assignment to a `DM` with an index that keeps an axis, in the order of the `DM`. -/
theorem dm_plan_any {m : DMMeta}
    (h : ∀ ix, InBox ix m.shape → m.getDataPosition ix = .ok (target m.rdims m.rstrides m.roffset ix))
    (hp : PosShape m.shape) (index : Index)
    (hv : ValidItems (items index) m.shape) (hne : selShape (items index) m.shape ≠ []) :
    ∃ L : List (List Int),
      Storage.dmSetPlan m index = .ok (L.map fun j =>
        (j, target m.rdims m.rstrides m.roffset (selSource (items index) m.shape j))) ∧
      (∀ j, j ∈ L ↔ InBox j (selShape (items index) m.shape)) ∧ L.Nodup ∧
      (L.map fun j => selSource (items index) m.shape j).Pairwise lexLt := by
  have e : m.entries = .ok ((indexProduct m.shape).map fun ix => (ix, target m.rdims m.rstrides m.roffset ix)) := by
    apply mapM_ok
    intro ix hix
    simp only [h ix ((mem_indexProduct _ _).1 hix), bind, Except.bind, pure, Except.pure]
  have hfst : ((indexProduct m.shape).map fun ix => (ix, target m.rdims m.rstrides m.roffset ix)).map (·.1)
      = indexProduct m.shape := by
    rw [List.map_map]
    exact List.map_id _
  obtain ⟨nix, st, off, L, h1, h2, h3, h4, h5, h6, h7⟩ := sliceEntries_ok
    ((indexProduct m.shape).map fun ix => (ix, target m.rdims m.rstrides m.roffset ix)) m.shape hp
    (by
      intro e he
      obtain ⟨ix, hix, rfl⟩ := List.mem_map.1 he
      exact (mem_indexProduct _ _).1 hix)
    (by rw [hfst]; exact indexProduct_nodup _) index hv hne
  rw [hfst] at h7
  have h5' : ∀ j p, (j, p) ∈ L ↔ InBox j (selShape (items index) m.shape) ∧
      p = target m.rdims m.rstrides m.roffset (selSource (items index) m.shape j) := by
    intro j p
    rw [h5]
    constructor
    · rintro ⟨a, b⟩
      obtain ⟨ix, hix, e⟩ := List.mem_map.1 b
      simp only [Prod.mk.injEq] at e
      exact ⟨a, by rw [← e.2, e.1]⟩
    · rintro ⟨a, b⟩
      refine ⟨a, List.mem_map.2 ⟨_, (mem_indexProduct _ _).2 ?_, by rw [b]⟩⟩
      obtain ⟨_, _, _, _, _, _, _, g⟩ := index_ok index m.shape (makeStrides m.shape) hp hv (makeStrides_length _)
      exact (g j a).1
  refine ⟨L.map (·.1), ?_, ?_, h6, ?_⟩
  · simp only [Storage.dmSetPlan, h1, h3, e, bind, Except.bind, h4]
    rw [List.map_map]
    congr 1
    conv => lhs; rw [← List.map_id L]
    apply List.map_congr_left
    intro x hx
    have := ((h5' x.1 x.2).1 hx).2
    simp only [id, Function.comp_apply, ← this]
  · intro j
    rw [List.mem_map]
    constructor
    · rintro ⟨x, hx, rfl⟩
      exact ((h5' x.1 x.2).1 hx).1
    · intro hj
      exact ⟨(j, _), (h5' _ _).2 ⟨hj, rfl⟩, rfl⟩
  · rw [List.map_map]
    exact (indexProduct_sorted _).sublist h7

theorem dm_plan {m : DMMeta} {inner : List Nat} (h : m.WF inner) (hp : PosShape m.shape) (index : Index)
    (hv : ValidItems (items index) m.shape) (hne : selShape (items index) m.shape ≠ []) :
    ∃ L : List (List Int),
      Storage.dmSetPlan m index = .ok (L.map fun j =>
        (j, target m.rdims m.rstrides m.roffset (selSource (items index) m.shape j))) ∧
      (∀ j, j ∈ L ↔ InBox j (selShape (items index) m.shape)) ∧ L.Nodup ∧
      (L.map fun j => selSource (items index) m.shape j).Pairwise lexLt :=
  dm_plan_any (fun ix hi => h.getDataPosition_ok ix hi) hp index hv hne

/-- The writes of an assignment to a `DM` with an int on every axis: all elements. -/
theorem dm_plan_elem {m : DMMeta} {inner : List Nat} (h : m.WF inner) (hp : PosShape m.shape) (index : Index)
    (hv : ValidItems (items index) m.shape) (he : selShape (items index) m.shape = []) :
    Storage.dmSetPlan m index = .ok ((indexProduct m.shape).map fun ix =>
      ([], target m.rdims m.rstrides m.roffset ix)) := by
  have e : m.entries = .ok ((indexProduct m.shape).map fun ix => (ix, target m.rdims m.rstrides m.roffset ix)) := by
    apply mapM_ok
    intro ix hix
    simp only [h.getDataPosition_ok ix ((mem_indexProduct _ _).1 hix), bind, Except.bind, pure, Except.pure]
  obtain ⟨nix, st, off, h1, h2, h3, h4, _⟩ := index_ok index m.shape (makeStrides m.shape) hp hv (makeStrides_length _)
  rw [he] at h3 h4
  have hst : st = [] := List.length_eq_zero_iff.1 h4
  subst hst
  have h5 := sliceEntries_elem ((indexProduct m.shape).map fun ix => (ix, target m.rdims m.rstrides m.roffset ix))
    m.shape (by
      intro e he
      obtain ⟨ix, hix, rfl⟩ := List.mem_map.1 he
      exact (mem_indexProduct _ _).1 hix) off
  simp only [Storage.dmSetPlan, h1, h3, e, bind, Except.bind, h5, List.map_map]
  rfl

/-- Setting one element of a `Buffer` or a `Strided`. -/
theorem dense_set {d : Storage V} {mem : List V} (h : d.WF mem) (hc : d.cls = .buffer ∨ d.cls = .strided)
    (ix : List Int) (hi : InBox ix d.shape) (v : V) :
    d.setItem mem (.tuple (ix.map .int)) (fun _ _ => .ok v) = ⟨mem.set ((d.cellAt ix).getD 0) v, none⟩ := by
  cases d with
  | buffer b =>
    match ix, hi with
    | [i], hi =>
      have h : b.WF mem := h
      unfold Buffer.WF at h
      simp only [Storage.shape, InBox, and_true] at hi
      simp only [Storage.setItem, List.map_cons, List.map_nil, Storage.cellAt, Option.getD_some]
      exact Buffer.write1_ok b mem i v (by omega) (by omega)
    | [], hi => exact hi.elim
    | _ :: _ :: _, hi => exact hi.2.elim
  | strided s => exact Strided.setItem_elem h ix hi v
  | coo c => simp [Storage.cls] at hc
  | flatcoo c => simp [Storage.cls] at hc
  | csr c => simp [Storage.cls] at hc
  | dm m d => simp [Storage.cls] at hc

theorem dense_cell {d : Storage V} (hc : d.cls = .buffer ∨ d.cls = .strided) (ix : List Int) (hi : InBox ix d.shape) :
    ∃ c, d.cellAt ix = some c := by
  cases d with
  | buffer b =>
    match ix, hi with
    | [i], hi => exact ⟨_, rfl⟩
    | [], hi => exact hi.elim
    | _ :: _ :: _, hi => exact hi.2.elim
  | strided s => exact ⟨_, rfl⟩
  | coo c => simp [Storage.cls] at hc
  | flatcoo c => simp [Storage.cls] at hc
  | csr c => simp [Storage.cls] at hc
  | dm m d => simp [Storage.cls] at hc

/-- Any number of element writes through a `DM` over a `Buffer` or a `Strided`. -/
theorem dm_writes {m : DMMeta} {d : Storage V} {mem : List V} (hd : d.WF mem) (hm : m.WF d.shape)
    (hc : d.cls = .buffer ∨ d.cls = .strided) (L : List (List Int × List Int))
    (hL : ∀ e ∈ L, InBox e.2 m.shape) (valueAt : List V → List Int → PyM V) (w : List Int → V)
    (hw : ∀ m', m'.length = mem.length → ∀ e ∈ L, valueAt m' e.1 = .ok (w e.1)) :
    writeAll (fun mem rindex v => d.setItem mem (.tuple (rindex.map .int)) (fun _ _ => .ok v)) valueAt
      (L.map fun e => (e.1, target m.rdims m.rstrides m.roffset e.2)) mem
      = ⟨setCells mem (L.map fun e => (((Storage.dm m d).cellAt e.2).getD 0, w e.1)), none⟩ := by
  rw [writeAll_ok _ _ (fun r => (d.cellAt r).getD 0) w mem.length _ mem rfl]
  · rw [List.map_map]
    rfl
  · intro m' hl e he v
    obtain ⟨x, hx, rfl⟩ := List.mem_map.1 he
    exact dense_set (hd.of_length hl) hc _ (hm.into _ (hL x hx)) v
  · intro m' hl e he
    obtain ⟨x, hx, rfl⟩ := List.mem_map.1 he
    exact hw m' hl x hx

theorem target_eq_groups (rdims : List (List Nat)) (rstrides : List (List Int)) (roffset ix jx : List Int)
    (h1 : GroupStrides rdims rstrides) (h2 : roffset.length = rdims.length)
    (he : target rdims rstrides roffset ix = target rdims rstrides roffset jx) (k : Nat) (dims : List Nat) (st : List Int)
    (g1 : rdims[k]? = some dims) (g2 : rstrides[k]? = some st) :
    address (dims.map fun d => ix.getD d 0) st = address (dims.map fun d => jx.getD d 0) st := by
  induction rdims generalizing rstrides roffset k with
  | nil => simp at g1
  | cons ds rdims ih =>
    match rstrides, roffset, h1, h2 with
    | s :: rstrides, o :: roffset, h1, h2 =>
      simp only [target, List.cons.injEq] at he
      cases k with
      | zero =>
        simp only [List.getElem?_cons_zero, Option.some.injEq] at g1 g2
        subst g1 g2
        omega
      | succ k => exact ih rstrides roffset h1.2 (by simpa using h2) he.2 k g1 g2
    | s :: rstrides, [], h1, h2 => simp at h2

/-- Different elements of a `DM` are in different cells. -/
theorem dm_cell_inj {m : DMMeta} {d : Storage V} {mem : List V} (hd : d.WF mem) (hm : m.WF d.shape)
    (hc : d.cls = .buffer ∨ d.cls = .strided) (hg : DistinctGroups m) (hcell : DistinctCells d) {ix jx : List Int}
    (hi : InBox ix m.shape) (hj : InBox jx m.shape)
    (he : (Storage.dm m d).cellAt ix = (Storage.dm m d).cellAt jx) : ix = jx := by
  apply hg ix jx hi hj
  have e : target m.rdims m.rstrides m.roffset ix = target m.rdims m.rstrides m.roffset jx := by
    have hi' := hm.into ix hi
    have hj' := hm.into jx hj
    simp only [Storage.cellAt] at he
    generalize target m.rdims m.rstrides m.roffset ix = x at *
    generalize target m.rdims m.rstrides m.roffset jx = y at *
    cases d with
    | buffer b =>
      match x, y, hi', hj' with
      | [i], [j], hi', hj' =>
        simp only [Storage.shape, InBox, and_true] at hi' hj'
        simp only [Storage.cellAt, Option.some.injEq] at he
        simp only [List.cons.injEq, and_true]
        omega
      | [], _, hi', _ => exact hi'.elim
      | _ :: _ :: _, _, hi', _ => exact hi'.2.elim
      | [_], [], _, hj' => exact hj'.elim
      | [_], _ :: _ :: _, _, hj' => exact hj'.2.elim
    | strided s =>
      have h : s.WF mem := hd
      apply hcell x y hi' hj'
      have a := h.addr x hi'
      have b := h.addr y hj'
      simp only [Storage.cellAt, Strided.cell, Option.some.injEq] at he
      omega
    | coo c => simp [Storage.cls] at hc
    | flatcoo c => simp [Storage.cls] at hc
    | csr c => simp [Storage.cls] at hc
    | dm m d => simp [Storage.cls] at hc
  intro k dims st g1 g2
  exact target_eq_groups _ _ _ _ _ hm.rstrides hm.roffset e k dims st g1 g2

/-- All cells of a list get the value `v`. -/
theorem setCells_const (mem : List V) (l : List Nat) (v : V) (k : Nat) (hk : k < mem.length) :
    (setCells mem (l.map fun c => (c, v)))[k]? = if k ∈ l then some v else mem[k]? := by
  induction l generalizing mem with
  | nil => simp [setCells]
  | cons c l ih =>
    simp only [List.map_cons, setCells]
    rw [ih _ (by simpa using hk)]
    by_cases h1 : k ∈ l
    · simp [h1]
    · by_cases h2 : k = c
      · subst h2
        simp [hk]
      · simp [h1, h2, List.getElem?_set_ne (Ne.symm h2)]

theorem setCells_twice (mem : List V) (l : List Nat) (v w : V) :
    setCells (setCells mem (l.map fun c => (c, v))) (l.map fun c => (c, w)) = setCells mem (l.map fun c => (c, w)) := by
  apply List.ext_getElem?
  intro k
  by_cases hk : k < mem.length
  · rw [setCells_const _ _ _ _ (by rw [setCells_length]; exact hk), setCells_const _ _ _ _ hk, setCells_const _ _ _ _ hk]
    split <;> rfl
  · rw [List.getElem?_eq_none (by simp only [setCells_length]; omega),
      List.getElem?_eq_none (by simp only [setCells_length]; omega)]

/-- Writes that each set the same cells: the last one stays. -/
theorem writeAll_last {α : Type} (write : List V → α → V → Wr V) (valueAt : List V → List Int → PyM V) (l : List Nat)
    (w : List Int → V) (n : Nat) (pre : List (List Int × α)) (last : List Int × α) (mem : List V) (hm : mem.length = n)
    (h1 : ∀ m, m.length = n → ∀ e ∈ pre ++ [last], ∀ v, write m e.2 v = ⟨setCells m (l.map fun c => (c, v)), none⟩)
    (h2 : ∀ m, m.length = n → ∀ e ∈ pre ++ [last], valueAt m e.1 = .ok (w e.1)) :
    writeAll write valueAt (pre ++ [last]) mem = ⟨setCells mem (l.map fun c => (c, w last.1)), none⟩ := by
  induction pre generalizing mem with
  | nil =>
    have a := h1 mem hm last (by simp) (w last.1)
    have b := h2 mem hm last (by simp)
    simp only [List.nil_append, writeAll, a, b]
  | cons e pre ih =>
    have a := h1 mem hm e (by simp) (w e.1)
    have b := h2 mem hm e (by simp)
    simp only [List.cons_append, writeAll, a, b]
    rw [ih _ (by rw [setCells_length]; exact hm) (fun m hm x hx => h1 m hm x (List.mem_cons_of_mem _ hx))
      (fun m hm x hx => h2 m hm x (List.mem_cons_of_mem _ hx)), setCells_twice]

/-- The strides of a `DM` made by `fromobject`. -/
theorem dmBuildWith_distinct [DecidableEq V] {inner : List Nat → (List Int → PyM V) → PyM (Storage V × List V)}
    {isBuffer : Bool} {shape : List Nat} {dimensions partitioning : Option (List Nat)} {value : List Int → PyM V}
    {r : Storage V} {mem : List V}
    (h : dmBuildWith inner isBuffer shape dimensions partitioning value = .ok (r, mem)) :
    ∃ m st rshape value', r = .dm m st ∧ inner rshape value' = .ok (st, mem) ∧ DistinctGroups m := by
  simp only [dmBuildWith, bind_eq_ok, pyAssert_eq_ok, pure_eq_ok, Prod.mk.injEq] at h
  obtain ⟨⟨rdims, rshape, rshapes, rstrides, roffset⟩, h1, ⟨st, mm⟩, h2, _, h3, m, h4, rfl, rfl⟩ := h
  obtain ⟨q1, q2, rfl⟩ := DMMeta.new_inv h4
  have hd : ∀ d ∈ rdims.flatten, d < shape.length := fun d hd => (q2 d).1 hd
  have hp : rstrides = (groupShapes shape rdims).map makeStrides := by
    simp only [dmPrepare, bind_eq_ok, pure_eq_ok, Prod.mk.injEq] at h1
    obtain ⟨_, _, _, _, _, _, _, _, _, _, ⟨a, b, c⟩, h5, rfl, rfl, rfl, rfl, rfl⟩ := h1
    rw [makeReduction_ok shape _ fun g hg d hd' => hd d (List.mem_flatten.2 ⟨g, hg, hd'⟩)] at h5
    simp only [Except.ok.injEq, Prod.mk.injEq] at h5
    exact h5.2.2.symm
  subst hp
  refine ⟨_, _, _, _, rfl, h2, ?_⟩
  intro ix jx hi hj he
  simp only at hi hj he
  apply List.ext_getElem (hi.length_eq.trans hj.length_eq.symm)
  intro d h5 h6
  have hdl : d < shape.length := by rw [← hi.length_eq]; exact h5
  obtain ⟨g, hg, hdg⟩ := List.mem_flatten.1 ((q2 d).2 hdl)
  obtain ⟨k, hk, rfl⟩ := List.getElem_of_mem hg
  have e := he k rdims[k] (makeStrides (rdims[k].map fun d => shape.getD d 0)) (List.getElem?_eq_getElem hk)
    (by simp [groupShapes, hk])
  have hb : ∀ ix, InBox ix shape → InBox (rdims[k].map fun d => ix.getD d 0) (rdims[k].map fun d => shape.getD d 0) := by
    intro ix hi
    have hd' : ∀ d ∈ rdims[k], d < shape.length := fun d hd' => hd d (List.mem_flatten.2 ⟨_, hg, hd'⟩)
    generalize rdims[k] = dims at hd'
    induction dims with
    | nil => trivial
    | cons d dims ih =>
      exact ⟨inBox_getD ix shape hi d (hd' d (by simp)), ih fun e he => hd' e (by simp [he])⟩
  have e2 := address_inj (hb ix hi) (hb jx hj) e
  have e3 := List.map_inj_left.1 e2 d hdg
  simpa [List.getD_eq_getElem?_getD, h5, h6] using e3

theorem makeStrides_distinct (shape : List Nat) : DistinctAddresses shape (makeStrides shape) :=
  fun _ _ hi hj h => address_inj hi hj h

end Gcs
