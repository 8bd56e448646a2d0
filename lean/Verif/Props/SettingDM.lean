import Verif.Lemmas.DMWrite
import Verif.Props.Setting

/-!
# C53: assignments to a `DM`

`DM` passes every write on to the storage it wraps, with an int on every axis.  Over a `Buffer` or a `Strided` that
sets one element, over a sparse storage it sets all stored elements (C39).
-/

namespace Gcs

open Spec

variable {V : Type} [DecidableEq V]

omit [DecidableEq V] in
theorem dense_inCell {d : Storage V} {mem : List V} (hd : d.WF mem) (hc : d.cls = .buffer ∨ d.cls = .strided)
    (ix : List Int) (hi : InBox ix d.shape) (c : Nat) (h : d.cellAt ix = some c) : InCell d ix c := by
  cases d with
  | buffer b =>
    match ix, hi with
    | [i], hi =>
      simp only [Storage.shape, InBox, and_true] at hi
      simp only [Storage.cellAt, Option.some.injEq] at h
      simp only [InCell]
      omega
    | [], hi => exact hi.elim
    | _ :: _ :: _, hi => exact hi.2.elim
  | strided s =>
    have hs : s.WF mem := hd
    have := hs.addr ix hi
    simp only [Storage.cellAt, Option.some.injEq, Strided.cell] at h
    simp only [InCell]
    omega
  | coo c => simp [Storage.cls] at hc
  | flatcoo c => simp [Storage.cls] at hc
  | csr c => simp [Storage.cls] at hc
  | dm m d => simp [Storage.cls] at hc

/-- The effect of an assignment to a `DM` over a `Buffer` or a `Strided`, for an index that keeps an axis. -/
theorem dm_assigned {m : DMMeta} {d : Storage V} {mem : List V} (h : (Storage.dm m d).WF mem)
    (hc : d.cls = .buffer ∨ d.cls = .strided) (hg : DistinctCells (.dm m d)) (hp : PosShape m.shape) {index : Index}
    (hv : ValidItems (items index) m.shape) (hne : selShape (items index) m.shape ≠ [])
    (valueAt : List V → List Int → PyM V) (w : List Int → V)
    (hw : ∀ m', m'.length = mem.length → ∀ j, InBox j (selShape (items index) m.shape) → valueAt m' j = .ok (w j)) :
    ∃ mem', (Storage.dm m d).setItem mem index valueAt = ⟨mem', none⟩ ∧ mem'.length = mem.length ∧
      Assigned (.dm m d) mem mem' index (fun j v => v = w j) ∧
      ∀ c : Nat, (∀ ix, Selected (items index) m.shape ix → ¬ InCell (.dm m d) ix c) → mem'[c]? = mem[c]? := by
  obtain ⟨hm, hd⟩ : m.WF d.shape ∧ d.WF mem := h
  obtain ⟨L, h1, h2, h3, _⟩ := dm_plan hm hp index hv hne
  have hL : ∀ j ∈ L, InBox (selSource (items index) m.shape j) m.shape :=
    fun j hj => source_inBox hp hv ((h2 j).1 hj)
  have hset : (Storage.dm m d).setItem mem index valueAt = ⟨setCells mem (L.map fun j =>
      (((Storage.dm m d).cellAt (selSource (items index) m.shape j)).getD 0, w j)), none⟩ := by
    simp only [Storage.setItem, h1]
    have := dm_writes hd hm hc (L.map fun j => (j, selSource (items index) m.shape j)) (by
      intro e he
      obtain ⟨j, hj, rfl⟩ := List.mem_map.1 he
      exact hL j hj) valueAt w (by
      intro m' hl e he
      obtain ⟨j, hj, rfl⟩ := List.mem_map.1 he
      exact hw m' hl j ((h2 j).1 hj))
    simp only [List.map_map, Function.comp_def] at this ⊢
    exact this
  have hcell : ∀ ix, InBox ix m.shape → ∃ c, (Storage.dm m d).cellAt ix = some c :=
    fun ix hi => dense_cell hc _ (hm.into ix hi)
  have hinj : ∀ ix jx, InBox ix m.shape → InBox jx m.shape →
      ((Storage.dm m d).cellAt ix).getD 0 = ((Storage.dm m d).cellAt jx).getD 0 → ix = jx := by
    intro ix jx hi hj he
    obtain ⟨a, ha⟩ := hcell ix hi
    obtain ⟨b, hb⟩ := hcell jx hj
    apply dm_cell_inj hd hm hc hg.1 hg.2 hi hj
    rw [ha, hb] at he ⊢
    simpa using he
  generalize hl : (L.map fun j => (((Storage.dm m d).cellAt (selSource (items index) m.shape j)).getD 0, w j)) = l at hset
  have hnd : (l.map (·.1)).Nodup := by
    rw [← hl, List.map_map]
    apply h3.map_on
    intro x hx y hy hxy
    exact selSource_inj _ _ _ _ ((h2 x).1 hx) ((h2 y).1 hy) (hinj _ _ (hL x hx) (hL y hy) hxy)
  have h : (Storage.dm m d).WF mem := ⟨hm, hd⟩
  have hlen : (setCells mem l).length = mem.length := setCells_length _ _
  have h' : (Storage.dm m d).WF (setCells mem l) := h.of_length hlen
  refine ⟨_, hset, hlen, ⟨?_, ?_⟩, ?_⟩
  · rintro j v hj rfl
    have hi := source_inBox hp hv hj
    obtain ⟨c, hc⟩ := hcell _ hi
    have hr := h'.reads _ hi
    rwa [h.at_written l hnd _ hi c (w j) hc (by
      rw [← hl]
      exact List.mem_map.2 ⟨j, (h2 j).2 hj, by simp only [hc, Option.getD_some]⟩)] at hr
  · intro ix v hi hs hr
    have hr' := h'.reads ix hi
    rwa [h.at_kept l ix hi (by
      intro c hc hmem
      rw [← hl] at hmem
      simp only [List.map_map, List.mem_map, Function.comp_apply] at hmem
      obtain ⟨j, hj, he⟩ := hmem
      exact hs ⟨j, (h2 j).1 hj, hinj _ _ (hL j hj) hi (he.trans (by rw [hc, Option.getD_some]))⟩), hr.at_eq] at hr'
  · intro c hno
    apply setCells_not_mem
    rw [← hl]
    simp only [List.map_map, List.mem_map, Function.comp_apply, not_exists, not_and]
    intro j hj he
    obtain ⟨a, ha⟩ := hcell _ (hL j hj)
    rw [ha, Option.getD_some] at he
    subst he
    exact hno _ ⟨j, (h2 j).1 hj, rfl⟩ (dense_inCell hd hc _ (hm.into _ (hL j hj)) a ha)

/-- C53.  `s[index] = value` for a `DM` over a `Buffer` or a `Strided`, an index that keeps an axis, and a nested list
that has an item for every selected index. -/
theorem C53_dm_assign (m : DMMeta) (d : Storage V) (mem : List V) (h : (Storage.dm m d).WF mem)
    (hc : d.cls = .buffer ∨ d.cls = .strided) (hg : DistinctCells (.dm m d)) (hp : ∀ n ∈ m.shape, 0 < n) (index : Index)
    (hv : ValidItems (items index) m.shape) (hne : selShape (items index) m.shape ≠ []) (value : Nested V)
    (hw : ∀ j, InBox j (selShape (items index) m.shape) → ∃ v, item value j = some v) :
    ∃ mem', (Storage.dm m d).assign mem index value = ⟨mem', none⟩ ∧ mem'.length = mem.length ∧
      Assigned (.dm m d) mem mem' index (fun j v => item value j = some v) ∧
      ∀ c : Nat, (∀ ix, Selected (items index) m.shape ix → ¬ InCell (.dm m d) ix c) → mem'[c]? = mem[c]? := by
  obtain ⟨mem', g1, g2, g3, g4⟩ := dm_assigned h hc hg hp hv hne (fun _ vi => value.getValue vi)
    (fun j => (item value j).getD d.unspec) (by
      intro m' _ j hj
      obtain ⟨v, hv⟩ := hw j hj
      simp only [getValue_of_item value j v hv, hv, Option.getD_some])
  refine ⟨mem', g1, g2, ⟨fun j v hj hi => g3.1 j v hj ?_, g3.2⟩, g4⟩
  have hi : item value j = some v := hi
  simp only [hi, Option.getD_some]

/-- C53 for a value that is a storage of any class on another list. -/
theorem C53_dm_assign_storage (m : DMMeta) (d : Storage V) (mem : List V) (h : (Storage.dm m d).WF mem)
    (hc : d.cls = .buffer ∨ d.cls = .strided) (hg : DistinctCells (.dm m d)) (hp : ∀ n ∈ m.shape, 0 < n) (index : Index)
    (hv : ValidItems (items index) m.shape) (hne : selShape (items index) m.shape ≠ []) (t : Storage V) (tmem : List V)
    (ht : t.WF tmem) (hts : t.shape = selShape (items index) m.shape) :
    ∃ mem', (Storage.dm m d).assignStore mem index t tmem = ⟨mem', none⟩ ∧ mem'.length = mem.length ∧
      Assigned (.dm m d) mem mem' index (fun j v => Reads t tmem j v) ∧
      ∀ c : Nat, (∀ ix, Selected (items index) m.shape ix → ¬ InCell (.dm m d) ix c) → mem'[c]? = mem[c]? := by
  obtain ⟨mem', g1, g2, g3, g4⟩ := dm_assigned h hc hg hp hv hne
    (fun _ vi => if vi = [] then .error .type else t.getVal tmem vi) (fun j => t.at tmem j) (by
      intro m' _ j hj
      have : j ≠ [] := by
        rintro rfl
        apply hne
        cases hs : selShape (items index) m.shape with
        | nil => rfl
        | cons => rw [hs] at hj; exact hj.elim
      simp only [this, if_false]
      exact ht.getVal_ok j (by rw [hts]; exact hj))
  exact ⟨mem', g1, g2, ⟨fun j v hj hr => g3.1 j v hj hr.at_eq.symm, g3.2⟩, g4⟩

/-- C53, the hypotheses.  Every `DM.fromobject(..., storage_class=Strided or Buffer)` has its elements in different
cells of its list. -/
theorem C53_dm_made [HasNone V] (seq : Src V) (dimensions partitioning : Option (List Nat)) (cls : Cls)
    (hcls : cls = .buffer ∨ cls = .strided) (u : Option V) (r : Storage V) (mem : List V)
    (h : fromObjectDM seq dimensions partitioning cls u = .ok (r, mem)) :
    ∃ m d, r = .dm m d ∧ (d.cls = .buffer ∨ d.cls = .strided) ∧ r.WF mem ∧ DistinctCells r := by
  simp only [fromObjectDM] at h
  have hwf := dmBuild_wf h
  have h' : dmBuildWith (fun rshape value' => buildFlat cls rshape value' seq.unspec (u.getD seq.unspec)) (cls = .buffer)
      seq.shape dimensions partitioning seq.getValue = .ok (r, mem) := by
    rcases hcls with rfl | rfl <;> exact h
  obtain ⟨m, d, rshape, value', rfl, h2, h3⟩ := dmBuildWith_distinct h'
  refine ⟨m, d, rfl, ?_, hwf, h3, ?_⟩
  all_goals
    rcases hcls with rfl | rfl
    · simp only [buildFlat, bind_eq_ok, pure_eq_ok, Prod.mk.injEq] at h2
      obtain ⟨_, _, rfl, _⟩ := h2
      simp [Storage.cls, DistinctCells]
    · simp only [buildFlat, bind_eq_ok, pure_eq_ok, Prod.mk.injEq] at h2
      obtain ⟨_, h4, rfl, _⟩ := h2
      simp only [stridedBuild, bind_eq_ok, pure_eq_ok] at h4
      obtain ⟨_, _, sd, h5, rfl⟩ := h4
      simp only [Strided.new, bind_eq_ok, pyAssert_eq_ok, pure_eq_ok] at h5
      first
      | (simp [Storage.cls]; done)
      | (obtain ⟨_, _, rfl⟩ := h5
         exact makeStrides_distinct _)

/-- `DM.fromobject([[1, None, 3], [None, 5, None]], dimensions=(1, 0), partitioning=(1,), storage_class=Strided)` -/
def crossedDM : DMMeta := ⟨[2, 3], [[1], [0]], [[3], [2]], [[1], [1]], [0, 0]⟩

def crossedStrided : Strided (Option Int) := ⟨[3, 2], [2, 1], ⟨6, 0, none⟩⟩

def crossedCells : List (Option Int) := [some 1, none, none, some 5, some 3, none]

theorem crossed_made : fromObjectDM (.nested sample) (some [1, 0]) (some [1]) .strided none
    = .ok (.dm crossedDM (.strided crossedStrided), crossedCells) := by
  decide +kernel

/-- A case of C53: `s[::-1, 1:] = [[7, 8], [9, 10]]`. -/
example : (Storage.dm crossedDM (.strided crossedStrided)).WF crossedCells ∧
    DistinctCells (.dm crossedDM (.strided crossedStrided)) ∧
    ValidItems (items turned) crossedDM.shape ∧ selShape (items turned) crossedDM.shape = [2, 2] ∧
    (Storage.dm crossedDM (.strided crossedStrided)).assign crossedCells turned
      (.seq [.seq [.leaf (some 7), .leaf (some 8)], .seq [.leaf (some 9), .leaf (some 10)]])
      = ⟨[some 1, none, some 9, some 7, some 10, some 8], none⟩ := by
  obtain ⟨m, d, e, _, h1, h2⟩ := C53_dm_made _ _ _ .strided (.inr rfl) _ _ _ crossed_made
  exact ⟨h1, h2, by simp [items, turned, ValidItems, crossedDM], by decide, by decide +kernel⟩

/-- C53, a defect.  `s[i, j, ...] = v` with an int on every axis sets all elements of a `DM`. -/
theorem C53_dm_element_assign (m : DMMeta) (d : Storage V) (mem : List V) (h : (Storage.dm m d).WF mem)
    (hc : d.cls = .buffer ∨ d.cls = .strided) (hp : ∀ n ∈ m.shape, 0 < n) (index : Index)
    (hv : ValidItems (items index) m.shape) (he : selShape (items index) m.shape = []) (v : V) :
    ∃ mem', (Storage.dm m d).assign mem index (.leaf v) = ⟨mem', none⟩ ∧ mem'.length = mem.length ∧
      (∀ ix, InBox ix m.shape → Reads (.dm m d) mem' ix v) ∧
      ∀ c : Nat, (∀ ix, InBox ix m.shape → ¬ InCell (.dm m d) ix c) → mem'[c]? = mem[c]? := by
  obtain ⟨hm, hd⟩ : m.WF d.shape ∧ d.WF mem := h
  have h : (Storage.dm m d).WF mem := ⟨hm, hd⟩
  have hset : (Storage.dm m d).assign mem index (.leaf v) = ⟨setCells mem (((indexProduct m.shape).map fun ix =>
      ((Storage.dm m d).cellAt ix).getD 0).map fun c => (c, v)), none⟩ := by
    simp only [Storage.assign, Storage.setItem, dm_plan_elem hm hp index hv he]
    have := dm_writes hd hm hc ((indexProduct m.shape).map fun ix => ([], ix)) (by
      intro e he
      obtain ⟨ix, hix, rfl⟩ := List.mem_map.1 he
      exact (mem_indexProduct _ _).1 hix) (fun _ vi => (Nested.leaf v).getValue vi) (fun _ => v) (by
      intro m' hl e he
      obtain ⟨ix, hix, rfl⟩ := List.mem_map.1 he
      rfl)
    simp only [List.map_map, Function.comp_def] at this ⊢
    exact this
  generalize hl : ((indexProduct m.shape).map fun ix => ((Storage.dm m d).cellAt ix).getD 0) = l at hset
  have hlen : (setCells mem (l.map fun c => (c, v))).length = mem.length := setCells_length _ _
  have h' := h.of_length hlen
  refine ⟨_, hset, hlen, ?_, ?_⟩
  · intro ix hi
    obtain ⟨c, hcell⟩ := dense_cell hc _ (hm.into ix hi)
    have hcell : (Storage.dm m d).cellAt ix = some c := hcell
    have hr := h'.reads ix hi
    have hlt := h.cell_lt ix hi c hcell
    rw [h'.at_cell ix hi, hcell] at hr
    simp only [cellVal, List.getD_eq_getElem?_getD, setCells_const mem l v c hlt] at hr
    rw [if_pos (by
      rw [← hl]
      exact List.mem_map.2 ⟨ix, (mem_indexProduct _ _).2 hi, by simp only [hcell, Option.getD_some]⟩)] at hr
    exact hr
  · intro c hno
    apply setCells_not_mem
    rw [← hl]
    simp only [List.map_map, List.mem_map, Function.comp_apply, not_exists, not_and]
    intro ix hi hce
    have hi := (mem_indexProduct _ _).1 hi
    obtain ⟨a, ha⟩ := dense_cell hc _ (hm.into ix hi)
    have ha' : (Storage.dm m d).cellAt ix = some a := ha
    rw [ha', Option.getD_some] at hce
    subst hce
    exact hno ix hi (dense_inCell hd hc _ (hm.into _ hi) a ha)

/-- A case of C53: `s[0, 2] = 7`. -/
example : (Storage.dm crossedDM (.strided crossedStrided)).WF crossedCells ∧
    selShape (items (.tuple [.int 0, .int 2])) crossedDM.shape = [] ∧
    (Storage.dm crossedDM (.strided crossedStrided)).assign crossedCells (.tuple [.int 0, .int 2]) (.leaf (some 7))
      = ⟨[some 7, some 7, some 7, some 7, some 7, some 7], none⟩ := by
  obtain ⟨m, d, e, _, h1, _⟩ := C53_dm_made _ _ _ .strided (.inr rfl) _ _ _ crossed_made
  exact ⟨h1, by decide, by decide +kernel⟩

theorem ints_select (ix : List Int) (shape : List Nat) (h : InBox ix shape) :
    ValidItems (ix.map Ix.int) shape ∧ selShape (ix.map Ix.int) shape = [] := by
  induction ix generalizing shape with
  | nil => cases shape with
    | nil => simp [ValidItems, selShape]
    | cons => exact h.elim
  | cons i ix ih => cases shape with
    | nil => exact h.elim
    | cons n shape =>
      exact ih shape h.2

/-- C53, a defect.  `s[index] = value` for a `DM` over a sparse storage: all stored elements of that storage get the
item of the last selected element, in the order of the `DM`. -/
theorem C53_dm_sparse_assign (m : DMMeta) (d : Storage V) (mem : List V) (h : (Storage.dm m d).WF mem)
    (hc : d.cls = .coo ∨ d.cls = .flatcoo ∨ d.cls = .csr) (hp : ∀ n ∈ m.shape, 0 < n) (index : Index)
    (hv : ValidItems (items index) m.shape) (hne : selShape (items index) m.shape ≠ []) (value : Nested V)
    (hw : ∀ j, InBox j (selShape (items index) m.shape) → ∃ v, item value j = some v) (j0 : List Int)
    (hj0 : InBox j0 (selShape (items index) m.shape))
    (hlast : ∀ j, InBox j (selShape (items index) m.shape) → j ≠ j0 →
      lexLt (selSource (items index) m.shape j) (selSource (items index) m.shape j0)) (v : V)
    (hv0 : item value j0 = some v) :
    ∃ mem', (Storage.dm m d).assign mem index value = ⟨mem', none⟩ ∧ mem'.length = mem.length ∧
      (∀ ix, Stored d mem' ix ↔ Stored d mem ix) ∧
      (∀ ix, Stored d mem ix → Reads d mem' ix v) ∧
      (∀ ix, InBox ix d.shape → ¬ Stored d mem ix → Reads d mem' ix d.unspec) ∧
      ∀ c, ¬ InWindow d c → mem'[c]? = mem[c]? := by
  obtain ⟨hm, hd⟩ : m.WF d.shape ∧ d.WF mem := h
  obtain ⟨L, h1, h2, h3, h4⟩ := dm_plan hm hp index hv hne
  obtain ⟨rows, b, hs, hb⟩ := sparse_of_wf hd hc
  have hi0 := source_inBox hp hv hj0
  have hdp : PosShape d.shape := by
    have := hm.into _ hi0
    generalize target m.rdims m.rstrides m.roffset _ = x at this
    generalize d.shape = sh at this
    induction x generalizing sh with
    | nil => cases sh with
      | nil => simp [PosShape]
      | cons n sh => exact this.elim
    | cons i x ih => cases sh with
      | nil => exact this.elim
      | cons n sh =>
        intro k hk
        rcases List.mem_cons.1 hk with rfl | hk
        · have := this.1
          omega
        · exact ih sh this.2 k hk
  -- `j0` is written last
  obtain ⟨pre, post, hL⟩ := List.append_of_mem ((h2 j0).2 hj0)
  have hpost : post = [] := by
    rcases post with _ | ⟨j, post⟩
    · rfl
    exfalso
    rw [hL] at h3 h4
    have hmem : j ∈ L := by rw [hL]; simp
    have hnej : j ≠ j0 := by
      rintro rfl
      exact (List.nodup_cons.1 (List.nodup_append.1 h3).2.1).1 (by simp)
    have g1 := hlast j ((h2 j).1 hmem) hnej
    simp only [List.map_append, List.map_cons] at h4
    have g2 := (List.pairwise_cons.1 (List.pairwise_append.1 h4).2.1).1 _ (List.mem_cons_self ..)
    exact lexLt_irrefl _ (lexLt_trans g1 g2)
  subst hpost
  have hwrite : ∀ m', m'.length = mem.length → ∀ rx, InBox rx d.shape → ∀ v,
      d.setItem m' (.tuple (rx.map .int)) (fun _ _ => .ok v)
        = ⟨setCells m' (((List.range rows.length).map fun q => b.offset + q).map fun c => (c, v)), none⟩ := by
    intro m' hl rx hrx v
    have hb' : b.WF m' := by unfold Buffer.WF at *; omega
    rw [List.map_map]
    exact sparse_setItem_elem hs hdp m' hb' (.tuple (rx.map .int)) (ints_select rx d.shape hrx).1 (ints_select rx d.shape hrx).2 v _
      fun _ => rfl
  have hset : (Storage.dm m d).assign mem index value
      = ⟨setCells mem (((List.range rows.length).map fun q => b.offset + q).map fun c => (c, v)), none⟩ := by
    simp only [Storage.assign, Storage.setItem, h1, hL, List.map_append, List.map_cons, List.map_nil]
    have := writeAll_last (fun mem rindex v => d.setItem mem (.tuple (rindex.map .int)) (fun _ _ => .ok v))
      (fun _ vi => value.getValue vi) ((List.range rows.length).map fun q => b.offset + q)
      (fun j => (item value j).getD d.unspec) mem.length
      (pre.map fun j => (j, target m.rdims m.rstrides m.roffset (selSource (items index) m.shape j)))
      (j0, target m.rdims m.rstrides m.roffset (selSource (items index) m.shape j0)) mem rfl
    simp only [hv0, Option.getD_some] at this
    have hall : ∀ e ∈ (pre.map fun j => (j, target m.rdims m.rstrides m.roffset (selSource (items index) m.shape j)))
        ++ [(j0, target m.rdims m.rstrides m.roffset (selSource (items index) m.shape j0))],
        InBox e.1 (selShape (items index) m.shape) ∧ InBox e.2 d.shape := by
      intro e he
      have : ∃ j ∈ L, e = (j, target m.rdims m.rstrides m.roffset (selSource (items index) m.shape j)) := by
        rw [hL]
        rcases List.mem_append.1 he with he | he
        · obtain ⟨j, hj, rfl⟩ := List.mem_map.1 he
          exact ⟨j, by simp [hj], rfl⟩
        · rw [List.mem_singleton] at he
          exact ⟨j0, by simp, he⟩
      obtain ⟨j, hj, rfl⟩ := this
      exact ⟨(h2 j).1 hj, hm.into _ (source_inBox hp hv ((h2 j).1 hj))⟩
    apply this
    · intro m' hl e he v
      exact hwrite m' hl e.2 (hall e he).2 v
    · intro m' _ e he
      obtain ⟨v, hv⟩ := hw e.1 (hall e he).1
      simp only [getValue_of_item value e.1 v hv, hv, Option.getD_some]
  generalize hl : ((List.range rows.length).map fun q => b.offset + q) = l at hset
  have hlen : (setCells mem (l.map fun c => (c, v))).length = mem.length := setCells_length _ _
  have hd' : d.WF (setCells mem (l.map fun c => (c, v))) := hd.of_length hlen
  have hb' : b.WF (setCells mem (l.map fun c => (c, v))) := by unfold Buffer.WF at *; omega
  have hst : ∀ ix, Stored d mem ix ↔ ix ∈ rows := sparse_stored hs hb fun _ => hdp
  have hst' : ∀ ix, Stored d (setCells mem (l.map fun c => (c, v))) ix ↔ ix ∈ rows := sparse_stored hs hb' fun _ => hdp
  refine ⟨_, hset, hlen, fun ix => by rw [hst, hst'], ?_, ?_, ?_⟩
  · intro ix hx
    rw [hst] at hx
    have hi := hs.rows_ok.inbox _ hx
    obtain ⟨q, hq, rfl⟩ := List.getElem_of_mem hx
    have hcell := hs.cell_stored q hq
    have hr := hd'.reads _ hi
    have hlt := hd.cell_lt _ hi _ hcell
    rw [hd'.at_cell _ hi, hcell] at hr
    simp only [cellVal, List.getD_eq_getElem?_getD, setCells_const mem l v _ hlt] at hr
    rw [if_pos (by
      rw [← hl]
      exact List.mem_map.2 ⟨q, by simpa using hq, rfl⟩)] at hr
    exact hr
  · intro ix hi hx
    rw [hst] at hx
    have := hd'.reads ix hi
    rwa [hs.at _ hb' ix hi, lookup_none _ _ hx, ← hs.unspec] at this
  · intro c hno
    apply setCells_not_mem
    rw [← hl]
    simp only [List.map_map, List.mem_map, Function.comp_apply, not_exists, not_and, List.mem_range]
    intro q hq he
    exact hno (hs.inWindow c (by omega) (by omega))

/-- A case of C53: `s[::-1, 1:] = [[7, 8], [9, 10]]` over a `CSR`.  The last selected element is `s[1, 2]`, at `[0, 1]`
in the selection. -/
example : (Storage.dm sampleDM (.csr sampleCSR)).WF sampleItems ∧
    (∀ j, InBox j (selShape (items turned) sampleDM.shape) → j ≠ [0, 1] →
      lexLt (selSource (items turned) sampleDM.shape j) (selSource (items turned) sampleDM.shape [0, 1])) ∧
    (Storage.dm sampleDM (.csr sampleCSR)).assign sampleItems turned
      (.seq [.seq [.leaf (some 7), .leaf (some 8)], .seq [.leaf (some 9), .leaf (some 10)]])
      = ⟨[some 8, some 8, some 8], none⟩ := by
  refine ⟨⟨?_, sampleCSR_wf⟩, ?_, by decide +kernel⟩
  · exact sampleDM_wf.1.1
  · intro j hj hne
    have : j ∈ indexProduct (selShape (items turned) sampleDM.shape) := (mem_indexProduct _ _).2 hj
    have e : indexProduct (selShape (items turned) sampleDM.shape) = [[0, 0], [0, 1], [1, 0], [1, 1]] := by decide +kernel
    rw [e] at this
    simp only [List.mem_cons, List.not_mem_nil, or_false] at this
    have e0 : selSource (items turned) sampleDM.shape [0, 1] = [1, 2] := by decide +kernel
    have e1 : selSource (items turned) sampleDM.shape [0, 0] = [1, 1] := by decide +kernel
    have e2 : selSource (items turned) sampleDM.shape [1, 0] = [0, 1] := by decide +kernel
    have e3 : selSource (items turned) sampleDM.shape [1, 1] = [0, 2] := by decide +kernel
    rcases this with rfl | rfl | rfl | rfl
    · rw [e0, e1]; simp [lexLt]
    · exact absurd rfl hne
    · rw [e0, e2]; simp [lexLt]
    · rw [e0, e3]; simp [lexLt]

end Gcs
