import Verif.Lemmas.Cell
import Verif.Props.Getting

/-!
# C37 to C39, C48: assignments

`Spec.Assigned s mem mem' index value` says that the contents `mem'` of the list show the effect of
`s[index] = value`.
-/

namespace Gcs

open Spec

variable {V : Type} [DecidableEq V]

omit [DecidableEq V] in
theorem Strided.cell_inj {s : Strided V} {mem : List V} (h : s.WF mem) (hd : DistinctAddresses s.shape s.strides)
    {ix jx : List Int} (hi : InBox ix s.shape) (hj : InBox jx s.shape) (he : s.cell ix = s.cell jx) : ix = jx := by
  apply hd ix jx hi hj
  have a := h.addr ix hi
  have b := h.addr jx hj
  simp only [Strided.cell] at he
  omega

omit [DecidableEq V] in
theorem selected_nodup {s : Strided V} {mem : List V} (h : s.WF mem) (hd : DistinctAddresses s.shape s.strides)
    (hp : PosShape s.shape) {index : Index} (hv : ValidItems (items index) s.shape) (w : List Int → V)
    (l : List (List Int)) (hl : ∀ j ∈ l, InBox j (selShape (items index) s.shape)) (hn : l.Nodup) :
    ((l.map fun j => (s.cell (selSource (items index) s.shape j), w j)).map (·.1)).Nodup := by
  rw [List.map_map]
  apply hn.map_on
  intro x hx y hy hxy
  exact selSource_inj _ _ _ _ (hl x hx) (hl y hy)
    (Strided.cell_inj h hd (source_inBox hp hv (hl x hx)) (source_inBox hp hv (hl y hy)) hxy)

/-- The effect of the writes at the indices `l` of the selection. -/
theorem strided_written {s : Strided V} {mem : List V} (h : s.WF mem) (hd : DistinctAddresses s.shape s.strides)
    (hp : PosShape s.shape) {index : Index} (hv : ValidItems (items index) s.shape) (w : List Int → V)
    (l : List (List Int)) (hl : ∀ j ∈ l, InBox j (selShape (items index) s.shape)) (hn : l.Nodup)
    (mem' : List V) (hm : mem' = setCells mem (l.map fun j => (s.cell (selSource (items index) s.shape j), w j))) :
    mem'.length = mem.length ∧
    (∀ j ∈ l, Reads (.strided s) mem' (selSource (items index) s.shape j) (w j)) ∧
    (∀ ix v, InBox ix s.shape → (∀ j ∈ l, selSource (items index) s.shape j ≠ ix) →
      Reads (.strided s) mem ix v → Reads (.strided s) mem' ix v) ∧
    ∀ c : Nat, (∀ j ∈ l, s.data.offset + address (selSource (items index) s.shape j) s.strides ≠ c) →
      mem'[c]? = mem[c]? := by
  subst hm
  have h' : (Storage.strided s).WF mem := h
  have hw : (Storage.strided s).WF (setCells mem (l.map fun j => (s.cell (selSource (items index) s.shape j), w j))) :=
    h'.of_length (setCells_length _ _)
  refine ⟨setCells_length _ _, ?_, ?_, ?_⟩
  · intro j hj
    have hi := source_inBox hp hv (hl j hj)
    have := h'.at_written _ (selected_nodup h hd hp hv w l hl hn) _ hi (s.cell (selSource (items index) s.shape j)) (w j)
      rfl (List.mem_map.2 ⟨j, hj, rfl⟩)
    have hr := hw.reads _ hi
    rwa [this] at hr
  · intro ix v hi hne hr
    have := h'.at_kept (l.map fun j => (s.cell (selSource (items index) s.shape j), w j)) ix hi (by
      intro c hc hmem
      simp only [Storage.cellAt, Option.some.injEq] at hc
      simp only [List.map_map, List.mem_map, Function.comp_apply] at hmem
      obtain ⟨j, hj, he⟩ := hmem
      exact hne j hj (Strided.cell_inj h hd (source_inBox hp hv (hl j hj)) hi (he.trans hc.symm)))
    have hr' := hw.reads ix hi
    rwa [this, hr.at_eq] at hr'
  · intro c hc
    apply setCells_not_mem
    simp only [List.map_map, List.mem_map, Function.comp_apply, not_exists, not_and]
    intro j hj he
    have a := h.addr _ (source_inBox hp hv (hl j hj))
    simp only [Strided.cell] at he
    exact hc j hj (by omega)

/-- The effect of an assignment to a `Strided` of a value that has an item for every selected index. -/
theorem strided_assigned {s : Strided V} {mem : List V} (h : s.WF mem) (hd : DistinctAddresses s.shape s.strides)
    (hp : PosShape s.shape) {index : Index} (hv : ValidItems (items index) s.shape)
    (valueAt : List V → List Int → PyM V) (w : List Int → V)
    (hw : ∀ m, m.length = mem.length → ∀ j, InBox j (selShape (items index) s.shape) → valueAt m j = .ok (w j)) :
    ∃ mem', (Storage.strided s).setItem mem index valueAt = ⟨mem', none⟩ ∧ mem'.length = mem.length ∧
      Assigned (.strided s) mem mem' index (fun j v => v = w j) ∧
      ∀ c : Nat, (∀ ix, Selected (items index) s.shape ix → s.data.offset + address ix s.strides ≠ c) →
        mem'[c]? = mem[c]? := by
  obtain ⟨g1, g2, g3, g4⟩ := strided_written h hd hp hv w (indexProduct (selShape (items index) s.shape))
    (fun j hj => (mem_indexProduct _ _).1 hj) (indexProduct_nodup _) _ rfl
  refine ⟨_, Strided.setItem_ok h hp index hv valueAt w hw, g1, ⟨?_, ?_⟩, ?_⟩
  · rintro j v hj rfl
    exact g2 j ((mem_indexProduct _ _).2 hj)
  · intro ix v hi hs hr
    exact g3 ix v hi (fun j hj he => hs ⟨j, (mem_indexProduct _ _).1 hj, he⟩) hr
  · intro c hc
    exact g4 c fun j hj => hc _ ⟨j, (mem_indexProduct _ _).1 hj, rfl⟩

/-- C37.  `s[index] = value` for a `Strided` with distinct addresses and a nested list (or a scalar, for an int on
every axis) that has an item for every selected index. -/
theorem C37_strided_assign (s : Strided V) (mem : List V) (h : s.WF mem) (hd : DistinctAddresses s.shape s.strides)
    (hp : ∀ n ∈ s.shape, 0 < n) (index : Index) (hv : ValidItems (items index) s.shape) (value : Nested V)
    (hw : ∀ j, InBox j (selShape (items index) s.shape) → ∃ v, item value j = some v) :
    ∃ mem', (Storage.strided s).assign mem index value = ⟨mem', none⟩ ∧ mem'.length = mem.length ∧
      Assigned (.strided s) mem mem' index (fun j v => item value j = some v) ∧
      ∀ c : Nat, (∀ ix, Selected (items index) s.shape ix → s.data.offset + address ix s.strides ≠ c) →
        mem'[c]? = mem[c]? := by
  obtain ⟨mem', g1, g2, g3, g4⟩ := strided_assigned h hd hp hv (fun _ vi => value.getValue vi)
    (fun j => (item value j).getD s.data.unspec) (by
      intro m _ j hj
      obtain ⟨v, hv⟩ := hw j hj
      simp only [getValue_of_item value j v hv, hv, Option.getD_some])
  refine ⟨mem', g1, g2, ⟨fun j v hj hi => g3.1 j v hj ?_, g3.2⟩, g4⟩
  have hi : item value j = some v := hi
  simp only [hi, Option.getD_some]

/-- C37 for a value that is a storage of any class on another list. -/
theorem C37_strided_assign_storage (s : Strided V) (mem : List V) (h : s.WF mem)
    (hd : DistinctAddresses s.shape s.strides) (hp : ∀ n ∈ s.shape, 0 < n) (index : Index)
    (hv : ValidItems (items index) s.shape) (hne : selShape (items index) s.shape ≠ []) (t : Storage V) (tmem : List V)
    (ht : t.WF tmem) (hts : t.shape = selShape (items index) s.shape) :
    ∃ mem', (Storage.strided s).assignStore mem index t tmem = ⟨mem', none⟩ ∧ mem'.length = mem.length ∧
      Assigned (.strided s) mem mem' index (fun j v => Reads t tmem j v) ∧
      ∀ c : Nat, (∀ ix, Selected (items index) s.shape ix → s.data.offset + address ix s.strides ≠ c) →
        mem'[c]? = mem[c]? := by
  obtain ⟨mem', g1, g2, g3, g4⟩ := strided_assigned h hd hp hv
    (fun _ vi => if vi = [] then .error .type else t.getVal tmem vi) (fun j => t.at tmem j) (by
      intro m _ j hj
      have : j ≠ [] := by
        rintro rfl
        apply hne
        cases hs : selShape (items index) s.shape with
        | nil => rfl
        | cons => rw [hs] at hj; exact hj.elim
      simp only [this, if_false]
      exact ht.getVal_ok j (by rw [hts]; exact hj))
  exact ⟨mem', g1, g2, ⟨fun j v hj hr => g3.1 j v hj hr.at_eq.symm, g3.2⟩, g4⟩

theorem sampleStrided_distinct : DistinctAddresses sampleStrided.shape sampleStrided.strides := by
  intro ix jx hi hj h
  match ix, jx, hi, hj with
  | [a, b], [c, d], hi, hj =>
    simp only [sampleStrided, InBox, and_true] at hi hj
    simp only [sampleStrided, address] at h
    have : a = c := by omega
    have : b = d := by omega
    simp only [*]
  | [], _, hi, _ => exact hi.elim
  | [_], _, hi, _ => exact hi.2.elim
  | _ :: _ :: _ :: _, _, hi, _ => exact hi.2.2.elim
  | _, [], _, hj => exact hj.elim
  | _, [_], _, hj => exact hj.2.elim
  | _, _ :: _ :: _ :: _, _, hj => exact hj.2.2.elim

/-- A case of C37: `s[::-1, 2] = [7, 8]`. -/
example : (Storage.strided sampleStrided).WF sampleCells ∧
    DistinctAddresses sampleStrided.shape sampleStrided.strides ∧
    (let index : Index := .tuple [.slice ⟨none, none, some (-1)⟩, .int 2]
    ValidItems (items index) [2, 3] ∧ selShape (items index) [2, 3] = [2] ∧
    (Storage.strided sampleStrided).assign sampleCells index (.seq [.leaf (some 7), .leaf (some 8)])
      = ⟨[some 1, none, some 8, none, some 5, some 7], none⟩) :=
  ⟨sampleStrided_wf, sampleStrided_distinct, by simp [items, ValidItems], by decide, by decide +kernel⟩

/-- A case of C37 for a storage: `s[::-1] = t` with `t` a `CSR`. -/
example : (Storage.csr sampleCSR).WF sampleItems ∧
    (Storage.strided sampleStrided).assignStore sampleCells (.one (.slice ⟨none, none, some (-1)⟩)) (.csr sampleCSR)
      sampleItems = ⟨[none, some 5, none, some 1, none, some 3], none⟩ :=
  ⟨sampleCSR_wf, by decide +kernel⟩

/-- A value on the list of `s` itself is read while the list changes: `s[::-1] = s` does not turn the rows over
(C37 for a storage on another list does). -/
example : (Storage.strided sampleStrided).assignShared sampleCells (.one (.slice ⟨none, none, some (-1)⟩))
    (.strided sampleStrided) = ⟨[some 1, none, some 3, some 1, none, some 3], none⟩ := by
  decide +kernel

/-! ## Sparse storages -/

omit [DecidableEq V] in
theorem sparse_written_nodup {s : Storage V} {rows : List (List Int)} {b : Buffer V} (h : Sparse s rows b)
    {index : Index} (w : List Int → V) (L : List (List Int))
    (hL : ∀ j ∈ L, InBox j (selShape (items index) s.shape) ∧ selSource (items index) s.shape j ∈ rows) (hn : L.Nodup) :
    ((L.map fun j => ((s.cellAt (selSource (items index) s.shape j)).getD 0, w j)).map (·.1)).Nodup := by
  rw [List.map_map]
  apply hn.map_on
  intro x hx y hy hxy
  obtain ⟨b1, r1⟩ := hL x hx
  obtain ⟨b2, r2⟩ := hL y hy
  apply selSource_inj _ _ _ _ b1 b2
  apply h.cell_inj _ _ r1 r2
  obtain ⟨p, hp, e1⟩ := List.getElem_of_mem r1
  obtain ⟨q, hq, e2⟩ := List.getElem_of_mem r2
  have c1 := h.cell_stored p hp
  have c2 := h.cell_stored q hq
  rw [e1] at c1
  rw [e2] at c2
  simp only [Function.comp_apply, c1, c2, Option.getD_some] at hxy
  rw [c1, c2, hxy]

omit [DecidableEq V] in
/-- The sparse classes. -/
theorem sparse_of_wf {s : Storage V} {mem : List V} (h : s.WF mem) (hc : s.cls = .coo ∨ s.cls = .flatcoo ∨ s.cls = .csr) :
    ∃ rows b, Sparse s rows b ∧ b.WF mem := by
  cases s with
  | coo c => obtain ⟨⟨rows, hr⟩, hm⟩ := h; exact ⟨rows, _, .coo hr, hm⟩
  | flatcoo c => obtain ⟨⟨rows, hr⟩, hm⟩ := h; exact ⟨rows, _, .flatcoo hr, hm⟩
  | csr c => obtain ⟨⟨rows, hr⟩, hm⟩ := h; exact ⟨rows, _, .csr hr, hm⟩
  | _ => simp [Storage.cls] at hc

omit [DecidableEq V] in
theorem Sparse.inWindow {s : Storage V} {rows : List (List Int)} {b : Buffer V} (h : Sparse s rows b) (c : Nat)
    (h1 : b.offset ≤ c) (h2 : c < b.offset + rows.length) : InWindow s c := by
  have := h.size
  cases h <;> simp only [InWindow] <;> omega

/-- C38.  `s[index] = value` for a sparse storage and an index that keeps an axis: the stored elements of the
selection get the items of the value, the others stay unspecified, and the elements outside the selection and
the set of stored indices are as before. -/
theorem C38_sparse_assign (s : Storage V) (mem : List V) (h : s.WF mem)
    (hc : s.cls = .coo ∨ s.cls = .flatcoo ∨ s.cls = .csr) (hp : ∀ n ∈ s.shape, 0 < n) (index : Index)
    (hv : ValidItems (items index) s.shape) (hne : selShape (items index) s.shape ≠ []) (value : Nested V)
    (hw : ∀ j, InBox j (selShape (items index) s.shape) → ∃ v, item value j = some v) :
    ∃ mem', s.assign mem index value = ⟨mem', none⟩ ∧ mem'.length = mem.length ∧
      (∀ ix, Stored s mem' ix ↔ Stored s mem ix) ∧
      (∀ j v, item value j = some v → InBox j (selShape (items index) s.shape) →
        Stored s mem (selSource (items index) s.shape j) → Reads s mem' (selSource (items index) s.shape j) v) ∧
      (∀ ix, InBox ix s.shape → ¬ Stored s mem ix → Reads s mem ix s.unspec ∧ Reads s mem' ix s.unspec) ∧
      (∀ ix v, InBox ix s.shape → ¬ Selected (items index) s.shape ix → Reads s mem ix v → Reads s mem' ix v) ∧
      ∀ c, ¬ InWindow s c → mem'[c]? = mem[c]? := by
  obtain ⟨rows, b, hs, hm⟩ := sparse_of_wf h hc
  obtain ⟨L, hL, hn, he⟩ := hs.setItem_ok hp mem hm index hv hne (fun _ vi => value.getValue vi)
    (fun j => (item value j).getD s.unspec) (by
      intro m _ j hj _
      obtain ⟨v, hv⟩ := hw j hj
      simp only [getValue_of_item value j v hv, hv, Option.getD_some])
  have hnd := sparse_written_nodup hs (fun j => (item value j).getD s.unspec) L (fun j hj => (hL j).1 hj) hn
  generalize hl : (L.map fun j => ((s.cellAt (selSource (items index) s.shape j)).getD 0,
    (item value j).getD s.unspec)) = l at he hnd
  have hlen : (setCells mem l).length = mem.length := setCells_length _ _
  have h' : s.WF (setCells mem l) := h.of_length hlen
  have hm' : b.WF (setCells mem l) := by unfold Buffer.WF at *; omega
  have hst : ∀ ix, Stored s mem ix ↔ ix ∈ rows := sparse_stored hs hm fun _ => hp
  have hst' : ∀ ix, Stored s (setCells mem l) ix ↔ ix ∈ rows := sparse_stored hs hm' fun _ => hp
  have hun : ∀ m, b.WF m → ∀ ix, InBox ix s.shape → ix ∉ rows → Reads s m ix s.unspec := by
    intro m hm ix hi hr
    have := (hs.wf m hm).reads ix hi
    rwa [hs.at m hm ix hi, lookup_none _ _ hr, ← hs.unspec] at this
  refine ⟨_, he, hlen, fun ix => by rw [hst, hst'], ?_, ?_, ?_, ?_⟩
  · intro j v hv hj hr
    rw [hst] at hr
    have hi := hs.rows_ok.inbox _ hr
    obtain ⟨q, hq, e⟩ := List.getElem_of_mem hr
    have hcell := hs.cell_stored q hq
    rw [e] at hcell
    have := h.at_written l hnd _ hi _ v hcell (by
      rw [← hl]
      refine List.mem_map.2 ⟨j, (hL j).2 ⟨hj, hr⟩, ?_⟩
      simp only [hcell, hv, Option.getD_some])
    have hr' := h'.reads _ hi
    rwa [this] at hr'
  · intro ix hi hr
    rw [hst] at hr
    exact ⟨hun mem hm ix hi hr, hun _ hm' ix hi hr⟩
  · intro ix v hi hsel hr
    have := h.at_kept l ix hi (by
      intro c hc hmem
      rw [← hl] at hmem
      simp only [List.map_map, List.mem_map, Function.comp_apply] at hmem
      obtain ⟨j, hj, he⟩ := hmem
      obtain ⟨g1, g2⟩ := (hL j).1 hj
      obtain ⟨q, hq, e⟩ := List.getElem_of_mem g2
      have hcell := hs.cell_stored q hq
      rw [e] at hcell
      rw [hcell] at he
      simp only [Option.getD_some] at he
      apply hsel
      refine ⟨j, g1, ?_⟩
      have hix : ix ∈ rows := by
        by_contra hno
        rw [(hs.cell_none ix hi).2 hno] at hc
        simp at hc
      exact hs.cell_inj _ _ g2 hix (by rw [hcell, hc, he]))
    have hr' := h'.reads ix hi
    rwa [this, hr.at_eq] at hr'
  · intro c hc
    apply setCells_not_mem
    rw [← hl]
    simp only [List.map_map, List.mem_map, Function.comp_apply, not_exists, not_and]
    intro j hj he
    obtain ⟨q, hq, e⟩ := List.getElem_of_mem ((hL j).1 hj).2
    have hcell := hs.cell_stored q hq
    rw [e] at hcell
    rw [hcell, Option.getD_some] at he
    exact hc (hs.inWindow c (by omega) (by omega))

/-- A case of C38: `s[::-1, 1:] = [[7, 8], [9, 10]]`; the items 8 and 9 are dropped. -/
example : (Storage.coo sampleCOO).WF sampleItems ∧ ValidItems (items turned) [2, 3] ∧
    selShape (items turned) [2, 3] = [2, 2] ∧
    (Storage.coo sampleCOO).assign sampleItems turned
      (.seq [.seq [.leaf (some 7), .leaf (some 8)], .seq [.leaf (some 9), .leaf (some 10)]])
      = ⟨[some 1, some 10, some 7], none⟩ :=
  ⟨sampleCOO_wf, by simp [items, turned, ValidItems], by decide, by decide +kernel⟩

omit [DecidableEq V] in
/-- The writes of an assignment to one element of a sparse storage. -/
theorem sparse_setItem_elem {s : Storage V} {rows : List (List Int)} {b : Buffer V} (hs : Sparse s rows b)
    (hp : PosShape s.shape) (mem : List V) (hm : b.WF mem) (index : Index) (hv : ValidItems (items index) s.shape)
    (he : selShape (items index) s.shape = []) (v : V) (valueAt : List V → List Int → PyM V)
    (hw : ∀ m, valueAt m [] = .ok v) :
    s.setItem mem index valueAt = ⟨setCells mem ((List.range rows.length).map fun q => (b.offset + q, v)), none⟩ := by
  obtain ⟨nix, st, off, h1, h2, h3, h4, _⟩ := index_ok index s.shape (makeStrides s.shape) hp hv (makeStrides_length _)
  rw [he] at h3 h4
  have hst : st = [] := List.length_eq_zero_iff.1 h4
  subst hst
  have hb : ∀ e ∈ withPos rows, InBox e.1 s.shape := by
    intro e he
    obtain ⟨q, hq, e1, _⟩ := (mem_withPos e.1 e.2).1 he
    rw [← e1]
    exact hs.rows_ok.inbox _ (List.getElem_mem hq)
  have h5 := sliceEntries_elem (withPos rows) s.shape hb off
  have hwr : writeAll b.write1 valueAt ((withPos rows).map fun e => ([], e.2)) mem
      = ⟨setCells mem ((List.range rows.length).map fun q => (b.offset + q, v)), none⟩ := by
    rw [writeAll_ok _ _ (fun p => ((b.offset : Int) + p).toNat) (fun _ => v) mem.length _ mem rfl]
    · congr 2
      apply List.ext_getElem (by simp [withPos])
      intro i h1 h2
      simp only [withPos, List.map_map, List.getElem_map, List.getElem_mapIdx, Function.comp_apply, List.getElem_range,
        Prod.mk.injEq, and_true]
      omega
    · intro m hml e he v
      obtain ⟨e', he', rfl⟩ := List.mem_map.1 he
      obtain ⟨q, hq, _, e2⟩ := (mem_withPos e'.1 e'.2).1 he'
      have := hs.size
      unfold Buffer.WF at hm
      exact Buffer.write1_ok b m _ v (by simp only [e2]; omega) (by simp only [e2]; omega)
    · intro m hml e he
      obtain ⟨e', he', rfl⟩ := List.mem_map.1 he
      exact hw m
  rw [← hwr]
  cases hs with
  | coo h =>
    simp only [Storage.shape] at h1 h3 h5
    simp only [Storage.setItem, Storage.setPlan, h1, h3, h.entries_ok, bind, Except.bind, h5]
  | flatcoo h =>
    simp only [Storage.shape] at h1 h3 h5 hp
    simp only [Storage.setItem, Storage.setPlan, h1, h3, h.entries_ok hp, bind, Except.bind, h5]
  | csr h =>
    simp only [Storage.shape] at h1 h3 h5
    simp only [Storage.setItem, Storage.setPlan, h1, h3, h.entries_ok, bind, Except.bind, h5]

/-- C39, a defect.  `s[i, j, ...] = v` with an int on every axis sets all stored elements of a sparse storage. -/
theorem C39_sparse_element_assign (s : Storage V) (mem : List V) (h : s.WF mem)
    (hc : s.cls = .coo ∨ s.cls = .flatcoo ∨ s.cls = .csr) (hp : ∀ n ∈ s.shape, 0 < n) (index : Index)
    (hv : ValidItems (items index) s.shape) (he : selShape (items index) s.shape = []) (v : V) :
    ∃ mem', s.assign mem index (.leaf v) = ⟨mem', none⟩ ∧ mem'.length = mem.length ∧
      (∀ ix, Stored s mem' ix ↔ Stored s mem ix) ∧
      (∀ ix, Stored s mem ix → Reads s mem' ix v) ∧
      (∀ ix, InBox ix s.shape → ¬ Stored s mem ix → Reads s mem' ix s.unspec) ∧
      ∀ c, ¬ InWindow s c → mem'[c]? = mem[c]? := by
  obtain ⟨rows, b, hs, hm⟩ := sparse_of_wf h hc
  have hset := sparse_setItem_elem hs hp mem hm index hv he v (fun _ vi => (Nested.leaf v).getValue vi) fun _ => rfl
  generalize hl : ((List.range rows.length).map fun q => (b.offset + q, v)) = l at hset
  have hlen : (setCells mem l).length = mem.length := setCells_length _ _
  have h' : s.WF (setCells mem l) := h.of_length hlen
  have hm' : b.WF (setCells mem l) := by unfold Buffer.WF at *; omega
  have hst : ∀ ix, Stored s mem ix ↔ ix ∈ rows := sparse_stored hs hm fun _ => hp
  have hst' : ∀ ix, Stored s (setCells mem l) ix ↔ ix ∈ rows := sparse_stored hs hm' fun _ => hp
  refine ⟨_, hset, hlen, fun ix => by rw [hst, hst'], ?_, ?_, ?_⟩
  · intro ix hx
    rw [hst] at hx
    have hi := hs.rows_ok.inbox _ hx
    obtain ⟨q, hq, rfl⟩ := List.getElem_of_mem hx
    have := h.at_written l (by
      rw [← hl, List.map_map]
      apply List.nodup_range.map_on
      intro x _ y _ hxy
      simp only [Function.comp_apply] at hxy
      omega) _ hi _ v (hs.cell_stored q hq) (by
        rw [← hl]
        exact List.mem_map.2 ⟨q, by simpa using hq, rfl⟩)
    have hr' := h'.reads _ hi
    rwa [this] at hr'
  · intro ix hi hx
    rw [hst] at hx
    have := h'.reads ix hi
    rwa [hs.at _ hm' ix hi, lookup_none _ _ hx, ← hs.unspec] at this
  · intro c hc
    apply setCells_not_mem
    rw [← hl]
    simp only [List.map_map, List.mem_map, Function.comp_apply, not_exists, not_and, List.mem_range]
    intro q hq he
    exact hc (hs.inWindow c (by omega) (by omega))

/-- A case of C39: `s[0, 0] = 7`. -/
example : (Storage.csr sampleCSR).WF sampleItems ∧ selShape (items (.tuple [.int 0, .int 0])) [2, 3] = [] ∧
    (Storage.csr sampleCSR).assign sampleItems (.tuple [.int 0, .int 0]) (.leaf (some 7))
      = ⟨[some 7, some 7, some 7], none⟩ :=
  ⟨sampleCSR_wf, by decide, by decide +kernel⟩

/-! ## Assignments that raise -/

omit [DecidableEq V] in
theorem walk_of_no_place (n : Nested V) (ix : List Int) (h0 : ∀ i ∈ ix, 0 ≤ i) (h : place n ix = none) :
    ∃ e, n.walk ix = .error e := by
  induction ix generalizing n with
  | nil => simp [place] at h
  | cons i ix ih =>
    cases n with
    | leaf w => exact ⟨_, rfl⟩
    | seq items =>
      have hi : 0 ≤ i := h0 i (by simp)
      simp only [place, if_pos hi] at h
      simp only [Nested.walk, pyGet, if_pos hi]
      cases hx : items[i.toNat]? with
      | none => exact ⟨.index, rfl⟩
      | some x =>
        rw [hx] at h
        obtain ⟨e, he⟩ := ih x (fun i hi => h0 i (by simp [hi])) h
        exact ⟨e, by simp only [bind, Except.bind, he]⟩

omit [DecidableEq V] in
theorem getValue_of_no_place (n : Nested V) (ix : List Int) (h0 : ∀ i ∈ ix, 0 ≤ i) (h : place n ix = none) :
    ∃ e, n.getValue ix = .error e := by
  cases n with
  | seq items => exact walk_of_no_place _ _ h0 h
  | leaf w => cases ix with
    | nil => simp [place] at h
    | cons i ix => exact ⟨_, rfl⟩

theorem inBox_nonneg {ix : List Int} {shape : List Nat} (h : InBox ix shape) : ∀ i ∈ ix, 0 ≤ i := by
  induction ix generalizing shape with
  | nil => simp
  | cons i ix ih => cases shape with
    | nil => exact h.elim
    | cons n shape =>
      intro x hx
      rcases List.mem_cons.1 hx with rfl | hx
      · exact h.1.1
      · exact ih h.2 x hx

/-- C48.  `s[index] = value` where `j0` is the first selected index, in lexicographic order, without an item of the
value: the assignment raises, the elements before `j0` have been written, the others have not. -/
theorem C48_assign_prefix (s : Strided V) (mem : List V) (h : s.WF mem) (hd : DistinctAddresses s.shape s.strides)
    (hp : ∀ n ∈ s.shape, 0 < n) (index : Index) (hv : ValidItems (items index) s.shape) (value : Nested V)
    (j0 : List Int) (hj0 : InBox j0 (selShape (items index) s.shape)) (hmiss : place value j0 = none)
    (hpre : ∀ j, InBox j (selShape (items index) s.shape) → lexLt j j0 → ∃ v, item value j = some v) :
    ∃ mem' e, (Storage.strided s).assign mem index value = ⟨mem', some e⟩ ∧
      (∀ j v, InBox j (selShape (items index) s.shape) → lexLt j j0 → item value j = some v →
        Reads (.strided s) mem' (selSource (items index) s.shape j) v) ∧
      (∀ ix v, InBox ix s.shape →
        (∀ j, InBox j (selShape (items index) s.shape) → lexLt j j0 → selSource (items index) s.shape j ≠ ix) →
        Reads (.strided s) mem ix v → Reads (.strided s) mem' ix v) := by
  obtain ⟨pre, rest, hsplit⟩ := List.append_of_mem ((mem_indexProduct _ _).2 hj0)
  have hsort := indexProduct_sorted (selShape (items index) s.shape)
  have hnd := indexProduct_nodup (selShape (items index) s.shape)
  rw [hsplit] at hsort hnd
  have hmem : ∀ j, InBox j (selShape (items index) s.shape) ↔ j ∈ pre ++ j0 :: rest := by
    intro j; rw [← hsplit, mem_indexProduct]
  have hbefore : ∀ j ∈ pre, lexLt j j0 := fun j hj =>
    (List.pairwise_append.1 hsort).2.2 j hj j0 (by simp)
  have hiff : ∀ j, InBox j (selShape (items index) s.shape) → lexLt j j0 → j ∈ pre := by
    intro j hj hlt
    rw [hmem] at hj
    rcases List.mem_append.1 hj with hj | hj
    · exact hj
    · exfalso
      rcases List.mem_cons.1 hj with rfl | hj
      · exact lexLt_irrefl _ hlt
      · have := (List.pairwise_cons.1 (List.pairwise_append.1 hsort).2.1).1 j hj
        exact lexLt_asymm hlt this
  have hinb : ∀ j ∈ pre, InBox j (selShape (items index) s.shape) := fun j hj => (hmem j).2 (by simp [hj])
  obtain ⟨e, he⟩ := getValue_of_no_place value j0 (inBox_nonneg hj0) hmiss
  have hset := Strided.setItem_stop h hp index hv (fun _ vi => value.getValue vi)
    (fun j => (item value j).getD s.data.unspec) pre rest j0 e hsplit (by
      intro m _ j hj
      obtain ⟨v, hv⟩ := hpre j (hinb j hj) (hbefore j hj)
      simp only [getValue_of_item value j v hv, hv, Option.getD_some]) (fun _ _ => he)
  obtain ⟨_, g2, g3, _⟩ := strided_written h hd hp hv (fun j => (item value j).getD s.data.unspec) pre hinb
    (List.nodup_append.1 hnd).1 _ rfl
  refine ⟨_, e, hset, ?_, ?_⟩
  · intro j v hj hlt hi
    have := g2 j (hiff j hj hlt)
    simpa only [hi, Option.getD_some] using this
  · intro ix v hi hno hr
    exact g3 ix v hi (fun j hj => hno j (hinb j hj) (hbefore j hj)) hr

/-- A case of C48: `s[::-1, 1:] = [[7, 8], [9]]`, which misses the item `[1, 1]`. -/
example : (let value : Nested (Option Int) := .seq [.seq [.leaf (some 7), .leaf (some 8)], .seq [.leaf (some 9)]]
    place value [1, 1] = none ∧ lexLt [1, 0] [1, 1] ∧ InBox [1, 1] (selShape (items turned) [2, 3]) ∧
    (Storage.strided sampleStrided).assign sampleCells turned value
      = ⟨[some 1, some 9, some 3, none, some 7, some 8], some .index⟩) := by
  refine ⟨by decide, by simp [lexLt], ?_, by decide +kernel⟩
  rw [show selShape (items turned) [2, 3] = [2, 2] by decide]
  simp [InBox]

end Gcs
