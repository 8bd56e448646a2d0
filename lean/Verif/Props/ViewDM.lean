import Verif.Props.Assigning
import Verif.Props.Constructors
import Verif.Props.Positions
import Verif.Props.SettingDM

/-!
# C94: a `DM` made around a storage by calling the constructor

`DM(shape, rdimensions, rstrides, roffset, data)` has the elements of `data`, seen through a map of indices.
-/

namespace Gcs

open Spec

variable {V : Type} [DecidableEq V]

omit [DecidableEq V] in
theorem groupStrides_of {rdims : List (List Nat)} {rstrides : List (List Int)}
    (h : List.Forall₂ (fun (st : List Int) (g : List Nat) => st.length = g.length) rstrides rdims) :
    GroupStrides rdims rstrides := by
  induction h with
  | nil => trivial
  | cons h _ ih => exact ⟨h, ih⟩

omit [DecidableEq V] in
theorem target_length (rdims : List (List Nat)) (rstrides : List (List Int)) (roffset ix : List Int)
    (h1 : GroupStrides rdims rstrides) (h2 : roffset.length = rdims.length) :
    (target rdims rstrides roffset ix).length = rdims.length := by
  induction rdims generalizing rstrides roffset with
  | nil => simp [target]
  | cons g rdims ih =>
    match rstrides, roffset, h1, h2 with
    | s :: rstrides, o :: roffset, h1, h2 =>
      simp only [target, List.length_cons, Nat.add_right_cancel_iff]
      exact ih rstrides roffset h1.2 (by simpa using h2)
    | s :: rstrides, [], h1, h2 => simp at h2

/-- The arguments of a call of the constructor: the axes in the groups are those of the shape, there is a list of strides
and an offset for each group, and a stride for each axis of a group. -/
structure Spec.CallOk (shape : List Nat) (rdims : List (List Nat)) (rstrides : List (List Int)) (roffset : List Int) : Prop where
  ne : rdims ≠ []
  axes : ∀ a, (∃ g ∈ rdims, a ∈ g) ↔ a < shape.length
  strides : List.Forall₂ (fun (st : List Int) (g : List Nat) => st.length = g.length) rstrides rdims
  offsets : roffset.length = rdims.length

/-- The object of the call. -/
def calledDM (shape : List Nat) (rdims : List (List Nat)) (rstrides : List (List Int)) (roffset : List Int) : DMMeta :=
  ⟨shape, rdims, rdims.map fun g => g.map fun d => shape.getD d 0, rstrides, roffset⟩

omit [DecidableEq V] in
theorem Spec.CallOk.made {shape : List Nat} {rdims : List (List Nat)} {rstrides : List (List Int)} {roffset : List Int}
    (h : CallOk shape rdims rstrides roffset) :
    DMMeta.new shape rdims rstrides roffset = .ok (calledDM shape rdims rstrides roffset) :=
  ((C78_dm shape rdims rstrides roffset).2 h.ne).1 h.axes

omit [DecidableEq V] in
theorem Spec.CallOk.position {shape : List Nat} {rdims : List (List Nat)} {rstrides : List (List Int)} {roffset : List Int}
    (h : CallOk shape rdims rstrides roffset) (ix : List Int) (hi : InBox ix shape) :
    (calledDM shape rdims rstrides roffset).getDataPosition ix = .ok (target rdims rstrides roffset ix) := by
  refine target_ok shape rdims rstrides roffset ix (groupStrides_of h.strides) h.offsets fun d hd => ?_
  rw [hi.length_eq]
  exact (h.axes d).1 (List.mem_flatten.1 hd)

/-- C94, inside.  If all positions are inside the wrapped storage, of any class, the call makes a well-formed `DM`, and its
elements are those of the wrapped storage at the positions: whatever the list holds, so that the one shows the writes to the
other. -/
theorem C94_inside (shape : List Nat) (rdims : List (List Nat)) (rstrides : List (List Int)) (roffset : List Int)
    (h : CallOk shape rdims rstrides roffset) (d : Storage V) (mem : List V) (hd : d.WF mem)
    (hr : d.shape.length = rdims.length)
    (hin : ∀ ix, InBox ix shape → InBox (target rdims rstrides roffset ix) d.shape) :
    ∃ m, DMMeta.new shape rdims rstrides roffset = .ok m ∧ m.shape = shape ∧ (Storage.dm m d).WF mem ∧
      ∀ ix, InBox ix shape → ∀ v, Reads (.dm m d) mem ix v ↔ Reads d mem (target rdims rstrides roffset ix) v := by
  have hm : (calledDM shape rdims rstrides roffset).WF d.shape :=
    ⟨h.ne, fun d => by rw [List.mem_flatten]; exact h.axes d, rfl, groupStrides_of h.strides, h.offsets, hr, hin⟩
  refine ⟨_, h.made, rfl, ⟨hm, hd⟩, fun ix hi v => ?_⟩
  have h1 := Storage.WF.reads (s := .dm (calledDM shape rdims rstrides roffset) d) ⟨hm, hd⟩ ix hi
  have h2 := hd.reads _ (hm.into ix hi)
  rw [at_dm hm hd ix hi] at h1
  exact ⟨fun hx => hx.at_eq ▸ (h1.at_eq ▸ h2), fun hx => (by rw [← hx.at_eq]; exact h1)⟩

/-- C94, anywhere.  For a wrapped storage of another class than `Buffer` and any strides and offsets, the element is that at
the position taken modulo the sizes. -/
theorem C94_anywhere (shape : List Nat) (rdims : List (List Nat)) (rstrides : List (List Int)) (roffset : List Int)
    (h : CallOk shape rdims rstrides roffset) (d : Storage V) (mem : List V) (hd : d.WF mem) (hc : d.cls ≠ .buffer)
    (hp : ∀ n ∈ d.shape, 0 < n) (hr : d.shape.length = rdims.length) :
    ∃ m, DMMeta.new shape rdims rstrides roffset = .ok m ∧ m.shape = shape ∧
      ∀ ix, InBox ix shape → ∃ v, Reads (.dm m d) mem ix v ∧
        Reads d mem (wrapped (target rdims rstrides roffset ix) d.shape) v := by
  refine ⟨_, h.made, rfl, fun ix hi => ?_⟩
  have hl : (target rdims rstrides roffset ix).length = d.shape.length := by
    rw [hr]
    exact target_length _ _ _ _ (groupStrides_of h.strides) h.offsets
  refine ⟨_, getItem_of_getVal ?_, hd.reads _ (wrapped_inBox _ _ hp hl)⟩
  rw [← getVal_wrapped hd hc hp _ hl]
  simp only [Storage.getVal, Storage.getItem, normalize_ints ix (calledDM shape rdims rstrides roffset).shape hi, bind, Except.bind,
    elementIndex_ints, h.position ix hi]

omit [DecidableEq V] in
theorem strided_set_wrapped {s : Strided V} {mem : List V} (h : s.WF mem) (hp : ∀ n ∈ s.shape, 0 < n) (r : List Int)
    (hl : r.length = s.shape.length) (v : V) :
    (Storage.strided s).setItem mem (.tuple (r.map .int)) (fun _ _ => .ok v)
      = ⟨mem.set (((Storage.strided s).cellAt (wrapped r s.shape)).getD 0) v, none⟩ := by
  rw [← dense_set (d := .strided s) h (.inr rfl) _ (wrapped_inBox r s.shape hp hl) v]
  simp only [Storage.setItem, Strided.setItem, normalizeIndex, normalizeItems_wrapped r s.shape hp hl]

/-- C94, assignments.  `s[index] = value` for a `DM` around a `Strided`, any strides and offsets, an index that keeps an axis
and a value with an item for every selected index.  Selected elements with the same position get the item of the last of
them.  All other elements of the wrapped storage, and all other cells of the list, are unchanged. -/
theorem C94_assign (shape : List Nat) (rdims : List (List Nat)) (rstrides : List (List Int)) (roffset : List Int)
    (h : CallOk shape rdims rstrides roffset) (s : Strided V) (mem : List V) (hd : s.WF mem)
    (hcell : DistinctAddresses s.shape s.strides) (hp : ∀ n ∈ s.shape, 0 < n) (hr : s.shape.length = rdims.length)
    (hps : ∀ n ∈ shape, 0 < n) (index : Index) (hv : ValidItems (items index) shape) (hne : selShape (items index) shape ≠ [])
    (value : Nested V) (hw : ∀ j, InBox j (selShape (items index) shape) → ∃ v, item value j = some v) :
    ∃ m mem', DMMeta.new shape rdims rstrides roffset = .ok m ∧
      (Storage.dm m (.strided s)).assign mem index value = ⟨mem', none⟩ ∧ mem'.length = mem.length ∧
      (∀ j v, InBox j (selShape (items index) shape) → item value j = some v →
        (∀ k, InBox k (selShape (items index) shape) → k ≠ j →
          wrapped (target rdims rstrides roffset (selSource (items index) shape k)) s.shape
            = wrapped (target rdims rstrides roffset (selSource (items index) shape j)) s.shape →
          lexLt (selSource (items index) shape k) (selSource (items index) shape j)) →
        Reads (.strided s) mem' (wrapped (target rdims rstrides roffset (selSource (items index) shape j)) s.shape) v) ∧
      (∀ r v, InBox r s.shape → Reads (.strided s) mem r v →
        (∀ j, InBox j (selShape (items index) shape) →
          wrapped (target rdims rstrides roffset (selSource (items index) shape j)) s.shape ≠ r) →
        Reads (.strided s) mem' r v) ∧
      ∀ c : Nat, (∀ ix, InBox ix s.shape → ¬ InCell (.strided s) ix c) → mem'[c]? = mem[c]? := by
  obtain ⟨L, h1, h2, h3, h4⟩ := dm_plan_any (m := calledDM shape rdims rstrides roffset) h.position hps index hv hne
  have hlen : ∀ ix, (target rdims rstrides roffset ix).length = s.shape.length := fun ix => by
    rw [hr]
    exact target_length _ _ _ _ (groupStrides_of h.strides) h.offsets
  generalize hT : (fun j => wrapped (target rdims rstrides roffset (selSource (items index) shape j)) s.shape) = T
  have hT' : ∀ j, wrapped (target rdims rstrides roffset (selSource (items index) shape j)) s.shape = T j := fun j => by rw [← hT]
  simp only [hT']
  have hTb : ∀ j, InBox (T j) s.shape := fun j => by rw [← hT']; exact wrapped_inBox _ _ hp (hlen _)
  have hset : (Storage.dm (calledDM shape rdims rstrides roffset) (.strided s)).assign mem index value
      = ⟨setCells mem (L.map fun j => (((Storage.strided s).cellAt (T j)).getD 0, (item value j).getD s.data.unspec)), none⟩ := by
    simp only [Storage.assign]
    rw [Storage.setItem, h1]
    simp only
    rw [writeAll_ok _ _ (fun r => ((Storage.strided s).cellAt (wrapped r s.shape)).getD 0)
      (fun j => (item value j).getD s.data.unspec) mem.length _ mem rfl]
    · rw [List.map_map]
      simp only [Function.comp_def, calledDM, hT']
    · intro m' hl e he v
      obtain ⟨x, hx, rfl⟩ := List.mem_map.1 he
      exact strided_set_wrapped (Storage.WF.of_length (s := .strided s) hd hl) hp _ (hlen _) v
    · intro m' hl e he
      obtain ⟨x, hx, rfl⟩ := List.mem_map.1 he
      obtain ⟨v, hv⟩ := hw x ((h2 x).1 hx)
      simp only [getValue_of_item value x v hv, hv, Option.getD_some]
  generalize hl : (L.map fun j => (((Storage.strided s).cellAt (T j)).getD 0, (item value j).getD s.data.unspec)) = l at hset
  have hd : (Storage.strided s).WF mem := hd
  have hlen' : (setCells mem l).length = mem.length := setCells_length _ _
  have hd' : (Storage.strided s).WF (setCells mem l) := hd.of_length hlen'
  have hinj : ∀ x y, InBox x s.shape → InBox y s.shape → ((Storage.strided s).cellAt x).getD 0 = ((Storage.strided s).cellAt y).getD 0 →
      x = y := by
    intro x y hx hy he
    have hs : s.WF mem := hd
    apply hcell x y hx hy
    have a := hs.addr x hx
    have b := hs.addr y hy
    simp only [Storage.cellAt, Strided.cell, Option.getD_some] at he
    omega
  refine ⟨_, _, h.made, hset, hlen', ?_, ?_, ?_⟩
  · intro j v hj hiv hlast
    have hr := hd'.reads (T j) (hTb j)
    obtain ⟨c, hc⟩ := dense_cell (d := .strided s) (.inr rfl) (T j) (hTb j)
    have hlt := hd.cell_lt (T j) (hTb j) c hc
    obtain ⟨pre, post, hL⟩ := List.append_of_mem ((h2 j).2 hj)
    have hval : (setCells mem l)[c]? = some v := by
      rw [← hl, hL, List.map_append, List.map_cons, setCells_append, setCells, setCells_not_mem]
      · simp only [hc, hiv, Option.getD_some]
        rw [List.getElem?_set_self (by rw [setCells_length]; exact hlt)]
      · simp only [List.map_map, List.mem_map, Function.comp_apply, not_exists, not_and]
        intro k hk he
        have hkL : k ∈ L := by rw [hL]; simp [hk]
        have e := hinj (T k) (T j) (hTb k) (hTb j) (by rw [he, hc, Option.getD_some])
        rw [hL] at h3 h4
        have hkj : k ≠ j := by
          rintro rfl
          exact (List.nodup_cons.1 (List.nodup_append.1 h3).2.1).1 hk
        have g1 := hlast k ((h2 k).1 hkL) hkj e
        simp only [List.map_append, List.map_cons] at h4
        have g2 := (List.pairwise_cons.1 (List.pairwise_append.1 h4).2.1).1 _ (List.mem_map.2 ⟨k, hk, rfl⟩)
        exact lexLt_asymm g1 g2
    rw [hd'.at_cell (T j) (hTb j), hc] at hr
    simp only [cellVal, List.getD_eq_getElem?_getD, hval, Option.getD_some] at hr
    exact hr
  · intro r v hrb hrv hno
    have hr' := hd'.reads r hrb
    rwa [hd.at_kept l r hrb (by
      intro c hc hmem
      rw [← hl] at hmem
      simp only [List.map_map, List.mem_map, Function.comp_apply] at hmem
      obtain ⟨j, hj, he⟩ := hmem
      exact hno j ((h2 j).1 hj) (hinj _ _ (hTb j) hrb (he.trans (by rw [hc, Option.getD_some])))), hrv.at_eq] at hr'
  · intro c hno
    apply setCells_not_mem
    rw [← hl]
    simp only [List.map_map, List.mem_map, Function.comp_apply, not_exists, not_and]
    intro j hj he
    obtain ⟨a, ha⟩ := dense_cell (d := .strided s) (.inr rfl) (T j) (hTb j)
    rw [ha, Option.getD_some] at he
    subst he
    exact hno (T j) (hTb j) (dense_inCell hd (.inr rfl) _ (hTb j) a ha)

/-! ## Views -/

omit [DecidableEq V] in
theorem target_axes (p : List Nat) (ix : List Int) :
    target (p.map fun a => [a]) (p.map fun _ => [1]) (p.map fun _ => 0) ix = p.map fun a => ix.getD a 0 := by
  induction p with
  | nil => rfl
  | cons a p ih =>
    simp only [List.map_cons, target, ih, List.map_nil, address]
    congr 1
    omega

omit [DecidableEq V] in
theorem axes_call (shape p : List Nat) (hne : p ≠ []) (ha : ∀ a, a ∈ p ↔ a < shape.length) :
    CallOk shape (p.map fun a => [a]) (p.map fun _ => [1]) (p.map fun _ => 0) := by
  refine ⟨by simpa using hne, fun a => ?_, ?_, by simp⟩
  · rw [← ha a]
    constructor
    · rintro ⟨g, hg, hag⟩
      obtain ⟨b, hb, rfl⟩ := List.mem_map.1 hg
      rwa [List.mem_singleton.1 hag]
    · exact fun h => ⟨[a], List.mem_map.2 ⟨a, h, rfl⟩, by simp⟩
  · clear hne ha
    induction p with
    | nil => exact .nil
    | cons a p ih => exact .cons rfl ih

/-- C94, axes.  A group with one axis of the `DM` for every axis of the wrapped storage.  With each axis in one group the
`DM` is a transpose of the wrapped storage, with an axis in several groups a diagonal. -/
theorem C94_axes (shape p : List Nat) (hne : p ≠ []) (ha : ∀ a, a ∈ p ↔ a < shape.length) (d : Storage V) (mem : List V)
    (hd : d.WF mem) (hr : List.Forall₂ (fun a n => shape.getD a 0 ≤ n) p d.shape) :
    ∃ m, DMMeta.new shape (p.map fun a => [a]) (p.map fun _ => [1]) (p.map fun _ => 0) = .ok m ∧ m.shape = shape ∧
      (Storage.dm m d).WF mem ∧
      ∀ ix, InBox ix shape → ∀ v, Reads (.dm m d) mem ix v ↔ Reads d mem (p.map fun a => ix.getD a 0) v := by
  have h := C94_inside shape _ _ _ (axes_call shape p hne ha) d mem hd (by simp [hr.length_eq]) (by
    intro ix hi
    rw [target_axes]
    have hmem : ∀ a ∈ p, a < shape.length := fun a h => (ha a).1 h
    clear ha hne
    generalize d.shape = sh at hr
    induction hr with
    | nil => trivial
    | cons h _ ih =>
      rename_i a n p sh _
      have := inBox_getD ix shape hi a (hmem a (by simp))
      refine ⟨⟨this.1, by show ix.getD a 0 < _; omega⟩, ih fun b hb => hmem b (by simp [hb])⟩)
  simpa only [target_axes] using h

/-- C94, transpose: the two axes exchanged. -/
theorem C94_transpose (n k : Nat) (d : Storage V) (mem : List V) (hd : d.WF mem) (hs : d.shape = [n, k]) :
    ∃ m, DMMeta.new [k, n] [[1], [0]] [[1], [1]] [0, 0] = .ok m ∧ m.shape = [k, n] ∧ (Storage.dm m d).WF mem ∧
      ∀ i j, InBox [j, i] [k, n] → ∀ v, Reads (.dm m d) mem [j, i] v ↔ Reads d mem [i, j] v := by
  obtain ⟨m, h1, h2, h3, h4⟩ := C94_axes [k, n] [1, 0] (by simp) (by intro a; simp; omega) d mem hd (by rw [hs]; simp)
  exact ⟨m, h1, h2, h3, fun i j hi v => h4 [j, i] hi v⟩

/-- C94, diagonal of a storage with `r` axes. -/
theorem C94_diagonal (n r : Nat) (hr : 0 < r) (d : Storage V) (mem : List V) (hd : d.WF mem)
    (hs : d.shape.length = r) (hn : ∀ k ∈ d.shape, n ≤ k) :
    ∃ m, DMMeta.new [n] (List.replicate r [0]) (List.replicate r [1]) (List.replicate r 0) = .ok m ∧ m.shape = [n] ∧
      (Storage.dm m d).WF mem ∧
      ∀ i, InBox [i] [n] → ∀ v, Reads (.dm m d) mem [i] v ↔ Reads d mem (List.replicate r i) v := by
  obtain ⟨m, h1, h2, h3, h4⟩ := C94_axes [n] (List.replicate r 0) (by simp; omega)
    (by intro a; simp [List.mem_replicate]; omega) d mem hd (by
      rw [← hs]
      generalize d.shape = sh at hn
      induction sh with
      | nil => exact .nil
      | cons k sh ih => exact .cons (hn k (by simp)) (ih fun x hx => hn x (by simp [hx])))
  simp only [List.map_replicate] at h1 h4
  exact ⟨m, h1, h2, h3, fun i hi v => h4 [i] hi v⟩

omit [DecidableEq V] in
theorem window_call (a b : Nat) : CallOk [a, b] [[0, 1]] [[1, 1]] [0] :=
  ⟨by simp, by intro x; simp; omega, by simp, rfl⟩

/-- C94, windows: row `i` is the window of `b` elements that starts at `i`. -/
theorem C94_windows (a b n : Nat) (hab : a + b ≤ n + 1) (d : Storage V) (mem : List V) (hd : d.WF mem) (hs : d.shape = [n]) :
    ∃ m, DMMeta.new [a, b] [[0, 1]] [[1, 1]] [0] = .ok m ∧ m.shape = [a, b] ∧ (Storage.dm m d).WF mem ∧
      ∀ i j, InBox [i, j] [a, b] → ∀ v, Reads (.dm m d) mem [i, j] v ↔ Reads d mem [i + j] v := by
  obtain ⟨m, h1, h2, h3, h4⟩ := C94_inside [a, b] [[0, 1]] [[1, 1]] [0] (window_call a b) d mem hd (by simp [hs]) (by
    intro ix hi
    match ix, hi with
    | [i, j], hi =>
      rw [hs]
      simp [InBox, target, address] at hi ⊢
      omega)
  refine ⟨m, h1, h2, h3, fun i j hi v => ?_⟩
  have := h4 [i, j] hi v
  simpa [target, address] using this

/-- C94, windows are written in order: where they overlap the last one wins. -/
theorem C94_windows_assign (a b : Nat) (ha : 0 < a) (hb : 0 < b) (s : Strided V) (mem : List V) (hd : s.WF mem)
    (hs : s.shape = [a + b - 1]) (hcell : DistinctAddresses s.shape s.strides) (value : Nested V)
    (hw : ∀ j, InBox j [a, b] → ∃ v, item value j = some v) :
    ∃ m mem', DMMeta.new [a, b] [[0, 1]] [[1, 1]] [0] = .ok m ∧
      (Storage.dm m (.strided s)).assign mem (.tuple []) value = ⟨mem', none⟩ ∧
      ∀ k v, InBox [k] [a + b - 1] → item value [min k (a - 1), k - min k (a - 1)] = some v → Reads (.strided s) mem' [k] v := by
  have hpos : ∀ n ∈ s.shape, 0 < n := by rw [hs]; simp; omega
  obtain ⟨m, mem', h1, h2, -, h3, -, -⟩ := C94_assign [a, b] [[0, 1]] [[1, 1]] [0] (window_call a b) s mem hd hcell hpos (by simp [hs])
    (by simp; omega) (.tuple []) trivial (by simp [items, selShape]) value hw
  refine ⟨m, mem', h1, h2, fun k v hk hv => ?_⟩
  have hk' : 0 ≤ k ∧ k < (a + b - 1 : Nat) := hk.1
  have key : ∀ i j : Int, InBox [i, j] [a, b] →
      wrapped (target [[0, 1]] [[1, 1]] [0] (selSource (items (.tuple [])) [a, b] [i, j])) s.shape = [i + j] := by
    intro i j hij
    simp only [InBox] at hij
    simp [items, selSource, target, address, hs, wrapped]
    exact Int.emod_eq_of_lt (by omega) (by omega)
  have hin : InBox [min k (a - 1), k - min k (a - 1)] [a, b] := by
    simp only [InBox]
    generalize hN : a + b - 1 = N at hk'
    have : (N : Int) = a + b - 1 := by omega
    refine ⟨⟨?_, ?_⟩, ⟨?_, ?_⟩, trivial⟩ <;> omega
  have := h3 _ v hin hv (by
    intro j hj hne he
    match j, hj with
    | [x, y], hj =>
      have hj : InBox [x, y] [a, b] := hj
      rw [key x y hj, key _ _ hin] at he
      simp only [List.cons.injEq, and_true] at he
      simp only [InBox] at hj
      have hne' : x ≠ min k (a - 1) := fun e => hne (by subst e; congr 2; omega)
      exact .inl (by omega))
  rw [key _ _ hin] at this
  have e : min k ((a : Int) - 1) + (k - min k (a - 1)) = k := by omega
  rwa [e] at this

/-- C94, reversed: strides and offsets may be negative. -/
theorem C94_reversed (n : Nat) (hn : 0 < n) (d : Storage V) (mem : List V) (hd : d.WF mem) (hc : d.cls ≠ .buffer)
    (hs : d.shape = [n]) :
    ∃ m, DMMeta.new [n] [[0]] [[-1]] [-1] = .ok m ∧ m.shape = [n] ∧
      ∀ i, InBox [i] [n] → ∃ v, Reads (.dm m d) mem [i] v ∧ Reads d mem [n - 1 - i] v := by
  obtain ⟨m, h1, h2, h3⟩ := C94_anywhere [n] [[0]] [[-1]] [-1] ⟨by simp, by intro x; simp, by simp, rfl⟩ d mem hd hc
    (by rw [hs]; simpa using hn) (by simp [hs])
  refine ⟨m, h1, h2, fun i hi => ?_⟩
  obtain ⟨v, g1, g2⟩ := h3 [i] hi
  refine ⟨v, g1, ?_⟩
  have hi' : 0 ≤ i ∧ i < n := hi.1
  have e : wrapped (target [[0]] [[-1]] [-1] [i]) d.shape = [n - 1 - i] := by
    simp only [hs, target, address, wrapped, List.map_cons, List.map_nil, List.getD_cons_zero, List.zipWith_cons_cons, List.zipWith_nil_left]
    congr 1
    rw [← Int.add_emod_right, Int.emod_eq_of_lt (by omega) (by omega)]
    omega
  rwa [e] at g2

/-- C94, reshape: a flat storage with the elements in row-major order. -/
theorem C94_reshape (shape : List Nat) (d : Storage V) (mem : List V) (hd : d.WF mem) (hs : d.shape = [count shape]) :
    ∃ m, DMMeta.new shape [List.range shape.length] [makeStrides shape] [0] = .ok m ∧ m.shape = shape ∧
      (Storage.dm m d).WF mem ∧
      ∀ ix, InBox ix shape → ∀ v, Reads (.dm m d) mem ix v ↔ Reads d mem [rowMajor ix shape 0] v := by
  have ht : ∀ ix, InBox ix shape → target [List.range shape.length] [makeStrides shape] [0] ix = [rowMajor ix shape 0] := by
    intro ix hi
    have e : (List.range shape.length).map (fun d => ix.getD d 0) = ix := by
      apply List.ext_getElem
      · simp [hi.length_eq]
      · intro k h1 h2
        simp [h2]
    simp only [target, e, Int.zero_add, rowMajor_address ix shape hi]
  obtain ⟨m, h1, h2, h3, h4⟩ := C94_inside shape [List.range shape.length] [makeStrides shape] [0]
    ⟨by simp, by intro a; simp, by simp [makeStrides_length], rfl⟩ d mem hd (by simp [hs]) (by
      intro ix hi
      rw [ht ix hi, hs, count_eq, rowMajor_address ix shape hi]
      have := address_bound hi
      exact ⟨this, trivial⟩)
  refine ⟨m, h1, h2, h3, fun ix hi v => ?_⟩
  rw [h4 ix hi v, ht ix hi]

/-! ## Cases -/

/-- A list; the elements `1, 2, 3, 4` of it as an array with one axis, and `[[0, 1], [2, 3]]`. -/
def fourCells : List (Option Int) := [none, some 0, some 1, some 2, some 3, some 4]

def fourFlat : Strided (Option Int) := ⟨[4], [1], ⟨4, 2, none⟩⟩

def fourSquare : Strided (Option Int) := ⟨[2, 2], [2, 1], ⟨4, 1, none⟩⟩

theorem fourFlat_wf : fourFlat.WF fourCells :=
  ⟨rfl, by unfold Buffer.WF; decide, fun ix h => by
    match ix, h with
    | [i], h => simp [InBox, fourFlat, address] at *; omega⟩

theorem fourSquare_wf : fourSquare.WF fourCells :=
  ⟨rfl, by unfold Buffer.WF; decide, fun ix h => by
    match ix, h with
    | [i, j], h => simp [InBox, fourSquare, address] at *; omega⟩

/-- Cases of C94: the transpose, the diagonal, the windows, the reversed storage and the reshaped one. -/
example : (Storage.strided fourSquare).WF fourCells ∧ (Storage.strided fourFlat).WF fourCells ∧
    Reads (.dm (calledDM [2, 2] [[1], [0]] [[1], [1]] [0, 0]) (.strided fourSquare)) fourCells [0, 1] (some 2) ∧
    Reads (.strided fourSquare) fourCells [1, 0] (some 2) ∧
    Reads (.dm (calledDM [2] [[0], [0]] [[1], [1]] [0, 0]) (.strided fourSquare)) fourCells [1] (some 3) ∧
    Reads (.dm (calledDM [3, 2] [[0, 1]] [[1, 1]] [0]) (.strided fourFlat)) fourCells [2, 1] (some 4) ∧
    Reads (.dm (calledDM [4] [[0]] [[-1]] [-1]) (.strided fourFlat)) fourCells [0] (some 4) ∧
    Reads (.dm (calledDM [2, 2] [[0, 1]] [[2, 1]] [0]) (.strided fourFlat)) fourCells [1, 0] (some 3) :=
  ⟨fourSquare_wf, fourFlat_wf, by unfold Reads; decide +kernel, by unfold Reads; decide +kernel, by unfold Reads; decide +kernel,
    by unfold Reads; decide +kernel, by unfold Reads; decide +kernel, by unfold Reads; decide +kernel⟩

/-- A case of C94, assignments: of the windows `[10, 11]`, `[12, 13]` and `[14, 15]` the first elements remain, and the last
window. -/
example : DistinctAddresses fourFlat.shape fourFlat.strides ∧
    (Storage.dm (calledDM [3, 2] [[0, 1]] [[1, 1]] [0]) (.strided fourFlat)).assign fourCells (.tuple [])
      (.seq [.seq [.leaf (some 10), .leaf (some 11)], .seq [.leaf (some 12), .leaf (some 13)],
        .seq [.leaf (some 14), .leaf (some 15)]])
      = ⟨[none, some 0, some 10, some 12, some 14, some 15], none⟩ := by
  refine ⟨fun ix jx hi hj h => ?_, by decide +kernel⟩
  match ix, jx, hi, hj with
  | [i], [j], _, _ => simp [fourFlat, address] at h; simp [h]

end Gcs
