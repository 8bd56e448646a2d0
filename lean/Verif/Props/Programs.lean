import Verif.Lemmas.Shared
import Verif.Lemmas.DMWrite
import Verif.Props.Sharing

/-!
# C55, C56 and C48 in programs

Conversions that return the object itself, assignments of a slice of an object to the object, and assignments that
raise, as statements of a program.
-/

namespace Gcs

open Spec

variable {V : Type} [DecidableEq V] [HasNone V]

/-! ## C55 -/

/-- C55.  `n = o.as_X()` for an object of class `X`, one of `Buffer`, `Strided`, `COO`, `FlatCOO`, is the object itself:
after any further statements both have the same shape and elements. -/
theorem C55_same_object (w : World V) (o : Nat) (x : Obj V) (hx : w.objs[o]? = some x)
    (hc : x.desc.cls = .buffer ∨ x.desc.cls = .strided ∨ x.desc.cls = .coo ∨ x.desc.cls = .flatcoo) (ops : List (Op V)) :
    (w.step (.convert o x.desc.cls none)).2 = .done ∧
    (∀ shape, ShapeAt (w.run (.convert o x.desc.cls none :: ops)) w.objs.length shape ↔
      ShapeAt (w.run (.convert o x.desc.cls none :: ops)) o shape) ∧
    ∀ ix v, ReadsAt (w.run (.convert o x.desc.cls none :: ops)) w.objs.length ix v ↔
      ReadsAt (w.run (.convert o x.desc.cls none :: ops)) o ix v := by
  have hf : fromObject x.desc.cls (.store x.desc (w.list x.addr)) none = .ok .same := by
    obtain ⟨a, d⟩ := x
    cases d <;> simp [Storage.cls] at hc <;> rfl
  have hs : w.step (.convert o x.desc.cls none) = (w.addView x.addr x.desc, .done) := by
    rw [w.step_on _ o x rfl hx]
    simp only [World.stepOn, hf, World.made]
  have h1 : (w.run (.convert o x.desc.cls none :: ops)).objs[o]? = some x := w.run_objs _ hx
  have h2 : (w.run (.convert o x.desc.cls none :: ops)).objs[w.objs.length]? = some x := by
    simp only [World.run, hs]
    apply World.run_objs
    simp [World.addView]
  refine ⟨by rw [hs], fun shape => ?_, fun ix v => ?_⟩
  · simp only [ShapeAt, h1, h2]
  · simp only [ReadsAt, h1, h2]

/-! ## C48 in a program -/

/-- C48 in a program: `o[index] = value` raises, and `o` has the writes up to the first missing item. -/
theorem C48_program (w : World V) (hw : w.Addressed) (o : Nat) (x : Obj V) (hx : w.objs[o]? = some x) (s : Strided V)
    (hs : x.desc = .strided s) (h : s.WF (w.list x.addr)) (hd : DistinctAddresses s.shape s.strides)
    (hp : ∀ n ∈ s.shape, 0 < n) (index : Index) (hv : ValidItems (items index) s.shape) (value : Nested V)
    (j0 : List Int) (hj0 : InBox j0 (selShape (items index) s.shape)) (hmiss : place value j0 = none)
    (hpre : ∀ j, InBox j (selShape (items index) s.shape) → lexLt j j0 → ∃ v, item value j = some v) :
    (∃ e, (w.step (.set o index value)).2 = .raised e) ∧
    (∀ j v, InBox j (selShape (items index) s.shape) → lexLt j j0 → item value j = some v →
      ReadsAt (w.run [.set o index value]) o (selSource (items index) s.shape j) v) ∧
    (∀ ix v, InBox ix s.shape →
      (∀ j, InBox j (selShape (items index) s.shape) → lexLt j j0 → selSource (items index) s.shape j ≠ ix) →
      ReadsAt w o ix v → ReadsAt (w.run [.set o index value]) o ix v) := by
  obtain ⟨a, d⟩ := x
  simp only at hs
  subst hs
  obtain ⟨m, e, c1, c2, c3⟩ := C48_assign_prefix s (w.list a) h hd hp index hv value j0 hj0 hmiss hpre
  obtain ⟨e1, e2⟩ := run_set w hw o _ hx index value m (some e) c1
  have ho : (w.run [.set o index value]).objs[o]? = some ⟨a, .strided s⟩ := w.run_objs _ hx
  simp only at e2
  refine ⟨⟨e, ?_⟩, fun j v hj hlt hi => ⟨_, ho, ?_⟩, fun ix v hi hno hr => ⟨_, ho, ?_⟩⟩
  · rw [w.step_on _ o _ rfl hx]
    simp only [World.stepOn, c1, World.write]
  · simp only [e2]
    exact c2 j v hj hlt hi
  · simp only [e2]
    obtain ⟨y, hy, hr⟩ := hr
    rw [hx, Option.some.injEq] at hy
    subst hy
    exact c3 ix v hi hno hr

/-! ## C56 -/

omit [DecidableEq V] [HasNone V] in
theorem mem_before {shape : List Nat} {pre post : List (List Int)} {j : List Int}
    (h : indexProduct shape = pre ++ j :: post) (k : List Int) : k ∈ pre ↔ InBox k shape ∧ lexLt k j := by
  have hsort := indexProduct_sorted shape
  rw [h] at hsort
  have hmem : ∀ j', InBox j' shape ↔ j' ∈ pre ++ j :: post := by
    intro j'; rw [← h, mem_indexProduct]
  constructor
  · intro hk
    exact ⟨(hmem k).2 (by simp [hk]), (List.pairwise_append.1 hsort).2.2 k hk j (by simp)⟩
  · rintro ⟨hk, hlt⟩
    rw [hmem] at hk
    rcases List.mem_append.1 hk with hk | hk
    · exact hk
    · exfalso
      rcases List.mem_cons.1 hk with rfl | hk
      · exact lexLt_irrefl _ hlt
      · exact lexLt_asymm hlt ((List.pairwise_cons.1 (List.pairwise_append.1 hsort).2.1).1 k hk)

/-- `n = o[index1]; o[index2] = n`, when the values that are read along the way are known. -/
theorem self_assign (w : World V) (hw : w.Addressed) (o : Nat) (a : Nat) (s : Strided V)
    (hx : w.objs[o]? = some ⟨a, .strided s⟩) (h : s.WF (w.list a)) (hd : DistinctAddresses s.shape s.strides)
    (hp : ∀ n ∈ s.shape, 0 < n) (index1 index2 : Index) (hv1 : ValidItems (items index1) s.shape)
    (hv2 : ValidItems (items index2) s.shape) (hne : selShape (items index1) s.shape ≠ [])
    (hsh : selShape (items index2) s.shape = selShape (items index1) s.shape) (val : List Int → V)
    (hval : ∀ j, InBox j (selShape (items index1) s.shape) →
      (∃ k, InBox k (selShape (items index1) s.shape) ∧ lexLt k j ∧
        selSource (items index2) s.shape k = selSource (items index1) s.shape j ∧ val j = val k) ∨
      ((∀ k, InBox k (selShape (items index1) s.shape) → lexLt k j →
        selSource (items index2) s.shape k ≠ selSource (items index1) s.shape j) ∧
        Reads (.strided s) (w.list a) (selSource (items index1) s.shape j) (val j))) :
    (w.run [.get o index1, .setFrom o index2 w.objs.length]) = (w.step (.get o index1)).1.put a
      (((w.step (.get o index1)).1.step (.setFrom o index2 w.objs.length)).1.list a) ∧
    ((w.step (.get o index1)).1.step (.setFrom o index2 w.objs.length)).2 = .done ∧
    (∀ j, InBox j (selShape (items index1) s.shape) →
      ReadsAt (w.run [.get o index1, .setFrom o index2 w.objs.length]) o (selSource (items index2) s.shape j) (val j)) ∧
    ∀ ix v, InBox ix s.shape → ¬ Selected (items index2) s.shape ix → ReadsAt w o ix v →
      ReadsAt (w.run [.get o index1, .setFrom o index2 w.objs.length]) o ix v := by
  have h' : (Storage.strided s).WF (w.list a) := h
  rcases Strided.getItem_slice h hp index1 hv1 with ⟨h1, _⟩ | ⟨_, r, h2, h3, h4, h5, h6, _⟩
  · exact absurd h1 hne
  have hg : (Storage.strided s).getItem (w.list a) index1 = .ok (.view (.strided r)) := by
    simp only [Storage.getItem, h2, bind, Except.bind, pure, Except.pure]
  have hstep : (w.step (.get o index1)).1 = w.addView a (.strided r) := by
    rw [w.step_on _ o _ rfl hx]
    simp only [World.stepOn, hg, World.got]
  have ho : (w.addView a (.strided r)).objs[o]? = some ⟨a, .strided s⟩ := by
    simp only [World.addView]
    rw [List.getElem?_append_left (getElem?_length hx)]
    exact hx
  have hn : (w.addView a (.strided r)).objs[w.objs.length]? = some ⟨a, .strided r⟩ := by simp [World.addView]
  have hl : (w.addView a (.strided r)).list a = w.list a := rfl
  have hbox2 : ∀ j, InBox j (selShape (items index1) s.shape) → InBox (selSource (items index2) s.shape j) s.shape :=
    fun j hj => source_inBox hp hv2 (by rw [hsh]; exact hj)
  have hset : (Storage.strided s).assignShared (w.list a) index2 (.strided r)
      = ⟨setCells (w.list a) ((indexProduct (selShape (items index2) s.shape)).map fun j =>
        (s.cell (selSource (items index2) s.shape j), val j)), none⟩ := by
    simp only [Storage.assignShared, Storage.setItem]
    apply Strided.setItem_seq h hp index2 hv2
    intro pre j post hsplit
    have hpre := mem_before hsplit
    have hj : InBox j (selShape (items index2) s.shape) := by
      rw [← mem_indexProduct, hsplit]; simp
    rw [hsh] at hj
    have hj1 : j ≠ [] := by
      rintro rfl
      apply hne
      cases hs : selShape (items index1) s.shape with
      | nil => rfl
      | cons => rw [hs] at hj; exact hj.elim
    rw [if_neg hj1]
    generalize hm : setCells (w.list a) (pre.map fun j => (s.cell (selSource (items index2) s.shape j), val j)) = m
    have hml : m.length = (w.list a).length := by rw [← hm, setCells_length]
    have hrm : (Storage.strided r).WF m := Storage.WF.of_length (s := .strided r) (mem := w.list a) h3 hml
    have hsm : (Storage.strided s).WF m := h'.of_length hml
    have hjr : InBox j r.shape := by rw [h4]; exact hj
    obtain ⟨b1, b2⟩ := h6 j hjr
    rw [hrm.getVal_ok j hjr, at_strided hrm j hjr, Strided.val, b2, h5]
    have hpreb : ∀ k ∈ pre, InBox k (selShape (items index2) s.shape) := fun k hk => ((hpre k).1 hk).1
    have hnd : pre.Nodup := by
      have := indexProduct_nodup (selShape (items index2) s.shape)
      rw [hsplit] at this
      exact (List.nodup_append.1 this).1
    congr 1
    rw [List.getD_eq_getElem?_getD]
    rcases hval j hj with ⟨k, k1, k2, k3, k4⟩ | ⟨k1, k2⟩
    · have hk : k ∈ pre := (hpre k).2 ⟨by rw [hsh]; exact k1, k2⟩
      have := setCells_mem (w.list a) _ (selected_nodup h hd hp hv2 val pre hpreb hnd) _ _
        (List.mem_map.2 ⟨k, hk, rfl⟩) (h.cell_lt (hbox2 k k1))
      rw [hm, k3] at this
      rw [this, k4]
      rfl
    · have := setCells_not_mem (w.list a) (pre.map fun j => (s.cell (selSource (items index2) s.shape j), val j))
        (s.cell (selSource (items index1) s.shape j)) (by
          simp only [List.map_map, List.mem_map, Function.comp_apply, not_exists, not_and]
          intro k hk he
          obtain ⟨q1, q2⟩ := (hpre k).1 hk
          rw [hsh] at q1
          exact k1 k q1 q2 (Strided.cell_inj h hd (hbox2 k q1) b1 he))
      rw [hm] at this
      rw [this, ← List.getD_eq_getElem?_getD]
      have := k2.at_eq
      rw [at_strided h' _ b1] at this
      exact this
  obtain ⟨g1, g2, g3, _⟩ := strided_written h hd hp hv2 val (indexProduct (selShape (items index2) s.shape))
    (fun j hj => (mem_indexProduct _ _).1 hj) (indexProduct_nodup _) _ rfl
  generalize setCells (w.list a) ((indexProduct (selShape (items index2) s.shape)).map fun j =>
        (s.cell (selSource (items index2) s.shape j), val j)) = m at hset g1 g2 g3
  have hstep2 : (w.addView a (.strided r)).step (.setFrom o index2 w.objs.length)
      = ((w.addView a (.strided r)).put a m, .done) := by
    rw [World.step_on _ _ o _ rfl ho]
    simp only [World.stepOn, hn, if_true, hl, hset, World.write]
  have ha : a < w.lists.length := hw _ (List.mem_of_getElem? hx)
  have hlist : ((w.addView a (.strided r)).put a m).list a = m := by
    rw [World.list_put _ _ _ (by simpa [World.addView] using ha), if_pos rfl]
  have hrun : w.run [.get o index1, .setFrom o index2 w.objs.length] = (w.addView a (.strided r)).put a m := by
    simp only [World.run, hstep, hstep2]
  have hobj : ((w.addView a (.strided r)).put a m).objs[o]? = some ⟨a, .strided s⟩ := ho
  rw [hrun, hstep, hstep2]
  refine ⟨by rw [hlist], rfl, fun j hj => ⟨_, hobj, ?_⟩, fun ix v hi hns hr => ⟨_, hobj, ?_⟩⟩
  · simp only [hlist]
    exact g2 j ((mem_indexProduct _ _).2 (by rw [hsh]; exact hj))
  · simp only [hlist]
    obtain ⟨y, hy, hr⟩ := hr
    rw [hx, Option.some.injEq] at hy
    subst hy
    exact g3 ix v hi (fun j hj he => hns ⟨j, (mem_indexProduct _ _).1 hj, he⟩) hr

/-- C56.  `o[index2] = o[index1]`, when no element is read after it was written: the selected elements get the old
elements of the other selection. -/
theorem C56_self_assign (w : World V) (hw : w.Addressed) (o : Nat) (x : Obj V) (hx : w.objs[o]? = some x) (s : Strided V)
    (hs : x.desc = .strided s) (h : s.WF (w.list x.addr)) (hd : DistinctAddresses s.shape s.strides)
    (hp : ∀ n ∈ s.shape, 0 < n) (index1 index2 : Index) (hv1 : ValidItems (items index1) s.shape)
    (hv2 : ValidItems (items index2) s.shape) (hne : selShape (items index1) s.shape ≠ [])
    (hsh : selShape (items index2) s.shape = selShape (items index1) s.shape)
    (hsafe : ∀ j k, InBox j (selShape (items index1) s.shape) → InBox k (selShape (items index1) s.shape) → lexLt k j →
      selSource (items index2) s.shape k ≠ selSource (items index1) s.shape j) :
    ((w.step (.get o index1)).1.step (.setFrom o index2 w.objs.length)).2 = .done ∧
    (∀ j v, InBox j (selShape (items index1) s.shape) → ReadsAt w o (selSource (items index1) s.shape j) v →
      ReadsAt (w.run [.get o index1, .setFrom o index2 w.objs.length]) o (selSource (items index2) s.shape j) v) ∧
    ∀ ix v, InBox ix s.shape → ¬ Selected (items index2) s.shape ix → ReadsAt w o ix v →
      ReadsAt (w.run [.get o index1, .setFrom o index2 w.objs.length]) o ix v := by
  obtain ⟨a, d⟩ := x
  simp only at hs
  subst hs
  have h' : (Storage.strided s).WF (w.list a) := h
  obtain ⟨_, g2, g3, g4⟩ := self_assign w hw o a s hx h hd hp index1 index2 hv1 hv2 hne hsh
    (fun j => (Storage.strided s).at (w.list a) (selSource (items index1) s.shape j)) (fun j hj =>
      .inr ⟨fun k hk hlt => hsafe j k hj hk hlt, h'.reads _ (source_inBox hp hv1 hj)⟩)
  refine ⟨g2, fun j v hj hr => ?_, g4⟩
  obtain ⟨y, hy, hr⟩ := hr
  rw [hx, Option.some.injEq] at hy
  subst hy
  have := g3 j hj
  simp only [hr.at_eq] at this
  exact this

/-- The index `[a:]`. -/
def fromPos (a : Int) : Index := .one (.slice ⟨some a, none, none⟩)

/-- The index `[:a]`. -/
def upTo (a : Int) : Index := .one (.slice ⟨none, some a, none⟩)

theorem positions_from (n d : Nat) (hd : d ≤ n) :
    slicePositions ⟨some (d : Int), none, none⟩ n = (List.range (n - d)).map fun k => k + d := by
  apply eq_of_pairwise_of_mem
  · exact List.Pairwise.filter _ List.pairwise_lt_range
  · rw [List.pairwise_map]
    exact List.pairwise_lt_range.imp (by omega)
  · intro x
    unfold slicePositions
    simp only
    rw [if_pos (by simp), List.mem_filter, decide_eq_true_eq]
    simp only [List.mem_range, Option.getD_none, Option.map_some, Option.getD_some, Option.map_none, clampBound, List.mem_map]
    rw [if_neg (by omega)]
    constructor
    · rintro ⟨h1, h2, _⟩
      exact ⟨x - d, by omega, by omega⟩
    · rintro ⟨k, h1, rfl⟩
      refine ⟨by omega, by omega, by omega, Int.one_dvd _⟩

theorem positions_upTo (n d : Nat) (h0 : 0 < d) (hd : d ≤ n) :
    slicePositions ⟨none, some (-(d : Int)), none⟩ n = List.range (n - d) := by
  apply eq_of_pairwise_of_mem
  · exact List.Pairwise.filter _ List.pairwise_lt_range
  · exact List.pairwise_lt_range
  · intro x
    unfold slicePositions
    simp only
    rw [if_pos (by simp), List.mem_filter, decide_eq_true_eq]
    simp only [List.mem_range, Option.getD_none, Option.map_some, Option.getD_some, Option.map_none, clampBound]
    rw [if_pos (by omega)]
    constructor
    · rintro ⟨h1, h2, h3, _⟩
      omega
    · intro h
      exact ⟨by omega, by omega, by omega, Int.one_dvd _⟩

theorem shape_from (n d : Nat) (hd : d ≤ n) : selShape (items (fromPos d)) [n] = [n - d] := by
  simp [items, fromPos, selShape, positions_from n d hd]

theorem shape_upTo (n d : Nat) (h0 : 0 < d) (hd : d ≤ n) : selShape (items (upTo (-d))) [n] = [n - d] := by
  simp [items, upTo, selShape, positions_upTo n d h0 hd]

theorem source_from (n d : Nat) (hd : d ≤ n) (k : Int) (h0 : 0 ≤ k) (hk : k < n - d) :
    selSource (items (fromPos d)) [n] [k] = [k + d] := by
  simp only [items, fromPos, selSource, positions_from n d hd, List.cons.injEq, and_true]
  rw [List.getD_eq_getElem?_getD, List.getElem?_map, List.getElem?_range (by omega)]
  simp only [Option.map_some, Option.getD_some]
  omega

theorem source_upTo (n d : Nat) (hd0 : 0 < d) (hd : d ≤ n) (k : Int) (h0 : 0 ≤ k) (hk : k < n - d) :
    selSource (items (upTo (-d))) [n] [k] = [k] := by
  simp only [items, upTo, selSource, positions_upTo n d hd0 hd, List.cons.injEq, and_true]
  rw [List.getD_eq_getElem?_getD, List.getElem?_range (by omega)]
  simp only [Option.getD_some]
  omega

theorem inBox_one {j : List Int} {n : Nat} (h : InBox j [n]) : ∃ k : Int, j = [k] ∧ 0 ≤ k ∧ k < n := by
  match j, h with
  | [k], h => exact ⟨k, rfl, h.1.1, h.1.2⟩
  | [], h => exact h.elim
  | _ :: _ :: _, h => exact h.2.elim

/-- C56, a shift.  `o[:-d] = o[d:]` moves the elements of a one-dimensional `Strided` by `d` places. -/
theorem C56_shift (w : World V) (hw : w.Addressed) (o : Nat) (x : Obj V) (hx : w.objs[o]? = some x) (s : Strided V)
    (hs : x.desc = .strided s) (h : s.WF (w.list x.addr)) (hd : DistinctAddresses s.shape s.strides) (n d : Nat)
    (hn : s.shape = [n]) (h0 : 0 < d) (hdn : d ≤ n) :
    (∀ (i : Int) v, 0 ≤ i → i < n - d → ReadsAt w o [i + d] v →
      ReadsAt (w.run [.get o (fromPos d), .setFrom o (upTo (-d)) w.objs.length]) o [i] v) ∧
    ∀ (i : Int) v, n - d ≤ i → i < n → ReadsAt w o [i] v →
      ReadsAt (w.run [.get o (fromPos d), .setFrom o (upTo (-d)) w.objs.length]) o [i] v := by
  obtain ⟨_, g2, g3⟩ := C56_self_assign w hw o x hx s hs h hd (by rw [hn]; simp; omega) (fromPos d) (upTo (-d))
    (by rw [hn]; simp [items, fromPos, ValidItems]) (by rw [hn]; simp [items, upTo, ValidItems])
    (by rw [hn, shape_from n d hdn]; simp) (by rw [hn, shape_from n d hdn, shape_upTo n d h0 hdn]) (by
      rw [hn, shape_from n d hdn]
      intro j k hj hk hlt
      obtain ⟨j, rfl, j1, j2⟩ := inBox_one hj
      obtain ⟨k, rfl, k1, k2⟩ := inBox_one hk
      rw [source_from n d hdn j j1 (by omega), source_upTo n d h0 hdn k k1 (by omega)]
      simp only [lexLt, and_false, or_false] at hlt
      simp only [ne_eq, List.cons.injEq, and_true]
      omega)
  rw [hn, shape_from n d hdn] at g2
  rw [hn] at g3
  constructor
  · intro i v i0 i1 hr
    have := g2 [i] v (by simp only [InBox, and_true]; omega)
    rw [source_from n d hdn i i0 i1, source_upTo n d h0 hdn i i0 i1] at this
    exact this hr
  · intro i v i0 i1 hr
    apply g3 [i] v (by simp only [InBox, and_true]; omega) ?_ hr
    rintro ⟨j, hj, he⟩
    rw [shape_upTo n d h0 hdn] at hj
    obtain ⟨j, rfl, j1, j2⟩ := inBox_one hj
    rw [source_upTo n d h0 hdn j j1 (by omega)] at he
    simp only [List.cons.injEq, and_true] at he
    omega

/-- C56, a defect.  `o[d:] = o[:-d]` does not move the elements: it repeats the first `d` of them. -/
theorem C56_smear (w : World V) (hw : w.Addressed) (o : Nat) (x : Obj V) (hx : w.objs[o]? = some x) (s : Strided V)
    (hs : x.desc = .strided s) (h : s.WF (w.list x.addr)) (hd : DistinctAddresses s.shape s.strides) (n d : Nat)
    (hn : s.shape = [n]) (h0 : 0 < d) (hdn : d ≤ n) (i : Int) (hi0 : 0 ≤ i) (hin : i < n) (v : V)
    (hr : ReadsAt w o [i % d] v) :
    ReadsAt (w.run [.get o (upTo (-d)), .setFrom o (fromPos d) w.objs.length]) o [i] v := by
  obtain ⟨a, dd⟩ := x
  simp only at hs
  subst hs
  have h' : (Storage.strided s).WF (w.list a) := h
  obtain ⟨_, _, g3, g4⟩ := self_assign w hw o a s hx h hd (by rw [hn]; simp; omega) (upTo (-d)) (fromPos d)
    (by rw [hn]; simp [items, upTo, ValidItems]) (by rw [hn]; simp [items, fromPos, ValidItems])
    (by rw [hn, shape_upTo n d h0 hdn]; simp) (by rw [hn, shape_from n d hdn, shape_upTo n d h0 hdn])
    (fun j => (Storage.strided s).at (w.list a) [j.getD 0 0 % d]) (by
      rw [hn, shape_upTo n d h0 hdn]
      intro j hj
      obtain ⟨j, rfl, j1, j2⟩ := inBox_one hj
      rw [source_upTo n d h0 hdn j j1 (by omega)]
      by_cases hjd : (d : Int) ≤ j
      · refine .inl ⟨[j - d], by simp only [InBox, and_true]; omega, by simp [lexLt]; omega, ?_, ?_⟩
        · rw [source_from n d hdn _ (by omega) (by omega)]
          simp
        · simp only [List.getD_cons_zero, Int.sub_emod_right]
      · refine .inr ⟨?_, ?_⟩
        · intro k hk hlt
          obtain ⟨k, rfl, k1, k2⟩ := inBox_one hk
          rw [source_from n d hdn k k1 (by omega)]
          simp only [ne_eq, List.cons.injEq, and_true]
          omega
        · simp only [List.getD_cons_zero]
          rw [Int.emod_eq_of_lt j1 (by omega)]
          apply h'.reads
          simp only [Storage.shape, hn, InBox, and_true]
          omega)
  rw [hn, shape_upTo n d h0 hdn] at g3
  rw [hn] at g4
  by_cases hid : i < d
  · rw [Int.emod_eq_of_lt hi0 hid] at hr
    apply g4 [i] v (by simp only [InBox, and_true]; omega) ?_ hr
    rintro ⟨j, hj, he⟩
    rw [shape_from n d hdn] at hj
    obtain ⟨j, rfl, j1, j2⟩ := inBox_one hj
    rw [source_from n d hdn j j1 (by omega)] at he
    simp only [List.cons.injEq, and_true] at he
    omega
  · have := g3 [i - d] (by simp only [InBox, and_true]; omega)
    rw [source_from n d hdn _ (by omega) (by omega), Int.sub_add_cancel] at this
    simp only [List.getD_cons_zero, Int.sub_emod_right] at this
    obtain ⟨y, hy, hr⟩ := hr
    rw [hx, Option.some.injEq] at hy
    subst hy
    rw [hr.at_eq] at this
    exact this

/-- `[1, 2, 3, 4, 5]` -/
def sampleRow : Nested (Option Int) := .seq [.leaf (some 1), .leaf (some 2), .leaf (some 3), .leaf (some 4), .leaf (some 5)]

/-- The program `o = Strided.fromobject([1, 2, 3, 4, 5])`. -/
def rowWorld : World (Option Int) := ⟨[[some 1, some 2, some 3, some 4, some 5]], [⟨0, .strided ⟨[5], [1], ⟨5, 0, none⟩⟩⟩]⟩

/-- The hypotheses of C48 in a program and C56 are met by that program. -/
example : (World.empty.run [.make .strided sampleRow none]) = rowWorld ∧ rowWorld.Addressed ∧
    Strided.WF (⟨[5], [1], ⟨5, 0, none⟩⟩ : Strided (Option Int)) (rowWorld.list 0) ∧
    DistinctAddresses [5] [1] := by
  refine ⟨by decide +kernel, by simp [World.Addressed, rowWorld], ⟨rfl, by simp [Buffer.WF, World.list, rowWorld], ?_⟩,
    makeStrides_distinct [5]⟩
  intro ix hi
  obtain ⟨k, rfl, h0, h1⟩ := inBox_one hi
  simp only [address]
  omega

/-- Cases of C56: `o[2:] = o[:-2]` and `o[:-2] = o[2:]`. -/
example : (rowWorld.run [.get 0 (upTo (-2)), .setFrom 0 (fromPos 2) 1]).lists = [[some 1, some 2, some 1, some 2, some 1]] ∧
    (rowWorld.run [.get 0 (fromPos 2), .setFrom 0 (upTo (-2)) 1]).lists
      = [[some 3, some 4, some 5, some 4, some 5]] := by
  decide +kernel

/-- A case of C55: `n = o.as_Strided(); n[0] = 7`. -/
example : (rowWorld.run [.convert 0 .strided none, .set 1 (.one (.int 0)) (.leaf (some 7))]).lists
    = [[some 7, some 2, some 3, some 4, some 5]] := by
  decide +kernel

/-- A case of C48 in a program: `o[:3] = [7, 8]`. -/
example : rowWorld.step (.set 0 (upTo 3) (.seq [.leaf (some 7), .leaf (some 8)]))
    = (⟨[[some 7, some 8, some 3, some 4, some 5]], rowWorld.objs⟩, .raised .index) := by
  decide +kernel

end Gcs
