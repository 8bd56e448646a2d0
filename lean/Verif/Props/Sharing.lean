import Verif.SpecHeap
import Verif.Lemmas.Heap
import Verif.Props.Setting
import Verif.Props.Observing

/-!
# C40, C41: which objects share their elements

Programs are sequences of statements (`World.run`, Model/Heap.lean); the objects are numbered in the order
of their creation.
-/

namespace Gcs

open Spec

variable {V : Type}

/-! ## Views do not depend on the contents of the list -/

theorem Buffer.getSlice_length (b : Buffer V) {mem mem' : List V} (h : mem'.length = mem.length) (s : PySlice) :
    b.getSlice mem' s = b.getSlice mem s := by
  simp only [Buffer.getSlice, Buffer.new, h]

theorem Strided.getItem_view (s : Strided V) {mem mem' : List V} (h : mem'.length = mem.length) (index : Index)
    (r : Strided V) (hr : s.getItem mem index = .ok (.inr r)) : s.getItem mem' index = .ok (.inr r) := by
  simp only [Strided.getItem, bind, Except.bind] at hr ⊢
  cases hn : normalizeIndex index s.shape with
  | error e => rw [hn] at hr; simp at hr
  | ok nix =>
    rw [hn] at hr
    simp only at hr ⊢
    cases he : elementIndex nix with
    | some ix =>
      exfalso
      rw [he] at hr
      simp only at hr
      cases hp : s.getDataPosition ix with
      | error e => rw [hp] at hr; simp at hr
      | ok p =>
        rw [hp] at hr
        simp only at hr
        cases hg : s.data.getInt mem p <;> simp [hg, pure, Except.pure] at hr
    | none =>
      rw [he] at hr
      simp only at hr ⊢
      simp only [Strided.getSlice, s.data.getSlice_length h] at hr ⊢
      exact hr

variable [DecidableEq V]

theorem Storage.getItem_view (s : Storage V) {mem mem' : List V} (h : mem'.length = mem.length) (index : Index)
    (r : Storage V) (hr : s.getItem mem index = .ok (.view r)) : s.getItem mem' index = .ok (.view r) := by
  induction s generalizing index r with
  | buffer b =>
    have key : ∀ i : Ix, (Storage.bufferGetItem b mem (.one i)) = .ok (.view r) →
        (Storage.bufferGetItem b mem' (.one i)) = .ok (.view r) := by
      intro i hr
      simp only [Storage.bufferGetItem, bind, Except.bind, pure, Except.pure] at hr ⊢
      cases i with
      | none => exact hr
      | slice s => simp only [b.getSlice_length h]; exact hr
      | int i => cases hg : b.getInt mem i <;> simp [hg] at hr
      | other => simp at hr
    simp only [Storage.getItem] at hr ⊢
    match index with
    | .one i => exact key i hr
    | .tuple [i] => exact key i hr
    | .tuple [] => simp [Storage.bufferGetItem, bind, Except.bind] at hr
    | .tuple (_ :: _ :: _) => simp [Storage.bufferGetItem, bind, Except.bind] at hr
  | strided s =>
    simp only [Storage.getItem, bind, Except.bind] at hr ⊢
    cases hg : s.getItem mem index with
    | error e => rw [hg] at hr; simp at hr
    | ok x =>
      rw [hg] at hr
      cases x with
      | inl v => simp [pure, Except.pure] at hr
      | inr t => rw [s.getItem_view h index t hg]; exact hr
  | coo c =>
    exfalso
    simp only [Storage.getItem, bind, Except.bind, pure, Except.pure] at hr
    repeat' split at hr
    all_goals simp at hr
  | flatcoo c =>
    exfalso
    simp only [Storage.getItem, bind, Except.bind, pure, Except.pure] at hr
    repeat' split at hr
    all_goals simp at hr
  | csr c =>
    exfalso
    simp only [Storage.getItem, bind, Except.bind, pure, Except.pure] at hr
    repeat' split at hr
    all_goals simp at hr
  | dm m d ih =>
    simp only [Storage.getItem, bind, Except.bind] at hr ⊢
    cases hn : normalizeIndex index m.shape with
    | error e => rw [hn] at hr; simp at hr
    | ok nix =>
      rw [hn] at hr
      simp only at hr ⊢
      cases he : elementIndex nix with
      | some ix =>
        rw [he] at hr
        simp only at hr ⊢
        cases hp : m.getDataPosition ix with
        | error e => rw [hp] at hr; simp at hr
        | ok p => rw [hp] at hr; exact ih _ _ hr
      | none =>
        rw [he] at hr
        simp only at hr ⊢
        cases hs : shapeStrided nix m.shape with
        | error e => rw [hs] at hr; simp at hr
        | ok sh =>
          rw [hs] at hr
          simp only at hr ⊢
          cases hl : dmSliceLoop nix m.rdims m.rshapes m.rstrides m.roffset with
          | error e => rw [hl] at hr; simp at hr
          | ok t =>
            obtain ⟨rd, rst, roff, dix⟩ := t
            rw [hl] at hr
            simp only at hr ⊢
            cases hdi : dix.isEmpty with
            | true => rw [hdi] at hr; exact hr
            | false =>
              rw [hdi] at hr
              simp only [Bool.false_eq_true, if_false] at hr ⊢
              cases hg : d.getItem mem (.tuple dix) with
              | error e => rw [hg] at hr; simp at hr
              | ok x =>
                rw [hg] at hr
                cases x with
                | view t => rw [ih _ _ hg]; exact hr
                | val v =>
                  simp only at hr
                  cases hm : DMMeta.new sh rd rst roff <;> simp [hm] at hr
                | fresh t tm =>
                  simp only at hr
                  cases hm : DMMeta.new sh rd rst roff <;> simp [hm, pure, Except.pure] at hr

variable [HasNone V]

/-! ## C40 -/

theorem getElem?_length {α : Type} {l : List α} {o : Nat} {x : α} (h : l[o]? = some x) : o < l.length :=
  (List.getElem?_eq_some_iff.1 h).1

/-- After a slice that is a view, the slice and the original agree forever. -/
theorem views_agree (w : World V) (hw : w.Addressed) (o : Nat) (x : Obj V) (hx : w.objs[o]? = some x)
    (index : Index) (r : Storage V) (hr : x.desc.getItem (w.list x.addr) index = .ok (.view r)) (ops : List (Op V)) :
    (w.run (.get o index :: ops)).objs[o]? = some x ∧
    (w.run (.get o index :: ops)).objs[w.objs.length]? = some ⟨x.addr, r⟩ ∧
    ((w.run (.get o index :: ops)).list x.addr).length = (w.list x.addr).length ∧
    x.desc.getItem ((w.run (.get o index :: ops)).list x.addr) index = .ok (.view r) := by
  have e : (w.step (.get o index)).1 = w.addView x.addr r := by
    rw [w.step_on _ o x rfl hx]
    simp only [World.stepOn, hr, World.got]
  have hl : ((w.run (.get o index :: ops)).list x.addr).length = (w.list x.addr).length :=
    w.run_length hw (.get o index :: ops) (hw x (List.mem_of_getElem? hx))
  refine ⟨w.run_objs (.get o index :: ops) hx, ?_, hl, x.desc.getItem_view hl index r hr⟩
  simp only [World.run, e]
  apply World.run_objs
  simp [World.addView]

/-- C40, for `Strided`.  Let `w` be any state of a program and `o` one of its objects, a `Strided`.  After the
statement `n = o[index]`, where the slice keeps an axis, and any further statements, the slice still has at each `j`
the same element as the original has at the index selected for `j`. -/
theorem C40_views (w : World V) (hw : w.Addressed) (o : Nat) (x : Obj V) (hx : w.objs[o]? = some x) (s : Strided V)
    (hs : x.desc = .strided s) (h : s.WF (w.list x.addr)) (hp : ∀ k ∈ s.shape, 0 < k) (index : Index)
    (hv : ValidItems (items index) s.shape) (hne : selShape (items index) s.shape ≠ []) (ops : List (Op V)) :
    ShapeAt (w.run (.get o index :: ops)) w.objs.length (selShape (items index) s.shape) ∧
    ∀ j, InBox j (selShape (items index) s.shape) →
      ∃ v, ReadsAt (w.run (.get o index :: ops)) w.objs.length j v ∧
        ReadsAt (w.run (.get o index :: ops)) o (selSource (items index) s.shape j) v := by
  obtain ⟨a, d⟩ := x
  simp only at hs
  subst hs
  have h' : (Storage.strided s).WF (w.list a) := h
  rcases Strided.getItem_slice h hp index hv with ⟨h1, _⟩ | ⟨_, r, h2, h3, h4, _⟩
  · exact absurd h1 hne
  · have hg : (Storage.strided s).getItem (w.list a) index = .ok (.view (.strided r)) := by
      simp only [Storage.getItem, h2, bind, Except.bind, pure, Except.pure]
    obtain ⟨c1, c2, c3, c4⟩ := views_agree w hw o _ hx index _ hg ops
    refine ⟨⟨_, c2, h4⟩, fun j hj => ?_⟩
    rcases (h'.of_length c3).getItem_ok hp index hv trivial trivial with ⟨g1, _⟩ | ⟨_, r', m', g2, _, g4⟩
    · exact absurd g1 hne
    · rcases g2 with ⟨g2, rfl⟩ | g2
      · have c4' := c4
        simp only at c4'
        rw [c4', Except.ok.injEq, Res.view.injEq] at g2
        subst g2
        have hb := source_inBox hp hv hj
        refine ⟨_, ⟨_, c2, g4.wf.reads j (by rw [g4.shape_eq]; exact hj)⟩, ⟨_, c1, ?_⟩⟩
        rw [g4.reads j hj]
        exact (h'.of_length c3).reads _ hb
      · have c4' := c4
        simp only at c4'
        rw [c4'] at g2
        simp at g2

/-- The statement `o[index] = value`. -/
theorem run_set (w : World V) (hw : w.Addressed) (o : Nat) (x : Obj V) (hx : w.objs[o]? = some x) (index : Index)
    (value : Nested V) (m : List V) (e : Option PyErr)
    (hm : x.desc.assign (w.list x.addr) index value = ⟨m, e⟩) :
    w.run [.set o index value] = w.put x.addr m ∧ (w.run [.set o index value]).list x.addr = m := by
  have he : w.run [.set o index value] = w.put x.addr m := by
    simp only [World.run]
    rw [w.step_on (.set o index value) o x rfl hx]
    simp only [World.stepOn, World.write, hm]
  refine ⟨he, ?_⟩
  rw [he, w.list_put _ _ (hw x (List.mem_of_getElem? hx)), if_pos rfl]

/-- C40, an assignment through the slice is seen in the original: after `n = o[index]` and `n[index2] = value`, the original
has the items of the value at the indices that the two selections give, and is otherwise unchanged. -/
theorem C40_assign_to_slice (w : World V) (hw : w.Addressed) (o : Nat) (x : Obj V) (hx : w.objs[o]? = some x)
    (s : Strided V) (hs : x.desc = .strided s) (h : s.WF (w.list x.addr)) (hd : DistinctAddresses s.shape s.strides)
    (hp : ∀ k ∈ s.shape, 0 < k) (index : Index) (hv : ValidItems (items index) s.shape)
    (hne : selShape (items index) s.shape ≠ []) (hp2 : ∀ k ∈ selShape (items index) s.shape, 0 < k) (index2 : Index)
    (hv2 : ValidItems (items index2) (selShape (items index) s.shape)) (value : Nested V)
    (hw2 : ∀ k, InBox k (selShape (items index2) (selShape (items index) s.shape)) → ∃ v, item value k = some v) :
    (∀ k v, InBox k (selShape (items index2) (selShape (items index) s.shape)) → item value k = some v →
      ReadsAt (w.run [.get o index, .set w.objs.length index2 value]) o
        (selSource (items index) s.shape (selSource (items index2) (selShape (items index) s.shape) k)) v) ∧
    ∀ ix v, InBox ix s.shape →
      (¬ ∃ j, Selected (items index2) (selShape (items index) s.shape) j ∧ selSource (items index) s.shape j = ix) →
      ReadsAt w o ix v → ReadsAt (w.run [.get o index, .set w.objs.length index2 value]) o ix v := by
  obtain ⟨a, d⟩ := x
  simp only at hs
  subst hs
  have h' : (Storage.strided s).WF (w.list a) := h
  rcases Strided.getItem_slice h hp index hv with ⟨h1, _⟩ | ⟨_, r, h2, h3, h4, h5, h6, _⟩
  · exact absurd h1 hne
  · have hg : (Storage.strided s).getItem (w.list a) index = .ok (.view (.strided r)) := by
      simp only [Storage.getItem, h2, bind, Except.bind, pure, Except.pure]
    have hrun : ∀ ops, w.run (.get o index :: ops) = (w.addView a (.strided r)).run ops := by
      intro ops
      simp only [World.run]
      rw [w.step_on _ o _ rfl hx]
      simp only [World.stepOn, hg, World.got]
    have hd' : DistinctAddresses r.shape r.strides := by
      intro ix jx hi hj he
      have e : r.cell ix = r.cell jx := by simp only [Strided.cell, he]
      rw [(h6 ix hi).2, (h6 jx hj).2] at e
      have := Strided.cell_inj h hd (h6 ix hi).1 (h6 jx hj).1 e
      exact selSource_inj _ _ _ _ (by rw [← h4]; exact hi) (by rw [← h4]; exact hj) this
    rw [← h4] at hv2 hw2 hp2
    obtain ⟨m, c1, c2, c3, c4⟩ := C37_strided_assign r (w.list a) h3 hd' hp2 index2 hv2 value hw2
    have hn : (w.addView a (.strided r)).objs[w.objs.length]? = some ⟨a, .strided r⟩ := by simp [World.addView]
    have hw' : (w.addView a (.strided r)).Addressed := by
      intro y hy
      simp only [World.addView, List.mem_append, List.mem_singleton] at hy ⊢
      rcases hy with hy | rfl
      · exact hw y hy
      · exact hw ⟨a, .strided s⟩ (List.mem_of_getElem? hx)
    obtain ⟨e1, e2⟩ := run_set (w.addView a (.strided r)) hw' w.objs.length _ hn index2 value m none c1
    rw [hrun, ← h4]
    have ho : ((w.addView a (.strided r)).run [.set w.objs.length index2 value]).objs[o]? = some ⟨a, .strided s⟩ := by
      apply World.run_objs
      simp only [World.addView]
      rw [List.getElem?_append_left (getElem?_length hx)]
      exact hx
    have hwm : (Storage.strided s).WF m := h'.of_length c2
    have hrm : (Storage.strided r).WF m := Storage.WF.of_length (s := .strided r) (mem := w.list a) h3 c2
    refine ⟨fun k v hk hi => ⟨_, ho, ?_⟩, fun ix v hi hns hr => ⟨_, ho, ?_⟩⟩
    · simp only at e2
      simp only [e2]
      have hsrc := source_inBox hp2 hv2 hk
      have hr : (Storage.strided r).at m (selSource (items index2) r.shape k) = v := (c3.1 k v hk hi).at_eq
      obtain ⟨b1, b2⟩ := h6 _ hsrc
      have := hwm.reads _ b1
      rw [at_strided hwm _ b1, Strided.val, ← b2] at this
      rw [at_strided hrm _ hsrc, Strided.val, h5] at hr
      rw [hr] at this
      exact this
    · simp only at e2
      simp only [e2]
      obtain ⟨y, hy, hr⟩ := hr
      rw [hx, Option.some.injEq] at hy
      subst hy
      simp only at hr
      have hcell : m[s.cell ix]? = (w.list a)[s.cell ix]? := by
        apply c4
        intro j hj he
        obtain ⟨k, hk, rfl⟩ := hj
        have hsrc := source_inBox hp2 hv2 hk
        obtain ⟨b1, b2⟩ := h6 _ hsrc
        have ha := h3.addr _ hsrc
        have hc : r.cell (selSource (items index2) r.shape k) = s.cell ix := by
          simp only [Strided.cell] at he ⊢
          omega
        rw [b2] at hc
        exact hns ⟨_, ⟨k, hk, rfl⟩, Strided.cell_inj h hd b1 hi hc⟩
      have e := hr.at_eq
      have e' := hwm.reads ix hi
      rw [at_strided hwm ix hi, Strided.val, List.getD_eq_getElem?_getD, hcell, ← List.getD_eq_getElem?_getD] at e'
      rw [at_strided h' ix hi, Strided.val] at e
      rw [e] at e'
      exact e'

/-- C40, an assignment through the original is seen in the slice: after `n = o[index]` and `o[index2] = value`, the slice
has the items of the value where the two selections meet, and is otherwise unchanged. -/
theorem C40_assign_to_original (w : World V) (hw : w.Addressed) (o : Nat) (x : Obj V) (hx : w.objs[o]? = some x)
    (s : Strided V) (hs : x.desc = .strided s) (h : s.WF (w.list x.addr)) (hd : DistinctAddresses s.shape s.strides)
    (hp : ∀ k ∈ s.shape, 0 < k) (index : Index) (hv : ValidItems (items index) s.shape)
    (hne : selShape (items index) s.shape ≠ []) (index2 : Index)
    (hv2 : ValidItems (items index2) s.shape) (value : Nested V)
    (hw2 : ∀ k, InBox k (selShape (items index2) s.shape) → ∃ v, item value k = some v) :
    ∀ j, InBox j (selShape (items index) s.shape) →
      (∀ k v, InBox k (selShape (items index2) s.shape) →
        selSource (items index2) s.shape k = selSource (items index) s.shape j → item value k = some v →
        ReadsAt (w.run [.get o index, .set o index2 value]) w.objs.length j v) ∧
      ∀ v, ¬ Selected (items index2) s.shape (selSource (items index) s.shape j) →
        ReadsAt w o (selSource (items index) s.shape j) v →
        ReadsAt (w.run [.get o index, .set o index2 value]) w.objs.length j v := by
  have hv0 := C40_views w hw o x hx s hs h hp index hv hne [.set o index2 value]
  obtain ⟨a, d⟩ := x
  simp only at hs
  subst hs
  obtain ⟨m, c1, c2, c3, c4⟩ := C37_strided_assign s (w.list a) h hd hp index2 hv2 value hw2
  have hrun : w.run [.get o index, .set o index2 value] = (w.step (.get o index)).1.run [.set o index2 value] := rfl
  have e := w.step_effect (.get o index)
  have hlist : (w.step (.get o index)).1.list a = w.list a := by
    rw [w.step_on _ o _ rfl hx]
    simp only [World.stepOn]
    cases (Storage.strided s).getItem (w.list a) index with
    | error => rfl
    | ok r => cases r with
      | val => rfl
      | view => rfl
      | fresh t mt => exact w.list_addFresh _ _ _ (hw _ (List.mem_of_getElem? hx))
  obtain ⟨e1, e2⟩ := run_set (w.step (.get o index)).1 (e.addressed hw) o _ (e.objs hx) index2 value m none (by
    simp only [hlist]; exact c1)
  simp only at e2
  have ho : (w.run [.get o index, .set o index2 value]).objs[o]? = some ⟨a, .strided s⟩ :=
    w.run_objs _ hx
  intro j hj
  obtain ⟨u, hu1, y, hy, hu2⟩ := hv0.2 j hj
  rw [ho, Option.some.injEq] at hy
  subst hy
  simp only [hrun, e2] at hu2
  have fin : ∀ v, Reads (.strided s) m (selSource (items index) s.shape j) v →
      ReadsAt (w.run [.get o index, .set o index2 value]) w.objs.length j v := by
    intro v hv
    rw [← hv.at_eq, hu2.at_eq]
    exact hu1
  refine ⟨fun k v hk he hi => fin v ?_, fun v hns hr => fin v ?_⟩
  · rw [← he]
    exact c3.1 k v hk hi
  · obtain ⟨y, hy, hr⟩ := hr
    rw [hx, Option.some.injEq] at hy
    subst hy
    exact c3.2 _ v (source_inBox hp hv hj) hns hr

/-- C40, for `DM`: the slice of a `DM`, when it is a view, keeps agreeing with the original. -/
theorem C40_dm_views (w : World V) (hw : w.Addressed) (o : Nat) (x : Obj V) (hx : w.objs[o]? = some x) (m : DMMeta)
    (d : Storage V) (hs : x.desc = .dm m d) (h : x.desc.WF (w.list x.addr)) (hp : ∀ k ∈ m.shape, 0 < k)
    (index : Index) (hv : ValidItems (items index) m.shape) (hz : SafeIndex x.desc index) (r : Storage V)
    (hr : x.desc.getItem (w.list x.addr) index = .ok (.view r)) (ops : List (Op V)) :
    ∀ j, InBox j (selShape (items index) m.shape) →
      ∃ v, ReadsAt (w.run (.get o index :: ops)) w.objs.length j v ∧
        ReadsAt (w.run (.get o index :: ops)) o (selSource (items index) m.shape j) v := by
  have hsh : x.desc.shape = m.shape := by rw [hs]; rfl
  rw [← hsh] at hp hv ⊢
  obtain ⟨c1, c2, c3, c4⟩ := views_agree w hw o _ hx index _ hr ops
  intro j hj
  rcases (h.of_length c3).getItem_ok hp index hv (by rw [hs]; trivial) hz with ⟨_, g1⟩ | ⟨_, r', m', g2, _, g4⟩
  · rw [c4] at g1
    simp at g1
  · rcases g2 with ⟨g2, rfl⟩ | g2
    · rw [c4, Except.ok.injEq, Res.view.injEq] at g2
      subst g2
      have hb := source_inBox hp hv hj
      refine ⟨_, ⟨_, c2, g4.wf.reads j (by rw [g4.shape_eq]; exact hj)⟩, ⟨_, c1, ?_⟩⟩
      rw [g4.reads j hj]
      exact (h.of_length c3).reads _ hb
    · rw [c4] at g2
      simp at g2

/-- C40, for `Buffer`: after `n = o[start:stop]` with bounds inside of the list and any further statements, `n` has at `i` the
same element as `o` at `start + i`. -/
theorem C40_buffer_views (w : World V) (hw : w.Addressed) (o : Nat) (x : Obj V) (hx : w.objs[o]? = some x) (b : Buffer V)
    (hs : x.desc = .buffer b) (start stop : Option Int) (a z : Int) (ha : a = b.offset + start.getD 0)
    (hz : z = b.offset + stop.getD b.size) (h1 : 0 ≤ a) (h2 : a < (w.list x.addr).length) (h3 : 0 < z)
    (h4 : z ≤ (w.list x.addr).length) (ops : List (Op V)) :
    ShapeAt (w.run (.get o (.one (.slice ⟨start, stop, none⟩)) :: ops)) w.objs.length [(z - a).toNat] ∧
    ∀ (i : Nat) (v : V), (i : Int) < z - a →
      (ReadsAt (w.run (.get o (.one (.slice ⟨start, stop, none⟩)) :: ops)) w.objs.length [(i : Int)] v ↔
        ReadsAt (w.run (.get o (.one (.slice ⟨start, stop, none⟩)) :: ops)) o [start.getD 0 + i] v) := by
  obtain ⟨ad, d⟩ := x
  simp only at hs
  subst hs
  simp only at h2 h4
  obtain ⟨r, hr, _⟩ := ((C47_buffer_slice b (w.list ad) ⟨start, stop, none⟩ (by simp) a z ha hz).2 h1 h2 h3 h4).1
    (Or.inl rfl)
  obtain ⟨c1, c2, c3, c4⟩ := views_agree w hw o _ hx _ _ hr ops
  simp only at c3 c4
  obtain ⟨r', hr', _, _, _, hsz, hrd⟩ := ((C47_buffer_slice b _ ⟨start, stop, none⟩ (by simp) a z ha hz).2 h1
    (by rw [c3]; exact h2) h3 (by rw [c3]; exact h4)).1 (Or.inl rfl)
  rw [c4, Except.ok.injEq, Res.view.injEq, Storage.buffer.injEq] at hr'
  subst hr'
  have hsz := hsz rfl
  refine ⟨⟨_, c2, ?_⟩, fun i v hi => ?_⟩
  · simp only [Storage.shape, List.cons.injEq, and_true]
    omega
  · have := hrd i v (by omega)
    constructor
    · rintro ⟨y, hy, hv⟩
      rw [c2, Option.some.injEq] at hy
      subst hy
      exact ⟨_, c1, this.1 hv⟩
    · rintro ⟨y, hy, hv⟩
      rw [c1, Option.some.injEq] at hy
      subst hy
      exact ⟨_, c2, this.2 hv⟩

/-! ## C41 -/

/-- No list is used from both groups. -/
def Apart (w : World V) (group : List Bool) : Prop :=
  group.length = w.objs.length ∧
    ∀ o p x y, w.objs[o]? = some x → w.objs[p]? = some y → group.getD o false ≠ group.getD p false → x.addr ≠ y.addr

omit [DecidableEq V] [HasNone V] in
/-- A statement that is about an object of one group changes no element of the objects of the other group. -/
theorem Effect.other_reads {w w' : World V} {op : Op V} (he : Effect w op w') (hw : w.Addressed) [DecidableEq V]
    {p : Nat} {y : Obj V} (hy : w.objs[p]? = some y)
    (hn : ∀ o x, op.on = some o → w.objs[o]? = some x → x.addr ≠ y.addr) (ix : List Int) (v : V) :
    ReadsAt w' p ix v ↔ ReadsAt w p ix v := by
  have hl := he.frame hw (hw y (List.mem_of_getElem? hy)) hn
  have hy' := he.objs hy
  constructor
  · rintro ⟨z, hz, hv⟩
    rw [hy', Option.some.injEq] at hz
    subst hz
    exact ⟨_, hy, by rwa [hl] at hv⟩
  · rintro ⟨z, hz, hv⟩
    rw [hy, Option.some.injEq] at hz
    subst hz
    exact ⟨_, hy', by rwa [hl]⟩

theorem apart_append {w w' : World V} (hw : w.Addressed) {group : List Bool} (h : Apart w group) {z : Obj V}
    (ho : w'.objs = w.objs ++ [z]) {g : Bool}
    (hz : ∀ p y, w.objs[p]? = some y → group.getD p false ≠ g → z.addr ≠ y.addr) : Apart w' (group ++ [g]) := by
  obtain ⟨h1, h2⟩ := h
  refine ⟨by simp [ho, h1], ?_⟩
  have key : ∀ o x, w'.objs[o]? = some x → (w.objs[o]? = some x ∧ (group ++ [g]).getD o false = group.getD o false) ∨
      (x = z ∧ (group ++ [g]).getD o false = g) := by
    intro o x hx
    rw [ho] at hx
    rcases lt_or_ge o w.objs.length with hl | hl
    · rw [List.getElem?_append_left hl] at hx
      refine Or.inl ⟨hx, ?_⟩
      rw [List.getD_eq_getElem?_getD, List.getD_eq_getElem?_getD, List.getElem?_append_left (by omega)]
    · rw [List.getElem?_append_right hl] at hx
      have hlt := getElem?_length hx
      simp only [List.length_singleton] at hlt
      have e : o = w.objs.length := by omega
      subst e
      refine Or.inr ⟨?_, ?_⟩
      · simpa using hx.symm
      · rw [List.getD_eq_getElem?_getD, List.getElem?_append_right (by omega)]
        simp [h1]
  intro o p x y hx hy hne
  rcases key o x hx with ⟨a1, a2⟩ | ⟨rfl, a2⟩ <;> rcases key p y hy with ⟨b1, b2⟩ | ⟨rfl, b2⟩ <;> rw [a2, b2] at hne
  · exact h2 o p x y a1 b1 hne
  · exact fun e => hz o x a1 hne e.symm
  · exact hz p y b1 (Ne.symm hne)
  · exact absurd rfl hne

theorem Apart.step {w : World V} (hw : w.Addressed) {group : List Bool} (h : Apart w group) (op : Op V) :
    Apart (w.step op).1 (groupStep w group op) := by
  simp only [groupStep]
  generalize hw' : (w.step op).1 = w'
  have e := w.step_effect op
  rw [hw'] at e
  cases e with
  | none => rw [if_pos rfl]; exact h
  | fresh s mem =>
    rw [if_neg (by simp [World.addFresh])]
    refine apart_append hw h rfl fun p y hy _ => ?_
    have := hw y (List.mem_of_getElem? hy)
    simp only [ne_eq]
    omega
  | view o x s ho hx =>
    rw [if_neg (by simp [World.addView])]
    refine apart_append hw h rfl fun p y hy hne => ?_
    simp only [ho] at hne
    exact fun e => h.2 p o y x hy hx hne e.symm
  | put o x m ho hx hl => rw [if_pos (show (w.put x.addr m).objs.length = w.objs.length from rfl)]; exact h

theorem Apart.run {w : World V} (hw : w.Addressed) {group : List Bool} (h : Apart w group) (ops : List (Op V)) :
    Apart (w.run ops) (groupRun w group ops) := by
  induction ops generalizing w group with
  | nil => exact h
  | cons op ops ih => exact ih ((w.step_effect op).addressed hw) (h.step hw op)

/-- Statements that make their result from new parts do not leave it on an old list. -/
theorem OwnParts_fresh {w : World V} {op : Op V} (h : OwnParts w op)
    (hnew : (w.step op).1.objs.length = w.objs.length + 1) : ∃ s mem, (w.step op).1 = w.addFresh s mem := by
  have hc : ∀ r : PyM (Storage V × List V), (w.create r).1.objs.length = w.objs.length + 1 →
      ∃ s mem, (w.create r).1 = w.addFresh s mem := by
    intro r hr
    cases r with
    | error e => simp [World.create] at hr
    | ok r => exact ⟨_, _, rfl⟩
  have hon : ∀ o, op.on = some o → ∃ x, w.objs[o]? = some x ∧ w.step op = w.stepOn x op := by
    intro o ho
    cases hx : w.objs[o]? with
    | none =>
      exfalso
      have : (w.step op).1 = w := by
        cases op <;> simp only [Op.on, Option.some.injEq, reduceCtorEq] at ho <;> subst ho <;>
          simp only [World.step, Op.on, Option.bind_some, hx]
      rw [this] at hnew
      omega
    | some x => exact ⟨x, rfl, w.step_on op o x ho hx⟩
  cases op with
  | make cls seq u => exact hc _ hnew
  | makeDM seq d p cls u => exact hc _ hnew
  | copy o u =>
    obtain ⟨x, hx, e⟩ := hon o rfl
    rw [e] at hnew ⊢
    exact hc _ hnew
  | convertDM o d p cls u =>
    obtain ⟨x, hx, e⟩ := hon o rfl
    rw [e] at hnew ⊢
    exact hc _ hnew
  | get o index =>
    obtain ⟨x, hx, e⟩ := hon o rfl
    obtain ⟨y, hy, hcls⟩ := h
    rw [hx, Option.some.injEq] at hy
    subst hy
    rw [e] at hnew ⊢
    simp only [World.stepOn] at hnew ⊢
    cases hr : x.desc.getItem (w.list x.addr) index with
    | error e => rw [hr] at hnew; simp [World.got] at hnew
    | ok r => cases r with
      | val v => rw [hr] at hnew; simp [World.got] at hnew
      | fresh s mem => exact ⟨_, _, rfl⟩
      | view s =>
        exfalso
        cases hd : x.desc with
        | buffer => rw [hd] at hcls; exact hcls
        | strided => rw [hd] at hcls; exact hcls
        | dm => rw [hd] at hcls; exact hcls
        | coo c =>
          rw [hd] at hr
          simp only [Storage.getItem, bind, Except.bind, pure, Except.pure] at hr
          repeat' split at hr
          all_goals simp at hr
        | flatcoo c =>
          rw [hd] at hr
          simp only [Storage.getItem, bind, Except.bind, pure, Except.pure] at hr
          repeat' split at hr
          all_goals simp at hr
        | csr c =>
          rw [hd] at hr
          simp only [Storage.getItem, bind, Except.bind, pure, Except.pure] at hr
          repeat' split at hr
          all_goals simp at hr
  | convert o cls u =>
    obtain ⟨x, hx, e⟩ := hon o rfl
    rw [e] at hnew ⊢
    simp only [World.stepOn] at hnew ⊢
    cases hr : fromObject cls (.store x.desc (w.list x.addr)) u with
    | error e => rw [hr] at hnew; simp [World.made] at hnew
    | ok r => cases r with
      | fresh s mem => exact ⟨_, _, rfl⟩
      | same =>
        exfalso
        simp only [OwnParts] at h
        cases u with
        | some u =>
          simp only [fromObject, bind, Except.bind, pure, Except.pure] at hr
          repeat' split at hr
          all_goals simp at hr
        | none =>
          have hx' : ∀ cls' d', cls = cls' → x.desc = d' → (match d', cls' with
              | .buffer _, .buffer | .strided _, .strided | .coo _, .coo | .flatcoo _, .flatcoo => False
              | _, _ => True) := by
            rintro _ _ rfl rfl
            rcases h with h | rfl | rfl | ⟨y, hy, hcls⟩
            · exact absurd rfl h
            · cases x.desc <;> trivial
            · cases x.desc <;> trivial
            · rw [hx, Option.some.injEq] at hy
              subst hy
              exact hcls
          have hcls := hx' _ _ rfl rfl
          cases hd : x.desc <;> rw [hd] at hr hcls <;> cases cls <;>
            simp only [fromObject, bind, Except.bind, pure, Except.pure] at hr hcls
          all_goals repeat' split at hr
          all_goals simp at hr
  | set => exact h.elim
  | setFrom => exact h.elim

/-- C41.  Let `w` be any state of a program.  A statement `n = ...` that makes its object from new parts (a slice of a
`COO`, `FlatCOO` or `CSR`, a copy, a conversion that makes a new object) is followed by any statements `ops`.
All objects that come from `n` are in one group, all others in the second group.  Then the next statement
`op`, if it is about an object `p` of one group, changes no element of any object `q` of the other group. -/
theorem C41_independent (w : World V) (hw : w.Addressed) (mk : Op V) (hmk : OwnParts w mk)
    (hnew : (w.step mk).1.objs.length = w.objs.length + 1) (ops : List (Op V)) (group : List Bool)
    (hg : group = groupRun (w.step mk).1 (List.replicate w.objs.length false ++ [true]) ops)
    (op : Op V) (p q : Nat) (hp : op.on = some p) (hpq : group.getD p false ≠ group.getD q false)
    (hq : q < (w.run (mk :: ops)).objs.length) (ix : List Int) (v : V) :
    ReadsAt (w.run (mk :: (ops ++ [op]))) q ix v ↔ ReadsAt (w.run (mk :: ops)) q ix v := by
  obtain ⟨s, mem, e⟩ := OwnParts_fresh hmk hnew
  have h0 : Apart w (List.replicate w.objs.length false) := by
    refine ⟨by simp, fun o p x y _ _ hne => absurd ?_ hne⟩
    have : ∀ o, (List.replicate w.objs.length false).getD o false = false := by
      intro o
      rw [List.getD_eq_getElem?_getD, List.getElem?_replicate]
      split <;> rfl
    rw [this, this]
  have h1 : Apart (w.step mk).1 (List.replicate w.objs.length false ++ [true]) := by
    refine apart_append (z := ⟨w.lists.length, s⟩) hw h0 (by rw [e]; rfl) fun p y hy _ => ?_
    have := hw y (List.mem_of_getElem? hy)
    simp only [ne_eq]
    omega
  have hw1 := (w.step_effect mk).addressed hw
  have h2 := h1.run hw1 ops
  rw [← hg] at h2
  have hrun : w.run (mk :: (ops ++ [op])) = ((w.run (mk :: ops)).step op).1 := by
    simp only [World.run]
    generalize (w.step mk).1 = w1
    clear * -
    induction ops generalizing w1 with
    | nil => rfl
    | cons a ops ih => simp only [List.cons_append, World.run]; exact ih _
  rw [hrun]
  obtain ⟨y, hy⟩ : ∃ y, (w.run (mk :: ops)).objs[q]? = some y := ⟨_, List.getElem?_eq_getElem hq⟩
  refine ((w.run (mk :: ops)).step_effect op).other_reads (World.run_addressed hw1 ops) hy (fun o x ho hx => ?_) ix v
  rw [hp, Option.some.injEq] at ho
  subst ho
  exact h2.2 _ _ x y hx hy hpq

/-- C41, in one direction: statements about the new object `n` alone change no element of the earlier objects. -/
theorem C41_assign_to_copy (w : World V) (hw : w.Addressed) (mk : Op V) (hmk : OwnParts w mk)
    (hnew : (w.step mk).1.objs.length = w.objs.length + 1) (ops : List (Op V))
    (hon : ∀ op ∈ ops, ∀ p, op.on = some p → w.objs.length ≤ p) (q : Nat) (hq : q < w.objs.length)
    (ix : List Int) (v : V) : ReadsAt (w.run (mk :: ops)) q ix v ↔ ReadsAt w q ix v := by
  obtain ⟨s, mem, e⟩ := OwnParts_fresh hmk hnew
  obtain ⟨y, hy⟩ : ∃ y, w.objs[q]? = some y := ⟨_, List.getElem?_eq_getElem hq⟩
  have hya := hw y (List.mem_of_getElem? hy)
  -- no later object is on one of the old lists
  have key : ∀ (ops : List (Op V)) (w1 : World V), w1.Addressed → w.objs.length ≤ w1.objs.length →
      (∀ op ∈ ops, ∀ p, op.on = some p → w.objs.length ≤ p) →
      (∀ p x, w.objs.length ≤ p → w1.objs[p]? = some x → x.addr ≠ y.addr) →
      y.addr < w1.lists.length → (w1.run ops).list y.addr = w1.list y.addr := by
    intro ops
    induction ops with
    | nil => intros; rfl
    | cons op ops ih =>
      intro w1 a1 a2 a3 a4 a5
      have ef := w1.step_effect op
      have hf : (w1.step op).1.list y.addr = w1.list y.addr :=
        ef.frame a1 a5 fun o x ho hx => a4 o x (a3 op (by simp) o ho) hx
      simp only [World.run]
      rw [ih (w1.step op).1 (ef.addressed a1) ?_ (fun o ho => a3 o (by simp [ho])) ?_ (lt_of_lt_of_le a5 ef.lists), hf]
      · generalize (w1.step op).1 = w2 at ef
        cases ef with
        | none => exact a2
        | fresh => simp only [World.addFresh, List.length_append]; omega
        | view => simp only [World.addView, List.length_append]; omega
        | put => exact a2
      · intro p x hp hx
        generalize hw2 : (w1.step op).1 = w2 at ef hx
        have new : ∀ z : Obj V, w2.objs = w1.objs ++ [z] → z.addr ≠ y.addr → x.addr ≠ y.addr := by
          intro z hz hza
          rw [hz] at hx
          rcases lt_or_ge p w1.objs.length with hl | hl
          · rw [List.getElem?_append_left hl] at hx
            exact a4 p x hp hx
          · rw [List.getElem?_append_right hl] at hx
            have hx' := List.mem_of_getElem? hx
            simp only [List.mem_singleton] at hx'
            rw [hx']
            exact hza
        cases ef with
        | none => exact a4 p x hp hx
        | fresh s mem => exact new _ rfl (by simp only [ne_eq]; omega)
        | view o z s ho hz => exact new _ rfl (a4 o z (a3 op (by simp) o ho) hz)
        | put => exact a4 p x hp hx
  have hw1 := (w.step_effect mk).addressed hw
  have hl : (w.run (mk :: ops)).list y.addr = w.list y.addr := by
    simp only [World.run]
    rw [key ops _ hw1 (by omega) hon ?_ (lt_of_lt_of_le hya (w.step_effect mk).lists), e, w.list_addFresh _ _ _ hya]
    intro p x hp hx
    rw [e] at hx
    simp only [World.addFresh] at hx
    rw [List.getElem?_append_right hp] at hx
    have hx' := List.mem_of_getElem? hx
    simp only [List.mem_singleton] at hx'
    rw [hx']
    simp only [ne_eq]
    omega
  have hy' : (w.run (mk :: ops)).objs[q]? = some y := w.run_objs _ hy
  constructor
  · rintro ⟨z, hz, hv⟩
    rw [hy', Option.some.injEq] at hz
    subst hz
    exact ⟨_, hy, by rwa [hl] at hv⟩
  · rintro ⟨z, hz, hv⟩
    rw [hy, Option.some.injEq] at hz
    subst hz
    exact ⟨_, hy', by rwa [hl]⟩

/-! ## Cases -/

/-- A state with one object, a `Strided` with the rows `1 - 3` and `- 5 -`. -/
def sampleWorld : World (Option Int) := ⟨[sampleCells], [⟨0, .strided sampleStrided⟩]⟩

/-- A case of C40: `n = o[::-1, 1:]`, then `n[0, 0] = 7` and `o[0, 2] = 8`; both objects use the list `0`, and the
hypotheses of C40 hold. -/
example : sampleWorld.Addressed ∧ (Storage.strided sampleStrided).WF (sampleWorld.list 0) ∧
    DistinctAddresses sampleStrided.shape sampleStrided.strides ∧ ValidItems (items turned) [2, 3] ∧
    selShape (items turned) [2, 3] = [2, 2] ∧
    (let w' := sampleWorld.run [.get 0 turned, .set 1 (.tuple [.int 0, .int 0]) (.leaf (some 7)),
      .set 0 (.tuple [.int 0, .int 2]) (.leaf (some 8))]
    w'.lists = [[some 1, none, some 8, none, some 7, none]] ∧ (w'.objs.map (·.addr)) = [0, 0] ∧
    (w'.objs.map fun x => x.desc.getVal (w'.list x.addr) [1, 1]) = [.ok (some 7), .ok (some 8)]) :=
  ⟨by simp [sampleWorld, World.Addressed], sampleStrided_wf, sampleStrided_distinct, by simp [items, turned, ValidItems],
    by decide, by decide +kernel⟩

/-- A case of C41: `n = o.as_CSR()`, `k = n[::-1, 1:]`, `m = o.copy()`, `i = m[::-1, 1:]`; four lists are in use after that. The
group of `o` is `o`; that of `n`, `n` and `k`. -/
example :
    let mk : Op (Option Int) := .convert 0 .csr none
    let ops : List (Op (Option Int)) := [.get 1 turned, .copy 0 none, .get 3 turned]
    OwnParts sampleWorld mk ∧ (sampleWorld.step mk).1.objs.length = sampleWorld.objs.length + 1 ∧
    groupRun (sampleWorld.step mk).1 (List.replicate sampleWorld.objs.length false ++ [true]) ops
      = [false, true, true, false, false] ∧
    (sampleWorld.run (mk :: ops)).objs.map (·.addr) = [0, 1, 2, 3, 3] ∧
    (sampleWorld.run (mk :: (ops ++ [.set 4 (.tuple [.int 0, .int 0]) (.leaf (some 7))]))).lists
      = [[some 1, none, some 3, none, some 5, none], [some 1, some 3, some 5], [some 5, some 3],
        [some 1, none, some 3, none, some 7, none]] :=
  ⟨Or.inr (Or.inl rfl), by decide +kernel, by decide +kernel, by decide +kernel, by decide +kernel⟩

/-- A case of C40 for `DM`: the slice `n = o[::-1, 1:]` of a `DM` whose data is a `Strided` is a view. -/
example : (Storage.dm sampleDM (.strided sampleStrided)).WF sampleCells ∧
    SafeIndex (.dm sampleDM (.strided sampleStrided)) turned ∧
    ∃ r, (Storage.dm sampleDM (.strided sampleStrided)).getItem sampleCells turned = .ok (.view r) :=
  ⟨sampleDM_wf.1, sampleDM_wf.2.safe turned, _, rfl⟩

/-- A case of C40 for `Buffer`: `n = o[-1:2]` of a buffer at offset `2`, then `n[0] = 7`; `o[-1]` is `7`. -/
example :
    let w : World (Option Int) := ⟨[[some 10, some 11, some 12, some 13, some 14]], [⟨0, .buffer ⟨3, 2, none⟩⟩]⟩
    w.Addressed ∧
    (let w' := w.run [.get 0 (.one (.slice ⟨some (-1), some 2, none⟩)), .set 1 (.one (.int 0)) (.leaf (some 7))]
    w'.lists = [[some 10, some 7, some 12, some 13, some 14]] ∧
    (w'.objs.map fun x => x.desc.getVal (w'.list x.addr) [-1]) = [.ok (some 7), .ok (some 10)]) :=
  ⟨by simp [World.Addressed], by decide +kernel⟩

end Gcs
