import Verif.Props.Machine

/-!
# C75: programs without assignments do not see the storage classes
-/

namespace Gcs

open Spec

variable {V : Type} [DecidableEq V] [HasNone V]

/-- Two views that cannot be told apart by reading.  The second is a `Strided`. -/
structure Alike (m m' : Machine V) (v v' : View V) : Prop where
  kind : v'.kind = .strided
  shape : v'.shape = v.shape
  unspec : v'.unspec = v.unspec
  pos : PosShape v.shape
  lt : v.arr < m.arrs.length
  lt' : v'.arr < m'.arrs.length
  read : ∀ ix, InBox ix v.shape → m'.read v' ix = m.read v ix

/-- Two machines with as many objects, alike one by one. -/
structure AlikeAll (m m' : Machine V) : Prop where
  length : m'.views.length = m.views.length
  obj : ∀ (o : Nat) (v v' : View V), m.views[o]? = some v → m'.views[o]? = some v' → Alike m m' v v'

omit [DecidableEq V] [HasNone V] in
theorem AlikeAll.get {m m' : Machine V} (h : AlikeAll m m') {o : Nat} {v : View V} (hv : m.views[o]? = some v) :
    ∃ v', m'.views[o]? = some v' ∧ Alike m m' v v' := by
  have hl : o < m'.views.length := by
    rw [h.length]
    exact (List.getElem?_eq_some_iff.1 hv).1
  exact ⟨m'.views[o], by simp [hl], h.obj o v _ hv (by simp [hl])⟩

omit [DecidableEq V] [HasNone V] in
theorem read_arrs (m : Machine V) (e : List (List Int → Option V)) (vs : List (View V)) (v : View V) (h : v.arr < m.arrs.length)
    (ix : List Int) : Machine.read ⟨m.arrs ++ e, vs⟩ v ix = m.read v ix := by
  simp only [Machine.read, Machine.place, Machine.elem, List.getElem?_append_left h]

omit [DecidableEq V] [HasNone V] in
/-- More arrays and one more object on both sides. -/
theorem AlikeAll.grow {m m' : Machine V} (h : AlikeAll m m') (e e' : List (List Int → Option V)) (v v' : View V)
    (ha : Alike ⟨m.arrs ++ e, m.views ++ [v]⟩ ⟨m'.arrs ++ e', m'.views ++ [v']⟩ v v') :
    AlikeAll ⟨m.arrs ++ e, m.views ++ [v]⟩ ⟨m'.arrs ++ e', m'.views ++ [v']⟩ := by
  refine ⟨by simp [h.length], fun o x x' hx hx' => ?_⟩
  simp only at hx hx'
  rcases Nat.lt_trichotomy o m.views.length with hl | hl | hl
  · rw [List.getElem?_append_left hl] at hx
    rw [List.getElem?_append_left (by rw [h.length]; exact hl)] at hx'
    have a := h.obj o x x' hx hx'
    refine ⟨a.kind, a.shape, a.unspec, a.pos, ?_, ?_, fun ix hi => ?_⟩
    · have := a.lt; simp only [List.length_append]; omega
    · have := a.lt'; simp only [List.length_append]; omega
    · rw [read_arrs _ _ _ _ a.lt, read_arrs _ _ _ _ a.lt', a.read ix hi]
  · rw [List.getElem?_append_right (by omega), hl] at hx
    rw [List.getElem?_append_right (by rw [h.length]; omega), hl, h.length] at hx'
    simp only [Nat.sub_self, List.getElem?_cons_zero, Option.some.injEq] at hx hx'
    rw [← hx, ← hx']
    exact ha
  · rw [List.getElem?_eq_none (by simp only [List.length_append, List.length_cons, List.length_nil]; omega)] at hx
    simp at hx

omit [DecidableEq V] [HasNone V] in
theorem read_last (m : Machine V) (kind : Kind) (shape : List Nat) (u : V) (e : List Int → Option V) (vs : List (View V))
    (ix : List Int) (hi : InBox ix shape) :
    Machine.read ⟨m.arrs ++ [fun ix => if InBox ix shape then e ix else none], vs⟩ ⟨kind, shape, u, m.arrs.length, id⟩ ix
      = (e ix).getD u := by
  simp only [Machine.read, Machine.place, Machine.elem, id_eq, List.getElem?_append_right (Nat.le_refl _), Nat.sub_self,
    List.getElem?_cons_zero, Option.bind_some, if_pos hi]

omit [DecidableEq V] [HasNone V] in
/-- A new array on both sides. -/
theorem AlikeAll.add {m m' : Machine V} (h : AlikeAll m m') (kind : Kind) (shape : List Nat) (hp : PosShape shape) (u : V)
    (e e' : List Int → Option V) (he : ∀ ix, InBox ix shape → (e' ix).getD u = (e ix).getD u) :
    AlikeAll (m.add kind shape u e) (m'.add .strided shape u e') := by
  refine h.grow _ _ _ _ ⟨rfl, rfl, rfl, hp, by simp, by simp, fun ix hi => ?_⟩
  rw [read_last m kind shape u e _ ix hi, read_last m' .strided shape u e' _ ix hi, he ix hi]

omit [DecidableEq V] [HasNone V] in
/-- A view on one side, a new array on the other. -/
theorem AlikeAll.viewL {m m' : Machine V} (h : AlikeAll m m') (v v' : View V)
    (ha : Alike m m' v v') : AlikeAll (m.addView v) (m'.addView v') := by
  have := h.grow [] [] v v' (by
    refine ⟨ha.kind, ha.shape, ha.unspec, ha.pos, ?_, ?_, fun ix hi => ?_⟩
    · simpa using ha.lt
    · simpa using ha.lt'
    · rw [read_arrs _ _ _ _ ha.lt, read_arrs _ _ _ _ ha.lt', ha.read ix hi])
  simp only [List.append_nil] at this
  exact this

omit [DecidableEq V] [HasNone V] in
theorem AlikeAll.freshL {m m' : Machine V} (h : AlikeAll m m') (kind : Kind) (v' : View V) (e : List Int → Option V)
    (hk : v'.kind = .strided) (hp : PosShape v'.shape) (hl : v'.arr < m'.arrs.length)
    (he : ∀ ix, InBox ix v'.shape → m'.read v' ix = (e ix).getD v'.unspec) :
    AlikeAll (m.add kind v'.shape v'.unspec e) (m'.addView v') := by
  have := h.grow [fun ix => if InBox ix v'.shape then e ix else none] [] ⟨kind, v'.shape, v'.unspec, m.arrs.length, id⟩ v' (by
    refine ⟨hk, rfl, rfl, hp, by simp, by simpa using hl, fun ix hi => ?_⟩
    rw [read_arrs _ _ _ _ hl, read_last m kind v'.shape v'.unspec e _ ix hi, he ix hi])
  simp only [List.append_nil] at this
  exact this

omit [HasNone V] in
theorem made_getD (kind : Kind) (u : V) (f : List Int → V) (ix : List Int) : (made kind u f ix).getD u = f ix := by
  unfold made
  split
  · next h => exact h.2.symm
  · rfl

omit [HasNone V] in
/-- A conversion on both sides. -/
theorem AlikeAll.convert {m m' : Machine V} (h : AlikeAll m m') {v v' : View V} (ha : Alike m m' v v') (kind : Kind)
    (u : Option V) : AlikeAll (m.convert v kind u) (m'.convert v' .strided u) := by
  have hsame : v'.kind.same .strided = true := by rw [ha.kind]; rfl
  have htakes : v'.kind.takes .strided = false := by rw [ha.kind]; rfl
  have hrep : ∀ x : V, replaced v.unspec v.unspec x = x := by
    intro x
    unfold replaced
    split
    · next h => exact h.symm
    · rfl
  cases u with
  | none =>
    simp only [Machine.convert, hsame, true_and, if_true, Option.getD_none]
    have keep : ∀ e : List Int → Option V, (∀ ix, InBox ix v.shape → m.read v ix = (e ix).getD v.unspec) →
        AlikeAll (m.add kind v.shape v.unspec e) (m'.addView v') := by
      intro e he
      have := h.freshL kind v' e ha.kind (by rw [ha.shape]; exact ha.pos) ha.lt' (fun ix hi => by
        rw [ha.shape] at hi
        rw [ha.read ix hi, he ix hi, ha.unspec])
      rw [ha.shape, ha.unspec] at this
      exact this
    by_cases c1 : v.kind.same kind = true
    · rw [if_pos c1]
      exact h.viewL v v' ha
    · rw [if_neg c1]
      by_cases c2 : v.kind.takes kind = true
      · rw [if_pos c2]
        exact keep _ fun ix _ => rfl
      · rw [if_neg c2]
        exact keep _ fun ix _ => by rw [made_getD, hrep]
  | some u =>
    simp only [Machine.convert, reduceCtorEq, false_and, if_false, Option.getD_some, ha.shape, ha.unspec]
    refine h.add kind v.shape ha.pos u _ _ fun ix hi => ?_
    rw [made_getD, made_getD, ha.read ix hi]

/-- One statement. -/
theorem AlikeAll.step {m m' : Machine V} (h : AlikeAll m m') (op : Op V) (hro : ReadOnly op) (hf : m.Fits op) :
    AlikeAll (m.step op).1 (m'.step (allStrided op)).1 ∧ (m'.step (allStrided op)).2 = (m.step op).2 ∧
      m'.Fits (allStrided op) := by
  cases op with
  | make cls seq u =>
    refine ⟨?_, rfl, hf.1, hf.2.1, hf.2.2.1, by simp, by simp⟩
    exact h.add _ _ hf.2.2.1 _ _ _ fun ix _ => by rw [made_getD, made_getD]
  | makeDM seq d p cls u =>
    refine ⟨?_, rfl, hf.1, hf.2.1, hf.2.2.1, by simp, by simp⟩
    exact h.add _ _ hf.2.2.1 _ _ _ fun ix _ => by rw [made_getD, made_getD]
  | get o index =>
    obtain ⟨v, hv, h1, h2, h3⟩ := hf
    obtain ⟨v', hv', ha⟩ := h.get hv
    have hfit : m'.Fits (.get o index) := ⟨v', hv', by rw [ha.shape]; exact h1, by rw [ha.shape]; exact h2, fun e => by
      rw [ha.kind] at e; simp at e⟩
    simp only [allStrided, Machine.step, hv, hv', ha.shape]
    refine ⟨?_, ?_, hfit⟩
    · by_cases he : selShape (items index) v.shape = []
      · rw [if_pos he, if_pos he]
        exact h
      · rw [if_neg he, if_neg he]
        have hread : ∀ j, InBox j (selShape (items index) v.shape) → m'.read v' (selSource (items index) v.shape j)
            = m.read v (selSource (items index) v.shape j) := fun j hj => ha.read _ (source_inBox ha.pos h1 hj)
        have fresh : ∀ (kind : Kind) (e : List Int → Option V), (∀ j, InBox j (selShape (items index) v.shape) →
            (e j).getD v.unspec = m.read v (selSource (items index) v.shape j)) →
            AlikeAll (m.add kind (selShape (items index) v.shape) v.unspec e) (m'.addView ⟨.strided,
              selShape (items index) v.shape, v.unspec, v'.arr, fun j => v'.src (selSource (items index) v.shape j)⟩) := by
          intro kind e he
          exact h.freshL kind ⟨.strided, selShape (items index) v.shape, v.unspec, v'.arr, fun j =>
            v'.src (selSource (items index) v.shape j)⟩ e rfl h2 ha.lt' fun j hj => by
              rw [he j hj, ← hread j hj]
              simp only [Machine.read, Machine.place, ha.unspec]
        have view : ∀ kind, AlikeAll (m.addView ⟨kind, selShape (items index) v.shape, v.unspec, v.arr, fun j =>
              v.src (selSource (items index) v.shape j)⟩) (m'.addView ⟨.strided,
              selShape (items index) v.shape, v.unspec, v'.arr, fun j => v'.src (selSource (items index) v.shape j)⟩) := by
          intro kind
          refine h.viewL _ _ ⟨rfl, rfl, rfl, h2, ha.lt, ha.lt', fun j hj => ?_⟩
          have := hread j hj
          simp only [Machine.read, Machine.place, ha.unspec] at this ⊢
          exact this
        have hs : m'.slice v' index = m'.addView ⟨.strided, selShape (items index) v.shape, v.unspec, v'.arr, fun j =>
            v'.src (selSource (items index) v.shape j)⟩ := by
          simp only [Machine.slice, ha.kind, ha.shape, ha.unspec]
        simp only [hs]
        cases hk : v.kind <;> simp only [Machine.slice, hk]
        case strided => exact view _
        case dm => exact view _
        case coo => exact fresh _ _ fun j hj => rfl
        case flatcoo => exact fresh _ _ fun j hj => rfl
        case csr =>
          split
          · exact fresh _ _ fun j hj => made_getD ..
          · exact fresh _ _ fun j hj => rfl
    · by_cases he : selShape (items index) v.shape = []
      · rw [if_pos he, if_pos he]
        simp only
        rw [ha.read _ (source_inBox ha.pos h1 (by rw [he]; trivial))]
      · rw [if_neg he, if_neg he]
  | convert o cls u =>
    obtain ⟨v, hv, h1⟩ := hf
    obtain ⟨v', hv', ha⟩ := h.get hv
    simp only [allStrided, Machine.step, hv, hv']
    exact ⟨h.convert ha _ u, trivial, v', hv', by simp, by simp⟩
  | convertDM o d p cls u =>
    obtain ⟨v, hv, h1⟩ := hf
    obtain ⟨v', hv', ha⟩ := h.get hv
    simp only [allStrided, Machine.step, hv, hv']
    exact ⟨h.convert ha _ u, trivial, v', hv', by simp, by simp⟩
  | copy o u =>
    obtain ⟨v, hv⟩ := hf
    obtain ⟨v', hv', ha⟩ := h.get hv
    simp only [allStrided, Machine.step, hv, hv', ha.kind, ha.shape, ha.unspec]
    refine ⟨h.add _ _ ha.pos _ _ _ fun ix hi => ?_, trivial, v', hv'⟩
    have hread := ha.read ix hi
    simp only [Machine.read, ha.unspec] at hread
    have key : ∀ o : Option V, (o.map (replaced v.unspec (u.getD v.unspec))).getD (u.getD v.unspec)
        = replaced v.unspec (u.getD v.unspec) (o.getD v.unspec) := by
      intro o
      cases o with
      | none => simp [replaced]
      | some x => rfl
    rw [key, key, hread]
  | set o index value => exact hro.elim
  | setFrom o index p => exact hro.elim

theorem AlikeAll.run {m m' : Machine V} (h : AlikeAll m m') (ops : List (Op V)) (hro : ∀ op ∈ ops, ReadOnly op)
    (hf : m.FitsAll ops) : AlikeAll (m.run ops) (m'.run (ops.map allStrided)) ∧ m'.FitsAll (ops.map allStrided) := by
  induction ops generalizing m m' with
  | nil => exact ⟨h, trivial⟩
  | cons op ops ih =>
    obtain ⟨h1, _, h3⟩ := h.step op (hro op (by simp)) hf.1
    obtain ⟨i1, i2⟩ := ih h1 (fun op ho => hro op (by simp [ho])) hf.2
    exact ⟨i1, h3, i2⟩

omit [DecidableEq V] [HasNone V] in
theorem AlikeAll.empty : AlikeAll (Machine.empty : Machine V) Machine.empty :=
  ⟨rfl, fun o v v' hv => by simp [Machine.empty] at hv⟩

/-- C75, the objects.  A program without assignments has the same objects with the same elements when all classes in it
are replaced by `Strided`. -/
theorem C75_objects (ops : List (Op V)) (hro : ∀ op ∈ ops, ReadOnly op) (hf : Machine.empty.FitsAll ops) (o : Nat) :
    (∀ shape, ShapeAt (World.empty.run ops) o shape ↔ ShapeAt (World.empty.run (ops.map allStrided)) o shape) ∧
    ∀ shape, ShapeAt (World.empty.run ops) o shape → ∀ ix, InBox ix shape → ∀ x,
      (ReadsAt (World.empty.run ops) o ix x ↔ ReadsAt (World.empty.run (ops.map allStrided)) o ix x) := by
  obtain ⟨h, hf'⟩ := AlikeAll.empty.run ops hro hf
  obtain ⟨a1, a2⟩ := C73_objects ops hf
  obtain ⟨b1, b2⟩ := C73_objects _ hf'
  cases hv : (Machine.empty.run ops).views[o]? with
  | none =>
    have hl := List.getElem?_eq_none_iff.1 hv
    have := h.length
    have ha : (World.empty.run ops).objs[o]? = none := List.getElem?_eq_none_iff.2 (by omega)
    have hb : (World.empty.run (ops.map allStrided)).objs[o]? = none := List.getElem?_eq_none_iff.2 (by omega)
    refine ⟨fun shape => ?_, fun shape => ?_⟩
    · simp only [ShapeAt, ha, hb]
    · rintro ⟨x, hx, _⟩
      rw [ha] at hx
      simp at hx
  | some v =>
    obtain ⟨v', hv', al⟩ := h.get hv
    obtain ⟨x, hx, _, xs, _, xr⟩ := a2 o v hv
    obtain ⟨y, hy, _, ys, _, yr⟩ := b2 o v' hv'
    refine ⟨fun shape => ?_, fun shape hs ix hi z => ?_⟩
    · simp only [ShapeAt, hx, hy, Option.some.injEq, exists_eq_left', xs, ys, al.shape]
    · simp only [ShapeAt, hx, Option.some.injEq, exists_eq_left', xs] at hs
      subst hs
      have h1 := xr ix hi
      have h2 := yr ix (by rw [al.shape]; exact hi)
      rw [al.read ix hi] at h2
      simp only [ReadsAt, hx, hy, Option.some.injEq, exists_eq_left']
      unfold Reads at h1 h2 ⊢
      rw [h1, h2]

/-- C75, the outcomes: each statement gives the program the same. -/
theorem C75_outcomes (pre : List (Op V)) (op : Op V) (post : List (Op V)) (hro : ∀ op' ∈ pre ++ op :: post, ReadOnly op')
    (hf : Machine.empty.FitsAll (pre ++ op :: post)) :
    ((World.empty.run (pre.map allStrided)).step (allStrided op)).2 = ((World.empty.run pre).step op).2 := by
  have h2 := (AlikeAll.empty.run _ hro hf).2
  rw [List.map_append, List.map_cons] at h2
  rw [(C73_outcomes _ _ _ hf).1, (C73_outcomes _ _ _ h2).1]
  obtain ⟨f1, f2, _⟩ := FitsAll.append pre _ hf
  have h := (AlikeAll.empty.run pre (fun op ho => hro op (by simp [ho])) f1).1
  exact (h.step op (hro op (by simp)) f2).2.1

/-- A program without assignments.
```
o0 = COO.fromobject([[1, None, 3], [None, 5, None]]);  o1 = o0.as_CSR();  o2 = o1[1];  o3 = o2.as_DM()
o4 = o0.as_FlatCOO(unspecified=0);  o5 = o4[::-1, 1:];  o6 = DM.fromobject([[1, 2], [3, 4]], partitioning=(1,))
o7 = o6.as_CSR(unspecified=4);  o8 = o5.copy();  o7[1, -1]
``` -/
def readProgram : List (Op (Option Int)) :=
  [.make .coo (.seq [.seq [.leaf (some 1), .leaf none, .leaf (some 3)], .seq [.leaf none, .leaf (some 5), .leaf none]]) none,
   .convert 0 .csr none, .get 1 (.one (.int 1)), .convertDM 2 none none .strided none,
   .convert 0 .flatcoo (some (some 0)),
   .get 4 (.tuple [.slice ⟨none, none, some (-1)⟩, .slice ⟨some 1, none, none⟩]),
   .makeDM (.seq [.seq [.leaf (some 1), .leaf (some 2)], .seq [.leaf (some 3), .leaf (some 4)]]) none (some [1]) .strided none,
   .convert 6 .csr (some (some 4)), .copy 5 none, .get 7 (.tuple [.int 1, .int (-1)])]

/-- The program meets the conditions of C75. -/
theorem readProgram_fits : (∀ op ∈ readProgram, ReadOnly op) ∧ Machine.empty.FitsAll readProgram := by
  refine ⟨?_, fitsAll_sound (by decide +kernel)⟩
  intro op h
  simp only [readProgram, List.mem_cons, List.not_mem_nil, or_false] at h
  rcases h with rfl | rfl | rfl | rfl | rfl | rfl | rfl | rfl | rfl | rfl <;> trivial

/-- A case of C75: the classes and the lists of the two programs differ. -/
example :
    ((World.empty.run readProgram).objs.map fun x => (x.addr, x.desc.cls)) =
      [(0, .coo), (1, .csr), (2, .coo), (3, .dm), (4, .flatcoo), (5, .flatcoo), (6, .dm), (7, .csr), (8, .flatcoo)] ∧
    ((World.empty.run (readProgram.map allStrided)).objs.map fun x => (x.addr, x.desc.cls)) =
      [(0, .strided), (0, .strided), (0, .strided), (0, .strided), (1, .strided), (1, .strided), (2, .strided), (3, .strided),
        (4, .strided)] := by
  constructor <;> decide +kernel

/-- With an assignment it is not so: a `COO` drops what is assigned to an element without a place (C38). -/
example : (Machine.empty.run [Op.make .coo (.seq [.leaf (some 1), .leaf (none : Option Int)]) none,
      .set 0 (.one (.slice ⟨none, none, none⟩)) (.seq [.leaf (some 7), .leaf (some 8)])]).read ⟨.coo, [2], none, 0, id⟩ [1]
      = none ∧
    (Machine.empty.run [Op.make .strided (.seq [.leaf (some 1), .leaf (none : Option Int)]) none,
      .set 0 (.one (.slice ⟨none, none, none⟩)) (.seq [.leaf (some 7), .leaf (some 8)])]).read ⟨.strided, [2], none, 0, id⟩ [1]
      = some 8 := by
  constructor <;> decide +kernel

end Gcs
