import Verif.Props.Pipelines
import Verif.Props.ReadOnly

/-!
# C95: programs without assignments and plain arrays

A program that makes, slices, converts and copies objects of any class, with a `DM` around any class, a `CSR` and a
`DM` included.  The specification keeps a plain array (Props/Pipelines.lean) for each object and knows no lists that
objects share: without assignments sharing cannot be seen.
-/

namespace Gcs

open Spec

variable {V : Type} [DecidableEq V] [HasNone V]

/-- The arguments of `DM.fromobject` for an array of `n` axes: the dimensions are a permutation of the axes, the
partitioning is increasing inside `1, ..., n - 1`.  A `Buffer` has one group of axes; a `CSR` has two, and the array has an
element that is not the unspecified value (C28). -/
def Spec.AnySplitFits (n : Nat) (dimensions partitioning : Option (List Nat)) (cls : Cls) (specified : Prop) : Prop :=
  (∀ d, dimensions = some d → d.Perm (List.range n)) ∧
  (∀ p, partitioning = some p → p.Pairwise (· < ·) ∧ ∀ k ∈ p, 0 < k ∧ k < n) ∧
  (cls = .buffer → partitioning = none ∨ partitioning = some []) ∧
  (cls = .csr → specified ∧ (partitioning = none ∧ 2 ≤ n ∨ ∃ k, partitioning = some [k]))

/-- The array of `fromobject`. -/
def Spec.Plain.ofList (seq : Nested V) (u : Option V) : Plain V := ⟨dims seq, u.getD pyNone, listElem seq u⟩

/-- An element that is not the unspecified value. -/
def Spec.Plain.Specified (a : Plain V) : Prop := ∃ ix, InBox ix a.shape ∧ a.elem ix ≠ a.unspec

/-- What is known of an object: its plain array, and whether it is a `DM` or a slice of one. -/
abbrev Spec.Arrays (V : Type) := List (Plain V × Mode)

/-- One statement. -/
def Spec.Arrays.step (st : Arrays V) : Op V → Arrays V × Outcome V
  | .make cls seq u => (st ++ [(.ofList seq u, if cls = .dm then .whole else .flat)], .done)
  | .makeDM seq _ _ _ u => (st ++ [(.ofList seq u, .whole)], .done)
  | .get o index =>
    match st[o]? with
    | none => (st, .noObject)
    | some (a, mode) =>
      if selShape (items index) a.shape = [] then (st, .val (a.elem (selSource (items index) a.shape [])))
      else (st ++ [((Act.index index).apply a, (Act.index index : Act V).next mode)], .done)
  | .convert o cls u =>
    match st[o]? with
    | none => (st, .noObject)
    | some (a, _) => (st ++ [(a.respecify u, if cls = .dm then .whole else .flat)], .done)
  | .convertDM o _ _ _ u =>
    match st[o]? with
    | none => (st, .noObject)
    | some (a, _) => (st ++ [(a.respecify u, .whole)], .done)
  | .copy o u =>
    match st[o]? with
    | none => (st, .noObject)
    | some (a, mode) => (st ++ [(a.respecify u, mode)], .done)
  | .set .. | .setFrom .. => (st, .done)

/-- The program, statement by statement. -/
def Spec.Arrays.run (st : Arrays V) : List (Op V) → Arrays V
  | [] => st
  | op :: ops => Arrays.run (st.step op).1 ops

/-- The conditions of a statement that is not an assignment.
* `fromobject`: a rectangular list without empty axes; `CSR` with two axes and an element that is not unspecified (C28);
  not `Buffer` (C47).
* `o[index]`: a valid index and a selection without empty axes; of a slice of a `DM` an element or a slice without
  ints (C36). -/
def Spec.Arrays.Fits (st : Arrays V) : Op V → Prop
  | .make cls seq u => HasShape seq (dims seq) ∧ dims seq ≠ [] ∧ (∀ n ∈ dims seq, 0 < n) ∧ cls ≠ .buffer ∧
    (cls = .csr → (dims seq).length = 2 ∧ (Plain.ofList seq u).Specified)
  | .makeDM seq d p cls u => HasShape seq (dims seq) ∧ dims seq ≠ [] ∧ (∀ n ∈ dims seq, 0 < n) ∧
    AnySplitFits (dims seq).length d p cls (Plain.ofList seq u).Specified
  | .get o index => ∃ a mode, st[o]? = some (a, mode) ∧ ValidItems (items index) a.shape ∧
    (∀ n ∈ selShape (items index) a.shape, 0 < n) ∧ (mode = .cut →
      selShape (items index) a.shape = [] ∨ ∀ i, Ix.int i ∉ items index)
  | .convert o cls u => ∃ a mode, st[o]? = some (a, mode) ∧ cls ≠ .buffer ∧
    (cls = .csr → a.shape.length = 2 ∧ (a.respecify u).Specified)
  | .convertDM o d p cls u => ∃ a mode, st[o]? = some (a, mode) ∧ AnySplitFits a.shape.length d p cls (a.respecify u).Specified
  | .copy o _ => ∃ a mode, st[o]? = some (a, mode)
  | .set .. | .setFrom .. => False

/-- The conditions of all statements of a program. -/
def Spec.Arrays.FitsAll (st : Arrays V) : List (Op V) → Prop
  | [] => True
  | op :: ops => st.Fits op ∧ (st.step op).1.FitsAll ops

/-- What `DM.fromobject` makes: a `DM` around an object of the class, whose groups are the pieces of the dimensions between the
cuts of the partitioning (by default, the last axis is a group of its own; one group for `Buffer`). -/
def Spec.WrapsAs (dimensions partitioning : Option (List Nat)) (cls : Cls) (s : Storage V) : Prop :=
  ∃ m st, s = .dm m st ∧ st.cls = cls ∧ m.rdims = cutAt (dimensions.getD (List.range s.shape.length)) 0
    (partitioning.getD (if cls = .buffer ∨ s.shape.length = 1 then [] else [s.shape.length - 1]))

/-- The object that the statement makes is of the class that it names; `False` for statements that name no class. -/
def Spec.MadeAs : Op V → Storage V → Prop
  | .make cls _ _, s | .convert _ cls _, s => s.cls = cls
  | .makeDM _ d p cls _, s | .convertDM _ d p cls _, s => WrapsAs d p cls s
  | _, _ => False

/-- The statement names a class. -/
def Spec.NamesClass : Op V → Prop
  | .make .. | .makeDM .. | .convert .. | .convertDM .. => True
  | _ => False

/-- An object that is its plain array. -/
structure PlainObj (lists : List (List V)) (x : Obj V) (e : Plain V × Mode) : Prop where
  lt : x.addr < lists.length
  wf : x.desc.WF (lists.getD x.addr [])
  is : Is x.desc (lists.getD x.addr []) e.1
  mode : e.2.Holds x.desc
  pos : PosShape e.1.shape
  ne : e.1.shape ≠ []

/-- The objects of the world are the plain arrays. -/
structure PlainWorld (w : World V) (st : Arrays V) : Prop where
  length : w.objs.length = st.length
  obj : ∀ (o : Nat) (x : Obj V) (e : Plain V × Mode), w.objs[o]? = some x → st[o]? = some e → PlainObj w.lists x e

omit [HasNone V] in
theorem PlainObj.grow {lists : List (List V)} {x : Obj V} {e : Plain V × Mode} (h : PlainObj lists x e) (more : List (List V)) :
    PlainObj (lists ++ more) x e := by
  have hl : (lists ++ more).getD x.addr [] = lists.getD x.addr [] := by
    simp only [List.getD_eq_getElem?_getD, List.getElem?_append_left h.lt]
  refine ⟨by have := h.lt; simp only [List.length_append]; omega, ?_, ?_, h.mode, h.pos, h.ne⟩
  · rw [hl]; exact h.wf
  · rw [hl]; exact h.is

omit [HasNone V] in
theorem PlainWorld.get {w : World V} {st : Arrays V} (h : PlainWorld w st) {o : Nat} {e : Plain V × Mode} (he : st[o]? = some e) :
    ∃ x, w.objs[o]? = some x ∧ PlainObj w.lists x e := by
  have hl : o < w.objs.length := by
    rw [h.length]
    exact (List.getElem?_eq_some_iff.1 he).1
  exact ⟨w.objs[o], by simp [hl], h.obj o _ e (by simp [hl]) he⟩

omit [HasNone V] in
theorem PlainWorld.add {w : World V} {st : Arrays V} (h : PlainWorld w st) (more : List (List V)) (x : Obj V) (e : Plain V × Mode)
    (hx : PlainObj (w.lists ++ more) x e) : PlainWorld ⟨w.lists ++ more, w.objs ++ [x]⟩ (st ++ [e]) := by
  refine ⟨by simp [h.length], fun o y f hy hf => ?_⟩
  simp only at hy hf ⊢
  rcases Nat.lt_trichotomy o w.objs.length with hl | hl | hl
  · rw [List.getElem?_append_left hl] at hy
    rw [List.getElem?_append_left (by rw [← h.length]; exact hl)] at hf
    exact (h.obj o y f hy hf).grow more
  · rw [List.getElem?_append_right (by omega), hl] at hy
    rw [List.getElem?_append_right (by rw [← h.length]; omega), hl, h.length] at hf
    simp only [Nat.sub_self, List.getElem?_cons_zero, Option.some.injEq] at hy hf
    rw [← hy, ← hf]
    exact hx
  · rw [List.getElem?_eq_none (by simp only [List.length_append, List.length_cons, List.length_nil]; omega)] at hy
    simp at hy

omit [HasNone V] in
theorem PlainWorld.fresh {w : World V} {st : Arrays V} (h : PlainWorld w st) {s : Storage V} {mem : List V} {a : Plain V} {mode : Mode}
    (hs : Stands s mem a.shape a.elem) (hu : s.unspec = a.unspec) (hm : mode.Holds s) (hp : PosShape a.shape)
    (hne : a.shape ≠ []) : PlainWorld (w.addFresh s mem) (st ++ [(a, mode)]) := by
  refine h.add [mem] ⟨w.lists.length, s⟩ (a, mode) ?_
  have hl : (w.lists ++ [mem]).getD w.lists.length [] = mem := by simp
  refine ⟨by simp, ?_, ?_, hm, hp, hne⟩
  · simp only [hl]; exact hs.wf
  · simp only [hl]
    refine ⟨hs.shape_eq, hu, fun ix hi => ?_⟩
    have := hs.wf.reads ix (by rw [hs.shape_eq]; exact hi)
    rwa [hs.reads ix hi] at this

omit [HasNone V] in
theorem PlainWorld.view {w : World V} {st : Arrays V} (h : PlainWorld w st) {s : Storage V} {x : Obj V} {a : Plain V} {mode : Mode}
    (hx : x.addr < w.lists.length)
    (hs : Stands s (w.list x.addr) a.shape a.elem) (hu : s.unspec = a.unspec) (hm : mode.Holds s) (hp : PosShape a.shape)
    (hne : a.shape ≠ []) : PlainWorld (w.addView x.addr s) (st ++ [(a, mode)]) := by
  have := h.add [] ⟨x.addr, s⟩ (a, mode) (by
    simp only [List.append_nil]
    refine ⟨hx, hs.wf, ⟨hs.shape_eq, hu, fun ix hi => ?_⟩, hm, hp, hne⟩
    have := hs.wf.reads ix (by rw [hs.shape_eq]; exact hi)
    rwa [hs.reads ix hi] at this)
  rwa [List.append_nil] at this

omit [HasNone V] in
theorem anySplit_build (cls : Cls) (shape : List Nat) (hne : shape ≠ []) (d p : Option (List Nat))
    (value : List Int → PyM V) (su u : V) (a : List Int → V) (h : ∀ ix, InBox ix shape → value ix = .ok (a ix))
    (hs : AnySplitFits shape.length d p cls (∃ ix, InBox ix shape ∧ subst su u (a ix) ≠ u)) :
    ∃ s mem, dmBuild cls shape d p value su u = .ok (s, mem) ∧ s.cls = .dm ∧ s.unspec = u ∧ ZeroOff s ∧
      (Stands s mem shape fun ix => subst su u (a ix)) ∧ WrapsAs d p cls s := by
  obtain ⟨hd, hp, hb, hc⟩ := hs
  have hn : 0 < shape.length := List.length_pos_of_ne_nil hne
  have hg : ∀ b : Bool, GoodSplit shape.length (d.getD (List.range shape.length)) (dmPartitioning shape.length b p) := by
    intro b
    have hperm : (d.getD (List.range shape.length)).Perm (List.range shape.length) := by
      cases d with
      | none => exact List.Perm.refl _
      | some d => exact hd d rfl
    cases p with
    | none =>
      have := goodSplit_default shape.length b hn
      exact ⟨hperm, this.sorted, this.pos, this.lt, hn⟩
    | some p =>
      obtain ⟨h1, h2⟩ := hp p rfl
      exact ⟨hperm, h1, fun k hk => (h2 k hk).1, fun k hk => (h2 k hk).2, hn⟩
  obtain ⟨m, st, mem, h1, ⟨⟨g1, g2⟩, g5, _⟩, g3, g4⟩ := dmBuild_ok cls shape d p value su u a (hg _) h (by
    intro e
    rcases hb e with rfl | rfl <;> rfl) (by
    intro e
    obtain ⟨hx, hk⟩ := hc e
    refine ⟨?_, hx⟩
    rcases hk with ⟨rfl, hk⟩ | ⟨k, rfl⟩
    · simp only [dmPartitioning]
      rw [if_neg (by simp; omega)]
      rfl
    · rfl)
  refine ⟨.dm m st, mem, h1, rfl, g2, g3, g4, m, st, rfl, g1, ?_⟩
  have hl : (d.getD (List.range shape.length)).length = shape.length := by
    cases d with
    | none => simp
    | some d => simpa using (hd d rfl).length_eq
  rw [g5, g4.shape_eq]
  have e : dmPartitioning shape.length (cls = .buffer) p
      = p.getD (if cls = .buffer ∨ shape.length = 1 then [] else [shape.length - 1]) := by
    cases p <;> simp [dmPartitioning]
  rw [e, ← dmGroups_cut, hl]

/-- One statement. -/
theorem PlainWorld.step {w : World V} {st : Arrays V} (h : PlainWorld w st) (op : Op V) (hf : st.Fits op) :
    PlainWorld (w.step op).1 (st.step op).1 ∧ (w.step op).2 = (st.step op).2 := by
  have mode_of : ∀ {s : Storage V} {cls : Cls}, s.cls = cls → cls ≠ .buffer → ZeroOff s →
      (if cls = .dm then Mode.whole else .flat).Holds s := by
    intro s cls h1 h2 h3
    by_cases hd : cls = .dm
    · rw [if_pos hd]
      exact ⟨by rw [h1, hd], (noOffsets_iff _).2 h3⟩
    · rw [if_neg hd]
      exact ⟨by rw [h1]; exact hd, by rw [h1]; exact h2⟩
  cases op with
  | make cls seq u =>
    obtain ⟨h1, h2, h3, h4, h5⟩ := hf
    obtain ⟨hs, hv⟩ := SrcOk.nested h1
    obtain ⟨s, mem, g1, g2, g3, g4, g5, _⟩ := general_ok cls (dims seq) h2 _ pyNone (u.getD pyNone) (itemD seq) hv
      ⟨fun e => absurd e h4, h5⟩
    have hm : makeNested cls seq u = .ok (s, mem) := by
      have : fromObject cls (.nested seq) u = .ok (.fresh s mem) := by
        cases u <;> simp only [fromObject, hs] <;> simp only [Src.unspec, bind, Except.bind] <;>
          cases cls <;> (simp only at g1 ⊢; rw [g1]; rfl)
      simp only [makeNested, this, bind, Except.bind, pure, Except.pure]
    simp only [World.step, hm, World.create, Arrays.step, and_true]
    exact h.fresh g5 g3 (mode_of g2 h4 g4) h3 h2
  | makeDM seq d p cls u =>
    obtain ⟨h1, h2, h3, h4⟩ := hf
    obtain ⟨hs, hv⟩ := SrcOk.nested h1
    obtain ⟨s, mem, g1, g2, g3, g4, g5, _⟩ := anySplit_build cls (dims seq) h2 d p _ pyNone (u.getD pyNone) (itemD seq) hv h4
    have hm : fromObjectDM (.nested seq) d p cls u = .ok (s, mem) := by
      simp only [fromObjectDM, hs]
      exact g1
    simp only [World.step, hm, World.create, Arrays.step, and_true]
    exact h.fresh g5 g3 ⟨g2, (noOffsets_iff _).2 g4⟩ h3 h2
  | get o index =>
    obtain ⟨a, mode, he, h1, h2, h3⟩ := hf
    obtain ⟨x, hx, hs⟩ := h.get he
    obtain ⟨a1, a2, a3⟩ := hs.is
    simp only at a1 a2 a3
    rw [w.step_on _ o x rfl hx]
    simp only [World.stepOn, Arrays.step, he]
    have hwf : x.desc.WF (w.list x.addr) := hs.wf
    have hi : ValidItems (items index) x.desc.shape := by rw [a1]; exact h1
    have hp : PosShape x.desc.shape := by rw [a1]; exact hs.pos
    have hat : ∀ ix, InBox ix a.shape → x.desc.at (w.list x.addr) ix = a.elem ix := fun ix hi => (a3 ix hi).at_eq
    have hmode := hs.mode
    have hb : x.desc.cls ≠ .buffer := by
      cases mode with
      | flat => exact hmode.2
      | whole => rw [hmode.1]; simp
      | cut => rw [hmode.1]; simp
    by_cases hsel : selShape (items index) a.shape = []
    · rw [if_pos hsel]
      have hval : x.desc.getItem (w.list x.addr) index
          = .ok (.val (x.desc.at (w.list x.addr) (selSource (items index) x.desc.shape []))) := by
        have hsel' : selShape (items index) x.desc.shape = [] := by rw [a1]; exact hsel
        cases hd : x.desc with
        | dm m d =>
          rw [hd] at hwf hp hi hsel'
          exact dm_elem hwf hp index hi hsel'
        | buffer b => rw [hd] at hb; exact absurd rfl hb
        | _ =>
          rw [hd] at hwf hp hi hsel'
          rcases hwf.getItem_ok hp index hi trivial trivial with ⟨_, g⟩ | ⟨g, _⟩
          · exact g
          · exact absurd hsel' g
      rw [hval]
      simp only [World.got]
      refine ⟨h, ?_⟩
      rw [a1, hat _ (source_inBox hs.pos h1 (by rw [hsel]; trivial))]
    · rw [if_neg hsel]
      have hz : SafeIndex x.desc index := by
        cases hd : x.desc with
        | dm m d =>
          rw [hd] at hmode
          cases mode with
          | flat => exact absurd rfl hmode.1
          | whole => exact ZeroOff.safe ((noOffsets_iff _).1 hmode.2) index
          | cut => exact Grouped.safe ((noEmptyGroups_iff _).1 hmode.2) index ((h3 rfl).resolve_left hsel)
        | _ => trivial
      have hbi : BufferIndex x.desc index := by
        cases hd : x.desc with
        | buffer b => rw [hd] at hb; exact absurd rfl hb
        | _ => trivial
      rcases hwf.getItem_ok hp index hi hbi hz with ⟨g, _⟩ | ⟨_, t, mt, g1, ⟨g2, g3⟩, g4⟩
      · rw [a1] at g; exact absurd g hsel
      · have hst : Stands t mt ((Act.index index).apply a).shape ((Act.index index).apply a).elem := by
          refine ⟨g4.wf, by rw [g4.shape_eq, a1]; rfl, fun j hj => ?_⟩
          have hj' : InBox j (selShape (items index) x.desc.shape) := by rw [a1]; exact hj
          rw [g4.reads j hj', a1, hat _ (source_inBox hs.pos h1 hj)]
          rfl
        have hun : t.unspec = ((Act.index index).apply a).unspec := by rw [g2, a2]; rfl
        have hmo : ((Act.index index : Act V).next mode).Holds t := by
          have hgr : NoEmptyGroups t := (noEmptyGroups_iff _).2 (getItem_grouped hwf (g1.imp And.left fun h => ⟨_, h⟩))
          cases mode with
          | flat =>
            rcases g3 with g3 | ⟨_, g3⟩
            · exact ⟨by rw [g3]; exact hmode.1, by rw [g3]; exact hmode.2⟩
            · exact ⟨by rw [g3]; simp, by rw [g3]; simp⟩
          | whole | cut =>
            rcases g3 with g3 | ⟨g3, _⟩
            · exact ⟨by rw [g3]; exact hmode.1, hgr⟩
            · rw [hmode.1] at g3; simp at g3
        rcases g1 with ⟨g1, rfl⟩ | g1
        · rw [g1]
          exact ⟨h.view hs.lt hst hun hmo h2 hsel, rfl⟩
        · rw [g1]
          exact ⟨h.fresh hst hun hmo h2 hsel, rfl⟩
  | convert o cls u =>
    obtain ⟨a, mode, he, h1, h2⟩ := hf
    obtain ⟨x, hx, hs⟩ := h.get he
    obtain ⟨a1, a2, a3⟩ := hs.is
    simp only at a1 a2 a3
    rw [w.step_on _ o x rfl hx]
    simp only [World.stepOn, Arrays.step, he]
    have hwf : x.desc.WF (w.list x.addr) := hs.wf
    have hat : ∀ ix, InBox ix a.shape → x.desc.at (w.list x.addr) ix = a.elem ix := fun ix hi => (a3 ix hi).at_eq
    obtain ⟨t, mt, g1, g2, g3, g4, g5⟩ := convert_ok hwf (by rw [a1]; exact hs.ne) cls u ⟨fun e => absurd e h1, fun e => by
      obtain ⟨e1, ix, e2, e3⟩ := h2 e
      refine ⟨by rw [a1]; exact e1, ix, by rw [a1]; exact e2, ?_⟩
      simp only [hat ix e2, a2]
      exact e3⟩ (fun _ _ _ => by rw [a1]; exact hs.pos)
    have hst : Stands t mt (a.respecify u).shape (a.respecify u).elem := by
      refine ⟨g5.wf, by rw [g5.shape_eq, a1]; rfl, fun j hj => ?_⟩
      rw [g5.reads j (by rw [a1]; exact hj), hat j hj, a2]
      rfl
    have hun : t.unspec = (a.respecify u).unspec := by rw [g3, a2]; rfl
    simp only [Storage.convert, bind_eq_ok] at g1
    obtain ⟨r, g0, g1⟩ := g1
    rw [g0]
    cases r with
    | same =>
      simp only [pure_eq_ok, Prod.mk.injEq] at g1
      obtain ⟨rfl, rfl⟩ := g1
      exact ⟨h.view hs.lt hst hun (mode_of g2 h1 g4) hs.pos hs.ne, rfl⟩
    | fresh r m =>
      simp only [pure_eq_ok, Prod.mk.injEq] at g1
      obtain ⟨rfl, rfl⟩ := g1
      exact ⟨h.fresh hst hun (mode_of g2 h1 g4) hs.pos hs.ne, rfl⟩
  | convertDM o d p cls u =>
    obtain ⟨a, mode, he, h1⟩ := hf
    obtain ⟨x, hx, hs⟩ := h.get he
    obtain ⟨a1, a2, a3⟩ := hs.is
    simp only at a1 a2 a3
    rw [w.step_on _ o x rfl hx]
    have hwf : x.desc.WF (w.list x.addr) := hs.wf
    have hat : ∀ ix, InBox ix a.shape → x.desc.at (w.list x.addr) ix = a.elem ix := fun ix hi => (a3 ix hi).at_eq
    have hne : x.desc.shape ≠ [] := by rw [a1]; exact hs.ne
    obtain ⟨t, mt, g1, g2, g3, g4, g5, _⟩ := anySplit_build cls x.desc.shape hne d p _ x.desc.unspec (u.getD x.desc.unspec)
      (x.desc.at (w.list x.addr)) (src_value hwf hne) (by
        rw [a1]
        refine ⟨h1.1, h1.2.1, h1.2.2.1, fun e => ?_⟩
        obtain ⟨⟨ix, e1, e2⟩, e3⟩ := h1.2.2.2 e
        refine ⟨⟨ix, e1, ?_⟩, e3⟩
        rw [hat ix e1, a2]
        exact e2)
    have hm : fromObjectDM (.store x.desc (w.list x.addr)) d p cls u = .ok (t, mt) := g1
    simp only [World.stepOn, Arrays.step, he, hm, World.create, and_true]
    refine h.fresh ⟨g5.wf, by rw [g5.shape_eq, a1]; rfl, fun j hj => ?_⟩ (by rw [g3, a2]; rfl)
      ⟨g2, (noOffsets_iff _).2 g4⟩ hs.pos hs.ne
    rw [g5.reads j (by rw [a1]; exact hj), hat j hj, a2]
    rfl
  | copy o u =>
    obtain ⟨a, mode, he⟩ := hf
    obtain ⟨x, hx, hs⟩ := h.get he
    obtain ⟨a1, a2, a3⟩ := hs.is
    simp only at a1 a2 a3
    rw [w.step_on _ o x rfl hx]
    have hwf : x.desc.WF (w.list x.addr) := hs.wf
    have hat : ∀ ix, InBox ix a.shape → x.desc.at (w.list x.addr) ix = a.elem ix := fun ix hi => (a3 ix hi).at_eq
    obtain ⟨t, mt, g1, g2, g3, g5⟩ := hwf.copyOf u
    simp only [World.stepOn, Arrays.step, he, g1, World.create, and_true]
    have hmode := hs.mode
    refine h.fresh ⟨g5.wf, by rw [g5.shape_eq, a1]; rfl, fun j hj => ?_⟩ (by rw [g3, a2]; rfl) ?_ hs.pos hs.ne
    · rw [g5.reads j (by rw [a1]; exact hj), hat j hj, a2]
      rfl
    · cases mode with
      | flat => exact ⟨by rw [g2]; exact hmode.1, by rw [g2]; exact hmode.2⟩
      | whole => exact ⟨by rw [g2]; exact hmode.1, (noOffsets_iff _).2 (copy_zeroOff g1 ((noOffsets_iff _).1 hmode.2))⟩
      | cut => exact ⟨by rw [g2]; exact hmode.1, (noEmptyGroups_iff _).2 (copy_grouped g1 ((noEmptyGroups_iff _).1 hmode.2))⟩
  | set o index value => exact hf.elim
  | setFrom o index p => exact hf.elim

theorem PlainWorld.run {w : World V} {st : Arrays V} (h : PlainWorld w st) (ops : List (Op V)) (hf : st.FitsAll ops) :
    PlainWorld (w.run ops) (st.run ops) := by
  induction ops generalizing w st with
  | nil => exact h
  | cons op ops ih => exact ih (h.step op hf.1).1 hf.2

omit [HasNone V] in
theorem PlainWorld.empty : PlainWorld (World.empty : World V) [] :=
  ⟨rfl, fun o x e hx => by simp [World.empty] at hx⟩

/-- C95, the objects: each is its plain array. -/
theorem C95_objects (ops : List (Op V)) (hf : Arrays.FitsAll [] ops) :
    (World.empty.run ops).objs.length = (Arrays.run [] ops).length ∧
    ∀ (o : Nat) (a : Plain V) (mode : Mode), (Arrays.run [] ops)[o]? = some (a, mode) →
      ∃ x, (World.empty.run ops).objs[o]? = some x ∧ Is x.desc ((World.empty.run ops).list x.addr) a := by
  have h := PlainWorld.empty.run ops hf
  refine ⟨h.length, fun o a mode he => ?_⟩
  obtain ⟨x, hx, hs⟩ := h.get he
  exact ⟨x, hx, hs.is⟩

theorem Arrays.FitsAll.append {st : Arrays V} (pre : List (Op V)) (ops : List (Op V)) (h : st.FitsAll (pre ++ ops)) :
    st.FitsAll pre ∧ (st.run pre).FitsAll ops := by
  induction pre generalizing st with
  | nil => exact ⟨trivial, h⟩
  | cons op pre ih =>
    obtain ⟨i1, i2⟩ := ih h.2
    exact ⟨⟨h.1, i1⟩, i2⟩

/-- C95, the outcomes: each statement gives the program what the plain arrays say. -/
theorem C95_outcomes (pre : List (Op V)) (op : Op V) (post : List (Op V)) (hf : Arrays.FitsAll [] (pre ++ op :: post)) :
    ((World.empty.run pre).step op).2 = ((Arrays.run [] pre).step op).2 := by
  obtain ⟨f1, f2, _⟩ := Arrays.FitsAll.append pre _ hf
  exact ((PlainWorld.empty.run pre f1).step op f2).2

theorem PlainWorld.made {w : World V} {st : Arrays V} (h : PlainWorld w st) (op : Op V) (hf : st.Fits op) (hn : NamesClass op) :
    ∃ x, (w.step op).1.objs = w.objs ++ [x] ∧ MadeAs op x.desc := by
  cases op with
  | make cls seq u =>
    obtain ⟨h1, h2, h3, h4, h5⟩ := hf
    obtain ⟨hs, hv⟩ := SrcOk.nested h1
    obtain ⟨s, mem, g1, g2, _⟩ := general_ok cls (dims seq) h2 _ pyNone (u.getD pyNone) (itemD seq) hv
      ⟨fun e => absurd e h4, h5⟩
    have hm : makeNested cls seq u = .ok (s, mem) := by
      have : fromObject cls (.nested seq) u = .ok (.fresh s mem) := by
        cases u <;> simp only [fromObject, hs] <;> simp only [Src.unspec, bind, Except.bind] <;>
          cases cls <;> (simp only at g1 ⊢; rw [g1]; rfl)
      simp only [makeNested, this, bind, Except.bind, pure, Except.pure]
    simp only [World.step, hm, World.create]
    exact ⟨_, rfl, g2⟩
  | makeDM seq d p cls u =>
    obtain ⟨h1, h2, h3, h4⟩ := hf
    obtain ⟨hs, hv⟩ := SrcOk.nested h1
    obtain ⟨s, mem, g1, _, _, _, _, g6⟩ := anySplit_build cls (dims seq) h2 d p _ pyNone (u.getD pyNone) (itemD seq) hv h4
    have hm : fromObjectDM (.nested seq) d p cls u = .ok (s, mem) := by
      simp only [fromObjectDM, hs]
      exact g1
    simp only [World.step, hm, World.create]
    exact ⟨_, rfl, g6⟩
  | convert o cls u =>
    obtain ⟨a, mode, he, h1, h2⟩ := hf
    obtain ⟨x, hx, hs⟩ := h.get he
    obtain ⟨a1, a2, a3⟩ := hs.is
    simp only at a1 a2 a3
    rw [w.step_on _ o x rfl hx]
    simp only [World.stepOn]
    have hwf : x.desc.WF (w.list x.addr) := hs.wf
    have hat : ∀ ix, InBox ix a.shape → x.desc.at (w.list x.addr) ix = a.elem ix := fun ix hi => (a3 ix hi).at_eq
    obtain ⟨t, mt, g1, g2, _⟩ := convert_ok hwf (by rw [a1]; exact hs.ne) cls u ⟨fun e => absurd e h1, fun e => by
      obtain ⟨e1, ix, e2, e3⟩ := h2 e
      refine ⟨by rw [a1]; exact e1, ix, by rw [a1]; exact e2, ?_⟩
      simp only [hat ix e2, a2]
      exact e3⟩ (fun _ _ _ => by rw [a1]; exact hs.pos)
    simp only [Storage.convert, bind_eq_ok] at g1
    obtain ⟨r, g0, g1⟩ := g1
    rw [g0]
    cases r with
    | same =>
      simp only [pure_eq_ok, Prod.mk.injEq] at g1
      obtain ⟨rfl, rfl⟩ := g1
      exact ⟨_, rfl, g2⟩
    | fresh r m =>
      simp only [pure_eq_ok, Prod.mk.injEq] at g1
      obtain ⟨rfl, rfl⟩ := g1
      exact ⟨_, rfl, g2⟩
  | convertDM o d p cls u =>
    obtain ⟨a, mode, he, h1⟩ := hf
    obtain ⟨x, hx, hs⟩ := h.get he
    obtain ⟨a1, a2, a3⟩ := hs.is
    simp only at a1 a2 a3
    rw [w.step_on _ o x rfl hx]
    have hwf : x.desc.WF (w.list x.addr) := hs.wf
    have hat : ∀ ix, InBox ix a.shape → x.desc.at (w.list x.addr) ix = a.elem ix := fun ix hi => (a3 ix hi).at_eq
    have hne : x.desc.shape ≠ [] := by rw [a1]; exact hs.ne
    obtain ⟨t, mt, g1, _, _, _, _, g6⟩ := anySplit_build cls x.desc.shape hne d p _ x.desc.unspec (u.getD x.desc.unspec)
      (x.desc.at (w.list x.addr)) (src_value hwf hne) (by
        rw [a1]
        refine ⟨h1.1, h1.2.1, h1.2.2.1, fun e => ?_⟩
        obtain ⟨⟨ix, e1, e2⟩, e3⟩ := h1.2.2.2 e
        refine ⟨⟨ix, e1, ?_⟩, e3⟩
        rw [hat ix e1, a2]
        exact e2)
    have hm : fromObjectDM (.store x.desc (w.list x.addr)) d p cls u = .ok (t, mt) := g1
    simp only [World.stepOn, hm, World.create]
    exact ⟨_, rfl, g6⟩
  | get o index => exact hn.elim
  | copy o u => exact hn.elim
  | set o index value => exact hn.elim
  | setFrom o index p => exact hn.elim

theorem World.run_append (w : World V) (pre ops : List (Op V)) : w.run (pre ++ ops) = (w.run pre).run ops := by
  induction pre generalizing w with
  | nil => rfl
  | cons op pre ih => exact ih _

/-- C95, the classes of the objects: a statement that names a class makes one object of this class, and `as_DM` and
`DM.fromobject` wrap the class that they name, with the groups that the dimensions and the partitioning say. -/
theorem C95_made (pre : List (Op V)) (op : Op V) (hf : Arrays.FitsAll [] (pre ++ [op])) (hn : NamesClass op) :
    ∃ x, (World.empty.run (pre ++ [op])).objs = (World.empty.run pre).objs ++ [x] ∧ MadeAs op x.desc := by
  obtain ⟨f1, f2, _⟩ := Arrays.FitsAll.append pre _ hf
  rw [World.run_append]
  exact (PlainWorld.empty.run pre f1).made op f2 hn

/-- The arrays of two states are the same; the modes need not be. -/
def SameArrays (st st' : Arrays V) : Prop := st.map Prod.fst = st'.map Prod.fst

omit [DecidableEq V] [HasNone V] in
theorem SameArrays.get {st st' : Arrays V} (h : SameArrays st st') {o : Nat} {a : Plain V} {mode : Mode}
    (he : st[o]? = some (a, mode)) : ∃ mode', st'[o]? = some (a, mode') := by
  have := congrArg (fun l => l[o]?) h
  simp only [List.getElem?_map, he, Option.map_some] at this
  cases h' : st'[o]? with
  | none => simp [h'] at this
  | some e =>
    obtain ⟨b, mode'⟩ := e
    simp only [h', Option.map_some, Option.some.injEq] at this
    exact ⟨mode', by rw [this]⟩

omit [DecidableEq V] [HasNone V] in
theorem SameArrays.add {st st' : Arrays V} (h : SameArrays st st') (a : Plain V) (mode mode' : Mode) :
    SameArrays (st ++ [(a, mode)]) (st' ++ [(a, mode')]) := by
  unfold SameArrays at *
  simp [h]

omit [DecidableEq V] [HasNone V] in
theorem SameArrays.symm {st st' : Arrays V} (h : SameArrays st st') : SameArrays st' st := Eq.symm h

omit [DecidableEq V] [HasNone V] in
theorem SameArrays.none {st st' : Arrays V} (h : SameArrays st st') {o : Nat} (he : st[o]? = none) : st'[o]? = none := by
  cases h' : st'[o]? with
  | none => rfl
  | some e =>
    obtain ⟨m, hm⟩ := h.symm.get (mode := e.2) (a := e.1) (by rw [h'])
    rw [he] at hm
    simp at hm

theorem SameArrays.strided {st st' : Arrays V} (h : SameArrays st st') (op : Op V) :
    SameArrays (st.step op).1 (st'.step (allStrided op)).1 ∧ (st.step op).2 = (st'.step (allStrided op)).2 := by
  cases op with
  | make cls seq u => exact ⟨h.add _ _ _, rfl⟩
  | makeDM seq d p cls u => exact ⟨h.add _ _ _, rfl⟩
  | get o index =>
    simp only [allStrided, Arrays.step]
    cases he : st[o]? with
    | none => rw [h.none he]; exact ⟨h, rfl⟩
    | some e =>
      obtain ⟨a, mode⟩ := e
      obtain ⟨mode', he'⟩ := h.get he
      rw [he']
      simp only
      split
      · exact ⟨h, rfl⟩
      · exact ⟨h.add _ _ _, rfl⟩
  | convert o cls u | convertDM o d p cls u | copy o u =>
    simp only [allStrided, Arrays.step]
    cases he : st[o]? with
    | none => rw [h.none he]; exact ⟨h, rfl⟩
    | some e =>
      obtain ⟨a, mode⟩ := e
      obtain ⟨mode', he'⟩ := h.get he
      rw [he']
      exact ⟨h.add _ _ _, rfl⟩
  | set o index value => exact ⟨h, rfl⟩
  | setFrom o index p => exact ⟨h, rfl⟩

theorem SameArrays.strided_run {st st' : Arrays V} (h : SameArrays st st') (ops : List (Op V)) :
    SameArrays (st.run ops) (st'.run (ops.map allStrided)) := by
  induction ops generalizing st st' with
  | nil => exact h
  | cons op ops ih => exact ih (h.strided op).1

/-- C95, the classes.  Two programs that differ in nothing but the classes and the arguments of the `DM`s, and that both meet
their conditions: they have the same objects, with the same shapes and elements. -/
theorem C95_classes (ops ops' : List (Op V)) (hsame : ops.map allStrided = ops'.map allStrided) (hf : Arrays.FitsAll [] ops)
    (hf' : Arrays.FitsAll [] ops') (o : Nat) :
    (∀ shape, ShapeAt (World.empty.run ops) o shape ↔ ShapeAt (World.empty.run ops') o shape) ∧
    ∀ shape, ShapeAt (World.empty.run ops) o shape → ∀ ix, InBox ix shape → ∀ x,
      (ReadsAt (World.empty.run ops) o ix x ↔ ReadsAt (World.empty.run ops') o ix x) := by
  have hs : SameArrays (Arrays.run [] ops) (Arrays.run [] ops') := by
    have h1 := SameArrays.strided_run (st := []) (st' := []) (rfl : SameArrays ([] : Arrays V) []) ops
    have h2 := SameArrays.strided_run (st := []) (st' := []) (rfl : SameArrays ([] : Arrays V) []) ops'
    rw [hsame] at h1
    exact h1.trans h2.symm
  obtain ⟨a1, a2⟩ := C95_objects ops hf
  obtain ⟨b1, b2⟩ := C95_objects ops' hf'
  cases he : (Arrays.run [] ops)[o]? with
  | none =>
    have he' := hs.none he
    have ha : (World.empty.run ops).objs[o]? = none := by
      rw [List.getElem?_eq_none_iff] at he ⊢; omega
    have hb : (World.empty.run ops').objs[o]? = none := by
      rw [List.getElem?_eq_none_iff] at he' ⊢; omega
    refine ⟨fun shape => ?_, fun shape => ?_⟩
    · simp only [ShapeAt, ha, hb]
    · rintro ⟨x, hx, _⟩
      rw [ha] at hx
      simp at hx
  | some e =>
    obtain ⟨a, mode⟩ := e
    obtain ⟨mode', he'⟩ := hs.get he
    obtain ⟨x, hx, xs, _, xr⟩ := a2 o a mode he
    obtain ⟨y, hy, ys, _, yr⟩ := b2 o a mode' he'
    refine ⟨fun shape => ?_, fun shape hsh ix hi z => ?_⟩
    · simp only [ShapeAt, hx, hy, Option.some.injEq, exists_eq_left', xs, ys]
    · simp only [ShapeAt, hx, Option.some.injEq, exists_eq_left', xs] at hsh
      subst hsh
      have h1 := xr ix hi
      have h2 := yr ix hi
      simp only [ReadsAt, hx, hy, Option.some.injEq, exists_eq_left']
      unfold Reads at h1 h2 ⊢
      rw [h1, h2]

/-- A program that meets the conditions meets them with `Strided` in place of the classes. -/
theorem C95_strided_fits {st st' : Arrays V} (h : SameArrays st st') (hm : ∀ e ∈ st', e.2 = Mode.flat) (ops : List (Op V))
    (hf : st.FitsAll ops) : st'.FitsAll (ops.map allStrided) := by
  induction ops generalizing st st' with
  | nil => trivial
  | cons op ops ih =>
    have flat : ∀ {o a mode}, st'[o]? = some (a, mode) → mode = Mode.flat := fun he => hm _ (List.mem_of_getElem? he)
    refine ⟨?_, ih (h.strided op).1 ?_ hf.2⟩
    · have hf := hf.1
      cases op with
      | make cls seq u => exact ⟨hf.1, hf.2.1, hf.2.2.1, by simp, by simp⟩
      | makeDM seq d p cls u => exact ⟨hf.1, hf.2.1, hf.2.2.1, by simp, by simp⟩
      | get o index =>
        obtain ⟨a, mode, he, h1, h2, _⟩ := hf
        obtain ⟨mode', he'⟩ := h.get he
        exact ⟨a, mode', he', h1, h2, fun e => by rw [flat he'] at e; simp at e⟩
      | convert o cls u | convertDM o d p cls u =>
        obtain ⟨a, mode, he, _⟩ := hf
        obtain ⟨mode', he'⟩ := h.get he
        exact ⟨a, mode', he', by simp, by simp⟩
      | copy o u =>
        obtain ⟨a, mode, he⟩ := hf
        obtain ⟨mode', he'⟩ := h.get he
        exact ⟨a, mode', he'⟩
      | set o index value => exact hf.elim
      | setFrom o index p => exact hf.elim
    · have add : ∀ (a : Plain V), ∀ e ∈ st' ++ [(a, Mode.flat)], e.2 = Mode.flat := by
        intro a e he
        simp only [List.mem_append, List.mem_singleton] at he
        rcases he with he | rfl
        · exact hm e he
        · rfl
      cases op with
      | make cls seq u => exact add _
      | makeDM seq d p cls u => exact add _
      | get o index =>
        simp only [allStrided, Arrays.step]
        cases he : st'[o]? with
        | none => exact hm
        | some e =>
          obtain ⟨a, mode⟩ := e
          obtain rfl := flat he
          simp only
          split
          · exact hm
          · exact add _
      | convert o cls u | convertDM o d p cls u =>
        simp only [allStrided, Arrays.step]
        cases he : st'[o]? with
        | none => exact hm
        | some e => exact add _
      | copy o u =>
        simp only [allStrided, Arrays.step]
        cases he : st'[o]? with
        | none => exact hm
        | some e =>
          obtain ⟨a, mode⟩ := e
          obtain rfl := flat he
          exact add _
      | set o index value => exact hm
      | setFrom o index p => exact hm

/-- C95, all classes replaced by `Strided`: the program needs no further condition, has the same objects with the same shapes
and elements, and each statement gives the program the same. -/
theorem C95_strided (ops : List (Op V)) (hf : Arrays.FitsAll [] ops) :
    (∀ o shape, ShapeAt (World.empty.run ops) o shape ↔ ShapeAt (World.empty.run (ops.map allStrided)) o shape) ∧
    (∀ o shape, ShapeAt (World.empty.run ops) o shape → ∀ ix, InBox ix shape → ∀ x,
      (ReadsAt (World.empty.run ops) o ix x ↔ ReadsAt (World.empty.run (ops.map allStrided)) o ix x)) ∧
    ∀ pre op post, ops = pre ++ op :: post →
      ((World.empty.run pre).step op).2 = ((World.empty.run (pre.map allStrided)).step (allStrided op)).2 := by
  have hf' : Arrays.FitsAll [] (ops.map allStrided) :=
    C95_strided_fits (rfl : SameArrays ([] : Arrays V) []) (by simp) ops hf
  have hc := C95_classes ops (ops.map allStrided) (by
    rw [List.map_map]
    refine List.map_congr_left fun op _ => ?_
    cases op <;> rfl) hf hf'
  refine ⟨fun o => (hc o).1, fun o => (hc o).2, ?_⟩
  rintro pre op post rfl
  rw [C95_outcomes pre op post hf]
  rw [List.map_append, List.map_cons] at hf'
  rw [C95_outcomes _ _ _ hf']
  exact ((SameArrays.strided_run (rfl : SameArrays ([] : Arrays V) []) pre).strided op).2

/-! ## A case -/

def specified (a : Plain V) : Bool := (boxList a.shape).any fun ix => decide (a.elem ix ≠ a.unspec)

omit [HasNone V] in
theorem specified_sound {a : Plain V} (h : specified a = true) : a.Specified := by
  simp only [specified, List.any_eq_true, decide_eq_true_eq] at h
  obtain ⟨ix, h1, h2⟩ := h
  rw [boxList_eq] at h1
  exact ⟨ix, (mem_indexProduct _ _).1 h1, h2⟩

def anySplitOk (n : Nat) (d p : Option (List Nat)) (cls : Cls) (a : Plain V) : Bool :=
  d.all (fun d => d.isPerm (List.range n)) && p.all (fun p => pairs p && p.all fun k => decide (0 < k ∧ k < n)) &&
    (decide (cls ≠ .buffer) || (p == none || p == some [])) &&
    (decide (cls ≠ .csr) || (specified a && (p == none && decide (2 ≤ n) || p.any fun p => decide (p.length = 1))))

omit [HasNone V] in
theorem anySplitOk_sound {n : Nat} {d p : Option (List Nat)} {cls : Cls} {a : Plain V} (h : anySplitOk n d p cls a = true) :
    AnySplitFits n d p cls a.Specified := by
  simp only [anySplitOk, Bool.and_eq_true, Bool.or_eq_true, decide_eq_true_eq, beq_iff_eq, Option.all_eq_true] at h
  obtain ⟨⟨⟨h1, h2⟩, h3⟩, h4⟩ := h
  refine ⟨fun d e => List.isPerm_iff.1 (h1 d e), fun p e => ?_, fun e => h3.resolve_left fun k => k e, fun e => ?_⟩
  · obtain ⟨a, b⟩ := h2 p e
    refine ⟨pairs_sound p a, fun k hk => ?_⟩
    simpa using List.all_eq_true.1 b k hk
  · obtain ⟨h5, h6⟩ := h4.resolve_left fun k => k e
    refine ⟨specified_sound h5, h6.imp id fun h => ?_⟩
    cases p with
    | none => simp at h
    | some p =>
      simp only [Option.any_some, decide_eq_true_eq] at h
      obtain ⟨k, rfl⟩ := List.length_eq_one_iff.1 h
      exact ⟨k, rfl⟩

def arraysFit (st : Arrays V) : Op V → Bool
  | .make cls seq u => rect (dims seq) seq && decide (dims seq ≠ []) && (dims seq).all (0 < ·) && decide (cls ≠ .buffer) &&
    (decide (cls ≠ .csr) || (decide ((dims seq).length = 2) && specified (.ofList seq u)))
  | .makeDM seq d p cls u => rect (dims seq) seq && decide (dims seq ≠ []) && (dims seq).all (0 < ·) &&
    anySplitOk (dims seq).length d p cls (.ofList seq u)
  | .get o index => match st[o]? with
    | none => false
    | some (a, mode) => itemsOk (items index) a.shape && (selShape (items index) a.shape).all (0 < ·) &&
      (decide (mode ≠ .cut) || (decide (selShape (items index) a.shape = []) || (items index).all notInt))
  | .convert o cls u => match st[o]? with
    | none => false
    | some (a, _) => decide (cls ≠ .buffer) &&
      (decide (cls ≠ .csr) || (decide (a.shape.length = 2) && specified (a.respecify u)))
  | .convertDM o d p cls u => match st[o]? with
    | none => false
    | some (a, _) => anySplitOk a.shape.length d p cls (a.respecify u)
  | .copy o _ => (st[o]?).isSome
  | .set .. | .setFrom .. => false

theorem arraysFit_sound {st : Arrays V} {op : Op V} (h : arraysFit st op = true) : st.Fits op := by
  cases op with
  | make cls seq u =>
    simp only [arraysFit, Bool.and_eq_true, Bool.or_eq_true, decide_eq_true_eq, List.all_eq_true] at h
    obtain ⟨⟨⟨⟨h1, h2⟩, h3⟩, h4⟩, h5⟩ := h
    refine ⟨rect_sound _ _ h1, h2, h3, h4, fun e => ?_⟩
    obtain ⟨h6, h7⟩ := h5.resolve_left fun k => k e
    exact ⟨h6, specified_sound h7⟩
  | makeDM seq d p cls u =>
    simp only [arraysFit, Bool.and_eq_true, decide_eq_true_eq, List.all_eq_true] at h
    exact ⟨rect_sound _ _ h.1.1.1, h.1.1.2, h.1.2, anySplitOk_sound h.2⟩
  | get o index =>
    simp only [arraysFit] at h
    split at h
    · simp at h
    · next a mode he =>
      simp only [Bool.and_eq_true, Bool.or_eq_true, decide_eq_true_eq, List.all_eq_true] at h
      refine ⟨a, mode, he, itemsOk_sound _ _ h.1.1, h.1.2, fun e => ?_⟩
      rcases h.2.resolve_left (fun k => k e) with h | h
      · exact .inl h
      · exact .inr fun i hi => by simpa [notInt] using h _ hi
  | convert o cls u =>
    simp only [arraysFit] at h
    split at h
    · simp at h
    · next a mode he =>
      simp only [Bool.and_eq_true, Bool.or_eq_true, decide_eq_true_eq] at h
      refine ⟨a, mode, he, h.1, fun e => ?_⟩
      obtain ⟨h6, h7⟩ := h.2.resolve_left fun k => k e
      exact ⟨h6, specified_sound h7⟩
  | convertDM o d p cls u =>
    simp only [arraysFit] at h
    split at h
    · simp at h
    · next a mode he => exact ⟨a, mode, he, anySplitOk_sound h⟩
  | copy o u =>
    obtain ⟨⟨a, mode⟩, he⟩ := Option.isSome_iff_exists.1 h
    exact ⟨a, mode, he⟩
  | set o index value => simp [arraysFit] at h
  | setFrom o index p => simp [arraysFit] at h

def arraysFitAll (st : Arrays V) : List (Op V) → Bool
  | [] => true
  | op :: ops => arraysFit st op && arraysFitAll (st.step op).1 ops

theorem arraysFitAll_sound {st : Arrays V} {ops : List (Op V)} (h : arraysFitAll st ops = true) : st.FitsAll ops := by
  induction ops generalizing st with
  | nil => trivial
  | cons op ops ih =>
    simp only [arraysFitAll, Bool.and_eq_true] at h
    exact ⟨arraysFit_sound h.1, ih h.2⟩

/-- A program with `DM`s around a `COO`, a `CSR` and a `DM`.
```
o0 = DM.fromobject([[1, None, 3], [None, 5, None]], dimensions=(1, 0), storage_class=COO);  o1 = o0[:, 1:];  o2 = o1[::-1]
o3 = o2.as_DM(partitioning=(1,), storage_class=CSR, unspecified=0);  o4 = o3[1];  o5 = o4.as_DM(storage_class=DM)
o6 = o3.copy(unspecified=7);  o7 = o6.as_FlatCOO();  o7[0, -1];  o1[0, 1];  o8 = DM.fromobject([4, 6], storage_class=Buffer)
``` -/
def wrappedProgram : List (Op (Option Int)) :=
  [.makeDM (.seq [.seq [.leaf (some 1), .leaf none, .leaf (some 3)], .seq [.leaf none, .leaf (some 5), .leaf none]])
     (some [1, 0]) none .coo none,
   .get 0 (.tuple [.slice ⟨none, none, none⟩, .slice ⟨some 1, none, none⟩]),
   .get 1 (.one (.slice ⟨none, none, some (-1)⟩)),
   .convertDM 2 none (some [1]) .csr (some (some 0)), .get 3 (.one (.int 1)), .convertDM 4 none none .dm none,
   .copy 3 (some (some 7)), .convert 6 .flatcoo none, .get 7 (.tuple [.int 0, .int (-1)]), .get 1 (.tuple [.int 0, .int 1]),
   .makeDM (.seq [.leaf (some 4), .leaf (some 6)]) none none .buffer none]

/-- The program meets the conditions of C95. -/
theorem wrappedProgram_fits : Arrays.FitsAll [] wrappedProgram := arraysFitAll_sound (by decide +kernel)

/-- The classes that the objects of a program wrap. -/
def inside : Storage V → List Cls
  | .dm _ d => .dm :: inside d
  | s => [s.cls]

/-- A case of C95: the plain arrays after the program, and the classes of its objects. -/
example : ((Arrays.run [] wrappedProgram).map fun e => (e.1.shape, e.1.unspec, (boxList e.1.shape).map e.1.elem)) =
      [([2, 3], none, [some 1, none, some 3, none, some 5, none]), ([2, 2], none, [none, some 3, some 5, none]),
       ([2, 2], none, [some 5, none, none, some 3]), ([2, 2], some 0, [some 5, some 0, some 0, some 3]),
       ([2], some 0, [some 0, some 3]), ([2], some 0, [some 0, some 3]), ([2, 2], some 7, [some 5, some 7, some 7, some 3]),
       ([2, 2], some 7, [some 5, some 7, some 7, some 3]), ([2], none, [some 4, some 6])] ∧
    ((World.empty.run wrappedProgram).objs.map fun x => inside x.desc) =
      [[.dm, .coo], [.dm, .coo], [.dm, .coo], [.dm, .csr], [.dm, .coo], [.dm, .dm, .strided], [.dm, .csr], [.flatcoo],
       [.dm, .buffer]] ∧
    ((Arrays.run [] (wrappedProgram.take 8)).step (.get 7 (.tuple [.int 0, .int (-1)]))).2 = .val (some 7) := by
  refine ⟨?_, ?_, ?_⟩ <;> decide +kernel

/-- The groups of a `DM`. -/
def groupsOf : Storage V → List (List Nat)
  | .dm m _ => m.rdims
  | _ => []

/-- A case of the part of C95 on the classes: the groups of `o0`, `o3`, `o5` and `o8`. -/
example : ([0, 3, 5, 8].map fun o => ((World.empty.run wrappedProgram).objs[o]?).map fun x => groupsOf x.desc) =
    [some [[1], [0]], some [[0], [1]], some [[0]], some [[0]]] ∧
    cutAt [1, 0] 0 [1] = [[1], [0]] ∧ cutAt [2, 0, 1] 0 [2] = [[2, 0], [1]] := by
  refine ⟨?_, ?_, ?_⟩ <;> decide +kernel

/-- The condition on slices of a `DM` is needed: an int on a slice with an offset is not what the plain array says (C36). -/
example :
    let p : List (Op (Option Int)) :=
      [.makeDM (.seq [.seq [.leaf (some 1), .leaf (some 2)], .seq [.leaf (some 3), .leaf (some 4)]]) none none .strided none,
       .get 0 (.tuple [.slice ⟨some 1, none, none⟩, .none]), .get 1 (.one (.int 0)), .get 2 (.one (.int 1))]
    arraysFit (Arrays.run [] (p.take 2)) (.get 1 (.one (.int 0))) = false ∧
    ((World.empty.run (p.take 3)).step (.get 2 (.one (.int 1)))).2 ≠ ((Arrays.run [] (p.take 3)).step (.get 2 (.one (.int 1)))).2 := by
  refine ⟨?_, ?_⟩ <;> decide +kernel

end Gcs
