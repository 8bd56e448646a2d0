import Verif.Model.EqOp
import Verif.Props.AnyEq

/-!
# C97: the operators `==` and `!=`
-/

namespace Gcs

open Spec

variable {V : Type} [DecidableEq V]

/-- `x` is a storage object. -/
def Spec.IsStore : Operand V → Prop
  | .store .. => True
  | .other _ => False

/-- The objects of a program: an identity belongs to one object, with one list. -/
abbrev Spec.Memory (V : Type) := Nat → Option (Storage V × List V)

/-- The `Buffer` of an object other than a `DM`. -/
def Spec.bufferOf : Storage V → Option (Buffer V)
  | .buffer _ => none
  | .strided s => some s.data
  | .coo c => some c.data
  | .flatcoo c => some c.data
  | .csr c => some c.data
  | .dm _ _ => none

/-- The identities are those of the object and of the `data` below it. -/
def Spec.Lives (g : Memory V) : Storage V → List Nat → List V → Prop
  | .dm m d, i :: is, mem => g i = some (.dm m d, mem) ∧ Lives g d is mem
  | .buffer b, i :: _, mem => g i = some (.buffer b, mem)
  | s, [i, j], mem => g i = some (s, mem) ∧ ∃ b, bufferOf s = some b ∧ g j = some (.buffer b, mem)
  | _, _, _ => False

/-- No object below (or equal to) the one is the object at the same depth of the other. -/
def Spec.NoSameObject : List Nat → List Nat → Prop
  | i :: is, j :: js => i ≠ j ∧ NoSameObject is js
  | _, _ => True

theorem dunderEq_none (E : V → V → Bool) (s t : Storage V) (ids ids' : List Nat) (mem mem' : List V) :
    s.dunderEq E ids mem t ids' mem' = none ↔ s.cls ≠ t.cls := by
  cases s <;> cases t <;> simp [Storage.dunderEq, Storage.cls]

theorem eq_store (E : V → V → Bool) (s t : Storage V) (ids ids' : List Nat) (mem mem' : List V)
    (hc : s.cls = t.cls) :
    (Operand.store s ids mem).eq E (.store t ids' mem') = (s.dunderEq E ids mem t ids' mem').getD false := by
  cases h : s.dunderEq E ids mem t ids' mem' with
  | none => exact absurd hc ((dunderEq_none E s t ids ids' mem mem').1 h)
  | some r => simp [Operand.eq, Operand.dunderEq, h]

/-- C97.  `!=` is the negation of `==`, whatever `==` of values is and whatever the operands are, if one of them is a
storage object. -/
theorem C97_not_equal (E : V → V → Bool) (a b : Operand V) (h : IsStore a ∨ IsStore b) : a.ne E b = !(a.eq E b) := by
  cases a with
  | store s ids mem => rfl
  | other i =>
    cases b with
    | store t ids' mem' => simp [Operand.ne, Operand.dunderNe, Operand.eq, Operand.dunderEq, Operand.is]
    | other j => simp [IsStore] at h

/-- C97, a storage object is not `==` to a list, a number and so on, on either side. -/
theorem C97_other_types (E : V → V → Bool) (s : Storage V) (ids : List Nat) (mem : List V) (i : Nat) :
    (Operand.store s ids mem).eq E (.other i) = false ∧ (Operand.other i).eq E (.store s ids mem) = false ∧
    (Operand.store s ids mem).ne E (.other i) = true ∧ (Operand.other i).ne E (.store s ids mem) = true := by
  refine ⟨rfl, rfl, rfl, rfl⟩

/-- C97, objects of different classes are not `==`, whatever they hold. -/
theorem C97_other_classes (E : V → V → Bool) (s t : Storage V) (ids ids' : List Nat) (mem mem' : List V)
    (hc : s.cls ≠ t.cls) (hi : sameObject ids ids' = false) :
    (Operand.store s ids mem).eq E (.store t ids' mem') = false := by
  have h1 := (dunderEq_none E s t ids ids' mem mem').2 hc
  have h2 := (dunderEq_none E t s ids' ids mem' mem).2 (Ne.symm hc)
  simp only [Operand.eq, Operand.dunderEq, h1, h2, Operand.is, hi]

theorem listEqE_self (E : V → V → Bool) (l : List V) : listEqE E l l = true := by
  induction l with
  | nil => rfl
  | cons x l ih => simp [listEqE, ih]

/-- C97, an object and itself: `s == s` holds for every class but `Buffer`, even if `==` of values is not reflexive; for a
`Buffer` it holds exactly if the unspecified value is `==` to itself. -/
theorem C97_self (E : V → V → Bool) (s : Storage V) (i : Nat) (ids : List Nat) (mem : List V) :
    (s.cls ≠ .buffer → (Operand.store s (i :: ids) mem).eq E (.store s (i :: ids) mem) = true) ∧
    (s.cls = .buffer → (Operand.store s (i :: ids) mem).eq E (.store s (i :: ids) mem) = E s.unspec s.unspec) := by
  refine ⟨fun h => ?_, fun h => ?_⟩ <;> rw [eq_store E s s _ _ mem mem rfl] <;> cases s <;>
    simp_all [Storage.dunderEq, Storage.cls, sameObject, Buffer.eqE, listEqE_self, Storage.unspec]

theorem noSame_head {ids ids' : List Nat} (h : NoSameObject ids ids') : sameObject ids ids' = false := by
  match ids, ids', h with
  | i :: is, j :: js, h => simp [sameObject, h.1]
  | [], _, _ => rfl
  | _ :: _, [], _ => rfl

theorem noSame_tail {ids ids' : List Nat} (h : NoSameObject ids ids') : NoSameObject ids.tail ids'.tail := by
  match ids, ids', h with
  | i :: is, j :: js, h => exact h.2
  | [], _, _ => trivial
  | _ :: is, [], _ => cases is <;> trivial

theorem dunderEq_eqE (E : V → V → Bool) (s t : Storage V) (ids ids' : List Nat) (mem mem' : List V)
    (h : NoSameObject ids ids') : (s.dunderEq E ids mem t ids' mem').getD false = s.eqE E mem t mem' := by
  induction s generalizing t ids ids' with
  | dm m d ih =>
    cases t with
    | dm m' d' =>
      simp [Storage.dunderEq, Storage.eqE, tupleItemEq, noSame_head h, noSame_head (noSame_tail h), ih d' _ _ (noSame_tail h)]
    | _ => rfl
  | _ =>
    cases t <;>
      simp [Storage.dunderEq, Storage.eqE, tupleItemEq, noSame_head h, noSame_head (noSame_tail h)]

/-- C97, objects without a common part: `==` compares as C93 and C52 say. -/
theorem C97_distinct (E : V → V → Bool) (s t : Storage V) (ids ids' : List Nat) (mem mem' : List V)
    (h : NoSameObject ids ids') : (Operand.store s ids mem).eq E (.store t ids' mem') = s.eqE E mem t mem' := by
  by_cases hc : s.cls = t.cls
  · rw [eq_store E s t _ _ mem mem' hc, dunderEq_eqE E s t ids ids' mem mem' h]
  · rw [C97_other_classes E s t ids ids' mem mem' hc (noSame_head h)]
    cases s <;> cases t <;> simp_all [Storage.eqE, Storage.cls]

theorem eqE_refl {E : V → V → Bool} (hE : ∀ v, E v v = true) (s : Storage V) (mem : List V) : s.eqE E mem s mem = true := by
  have hb : ∀ b : Buffer V, b.eqE E mem b mem = true := fun b => by simp [Buffer.eqE, listEqE_self, hE]
  have h1 : ∀ (b : Buffer (Option Int)) m, b.eq m b m = true := fun b m => by simp [Buffer.eq]
  have h2 : ∀ (b : Strided (Option Int)) m, b.eq m b m = true := fun b m => by simp [Strided.eq, Buffer.eq]
  induction s with
  | dm m d ih => simp [Storage.eqE, ih]
  | _ => simp [Storage.eqE, hb, h1, h2]

theorem Spec.Lives.head {g : Memory V} {s : Storage V} {ids : List Nat} {mem : List V} (h : Lives g s ids mem) :
    ∃ i is, ids = i :: is ∧ g i = some (s, mem) := by
  match s, ids, h with
  | .dm m d, i :: is, h => exact ⟨i, is, rfl, h.1⟩
  | .buffer b, i :: is, h => exact ⟨i, is, rfl, h⟩
  | .strided s, [i, j], h => exact ⟨i, [j], rfl, h.1⟩
  | .coo s, [i, j], h => exact ⟨i, [j], rfl, h.1⟩
  | .flatcoo s, [i, j], h => exact ⟨i, [j], rfl, h.1⟩
  | .csr s, [i, j], h => exact ⟨i, [j], rfl, h.1⟩

theorem Spec.Lives.same {g : Memory V} {s t : Storage V} {ids ids' : List Nat} {mem mem' : List V} (h : Lives g s ids mem)
    (h' : Lives g t ids' mem') (hs : sameObject ids ids' = true) : s = t ∧ mem = mem' := by
  obtain ⟨i, is, rfl, h1⟩ := h.head
  obtain ⟨j, js, rfl, h2⟩ := h'.head
  simp only [sameObject, decide_eq_true_eq] at hs
  subst hs
  rw [h1] at h2
  simpa using h2

theorem Spec.Lives.data {g : Memory V} {s t : Storage V} {ids ids' : List Nat} {mem mem' : List V} {b b' : Buffer V}
    (h : Lives g s ids mem) (h' : Lives g t ids' mem') (hb : bufferOf s = some b) (hb' : bufferOf t = some b')
    (hs : sameObject ids.tail ids'.tail = true) : b = b' ∧ mem = mem' := by
  have one : ∀ {s : Storage V} {ids : List Nat} {mem : List V} {b : Buffer V}, Lives g s ids mem → bufferOf s = some b →
      ∃ i j, ids = [i, j] ∧ g j = some (.buffer b, mem) := by
    intro s ids mem b h hb
    match s, ids, h with
    | .dm m d, i :: is, h => simp [bufferOf] at hb
    | .buffer _, i :: is, h => simp [bufferOf] at hb
    | .strided s, [i, j], ⟨_, b', h1, h2⟩ => rw [hb] at h1; cases h1; exact ⟨i, j, rfl, h2⟩
    | .coo s, [i, j], ⟨_, b', h1, h2⟩ => rw [hb] at h1; cases h1; exact ⟨i, j, rfl, h2⟩
    | .flatcoo s, [i, j], ⟨_, b', h1, h2⟩ => rw [hb] at h1; cases h1; exact ⟨i, j, rfl, h2⟩
    | .csr s, [i, j], ⟨_, b', h1, h2⟩ => rw [hb] at h1; cases h1; exact ⟨i, j, rfl, h2⟩
  obtain ⟨i, j, rfl, h1⟩ := one h hb
  obtain ⟨i', j', rfl, h2⟩ := one h' hb'
  simp only [List.tail_cons, sameObject, decide_eq_true_eq] at hs
  subst hs
  rw [h1] at h2
  simpa using h2

theorem tupleItemEq_eq {ids ids' : List Nat} {r : Bool} (h : sameObject ids ids' = true → r = true) :
    tupleItemEq ids ids' r = r := by
  cases hs : sameObject ids ids' with
  | false => simp [tupleItemEq, hs]
  | true => simp [tupleItemEq, hs, h hs]

theorem or_absorb {a b : Bool} (h : a = true → b = true) : (a || b) = b := by
  cases a <;> simp_all

theorem buffer_refl {E : V → V → Bool} (hE : ∀ v, E v v = true) {b b' : Buffer V} {mem mem' : List V}
    (h : b = b' ∧ mem = mem') : b.eqE E mem b' mem' = true := by
  obtain ⟨rfl, rfl⟩ := h
  simp [Buffer.eqE, listEqE_self, hE]

theorem dunderEq_refl {E : V → V → Bool} (hE : ∀ v, E v v = true) (g : Memory V) (s t : Storage V) (ids ids' : List Nat)
    (mem mem' : List V) (hs : Lives g s ids mem) (ht : Lives g t ids' mem') :
    (s.dunderEq E ids mem t ids' mem').getD false = s.eqE E mem t mem' := by
  have top : sameObject ids ids' = true → s.eqE E mem t mem' = true := by
    intro h
    obtain ⟨rfl, rfl⟩ := hs.same ht h
    exact eqE_refl hE s mem
  have item : ∀ b b', bufferOf s = some b → bufferOf t = some b' →
      tupleItemEq ids.tail ids'.tail (b.eqE E mem b' mem') = b.eqE E mem b' mem' := fun b b' hb hb' =>
    tupleItemEq_eq fun h => buffer_refl hE (hs.data ht hb hb' h)
  induction s generalizing t ids ids' with
  | buffer b => cases t <;> rfl
  | dm m d ih =>
    cases t with
    | dm m' d' =>
      obtain ⟨i, is, rfl, _⟩ := hs.head
      obtain ⟨j, js, rfl, _⟩ := ht.head
      have e := ih d' is js hs.2 ht.2 (fun h => by
        obtain ⟨rfl, rfl⟩ := hs.2.same ht.2 h
        exact eqE_refl hE d mem) (fun b b' hb hb' => tupleItemEq_eq fun h => buffer_refl hE (hs.2.data ht.2 hb hb' h))
      have e2 := tupleItemEq_eq (ids := is) (ids' := js) (r := d.eqE E mem d' mem') fun h => by
        obtain ⟨rfl, rfl⟩ := hs.2.same ht.2 h
        exact eqE_refl hE d mem
      simp only [Storage.dunderEq, List.tail_cons, e, e2, Option.getD_some]
      exact or_absorb top
    | _ => rfl
  | strided s =>
    cases t with
    | strided t =>
      simp only [Storage.dunderEq, item _ _ rfl rfl, Option.getD_some]
      exact or_absorb top
    | _ => rfl
  | coo s =>
    cases t with
    | coo t =>
      simp only [Storage.dunderEq, item _ _ rfl rfl, Option.getD_some]
      exact or_absorb top
    | _ => rfl
  | flatcoo s =>
    cases t with
    | flatcoo t =>
      simp only [Storage.dunderEq, item _ _ rfl rfl, Option.getD_some]
      exact or_absorb top
    | _ => rfl
  | csr s =>
    cases t with
    | csr t =>
      simp only [Storage.dunderEq, item _ _ rfl rfl, Option.getD_some]
      exact or_absorb top
    | _ => rfl

/-- C97, if every value is `==` to itself, it makes no difference which parts the operands have in common: `==` compares as C93
and C52 say. -/
theorem C97_reflexive (E : V → V → Bool) (hE : ∀ v, E v v = true) (g : Memory V) (s t : Storage V) (ids ids' : List Nat)
    (mem mem' : List V) (hs : Lives g s ids mem) (ht : Lives g t ids' mem') :
    (Operand.store s ids mem).eq E (.store t ids' mem') = s.eqE E mem t mem' := by
  by_cases hc : s.cls = t.cls
  · rw [eq_store E s t _ _ mem mem' hc, dunderEq_refl hE g s t ids ids' mem mem' hs ht]
  · rw [C97_other_classes E s t ids ids' mem mem' hc]
    · cases s <;> cases t <;> simp_all [Storage.eqE, Storage.cls]
    · cases h : sameObject ids ids' with
      | false => rfl
      | true => exact absurd (congrArg Storage.cls (hs.same ht h).1) hc

/-- C97, objects with the same `data` object are `==` exactly if all their attributes are the same; `==` of values does not
matter then. -/
theorem C97_common_data (E : V → V → Bool) (g : Memory V) (s t : Storage V) (ids ids' : List Nat) (mem mem' : List V)
    (hs : Lives g s ids mem) (ht : Lives g t ids' mem') (hb : s.cls ≠ .buffer)
    (hd : sameObject ids.tail ids'.tail = true) (hc : s.cls = t.cls) :
    (Operand.store s ids mem).eq E (.store t ids' mem') = s.eqE Spec.same mem t mem' := by
  have hsame : ∀ v : V, Spec.same v v = true := fun v => by simp [Spec.same]
  rw [← C97_reflexive Spec.same hsame g s t ids ids' mem mem' hs ht, eq_store E s t _ _ mem mem' hc,
    eq_store Spec.same s t _ _ mem mem' hc]
  cases s <;> cases t <;> simp_all [Storage.dunderEq, Storage.cls, tupleItemEq]

theorem sameObject_comm (ids ids' : List Nat) : sameObject ids ids' = sameObject ids' ids := by
  cases ids <;> cases ids' <;> simp [sameObject, eq_comm]

theorem listEqE_comm {E : V → V → Bool} (hE : ∀ v w, E v w = E w v) (l l' : List V) : listEqE E l l' = listEqE E l' l := by
  induction l generalizing l' with
  | nil => cases l' <;> rfl
  | cons x l ih =>
    cases l' with
    | nil => rfl
    | cons y l' => simp only [listEqE, ih l', hE x y, eq_comm]

/-- C97, `==` is symmetric if `==` of values is. -/
theorem C97_symmetric (E : V → V → Bool) (hE : ∀ v w, E v w = E w v) (a b : Operand V) : a.eq E b = b.eq E a := by
  have buf : ∀ (b b' : Buffer V) (m m' : List V), b.eqE E m b' m' = b'.eqE E m' b m := by
    intro b b' m m'
    simp only [Buffer.eqE, listEqE_comm hE, hE b.unspec, eq_comm]
  have ibuf : ∀ (b b' : Buffer (Option Int)) m m', b.eq m b' m' = b'.eq m' b m := fun b b' m m' =>
    (C52_equivalence (.buffer b) (.buffer b') (.buffer b) m m' m).2.1
  have istr : ∀ (b b' : Strided (Option Int)) m m', b.eq m b' m' = b'.eq m' b m := fun b b' m m' =>
    (C52_equivalence (.strided b) (.strided b') (.strided b) m m' m).2.1
  have key : ∀ (s t : Storage V) (ids ids' : List Nat) (mem mem' : List V),
      (s.dunderEq E ids mem t ids' mem').getD false = (t.dunderEq E ids' mem' s ids mem).getD false := by
    intro s
    induction s with
    | dm m d ih =>
      intro t ids ids' mem mem'
      cases t with
      | dm m' d' =>
        simp only [Storage.dunderEq, Option.getD_some, tupleItemEq, ih d', sameObject_comm ids, sameObject_comm ids.tail, eq_comm]
      | _ => rfl
    | _ =>
      intro t ids ids' mem mem'
      cases t <;> first
        | rfl
        | simp only [Storage.dunderEq, Option.getD_some, tupleItemEq, sameObject_comm ids, sameObject_comm ids.tail,
            buf _ _ mem, ibuf _ _ _ _, istr _ _ _ _, eq_comm]
  cases a with
  | other i =>
    cases b with
    | other j => simp [Operand.eq, Operand.dunderEq, Operand.is, eq_comm]
    | store => rfl
  | store s ids mem =>
    cases b with
    | other j => rfl
    | store t ids' mem' =>
      by_cases hc : s.cls = t.cls
      · rw [eq_store E s t _ _ _ _ hc, eq_store E t s _ _ _ _ hc.symm, key]
      · have h1 := (dunderEq_none E s t ids ids' mem mem').2 hc
        have h2 := (dunderEq_none E t s ids' ids mem' mem).2 (Ne.symm hc)
        simp only [Operand.eq, Operand.dunderEq, h1, h2, Operand.is, sameObject_comm]

theorem listEqE_mono {E F : V → V → Bool} (hE : ∀ v w, E v w = true → F v w = true) (l l' : List V)
    (h : listEqE E l l' = true) : listEqE F l l' = true := by
  induction l generalizing l' with
  | nil => cases l' <;> simp_all [listEqE]
  | cons x l ih =>
    cases l' with
    | nil => simp [listEqE] at h
    | cons y l' =>
      simp only [listEqE, Bool.and_eq_true, Bool.or_eq_true] at h ⊢
      exact ⟨h.1.imp id (hE x y), ih l' h.2⟩

theorem dunderEq_mono {E F : V → V → Bool} (hE : ∀ v w, E v w = true → F v w = true) (s t : Storage V) (ids ids' : List Nat)
    (mem mem' : List V) (h : (s.dunderEq E ids mem t ids' mem').getD false = true) :
    (s.dunderEq F ids mem t ids' mem').getD false = true := by
  have buf : ∀ b b' : Buffer V, b.eqE E mem b' mem' = true → b.eqE F mem b' mem' = true := by
    intro b b' h
    rw [Buffer.eqE_iff] at h ⊢
    exact ⟨h.1, listEqE_mono hE _ _ h.2.1, hE _ _ h.2.2⟩
  induction s generalizing t ids ids' with
  | buffer b => cases t <;> first | exact buf _ _ h | cases h
  | dm m d ih =>
    cases t with
    | dm m' d' =>
      simp only [Storage.dunderEq, Option.getD_some, tupleItemEq, Bool.or_eq_true, Bool.and_eq_true] at h ⊢
      exact h.imp id fun h => ⟨h.1, h.2.imp id (ih d' _ _)⟩
    | _ => cases h
  | _ =>
    cases t <;> first
      | cases h; done
      | (simp only [Storage.dunderEq, Option.getD_some, tupleItemEq, Bool.or_eq_true, Bool.and_eq_true] at h ⊢
         exact h.imp id fun h => ⟨h.1, h.2.imp id (buf _ _)⟩)

/-- C97, what `==` says about the elements.  Objects of one memory that are `==`, without elements before their windows, have
the same class, the same shape and places for the same indices, and their elements are the same or `==`: whatever parts they
have in common and whatever `==` of values is. -/
theorem C97_elements (E : V → V → Bool) (g : Memory V) (s t : Storage V) (ids ids' : List Nat) (mem mem' : List V)
    (hl : Lives g s ids mem) (hl' : Lives g t ids' mem') (hs : s.WF mem) (ht : t.WF mem') (hn : NoneBefore s)
    (h : (Operand.store s ids mem).eq E (.store t ids' mem') = true) :
    s.cls = t.cls ∧ s.shape = t.shape ∧ (∀ ix, HasPlace s ix ↔ HasPlace t ix) ∧
      ∀ ix v w, InBox ix s.shape → Reads s mem ix v → Reads t mem' ix w → v = w ∨ E v w = true := by
  have hc : s.cls = t.cls := by
    by_contra hc
    have hi : sameObject ids ids' = false := by
      cases h : sameObject ids ids' with
      | false => rfl
      | true => exact absurd (congrArg Storage.cls (hl.same hl' h).1) hc
    rw [C97_other_classes E s t ids ids' mem mem' hc hi] at h
    cases h
  let F : V → V → Bool := fun v w => decide (v = w) || E v w
  have h2 : (Operand.store s ids mem).eq F (.store t ids' mem') = true := by
    rw [eq_store _ _ _ _ _ _ _ hc] at h ⊢
    exact dunderEq_mono (fun v w hv => by simp [F, hv]) _ _ _ _ _ _ h
  rw [C97_reflexive F (fun v => by simp [F]) g s t ids ids' mem mem' hl hl'] at h2
  obtain ⟨-, g2, -, g4, g5⟩ := C93_eq F s t mem mem' hs ht hn h2
  refine ⟨hc, g2, g4, fun ix v w hi hv hw => ?_⟩
  have := g5 ix v w hi hv hw
  simp only [F, Bool.or_eq_true, decide_eq_true_eq] at this
  tauto

/-- A case of C97: a `Strided` with NaN as the unspecified value.  The `Strided` (object 1, its `Buffer` is object 0)
is `==` to itself and to another `Strided` on the same `Buffer` (object 2), but not to one on a copy of the `Buffer` (objects 4
and 3); the `Buffer` is not `==` to itself.  All of them live in one memory. -/
example :
    let b : Buffer (Option Int) := ⟨2, 0, some 7⟩
    let s : Storage (Option Int) := .strided ⟨[2], [1], b⟩
    let mem := [some 1, some 2]
    let g : Spec.Memory (Option Int) := fun i => if i = 0 ∨ i = 3 then some (.buffer b, mem) else some (s, mem)
    Spec.Lives g s [1, 0] mem ∧ Spec.Lives g s [2, 0] mem ∧ Spec.Lives g s [4, 3] mem ∧
    (Operand.store s [1, 0] mem).eq Spec.sampleE (.store s [1, 0] mem) = true ∧
    (Operand.store s [1, 0] mem).eq Spec.sampleE (.store s [2, 0] mem) = true ∧
    (Operand.store s [1, 0] mem).eq Spec.sampleE (.store s [4, 3] mem) = false ∧
    (Operand.store s [1, 0] mem).ne Spec.sampleE (.store s [4, 3] mem) = true ∧
    Spec.NoSameObject [1, 0] [4, 3] ∧
    (Operand.store (.buffer b) [0] mem).eq Spec.sampleE (.store (.buffer b) [0] mem) = false := by
  refine ⟨?_, ?_, ?_, ?_⟩
  · exact ⟨by simp, _, rfl, by simp⟩
  · exact ⟨by simp, _, rfl, by simp⟩
  · exact ⟨by simp, _, rfl, by simp⟩
  · refine ⟨by decide +kernel, by decide +kernel, by decide +kernel, by decide +kernel, ?_, by decide +kernel⟩
    exact ⟨by decide, by decide, trivial⟩

/-- A case of C97, elements: two `Strided`s on one `Buffer` are `==` and meet the conditions. -/
example :
    let s := Storage.strided sampleStrided
    let g : Spec.Memory (Option Int) := fun i => if i = 0 then some (.buffer sampleStrided.data, sampleCells) else some (s, sampleCells)
    Spec.Lives g s [1, 0] sampleCells ∧ Spec.Lives g s [2, 0] sampleCells ∧ s.WF sampleCells ∧ NoneBefore s ∧
    (Operand.store s [1, 0] sampleCells).eq Spec.sampleE (.store s [2, 0] sampleCells) = true := by
  refine ⟨⟨by simp, _, rfl, by simp⟩, ⟨by simp, _, rfl, by simp⟩, sampleStrided_wf, fun ix hi => ?_, by decide +kernel⟩
  match ix, hi with
  | [i, j], hi =>
    simp only [sampleStrided, InBox] at hi
    simp only [sampleStrided, address]
    omega

/-- A case of C97: two `DM`s around one `Strided` with NaN as the unspecified value are `==` if they are the same part of it,
and not `==` if they are not; a `DM` around a copy is not `==`. -/
example :
    let s : Storage (Option Int) := .strided ⟨[2], [1], ⟨2, 0, some 7⟩⟩
    let d : Storage (Option Int) := .dm ⟨[2], [[0]], [[2]], [[1]], [0]⟩ s
    let r : Storage (Option Int) := .dm ⟨[2], [[0]], [[2]], [[-1]], [1]⟩ s
    let mem := [some 1, some 2]
    (Operand.store d [2, 1, 0] mem).eq Spec.sampleE (.store d [3, 1, 0] mem) = true ∧
    (Operand.store d [2, 1, 0] mem).eq Spec.sampleE (.store r [3, 1, 0] mem) = false ∧
    (Operand.store d [2, 1, 0] mem).eq Spec.sampleE (.store d [6, 5, 4] mem) = false ∧
    (Operand.store d [2, 1, 0] mem).eq Spec.same (.store d [6, 5, 4] mem) = true := by
  refine ⟨by decide +kernel, by decide +kernel, by decide +kernel, by decide +kernel⟩

end Gcs
