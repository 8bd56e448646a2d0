import Verif.Props.Indexing

/-!
# C84: which exception a wrong index raises
-/

namespace Gcs

open Spec

/-! ### Specification -/

/-- What is wrong with an item of an index that meets an axis of this size (`none`: there is no such axis). -/
def Spec.refusal : Ix → Option Nat → Option PyErr
  | .int _, some 0 => some .zeroDivision
  | .int _, none => some .index
  | .slice _, none => some .index
  | .other, _ => some .value
  | _, _ => none

/-- The same for `apply_slices`, which looks only at items that have an axis, and takes a slice modulo the size of the axis. -/
def Spec.refusalApply : Ix → Nat → Option PyErr
  | .int _, 0 => some .zeroDivision
  | .slice _, 0 => some .zeroDivision
  | .other, _ => some .value
  | _, _ => none

/-- The exception is that of the first wrong item. -/
def Spec.First {α : Type} (items : List α) (wrong : Nat → α → Option PyErr) (e : PyErr) : Prop :=
  ∃ k a, items[k]? = some a ∧ wrong k a = some e ∧ ∀ j b, j < k → items[j]? = some b → wrong j b = none

/-! ### Proofs -/

theorem first_nil {α : Type} (wrong : Nat → α → Option PyErr) (e : PyErr) : ¬ Spec.First ([] : List α) wrong e := by
  rintro ⟨k, a, h, _⟩
  simp at h

theorem first_cons {α : Type} (a : α) (l : List α) (wrong : Nat → α → Option PyErr) (e : PyErr) :
    Spec.First (a :: l) wrong e ↔
      wrong 0 a = some e ∨ (wrong 0 a = none ∧ Spec.First l (fun k => wrong (k + 1)) e) := by
  constructor
  · rintro ⟨k, b, h1, h2, h3⟩
    cases k with
    | zero =>
      simp only [List.getElem?_cons_zero, Option.some.injEq] at h1
      exact .inl (h1 ▸ h2)
    | succ k =>
      refine .inr ⟨h3 0 a (by omega) (by simp), k, b, by simpa using h1, h2, ?_⟩
      intro j c hj hc
      exact h3 (j + 1) c (by omega) (by simpa using hc)
  · rintro (h | ⟨h, k, b, h1, h2, h3⟩)
    · exact ⟨0, a, by simp, h, fun j b hj => by omega⟩
    · refine ⟨k + 1, b, by simpa using h1, h2, ?_⟩
      intro j c hj hc
      cases j with
      | zero =>
        simp only [List.getElem?_cons_zero, Option.some.injEq] at hc
        exact hc ▸ h
      | succ j => exact h3 j c (by omega) (by simpa using hc)

theorem normalizeItems_exception (is : List Ix) (shape : List Nat) (e : PyErr) :
    normalizeItems is shape = .error e ↔ Spec.First is (fun k a => Spec.refusal a shape[k]?) e := by
  induction is generalizing shape with
  | nil => simp [normalizeItems, first_nil, pure, Except.pure]
  | cons a is ih =>
    rw [first_cons]
    cases shape with
    | nil =>
      have ih := ih []
      simp only [List.getElem?_nil] at ih ⊢
      cases a with
      | none => simpa [normalizeItems, refusal] using ih
      | _ => simp [normalizeItems, refusal, eq_comm]
    | cons n shape =>
      have ih := ih shape
      simp only [List.getElem?_cons_succ, List.getElem?_cons_zero]
      cases a with
      | int i =>
        by_cases hn : n = 0
        · subst hn
          simp [normalizeItems, refusal, pyMod, bind, Except.bind, eq_comm]
        · have hr : refusal (.int i) (some n) = none := by
            cases n with
            | zero => simp at hn
            | succ n => rfl
          simp only [hr, normalizeItems, pyMod_pos i n (by omega), ← ih]
          cases normalizeItems is shape <;> simp [bind, Except.bind, pure, Except.pure]
      | slice s =>
        have hr : refusal (.slice s) (some n) = none := rfl
        simp only [hr, normalizeItems, ← ih]
        cases normalizeItems is shape <;> simp [bind, Except.bind, pure, Except.pure]
      | none =>
        have hr : refusal .none (some n) = none := rfl
        simp only [hr, normalizeItems, ← ih]
        cases normalizeItems is shape <;> simp [bind, Except.bind, pure, Except.pure]
      | other => simp [normalizeItems, refusal, eq_comm]

/-- C84.  `normalize_index` raises the exception of the first wrong item: `ZeroDivisionError` for an int on an empty axis,
`IndexError` for an int or a slice without an axis, `ValueError` for an item of another type.  An index that is not a tuple is
like a tuple of one item, but one of another type raises `TypeError`. -/
theorem C84_normalize_index (shape : List Nat) (e : PyErr) :
    (∀ is, normalizeIndex (.tuple is) shape = .error e ↔ Spec.First is (fun k a => Spec.refusal a shape[k]?) e) ∧
    (normalizeIndex (.one .other) shape = .error e ↔ e = .type) ∧
    ∀ a, a ≠ .other → (normalizeIndex (.one a) shape = .error e ↔ Spec.refusal a shape[0]? = some e) := by
  refine ⟨fun is => normalizeItems_exception is shape e, by simp [normalizeIndex, eq_comm], fun a ha => ?_⟩
  have h := normalizeItems_exception [a] shape e
  have h1 : Spec.First [a] (fun k a => Spec.refusal a shape[k]?) e ↔ Spec.refusal a shape[0]? = some e := by
    rw [first_cons]
    simp [first_nil]
  rw [h1] at h
  rw [← h]
  cases a with
  | other => exact absurd rfl ha
  | _ => cases shape <;> simp [normalizeIndex, normalizeItems]

theorem nitemsR_reduced (s : PySlice) (n : Int) : ∃ k, nitemsR (reduced s n) = .ok k := by
  suffices key : ∀ r : RSlice, ∃ k, nitemsR (if (r.stop - r.start) * r.step ≤ 0 then ⟨0, 0, 1⟩ else r) = .ok k from key _
  intro r
  split
  · exact ⟨0, rfl⟩
  · next h =>
    have h1 : r.step ≠ 0 := by
      intro h0
      rw [h0] at h
      simp at h
    by_cases h2 : r.stop = r.start
    · exact ⟨0, by simp [nitemsR, h2, pure, Except.pure]⟩
    · refine ⟨(((r.stop - r.start) + r.step - (r.step.fdiv r.step.natAbs)).fdiv r.step).toNat, ?_⟩
      have h3 : ¬ ((r.step.natAbs : Int) = 0) := by omega
      simp [nitemsR, h2, pyDiv, h1, h3, bind, Except.bind, pure, Except.pure]

/-- C84.  `apply_slices` with as many items, sizes and strides raises the exception of the first wrong item:
`ZeroDivisionError` for an int or a slice on an empty axis, `ValueError` for an item of another type. -/
theorem C84_apply_slices (is : List Ix) (shape : List Nat) (strides : List Int) (h1 : is.length = shape.length)
    (h2 : strides.length = shape.length) (e : PyErr) :
    applySlices is shape strides = .error e ↔ Spec.First is (fun k a => (shape[k]?).bind (Spec.refusalApply a)) e := by
  induction is generalizing shape strides with
  | nil => simp [applySlices, first_nil, pure, Except.pure]
  | cons a is ih =>
    rw [first_cons]
    cases shape with
    | nil => simp at h1
    | cons n shape =>
      cases strides with
      | nil => simp at h2
      | cons s strides =>
        have ih := ih shape strides (by simpa using h1) (by simpa using h2)
        simp only [List.getElem?_cons_succ, List.getElem?_cons_zero, Option.bind_some]
        cases a with
        | int i =>
          cases n with
          | zero => simp [applySlices, refusalApply, pyMod, bind, Except.bind, eq_comm]
          | succ n =>
            have hr : refusalApply (.int i) (n + 1) = none := rfl
            simp only [hr, applySlices, pyMod_pos i (n + 1) (by omega), ← ih]
            cases applySlices is shape strides <;> simp [bind, Except.bind, pure, Except.pure]
        | slice sl =>
          cases n with
          | zero => simp [applySlices, refusalApply, pyMod, bind, Except.bind, eq_comm]
          | succ n =>
            obtain ⟨k, hk⟩ := nitemsR_reduced sl (n + 1 : Nat)
            have hr : refusalApply (.slice sl) (n + 1) = none := rfl
            simp only [hr, applySlices, pyMod_pos _ (n + 1) (by omega), hk, ← ih]
            cases applySlices is shape strides <;> simp [bind, Except.bind, pure, Except.pure]
        | none =>
          have hr : refusalApply .none n = none := by cases n <;> rfl
          simp only [hr, applySlices, ← ih]
          cases applySlices is shape strides <;> simp [bind, Except.bind, pure, Except.pure]
        | other => simp [applySlices, refusalApply, eq_comm]

variable {V : Type} [DecidableEq V]

/-- C84.  An index that `normalize_index` refuses for the shape of the object: reading and assigning raise that exception, and
the assignment changes nothing.  All classes but `Buffer`. -/
theorem C84_items (s : Storage V) (mem : List V) (index : Index) (e : PyErr) (hb : ∀ b, s ≠ .buffer b)
    (h : normalizeIndex index s.shape = .error e) (valueAt : List V → List Int → PyM V) :
    s.getItem mem index = .error e ∧ s.setItem mem index valueAt = ⟨mem, some e⟩ := by
  cases s with
  | buffer b => exact absurd rfl (hb b)
  | strided s =>
    have h : normalizeIndex index s.shape = .error e := h
    constructor
    · simp [Storage.getItem, Strided.getItem, h, bind, Except.bind]
    · simp [Storage.setItem, Strided.setItem, h, bind, Except.bind]
  | coo c =>
    have h : normalizeIndex index c.shape = .error e := h
    simp [Storage.getItem, Storage.setItem, Storage.setPlan, h, bind, Except.bind]
  | flatcoo c =>
    have h : normalizeIndex index c.shape = .error e := h
    simp [Storage.getItem, Storage.setItem, Storage.setPlan, h, bind, Except.bind]
  | csr c =>
    have h : normalizeIndex index c.shape = .error e := h
    simp [Storage.getItem, Storage.setItem, Storage.setPlan, h, bind, Except.bind]
  | dm m data =>
    have h : normalizeIndex index m.shape = .error e := h
    simp [Storage.getItem, Storage.setItem, Storage.dmSetPlan, h, bind, Except.bind]

/-! ### Examples -/

example : normalizeIndex (.tuple [.int 7, .other, .int 0]) [3, 4] = .error .value ∧
    normalizeIndex (.tuple [.none, .none, .int 0]) [3, 4] = .error .index ∧
    normalizeIndex (.tuple [.slice ⟨none, none, none⟩, .int 1, .other]) [3, 0] = .error .zeroDivision ∧
    normalizeIndex (.one .other) [3, 4] = .error .type ∧
    applySlices [.int 1, .slice ⟨none, none, none⟩, .other] [3, 0, 2] [1, 1, 1] = .error .zeroDivision ∧
    applySlices [.int 1, .other, .int 0] [3, 0, 0] [1, 1, 1] = .error .value := by decide

example : Spec.First [Ix.int 7, .other, .int 0] (fun k a => Spec.refusal a [3, 4][k]?) .value :=
  ⟨1, .other, rfl, rfl, fun j b hj hb => by
    have : j = 0 := by omega
    subst this
    simp only [List.getElem?_cons_zero, Option.some.injEq] at hb
    subst hb
    rfl⟩

end Gcs
