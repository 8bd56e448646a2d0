import Verif.Lemmas.Solve
import Verif.Model.Storage

/-! Facts on row-major addressing: `product`, `makeStrides`, `getPosition`. -/

namespace Gcs

open Spec

theorem product_cons (n : Nat) (shape : List Nat) : product (n :: shape) = n * product shape := rfl

theorem product_pos {shape : List Nat} (h : PosShape shape) : 0 < product shape := by
  induction shape with
  | nil => simp [product]
  | cons n shape ih =>
    obtain ⟨h1, h2⟩ := h.cons
    rw [product_cons]
    exact Nat.mul_pos h1 (ih h2)

theorem makeStrides_cons (n : Nat) (shape : List Nat) :
    makeStrides (n :: shape) = (product shape : Int) :: makeStrides shape := by
  simp only [makeStrides, List.length_cons, List.range_succ_eq_map, List.map_cons, List.map_map]
  rfl

theorem makeStrides_length (shape : List Nat) : (makeStrides shape).length = shape.length := by
  simp [makeStrides]

theorem getPosition_ok (ix : List Int) (shape : List Nat) (strides : List Int)
    (h1 : ix.length = shape.length) (h2 : strides.length = shape.length) :
    getPosition ix shape strides = .ok (address ix strides) := by
  induction ix generalizing shape strides with
  | nil =>
    cases shape with
    | nil => rfl
    | cons => simp at h1
  | cons x ix ih =>
    cases shape with
    | nil => simp at h1
    | cons n shape =>
      cases strides with
      | nil => simp at h2
      | cons s strides =>
        simp only [getPosition, ih shape strides (by simpa using h1) (by simpa using h2), bind, Except.bind,
          pure, Except.pure, address]

/-- Horner's rule and the sum over C strides agree. -/
theorem rowMajor_eq (ix : List Int) (shape : List Nat) (acc : Int) (h : ix.length = shape.length) :
    rowMajor ix shape acc = acc * product shape + address ix (makeStrides shape) := by
  induction ix generalizing shape acc with
  | nil =>
    cases shape with
    | nil => simp [rowMajor, product, address]
    | cons => simp at h
  | cons x ix ih =>
    cases shape with
    | nil => simp at h
    | cons n shape =>
      rw [rowMajor, ih shape _ (by simpa using h), makeStrides_cons, product_cons, address]
      push_cast; ring

theorem Chain.mono {P Q : Int} {as : List Int} {ms : List Nat} (h : Chain P as ms) (hd : P ∣ Q) :
    Chain Q as ms := by
  cases as with
  | nil => cases ms with
    | nil => trivial
    | cons => exact h.elim
  | cons a as => cases ms with
    | nil => exact h.elim
    | cons m ms =>
      obtain ⟨S, n, h1, h2, h3, h4⟩ := h
      exact ⟨S, n, h1, h2, h3.trans hd, h4⟩

/-- A slice of a contiguous array with no empty axis has strides that form a chain. -/
theorem indexStrided_chain (nix : List NIx) (shape : List Nat) (hp : PosShape shape)
    (hn : Normalized nix shape) (sh : List Nat) (st : List Int) (off : Int)
    (h : indexStrided nix shape (makeStrides shape) = .ok (sh, st, off)) :
    Chain (product shape) st sh ∧ ∀ a ∈ st, a ≠ 0 := by
  induction nix generalizing shape sh st off with
  | nil =>
    cases shape with
    | nil =>
      simp only [indexStrided, pure, Except.pure, Except.ok.injEq, Prod.mk.injEq] at h
      obtain ⟨rfl, rfl, rfl⟩ := h
      exact ⟨trivial, by simp⟩
    | cons n shape => simp [Normalized] at hn
  | cons a nix ih =>
    cases shape with
    | nil => cases a <;> simp [Normalized] at hn
    | cons n shape =>
      obtain ⟨hn0, hp'⟩ := hp.cons
      have hpp : 0 < product shape := product_pos hp'
      rw [makeStrides_cons] at h
      cases a with
      | int i =>
        obtain ⟨st', off', h1, _⟩ := indexStrided_ok nix shape (makeStrides shape) hp' hn.2 (makeStrides_length _)
        simp only [indexStrided, h1, bind, Except.bind, pure, Except.pure, Except.ok.injEq, Prod.mk.injEq] at h
        obtain ⟨rfl, rfl, rfl⟩ := h
        obtain ⟨i1, i2⟩ := ih shape hp' hn.2 _ _ _ h1
        exact ⟨i1.mono (by rw [product_cons]; push_cast; exact Int.dvd_mul_left _ _), i2⟩
      | slice r =>
        obtain ⟨st', off', h1, _⟩ := indexStrided_ok nix shape (makeStrides shape) hp' hn.2 (makeStrides_length _)
        obtain ⟨h4, h5⟩ := normalized_nitems hn.1.1 hn.1.2
        have hz : ¬ ((n : Int) = 0) := by omega
        simp only [indexStrided, h1, bind, Except.bind, pure, Except.pure, pyMod, hz, if_false, h4,
          Except.ok.injEq, Prod.mk.injEq] at h
        obtain ⟨rfl, rfl, rfl⟩ := h
        obtain ⟨i1, i2⟩ := ih shape hp' hn.2 _ _ _ h1
        refine ⟨⟨product shape, n, by omega, by omega, ?_, Int.dvd_mul_right _ _, ?_, i1⟩, ?_⟩
        · rw [product_cons]; push_cast; exact Int.dvd_refl _
        · rw [abs_mul, abs_of_pos (by omega : (0 : Int) < product shape)]
          generalize hm : (slicePositions r.toPy n).length = m at h5
          have key : ((m : Int) - 1) * |r.step| ≤ n - 1 := by
            by_cases hm0 : m = 0
            · subst hm0
              have := abs_nonneg r.step
              push_cast; omega
            · obtain ⟨_, a1, a2⟩ := h5 0 (by omega)
              obtain ⟨_, b1, b2⟩ := h5 (m - 1) (by omega)
              have e : ((m - 1 : Nat) : Int) = (m : Int) - 1 := by omega
              rw [e] at b1 b2
              have h6 : |((m : Int) - 1) * r.step| ≤ n - 1 := by
                rw [abs_le]; constructor <;> push_cast at a1 a2 <;> linarith
              rwa [abs_mul, abs_of_nonneg (by omega)] at h6
          calc ((m : Int) - 1) * ((product shape : Int) * |r.step|)
              = (((m : Int) - 1) * |r.step|) * product shape := by ring
            _ ≤ (n - 1) * product shape := Int.mul_le_mul_of_nonneg_right key (by omega)
        · intro a ha
          rcases List.mem_cons.1 ha with rfl | ha
          · exact mul_ne_zero (by omega) hn.1.2
          · exact i2 a ha
      | none =>
        obtain ⟨st', off', h1, _⟩ := indexStrided_ok nix shape (makeStrides shape) hp' hn (makeStrides_length _)
        simp only [indexStrided, h1, bind, Except.bind, pure, Except.pure, Except.ok.injEq, Prod.mk.injEq] at h
        obtain ⟨rfl, rfl, rfl⟩ := h
        obtain ⟨i1, i2⟩ := ih shape hp' hn _ _ _ h1
        refine ⟨⟨product shape, n, by omega, by omega, ?_, Int.dvd_refl _, ?_, i1⟩, ?_⟩
        · rw [product_cons]; push_cast; exact Int.dvd_refl _
        · rw [abs_of_pos (by omega : (0 : Int) < product shape)]
        · intro a ha
          rcases List.mem_cons.1 ha with rfl | ha
          · omega
          · exact i2 a ha

/-- The strides of a contiguous array form a chain. -/
theorem makeStrides_chain (shape : List Nat) (hp : PosShape shape) :
    Chain (product shape) (makeStrides shape) shape ∧ ∀ a ∈ makeStrides shape, a ≠ 0 := by
  induction shape with
  | nil => exact ⟨trivial, by simp [makeStrides]⟩
  | cons n shape ih =>
    obtain ⟨hn0, hp'⟩ := hp.cons
    obtain ⟨i1, i2⟩ := ih hp'
    have hpp : 0 < product shape := product_pos hp'
    rw [makeStrides_cons]
    refine ⟨⟨product shape, n, by omega, by omega, ?_, Int.dvd_refl _, ?_, i1⟩, ?_⟩
    · rw [product_cons]; push_cast; exact Int.dvd_refl _
    · rw [abs_of_pos (by omega : (0 : Int) < product shape)]
    · intro a ha
      rcases List.mem_cons.1 ha with rfl | ha
      · omega
      · exact i2 a ha

/-- `solve_index` inverts addressing for every chain of strides. -/
theorem solve_chain {P : Int} {st : List Int} {sh : List Nat} (hc : Chain P st sh)
    (hnz : ∀ a ∈ st, a ≠ 0) (hne : sh ≠ []) (x : List Int) (hx : InBox x sh) :
    solveIndex (address x st) sh st = .ok (some x) := by
  cases st with
  | nil => cases sh with
    | nil => exact absurd rfl hne
    | cons => exact hc.elim
  | cons a0 rest => cases sh with
    | nil => exact hc.elim
    | cons m0 ms =>
      obtain ⟨S, n, h1, _, _, h2, _, h3⟩ := hc
      exact solve_complete a0 rest m0 ms S h1 h2 (hnz a0 (by simp)) (fun a ha => hnz a (by simp [ha])) h3 x hx

/-- `solve_index` returns `some` only for a solution, and always returns for non-zero strides. -/
theorem solve_sound (st : List Int) (sh : List Nat) (hl : st.length = sh.length) (hne : sh ≠ [])
    (hnz : ∀ a ∈ st, a ≠ 0) (pos : Int) :
    solveIndex pos sh st = .ok none ∨
      ∃ x, solveIndex pos sh st = .ok (some x) ∧ InBox x sh ∧ address x st = pos := by
  cases st with
  | nil => cases sh with
    | nil => exact absurd rfl hne
    | cons => simp at hl
  | cons a0 rest =>
    have hl' : sh.length = rest.length + 1 := by simpa using hl.symm
    obtain ⟨data, h1, h2⟩ := goodData_of_ne a0 rest sh hl' hnz
    have e : solveIndex pos sh (a0 :: rest) = solveIndexData pos sh data := by
      simp only [solveIndex, h1, bind, Except.bind]
    rw [e]
    rcases solveIndexData_spec h2 hl' pos with ⟨_, h⟩ | ⟨hd, ⟨dt, _, h3, h4⟩ | ⟨_, h⟩⟩
    · exact .inl h
    · refine .inr ⟨_, h4, h3, ?_⟩
      rw [candidate_address h2]
      exact Int.mul_fdiv_cancel' hd
    · exact .inl h

end Gcs
