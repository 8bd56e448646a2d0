import Verif.Lemmas.Solve

/-!
# The last item of an index found by `solve_index`
-/

namespace Gcs

open Spec

/-- The only non-zero item in the last row of the kernel matrix. -/
def dioLast : Int → List Int → Int
  | a0, [] => a0
  | a0, [a1] => a0.fdiv (extgcd a0 a1).1
  | a0, a1 :: a2 :: rest => dioLast (extgcd a0 a1).1 (a2 :: rest)

theorem dioLast_pos (a0 : Int) (rest : List Int) (h0 : a0 ≠ 0) (hr : rest ≠ []) : 0 < dioLast a0 rest := by
  induction rest generalizing a0 with
  | nil => exact absurd rfl hr
  | cons a1 rest ih =>
    have hs := extgcd_sign a0 a1 h0
    have hg : (extgcd a0 a1).1 ≠ 0 := by intro h; rw [h] at hs; simp at hs
    cases rest with
    | nil =>
      simp only [dioLast]
      have e := (extgcd_level a0 a1 hg).1
      generalize (extgcd a0 a1).1 = g at *
      generalize a0.fdiv g = q at *
      subst e
      have : 0 < g * g * q := by linarith
      exact (pos_iff_pos_of_mul_pos this).1 (by have := mul_self_pos.2 hg; exact this)
    | cons a2 rest => exact ih _ hg (by simp)

theorem lin_last {R : Type} [CommRing R] (a0 : Int) (rest : List Int) (hr : rest ≠ []) (t : Nat → R) :
    lin (dioCols a0 rest) t rest.length = (dioLast a0 rest : R) * t (rest.length - 1) := by
  induction rest generalizing a0 t with
  | nil => exact absurd rfl hr
  | cons a1 rest ih =>
    cases rest with
    | nil =>
      have := (lin_dioCols_cons a0 a1 [] t).2.1
      simp only [List.length_cons, List.length_nil, dioLast]
      rw [this]
      simp [dioCols, lin]
    | cons a2 rest =>
      have := (lin_dioCols_cons a0 a1 (a2 :: rest) t).2.2 rest.length
      simp only [List.length_cons, dioLast] at *
      rw [this, ih _ (by simp)]
      congr 2

/-- The corner of the box that `solve_index` starts from, and the rounding of its coordinates. -/
theorem kq_floor {a0 : Int} {rest : List Int} {m0 : Nat} {ms : List Nat} {data : DioData}
    (hg : GoodData a0 rest (m0 :: ms) data) (h0 : a0 ≠ 0) (k : Int) :
    ∃ u : Nat → ℚ,
      (∀ i < rest.length, ((ms.getD i 0 : Nat) : ℚ) - 1
        = k * ((dioZ0 a0 rest).getD (i + 1) 0 : Int) + lin (dioCols a0 rest) u (i + 1)) ∧
      ∀ j < rest.length, (kq k data j : ℚ) ≤ u j ∧ u j < kq k data j + 1 := by
  have haq : (a0 : ℚ) ≠ 0 := by exact_mod_cast h0
  let X : Nat → ℚ := fun i => if i = 0 then
      ((dioD a0 rest : ℚ) * k - dotF rest fun i => (((ms.getD i 0 : Nat) : ℚ) - 1)) / a0
    else ((ms.getD (i - 1) 0 : Nat) : ℚ) - 1
  obtain ⟨u, hu⟩ := lin_complete (R := ℚ) a0 rest hg.ok hg.d_ne X (k : ℚ) (by
    simp only [dotF, X, if_true, Nat.add_eq_zero_iff, one_ne_zero, and_false, if_false, Nat.add_sub_cancel]
    rw [mul_div_cancel₀ _ haq]
    ring)
  refine ⟨u, ?_, ?_⟩
  · intro i hi
    have := hu (i + 1) (by omega)
    simpa only [X, Nat.add_eq_zero_iff, one_ne_zero, and_false, if_false, Nat.add_sub_cancel] using this
  · intro j hj
    have hD := hg.D_pos j hj
    let v : Nat → ℚ := fun c =>
      if c < rest.length then u c
      else if c < 2 * rest.length + 1 then -X (c - rest.length)
      else if c = 2 * rest.length + 1 then X 0 - ((m0 : ℚ) - 1)
      else if c = 2 * rest.length + 2 then -(k : ℚ)
      else -1
    have hv2N : v (2 * (rest.length + 1)) = -(k : ℚ) := by
      simp only [v]
      rw [if_neg (by omega), if_neg (by omega), if_neg (by omega), if_pos (by omega)]
    have hv2N1 : v (2 * (rest.length + 1) + 1) = -1 := by
      simp only [v]
      rw [if_neg (by omega), if_neg (by omega), if_neg (by omega), if_neg (by omega)]
    have hv2N0 : v (2 * (rest.length + 1) - 1) = X 0 - ((m0 : ℚ) - 1) := by
      simp only [v]
      rw [if_neg (by omega), if_neg (by omega), if_pos (by omega)]
    have hv : Kills (dioMatrix (rest.length + 1) rest.length (dioCols a0 rest) (dioZ0 a0 rest)
        (some (m0 :: ms))) (2 * (rest.length + 1)) v := by
      have hlv : ∀ r, lin (dioCols a0 rest) v r = lin (dioCols a0 rest) u r := by
        intro r
        apply lin_congr
        intro c hc
        rw [dioCols_length] at hc
        simp [v, hc]
      intro c hc
      rcases lt_or_ge c (rest.length + 1) with h1 | h1
      · rw [dioMatrix_row_lo _ _ _ _ _ _ h1, dotF_rowLo _ _ _ _ _ _ rfl (dioCols_length a0 rest) h1, hlv,
          hv2N]
        have : v (rest.length + c) = -X c := by
          simp [v, show rest.length + c < 2 * rest.length + 1 by omega]
        rw [this, hu c h1]; ring
      · obtain ⟨r, rfl⟩ : ∃ r, c = rest.length + 1 + r := ⟨c - (rest.length + 1), by omega⟩
        have hr : r < rest.length + 1 := by omega
        rw [dioMatrix_row_hi _ _ _ _ _ _ hr, dotF_rowHi _ _ _ _ _ _ rfl (dioCols_length a0 rest) hr, hlv,
          hv2N, hv2N1, hv2N0]
        have hur := hu r hr
        cases r with
        | zero =>
          simp only [if_true, List.getD_cons_zero]
          linear_combination hur
        | succ r =>
          simp only [X, Nat.add_eq_zero_iff, one_ne_zero, and_false, if_false, Nat.add_sub_cancel] at hur
          simp only [Nat.add_eq_zero_iff, one_ne_zero, and_false, if_false, List.getD_cons_succ]
          linear_combination hur
    have hrest : rest ≠ [] := by rintro rfl; simp at hj
    have hs := hg.sol hrest v hv j hj
    have hvj : v j = u j := by simp [v, hj]
    rw [hvj, hv2N, hv2N1] at hs
    generalize hDj : data.D.getD j 0 = D at *
    generalize hbj : data.b.getD j 0 = b at *
    generalize hsj : (data.s.getD []).getD j 0 = s at *
    have hDq : (0 : ℚ) < D := by exact_mod_cast hD
    have hnum : (D : ℚ) * u j = ((b * k + s : Int) : ℚ) := by push_cast; linarith
    have hkq : kq k data j = (b * k + s).fdiv D := by simp only [kq, hDj, hbj, hsj]
    have hfm := Int.fmod_add_mul_fdiv (b * k + s) D
    have f1 := Int.fmod_nonneg_of_pos (b * k + s) hD
    have f2 := Int.fmod_lt_of_pos (b * k + s) hD
    rw [hkq]
    generalize (b * k + s).fdiv D = q at *
    generalize (b * k + s).fmod D = r at *
    have g1 : ((b * k + s : Int) : ℚ) = (r : ℚ) + D * q := by exact_mod_cast congrArg (Int.cast (R := ℚ)) hfm.symm
    have f1q : (0 : ℚ) ≤ r := by exact_mod_cast f1
    have f2q : (r : ℚ) < D := by exact_mod_cast f2
    constructor <;> nlinarith

/-- The solutions with a last item below the last size are those with a last coefficient up to the
rounded one. -/
theorem last_coeff {a0 : Int} {rest : List Int} {m0 : Nat} {ms : List Nat} {data : DioData}
    (hg : GoodData a0 rest (m0 :: ms) data) (h0 : a0 ≠ 0) (hr : rest ≠ []) (k t : Int) :
    k * (dioZ0 a0 rest).getD rest.length 0 + dioLast a0 rest * t < (ms.getD (rest.length - 1) 0 : Nat) ↔
      t ≤ kq k data (rest.length - 1) := by
  have hlen : 0 < rest.length := List.length_pos_iff.2 hr
  obtain ⟨u, h1, h2⟩ := kq_floor hg h0 k
  have h1 := h1 (rest.length - 1) (by omega)
  obtain ⟨h2, h3⟩ := h2 (rest.length - 1) (by omega)
  rw [Nat.sub_add_cancel (by omega), lin_last _ _ hr] at h1
  have he := dioLast_pos a0 rest h0 hr
  have heq : (0 : ℚ) < dioLast a0 rest := by exact_mod_cast he
  generalize dioLast a0 rest = e at *
  generalize (dioZ0 a0 rest).getD rest.length 0 = z at *
  generalize ms.getD (rest.length - 1) 0 = m at *
  generalize kq k data (rest.length - 1) = q at *
  generalize u (rest.length - 1) = w at *
  constructor
  · intro h
    have h' : k * z + e * t ≤ (m : Int) - 1 := by omega
    have h'' : (k : ℚ) * z + e * t ≤ (m : ℚ) - 1 := by exact_mod_cast h'
    have : (t : ℚ) ≤ w := by
      by_contra hc
      push Not at hc
      nlinarith
    have : (t : ℚ) < q + 1 := by linarith
    have : t < q + 1 := by exact_mod_cast this
    omega
  · intro h
    have hq : (t : ℚ) ≤ q := by exact_mod_cast h
    have : (k : ℚ) * z + e * t ≤ (m : ℚ) - 1 := by nlinarith
    have : k * z + e * t ≤ (m : Int) - 1 := by exact_mod_cast this
    omega

end Gcs
