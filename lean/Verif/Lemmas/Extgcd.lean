import Verif.Model.SliceTools
import Mathlib.Tactic.Ring
import Mathlib.Tactic.Linarith
import Mathlib.Tactic.LinearCombination
import Mathlib.Algebra.Order.Ring.Int
import Mathlib.Algebra.Order.Ring.Abs
import Mathlib.Algebra.Ring.Divisibility.Basic
import Mathlib.Tactic.Positivity

/-!
# Facts about `extgcd`
-/

namespace Gcs

theorem extgcd_zero (b : Int) : extgcd 0 b = (b, 0, 1) := by
  rw [extgcd]; simp

theorem extgcd_ne (a b : Int) (h : a ≠ 0) :
    extgcd a b = ((extgcd (b.fmod a) a).1,
      (extgcd (b.fmod a) a).2.2 - b.fdiv a * (extgcd (b.fmod a) a).2.1,
      (extgcd (b.fmod a) a).2.1) := by
  rw [extgcd]; simp [h]

theorem natAbs_fmod_lt' (a b : Int) (h : a ≠ 0) : (b.fmod a).natAbs < a.natAbs := by
  rcases Int.lt_or_gt_of_ne h with h1 | h1
  · have e : b.fmod a = -((-b).fmod (-a)) := by rw [Int.neg_fmod_neg]; omega
    have := Int.fmod_lt_of_pos (-b) (show 0 < -a by omega)
    have := Int.fmod_nonneg_of_pos (-b) (show 0 < -a by omega)
    omega
  · have := Int.fmod_lt_of_pos b h1
    have := Int.fmod_nonneg_of_pos b h1
    omega

/-- Bezout, common divisor. -/
theorem extgcd_bezout (a b : Int) :
    (extgcd a b).1 = a * (extgcd a b).2.1 + b * (extgcd a b).2.2 ∧
      (extgcd a b).1 ∣ a ∧ (extgcd a b).1 ∣ b := by
  induction a, b using extgcd.induct with
  | case1 b => simp [extgcd_zero]
  | case2 a b h ih =>
    rw [extgcd_ne a b h]
    obtain ⟨h1, h2, h3⟩ := ih
    have hb : b = b.fmod a + a * b.fdiv a := (Int.fmod_add_mul_fdiv b a).symm
    refine ⟨?_, h3, ?_⟩
    · simp only
      generalize (extgcd (b.fmod a) a) = r at *
      have : b.fmod a = b - a * b.fdiv a := by omega
      rw [h1, this]; ring
    · have : (extgcd (b.fmod a) a).1 ∣ b.fmod a + a * b.fdiv a :=
        dvd_add h2 (dvd_mul_of_dvd_left h3 _)
      rwa [← hb] at this

theorem extgcd_natAbs (a b : Int) : (extgcd a b).1.natAbs = Int.gcd a b := by
  obtain ⟨h1, h2, h3⟩ := extgcd_bezout a b
  apply Nat.dvd_antisymm
  · exact Nat.dvd_gcd (Int.natAbs_dvd_natAbs.2 h2) (Int.natAbs_dvd_natAbs.2 h3)
  · have : (Int.gcd a b : Int) ∣ (extgcd a b).1 := by
      rw [h1]
      exact dvd_add (dvd_mul_of_dvd_left (Int.gcd_dvd_left _ _) _) (dvd_mul_of_dvd_left (Int.gcd_dvd_right _ _) _)
    simpa using Int.natAbs_dvd_natAbs.2 this

theorem fmod_sign (a b : Int) (h : a ≠ 0) : 0 ≤ a * b.fmod a := by
  rcases Int.lt_or_gt_of_ne h with h1 | h1
  · have e : b.fmod a = -((-b).fmod (-a)) := by rw [Int.neg_fmod_neg]; omega
    have := Int.fmod_nonneg_of_pos (-b) (show 0 < -a by omega)
    rw [e]
    nlinarith
  · have := Int.fmod_nonneg_of_pos b h1
    nlinarith

theorem extgcd_sign (a b : Int) (h : a ≠ 0) : 0 < a * (extgcd a b).1 := by
  induction a, b using extgcd.induct with
  | case1 b => exact absurd rfl h
  | case2 a b h ih =>
    rw [extgcd_ne a b h]
    simp only
    by_cases h0 : b.fmod a = 0
    · rw [h0, extgcd_zero]
      exact mul_self_pos.2 h
    · have ih := ih h0
      have hs := fmod_sign a b h
      have : a * b.fmod a ≠ 0 := mul_ne_zero h h0
      have hs : 0 < a * b.fmod a := by omega
      generalize (extgcd (b.fmod a) a).1 = g at *
      generalize b.fmod a = r at *
      rcases lt_trichotomy r 0 with hr | hr | hr
      · nlinarith [mul_pos hs ih, mul_self_pos.2 h0, show (a * r) * (r * g) = (r * r) * (a * g) by ring]
      · exact absurd hr h0
      · nlinarith [mul_pos hs ih, mul_self_pos.2 h0, show (a * r) * (r * g) = (r * r) * (a * g) by ring]

theorem extgcd_ne_zero (a b : Int) (h : a ≠ 0) : (extgcd a b).1 ≠ 0 := by
  have := extgcd_sign a b h
  intro h0; rw [h0] at this; simp at this

/-- If the first argument divides the second, the answer is immediate. -/
theorem extgcd_of_dvd (a b : Int) (h : a ≠ 0) (hd : a ∣ b) : extgcd a b = (a, 1, 0) := by
  rw [extgcd_ne a b h]
  have : b.fmod a = 0 := (Int.dvd_iff_fmod_eq_zero).1 hd
  rw [this, extgcd_zero]; simp

theorem abs_fmod_add (a b : Int) (h : 0 < a * b) (hlt : |a| < |b|) :
    |b| = |b.fmod a| + b.fdiv a * |a| ∧ 1 ≤ b.fdiv a := by
  have hb : b = b.fmod a + a * b.fdiv a := (Int.fmod_add_mul_fdiv b a).symm
  rcases lt_trichotomy a 0 with h1 | h1 | h1
  · have hb0 : b < 0 := by nlinarith
    have e : b.fmod a = -((-b).fmod (-a)) := by rw [Int.neg_fmod_neg]; omega
    have l1 := Int.fmod_lt_of_pos (-b) (show 0 < -a by omega)
    have l2 := Int.fmod_nonneg_of_pos (-b) (show 0 < -a by omega)
    rw [abs_of_neg h1, abs_of_neg hb0] at *
    rw [abs_of_nonpos (by omega)]
    refine ⟨by linarith, ?_⟩
    by_contra hc
    have : b.fdiv a ≤ 0 := by omega
    nlinarith
  · subst h1; simp at h
  · have hb0 : 0 < b := by nlinarith
    have l1 := Int.fmod_lt_of_pos b h1
    have l2 := Int.fmod_nonneg_of_pos b h1
    rw [abs_of_pos h1, abs_of_pos hb0] at *
    rw [abs_of_nonneg l2]
    refine ⟨by linarith, ?_⟩
    by_contra hc
    have : b.fdiv a ≤ 0 := by omega
    nlinarith

/-- Size of the Bezout coefficients, arguments of the same sign, the first one smaller. -/
theorem extgcd_bound_aux (a b : Int) (h : 0 < a * b) (hlt : |a| < |b|) :
    2 * (|(extgcd a b).2.1| * |(extgcd a b).1|) ≤ |b| ∧
      2 * (|(extgcd a b).2.2| * |(extgcd a b).1|) ≤ |a| := by
  induction a, b using extgcd.induct with
  | case1 b => simp at h
  | case2 a b h0 ih =>
    obtain ⟨hb, hq⟩ := abs_fmod_add a b h hlt
    have hapos : 0 < |a| := abs_pos.2 h0
    rw [extgcd_ne a b h0]
    by_cases hr : b.fmod a = 0
    · rw [hr] at hb ⊢
      simp only [extgcd_zero]
      simp at hb ⊢
      have : b.fdiv a ≠ 1 := by intro h1; rw [h1] at hb; omega
      have : 2 ≤ b.fdiv a := by omega
      nlinarith
    · have h1 : 0 < b.fmod a * a := by
        have := fmod_sign a b h0
        have h2 : a * b.fmod a ≠ 0 := mul_ne_zero h0 hr
        have : b.fmod a * a = a * b.fmod a := mul_comm _ _
        omega
      have h2 : |b.fmod a| < |a| := by
        have := natAbs_fmod_lt' a b h0
        rw [Int.abs_eq_natAbs, Int.abs_eq_natAbs]; omega
      obtain ⟨i1, i2⟩ := ih h1 h2
      refine ⟨?_, i1⟩
      simp only
      generalize (extgcd (b.fmod a) a) = r at *
      generalize b.fdiv a = q at *
      have : |r.2.2 - q * r.2.1| ≤ |r.2.2| + q * |r.2.1| := by
        calc |r.2.2 - q * r.2.1| ≤ |r.2.2| + |q * r.2.1| := abs_sub _ _
          _ = |r.2.2| + q * |r.2.1| := by rw [abs_mul, abs_of_pos (by omega : 0 < q)]
      have hg : 0 ≤ |r.1| := abs_nonneg _
      nlinarith [mul_le_mul_of_nonneg_right this hg]

/-- The second Bezout coefficient is at most half of `a / gcd`. -/
theorem extgcd_y_bound (a b : Int) (h : a ≠ 0) :
    2 * (|(extgcd a b).2.2| * |(extgcd a b).1|) ≤ |a| := by
  rw [extgcd_ne a b h]
  simp only
  by_cases hr : b.fmod a = 0
  · rw [hr, extgcd_zero]; simp
  · have h1 : 0 < b.fmod a * a := by
      have := fmod_sign a b h
      have h2 : a * b.fmod a ≠ 0 := mul_ne_zero h hr
      have : b.fmod a * a = a * b.fmod a := mul_comm _ _
      omega
    have h2 : |b.fmod a| < |a| := by
      have := natAbs_fmod_lt' a b h
      rw [Int.abs_eq_natAbs, Int.abs_eq_natAbs]; omega
    exact (extgcd_bound_aux _ _ h1 h2).1

/-- If `b` divides `a`, the second Bezout coefficient is `-1`, `0` or `1`. -/
theorem extgcd_y_of_dvd (a b : Int) (h : a ≠ 0) (hd : b ∣ a) : |(extgcd a b).2.2| ≤ 1 := by
  have hb0 : b ≠ 0 := by rintro rfl; exact h (zero_dvd_iff.1 hd)
  obtain ⟨m, hm⟩ := hd
  have hm0 : m ≠ 0 := by rintro rfl; simp at hm; exact h hm
  rw [extgcd_ne a b h]
  simp only
  by_cases hr : b.fmod a = 0
  · rw [hr, extgcd_zero]; simp
  · have hba : |b| < |a| := by
      rcases lt_or_ge |b| |a| with h1 | h1
      · exact h1
      · exfalso
        apply hr
        have hm1 : |m| = 1 := by
          rw [hm, abs_mul] at h1
          have : 0 < |b| := abs_pos.2 hb0
          have : 0 < |m| := abs_pos.2 hm0
          nlinarith
        have : a ∣ b := by
          rcases (abs_eq (by norm_num : (0 : Int) ≤ 1)).1 hm1 with h2 | h2
          · rw [hm, h2]; simp
          · rw [hm, h2]; simp
        exact (Int.dvd_iff_fmod_eq_zero).1 this
    have hmod : b.fmod a = b ∨ b.fmod a = b + a := by
      have hb : b = b.fmod a + a * b.fdiv a := (Int.fmod_add_mul_fdiv b a).symm
      have l1 := natAbs_fmod_lt' a b h
      have l2 := fmod_sign a b h
      have l1 : |b.fmod a| < |a| := by rw [Int.abs_eq_natAbs, Int.abs_eq_natAbs]; omega
      have l3 : b.fdiv a = 0 ∨ b.fdiv a = -1 := by
        rcases lt_trichotomy a 0 with h1 | h1 | h1
        · have : b.fmod a ≤ 0 := by nlinarith
          rw [abs_of_neg h1] at *
          rw [abs_of_nonpos this] at l1
          have := abs_lt.1 hba
          have : b.fdiv a < 1 := by nlinarith
          have : -2 < b.fdiv a := by nlinarith
          omega
        · exact absurd h1 h
        · have : 0 ≤ b.fmod a := by nlinarith
          rw [abs_of_pos h1] at *
          rw [abs_of_nonneg this] at l1
          have := abs_lt.1 hba
          have : b.fdiv a < 1 := by nlinarith
          have : -2 < b.fdiv a := by nlinarith
          omega
      rcases l3 with l3 | l3
      · left; rw [l3] at hb; omega
      · right; rw [l3] at hb; omega
    rcases hmod with h1 | h1
    · rw [h1, extgcd_of_dvd b a hb0 ⟨m, hm⟩]; simp
    · rw [h1]
      have hc0 : b + a ≠ 0 := by rw [← h1]; exact hr
      by_cases hd2 : b + a ∣ a
      · rw [extgcd_of_dvd _ a hc0 hd2]; simp
      · -- here `a fmod (b + a) = -b`
        have hs := fmod_sign a b h
        rw [h1] at hs
        have hlt : |b + a| < |a| := by
          have := natAbs_fmod_lt' a b h
          rw [h1] at this
          rw [Int.abs_eq_natAbs, Int.abs_eq_natAbs]; omega
        have hpos : 0 < (b + a) * a := by
          have : a * (b + a) ≠ 0 := mul_ne_zero h hc0
          have : (b + a) * a = a * (b + a) := mul_comm _ _
          omega
        -- `m ≤ -3`
        have e1 : (b + a) * a = b * b * ((1 + m) * m) := by rw [hm]; ring
        have hbb : 0 < b * b := mul_self_pos.2 hb0
        have hmm : 0 < (1 + m) * m := by
          rw [e1] at hpos
          exact (mul_pos_iff_of_pos_left hbb).1 hpos
        have hm1 : m < 0 := by
          by_contra hc
          have hm1 : 0 < m := by omega
          have h3 : |b + a| = |b| * (1 + m) := by
            rw [hm, show b + b * m = b * (1 + m) by ring, abs_mul, abs_of_pos (by omega : 0 < 1 + m)]
          have h4 : |a| = |b| * m := by rw [hm, abs_mul, abs_of_pos hm1]
          have : 0 < |b| := abs_pos.2 hb0
          rw [h3, h4] at hlt
          nlinarith
        have hm2 : m < -1 := by
          by_contra hc
          have : m = -1 := by omega
          rw [this] at hmm; simp at hmm
        have hm3 : m ≠ -2 := by
          rintro rfl
          apply hd2
          rw [hm]
          exact ⟨2, by ring⟩
        have hfm : a.fmod (b + a) = -b := by
          have hq : a = (-b) + (b + a) * 1 := by ring
          have h5 : a.fmod (b + a) = (-b).fmod (b + a) := by
            have := Int.add_mul_fmod_self_left (-b) (b + a) 1
            rwa [← hq] at this
          rw [h5]
          rcases lt_trichotomy b 0 with hb1 | hb1 | hb1
          · apply Int.fmod_eq_of_lt (by omega)
            rw [hm]; nlinarith [mul_pos_of_neg_of_neg hb1 (by omega : m + 2 < 0)]
          · exact absurd hb1 hb0
          · rw [← Int.neg_neg (b + a), ← Int.neg_neg b, Int.neg_neg (-b), Int.neg_fmod_neg]
            congr 1
            rw [Int.fmod_eq_of_lt (by omega)]
            rw [hm]; nlinarith [mul_neg_of_pos_of_neg hb1 (by omega : m + 2 < 0)]
        have hfd : a.fdiv (b + a) = 1 := by
          have := Int.fmod_add_mul_fdiv a (b + a)
          rw [hfm] at this
          have h6 : (b + a) * (a.fdiv (b + a) - 1) = 0 := by linarith
          rcases mul_eq_zero.1 h6 with h7 | h7
          · exact absurd h7 hc0
          · omega
        rw [extgcd_ne _ a hc0, hfm, hfd]
        have : -b ∣ b + a := by rw [hm]; exact ⟨-(1 + m), by ring⟩
        rw [extgcd_of_dvd (-b) (b + a) (by omega) this]
        simp

end Gcs
