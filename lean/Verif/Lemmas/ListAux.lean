import Mathlib.Data.List.Basic
import Mathlib.Data.List.Perm.Basic
import Mathlib.Data.List.Sort
import Mathlib.Tactic.Linarith
import Mathlib.Tactic.Ring

/-! General facts on lists used in several proofs. -/

namespace Gcs

theorem eq_of_pairwise_of_mem {l₁ l₂ : List Nat} (h₁ : l₁.Pairwise (· < ·)) (h₂ : l₂.Pairwise (· < ·))
    (h : ∀ x, x ∈ l₁ ↔ x ∈ l₂) : l₁ = l₂ := by
  have n₁ : l₁.Nodup := h₁.imp (fun hab => Nat.ne_of_lt hab)
  have n₂ : l₂.Nodup := h₂.imp (fun hab => Nat.ne_of_lt hab)
  exact ((List.perm_ext_iff_of_nodup n₁ n₂).2 h).eq_of_pairwise
    (fun a b _ _ h1 h2 => absurd h1 (Nat.lt_asymm h2)) h₁ h₂

/-- An arithmetic progression as a filter of a range. -/
theorem filter_range_ap (n : Nat) (i j k : Int) (hk : 0 < k) (hi : 0 ≤ i) (hj : j ≤ n) (m : Nat)
    (hm : ∀ t : Nat, t < m ↔ i + t * k < j) :
    ((List.range n).filter fun (x : Nat) => decide (i ≤ x ∧ (x : Int) < j ∧ k ∣ x - i))
      = (List.range m).map fun (t : Nat) => (i + t * k).toNat := by
  apply eq_of_pairwise_of_mem
  · exact List.Pairwise.filter _ List.pairwise_lt_range
  · rw [List.pairwise_map]
    refine List.pairwise_lt_range.imp ?_
    intro a b hab
    have : (a : Int) * k < b * k := by
      apply Int.mul_lt_mul_of_pos_right _ hk; exact_mod_cast hab
    have h0 : 0 ≤ (a : Int) * k := by positivity
    omega
  · intro x
    simp only [List.mem_filter, List.mem_range, decide_eq_true_eq, List.mem_map]
    constructor
    · rintro ⟨_, h1, h2, c, hc⟩
      have hc0 : 0 ≤ c := by
        by_contra hneg
        have : k * c < 0 := Int.mul_neg_of_pos_of_neg hk (by omega)
        omega
      refine ⟨c.toNat, ?_, ?_⟩
      · rw [hm]
        have : ((c.toNat : Nat) : Int) = c := Int.toNat_of_nonneg hc0
        rw [this]; rw [Int.mul_comm]; omega
      · have : ((c.toNat : Nat) : Int) = c := Int.toNat_of_nonneg hc0
        rw [this, Int.mul_comm]; omega
    · rintro ⟨t, ht, rfl⟩
      have h1 := (hm t).1 ht
      have h0 : 0 ≤ (t : Int) * k := by positivity
      have e : (((i + t * k).toNat : Nat) : Int) = i + t * k := Int.toNat_of_nonneg (by omega)
      refine ⟨by omega, by omega, by omega, ?_⟩
      rw [e]
      exact ⟨t, by ring⟩

/-- A decreasing arithmetic progression as a filter of a reversed range. -/
theorem filter_range_ap_neg (n : Nat) (i j k : Int) (hk : k < 0) (hi : i < n) (hj : -1 ≤ j) (m : Nat)
    (hm : ∀ t : Nat, t < m ↔ j < i + t * k) :
    ((List.range n).reverse.filter fun (x : Nat) => decide ((x : Int) ≤ i ∧ j < x ∧ k ∣ x - i))
      = (List.range m).map fun (t : Nat) => (i + t * k).toNat := by
  rw [List.filter_reverse, List.reverse_eq_iff]
  apply eq_of_pairwise_of_mem
  · exact List.Pairwise.filter _ List.pairwise_lt_range
  · rw [List.pairwise_reverse, List.pairwise_map]
    refine (List.pairwise_lt_range (n := m)).imp_of_mem ?_
    intro a b ha hb hab
    have hb' := (hm b).1 (List.mem_range.1 hb)
    have : (b : Int) * k < a * k := by
      apply Int.mul_lt_mul_of_neg_right _ hk; exact_mod_cast hab
    omega
  · intro x
    simp only [List.mem_filter, List.mem_range, decide_eq_true_eq, List.mem_map, List.mem_reverse]
    constructor
    · rintro ⟨_, h1, h2, c, hc⟩
      have hc0 : 0 ≤ c := by
        by_contra hneg
        have : 0 < k * c := Int.mul_pos_of_neg_of_neg hk (by omega)
        omega
      have e : ((c.toNat : Nat) : Int) = c := Int.toNat_of_nonneg hc0
      refine ⟨c.toNat, ?_, ?_⟩
      · rw [hm, e, Int.mul_comm]; omega
      · rw [e, Int.mul_comm]; omega
    · rintro ⟨t, ht, rfl⟩
      have h1 := (hm t).1 ht
      have h0 : (t : Int) * k ≤ 0 := Int.mul_nonpos_of_nonneg_of_nonpos (by omega) (by omega)
      have e : (((i + t * k).toNat : Nat) : Int) = i + t * k := Int.toNat_of_nonneg (by omega)
      refine ⟨by omega, by omega, by omega, ?_⟩
      rw [e]
      exact ⟨t, by ring⟩

end Gcs
