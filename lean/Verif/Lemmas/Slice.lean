import Verif.Spec
import Verif.Lemmas.ListAux

/-! Facts on `reduced` and `nitems`. -/

namespace Gcs

open Spec

/-- The bounds that the Python rule gives for a positive step. -/
def upStart (s : PySlice) (n : Nat) : Int := (s.start.map (clampBound n 0 n)).getD 0
def upStop (s : PySlice) (n : Nat) : Int := (s.stop.map (clampBound n 0 n)).getD n
/-- The bounds that the Python rule gives for a negative step. -/
def downStart (s : PySlice) (n : Nat) : Int := (s.start.map (clampBound n (-1) (n - 1))).getD (n - 1)
def downStop (s : PySlice) (n : Nat) : Int := (s.stop.map (clampBound n (-1) (n - 1))).getD (-1)

theorem upStart_bounds (s : PySlice) (n : Nat) : 0 ≤ upStart s n ∧ upStart s n ≤ n := by
  unfold upStart clampBound
  cases s.start <;> simp <;> omega

theorem upStop_bounds (s : PySlice) (n : Nat) : 0 ≤ upStop s n ∧ upStop s n ≤ n := by
  unfold upStop clampBound
  cases s.stop <;> simp <;> omega

theorem downStart_bounds (s : PySlice) (n : Nat) : -1 ≤ downStart s n ∧ downStart s n < n := by
  unfold downStart clampBound
  cases s.start <;> simp <;> omega

theorem downStop_bounds (s : PySlice) (n : Nat) : -1 ≤ downStop s n ∧ downStop s n < n := by
  unfold downStop clampBound
  cases s.stop <;> simp <;> omega

theorem reduced_pos (s : PySlice) (n : Nat) (hk : 0 < s.step.getD 1) :
    reduced s n =
      if upStart s n < upStop s n then ⟨upStart s n, upStop s n, min (s.step.getD 1) n⟩
      else ⟨0, 0, 1⟩ := by
  have e1 : redStartUp n s.start = upStart s n := by
    unfold upStart clampBound redStartUp
    cases s.start with
    | none => simp
    | some a => simp only [Option.map_some, Option.getD_some]; split_ifs <;> omega
  have e2 : redStopUp n s.stop = upStop s n := by
    unfold upStop clampBound redStopUp
    cases s.stop with
    | none => simp
    | some a => simp only [Option.map_some, Option.getD_some]; split_ifs <;> omega
  have e3 : (if s.step.getD 1 > (n : Int) then (n : Int) else s.step.getD 1)
      = min (s.step.getD 1) n := by split_ifs <;> omega
  have b1 := upStart_bounds s n
  have b2 := upStop_bounds s n
  unfold reduced
  simp only [gt_iff_lt] at e3
  simp only [gt_iff_lt, hk, if_true, e1, e2, e3]
  by_cases hlt : upStart s n < upStop s n
  · have : ¬ ((upStop s n - upStart s n) * min (s.step.getD 1) n ≤ 0) := by
      have : 0 < (upStop s n - upStart s n) * min (s.step.getD 1) n := by
        apply Int.mul_pos <;> omega
      omega
    rw [if_neg this, if_pos hlt]
  · have : (upStop s n - upStart s n) * min (s.step.getD 1) n ≤ 0 := by
      apply Int.mul_nonpos_of_nonpos_of_nonneg <;> omega
    rw [if_pos this, if_neg hlt]

theorem reduced_neg (s : PySlice) (n : Nat) (hk : s.step.getD 1 ≤ 0) :
    reduced s n =
      if downStop s n < downStart s n ∧ s.step.getD 1 ≠ 0 then
        ⟨downStart s n - n, downStop s n - n, max (s.step.getD 1) (-n)⟩
      else ⟨0, 0, 1⟩ := by
  have b1 := downStart_bounds s n
  have b2 := downStop_bounds s n
  have e1 : redStartDown n s.start = downStart s n - n := by
    unfold downStart clampBound redStartDown
    cases s.start with
    | none => simp
    | some a => simp only [Option.map_some, Option.getD_some]; split_ifs <;> omega
  have e2 : redStopDown n s.stop = downStop s n - n := by
    unfold downStop clampBound redStopDown
    cases s.stop with
    | none => simp; omega
    | some a => simp only [Option.map_some, Option.getD_some]; split_ifs <;> omega
  have e3 : (if s.step.getD 1 < -(n : Int) then -(n : Int) else s.step.getD 1)
      = max (s.step.getD 1) (-n) := by split_ifs <;> omega
  unfold reduced
  have hk' : ¬ (0 < s.step.getD 1) := by omega
  simp only [gt_iff_lt, hk', if_false, e1, e2, e3]
  by_cases hlt : downStop s n < downStart s n ∧ s.step.getD 1 ≠ 0
  · have : ¬ ((downStop s n - n - (downStart s n - n)) * max (s.step.getD 1) (-n) ≤ 0) := by
      have : 0 < (downStop s n - n - (downStart s n - n)) * max (s.step.getD 1) (-n) := by
        apply Int.mul_pos_of_neg_of_neg <;> omega
      omega
    rw [if_neg this, if_pos hlt]
  · have : (downStop s n - n - (downStart s n - n)) * max (s.step.getD 1) (-n) ≤ 0 := by
      by_cases h0 : s.step.getD 1 = 0
      · rw [h0]; simp
      · apply Int.mul_nonpos_of_nonneg_of_nonpos <;> omega
    rw [if_pos this, if_neg hlt]

/-- The three shapes that the result of `reduced` can have, with what is selected. -/
inductive ReducedSpec (s : PySlice) (n : Nat) : RSlice → Prop
  | empty (h : slicePositions s n = []) : ReducedSpec s n ⟨0, 0, 1⟩
  | up (i j k : Int) (m : Nat) (h0 : 0 ≤ i) (hij : i < j) (hj : j ≤ n) (hk : 0 < k) (hkn : k ≤ n)
      (hm : ∀ t : Nat, t < m ↔ i + t * k < j)
      (h : slicePositions s n = (List.range m).map fun (t : Nat) => (i + t * k).toNat) :
      ReducedSpec s n ⟨i, j, k⟩
  | down (i j k : Int) (m : Nat) (h0 : i < n) (hij : j < i) (hj : -1 ≤ j) (hk : k < 0) (hkn : -n ≤ k)
      (hm : ∀ t : Nat, t < m ↔ j < i + t * k)
      (h : slicePositions s n = (List.range m).map fun (t : Nat) => (i + t * k).toNat) :
      ReducedSpec s n ⟨i - n, j - n, k⟩

theorem exists_count_up (i j k : Int) (hk : 0 < k) :
    ∀ t : Nat, t < ((j - i + k - 1).fdiv k).toNat ↔ i + t * k < j := by
  intro t
  rw [Int.fdiv_eq_ediv_of_nonneg _ (by omega), Int.lt_toNat]
  have : ((t : Int) < (j - i + k - 1) / k) ↔ ((t : Int) + 1) * k ≤ j - i + k - 1 := by
    rw [← Int.le_ediv_iff_mul_le hk]; omega
  rw [this]
  constructor
  · intro h; nlinarith
  · intro h; nlinarith

theorem exists_count_down (i j k : Int) (hk : k < 0) :
    ∀ t : Nat, t < ((j - i + k + 1).fdiv k).toNat ↔ j < i + t * k := by
  intro t
  have e : (j - i + k + 1).fdiv k = ((-j) - (-i) + (-k) - 1).fdiv (-k) := by
    rw [← Int.neg_fdiv_neg]; congr 1; omega
  rw [e, exists_count_up (-i) (-j) (-k) (by omega) t]
  constructor
  · intro h; nlinarith
  · intro h; nlinarith

theorem reduced_spec (s : PySlice) (n : Nat) (h : s.step ≠ some 0) :
    ReducedSpec s n (reduced s n) := by
  have hs0 : s.step.getD 1 ≠ 0 := by
    cases hs : s.step with
    | none => simp
    | some a => simp; rintro rfl; exact h hs
  have hpos_def : slicePositions s n =
      if 0 < s.step.getD 1 then
        (List.range n).filter fun (x : Nat) => upStart s n ≤ x ∧ (x : Int) < upStop s n ∧ s.step.getD 1 ∣ x - upStart s n
      else (List.range n).reverse.filter fun (x : Nat) => (x : Int) ≤ downStart s n ∧ downStop s n < x ∧ s.step.getD 1 ∣ x - downStart s n := rfl
  by_cases hk : 0 < s.step.getD 1
  · have b1 := upStart_bounds s n
    have b2 := upStop_bounds s n
    rw [reduced_pos s n hk]
    rw [if_pos hk] at hpos_def
    by_cases hlt : upStart s n < upStop s n
    · rw [if_pos hlt]
      by_cases hkn : s.step.getD 1 ≤ n
      · have : min (s.step.getD 1) (n : Int) = s.step.getD 1 := by omega
        rw [this]
        exact .up _ _ _ _ b1.1 hlt b2.2 hk hkn (exists_count_up _ _ _ hk)
          (hpos_def.trans (filter_range_ap n _ _ _ hk b1.1 b2.2 _ (exists_count_up _ _ _ hk)))
      · have : min (s.step.getD 1) (n : Int) = n := by omega
        rw [this]
        have hm : ∀ k : Int, (n : Int) ≤ k → ∀ t : Nat, t < 1 ↔ upStart s n + t * k < upStop s n := by
          intro k hk t
          constructor
          · intro ht
            have : t = 0 := by omega
            subst this; simpa using hlt
          · intro ht
            by_contra hcon
            have : (1 : Int) ≤ t := by omega
            have : k ≤ t * k := by nlinarith
            omega
        refine .up _ _ _ 1 b1.1 hlt b2.2 (by omega) (by omega) (hm _ (by omega)) ?_
        rw [hpos_def, filter_range_ap n _ _ _ hk b1.1 b2.2 1 (hm _ (by omega))]
        simp
    · rw [if_neg hlt]
      apply ReducedSpec.empty
      rw [hpos_def]
      apply List.filter_eq_nil_iff.2
      intro x _
      simp only [decide_eq_true_eq]
      omega
  · have hk' : s.step.getD 1 < 0 := by omega
    have b1 := downStart_bounds s n
    have b2 := downStop_bounds s n
    rw [reduced_neg s n (by omega)]
    rw [if_neg hk] at hpos_def
    by_cases hlt : downStop s n < downStart s n
    · rw [if_pos ⟨hlt, hs0⟩]
      by_cases hkn : -(n : Int) ≤ s.step.getD 1
      · have : max (s.step.getD 1) (-(n : Int)) = s.step.getD 1 := by omega
        rw [this]
        exact .down _ _ _ _ b1.2 hlt b2.1 hk' hkn (exists_count_down _ _ _ hk')
          (hpos_def.trans (filter_range_ap_neg n _ _ _ hk' b1.2 b2.1 _ (exists_count_down _ _ _ hk')))
      · have : max (s.step.getD 1) (-(n : Int)) = -n := by omega
        rw [this]
        have hm : ∀ k : Int, k ≤ -(n : Int) → ∀ t : Nat, t < 1 ↔ downStop s n < downStart s n + t * k := by
          intro k hk t
          constructor
          · intro ht
            have : t = 0 := by omega
            subst this; simpa using hlt
          · intro ht
            by_contra hcon
            have : (1 : Int) ≤ t := by omega
            have : t * k ≤ k := by nlinarith
            omega
        refine .down _ _ _ 1 b1.2 hlt b2.1 (by omega) (by omega) (hm _ (by omega)) ?_
        rw [hpos_def, filter_range_ap_neg n _ _ _ hk' b1.2 b2.1 1 (hm _ (by omega))]
        simp
    · rw [if_neg (by omega)]
      apply ReducedSpec.empty
      rw [hpos_def]
      apply List.filter_eq_nil_iff.2
      intro x _
      simp only [decide_eq_true_eq]
      omega

theorem nat_eq_of_lt_iff {a b : Nat} (h : ∀ t, t < a ↔ t < b) : a = b := by
  rcases Nat.lt_trichotomy a b with h1 | h1 | h1
  · exact absurd ((h a).2 h1) (by omega)
  · exact h1
  · exact absurd ((h b).1 h1) (by omega)

theorem nitemsR_up (i j k : Int) (hk : 0 < k) (hij : i < j) :
    nitemsR ⟨i, j, k⟩ = .ok ((j - i + k - 1).fdiv k).toNat := by
  have h1 : k.fdiv (k.natAbs : Int) = 1 := by
    rw [show ((k.natAbs : Nat) : Int) = k by omega]; exact Int.fdiv_self (by omega)
  have h2 : ¬ (((k.natAbs : Nat) : Int) = 0) := by omega
  simp only [nitemsR, pyDiv, h1, h2, if_false, show ¬ (j = i) by omega, show ¬ (k = 0) by omega]
  rfl

theorem nitemsR_down (i j k : Int) (hk : k < 0) (hij : j < i) :
    nitemsR ⟨i, j, k⟩ = .ok ((j - i + k + 1).fdiv k).toNat := by
  have h1 : k.fdiv (k.natAbs : Int) = -1 := by
    rw [show ((k.natAbs : Nat) : Int) = -k by omega, Int.fdiv_neg (by omega)]; simp [Int.fdiv_self (show k ≠ 0 by omega)]
  have h2 : ¬ (((k.natAbs : Nat) : Int) = 0) := by omega
  simp only [nitemsR, pyDiv, h1, h2, if_false, show ¬ (j = i) by omega, show ¬ (k = 0) by omega]
  show Except.ok _ = _
  congr 3
  
/-- The main fact: `nitems` succeeds with the number of selected positions, and the selected
positions are an arithmetic progression given by the reduced slice. -/
theorem reduced_nitems (s : PySlice) (n : Nat) (h : s.step ≠ some 0) :
    nitemsR (reduced s n) = .ok (slicePositions s n).length ∧
    ∀ t : Nat, t < (slicePositions s n).length →
      ((slicePositions s n)[t]? = some (((reduced s n).start.fmod n + t * (reduced s n).step).toNat)
        ∧ 0 ≤ (reduced s n).start.fmod n + t * (reduced s n).step
        ∧ (reduced s n).start.fmod n + t * (reduced s n).step < n) := by
  have hr := reduced_spec s n h
  generalize reduced s n = r at hr
  cases hr with
  | empty h => rw [h]; exact ⟨by rfl, by simp⟩
  | up i j k m h0 hij hj hk hkn hm h =>
    have hlen : (slicePositions s n).length = m := by rw [h]; simp
    have hmm : m = ((j - i + k - 1).fdiv k).toNat := nat_eq_of_lt_iff fun t => by
      rw [hm, exists_count_up i j k hk]
    have hf : i.fmod n = i := Int.fmod_eq_of_lt h0 (by omega)
    refine ⟨by rw [nitemsR_up i j k hk hij, hlen, hmm], ?_⟩
    intro t ht
    have htm : t < m := hlen ▸ ht
    have := (hm t).1 htm
    have h0 : 0 ≤ (t : Int) * k := by positivity
    simp only [hf]
    refine ⟨by rw [h]; simp [htm], by omega, by omega⟩
  | down i j k m h0 hij hj hk hkn hm h =>
    have hlen : (slicePositions s n).length = m := by rw [h]; simp
    have hmm : m = ((j - i + k + 1).fdiv k).toNat := nat_eq_of_lt_iff fun t => by
      rw [hm, exists_count_down i j k hk]
    have hf : (i - n).fmod n = i := by
      rw [Int.fmod_eq_emod_of_nonneg _ (by omega), Int.sub_emod_right, Int.emod_eq_of_lt (by omega) h0]
    refine ⟨?_, ?_⟩
    · rw [nitemsR_down (i - n) (j - n) k hk (by omega), hlen, hmm]
      congr 3; omega
    intro t ht
    have htm : t < m := hlen ▸ ht
    have := (hm t).1 htm
    have h0 : (t : Int) * k ≤ 0 := Int.mul_nonpos_of_nonneg_of_nonpos (by omega) (by omega)
    simp only [hf]
    refine ⟨by rw [h]; simp [htm], by omega, by omega⟩

end Gcs

namespace Gcs

open Spec

theorem reduced_zero_step (a b : Option Int) (n : Nat) : reduced ⟨a, b, some 0⟩ n = ⟨0, 0, 1⟩ := by
  rw [reduced_neg _ _ (by simp)]; simp

theorem reduced_001 (n : Nat) : reduced (RSlice.toPy ⟨0, 0, 1⟩) n = ⟨0, 0, 1⟩ := by
  rw [reduced_pos _ _ (by simp [RSlice.toPy])]
  simp [RSlice.toPy, upStart, upStop, clampBound]

theorem reduced_of_spec {s : PySlice} {n : Nat} {r : RSlice} (h : ReducedSpec s n r) :
    reduced r.toPy n = r := by
  cases h with
  | empty h => exact reduced_001 n
  | up i j k m h0 hij hj hk hkn hm h =>
    rw [reduced_pos _ _ (by simpa [RSlice.toPy] using hk)]
    have e1 : upStart (RSlice.toPy ⟨i, j, k⟩) n = i := by
      simp only [upStart, RSlice.toPy, clampBound, Option.map_some, Option.getD_some]
      split_ifs <;> omega
    have e2 : upStop (RSlice.toPy ⟨i, j, k⟩) n = j := by
      simp only [upStop, RSlice.toPy, clampBound, Option.map_some, Option.getD_some]
      split_ifs <;> omega
    rw [e1, e2, if_pos hij]
    simp [RSlice.toPy, hkn]
  | down i j k m h0 hij hj hk hkn hm h =>
    rw [reduced_neg _ _ (by simp [RSlice.toPy]; omega)]
    have e1 : downStart (RSlice.toPy ⟨i - n, j - n, k⟩) n = i := by
      simp only [downStart, RSlice.toPy, clampBound, Option.map_some, Option.getD_some]
      split_ifs <;> omega
    have e2 : downStop (RSlice.toPy ⟨i - n, j - n, k⟩) n = j := by
      simp only [downStop, RSlice.toPy, clampBound, Option.map_some, Option.getD_some]
      split_ifs <;> omega
    rw [e1, e2]
    have e3 : (RSlice.toPy ⟨i - n, j - n, k⟩).step.getD 1 = k := by simp [RSlice.toPy]
    rw [e3, if_pos ⟨hij, by omega⟩]
    simp [hkn]

theorem reduced_idem (s : PySlice) (n : Nat) : reduced (reduced s n).toPy n = reduced s n := by
  by_cases h : s.step = some 0
  · obtain ⟨a, b, c⟩ := s
    simp only at h
    subst h
    rw [reduced_zero_step, reduced_001]
  · exact reduced_of_spec (reduced_spec s n h)

theorem reduced_step_ne_zero (s : PySlice) (n : Nat) : (reduced s n).toPy.step ≠ some 0 := by
  by_cases h : s.step = some 0
  · obtain ⟨a, b, c⟩ := s
    simp only at h
    subst h
    rw [reduced_zero_step]; simp [RSlice.toPy]
  · have := reduced_spec s n h
    generalize reduced s n = r at this
    cases this <;> simp [RSlice.toPy] <;> omega

theorem slicePositions_reduced (s : PySlice) (n : Nat) (h : s.step ≠ some 0) :
    slicePositions (reduced s n).toPy n = slicePositions s n := by
  have h1 := reduced_nitems s n h
  have h2 := reduced_nitems (reduced s n).toPy n (reduced_step_ne_zero s n)
  rw [reduced_idem] at h2
  have hl : (slicePositions (reduced s n).toPy n).length = (slicePositions s n).length := by
    have := h2.1.symm.trans h1.1
    simpa using this
  apply List.ext_getElem? 
  intro t
  by_cases ht : t < (slicePositions s n).length
  · rw [(h1.2 t ht).1, (h2.2 t (by omega)).1]
  · rw [List.getElem?_eq_none (by omega), List.getElem?_eq_none (by omega)]

end Gcs
