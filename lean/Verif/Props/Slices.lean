import Verif.Lemmas.Slice

/-!
# C01, C02, C03: reduction of slices
-/

namespace Gcs

open Spec

/-- C01.  `x[reduced(s, len(x))]` is `x[s]`, for every list and every slice with non-zero step. -/
theorem C01_reduced_selects_same {α : Type} (x : List α) (s : PySlice) (h : s.step ≠ some 0) :
    Spec.slice x (reduced s x.length).toPy = Spec.slice x s := by
  unfold Spec.slice
  rw [slicePositions_reduced s x.length h]

/-- C01, the other half: a zero step is reduced to the empty slice `slice(0, 0, 1)` (Python itself
raises `ValueError` for such a slice). -/
theorem C01_zero_step (start stop : Option Int) (n : Nat) :
    reduced ⟨start, stop, some 0⟩ n = ⟨0, 0, 1⟩ := reduced_zero_step start stop n

/-- The hypotheses of C01 are met by a slice with a negative step and bounds from the end. -/
example : (⟨some (-2), none, some (-3)⟩ : PySlice).step ≠ some 0 ∧
    Spec.slice [10, 11, 12, 13, 14, 15, 16] ⟨some (-2), none, some (-3)⟩ = [15, 12] ∧
    reduced ⟨some (-2), none, some (-3)⟩ 7 = ⟨-2, -8, -3⟩ := by decide

/-- C02.  `nitems` does not raise and is the number of selected positions; the `t`-th selected
position is `(r.start + t * r.step) % n`. -/
theorem C02_nitems (s : PySlice) (n : Nat) (h : s.step ≠ some 0) :
    nitems s n = .ok (slicePositions s n).length ∧
    ∀ t : Nat, t < (slicePositions s n).length →
      ((slicePositions s n)[t]?).map (fun (p : Nat) => (p : Int))
        = some (((reduced s n).start + t * (reduced s n).step).fmod n) := by
  refine ⟨(reduced_nitems s n h).1, fun t ht => ?_⟩
  obtain ⟨h1, h2, h3⟩ := (reduced_nitems s n h).2 t ht
  rw [h1, Option.map_some, Int.toNat_of_nonneg h2]
  congr 1
  have e : ((reduced s n).start + t * (reduced s n).step).fmod n
      = ((reduced s n).start.fmod n + t * (reduced s n).step).fmod n := by
    rw [Int.fmod_eq_emod_of_nonneg _ (by omega), Int.fmod_eq_emod_of_nonneg _ (by omega),
      Int.fmod_eq_emod_of_nonneg _ (by omega), Int.emod_add_emod]
  rw [e, Int.fmod_eq_of_lt h2 h3]

example : nitems ⟨some 100, some (-7), some (-2)⟩ 7 = .ok 3 ∧
    slicePositions ⟨some 100, some (-7), some (-2)⟩ 7 = [6, 4, 2] := by decide

/-- C03.  Reducing twice is reducing once. -/
theorem C03_idempotent (s : PySlice) (n : Nat) : reduced (reduced s n).toPy n = reduced s n :=
  reduced_idem s n

/-- C03.  The canonical form: `slice(0, 0, 1)` iff nothing is selected, otherwise the bounds are in
range for the sign of the step, and the step is not `0` and at most `n` in size. -/
theorem C03_canonical (s : PySlice) (n : Nat) (h : s.step ≠ some 0) :
    (slicePositions s n = [] ∧ reduced s n = ⟨0, 0, 1⟩) ∨
    (slicePositions s n ≠ [] ∧ 0 < (reduced s n).step ∧ (reduced s n).step ≤ n ∧
      0 ≤ (reduced s n).start ∧ (reduced s n).start < (reduced s n).stop ∧ (reduced s n).stop ≤ n) ∨
    (slicePositions s n ≠ [] ∧ (reduced s n).step < 0 ∧ -n ≤ (reduced s n).step ∧
      -n ≤ (reduced s n).start ∧ (reduced s n).start ≤ -1 ∧
      -n - 1 ≤ (reduced s n).stop ∧ (reduced s n).stop < (reduced s n).start) := by
  have hr := reduced_spec s n h
  generalize reduced s n = r at hr
  cases hr with
  | empty h => exact .inl ⟨h, rfl⟩
  | up i j k m h0 hij hj hk hkn hm h =>
    refine .inr (.inl ⟨?_, hk, hkn, h0, hij, hj⟩)
    rw [h]
    have : 0 < m := (hm 0).2 (by simpa using hij)
    simp; omega
  | down i j k m h0 hij hj hk hkn hm h =>
    refine .inr (.inr ⟨?_, hk, hkn, by simp only; omega, by simp only; omega, by simp only; omega, by simp only; omega⟩)
    rw [h]
    have : 0 < m := (hm 0).2 (by simpa using hij)
    simp; omega

example : reduced ⟨none, none, some (-100)⟩ 7 = ⟨-1, -8, -7⟩ ∧
    reduced ⟨some 5, some 2, none⟩ 7 = ⟨0, 0, 1⟩ := by decide

end Gcs
