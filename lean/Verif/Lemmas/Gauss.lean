import Verif.Lemmas.Dio
import Mathlib.Algebra.Order.Field.Rat
import Mathlib.Algebra.Order.Field.Basic

/-!
# The integral Gauss elimination of `init_diophantine`
-/

namespace Gcs

/-- Entry of a matrix. -/
def ent (A : List (List Int)) (k c : Nat) : Int := (A.getD k []).getD c 0

/-- Row `k` of `A` applied to `v` is zero for `k < K`. -/
def Kills (A : List (List Int)) (K : Nat) (v : Nat → ℚ) : Prop :=
  ∀ k < K, dotF (A.getD k []) v = 0

/-- The matrix after a step. -/
def stepped (A : List (List Int)) (i : Nat) : List (List Int) :=
  A.mapIdx fun k rk =>
    if k = i then rk
    else if rk.getD i 0 ≠ 0 then
      List.zipWith (fun x y => x * rk.getD i 0 - y * ent A i i) (A.getD i []) rk
    else rk

def Rect (A : List (List Int)) (R m : Nat) : Prop := A.length = R ∧ ∀ r ∈ A, r.length = m

theorem Rect.row {A : List (List Int)} {R m : Nat} (h : Rect A R m) {k : Nat} (hk : k < R) :
    (A.getD k []).length = m := by
  obtain ⟨h1, h2⟩ := h
  subst h1
  rw [List.getD_eq_getElem?_getD, List.getElem?_eq_getElem hk]
  exact h2 _ (List.getElem_mem hk)

theorem getD_zipWith (f : Int → Int → Int) (hf : f 0 0 = 0) (x y : List Int) (h : x.length = y.length) (i : Nat) :
    (List.zipWith f x y).getD i 0 = f (x.getD i 0) (y.getD i 0) := by
  induction x generalizing y i with
  | nil => cases y with
    | nil => simp [hf]
    | cons => simp at h
  | cons x0 x ih => cases y with
    | nil => simp at h
    | cons y0 y =>
      cases i with
      | zero => simp
      | succ i => simpa using ih y (by simpa using h) i

theorem stepped_row (A : List (List Int)) (i : Nat) {R m : Nat} (hA : Rect A R m) (k : Nat) (hk : k < R) :
    (stepped A i).getD k [] = if k = i then A.getD k []
      else if ent A k i ≠ 0 then
        List.zipWith (fun x y => x * ent A k i - y * ent A i i) (A.getD i []) (A.getD k [])
      else A.getD k [] := by
  have hk' : k < A.length := by rw [hA.1]; exact hk
  simp only [stepped, ent, List.getD_eq_getElem?_getD, List.getElem?_mapIdx, List.getElem?_eq_getElem hk',
    Option.map_some, Option.getD_some]

theorem stepped_rect (A : List (List Int)) (i : Nat) {R m : Nat} (hA : Rect A R m) (hi : i < R) :
    Rect (stepped A i) R m := by
  have hl : (stepped A i).length = R := by simp [stepped, hA.1]
  refine ⟨hl, ?_⟩
  intro r hr
  obtain ⟨k, hk, rfl⟩ := List.getElem_of_mem hr
  have hk' : k < R := by omega
  have := stepped_row A i hA k hk'
  rw [List.getD_eq_getElem?_getD, List.getElem?_eq_getElem hk, Option.getD_some] at this
  rw [this]
  split
  · exact hA.row hk'
  · split
    · rw [List.length_zipWith, hA.row hk', hA.row hi, min_self]
    · exact hA.row hk'

theorem stepped_ent (A : List (List Int)) (i : Nat) {R m : Nat} (hA : Rect A R m) (hi : i < R) (k c : Nat)
    (hk : k < R) :
    ent (stepped A i) k c = if k = i then ent A k c
      else if ent A k i ≠ 0 then ent A i c * ent A k i - ent A k c * ent A i i else ent A k c := by
  conv_lhs => rw [ent]
  rw [stepped_row A i hA k hk]
  split
  · rfl
  · split
    · rw [getD_zipWith _ (by simp) _ _ (by rw [hA.row hi, hA.row hk])]; rfl
    · rfl

theorem dotF_zipWith (r s : List Int) (h : r.length = s.length) (a b : Int) (v : Nat → ℚ) :
    dotF (List.zipWith (fun x y => x * a - y * b) r s) v = a * dotF r v - b * dotF s v := by
  induction r generalizing s v with
  | nil => cases s with
    | nil => simp [dotF]
    | cons => simp at h
  | cons r0 r ih => cases s with
    | nil => simp at h
    | cons s0 s =>
      simp only [List.zipWith_cons_cons, dotF]
      rw [ih s (by simpa using h)]
      push_cast; ring

theorem gaussStep_ok (A : List (List Int)) (i : Nat) {R m : Nat} (hA : Rect A R m) (hi : i < R)
    (hp : ent A i i ≠ 0) : gaussStep A i = .ok (stepped A i) := by
  have e : (A.mapIdx fun k rk =>
      if k = i then rk
      else
        if rk.getD i 0 ≠ 0 then
          List.zipWith (fun x y => x * rk.getD i 0 - y * (A.getD i []).getD i 0) (A.getD i []) rk
        else rk) = stepped A i := rfl
  unfold gaussStep
  simp only
  rw [e]
  have h1 : (decide ((A.getD i []).getD i 0 ≠ 0)) = true := by simpa [ent] using hp
  have h2 : ((List.range (stepped A i).length).all fun k =>
      k = i || ((stepped A i).getD k []).getD i 0 = 0) = true := by
    rw [List.all_eq_true]
    intro k hk
    have hk : k < R := by
      have := List.mem_range.1 hk
      rwa [(stepped_rect A i hA hi).1] at this
    by_cases hki : k = i
    · simp [hki]
    · have : ent (stepped A i) k i = 0 := by
        rw [stepped_ent A i hA hi k i hk]
        simp only [hki, if_false]
        split
        · ring
        · rename_i h; simpa using h
      simp only [ent] at this
      rw [this]; simp
  rw [h1, h2]
  rfl

theorem gaussStep_pivot (A A' : List (List Int)) (i : Nat) (h : gaussStep A i = .ok A') :
    ent A i i ≠ 0 := by
  intro h0
  unfold gaussStep at h
  have h1 : (decide ((A.getD i []).getD i 0 ≠ 0)) = false := by simpa [ent] using h0
  simp only at h
  rw [h1] at h
  simp [pyAssert, bind, Except.bind] at h

/-- What the first `i` steps have established. -/
structure GInv (A0 A : List (List Int)) (R m i : Nat) : Prop where
  rect : Rect A R m
  diag : ∀ c < i, ent A c c ≠ 0
  zero : ∀ c < i, ∀ k < R, k ≠ c → ent A k c = 0
  kills : ∀ K, i ≤ K → K ≤ R → ∀ v, Kills A0 K v ↔ Kills A K v

theorem GInv.init (A0 : List (List Int)) (R m : Nat) (h : Rect A0 R m) : GInv A0 A0 R m 0 :=
  ⟨h, by simp, by simp, fun _ _ _ _ => Iff.rfl⟩

theorem GInv.step {A0 A : List (List Int)} {R m i : Nat} (h : GInv A0 A R m i) (hi : i < R)
    (hp : ent A i i ≠ 0) : GInv A0 (stepped A i) R m (i + 1) := by
  refine ⟨stepped_rect A i h.rect hi, ?_, ?_, ?_⟩
  · intro c hc
    rw [stepped_ent A i h.rect hi c c (by omega)]
    by_cases hci : c = i
    · simpa [hci] using hp
    · simp only [hci, if_false]
      split
      · rw [h.zero c (by omega) i hi (by omega), zero_mul, zero_sub]
        exact neg_ne_zero.2 (mul_ne_zero (h.diag c (by omega)) hp)
      · exact h.diag c (by omega)
  · intro c hc k hk hkc
    rw [stepped_ent A i h.rect hi k c hk]
    by_cases hci : c = i
    · subst hci
      simp only [hkc, if_false]
      split
      · ring
      · rename_i h'; simpa using h'
    · have z1 := h.zero c (by omega) k hk hkc
      have z2 := h.zero c (by omega) i hi (by omega)
      rw [z1, z2]; simp
  · intro K h1 h2 v
    rw [h.kills K (by omega) h2 v]
    constructor
    · intro hk k hkK
      rw [stepped_row A i h.rect k (by omega)]
      split
      · exact hk k hkK
      · split
        · rw [dotF_zipWith _ _ (by rw [h.rect.row hi, h.rect.row (by omega)]), hk k hkK, hk i (by omega)]
          simp
        · exact hk k hkK
    · intro hk k hkK
      have hki := hk i (by omega)
      rw [stepped_row A i h.rect i hi] at hki
      simp only [if_true] at hki
      have hkk := hk k hkK
      rw [stepped_row A i h.rect k (by omega)] at hkk
      split at hkk
      · exact hkk
      · split at hkk
        · rw [dotF_zipWith _ _ (by rw [h.rect.row hi, h.rect.row (by omega)]), hki] at hkk
          have : (ent A i i : ℚ) ≠ 0 := by exact_mod_cast hp
          simp only [mul_zero, zero_sub, neg_eq_zero, mul_eq_zero] at hkk
          exact hkk.resolve_left this
        · exact hkk

/-- The leading blocks of the matrix are non-singular (in the form used below). -/
def Regular (A : List (List Int)) (i : Nat) : Prop :=
  ∀ v : Nat → ℚ, (∀ c, i < c → v c = 0) → Kills A (i + 1) v → v i = 0

theorem GInv.pivot {A0 A : List (List Int)} {R m i : Nat} (h : GInv A0 A R m i) (hi : i < R) (him : i < m)
    (hr : Regular A0 i) : ent A i i ≠ 0 := by
  intro h0
  let v : Nat → ℚ := fun c => if c < i then -(ent A c i : ℚ) / ent A c c else if c = i then 1 else 0
  have hv : v i = 0 := by
    apply hr v
    · intro c hc
      simp [v, show ¬ c < i by omega, show c ≠ i by omega]
    · rw [h.kills (i + 1) (by omega) (by omega)]
      intro k hk
      have hkR : k < R := by omega
      rw [dotF_eq_sum, h.rect.row hkR]
      change ∑ c ∈ Finset.range m, ((ent A k c : Int) : ℚ) * v c = 0
      by_cases hki : k = i
      · subst hki
        apply Finset.sum_eq_zero
        intro c _
        rcases lt_trichotomy c k with hc | hc | hc
        · rw [h.zero c hc k hi (by omega)]; simp
        · subst hc; rw [h0]; simp
        · simp [v, show ¬ c < k by omega, show c ≠ k by omega]
      · have hki' : k < i := by omega
        rw [Finset.sum_eq_add_of_mem k i (by simp; omega) (by simpa using him) hki]
        · have : (ent A k k : ℚ) ≠ 0 := by exact_mod_cast h.diag k hki'
          simp only [v, hki', if_true, lt_irrefl, if_false]
          field_simp
          ring
        · intro c _ ⟨hc1, hc2⟩
          rcases lt_or_ge c i with hc | hc
          · rw [h.zero c hc k hkR (Ne.symm hc1)]; simp
          · simp [v, show ¬ c < i by omega, hc2]
  simp [v] at hv

theorem gaussLoop_regular {A0 A : List (List Int)} {R m : Nat} (k i : Nat) (h : GInv A0 A R m i)
    (hk : i + k ≤ R) (hm : R ≤ m) (hr : ∀ j < R, Regular A0 j) :
    ∃ A', gaussLoop A (List.range' i k) = .ok A' ∧ GInv A0 A' R m (i + k) := by
  induction k generalizing A i with
  | zero => exact ⟨A, rfl, h⟩
  | succ k ih =>
    have hp := h.pivot (by omega) (by omega) (hr i (by omega))
    obtain ⟨A', h1, h2⟩ := ih (i + 1) (h.step (by omega) hp) (by omega)
    refine ⟨A', ?_, ?_⟩
    · rw [List.range'_succ]
      simp only [gaussLoop, gaussStep_ok A i h.rect (by omega) hp, bind, Except.bind, h1]
    · rwa [show i + (k + 1) = i + 1 + k by omega]

theorem gaussLoop_inv {A0 A : List (List Int)} {R m : Nat} (k i : Nat) (h : GInv A0 A R m i)
    (hk : i + k ≤ R) (A' : List (List Int)) (hA' : gaussLoop A (List.range' i k) = .ok A') :
    GInv A0 A' R m (i + k) := by
  induction k generalizing A i with
  | zero =>
    simp only [List.range'_zero, gaussLoop, pure, Except.pure, Except.ok.injEq] at hA'
    subst hA'; exact h
  | succ k ih =>
    rw [List.range'_succ] at hA'
    simp only [gaussLoop, bind, Except.bind] at hA'
    cases hs : gaussStep A i with
    | error e => rw [hs] at hA'; simp at hA'
    | ok A1 =>
      have hp := gaussStep_pivot A A1 i hs
      rw [gaussStep_ok A i h.rect (by omega) hp] at hs
      simp only [Except.ok.injEq] at hs
      subst hs
      rw [gaussStep_ok A i h.rect (by omega) hp] at hA'
      rw [show i + (k + 1) = i + 1 + k by omega]
      exact ih (i + 1) (h.step (by omega) hp) (by omega) hA'

/-- If the elimination passes step `i`, only the zero vector is killed by the leading block. -/
theorem gaussLoop_singular {A0 : List (List Int)} {R m : Nat} (h0 : Rect A0 R m) (i : Nat) (hi : i < R)
    (hm : R ≤ m) (A' : List (List Int)) (hA' : gaussLoop A0 (List.range R) = .ok A')
    (v : Nat → ℚ) (hv : ∀ c, i < c → v c = 0) (hk : Kills A0 (i + 1) v) : ∀ c, v c = 0 := by
  have hsplit : ∀ (l1 l2 : List Nat) (A A' : List (List Int)), gaussLoop A (l1 ++ l2) = .ok A' →
      ∃ A1, gaussLoop A l1 = .ok A1 := by
    intro l1
    induction l1 with
    | nil => intro l2 A A' _; exact ⟨A, rfl⟩
    | cons x l1 ih =>
      intro l2 A A' h
      simp only [List.cons_append, gaussLoop, bind, Except.bind] at h ⊢
      cases hs : gaussStep A x with
      | error e => rw [hs] at h; simp at h
      | ok A1 =>
        rw [hs] at h
        exact ih l2 A1 A' h
  have hr : List.range R = List.range' 0 (i + 1) ++ List.range' (i + 1) (R - (i + 1)) := by
    rw [List.range_eq_range']
    have := List.range'_append_1 (s := 0) (m := i + 1) (n := R - (i + 1))
    rw [Nat.zero_add] at this
    rw [this]
    congr 1
    omega
  rw [hr] at hA'
  obtain ⟨A1, hA1⟩ := hsplit _ _ _ _ hA'
  have hinv := gaussLoop_inv (i + 1) 0 (GInv.init A0 R m h0) (by omega) A1 hA1
  rw [Nat.zero_add] at hinv
  have hk1 := (hinv.kills (i + 1) (le_refl _) (by omega) v).1 hk
  intro c
  by_cases hc : i < c
  · exact hv c hc
  · have := hk1 c (by omega)
    rw [dotF_eq_sum, hinv.rect.row (by omega : c < R)] at this
    change ∑ c' ∈ Finset.range m, ((ent A1 c c' : Int) : ℚ) * v c' = 0 at this
    rw [Finset.sum_eq_single c] at this
    · have hd : (ent A1 c c : ℚ) ≠ 0 := by exact_mod_cast hinv.diag c (by omega)
      exact (mul_eq_zero.1 this).resolve_left hd
    · intro c' _ hcc
      rcases lt_or_ge i c' with h1 | h1
      · rw [hv c' h1]; simp
      · rw [hinv.zero c' (by omega) c (by omega) (Ne.symm hcc)]; simp
    · intro h1; exact absurd (Finset.mem_range.2 (by omega)) h1

end Gcs
