import Verif.Lemmas.Strided
import Verif.Lemmas.Compress

/-! Facts on the binary searches and the enumerations of the sparse classes. -/

namespace Gcs

open Spec

variable {α : Type}

/-! ## The search -/

theorem bsearch_ok (cmp : Int → PyM Ordering) (ord : Int → Ordering) (left right : Int)
    (hc : ∀ p, left ≤ p → p ≤ right → cmp p = .ok (ord p))
    (hm : ∀ p q, left ≤ p → p < q → q ≤ right → ord q ≠ .gt → ord p = .lt) :
    (∃ p, bsearch cmp left right = .ok (some p) ∧ left ≤ p ∧ p ≤ right ∧ ord p = .eq) ∨
    (bsearch cmp left right = .ok none ∧ ∀ p, left ≤ p → p ≤ right → ord p ≠ .eq) := by
  induction hn : (right + 1 - left).toNat using Nat.strongRecOn generalizing left right with
  | _ n ih =>
    by_cases h : left ≤ right
    · have hmid : left ≤ Int.fdiv (left + right) 2 ∧ Int.fdiv (left + right) 2 ≤ right := by
        rw [Int.fdiv_eq_ediv_of_nonneg _ (by omega)]; omega
      rw [bsearch, dif_pos h]
      set pos := Int.fdiv (left + right) 2 with hpos
      simp only [← hpos, hc pos hmid.1 hmid.2]
      cases ho : ord pos with
      | eq => exact .inl ⟨pos, rfl, hmid.1, hmid.2, ho⟩
      | lt =>
        simp only
        rcases ih (right + 1 - (pos + 1)).toNat (by omega) (pos + 1) right
          (fun p h1 h2 => hc p (by omega) h2) (fun p q h1 h2 h3 => hm p q (by omega) h2 h3) rfl
          with ⟨p, h1, h2, h3, h4⟩ | ⟨h1, h2⟩
        · exact .inl ⟨p, h1, by omega, h3, h4⟩
        · refine .inr ⟨h1, fun p hp1 hp2 => ?_⟩
          by_cases hp : pos + 1 ≤ p
          · exact h2 p hp hp2
          · by_cases hpe : p = pos
            · rw [hpe, ho]; simp
            · rw [hm p pos hp1 (by omega) hmid.2 (by rw [ho]; simp)]; simp
      | gt =>
        simp only
        rcases ih (pos - 1 + 1 - left).toNat (by omega) left (pos - 1)
          (fun p h1 h2 => hc p h1 (by omega)) (fun p q h1 h2 h3 => hm p q h1 h2 (by omega)) rfl
          with ⟨p, h1, h2, h3, h4⟩ | ⟨h1, h2⟩
        · exact .inl ⟨p, h1, h2, by omega, h4⟩
        · refine .inr ⟨h1, fun p hp1 hp2 he => ?_⟩
          by_cases hp : p ≤ pos - 1
          · exact h2 p hp1 hp he
          · by_cases hpe : p = pos
            · rw [hpe, ho] at he; simp at he
            · have := hm pos p hmid.1 (by omega) hp2 (by rw [he]; simp)
              rw [ho] at this; simp at this
    · rw [bsearch, dif_neg h]
      exact .inr ⟨rfl, fun p h1 h2 => absurd (le_trans h1 h2) h⟩

theorem signOf_eq (d : Int) : signOf d = .eq ↔ d = 0 := by
  unfold signOf; split
  · simp_all
  · split <;> simp_all

theorem signOf_lt (d : Int) : signOf d = .lt ↔ d < 0 := by
  unfold signOf; split
  · simp_all
  · split <;> simp_all

theorem signOf_gt (d : Int) : signOf d = .gt ↔ 0 < d := by
  unfold signOf; split
  · simp_all
  · split
    · simp_all; omega
    · simp_all; omega

/-! ## Lexicographic comparison -/

/-- The comparison made by `get_coo_position`. -/
def lexCmp : List Int → List Int → Ordering
  | a :: x, b :: y => match signOf (a - b) with
    | .eq => lexCmp x y
    | o => o
  | _, _ => .eq

theorem lexCmp_spec (x y : List Int) (h : x.length = y.length) :
    (lexCmp x y = .lt ↔ lexLt x y) ∧ (lexCmp x y = .eq ↔ x = y) := by
  induction x generalizing y with
  | nil => cases y with
    | nil => simp [lexCmp, lexLt]
    | cons => simp at h
  | cons a x ih => cases y with
    | nil => simp at h
    | cons b y =>
      have ih := ih y (by simpa using h)
      simp only [lexCmp, lexLt, List.cons.injEq]
      cases hs : signOf (a - b) with
      | eq =>
        have : a = b := by have := (signOf_eq _).1 hs; omega
        subst this
        simp [ih.1, ih.2]
      | lt =>
        have : a < b := by have := (signOf_lt _).1 hs; omega
        simp only [true_iff, reduceCtorEq, false_iff]
        exact ⟨.inl this, fun h => by omega⟩
      | gt =>
        have : b < a := by have := (signOf_gt _).1 hs; omega
        simp only [reduceCtorEq, false_iff]
        exact ⟨fun h => by rcases h with h | ⟨h, _⟩ <;> omega, fun h => by omega⟩

theorem cooCompare_ok (indices : Strided (Option Int)) (imem : List (Option Int)) (pos : Int) (row : List Int)
    (ix : List Int) (j : Nat) (hl : row.length = j + ix.length)
    (hr : ∀ i, j ≤ i → i < row.length → readIndex indices imem (i : Int) pos = .ok (row.getD i 0)) :
    cooCompare indices imem pos j ix = .ok (lexCmp (row.drop j) ix) := by
  induction ix generalizing j with
  | nil =>
    rw [List.drop_eq_nil_of_le (by simpa using hl.le)]
    rfl
  | cons x ix ih =>
    have hj : j < row.length := by rw [hl]; simp
    rw [List.drop_eq_getElem_cons hj]
    simp only [cooCompare, hr j (Nat.le_refl _) hj, bind, Except.bind, lexCmp]
    have e : row.getD j 0 = row[j] := by simp [List.getD_eq_getElem?_getD, hj]
    rw [e]
    cases hs : signOf (row[j] - x) with
    | eq => simp only; exact ih (j + 1) (by simp at hl ⊢; omega) fun i h1 h2 => hr i (by omega) h2
    | lt => rfl
    | gt => rfl

/-- Search over positions of a list that is strictly sorted: the generic statement used for the three
formats. -/
theorem bsearch_rows (rows : List (List Int)) (hs : rows.Pairwise lexLt) (ix : List Int)
    (hl : ∀ r ∈ rows, r.length = ix.length) (cmp : Int → PyM Ordering)
    (hc : ∀ p (hp : p < rows.length), cmp (p : Int) = .ok (lexCmp rows[p] ix)) :
    (∃ p, ∃ hp : p < rows.length, bsearch cmp 0 ((rows.length : Int) - 1) = .ok (some (p : Int)) ∧ rows[p] = ix) ∨
    (bsearch cmp 0 ((rows.length : Int) - 1) = .ok none ∧ ix ∉ rows) := by
  have hget : ∀ p : Int, 0 ≤ p → p ≤ (rows.length : Int) - 1 → ∃ hp : p.toNat < rows.length,
      cmp p = .ok (lexCmp (rows.getD p.toNat []) ix) ∧ rows.getD p.toNat [] = rows[p.toNat] := by
    intro p h1 h2
    have hp : p.toNat < rows.length := by omega
    refine ⟨hp, ?_, by simp [List.getD_eq_getElem?_getD, hp]⟩
    have := hc p.toNat hp
    rw [Int.toNat_of_nonneg h1] at this
    rw [this]
    simp [List.getD_eq_getElem?_getD, hp]
  rcases bsearch_ok cmp (fun p => lexCmp (rows.getD p.toNat []) ix) 0 ((rows.length : Int) - 1)
      (fun p h1 h2 => (hget p h1 h2).2.1) (by
        intro p q h1 h2 h3 hne
        obtain ⟨hp, _, e1⟩ := hget p h1 (by omega)
        obtain ⟨hq, _, e2⟩ := hget q (by omega) h3
        simp only [e1, e2] at hne ⊢
        have hlt := List.pairwise_iff_getElem.1 hs p.toNat q.toNat hp hq (by omega)
        have sp := lexCmp_spec rows[p.toNat] ix (hl _ (List.getElem_mem _))
        have sq := lexCmp_spec rows[q.toNat] ix (hl _ (List.getElem_mem _))
        rw [sp.1]
        cases ho : lexCmp rows[q.toNat] ix with
        | lt => exact lexLt_trans hlt (sq.1.1 ho)
        | eq => rw [← sq.2.1 ho]; exact hlt
        | gt => exact absurd ho hne)
    with ⟨p, h1, h2, h3, h4⟩ | ⟨h1, h2⟩
  · obtain ⟨hp, _, e1⟩ := hget p h2 h3
    refine .inl ⟨p.toNat, hp, ?_, ?_⟩
    · rw [h1, Int.toNat_of_nonneg h2]
    · simp only [e1] at h4
      exact (lexCmp_spec _ _ (hl _ (List.getElem_mem _))).2.1 h4
  · refine .inr ⟨h1, fun hmem => ?_⟩
    obtain ⟨p, hp, rfl⟩ := List.getElem_of_mem hmem
    apply h2 (p : Int) (by omega) (by omega)
    simp only [Int.toNat_natCast, List.getD_eq_getElem?_getD, List.getElem?_eq_getElem hp, Option.getD_some]
    exact (lexCmp_spec _ _ rfl).2.2 rfl

/-- Search in a strictly increasing list of ints, restricted to a window of positions. -/
theorem bsearch_ints (key : Int → Int) (left right : Int) (x : Int) (cmp : Int → PyM Ordering)
    (hc : ∀ p, left ≤ p → p ≤ right → cmp p = .ok (signOf (key p - x)))
    (hs : ∀ p q, left ≤ p → p < q → q ≤ right → key p < key q) :
    (∃ p, bsearch cmp left right = .ok (some p) ∧ left ≤ p ∧ p ≤ right ∧ key p = x) ∨
    (bsearch cmp left right = .ok none ∧ ∀ p, left ≤ p → p ≤ right → key p ≠ x) := by
  rcases bsearch_ok cmp (fun p => signOf (key p - x)) left right hc (by
      intro p q h1 h2 h3 hne
      have := hs p q h1 h2 h3
      have hq : ¬ (0 < key q - x) := fun h => hne ((signOf_gt _).2 h)
      exact (signOf_lt _).2 (by omega))
    with ⟨p, h1, h2, h3, h4⟩ | ⟨h1, h2⟩
  · refine .inl ⟨p, h1, h2, h3, ?_⟩
    have := (signOf_eq _).1 h4
    omega
  · refine .inr ⟨h1, fun p hp1 hp2 he => h2 p hp1 hp2 ?_⟩
    rw [signOf_eq]; omega

theorem lt_below_iff (l : List Int) (r : Int) (hl : l.Pairwise (· ≤ ·)) (p : Nat) (hp : p < l.length) :
    p < below l r ↔ l[p] < r := by
  induction l generalizing p with
  | nil => simp at hp
  | cons a l ih =>
    obtain ⟨ha, hl'⟩ := List.pairwise_cons.1 hl
    by_cases har : a < r
    · have e : below (a :: l) r = below l r + 1 := by simp [below, har]
      rw [e]
      cases p with
      | zero => simp [har]
      | succ p =>
        have := ih hl' p (by simpa using hp)
        simp only [List.getElem_cons_succ]
        rw [← this]; omega
    · have hz : below (a :: l) r = 0 := below_none _ _ (by
        intro x hx
        rcases List.mem_cons.1 hx with rfl | hx
        · omega
        · have := ha x hx; omega)
      rw [hz]
      have : r ≤ (a :: l)[p] := by
        have hmem : (a :: l)[p] ∈ a :: l := List.getElem_mem _
        rcases List.mem_cons.1 hmem with h | h
        · rw [h]; omega
        · have := ha _ h; omega
      omega

theorem below_le_length (l : List Int) (r : Int) : below l r ≤ l.length := List.length_filter_le _ _

theorem below_mono (l : List Int) (r s : Int) (h : r ≤ s) : below l r ≤ below l s := by
  unfold below
  induction l with
  | nil => simp
  | cons a l ih =>
    by_cases h1 : a < r
    · have h2 : a < s := by omega
      simp [h1, h2, ih]
    · by_cases h2 : a < s
      · simp [h1, h2]; omega
      · simp [h1, h2, ih]

/-- Positions of row `r`. -/
theorem below_range (l : List Int) (r : Int) (hl : l.Pairwise (· ≤ ·)) (p : Nat) (hp : p < l.length) :
    (below l r ≤ p ∧ p < below l (r + 1)) ↔ l[p] = r := by
  have a1 := lt_below_iff l r hl p hp
  have a2 := lt_below_iff l (r + 1) hl p hp
  omega

end Gcs
