import Verif.Lemmas.Extgcd
import Verif.Spec
import Mathlib.Algebra.BigOperators.Group.Finset.Basic
import Mathlib.Algebra.BigOperators.Ring.Finset
import Mathlib.Algebra.CharZero.Defs
import Mathlib.Data.Int.Cast.Lemmas
import Mathlib.Data.Rat.Cast.CharZero
import Mathlib.Tactic.FieldSimp
import Mathlib.Tactic.NormNum

/-!
# The kernel vectors computed by `_init_diophantine`
-/

namespace Gcs

/-- The columns `zs` that `_init_diophantine` computes, without the exceptions. -/
def dioCols : Int → List Int → List (List Int)
  | _, [] => []
  | a0, a1 :: rest =>
    (-(a1.fdiv (extgcd a0 a1).1) :: a0.fdiv (extgcd a0 a1).1 :: List.replicate rest.length 0) ::
      (dioCols (extgcd a0 a1).1 rest).map fun c =>
        (extgcd a0 a1).2.1 * c.getD 0 0 :: (extgcd a0 a1).2.2 * c.getD 0 0 :: c.tail

/-- The particular solution `z0`. -/
def dioZ0 : Int → List Int → List Int
  | _, [] => [1]
  | a0, a1 :: rest =>
    (extgcd a0 a1).2.1 * (dioZ0 (extgcd a0 a1).1 rest).getD 0 0 ::
      (extgcd a0 a1).2.2 * (dioZ0 (extgcd a0 a1).1 rest).getD 0 0 ::
        (dioZ0 (extgcd a0 a1).1 rest).tail

/-- The gcd `d`. -/
def dioD : Int → List Int → Int
  | a0, [] => a0
  | a0, a1 :: rest => dioD (extgcd a0 a1).1 rest

/-- No division by zero. -/
def DioOk : Int → List Int → Prop
  | _, [] => True
  | a0, a1 :: rest => (extgcd a0 a1).1 ≠ 0 ∧ DioOk (extgcd a0 a1).1 rest

/-- The rows of a matrix given by its columns. -/
def rowsOf (n : Nat) (cols : List (List Int)) : List (List Int) :=
  (List.range n).map fun i => cols.map fun c => c.getD i 0

theorem dioZ0_length (a0 : Int) (rest : List Int) : (dioZ0 a0 rest).length = rest.length + 1 := by
  induction rest generalizing a0 with
  | nil => rfl
  | cons a1 rest ih => simp [dioZ0, ih]

theorem dioCols_length (a0 : Int) (rest : List Int) : (dioCols a0 rest).length = rest.length := by
  induction rest generalizing a0 with
  | nil => rfl
  | cons a1 rest ih => simp [dioCols, ih]

theorem dioCols_mem_length (a0 : Int) (rest : List Int) :
    ∀ c ∈ dioCols a0 rest, c.length = rest.length + 1 := by
  induction rest generalizing a0 with
  | nil => simp [dioCols]
  | cons a1 rest ih =>
    intro c hc
    simp only [dioCols, List.mem_cons, List.mem_map] at hc
    rcases hc with rfl | ⟨c', h1, rfl⟩
    · simp
    · have := ih _ c' h1
      simp [this]

theorem rowsOf_succ2 (n : Nat) (cols : List (List Int)) :
    rowsOf (n + 2) cols = cols.map (·.getD 0 0) :: cols.map (·.getD 1 0) ::
      (List.range n).map fun i => cols.map fun c => c.getD (i + 2) 0 := by
  simp only [rowsOf, List.range_succ_eq_map, List.map_cons, List.map_map]
  rfl

theorem rowsOf_succ1 (n : Nat) (cols : List (List Int)) :
    rowsOf (n + 1) cols = cols.map (·.getD 0 0) ::
      (List.range n).map fun i => cols.map fun c => c.getD (i + 1) 0 := by
  simp only [rowsOf, List.range_succ_eq_map, List.map_cons, List.map_map]
  rfl

theorem getD_tail (l : List Int) (i : Nat) : l.tail.getD i 0 = l.getD (i + 1) 0 := by
  cases l <;> simp

theorem headD_eq_getD (l : List Int) : l.headD 0 = l.getD 0 0 := by
  cases l <;> simp

theorem initDioRec_eq (a0 : Int) (rest : List Int) (r : Int × List Int × List (List Int)) :
    initDioRec a0 rest = .ok r ↔
      DioOk a0 rest ∧ r = (dioD a0 rest, dioZ0 a0 rest, rowsOf (rest.length + 1) (dioCols a0 rest)) := by
  induction rest generalizing a0 r with
  | nil =>
    simp [initDioRec, DioOk, dioD, dioZ0, dioCols, rowsOf, pure, Except.pure, eq_comm]
  | cons a1 rest ih =>
    rcases he : extgcd a0 a1 with ⟨d, x0, y0⟩
    by_cases hd : d = 0
    · simp [initDioRec, DioOk, he, hd, pyDiv, bind, Except.bind]
    · have ih := ih d
      simp only [initDioRec, he, pyDiv, hd, if_false, bind, Except.bind]
      cases hr : initDioRec d rest with
      | error e =>
        rw [hr] at ih
        simp only [reduceCtorEq, false_iff] at ih ⊢
        rintro ⟨h1, _⟩
        simp only [DioOk, he] at h1
        exact ih _ ⟨h1.2, rfl⟩
      | ok v =>
        obtain ⟨h1, h2⟩ := (ih v).1 hr
        subst h2
        have hok : DioOk a0 (a1 :: rest) := by simp only [DioOk, he]; exact ⟨hd, h1⟩
        simp only [hok, true_and, pure, Except.pure, Except.ok.injEq]
        rw [eq_comm]
        apply Eq.to_iff
        congr 1
        simp only [dioD, dioZ0, dioCols, he, headD_eq_getD, List.length_cons]
        rw [rowsOf_succ2, rowsOf_succ1]
        simp only [List.headD_cons, List.tail_cons, List.map_cons, List.map_map, List.getD_cons_zero,
          List.getD_cons_succ, Prod.mk.injEq, true_and]
        congr 2
        apply List.map_congr_left
        intro i hi
        simp only [Function.comp, List.cons.injEq]
        refine ⟨?_, ?_⟩
        · simp [List.getD_eq_getElem?_getD, List.getElem?_replicate]
          split <;> rfl
        · apply List.map_congr_left
          intro c _
          exact (getD_tail c i).symm

theorem foldl_min_const (rs : List (List Int)) (m : Nat) (h : ∀ r ∈ rs, r.length = m) :
    rs.foldl (fun m r => min m r.length) m = m := by
  induction rs with
  | nil => rfl
  | cons r rs ih =>
    simp only [List.foldl_cons, h r (by simp), min_self]
    exact ih fun r hr => h r (by simp [hr])

theorem zipStar_rowsOf (n : Nat) (cols : List (List Int)) (h : ∀ c ∈ cols, c.length = n + 1) :
    zipStar (rowsOf (n + 1) cols) = cols := by
  have hne : rowsOf (n + 1) cols ≠ [] := by simp [rowsOf]
  obtain ⟨r, rs, hrs⟩ := List.exists_cons_of_ne_nil hne
  have hl : ∀ r ∈ rowsOf (n + 1) cols, r.length = cols.length := by
    intro r hr
    simp only [rowsOf, List.mem_map] at hr
    obtain ⟨i, _, rfl⟩ := hr
    simp
  have hz : zipStar (rowsOf (n + 1) cols)
      = (List.range cols.length).map fun j => (rowsOf (n + 1) cols).map fun r => r.getD j 0 := by
    rw [hrs] at hl ⊢
    simp only [zipStar]
    rw [hl r (by simp), foldl_min_const rs _ fun r hr => hl r (by simp [hr])]
  rw [hz]
  apply List.ext_getElem (by simp)
  intro j h1 h2
  simp only [List.getElem_map, List.getElem_range, rowsOf, List.map_map]
  apply List.ext_getElem
  · simp [h _ (List.getElem_mem h2)]
  · intro i h3 h4
    simp [List.getD_eq_getElem?_getD, h2, h4]

section Linear

variable {R : Type} [CommRing R]

/-- Scalar product of a list of ints with a vector. -/
def dotF : List Int → (Nat → R) → R
  | [], _ => 0
  | a :: as, x => (a : R) * x 0 + dotF as fun i => x (i + 1)

/-- Coordinate `i` of the linear combination of `zs` with coefficients `t`. -/
def lin : List (List Int) → (Nat → R) → Nat → R
  | [], _, _ => 0
  | z :: zs, t, i => t 0 * ((z.getD i 0 : Int) : R) + lin zs (fun j => t (j + 1)) i

theorem dotF_congr (a : List Int) (x y : Nat → R) (h : ∀ i < a.length, x i = y i) :
    dotF a x = dotF a y := by
  induction a generalizing x y with
  | nil => rfl
  | cons a0 a ih =>
    simp only [dotF]
    rw [h 0 (by simp), ih (fun i => x (i + 1)) (fun i => y (i + 1)) fun i hi => h _ (by simpa using hi)]

theorem dotF_add (a : List Int) (x y : Nat → R) :
    dotF a (fun i => x i + y i) = dotF a x + dotF a y := by
  induction a generalizing x y with
  | nil => simp [dotF]
  | cons a0 a ih => simp only [dotF]; rw [ih]; ring

theorem dotF_smul (a : List Int) (c : R) (x : Nat → R) :
    dotF a (fun i => c * x i) = c * dotF a x := by
  induction a generalizing x with
  | nil => simp [dotF]
  | cons a0 a ih => simp only [dotF]; rw [ih]; ring

theorem dotF_zero (a : List Int) : dotF a (fun _ => (0 : R)) = 0 := by
  induction a with
  | nil => rfl
  | cons a0 a ih => simp [dotF, ih]

theorem dotF_append (a b : List Int) (x : Nat → R) :
    dotF (a ++ b) x = dotF a x + dotF b fun i => x (i + a.length) := by
  induction a generalizing x with
  | nil => simp [dotF]
  | cons a0 a ih =>
    simp only [List.cons_append, dotF, ih, List.length_cons]
    rw [add_assoc]
    congr 3

theorem dotF_replicate_zero (n : Nat) (x : Nat → R) : dotF (List.replicate n 0) x = 0 := by
  induction n generalizing x with
  | zero => rfl
  | succ n ih => simp [List.replicate_succ, dotF, ih]

theorem dotF_eq_sum (a : List Int) (x : Nat → R) :
    dotF a x = ∑ i ∈ Finset.range a.length, ((a.getD i 0 : Int) : R) * x i := by
  induction a generalizing x with
  | nil => simp [dotF]
  | cons a0 a ih =>
    simp only [dotF, List.length_cons, Finset.sum_range_succ', List.getD_cons_zero, List.getD_cons_succ]
    rw [ih, add_comm]

theorem lin_add (zs : List (List Int)) (t u : Nat → R) (i : Nat) :
    lin zs (fun j => t j + u j) i = lin zs t i + lin zs u i := by
  induction zs generalizing t u with
  | nil => simp [lin]
  | cons z zs ih => simp only [lin]; rw [ih]; ring

theorem lin_sub (zs : List (List Int)) (t u : Nat → R) (i : Nat) :
    lin zs (fun j => t j - u j) i = lin zs t i - lin zs u i := by
  induction zs generalizing t u with
  | nil => simp [lin]
  | cons z zs ih => simp only [lin]; rw [ih]; ring

theorem lin_congr (zs : List (List Int)) (t u : Nat → R) (i : Nat) (h : ∀ j < zs.length, t j = u j) :
    lin zs t i = lin zs u i := by
  induction zs generalizing t u with
  | nil => rfl
  | cons z zs ih =>
    simp only [lin]
    rw [h 0 (by simp), ih (fun i => t (i + 1)) (fun i => u (i + 1)) fun i hi => h _ (by simpa using hi)]

theorem lin_zero (zs : List (List Int)) (i : Nat) : lin zs (fun _ => (0 : R)) i = 0 := by
  induction zs with
  | nil => rfl
  | cons z zs ih => simp [lin, ih]

theorem lin_map_zero (zs : List (List Int)) (x y : Int) (t : Nat → R) :
    lin (zs.map fun c => x * c.getD 0 0 :: y * c.getD 0 0 :: c.tail) t 0 = x * lin zs t 0 := by
  induction zs generalizing t with
  | nil => simp [lin]
  | cons z zs ih => simp only [List.map_cons, lin, ih, List.getD_cons_zero]; push_cast; ring

theorem lin_map_one (zs : List (List Int)) (x y : Int) (t : Nat → R) :
    lin (zs.map fun c => x * c.getD 0 0 :: y * c.getD 0 0 :: c.tail) t 1 = y * lin zs t 0 := by
  induction zs generalizing t with
  | nil => simp [lin]
  | cons z zs ih =>
    simp only [List.map_cons, lin, ih, List.getD_cons_zero, List.getD_cons_succ]; push_cast; ring

theorem lin_map_succ2 (zs : List (List Int)) (x y : Int) (t : Nat → R) (i : Nat) :
    lin (zs.map fun c => x * c.getD 0 0 :: y * c.getD 0 0 :: c.tail) t (i + 2) = lin zs t (i + 1) := by
  induction zs generalizing t with
  | nil => simp [lin]
  | cons z zs ih =>
    simp only [List.map_cons, lin, ih, List.getD_cons_succ, getD_tail]

theorem getD_replicate_zero (n i : Nat) : (List.replicate n (0 : Int)).getD i 0 = 0 := by
  simp [List.getD_eq_getElem?_getD, List.getElem?_replicate]
  split <;> rfl

/-- The three coordinates of a combination of the kernel columns, one recursion level. -/
theorem lin_dioCols_cons (a0 a1 : Int) (rest : List Int) (t : Nat → R) :
    lin (dioCols a0 (a1 :: rest)) t 0
        = -((a1.fdiv (extgcd a0 a1).1 : Int) : R) * t 0
          + ((extgcd a0 a1).2.1 : R) * lin (dioCols (extgcd a0 a1).1 rest) (fun j => t (j + 1)) 0 ∧
      lin (dioCols a0 (a1 :: rest)) t 1
        = ((a0.fdiv (extgcd a0 a1).1 : Int) : R) * t 0
          + ((extgcd a0 a1).2.2 : R) * lin (dioCols (extgcd a0 a1).1 rest) (fun j => t (j + 1)) 0 ∧
      ∀ i, lin (dioCols a0 (a1 :: rest)) t (i + 2)
        = lin (dioCols (extgcd a0 a1).1 rest) (fun j => t (j + 1)) (i + 1) := by
  refine ⟨?_, ?_, fun i => ?_⟩
  · simp only [dioCols, lin, lin_map_zero, List.getD_cons_zero]; push_cast; ring
  · simp only [dioCols, lin, lin_map_one, List.getD_cons_zero, List.getD_cons_succ]; ring
  · simp only [dioCols, lin, lin_map_succ2, List.getD_cons_succ, getD_replicate_zero]
    simp

/-- The data of one recursion level. -/
theorem extgcd_level (a0 a1 : Int) (h : (extgcd a0 a1).1 ≠ 0) :
    a0 = (extgcd a0 a1).1 * a0.fdiv (extgcd a0 a1).1 ∧
      a1 = (extgcd a0 a1).1 * a1.fdiv (extgcd a0 a1).1 ∧
      a0.fdiv (extgcd a0 a1).1 * (extgcd a0 a1).2.1
        + a1.fdiv (extgcd a0 a1).1 * (extgcd a0 a1).2.2 = 1 := by
  obtain ⟨h1, h2, h3⟩ := extgcd_bezout a0 a1
  have e0 : a0 = (extgcd a0 a1).1 * a0.fdiv (extgcd a0 a1).1 := (Int.mul_fdiv_cancel' h2).symm
  have e1 : a1 = (extgcd a0 a1).1 * a1.fdiv (extgcd a0 a1).1 := (Int.mul_fdiv_cancel' h3).symm
  refine ⟨e0, e1, ?_⟩
  generalize (extgcd a0 a1) = r at *
  generalize a0.fdiv r.1 = p at *
  generalize a1.fdiv r.1 = q at *
  apply Int.eq_of_mul_eq_mul_left h
  rw [e0, e1] at h1
  linarith

/-- The kernel columns are in the kernel. -/
theorem dotF_lin (a0 : Int) (rest : List Int) (hok : DioOk a0 rest) (t : Nat → R) :
    dotF (a0 :: rest) (lin (dioCols a0 rest) t) = 0 := by
  induction rest generalizing a0 t with
  | nil => simp [dotF, dioCols, lin]
  | cons a1 rest ih =>
    obtain ⟨h1, h2⟩ := hok
    obtain ⟨l0, l1, l2⟩ := lin_dioCols_cons a0 a1 rest t
    obtain ⟨e0, e1, e2⟩ := extgcd_level a0 a1 h1
    have ih := ih _ h2 fun j => t (j + 1)
    simp only [dotF] at ih ⊢
    rw [l0, l1]
    simp only [Nat.add_assoc, Nat.reduceAdd, l2]
    generalize (extgcd a0 a1) = r at *
    generalize a0.fdiv r.1 = p at *
    generalize a1.fdiv r.1 = q at *
    generalize lin (dioCols r.1 rest) (fun j => t (j + 1)) = L at *
    have e0 : (a0 : R) = (r.1 : R) * p := by exact_mod_cast congrArg (Int.cast (R := R)) e0
    have e1 : (a1 : R) = (r.1 : R) * q := by exact_mod_cast congrArg (Int.cast (R := R)) e1
    have e2 : (p : R) * r.2.1 + q * r.2.2 = 1 := by exact_mod_cast congrArg (Int.cast (R := R)) e2
    rw [e0, e1]
    linear_combination ih + (r.1 : R) * L 0 * e2

/-- The particular solution. -/
theorem dotF_z0 (a0 : Int) (rest : List Int) (hok : DioOk a0 rest) :
    dotF (a0 :: rest) (fun i => (((dioZ0 a0 rest).getD i 0 : Int) : R)) = (dioD a0 rest : R) := by
  induction rest generalizing a0 with
  | nil => simp [dotF, dioZ0, dioD]
  | cons a1 rest ih =>
    obtain ⟨h1, h2⟩ := hok
    obtain ⟨e0, e1, e2⟩ := extgcd_level a0 a1 h1
    have ih := ih _ h2
    simp only [dotF] at ih ⊢
    simp only [dioZ0, dioD, List.getD_cons_zero, List.getD_cons_succ, getD_tail]
    generalize (extgcd a0 a1) = r at *
    generalize a0.fdiv r.1 = p at *
    generalize a1.fdiv r.1 = q at *
    generalize dioZ0 r.1 rest = L at *
    have e0 : (a0 : R) = (r.1 : R) * p := by exact_mod_cast congrArg (Int.cast (R := R)) e0
    have e1 : (a1 : R) = (r.1 : R) * q := by exact_mod_cast congrArg (Int.cast (R := R)) e1
    have e2 : (p : R) * r.2.1 + q * r.2.2 = 1 := by exact_mod_cast congrArg (Int.cast (R := R)) e2
    push_cast
    rw [e0, e1]
    linear_combination ih + (r.1 : R) * ((L.getD 0 0 : Int) : R) * e2

/-- The kernel columns are independent. -/
theorem lin_injective (a0 : Int) (rest : List Int) (hok : DioOk a0 rest) (t : Nat → R)
    (h : ∀ i < rest.length + 1, lin (dioCols a0 rest) t i = 0) : ∀ j < rest.length, t j = 0 := by
  induction rest generalizing a0 t with
  | nil => simp
  | cons a1 rest ih =>
    obtain ⟨h1, h2⟩ := hok
    obtain ⟨l0, l1, l2⟩ := lin_dioCols_cons a0 a1 rest t
    obtain ⟨_, _, e2⟩ := extgcd_level a0 a1 h1
    have ih := ih _ h2 fun j => t (j + 1)
    have k0 := h 0 (by simp)
    have k1 := h 1 (by simp)
    rw [l0] at k0
    rw [l1] at k1
    have e2 : ((a0.fdiv (extgcd a0 a1).1 : Int) : R) * (extgcd a0 a1).2.1
        + (a1.fdiv (extgcd a0 a1).1 : Int) * (extgcd a0 a1).2.2 = 1 := by
      exact_mod_cast congrArg (Int.cast (R := R)) e2
    have w0 : lin (dioCols (extgcd a0 a1).1 rest) (fun j => t (j + 1)) 0 = 0 := by
      generalize (extgcd a0 a1) = r at *
      generalize a0.fdiv r.1 = p at *
      generalize a1.fdiv r.1 = q at *
      linear_combination (p : R) * k0 + (q : R) * k1 - lin (dioCols r.1 rest) (fun j => t (j + 1)) 0 * e2
    have t0 : t 0 = 0 := by
      generalize (extgcd a0 a1) = r at *
      generalize a0.fdiv r.1 = p at *
      generalize a1.fdiv r.1 = q at *
      linear_combination (r.2.1 : R) * k1 - (r.2.2 : R) * k0 - t 0 * e2
    have ih := ih (by
      intro i hi
      cases i with
      | zero => exact w0
      | succ i => rw [← l2]; exact h (i + 2) (by simp; omega))
    intro j hj
    cases j with
    | zero => exact t0
    | succ j => exact ih j (by simpa using hj)

/-- Combinations of the first columns touch only the first coordinates. -/
theorem lin_support (a0 : Int) (rest : List Int) (t : Nat → R) (i : Nat)
    (h : ∀ j, i ≤ j → t j = 0) : ∀ r, i + 1 ≤ r → lin (dioCols a0 rest) t r = 0 := by
  induction rest generalizing a0 t i with
  | nil => simp [dioCols, lin]
  | cons a1 rest ih =>
    intro r hr
    by_cases hi : i = 0
    · subst hi
      rw [lin_congr _ t (fun _ => 0) r fun j _ => h j (by omega), lin_zero]
    · obtain ⟨l0, l1, l2⟩ := lin_dioCols_cons a0 a1 rest t
      obtain ⟨r, rfl⟩ : ∃ r', r = r' + 2 := ⟨r - 2, by omega⟩
      rw [l2]
      exact ih _ _ (i - 1) (fun j hj => h _ (by omega)) _ (by omega)

end Linear

section Domain

variable {R : Type} [CommRing R] [IsDomain R] [CharZero R]

theorem DioOk.d_ne_zero {a0 : Int} {rest : List Int} (h : DioOk a0 rest) (hr : rest ≠ []) : dioD a0 rest ≠ 0 := by
  induction rest generalizing a0 with
  | nil => exact absurd rfl hr
  | cons a1 rest ih =>
    obtain ⟨h1, h2⟩ := h
    cases rest with
    | nil => exact h1
    | cons a2 rest => exact ih h2 (by simp)

/-- Every solution is the particular one plus a combination of the kernel columns. -/
theorem lin_complete (a0 : Int) (rest : List Int) (hok : DioOk a0 rest) (hd : dioD a0 rest ≠ 0)
    (x : Nat → R) (k : R) (hx : dotF (a0 :: rest) x = (dioD a0 rest : R) * k) :
    ∃ t : Nat → R, ∀ i < rest.length + 1,
      x i = k * ((dioZ0 a0 rest).getD i 0 : Int) + lin (dioCols a0 rest) t i := by
  induction rest generalizing a0 x with
  | nil =>
    refine ⟨fun _ => 0, ?_⟩
    intro i hi
    have : i = 0 := by simpa using hi
    subst this
    have h0 : (a0 : R) ≠ 0 := by exact_mod_cast hd
    simp only [dotF, dioD, add_zero] at hx
    simp [dioZ0, dioCols, lin]
    exact mul_left_cancel₀ h0 hx
  | cons a1 rest ih =>
    obtain ⟨h1, h2⟩ := hok
    obtain ⟨e0, e1, e2⟩ := extgcd_level a0 a1 h1
    have c0 : (a0 : R) = ((extgcd a0 a1).1 : R) * (a0.fdiv (extgcd a0 a1).1 : Int) := by
      exact_mod_cast congrArg (Int.cast (R := R)) e0
    have c1 : (a1 : R) = ((extgcd a0 a1).1 : R) * (a1.fdiv (extgcd a0 a1).1 : Int) := by
      exact_mod_cast congrArg (Int.cast (R := R)) e1
    have c2 : ((a0.fdiv (extgcd a0 a1).1 : Int) : R) * (extgcd a0 a1).2.1
        + (a1.fdiv (extgcd a0 a1).1 : Int) * (extgcd a0 a1).2.2 = 1 := by
      exact_mod_cast congrArg (Int.cast (R := R)) e2
    obtain ⟨t, ht⟩ := ih (extgcd a0 a1).1 h2 hd
      (fun i => if i = 0 then ((a0.fdiv (extgcd a0 a1).1 : Int) : R) * x 0
          + ((a1.fdiv (extgcd a0 a1).1 : Int) : R) * x 1 else x (i + 1)) (by
        simp only [dotF, dioD] at hx ⊢
        simp only [if_true, Nat.add_eq_zero_iff, one_ne_zero, and_false, if_false, zero_add] at hx ⊢
        rw [← hx]
        generalize dotF rest (fun i => x (i + 1 + 1)) = S at *
        rw [c0, c1]
        generalize (extgcd a0 a1) = r at *
        generalize a0.fdiv r.1 = p at *
        generalize a1.fdiv r.1 = q at *
        ring)
    refine ⟨fun j => if j = 0 then ((extgcd a0 a1).2.1 : R) * x 1 - ((extgcd a0 a1).2.2 : R) * x 0
      else t (j - 1), ?_⟩
    obtain ⟨l0, l1, l2⟩ := lin_dioCols_cons (R := R) a0 a1 rest
      fun j => if j = 0 then ((extgcd a0 a1).2.1 : R) * x 1 - ((extgcd a0 a1).2.2 : R) * x 0
        else t (j - 1)
    simp only [Nat.add_eq_zero_iff, one_ne_zero, and_false, if_false, if_true, Nat.add_sub_cancel] at l0 l1 l2
    have w := ht 0 (by simp)
    simp only [if_true] at w
    intro i hi
    match i with
    | 0 =>
      rw [l0]
      simp only [dioZ0, List.getD_cons_zero]
      push_cast
      linear_combination ((extgcd a0 a1).2.1 : R) * w - x 0 * c2
    | 1 =>
      rw [l1]
      simp only [dioZ0, List.getD_cons_zero, List.getD_cons_succ]
      push_cast
      linear_combination ((extgcd a0 a1).2.2 : R) * w - x 1 * c2
    | i + 2 =>
      rw [l2]
      simp only [dioZ0, List.getD_cons_succ, getD_tail]
      have := ht (i + 1) (by simpa using hi)
      simpa using this

end Domain

/-! ## Lists -/

theorem address_eq_dotF (x a : List Int) (h : x.length = a.length) :
    Spec.address x a = dotF a fun i => x.getD i 0 := by
  induction x generalizing a with
  | nil => cases a with
    | nil => rfl
    | cons => simp at h
  | cons x0 x ih => cases a with
    | nil => simp at h
    | cons a0 a =>
      simp only [Spec.address, dotF, List.getD_cons_zero, List.getD_cons_succ]
      rw [ih a (by simpa using h)]
      simp [mul_comm]

theorem getD_axpy (c : Int) (x y : List Int) (i : Nat) (h : x.length = y.length) :
    (axpy c x y).getD i 0 = c * x.getD i 0 + y.getD i 0 := by
  induction x generalizing y i with
  | nil => cases y with
    | nil => simp [axpy]
    | cons => simp at h
  | cons x0 x ih => cases y with
    | nil => simp at h
    | cons y0 y =>
      cases i with
      | zero => simp [axpy]
      | succ i => simpa [axpy] using ih y i (by simpa using h)

theorem axpy_length (c : Int) (x y : List Int) (h : x.length = y.length) :
    (axpy c x y).length = y.length := by
  simp [axpy, h]

theorem list_ext_getD (x y : List Int) (h : x.length = y.length)
    (h2 : ∀ i < x.length, x.getD i 0 = y.getD i 0) : x = y := by
  apply List.ext_getElem h
  intro i h3 h4
  have := h2 i h3
  simpa [List.getD_eq_getElem?_getD, h3, h4] using this

/-- The gcd divides all coefficients. -/
theorem dioD_dvd (a0 : Int) (rest : List Int) : ∀ v ∈ a0 :: rest, dioD a0 rest ∣ v := by
  induction rest generalizing a0 with
  | nil => intro v hv; simp at hv; subst hv; exact Int.dvd_refl _
  | cons a1 rest ih =>
    obtain ⟨_, h2, h3⟩ := extgcd_bezout a0 a1
    have h := ih (extgcd a0 a1).1
    have h0 := h (extgcd a0 a1).1 (by simp)
    intro v hv
    simp only [List.mem_cons] at hv
    simp only [dioD]
    rcases hv with rfl | rfl | hv
    · exact h0.trans h2
    · exact h0.trans h3
    · exact h v (by simp [hv])

end Gcs
