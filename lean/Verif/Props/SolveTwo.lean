import Verif.Lemmas.SolveLast
import Verif.Props.Diophantine

/-!
# C91: which solution `solve_index` looks at
-/

namespace Gcs

open Spec

/-- An index that `solve_index` returns is a candidate, with `0` for the last of the increments tried. -/
theorem solveIndex_some {a0 : Int} {rest : List Int} {m0 : Nat} {ms : List Nat} {data : DioData} {pos : Int}
    (hl : ms.length = rest.length) (hdata : initDiophantine (a0 :: rest) (some (m0 :: ms)) = .ok data)
    (hg : GoodData a0 rest (m0 :: ms) data) (h0 : a0 ≠ 0) (hr : rest ≠ []) {x : List Int}
    (h : solveIndex pos (m0 :: ms) (a0 :: rest) = .ok (some x)) :
    dioD a0 rest ∣ pos ∧ InBox x (m0 :: ms) ∧ ∃ dt ∈ bits rest.length, dt.getD (rest.length - 1) 0 = 0 ∧
      x = candidate (pos.fdiv (dioD a0 rest)) a0 rest data dt := by
  have hlen : 0 < rest.length := List.length_pos_iff.2 hr
  have hsol : solveIndex pos (m0 :: ms) (a0 :: rest) = solveIndexData pos (m0 :: ms) data := by
    simp [solveIndex, hdata, bind, Except.bind]
  rw [hsol] at h
  rcases solveIndexData_spec hg (by simp [hl]) pos with ⟨_, h1⟩ | ⟨hd, ⟨dt, hdt, hbox, h1⟩ | ⟨_, h1⟩⟩
  · rw [h] at h1; cases h1
  · rw [h] at h1
    cases h1
    refine ⟨hd, hbox, dt, hdt, ?_, rfl⟩
    have hb := (inBox_getD _ _ hbox rest.length (by simp [hl])).2
    obtain ⟨p, hp⟩ : ∃ p, rest.length = p + 1 := ⟨rest.length - 1, by omega⟩
    rw [candidate_getD _ _ _ (by omega), lin_last _ _ hr, Int.cast_id] at hb
    have hms : ((m0 :: ms).getD rest.length 0 : Nat) = ms.getD (rest.length - 1) 0 := by
      rw [hp]; simp
    rw [hms] at hb
    have hq := (last_coeff hg h0 hr _ _).1 hb
    have hm := (mem_bits _ _).1 hdt
    have hmem : dt.getD (rest.length - 1) 0 ∈ dt := by
      rw [List.getD_eq_getElem?_getD, List.getElem?_eq_getElem (by omega), Option.getD_some]
      exact List.getElem_mem _
    have := hm.2 _ hmem
    generalize dt.getD (rest.length - 1) 0 = d at *
    omega
  · rw [h] at h1; cases h1

/-- C91, any number of axes.  The last item of an index that `solve_index` returns is the largest one
below the last size among all integer solutions, also those outside the box. -/
theorem C91_last_item (pos : Int) (shape : List Nat) (m : Nat) (strides xs : List Int) (y : Int)
    (hl : strides.length = shape.length + 1) (h : solveIndex pos (shape ++ [m]) strides = .ok (some (xs ++ [y]))) :
    ∀ (zs : List Int) (z : Int), zs.length = shape.length → address (zs ++ [z]) strides = pos → z < m → z ≤ y := by
  intro zs z hz ha hzm
  have hnz := solveIndex_strides_ne (by simp [hl]) h
  obtain ⟨a0, rest, rfl⟩ : ∃ a0 rest, strides = a0 :: rest := by
    cases strides with
    | nil => simp at hl
    | cons a0 rest => exact ⟨a0, rest, rfl⟩
  have h0 : a0 ≠ 0 := hnz a0 (by simp)
  obtain ⟨x1, x2⟩ := C12_solve_index_sound pos _ _ (by simp [hl]) (by simp) (xs ++ [y]) h
  have hxl : xs.length = shape.length := by simpa using x1.length_eq
  cases shape with
  | nil =>
    have hr : rest = [] := by simpa using hl
    subst hr
    have hx0 : xs = [] := by simpa using hxl
    have hz0 : zs = [] := by simpa using hz
    subst hx0; subst hz0
    simp only [List.nil_append, address] at ha x2
    have : (z - y) * a0 = 0 := by linarith
    rcases mul_eq_zero.1 this with h | h
    · omega
    · exact absurd h h0
  | cons m0 ms =>
    simp only [List.length_cons] at hl hxl hz
    have hl : rest.length = ms.length + 1 := by simpa using hl
    have hr : rest ≠ [] := by rintro rfl; simp at hl
    rw [List.cons_append] at h x1
    obtain ⟨data, hdata, hg⟩ := goodData_of_ne a0 rest (m0 :: (ms ++ [m])) (by simp; omega) hnz
    obtain ⟨hd, _, dt, hdt, hdt0, hx⟩ := solveIndex_some (by simp; omega) hdata hg h0 hr h
    -- `z` as a combination
    have hzd : dotF (a0 :: rest) (fun i => (zs ++ [z]).getD i 0) = pos := by
      rw [← ha, address_eq_dotF _ _ (by simp; omega)]
    obtain ⟨t, ht⟩ := lin_complete (R := Int) a0 rest hg.ok hg.d_ne (fun i => (zs ++ [z]).getD i 0)
      (pos.fdiv (dioD a0 rest)) (by rw [hzd]; simpa using (Int.mul_fdiv_cancel' hd).symm)
    have ht := ht rest.length (by omega)
    have hy : (xs ++ [y]).getD rest.length 0 = _ := congrArg (fun l => l.getD rest.length 0) hx
    rw [candidate_getD _ _ _ (by omega)] at hy
    rw [lin_last _ _ hr] at ht hy
    have e1 : (zs ++ [z]).getD rest.length 0 = z := by
      have : rest.length = zs.length := by omega
      rw [this]; simp
    have e2 : (xs ++ [y]).getD rest.length 0 = y := by
      have : rest.length = xs.length := by omega
      rw [this]; simp
    have e3 : (ms ++ [m]).getD (rest.length - 1) 0 = m := by
      have : rest.length - 1 = ms.length := by omega
      rw [this]; simp
    rw [e1] at ht
    rw [e2, hdt0, add_zero] at hy
    simp only [Int.cast_id] at ht hy
    have hle := (last_coeff hg h0 hr (pos.fdiv (dioD a0 rest)) (t (rest.length - 1))).1 (by
      rw [e3, ← ht]; exact hzm)
    have he := dioLast_pos a0 rest h0 hr
    rw [ht, hy]
    have := mul_le_mul_of_nonneg_left hle he.le
    linarith

/-- A case of `C91_last_item`: three axes with overlapping strides; `[0, 1, 3]` is found and not
`[1, 0, 2]`, at the same position. -/
example : solveIndex 13 [2, 2, 4] [7, 4, 3] = .ok (some [0, 1, 3]) ∧ address [1, 0, 2] [7, 4, 3] = 13 := by
  decide +kernel

/-- C91, two axes.  `solve_index` returns `(x, y)` exactly if this is the solution with the largest second item below
the second size and lies in the box. -/
theorem C91_two_axes (pos : Int) (n m : Nat) (a b : Int) (ha : a ≠ 0) (hb : b ≠ 0) (x y : Int) :
    solveIndex pos [n, m] [a, b] = .ok (some [x, y]) ↔
      InBox [x, y] [n, m] ∧ x * a + y * b = pos ∧ ∀ x' y' : Int, x' * a + y' * b = pos → y' < m → y' ≤ y := by
  have hnz : ∀ c ∈ [a, b], c ≠ 0 := by simp [ha, hb]
  constructor
  · intro h
    obtain ⟨x1, x2⟩ := C12_solve_index_sound pos [n, m] [a, b] rfl (by simp) _ h
    refine ⟨x1, by simpa [address] using x2, ?_⟩
    intro x' y' he hlt
    exact C91_last_item pos [n] m [a, b] [x] y rfl h [x'] y' rfl (by simpa [address] using he) hlt
  · rintro ⟨hbox, hpos, hmax⟩
    obtain ⟨data, hdata, hg⟩ := goodData_of_ne a [b] [n, m] rfl hnz
    have hsol : solveIndex pos [n, m] [a, b] = solveIndexData pos [n, m] data := by
      simp [solveIndex, hdata, bind, Except.bind]
    have hdv : dioD a [b] ∣ pos := by
      have := dioD_dvd a [b]
      rw [← hpos]
      exact dvd_add (Dvd.dvd.mul_left (this a (by simp)) _) (Dvd.dvd.mul_left (this b (by simp)) _)
    have hk : dioD a [b] * pos.fdiv (dioD a [b]) = pos := Int.mul_fdiv_cancel' hdv
    generalize hkd : pos.fdiv (dioD a [b]) = k at *
    obtain ⟨t, ht⟩ := lin_complete (R := Int) a [b] hg.ok hg.d_ne (fun i => [x, y].getD i 0) k (by
      simp only [dotF, Int.cast_id]
      rw [hk, ← hpos]
      simp; ring)
    have hcand : ∀ dt : List Int, (candidate k a [b] data dt) =
        [(candidate k a [b] data dt).getD 0 0, (candidate k a [b] data dt).getD 1 0] := by
      intro dt
      simp [candidate, List.range_succ]
    have hadr := candidate_address hg k [0]
    have hlast : (candidate k a [b] data [0]).getD 1 0
        = k * (dioZ0 a [b]).getD 1 0 + dioLast a [b] * kq k data 0 := by
      rw [candidate_getD _ _ _ (by simp)]
      have := lin_last (R := Int) a [b] (by simp) (fun j => kq k data j + [(0 : Int)].getD j 0)
      simp only [List.length_cons, List.length_nil] at this
      rw [this]
      simp
    have hy := ht 1 (by simp)
    have := lin_last (R := Int) a [b] (by simp) t
    simp only [List.length_cons, List.length_nil, zero_add] at this
    rw [this] at hy
    simp only [Int.cast_id, List.getD_cons_succ, List.getD_cons_zero, Nat.sub_self] at hy
    have l1 := (last_coeff hg ha (by simp) k (t 0)).1 (by
      simp only [List.length_cons, List.length_nil, zero_add, Nat.sub_self, List.getD_cons_zero]
      rw [← hy]; exact hbox.2.1.2)
    have l2 := (last_coeff hg ha (by simp) k (kq k data 0)).2 (by simp)
    simp only [List.length_cons, List.length_nil, zero_add, Nat.sub_self, List.getD_cons_zero] at l1 l2
    rw [← hlast] at l2
    have l3 := hmax ((candidate k a [b] data [0]).getD 0 0) ((candidate k a [b] data [0]).getD 1 0) (by
      rw [hcand] at hadr
      simp only [address] at hadr
      linarith) l2
    rw [hlast, hy] at l3
    have he := dioLast_pos a [b] ha (by simp)
    have l4 : t 0 = kq k data 0 := by
      have : kq k data 0 ≤ t 0 := by
        by_contra hc
        push Not at hc
        nlinarith
      omega
    have hxy : candidate k a [b] data [0] = [x, y] := by
      apply list_ext_getD _ _ (by simp [candidate])
      intro i hi
      have hi : i < 2 := by simpa [candidate] using hi
      rw [candidate_getD _ _ _ (by simpa using hi), ht i (by simpa using hi)]
      congr 1
      apply lin_congr
      intro j hj
      have : j = 0 := by simpa [dioCols] using hj
      subst this
      simp [l4]
    rcases solveIndexData_spec hg rfl pos with ⟨hn, _⟩ | ⟨_, ⟨dt, hdt, hbox', hres⟩ | h⟩
    · exact absurd hdv hn
    · rw [← hsol] at hres
      obtain ⟨_, _, dt', hdt', hz, hx⟩ := solveIndex_some rfl hdata hg ha (by simp) hres
      rw [hres, hx, hkd]
      have : dt' = [0] := by
        have := ((mem_bits _ _).1 hdt').1
        simp only [List.length_cons, List.length_nil, zero_add] at this
        obtain ⟨d, rfl⟩ := List.length_eq_one_iff.1 this
        simpa using hz
      rw [this, hxy]
    · rw [hkd] at h
      exact absurd (hxy ▸ hbox) (h.1 [0] (by rw [mem_bits]; simp))

/-- A case of `C91_two_axes`: `7 = 3 x + 2 y`, the largest `y` below 4 is 2. -/
example : solveIndex 7 [4, 4] [3, 2] = .ok (some [1, 2]) ∧ solveIndex 9 [3, 4] [3, 2] = .ok (some [1, 3]) ∧
    solveIndex 9 [4, 3] [3, 2] = .ok (some [3, 0]) := by
  decide +kernel

/-- C91, two axes: otherwise `None`, never an error. -/
theorem C91_two_axes_none (pos : Int) (n m : Nat) (a b : Int) (ha : a ≠ 0) (hb : b ≠ 0)
    (h : ¬ ∃ x y : Int, InBox [x, y] [n, m] ∧ x * a + y * b = pos ∧
      ∀ x' y' : Int, x' * a + y' * b = pos → y' < m → y' ≤ y) :
    solveIndex pos [n, m] [a, b] = .ok none := by
  have hnz : ∀ c ∈ [a, b], c ≠ 0 := by simp [ha, hb]
  rcases solve_sound [a, b] [n, m] rfl (by simp) hnz pos with h1 | ⟨x, h1, h2⟩
  · exact h1
  · obtain ⟨x0, x1, rfl⟩ := List.length_eq_two.1 h2.1.length_eq
    exact absurd ⟨x0, x1, (C91_two_axes pos n m a b ha hb x0 x1).1 h1⟩ h

/-- A case of `C91_two_axes_none`: `(2, 0)` and `(0, 3)` are both at 6, but so is `(-2, 6)`, which has the largest
second item below 7. -/
example : solveIndex 6 [3, 7] [3, 2] = .ok none ∧ address [2, 0] [3, 2] = 6 ∧
    address [0, 3] [3, 2] = 6 ∧ address [-2, 6] [3, 2] = 6 ∧ solveIndex 6 [3, 6] [3, 2] = .ok (some [0, 3]) := by
  decide +kernel

/-- C91: for which layouts of two axes `solve_index` finds every element. -/
theorem C91_complete (n m : Nat) (hn : 0 < n) (hm : 0 < m) (a b : Int) (ha : a ≠ 0) (hb : b ≠ 0) :
    (∀ x y : Int, InBox [x, y] [n, m] → solveIndex (x * a + y * b) [n, m] [a, b] = .ok (some [x, y])) ↔
      (m : Int) * Int.gcd a b ≤ |a| := by
  set g : Int := (Int.gcd a b : Int) with hg
  have hgpos : 0 < g := by
    have : 0 < Int.gcd a b := Int.gcd_pos_of_ne_zero_left b ha
    rw [hg]; exact_mod_cast this
  obtain ⟨p, hp⟩ : g ∣ a := Int.gcd_dvd_left ..
  obtain ⟨q, hq⟩ : g ∣ b := Int.gcd_dvd_right ..
  have hp0 : p ≠ 0 := by rintro rfl; simp at hp; exact ha hp
  have hcop : Int.gcd p q = 1 := by
    have h1 : Int.gcd (g * p) (g * q) = g.natAbs * Int.gcd p q := Int.gcd_mul_left ..
    rw [← hp, ← hq] at h1
    have h2 : g.natAbs = Int.gcd a b := by rw [hg]; simp
    rw [h2] at h1
    have h3 : 0 < Int.gcd a b := by rw [hg] at hgpos; exact_mod_cast hgpos
    have : Int.gcd a b * 1 = Int.gcd a b * Int.gcd p q := by rw [mul_one]; exact h1
    exact (Nat.eq_of_mul_eq_mul_left h3 this).symm
  have hiff : (m : Int) * g ≤ |a| ↔ (m : Int) ≤ |p| := by
    rw [hp, abs_mul, abs_of_pos hgpos, mul_comm]
    exact mul_le_mul_iff_right₀ hgpos
  rw [hiff]
  constructor
  · intro h
    have h1 := (C91_two_axes _ n m a b ha hb 0 0).1 (h 0 0 ⟨⟨le_refl _, by exact_mod_cast hn⟩,
      ⟨le_refl _, by exact_mod_cast hm⟩, trivial⟩)
    by_contra hc
    push Not at hc
    have hpp : 0 < |p| := abs_pos.2 hp0
    rcases lt_or_gt_of_ne hp0 with hs | hs
    · have := h1.2.2 q (-p) (by rw [hp, hq]; ring) (by rw [abs_of_neg hs] at hc; exact hc)
      omega
    · have := h1.2.2 (-q) p (by rw [hp, hq]; ring) (by rw [abs_of_pos hs] at hc; exact hc)
      omega
  · intro h x y hbox
    rw [C91_two_axes _ n m a b ha hb x y]
    refine ⟨hbox, rfl, ?_⟩
    intro x' y' he hlt
    have hy0 := hbox.2.1.1
    have hdiv : p ∣ (y' - y) := by
      have h1 : g * ((x' - x) * p + (y' - y) * q) = 0 := by rw [hp, hq] at he; linear_combination he
      have h2 : (x' - x) * p + (y' - y) * q = 0 := by
        rcases mul_eq_zero.1 h1 with h | h
        · omega
        · exact h
      have h3 : p ∣ q * (y' - y) := ⟨-(x' - x), by linear_combination h2⟩
      exact Int.dvd_of_dvd_mul_right_of_gcd_one h3 hcop
    by_contra hc
    push Not at hc
    have h5 : |p| ≤ y' - y := by
      have := Int.le_of_dvd (by omega) ((abs_dvd p (y' - y)).2 hdiv)
      exact this
    omega

/-- Cases of `C91_complete`: row-major strides, a transposed array, reversed rows of a larger array, and overlapping strides
where positions still determine the index. -/
example : (3 : Int) * Int.gcd 3 1 ≤ |(3 : Int)| ∧ ¬ (3 : Int) * Int.gcd 1 2 ≤ |(1 : Int)| ∧
    (3 : Int) * Int.gcd 14 (-2) ≤ |(14 : Int)| ∧ (3 : Int) * Int.gcd 3 2 ≤ |(3 : Int)| := by
  decide

/-- C91, one axis: every element is found. -/
theorem C91_one_axis (pos : Int) (n : Nat) (a : Int) (ha : a ≠ 0) (x : Int) :
    solveIndex pos [n] [a] = .ok (some [x]) ↔ (0 ≤ x ∧ x < n) ∧ x * a = pos := by
  have hnz : ∀ c ∈ [a], c ≠ 0 := by simp [ha]
  constructor
  · intro h
    obtain ⟨x1, x2⟩ := C12_solve_index_sound pos [n] [a] rfl (by simp) _ h
    exact ⟨x1.1, by simpa [address] using x2⟩
  · rintro ⟨hbox, hpos⟩
    obtain ⟨data, hdata, hg⟩ := goodData_of_ne a [] [n] rfl hnz
    have hsol : solveIndex pos [n] [a] = solveIndexData pos [n] data := by
      simp [solveIndex, hdata, bind, Except.bind]
    have hk : pos.fdiv (dioD a []) = x := by
      rw [← hpos, dioD]; exact Int.mul_fdiv_cancel x ha
    have hc : candidate x a [] data [] = [x] := by simp [candidate, dioZ0, dioCols, lin]
    rw [hsol]
    rcases solveIndexData_spec hg rfl pos with ⟨hn, _⟩ | ⟨_, ⟨dt, hdt, _, hres⟩ | ⟨h, _⟩⟩
    · exact absurd ⟨x, by rw [← hpos, dioD]; ring⟩ hn
    · have : dt = [] := List.length_eq_zero_iff.1 ((mem_bits _ _).1 hdt).1
      rw [hres, hk, this, hc]
    · have := h [] (by rw [mem_bits]; simp)
      rw [hk, hc] at this
      exact absurd ⟨hbox, trivial⟩ this

/-- A case of `C91_one_axis`. -/
example : solveIndex (-6) [4] [-2] = .ok (some [3]) ∧ solveIndex (-8) [4] [-2] = .ok none ∧
    solveIndex 3 [4] [2] = .ok none := by
  decide +kernel

/-- C91 (defect).  With a first stride of 1 or -1, as in the column-major layout of any number of axes,
`solve_index` finds elements with the last item `m - 1` only. -/
theorem C91_unit_first (pos a : Int) (hu : a = 1 ∨ a = -1) (m0 : Nat) (shape : List Nat) (m : Nat)
    (rest xs : List Int) (y : Int) (hl : rest.length = shape.length + 1)
    (h : solveIndex pos (m0 :: shape ++ [m]) (a :: rest) = .ok (some (xs ++ [y]))) : y = m - 1 := by
  obtain ⟨x1, x2⟩ := C12_solve_index_sound pos (m0 :: shape ++ [m]) (a :: rest) (by simp [hl]) (by simp)
    (xs ++ [y]) h
  have hxl : xs.length = shape.length + 1 := by simpa using x1.length_eq
  have hym : y < m := by
    have := (inBox_getD _ _ x1 (shape.length + 1) (by simp)).2
    rw [← hxl] at this
    have e : (m0 :: shape ++ [m]).getD xs.length 0 = m := by rw [hxl]; simp
    rw [e] at this
    simpa using this
  obtain ⟨x0, xs, rfl⟩ : ∃ x0 t, xs = x0 :: t := by
    cases xs with
    | nil => simp at hxl
    | cons x0 t => exact ⟨x0, t, rfl⟩
  have hxl : xs.length = shape.length := by simpa using hxl
  obtain ⟨init, c, rfl⟩ : ∃ init c, rest = init ++ [c] := by
    rcases List.eq_nil_or_concat rest with rfl | ⟨i, c, rfl⟩
    · simp at hl
    · exact ⟨i, c, by simp⟩
  have hil : init.length = shape.length := by simpa using hl
  have hadd : ∀ (u v : List Int) (w : Int), u.length = v.length →
      address (u ++ [w]) (v ++ [c]) = address u v + w * c := by
    intro u
    induction u with
    | nil =>
      intro v w h
      have : v = [] := by simpa using h.symm
      subst this
      simp [address]
    | cons u0 u ih =>
      intro v w h
      cases v with
      | nil => simp at h
      | cons v0 v =>
        simp only [List.cons_append, address]
        rw [ih v w (by simpa using h)]
        ring
  by_contra hne
  have := C91_last_item pos (m0 :: shape) m (a :: (init ++ [c])) (x0 :: xs) y (by simp [hil]) h
    ((x0 - a * c) :: xs) (y + 1) (by simp [hxl]) (by
      rw [← x2]
      simp only [List.cons_append, address]
      rw [hadd _ _ _ (by omega), hadd _ _ _ (by omega)]
      rcases hu with rfl | rfl <;> ring) (by omega)
  omega

/-- A case of `C91_unit_first`: the column-major layout of a 2 by 3 by 2 array. -/
example : solveIndex (address [1, 2, 1] [1, 2, 6]) [2, 3, 2] [1, 2, 6] = .ok (some [1, 2, 1]) ∧
    solveIndex (address [1, 2, 0] [1, 2, 6]) [2, 3, 2] [1, 2, 6] = .ok none := by
  decide +kernel

end Gcs
