import Verif.Lemmas.RowMajor

/-!
# C08 - C16: the linear Diophantine solver and the search for an index
-/

namespace Gcs

open Spec

/-! ## C08 -/

/-- C08.  `extgcd(a, b) = (g, x, y)`: a Bezout identity, `|g| = gcd(a, b)`, and `g` has the sign of
`a` unless `a = 0`.  (Termination is part of the definition of `extgcd` in the model.) -/
theorem C08_extgcd (a b g x y : Int) (h : extgcd a b = (g, x, y)) :
    g = a * x + b * y ∧ g.natAbs = Int.gcd a b ∧ (0 < a → 0 < g) ∧ (a < 0 → g < 0) ∧ (a = 0 → g = b) := by
  have h1 := (extgcd_bezout a b).1
  have h2 := extgcd_natAbs a b
  have h3 := extgcd_sign a b
  rw [h] at h1 h2 h3
  simp only at h1 h2 h3
  refine ⟨h1, h2, fun ha => ?_, fun ha => ?_, ?_⟩
  · exact pos_of_mul_pos_right (h3 (by omega)) ha.le
  · exact neg_of_mul_pos_right (h3 (by omega)) ha.le
  · rintro rfl
    rw [extgcd_zero] at h
    simp only [Prod.mk.injEq] at h
    exact h.1.symm

/-- Cases of C08 with negative arguments. -/
example : extgcd (-12) 30 = (-6, 3, 1) ∧ extgcd 240 46 = (2, -9, 47) ∧ extgcd 0 (-7) = (-7, 0, 1) := by
  decide +kernel

/-! ## C09, C10 -/

/-- The vector `x + t[0]*zs[0] + t[1]*zs[1] + ...`. -/
def Spec.combine : List Int → List Int → List (List Int) → List Int
  | x, t :: ts, z :: zs => Spec.combine (List.zipWith (fun a b => a + t * b) x z) ts zs
  | x, _, _ => x

theorem combine_spec (x t : List Int) (zs : List (List Int)) (ht : t.length = zs.length)
    (hz : ∀ z ∈ zs, z.length = x.length) :
    (combine x t zs).length = x.length ∧
      ∀ i, (combine x t zs).getD i 0 = x.getD i 0 + lin zs (fun j => t.getD j 0) i := by
  induction zs generalizing x t with
  | nil => cases t <;> simp [combine, lin]
  | cons z zs ih =>
    obtain ⟨t0, t, rfl⟩ := List.exists_of_length_succ t (by simpa using ht)
    have hz0 : z.length = x.length := hz z (by simp)
    have hl : (List.zipWith (fun a b => a + t0 * b) x z).length = x.length := by simp [hz0]
    obtain ⟨h1, h2⟩ := ih (List.zipWith (fun a b => a + t0 * b) x z) t (by simpa using ht)
      (by intro w hw; rw [hl]; exact hz w (by simp [hw]))
    refine ⟨by rw [combine, h1, hl], fun i => ?_⟩
    rw [combine, h2]
    have e : (List.zipWith (fun a b => a + t0 * b) x z).getD i 0 = x.getD i 0 + t0 * z.getD i 0 := by
      by_cases hi : i < x.length
      · simp [List.getD_eq_getElem?_getD, hi, hz0]
      · simp [List.getD_eq_getElem?_getD, hi, hz0]
    rw [e]
    simp only [lin, List.getD_cons_zero, List.getD_cons_succ, Int.cast_id]
    ring

/-- What a call of `diophantine` that returns has computed. -/
theorem diophantine_data (a0 : Int) (rest : List Int) (c : Int) (r : Option (List Int) × List (List Int))
    (h : diophantine (a0 :: rest) c = .ok r) :
    DioOk a0 rest ∧ dioD a0 rest ≠ 0 ∧
      r = if c.fmod (dioD a0 rest) ≠ 0 then (none, [])
          else (some ((dioZ0 a0 rest).map fun z => z * c.fdiv (dioD a0 rest)), dioCols a0 rest) := by
  have key : ∀ data, initDiophantine (a0 :: rest) none = .ok data →
      DioOk a0 rest ∧ data.d = dioD a0 rest ∧ data.z0 = dioZ0 a0 rest ∧ data.zs = dioCols a0 rest := by
    intro data hd
    cases rest with
    | nil =>
      simp only [initDiophantine, pure, Except.pure, Except.ok.injEq] at hd
      subst hd
      exact ⟨trivial, rfl, rfl, rfl⟩
    | cons a1 rest =>
      by_cases hz : ∃ a ∈ a0 :: a1 :: rest, a = 0
      · obtain ⟨e, he⟩ := initDiophantine_zero a0 a1 rest none hz
        rw [he] at hd; cases hd
      · have hnz : ∀ a ∈ a0 :: a1 :: rest, a ≠ 0 := fun a ha h0 => hz ⟨a, ha, h0⟩
        obtain ⟨data', h1, h2, h3, h4, _⟩ := initDiophantine_ok a0 a1 rest none hnz (by intro sh hsh; cases hsh)
        rw [h1] at hd
        cases hd
        exact ⟨DioOk.of_ne (hnz a0 (by simp)) _, h2, h3, h4⟩
  simp only [diophantine, bind, Except.bind] at h
  cases hi : initDiophantine (a0 :: rest) none with
  | error e => rw [hi] at h; cases h
  | ok data =>
    obtain ⟨k1, k2, k3, k4⟩ := key data hi
    rw [hi] at h
    simp only [pyMod, pyDiv, k2, k3, k4, pure, Except.pure] at h
    by_cases hd : dioD a0 rest = 0
    · simp [hd] at h
    · refine ⟨k1, hd, ?_⟩
      simp only [hd, if_false] at h
      by_cases hc : c.fmod (dioD a0 rest) ≠ 0
      · rw [if_pos hc] at h ⊢
        cases h; rfl
      · rw [if_neg hc] at h ⊢
        cases h; rfl

theorem getD_map_mul (l : List Int) (k : Int) (i : Nat) :
    (l.map fun z => z * k).getD i 0 = l.getD i 0 * k := by
  by_cases hi : i < l.length <;> simp [List.getD_eq_getElem?_getD, hi]

/-- C09.  When `diophantine(a, c)` returns `(x0, zs)`, its solutions are exactly the vectors
`x0 + t[0]*zs[0] + ...`, and each solution is given by exactly one `t`. -/
theorem C09_diophantine_complete (a : List Int) (ha : a ≠ []) (c : Int) (x0 : List Int)
    (zs : List (List Int)) (h : diophantine a c = .ok (some x0, zs)) :
    (∀ x : List Int, (x.length = a.length ∧ address x a = c) ↔
      ∃ t : List Int, t.length = zs.length ∧ x = combine x0 t zs) ∧
    ∀ t u : List Int, t.length = zs.length → u.length = zs.length →
      combine x0 t zs = combine x0 u zs → t = u := by
  cases a with
  | nil => exact absurd rfl ha
  | cons a0 rest =>
    obtain ⟨hok, hd, hr⟩ := diophantine_data a0 rest c _ h
    by_cases hc : c.fmod (dioD a0 rest) ≠ 0
    · rw [if_pos hc] at hr; cases hr
    · rw [if_neg hc] at hr
      simp only [Prod.mk.injEq, Option.some.injEq] at hr
      obtain ⟨rfl, rfl⟩ := hr
      set k := c.fdiv (dioD a0 rest) with hk
      have hck : dioD a0 rest * k = c :=
        Int.mul_fdiv_cancel' (Int.dvd_iff_fmod_eq_zero.2 (by simpa using hc))
      have hlen : ((dioZ0 a0 rest).map fun z => z * k).length = rest.length + 1 := by
        simp [dioZ0_length]
      have hzl : ∀ z ∈ dioCols a0 rest, z.length = ((dioZ0 a0 rest).map fun z => z * k).length := by
        intro z hz; rw [hlen]; exact dioCols_mem_length a0 rest z hz
      have hcomb := fun t ht => combine_spec ((dioZ0 a0 rest).map fun z => z * k) t (dioCols a0 rest) ht hzl
      refine ⟨fun x => ⟨?_, ?_⟩, ?_⟩
      · rintro ⟨hx, hxc⟩
        rw [address_eq_dotF x _ hx, ← hck] at hxc
        obtain ⟨t, ht⟩ := lin_complete (R := Int) a0 rest hok hd (fun i => x.getD i 0) k (by simpa using hxc)
        refine ⟨(List.range rest.length).map t, by simp [dioCols_length], ?_⟩
        obtain ⟨c1, c2⟩ := hcomb ((List.range rest.length).map t) (by simp [dioCols_length])
        apply list_ext_getD
        · rw [c1, hlen, hx]; rfl
        · intro i hi
          rw [c2, getD_map_mul, ht i (by simpa [hx] using hi)]
          have : lin (dioCols a0 rest) t i
              = lin (dioCols a0 rest) (fun j => ((List.range rest.length).map t).getD j 0) i := by
            apply lin_congr
            intro j hj
            rw [dioCols_length] at hj
            simp [List.getD_eq_getElem?_getD, hj]
          rw [this]
          simp only [Int.cast_id]
          ring
      · rintro ⟨t, ht, rfl⟩
        obtain ⟨c1, c2⟩ := hcomb t ht
        refine ⟨by rw [c1, hlen]; rfl, ?_⟩
        rw [address_eq_dotF _ _ (by rw [c1, hlen]; rfl)]
        rw [dotF_congr _ _ (fun i => k * (dioZ0 a0 rest).getD i 0
          + lin (dioCols a0 rest) (fun j => t.getD j 0) i) fun i _ => by rw [c2, getD_map_mul]; ring]
        rw [dotF_add, dotF_smul, dotF_lin a0 rest hok]
        have := dotF_z0 (R := Int) a0 rest hok
        simp only [Int.cast_id] at this
        rw [this, ← hck]; ring
      · intro t u ht hu htu
        obtain ⟨_, c2⟩ := hcomb t ht
        obtain ⟨_, d2⟩ := hcomb u hu
        have key : ∀ i < rest.length + 1,
            lin (dioCols a0 rest) (fun j => t.getD j 0 - u.getD j 0) i = 0 := by
          intro i _
          have e1 := c2 i
          have e2 := d2 i
          rw [htu] at e1
          rw [lin_sub]
          linarith
        have h0 := lin_injective a0 rest hok _ key
        rw [dioCols_length] at ht hu
        apply list_ext_getD _ _ (by rw [ht, hu])
        intro j hj
        have := h0 j (by omega)
        linarith

/-- A case of C09: `6*x + 10*y + 15*z = 7`. -/
example : diophantine [6, 10, 15] 7 = .ok (some [-98, 49, 7], [[-5, 3, 0], [-30, 15, 2]]) := by
  decide +kernel

/-- C10.  For non-zero coefficients `diophantine(a, c)` returns, and it returns `(None, ())` exactly
when the equation has no solution. -/
theorem C10_diophantine_none (a : List Int) (ha : a ≠ []) (hnz : ∀ v ∈ a, v ≠ 0) (c : Int) :
    (∃ r, diophantine a c = .ok r) ∧
    (diophantine a c = .ok (none, []) ↔ ∀ x : List Int, x.length = a.length → address x a ≠ c) := by
  cases a with
  | nil => exact absurd rfl ha
  | cons a0 rest =>
    have hex : ∃ r, diophantine (a0 :: rest) c = .ok r := by
      have hdata : ∃ data, initDiophantine (a0 :: rest) none = .ok data ∧ data.d ≠ 0 := by
        cases rest with
        | nil => exact ⟨_, rfl, hnz a0 (by simp)⟩
        | cons a1 rest =>
          obtain ⟨data', h1, h2, _⟩ := initDiophantine_ok a0 a1 rest none hnz (by intro sh hsh; cases hsh)
          exact ⟨data', h1, by rw [h2]; exact (DioOk.of_ne (hnz a0 (by simp)) (a1 :: rest)).d_ne_zero (by simp)⟩
      obtain ⟨data, h1, h2⟩ := hdata
      simp only [diophantine, h1, bind, Except.bind, pyMod, pyDiv, h2, if_false, pure, Except.pure]
      split_ifs <;> exact ⟨_, rfl⟩
    refine ⟨hex, ?_⟩
    obtain ⟨r, hr⟩ := hex
    obtain ⟨hok, hd, hr'⟩ := diophantine_data a0 rest c r hr
    constructor
    · intro h x hx hxc
      rw [h] at hr
      cases hr
      by_cases hc : c.fmod (dioD a0 rest) ≠ 0
      · apply hc
        apply Int.dvd_iff_fmod_eq_zero.1
        rw [← hxc, address_eq_dotF x _ hx]
        have hdvd : ∀ v ∈ a0 :: rest, dioD a0 rest ∣ v := dioD_dvd a0 rest
        have : ∀ (l : List Int) (f : Nat → Int), (∀ v ∈ l, dioD a0 rest ∣ v) → dioD a0 rest ∣ dotF l f := by
          intro l
          induction l with
          | nil => intro f _; exact Int.dvd_zero _
          | cons v l ih =>
            intro f hl
            simp only [dotF, Int.cast_id]
            exact Int.dvd_add (Dvd.dvd.mul_right (hl v (by simp)) _) (ih _ fun w hw => hl w (by simp [hw]))
        exact this _ _ hdvd
      · rw [if_neg hc] at hr'
        simp at hr'
    · intro h
      by_cases hc : c.fmod (dioD a0 rest) ≠ 0
      · rw [hr, hr', if_pos hc]
      · exfalso
        rw [if_neg hc] at hr'
        have := (C09_diophantine_complete (a0 :: rest) (by simp) c _ _ (hr.trans (congrArg _ hr'))).1
        have h1 := (this (combine ((dioZ0 a0 rest).map fun z => z * c.fdiv (dioD a0 rest))
          (List.replicate (dioCols a0 rest).length 0) (dioCols a0 rest))).2 ⟨_, by simp, rfl⟩
        exact h _ h1.1 h1.2

/-- Both answers of C10 occur. -/
example : diophantine [6, -10] 4 = .ok (some [4, 2], [[5, 3]]) ∧ diophantine [6, -10] 5 = .ok (none, []) := by
  decide +kernel

/-! ## C11 -/

/-- C11.  With two or more axes, `init_diophantine(strides, shape)` returns normally exactly when no
stride is zero (in particular no pivot assertion fails and nothing is divided by zero), and then all
`D` are positive.  With one axis it always returns. -/
theorem C11_elimination (strides : List Int) (shape : List Nat) (hl : shape.length = strides.length) :
    (strides.length ≤ 1 → ∃ data, initDiophantine strides (some shape) = .ok data) ∧
    (2 ≤ strides.length →
      ((∃ data, initDiophantine strides (some shape) = .ok data) ↔ ∀ a ∈ strides, a ≠ 0)) ∧
    ∀ data, initDiophantine strides (some shape) = .ok data → ∀ D ∈ data.D, 0 < D := by
  match strides, hl with
  | [], hl =>
    exact ⟨fun _ => ⟨_, rfl⟩, by simp, fun data h => by
      simp only [initDiophantine, pure, Except.pure, Except.ok.injEq] at h; subst h; simp⟩
  | [a0], hl =>
    exact ⟨fun _ => ⟨_, rfl⟩, by simp, fun data h => by
      simp only [initDiophantine, pure, Except.pure, Except.ok.injEq] at h; subst h; simp⟩
  | a0 :: a1 :: rest, hl =>
    refine ⟨by simp, fun _ => ⟨?_, ?_⟩, ?_⟩
    · rintro ⟨data, hd⟩ a ha h0
      obtain ⟨e, he⟩ := initDiophantine_zero a0 a1 rest (some shape) ⟨a, ha, h0⟩
      rw [he] at hd; cases hd
    · intro hnz
      obtain ⟨data, h1, _⟩ := initDiophantine_ok a0 a1 rest (some shape) hnz (by
        rintro sh ⟨⟩; simp at hl; omega)
      exact ⟨data, h1⟩
    · intro data hd
      by_cases hz : ∃ a ∈ a0 :: a1 :: rest, a = 0
      · obtain ⟨e, he⟩ := initDiophantine_zero a0 a1 rest (some shape) hz
        rw [he] at hd; cases hd
      · obtain ⟨data', h1, _, _, _, h5, _, _, h8, _⟩ := initDiophantine_ok a0 a1 rest (some shape)
          (fun a ha h0 => hz ⟨a, ha, h0⟩) (by rintro sh ⟨⟩; simp at hl; omega)
        rw [h1] at hd; cases hd
        intro D hD
        obtain ⟨j, hj, rfl⟩ := List.getElem_of_mem hD
        have := h8 j (by omega)
        rwa [List.getD_eq_getElem?_getD, List.getElem?_eq_getElem hj, Option.getD_some] at this

/-- A case of C11 with a negative stride and three axes. -/
example : (initDiophantine [12, -4, 1] (some [2, 3, 4])).toOption.map (fun d => (d.d, d.D)) = some (1, [12, 4]) := by
  decide +kernel

/-! ## C12 -/

/-- `solve_index` returns an index only if no stride is 0. -/
theorem solveIndex_strides_ne {pos : Int} {shape : List Nat} {strides : List Int}
    (hl : strides.length = shape.length) {index : List Int}
    (h : solveIndex pos shape strides = .ok (some index)) : ∀ a ∈ strides, a ≠ 0 := by
  intro a ha h0
  match strides, hl, ha, h with
  | [a0], hl, ha, h =>
    have : a0 = 0 := by rw [← h0]; exact (List.mem_singleton.1 ha).symm
    subst this
    obtain ⟨n, rfl⟩ := List.length_eq_one_iff.1 (show shape.length = 1 by simpa using hl.symm)
    simp [solveIndex, initDiophantine, solveIndexData, pyMod, pyAssert, bind, Except.bind, pure,
      Except.pure] at h
  | a0 :: a1 :: rest, hl, ha, h =>
    obtain ⟨e, he⟩ := initDiophantine_zero a0 a1 rest (some shape) ⟨a, ha, h0⟩
    simp [solveIndex, he, bind, Except.bind] at h

/-- C12.  If `solve_index` returns an index then the index is in the box and has the asked position.
(Hence it returns no index for a position that no index of the box has.) -/
theorem C12_solve_index_sound (pos : Int) (shape : List Nat) (strides : List Int)
    (hl : strides.length = shape.length) (hne : shape ≠ []) (index : List Int)
    (h : solveIndex pos shape strides = .ok (some index)) :
    InBox index shape ∧ address index strides = pos := by
  have hnz := solveIndex_strides_ne hl h
  rcases solve_sound strides shape hl hne hnz pos with h1 | ⟨x, h1, h2⟩
  · rw [h1] at h; cases h
  · rw [h1] at h; cases h; exact h2

/-- A case of C12: overlapping strides, where positions do not determine the index. -/
example : solveIndex 7 [4, 4] [3, 2] = .ok (some [1, 2]) ∧ solveIndex 16 [4, 4] [3, 2] = .ok none := by
  decide +kernel

/-! ## C13, C14 -/

/-- C12 for the function of the tests: `dot(strides, index)` is the position of the index, also for tuples of different lengths. -/
theorem C12_dot (a b : List Int) : dot a b = address b a := by
  have h : ∀ (a b : List Int) (z : Int), (List.zipWith (· * ·) a b).foldl (· + ·) z = z + address b a := by
    intro a
    induction a with
    | nil => intro b z; cases b <;> simp [address]
    | cons x a ih =>
      intro b z
      cases b with
      | nil => simp [address]
      | cons y b =>
        simp only [List.zipWith_cons_cons, List.foldl_cons, ih, address]
        ring
  rw [dot, h, zero_add]

/-- A case of `C12_dot`. -/
example : dot [12, 4, 1] [1, 0, 2] = 14 ∧ dot [12, 4] [1, 2, 3] = 20 := by decide

/-- C13.  `solve_index` inverts row-major addressing. -/
theorem C13_solve_index_contiguous (shape : List Nat) (hp : ∀ n ∈ shape, 0 < n) (hne : shape ≠ [])
    (index : List Int) (hi : InBox index shape) :
    getPosition index shape (makeStrides shape) = .ok (rowMajor index shape 0) ∧
      solveIndex (rowMajor index shape 0) shape (makeStrides shape) = .ok (some index) := by
  obtain ⟨h1, h2⟩ := makeStrides_chain shape hp
  have e := rowMajor_eq index shape 0 hi.length_eq
  rw [zero_mul, zero_add] at e
  rw [e]
  exact ⟨getPosition_ok _ _ _ hi.length_eq (makeStrides_length _), solve_chain h1 h2 hne index hi⟩

/-- A case of C13. -/
example : rowMajor [1, 0, 2] [2, 3, 4] 0 = 14 ∧
    solveIndex 14 [2, 3, 4] (makeStrides [2, 3, 4]) = .ok (some [1, 0, 2]) := by
  decide +kernel

/-- C14.  Take any slice of a contiguous array that keeps at least one axis.  For each element of the
slice, `solve_index` on its position in the array minus the offset of the slice returns its index in
the slice; for each other element of the array it returns `None`. -/
theorem C14_solve_index_slice (index : Index) (shape : List Nat) (hp : ∀ n ∈ shape, 0 < n)
    (hv : ValidItems (items index) shape) (hk : selShape (items index) shape ≠ []) :
    ∃ nix sh st off, normalizeIndex index shape = .ok nix ∧
      indexStrided nix shape (makeStrides shape) = .ok (sh, st, off) ∧
      sh = selShape (items index) shape ∧
      (∀ j, InBox j sh →
        solveIndex (rowMajor (selSource (items index) shape j) shape 0 - off) sh st = .ok (some j)) ∧
      ∀ x, InBox x shape → (∀ j, InBox j sh → selSource (items index) shape j ≠ x) →
        solveIndex (rowMajor x shape 0 - off) sh st = .ok none := by
  obtain ⟨nix, st, off, h1, h2, h3, h4, h5⟩ := index_ok index shape (makeStrides shape) hp hv (makeStrides_length _)
  obtain ⟨c1, c2⟩ := indexStrided_chain nix shape hp h2 _ _ _ h3
  have hrm : ∀ x, InBox x shape → rowMajor x shape 0 = address x (makeStrides shape) := by
    intro x hx
    have := rowMajor_eq x shape 0 hx.length_eq
    rwa [zero_mul, zero_add] at this
  refine ⟨nix, _, st, off, h1, h3, rfl, fun j hj => ?_, fun x hx hne => ?_⟩
  · obtain ⟨h6, h7⟩ := h5 j hj
    rw [hrm _ h6, ← h7, show address j st + off - off = address j st by ring]
    exact solve_chain c1 c2 hk j hj
  · rcases solve_sound st _ h4 hk c2 (rowMajor x shape 0 - off) with h | ⟨j, h, hj, hja⟩
    · exact h
    · exfalso
      obtain ⟨h6, h7⟩ := h5 j hj
      apply hne j hj
      have e : address (selSource (items index) shape j) (makeStrides shape) = address x (makeStrides shape) := by
        rw [← h7, hja, hrm x hx]; ring
      obtain ⟨d1, d2⟩ := makeStrides_chain shape hp
      cases shape with
      | nil =>
        have := h6.length_eq
        have := hx.length_eq
        simp_all
      | cons n shape =>
        rw [makeStrides_cons] at d1 d2 e
        obtain ⟨S, m, e1, _, _, e2, _, e3⟩ := d1
        exact chain_injective (product shape) (makeStrides shape) n shape S e1 e2 (d2 _ (by simp))
          (fun a ha => d2 a (by simp [ha])) e3 _ _ h6 hx e

/-- A case of C14: `a[::-2, 1::3]` of a 5x7 array; element (2, 4) is at `[1, 1]` of the slice, element
(2, 3) is not in it. -/
example :
    let index : Index := .tuple [.slice ⟨none, none, some (-2)⟩, .slice ⟨some 1, none, some 3⟩]
    ValidItems (items index) [5, 7] ∧ selShape (items index) [5, 7] = [3, 2] ∧
      selSource (items index) [5, 7] [1, 1] = [2, 4] ∧
      (do let nix ← normalizeIndex index [5, 7]; indexStrided nix [5, 7] [7, 1]) = .ok ([3, 2], [-14, 3], 29) ∧
      solveIndex (rowMajor [2, 4] [5, 7] 0 - 29) [3, 2] [-14, 3] = .ok (some [1, 1]) ∧
      solveIndex (rowMajor [2, 3] [5, 7] 0 - 29) [3, 2] [-14, 3] = .ok none := by
  refine ⟨?_, by decide, by decide, by decide, by decide +kernel, by decide +kernel⟩
  simp [items, ValidItems]

/-! ## C15, C16 -/

/-- C15 (defect).  Without axes `solve_index` accepts every position, though `0 = pos` has a solution
only for `pos = 0`. -/
theorem C15_solve_index_no_axes (pos : Int) :
    solveIndex pos [] [] = .ok (some []) ∧ (pos ≠ 0 → address [] [] ≠ pos) := by
  refine ⟨?_, fun h => by simpa [address] using h.symm⟩
  simp [solveIndex, initDiophantine, solveIndexData, pyMod, pyDiv, pyAssert, bind, Except.bind, pure,
    Except.pure, bits, tryDts, addKernel, inBox, axpy]

theorem initDioRec_error (a0 : Int) (rest : List Int) (e : PyErr) (h : initDioRec a0 rest = .error e) :
    e = .zeroDivision := by
  induction rest generalizing a0 with
  | nil => simp [initDioRec, pure, Except.pure] at h
  | cons a1 rest ih =>
    simp only [initDioRec, bind, Except.bind, pyDiv] at h
    by_cases hd : (extgcd a0 a1).1 = 0
    · simp only [hd, if_true] at h; cases h; rfl
    · simp only [hd, if_false] at h
      cases hr : initDioRec (extgcd a0 a1).1 rest with
      | error e' =>
        rw [hr] at h
        cases h
        exact ih _ hr
      | ok r => rw [hr] at h; cases h

theorem gaussLoop_error (A : List (List Int)) (is : List Nat) (e : PyErr) (h : gaussLoop A is = .error e) :
    e = .assertion := by
  induction is generalizing A with
  | nil => cases h
  | cons i is ih =>
    simp only [gaussLoop, bind, Except.bind] at h
    cases hs : gaussStep A i with
    | ok A' => rw [hs] at h; exact ih A' h
    | error e' =>
      rw [hs] at h
      cases h
      simp only [gaussStep, pyAssert, bind, Except.bind] at hs
      split at hs
      · rename_i heq
        split at heq
        · cases heq
        · cases heq; cases hs; rfl
      · split at hs
        · rename_i heq
          split at heq
          · cases heq
          · cases heq; cases hs; rfl
        · cases hs

theorem mapM_error {α β : Type} (P : PyErr → Prop) (f : α → PyM β) (hf : ∀ a e, f a = .error e → P e)
    (l : List α) (e : PyErr) (h : l.mapM f = .error e) : P e := by
  induction l with
  | nil => simp [pure, Except.pure] at h
  | cons a l ih =>
    rw [List.mapM_cons] at h
    simp only [bind, Except.bind] at h
    cases ha : f a with
    | error e' => rw [ha] at h; cases h; exact hf a _ ha
    | ok b =>
      rw [ha] at h
      cases hl : l.mapM f with
      | error e' => rw [hl] at h; cases h; exact ih hl
      | ok bs => rw [hl] at h; cases h

theorem initDiophantine_error (a : List Int) (shape : List Nat) (hl : shape.length = a.length) (e : PyErr)
    (h : initDiophantine a (some shape) = .error e) : e = .assertion ∨ e = .zeroDivision := by
  match a, hl with
  | [], _ => cases h
  | [a0], _ => cases h
  | a0 :: a1 :: rest, hl =>
    simp only [initDiophantine, bind, Except.bind] at h
    cases hr : initDioRec a0 (a1 :: rest) with
    | error e' => rw [hr] at h; cases h; exact .inr (initDioRec_error _ _ _ hr)
    | ok r =>
      rw [hr] at h
      simp only [Option.getD_some, hl, lt_self_iff_false, if_false, pure, Except.pure] at h
      split at h
      · rename_i hg
        cases h
        exact .inl (gaussLoop_error _ _ _ hg)
      · split at h
        · rename_i hm
          cases h
          right
          refine mapM_error (· = .zeroDivision) _ ?_ _ _ hm
          intro i e' hn
          simp only [normalizeRow] at hn
          split at hn
          · refine mapM_error (· = .zeroDivision) _ ?_ _ _ hn
            intro x e'' hx
            simp only [pyDiv] at hx
            split at hx
            · cases hx; rfl
            · cases hx
          · cases hn
        · cases h

/-- C16.  With two or more axes, a zero among the strides makes `init_diophantine` raise
`AssertionError` or `ZeroDivisionError`; so does `solve_index`, whatever position is asked. -/
theorem C16_zero_stride (strides : List Int) (shape : List Nat) (hl : shape.length = strides.length)
    (h2 : 2 ≤ strides.length) (hz : (0 : Int) ∈ strides) :
    ∃ e, (e = .assertion ∨ e = .zeroDivision) ∧ initDiophantine strides (some shape) = .error e ∧
      ∀ pos, solveIndex pos shape strides = .error e := by
  match strides, h2, hl with
  | a0 :: a1 :: rest, _, hl =>
    obtain ⟨e, he⟩ := initDiophantine_zero a0 a1 rest (some shape) ⟨0, hz, rfl⟩
    exact ⟨e, initDiophantine_error _ shape hl e he, he, fun pos => by
      simp [solveIndex, he, bind, Except.bind]⟩

/-- Cases of C16: a zero stride first, and last. -/
example : initDiophantine [0, 3] (some [2, 3]) = .error .assertion ∧
    initDiophantine [3, 0] (some [2, 3]) = .error .assertion ∧
    initDiophantine [0, 0] (some [2, 3]) = .error .zeroDivision := by
  decide +kernel

/-! ## C51 -/

/-- C51 (defect).  For the column-major layout of an `n` by `m` array, strides `(1, n)`, positions
determine indices, but `solve_index` finds the index `(i, j)` only for the last column `j = m - 1`;
for every other element it returns `None`. -/
theorem C51_solve_index_column_major (n m : Nat) (i j : Int) (h : InBox [i, j] [n, m]) :
    (∀ i' j', InBox [i', j'] [n, m] → address [i', j'] [1, n] = address [i, j] [1, n] → i' = i ∧ j' = j) ∧
      solveIndex (address [i, j] [1, n]) [n, m] [1, n] = .ok (if j = m - 1 then some [i, j] else none) := by
  obtain ⟨⟨hi0, hi1⟩, ⟨hj0, hj1⟩, _⟩ := h
  have hn : (n : Int) ≠ 0 := by omega
  constructor
  · rintro i' j' ⟨⟨a0, a1⟩, ⟨b0, b1⟩, _⟩ he
    simp only [address] at he
    have hj : j' = j := by
      have h1 : (i' + n * j') / (n : Int) = j' := by
        rw [Int.add_mul_ediv_left _ _ hn, Int.ediv_eq_zero_of_lt a0 a1, zero_add]
      have h2 : (i + n * j) / (n : Int) = j := by
        rw [Int.add_mul_ediv_left _ _ hn, Int.ediv_eq_zero_of_lt hi0 hi1, zero_add]
      rw [← h1, ← h2]; congr 1; linarith
    subst hj
    exact ⟨by linarith, rfl⟩
  · obtain ⟨data, h1, hg⟩ := goodData_of_ne 1 [(n : Int)] [n, m] rfl (by
      intro a ha
      simp only [List.mem_cons, List.not_mem_nil, or_false] at ha
      rcases ha with rfl | rfl
      · decide
      · exact hn)
    have hx : extgcd 1 n = (1, 1, 0) := extgcd_of_dvd 1 n (by decide) (Int.one_dvd _)
    have e1 : dioD 1 [(n : Int)] = 1 := by simp [dioD, hx]
    have e2 : dioZ0 1 [(n : Int)] = [1, 0] := by simp [dioZ0, hx]
    have e3 : dioCols 1 [(n : Int)] = [[-(n : Int), 1]] := by simp [dioCols, hx]
    have hD := hg.D_pos 0 (by simp)
    have hsol := hg.sol (by simp)
    rw [e2, e3] at hsol
    simp only [List.length_cons, List.length_nil] at hsol
    have hb : data.b.getD 0 0 = 0 := by
      have := hsol (fun c => if c = 1 then 1 else if c = 3 then -1 else if c = 4 then 1 else 0) (by
        intro k hk
        have : k = 0 ∨ k = 1 ∨ k = 2 ∨ k = 3 := by omega
        rcases this with rfl | rfl | rfl | rfl <;>
          simp [dioMatrix, dioRowLo, dioRowHi, List.range_succ, dotF]) 0 (by simp)
      simpa using this
    have hs : (data.s.getD []).getD 0 0 = data.D.getD 0 0 * ((m : Int) - 1) := by
      have := hsol (fun c => if c = 0 then 1 - (m : ℚ) else if c = 1 then n * (1 - (m : ℚ))
          else if c = 2 then m - 1 else if c = 3 then n - 1 - n * (1 - (m : ℚ)) else if c = 5 then 1 else 0) (by
        intro k hk
        have : k = 0 ∨ k = 1 ∨ k = 2 ∨ k = 3 := by omega
        rcases this with rfl | rfl | rfl | rfl <;>
          simp [dioMatrix, dioRowLo, dioRowHi, List.range_succ, dotF] <;> ring) 0 (by simp)
      simp only [if_true, Nat.reduceMul, Nat.reduceAdd, OfNat.ofNat_ne_zero, OfNat.ofNat_ne_one, if_false,
        Nat.reduceEqDiff, mul_zero, mul_one, add_zero] at this
      have h3 : (((data.s.getD []).getD 0 0 : Int) : ℚ) = ((data.D.getD 0 0 * ((m : Int) - 1) : Int) : ℚ) := by
        push_cast
        linarith
      exact_mod_cast h3
    have hq : ∀ k, kq k data 0 = (m : Int) - 1 := by
      intro k
      rw [kq, hb, hs, zero_mul, zero_add, Int.mul_fdiv_cancel_left _ (by omega)]
    have hcand : ∀ (k t : Int), candidate k 1 [(n : Int)] data [t] = [k - n * (m - 1 + t), m - 1 + t] := by
      intro k t
      simp only [candidate, e2, e3, List.length_cons, List.length_nil, List.range_succ, List.range_zero,
        List.nil_append, List.map_append, List.map_cons, List.map_nil, List.singleton_append, lin,
        List.getD_cons_zero, List.getD_cons_succ, hq, Int.cast_id]
      congr 1
      · ring
      · congr 1; ring
    have e : solveIndex (address [i, j] [1, n]) [n, m] [1, n]
        = solveIndexData (address [i, j] [1, n]) [n, m] data := by
      simp only [solveIndex, h1, bind, Except.bind]
    rw [e]
    have hspec := solveIndexData_spec hg rfl (address [i, j] [1, n])
    rw [e1, Int.fdiv_one] at hspec
    have hpos : address [i, j] [1, (n : Int)] = i + n * j := by simp [address]; ring
    have hb1 : ∀ dt, dt ∈ bits [(n : Int)].length ↔ dt = [0] ∨ dt = [1] := by
      intro dt; simp [bits]
    have h1box : ¬ InBox (candidate (address [i, j] [1, n]) 1 [(n : Int)] data [1]) [n, m] := by
      rw [hcand]
      rintro ⟨_, ⟨_, h⟩, _⟩
      omega
    rcases hspec with ⟨h, _⟩ | ⟨_, ⟨dt, hdt, hbx, hr⟩ | ⟨hno, hr⟩⟩
    · exact absurd (Int.one_dvd _) h
    · rcases (hb1 dt).1 hdt with rfl | rfl
      · rw [hr]
        rw [hcand, hpos] at hbx ⊢
        obtain ⟨⟨c1, c2⟩, _⟩ := hbx
        have hjm : j = m - 1 := by
          by_contra hne
          have : j + 1 ≤ m - 1 := by omega
          have h5 : (n : Int) * (j + 1) ≤ n * (m - 1) := Int.mul_le_mul_of_nonneg_left this (by omega)
          have h6 : (n : Int) * (j + 1) = n * j + n := by ring
          rw [add_zero] at c1
          linarith
        rw [if_pos hjm, hjm]
        simp
      · exact absurd hbx h1box
    · rw [hr]
      have hjm : j ≠ m - 1 := by
        intro hjm
        apply hno [0] ((hb1 _).2 (.inl rfl))
        rw [hcand, hpos, hjm]
        refine ⟨⟨?_, ?_⟩, ⟨?_, ?_⟩, trivial⟩ <;> simp <;> omega
      rw [if_neg hjm]

/-- A case of C51: a 2 by 3 array. -/
example : solveIndex 0 [2, 3] [1, 2] = .ok none ∧ solveIndex 5 [2, 3] [1, 2] = .ok (some [1, 2]) := by
  decide +kernel

end Gcs
