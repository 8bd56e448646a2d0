import Verif.Lemmas.Gauss

/-!
# `init_diophantine`
-/

namespace Gcs

theorem DioOk.of_ne {a0 : Int} (h : a0 ≠ 0) (rest : List Int) : DioOk a0 rest := by
  induction rest generalizing a0 with
  | nil => trivial
  | cons a1 rest ih => exact ⟨extgcd_ne_zero a0 a1 h, ih (extgcd_ne_zero a0 a1 h)⟩

section Rows

variable {R : Type} [CommRing R]

theorem dotF_map_lin (zs : List (List Int)) (i : Nat) (v : Nat → R) :
    dotF (zs.map fun z => z.getD i 0) v = lin zs v i := by
  induction zs generalizing v with
  | nil => rfl
  | cons z zs ih => simp only [List.map_cons, dotF, lin, ih]; ring

theorem dotF_map_neg_lin (zs : List (List Int)) (i : Nat) (v : Nat → R) :
    dotF (zs.map fun z => -(z.getD i 0)) v = -lin zs v i := by
  induction zs generalizing v with
  | nil => simp [dotF, lin]
  | cons z zs ih => simp only [List.map_cons, dotF, lin, ih]; push_cast; ring

theorem dotF_range_unit (K i : Nat) (v : Nat → R) :
    dotF ((List.range K).map fun (j : Nat) => if i = j then (1 : Int) else 0) v
      = if i < K then v i else 0 := by
  rw [dotF_eq_sum]
  simp only [List.length_map, List.length_range]
  have : ∀ j ∈ Finset.range K,
      ((((List.range K).map fun (j : Nat) => if i = j then (1 : Int) else 0).getD j 0 : Int) : R) * v j
        = if i = j then v j else 0 := by
    intro j hj
    have hj := Finset.mem_range.1 hj
    simp only [List.getD_eq_getElem?_getD, List.getElem?_map, List.getElem?_range hj, Option.map_some,
      Option.getD_some]
    split <;> simp
  rw [Finset.sum_congr rfl this, Finset.sum_ite_eq]
  simp

theorem rowHi_unit (K N i : Nat) (hK : K = N + 1) (hi : i < N) :
    ((List.range K).map fun (j : Nat) => if (i : Int) = (j : Int) - N then (1 : Int) else 0)
      = (List.range K).map fun (j : Nat) => if N + i = j then (1 : Int) else 0 := by
  apply List.map_congr_left
  intro j hj
  have := List.mem_range.1 hj
  have : ((i : Int) = (j : Int) - N) ↔ N + i = j := by omega
  simp [this]

theorem dotF_rowLo (N n : Nat) (zs : List (List Int)) (z0 : List Int) (shape : Option (List Nat)) (i : Nat)
    (hn : n + 1 = N) (hz : zs.length = n) (hi : i < N) (v : Nat → R) :
    dotF (dioRowLo N n zs z0 shape i) v
      = lin zs v i + v (n + i) - (z0.getD i 0 : Int) * v (2 * N) := by
  unfold dioRowLo
  rw [dotF_append, dotF_append, dotF_append, dotF_map_lin, dotF_range_unit]
  have h1 : i < 2 * N - n := by omega
  simp only [List.length_append, List.length_map, List.length_range, h1, if_true, hz, dotF]
  have e1 : i + n = n + i := by omega
  have e2 : 0 + (n + (2 * N - n)) = 2 * N := by omega
  rw [e1, e2]
  cases shape <;> simp [dotF] <;> ring

theorem dotF_rowHi (N n : Nat) (zs : List (List Int)) (z0 : List Int) (shape : Option (List Nat)) (i : Nat)
    (hn : n + 1 = N) (hz : zs.length = n) (hi : i < N) (v : Nat → R) :
    dotF (dioRowHi N n zs z0 shape i) v
      = -lin zs v i + (if i = 0 then v (2 * N - 1) else 0) + (z0.getD i 0 : Int) * v (2 * N)
        + (match shape with | none => 0 | some sh => (1 - ((sh.getD i 0 : Nat) : R)) * v (2 * N + 1)) := by
  unfold dioRowHi
  rw [rowHi_unit (2 * N - n) N i (by omega) hi]
  rw [dotF_append, dotF_append, dotF_append, dotF_map_neg_lin, dotF_range_unit]
  simp only [List.length_append, List.length_map, List.length_range, hz, dotF]
  have e2 : 0 + (n + (2 * N - n)) = 2 * N := by omega
  have e0 : (if N + i < 2 * N - n then v (N + i + n) else 0) = if i = 0 then v (2 * N - 1) else 0 := by
    by_cases h : i = 0
    · subst h
      rw [if_pos (by omega), if_pos rfl]; congr 1; omega
    · rw [if_neg (by omega), if_neg h]
  rw [e0, e2]
  cases shape with
  | none => simp [dotF]
  | some sh =>
    have e4 : 0 + (n + (2 * N - n) + 1) = 2 * N + 1 := by omega
    simp only [dotF, List.length_singleton, e4]
    push_cast
    ring

end Rows

theorem dioMatrix_row_lo (N n : Nat) (zs : List (List Int)) (z0 : List Int) (shape : Option (List Nat)) (i : Nat)
    (hi : i < N) : (dioMatrix N n zs z0 shape).getD i [] = dioRowLo N n zs z0 shape i := by
  simp only [dioMatrix, List.getD_eq_getElem?_getD]
  rw [List.getElem?_append_left (by simpa using hi)]
  simp [hi]

theorem dioMatrix_row_hi (N n : Nat) (zs : List (List Int)) (z0 : List Int) (shape : Option (List Nat)) (i : Nat)
    (hi : i < N) : (dioMatrix N n zs z0 shape).getD (N + i) [] = dioRowHi N n zs z0 shape i := by
  simp only [dioMatrix, List.getD_eq_getElem?_getD]
  rw [List.getElem?_append_right (by simp)]
  simp [hi]

/-- Number of columns of the matrix. -/
def dioM (N : Nat) (shape : Option (List Nat)) : Nat := 2 * N + 1 + (if shape.isSome then 1 else 0)

theorem dioMatrix_rect (N n : Nat) (zs : List (List Int)) (z0 : List Int) (shape : Option (List Nat))
    (hn : n + 1 = N) (hz : zs.length = n) : Rect (dioMatrix N n zs z0 shape) (2 * N) (dioM N shape) := by
  refine ⟨by simp [dioMatrix]; omega, ?_⟩
  intro r hr
  simp only [dioMatrix, List.mem_append, List.mem_map] at hr
  rcases hr with ⟨i, _, rfl⟩ | ⟨i, _, rfl⟩
  · cases shape <;> simp [dioRowLo, dioM, hz] <;> omega
  · cases shape <;> simp [dioRowHi, dioM, hz] <;> omega

theorem dotF_single {R : Type} [CommRing R] (a : List Int) (x : Nat → R) (p : Nat) (hp : p < a.length)
    (h : ∀ i < a.length, i ≠ p → x i = 0) : dotF a x = (a.getD p 0 : Int) * x p := by
  rw [dotF_eq_sum, Finset.sum_eq_single p]
  · intro i hi hip
    rw [h i (Finset.mem_range.1 hi) hip, mul_zero]
  · intro h1; exact absurd (Finset.mem_range.2 hp) h1

/-- For non-zero coefficients all leading blocks are non-singular. -/
theorem dioMatrix_regular (a0 : Int) (rest : List Int) (shape : Option (List Nat))
    (hnz : ∀ a ∈ a0 :: rest, a ≠ 0) (z0 : List Int) :
    ∀ i < 2 * (rest.length + 1),
      Regular (dioMatrix (rest.length + 1) rest.length (dioCols a0 rest) z0 shape) i := by
  intro i hi v hv hk
  have hok : DioOk a0 rest := DioOk.of_ne (hnz a0 (by simp)) rest
  have hz := dioCols_length a0 rest
  generalize hN : rest.length + 1 = N at *
  have hlo : ∀ r < N, r < i + 1 → lin (dioCols a0 rest) v r + v (rest.length + r)
      - (z0.getD r 0 : Int) * v (2 * N) = 0 := by
    intro r h1 h2
    have := hk r h2
    rwa [dioMatrix_row_lo _ _ _ _ _ _ h1, dotF_rowLo _ _ _ _ _ _ hN hz h1] at this
  have hhi : ∀ r < N, N + r < i + 1 → -lin (dioCols a0 rest) v r
      + (if r = 0 then v (2 * N - 1) else 0) = 0 := by
    intro r h1 h2
    have := hk (N + r) h2
    rw [dioMatrix_row_hi _ _ _ _ _ _ h1, dotF_rowHi _ _ _ _ _ _ hN hz h1, hv (2 * N) (by omega),
      hv (2 * N + 1) (by omega)] at this
    cases shape <;> simpa using this
  have h2N : v (2 * N) = 0 := hv _ (by omega)
  simp only [h2N, mul_zero, sub_zero] at hlo
  -- the kernel vector has one non-zero coordinate at most
  have hone : ∀ p < N, (∀ r < N, r ≠ p → lin (dioCols a0 rest) v r = 0) →
      lin (dioCols a0 rest) v p = 0 := by
    intro p hp h
    have h1 := dotF_lin a0 rest hok v
    rw [dotF_single (a0 :: rest) _ p (by simpa [hN] using hp) (by
      intro r hr; exact h r (by simpa [hN] using hr))] at h1
    have : (((a0 :: rest).getD p 0 : Int) : ℚ) ≠ 0 := by
      have hp' : p < (a0 :: rest).length := by simpa [hN] using hp
      rw [List.getD_eq_getElem?_getD, List.getElem?_eq_getElem hp', Option.getD_some]
      exact_mod_cast hnz _ (List.getElem_mem hp')
    exact (mul_eq_zero.1 h1).resolve_left this
  by_cases c1 : i < rest.length
  · -- only `t` columns
    have hsup := lin_support (R := ℚ) a0 rest v (i + 1) (fun j hj => hv j (by omega))
    have hz1 : ∀ r < N, r ≠ i + 1 → lin (dioCols a0 rest) v r = 0 := by
      intro r hr hri
      rcases lt_or_ge r (i + 1) with h1 | h1
      · have := hlo r hr h1
        rwa [hv (rest.length + r) (by omega), add_zero] at this
      · exact hsup r (by omega)
    have hz2 := hone (i + 1) (by omega) hz1
    apply lin_injective a0 rest hok v _ i c1
    intro r hr
    by_cases h : r = i + 1
    · rw [h]; exact hz2
    · exact hz1 r (by omega) h
  · by_cases c2 : i = rest.length
    · have hz1 : ∀ r < N, r ≠ 0 → lin (dioCols a0 rest) v r = 0 := by
        intro r hr hri
        have := hlo r hr (by omega)
        rwa [hv (rest.length + r) (by omega), add_zero] at this
      have hz2 := hone 0 (by omega) hz1
      have := hlo 0 (by omega) (by omega)
      rw [hz2, zero_add, Nat.add_zero] at this
      rw [c2]; exact this
    · by_cases c3 : i < 2 * N - 1
      · obtain ⟨p, hp⟩ : ∃ p, i = N + p := ⟨i - N, by omega⟩
        have hz1 : ∀ r < N, r ≠ p + 1 → lin (dioCols a0 rest) v r = 0 := by
          intro r hr hri
          rcases lt_or_ge r (p + 1) with h1 | h1
          · have := hhi r hr (by omega)
            rw [hv (2 * N - 1) (by omega)] at this
            simpa using this
          · have := hlo r hr (by omega)
            rwa [hv (rest.length + r) (by omega), add_zero] at this
        have hz2 := hone (p + 1) (by omega) hz1
        have := hlo (p + 1) (by omega) (by omega)
        rw [hz2, zero_add] at this
        rw [show i = rest.length + (p + 1) by omega]; exact this
      · have hi' : i = 2 * N - 1 := by omega
        have hz1 : ∀ r < N, r ≠ 0 → lin (dioCols a0 rest) v r = 0 := by
          intro r hr hri
          have := hhi r hr (by omega)
          simpa [hri] using this
        have hz2 := hone 0 (by omega) hz1
        have := hhi 0 (by omega) (by omega)
        rw [hz2] at this
        rw [hi']
        simpa using this

/-- With a zero coefficient some leading block is singular. -/
theorem dioMatrix_singular (a0 : Int) (rest : List Int) (shape : Option (List Nat)) (hr : rest ≠ [])
    (hok : DioOk a0 rest) (p : Nat) (hp : p < rest.length + 1) (h0 : (a0 :: rest).getD p 0 = 0) (z0 : List Int) :
    ∃ i < 2 * (rest.length + 1), ∃ v : Nat → ℚ, (∀ c, i < c → v c = 0) ∧ (∃ c, v c ≠ 0) ∧
      Kills (dioMatrix (rest.length + 1) rest.length (dioCols a0 rest) z0 shape) (i + 1) v := by
  have hz := dioCols_length a0 rest
  have hd := hok.d_ne_zero hr
  obtain ⟨t, ht⟩ := lin_complete (R := ℚ) a0 rest hok hd (fun i => if i = p then 1 else 0) 0 (by
    rw [dotF_single _ _ p (by simpa using hp) (by intro i _ h; simp [h]), h0]; simp)
  simp only [zero_mul, zero_add] at ht
  generalize hN : rest.length + 1 = N at *
  have hlen : 0 < rest.length := List.length_pos_of_ne_nil hr
  let v : Nat → ℚ := fun c => if c < rest.length then t c else if c = rest.length + p then -1 else 0
  have hlv : ∀ r < N, lin (dioCols a0 rest) v r = if r = p then 1 else 0 := by
    intro r hr
    rw [ht r hr]
    apply lin_congr
    intro j hj
    rw [hz] at hj
    simp [v, hj]
  have hv2 : ∀ c, rest.length + p < c → v c = 0 := by
    intro c hc
    simp [v, show ¬ c < rest.length by omega, show c ≠ rest.length + p by omega]
  refine ⟨rest.length + p, by omega, v, hv2, ⟨rest.length + p, by simp [v]⟩, ?_⟩
  intro k hk
  rcases lt_or_ge k N with h1 | h1
  · rw [dioMatrix_row_lo _ _ _ _ _ _ h1, dotF_rowLo _ _ _ _ _ _ hN hz h1, hlv k h1,
      hv2 (2 * N) (by omega)]
    by_cases hkp : k = p
    · simp [hkp, v]
    · simp [hkp, v]
  · obtain ⟨r, rfl⟩ : ∃ r, k = N + r := ⟨k - N, by omega⟩
    have hrN : r < N := by omega
    rw [dioMatrix_row_hi _ _ _ _ _ _ hrN, dotF_rowHi _ _ _ _ _ _ hN hz hrN, hlv r hrN,
      hv2 (2 * N) (by omega), hv2 (2 * N + 1) (by omega), hv2 (2 * N - 1) (by omega),
      if_neg (by omega : r ≠ p)]
    cases shape <;> simp

/-! ## Normalization of the rows -/

theorem foldl_extgcd (l : List Int) (g : Int) (hg : g ≠ 0) :
    0 < g * l.foldl (fun g x => (extgcd g x).1) g ∧
      l.foldl (fun g x => (extgcd g x).1) g ∣ g ∧
      ∀ x ∈ l, l.foldl (fun g x => (extgcd g x).1) g ∣ x := by
  induction l generalizing g with
  | nil => simp [mul_self_pos.2 hg]
  | cons x l ih =>
    have h1 := extgcd_sign g x hg
    obtain ⟨_, h2, h3⟩ := extgcd_bezout g x
    obtain ⟨i1, i2, i3⟩ := ih (extgcd g x).1 (extgcd_ne_zero g x hg)
    simp only [List.foldl_cons]
    generalize (extgcd g x).1 = g' at *
    generalize l.foldl (fun g x => (extgcd g x).1) g' = G at *
    refine ⟨?_, dvd_trans i2 h2, ?_⟩
    · rcases lt_trichotomy g' 0 with h | h | h
      · have : g < 0 := by nlinarith
        have : G < 0 := by nlinarith
        nlinarith
      · subst h; simp at h1
      · have : 0 < g := by nlinarith
        have : 0 < G := by nlinarith
        nlinarith
    · intro y hy
      rcases List.mem_cons.1 hy with rfl | hy
      · exact dvd_trans i2 h3
      · exact i3 y hy

theorem mapM_ok {α β : Type} (f : α → PyM β) (g : α → β) (l : List α) (h : ∀ x ∈ l, f x = .ok (g x)) :
    l.mapM f = .ok (l.map g) := by
  induction l with
  | nil => rfl
  | cons x l ih =>
    rw [List.mapM_cons, h x (by simp), ih fun y hy => h y (by simp [hy])]
    rfl

theorem normalizeRow_ok (N : Nat) (row : List Int) (i : Nat) (h : row.getD i 0 ≠ 0) :
    ∃ res g, normalizeRow N row i = .ok res ∧ g ≠ 0 ∧ row.getD i 0 = g * res.getD 0 0 ∧
      0 < res.getD 0 0 ∧ ∀ j, row.getD (2 * N + j) 0 = g * res.getD (j + 1) 0 := by
  unfold normalizeRow
  simp only
  generalize haii : row.getD i 0 = aii at *
  obtain ⟨h1, h2, h3⟩ := foldl_extgcd (row.drop (2 * N)) aii h
  generalize (row.drop (2 * N)).foldl (fun g x => (extgcd g x).1) aii = g at *
  have hg : g ≠ 0 := by rintro rfl; simp at h1
  have hdrop : ∀ j, row.getD (2 * N + j) 0 = (row.drop (2 * N)).getD j 0 := by
    intro j; simp [List.getD_eq_getElem?_getD]
  by_cases hg1 : g = 1
  · refine ⟨aii :: row.drop (2 * N), 1, ?_, by simp, by simp, ?_, ?_⟩
    · simp [hg1, pure, Except.pure]
    · rw [hg1] at h1; simpa using h1
    · intro j; rw [hdrop]; simp
  · refine ⟨(aii :: row.drop (2 * N)).map fun x => x.fdiv g, g, ?_, hg, ?_, ?_, ?_⟩
    · rw [if_pos hg1]
      exact mapM_ok _ _ _ fun x _ => by simp [pyDiv, hg]
    · simp [Int.mul_fdiv_cancel' h2]
    · have : aii = g * aii.fdiv g := (Int.mul_fdiv_cancel' h2).symm
      simp only [List.map_cons, List.getD_cons_zero]
      generalize aii.fdiv g = q at *
      rw [this] at h1
      have hgg : 0 < g * g := mul_self_pos.2 hg
      nlinarith
    · intro j
      rw [hdrop]
      generalize row.drop (2 * N) = l at *
      simp only [List.map_cons, List.getD_cons_succ, List.getD_eq_getElem?_getD, List.getElem?_map]
      cases hj : l[j]? with
      | none => simp [hj]
      | some x =>
        have := h3 x (List.mem_of_getElem? hj)
        simp [hj, Int.mul_fdiv_cancel' this]

theorem sum_two {f : Nat → ℚ} {N j m : Nat} (hj : j < 2 * N) (hm : 2 * N ≤ m) (h : ∀ c < 2 * N, c ≠ j → f c = 0) :
    ∑ c ∈ Finset.range m, f c = f j + ∑ c ∈ Finset.range (m - 2 * N), f (2 * N + c) := by
  obtain ⟨k, rfl⟩ : ∃ k, m = 2 * N + k := ⟨m - 2 * N, by omega⟩
  rw [Finset.sum_range_add, Nat.add_sub_cancel_left]
  congr 1
  apply Finset.sum_eq_single j
  · intro c hc; exact h c (Finset.mem_range.1 hc)
  · intro h1; exact absurd (Finset.mem_range.2 hj) h1

/-- What `init_diophantine` returns for two or more non-zero coefficients. -/
theorem initDiophantine_ok (a0 a1 : Int) (rest : List Int) (shape : Option (List Nat))
    (hnz : ∀ a ∈ a0 :: a1 :: rest, a ≠ 0)
    (hs : ∀ sh, shape = some sh → rest.length + 2 ≤ sh.length) :
    ∃ data, initDiophantine (a0 :: a1 :: rest) shape = .ok data ∧
      data.d = dioD a0 (a1 :: rest) ∧ data.z0 = dioZ0 a0 (a1 :: rest) ∧
      data.zs = dioCols a0 (a1 :: rest) ∧ data.D.length = rest.length + 1 ∧
      data.b.length = rest.length + 1 ∧
      (match shape with
        | none => data.s = none
        | some _ => ∃ ss, data.s = some ss ∧ ss.length = rest.length + 1) ∧
      (∀ j < rest.length + 1, 0 < data.D.getD j 0) ∧
      ∀ v : Nat → ℚ, Kills (dioMatrix (rest.length + 2) (rest.length + 1) (dioCols a0 (a1 :: rest))
          (dioZ0 a0 (a1 :: rest)) shape) (2 * (rest.length + 2)) v →
        ∀ j < rest.length + 1,
          (data.D.getD j 0 : ℚ) * v j + data.b.getD j 0 * v (2 * (rest.length + 2))
            + ((data.s.getD []).getD j 0 : Int) * v (2 * (rest.length + 2) + 1) = 0 := by
  have hok : DioOk a0 (a1 :: rest) := DioOk.of_ne (hnz a0 (by simp)) _
  have hrec := (initDioRec_eq a0 (a1 :: rest) _).2 ⟨hok, rfl⟩
  have hzip : zipStar (rowsOf ((a1 :: rest).length + 1) (dioCols a0 (a1 :: rest))) = dioCols a0 (a1 :: rest) :=
    zipStar_rowsOf _ _ (dioCols_mem_length a0 (a1 :: rest))
  have hlen := dioCols_length a0 (a1 :: rest)
  have hrect := dioMatrix_rect (rest.length + 2) (rest.length + 1) (dioCols a0 (a1 :: rest))
    (dioZ0 a0 (a1 :: rest)) shape rfl hlen
  have hreg := dioMatrix_regular a0 (a1 :: rest) shape hnz (dioZ0 a0 (a1 :: rest))
  obtain ⟨A, hA, hinv⟩ := gaussLoop_regular (2 * (rest.length + 2)) 0 (GInv.init _ _ _ hrect) (by omega)
    (by simp [dioM]; omega) hreg
  rw [Nat.zero_add] at hinv
  have hrow : ∀ i < rest.length + 1, (A.getD i []).getD i 0 ≠ 0 := fun i hi => hinv.diag i (by omega)
  choose! res g hr1 hg hr2 hr3 hr4 using fun i (hi : i < rest.length + 1) =>
    normalizeRow_ok (rest.length + 2) (A.getD i []) i (hrow i hi)
  have hrows : (List.range (rest.length + 1)).mapM (fun i => normalizeRow (rest.length + 2) (A.getD i []) i)
      = .ok ((List.range (rest.length + 1)).map res) :=
    mapM_ok _ _ _ fun i hi => hr1 i (List.mem_range.1 hi)
  have hsh : ¬ (shape.getD (List.replicate (rest.length + 2) 0)).length < rest.length + 2 := by
    cases shape with
    | none => simp
    | some sh => have := hs sh rfl; simp; omega
  have hget : ∀ (c : Nat) (j : Nat), j < rest.length + 1 →
      (((List.range (rest.length + 1)).map res).map (·.getD c 0)).getD j 0 = (res j).getD c 0 := by
    intro c j hj
    simp [List.getD_eq_getElem?_getD, hj]
  refine ⟨⟨dioD a0 (a1 :: rest), dioZ0 a0 (a1 :: rest), dioCols a0 (a1 :: rest),
    ((List.range (rest.length + 1)).map res).map (·.getD 0 0),
    ((List.range (rest.length + 1)).map res).map (·.getD 1 0),
    shape.map fun _ => ((List.range (rest.length + 1)).map res).map (·.getD 2 0)⟩, ?_, rfl, rfl, rfl,
    by simp, by simp, ?_, ?_, ?_⟩
  · simp only [initDiophantine, hrec, bind, Except.bind, hzip, List.length_cons] at *
    rw [if_neg hsh]
    rw [hlen, List.range_eq_range', hA]
    simp only [pure, Except.pure]
    rw [hrows]
  · cases shape <;> simp
  · intro j hj
    simp only
    rw [hget 0 j hj]
    exact hr3 j hj
  · intro v hv j hj
    have hv' := (hinv.kills _ (le_refl _) (le_refl _) v).1 hv j (by omega)
    rw [dotF_eq_sum, hinv.rect.row (by omega : j < 2 * (rest.length + 2)),
      sum_two (N := rest.length + 2) (j := j) (by omega) (by simp [dioM]; omega) (by
        intro c hc hcj
        have := hinv.zero c hc j (by omega) (Ne.symm hcj)
        simp only [ent] at this
        rw [this]; simp)] at hv'
    simp only [hr4 j hj, hr2 j hj] at hv'
    have hgq : (g j : ℚ) ≠ 0 := by exact_mod_cast hg j hj
    apply mul_left_cancel₀ hgq
    rw [mul_zero, ← hv']
    simp only
    rw [hget 0 j hj, hget 1 j hj]
    cases shape with
    | none =>
      simp [dioM, show 2 * (rest.length + 2) + 1 - 2 * (rest.length + 2) = 1 by omega]
      ring
    | some sh =>
      simp only [dioM, Option.isSome_some, if_true, Option.map_some, Option.getD_some, hget 2 j hj,
        show 2 * (rest.length + 2) + 1 + 1 - 2 * (rest.length + 2) = 2 by omega,
        Finset.sum_range_succ, Finset.sum_range_zero]
      push_cast
      ring

/-- A zero coefficient among two or more makes `init_diophantine` raise. -/
theorem initDiophantine_zero (a0 a1 : Int) (rest : List Int) (shape : Option (List Nat))
    (hz : ∃ a ∈ a0 :: a1 :: rest, a = 0) :
    ∃ e, initDiophantine (a0 :: a1 :: rest) shape = .error e := by
  cases hi : initDiophantine (a0 :: a1 :: rest) shape with
  | error e => exact ⟨e, rfl⟩
  | ok data =>
    exfalso
    simp only [initDiophantine, bind, Except.bind] at hi
    cases hrec : initDioRec a0 (a1 :: rest) with
    | error e => rw [hrec] at hi; simp at hi
    | ok r =>
      obtain ⟨hok, rfl⟩ := (initDioRec_eq a0 (a1 :: rest) r).1 hrec
      have hzip : zipStar (rowsOf ((a1 :: rest).length + 1) (dioCols a0 (a1 :: rest))) = dioCols a0 (a1 :: rest) :=
        zipStar_rowsOf _ _ (dioCols_mem_length a0 (a1 :: rest))
      have hlen := dioCols_length a0 (a1 :: rest)
      rw [hrec] at hi
      simp only [hzip, hlen] at hi
      split at hi
      · cases hi
      · simp only [pure, Except.pure] at hi
        cases hg : gaussLoop (dioMatrix (a0 :: a1 :: rest).length (a1 :: rest).length
            (dioCols a0 (a1 :: rest)) (dioZ0 a0 (a1 :: rest)) shape)
            (List.range (2 * (a0 :: a1 :: rest).length)) with
        | error e => rw [hg] at hi; simp at hi
        | ok A =>
          obtain ⟨a, ha, ha0⟩ := hz
          obtain ⟨p, hp, hpa⟩ := List.getElem_of_mem ha
          have h0 : (a0 :: a1 :: rest).getD p 0 = 0 := by
            rw [List.getD_eq_getElem?_getD, List.getElem?_eq_getElem hp, Option.getD_some, hpa, ha0]
          obtain ⟨i, hi, v, h1, ⟨c, h2⟩, h3⟩ := dioMatrix_singular a0 (a1 :: rest) shape (by simp) hok p
            (by simpa using hp) h0 (dioZ0 a0 (a1 :: rest))
          have hrect := dioMatrix_rect (rest.length + 2) (rest.length + 1) (dioCols a0 (a1 :: rest))
            (dioZ0 a0 (a1 :: rest)) shape rfl hlen
          exact h2 (gaussLoop_singular hrect i hi (by simp [dioM]; omega) A hg v h1 h3 c)

end Gcs
