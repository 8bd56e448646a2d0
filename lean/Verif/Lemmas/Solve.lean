import Verif.Lemmas.InitDio
import Verif.Lemmas.Index

/-!
# `solve_index`
-/

namespace Gcs

open Spec

theorem inBox_ok (x : List Int) (shape : List Nat) (h : x.length = shape.length) :
    ∃ b, inBox x shape = .ok b ∧ (b = true ↔ InBox x shape) := by
  induction x generalizing shape with
  | nil =>
    cases shape with
    | nil => exact ⟨true, rfl, by simp [InBox]⟩
    | cons => simp at h
  | cons x0 x ih =>
    cases shape with
    | nil => simp at h
    | cons n shape =>
      obtain ⟨b, h1, h2⟩ := ih shape (by simpa using h)
      by_cases hx : 0 ≤ x0 ∧ x0 < n
      · exact ⟨b, by simp [inBox, hx, h1], by simp [InBox, hx, h2]⟩
      · refine ⟨false, by simp [inBox, hx, pure, Except.pure], ?_⟩
        simp only [InBox, hx]; simp

/-- The coefficient with which kernel vector `j` is added. -/
def kq (k : Int) (data : DioData) (j : Nat) : Int :=
  (data.b.getD j 0 * k + (data.s.getD []).getD j 0).fdiv (data.D.getD j 0)

theorem addKernel_ok (k : Int) (D b ss dt : List Int) (zs : List (List Int)) (index : List Int)
    (hb : b.length = D.length) (hdt : dt.length = D.length) (hzs : zs.length = D.length)
    (hD : ∀ d ∈ D, d ≠ 0) (hz : ∀ z ∈ zs, z.length = index.length) :
    ∃ x, addKernel k D b (some ss) dt zs index = .ok x ∧ x.length = index.length ∧
      ∀ i, x.getD i 0 = index.getD i 0 + lin zs (fun j =>
        (b.getD j 0 * k + ss.getD j 0).fdiv (D.getD j 0) + dt.getD j 0) i := by
  induction D generalizing b ss dt zs index with
  | nil =>
    obtain rfl : zs = [] := List.length_eq_zero_iff.1 (by simpa using hzs)
    exact ⟨index, by simp [addKernel, pure, Except.pure], rfl, by simp [lin]⟩
  | cons D0 D ih =>
    obtain ⟨b0, b, rfl⟩ := List.exists_of_length_succ b (by simpa using hb)
    obtain ⟨t0, dt, rfl⟩ := List.exists_of_length_succ dt (by simpa using hdt)
    obtain ⟨z0, zs, rfl⟩ := List.exists_of_length_succ zs (by simpa using hzs)
    have hz0 : z0.length = index.length := hz z0 (by simp)
    have hD0 : D0 ≠ 0 := hD D0 (by simp)
    obtain ⟨x, h1, h2, h3⟩ := ih b ss.tail dt zs
      (axpy ((b0 * k + ss.headD 0).fdiv D0 + t0) z0 index) (by simpa using hb) (by simpa using hdt)
      (by simpa using hzs) (fun d hd => hD d (by simp [hd]))
      (fun z hz' => by rw [axpy_length _ _ _ hz0]; exact hz z (by simp [hz']))
    refine ⟨x, ?_, by rw [h2, axpy_length _ _ _ hz0], ?_⟩
    · simp only [addKernel, pyDiv, hD0, if_false, bind, Except.bind, Option.map_some]
      exact h1
    · intro i
      rw [h3 i, getD_axpy _ _ _ _ hz0]
      simp only [lin, headD_eq_getD, List.getD_cons_zero, List.getD_cons_succ, getD_tail]
      simp only [Int.cast_id]
      ring

theorem mem_bits (n : Nat) (dt : List Int) :
    dt ∈ bits n ↔ dt.length = n ∧ ∀ t ∈ dt, t = 0 ∨ t = 1 := by
  induction n generalizing dt with
  | zero =>
    simp only [bits, List.mem_singleton]
    constructor
    · rintro rfl; simp
    · rintro ⟨h, _⟩; exact List.length_eq_zero_iff.1 h
  | succ n ih =>
    simp only [bits, List.mem_flatMap, List.mem_map, ih, List.mem_cons, List.not_mem_nil, or_false]
    constructor
    · rintro ⟨a, ha, l, ⟨h1, h2⟩, rfl⟩
      refine ⟨by simp [h1], ?_⟩
      intro t ht
      rcases List.mem_cons.1 ht with rfl | ht
      · exact ha
      · exact h2 t ht
    · rintro ⟨h1, h2⟩
      obtain ⟨a, l, rfl⟩ := List.exists_of_length_succ dt h1
      exact ⟨a, h2 a (by simp), l, ⟨by simpa using h1, fun t ht => h2 t (by simp [ht])⟩, rfl⟩

theorem tryDts_spec (k : Int) (data : DioData) (shape : List Nat) (cand : List Int → List Int)
    (hlen : ∀ dt, (cand dt).length = shape.length) (dts : List (List Int))
    (hc : ∀ dt ∈ dts, addKernel k data.D data.b data.s dt data.zs
      (axpy k data.z0 (data.z0.map fun _ => 0)) = .ok (cand dt)) :
    (∃ dt ∈ dts, InBox (cand dt) shape ∧ tryDts k data shape dts = .ok (some (cand dt))) ∨
      (∀ dt ∈ dts, ¬ InBox (cand dt) shape) ∧ tryDts k data shape dts = .ok none := by
  induction dts with
  | nil => right; exact ⟨by simp, rfl⟩
  | cons dt dts ih =>
    obtain ⟨b, hb1, hb2⟩ := inBox_ok (cand dt) shape (hlen dt)
    simp only [tryDts, hc dt (by simp), bind, Except.bind, hb1]
    cases b with
    | true => left; exact ⟨dt, by simp, hb2.1 rfl, rfl⟩
    | false =>
      have hnb : ¬ InBox (cand dt) shape := fun h => by simpa using hb2.2 h
      rcases ih (fun dt hdt => hc dt (by simp [hdt])) with ⟨dt', h1, h2, h3⟩ | ⟨h1, h2⟩
      · left; exact ⟨dt', by simp [h1], h2, by simpa using h3⟩
      · right
        refine ⟨?_, by simpa using h2⟩
        intro dt' hdt'
        rcases List.mem_cons.1 hdt' with rfl | h
        · exact hnb
        · exact h1 dt' h

/-- What `init_diophantine` delivers to `solve_index`. -/
structure GoodData (a0 : Int) (rest : List Int) (shape : List Nat) (data : DioData) : Prop where
  d : data.d = dioD a0 rest
  d_ne : dioD a0 rest ≠ 0
  ok : DioOk a0 rest
  z0 : data.z0 = dioZ0 a0 rest
  zs : data.zs = dioCols a0 rest
  D_len : data.D.length = rest.length
  b_len : data.b.length = rest.length
  s : ∃ ss, data.s = some ss
  D_pos : ∀ j < rest.length, 0 < data.D.getD j 0
  sol : rest ≠ [] → ∀ v : Nat → ℚ, Kills (dioMatrix (rest.length + 1) rest.length (dioCols a0 rest)
      (dioZ0 a0 rest) (some shape)) (2 * (rest.length + 1)) v →
    ∀ j < rest.length, (data.D.getD j 0 : ℚ) * v j + data.b.getD j 0 * v (2 * (rest.length + 1))
      + ((data.s.getD []).getD j 0 : Int) * v (2 * (rest.length + 1) + 1) = 0

theorem goodData_of_ne (a0 : Int) (rest : List Int) (shape : List Nat)
    (hl : shape.length = rest.length + 1) (hnz : ∀ a ∈ a0 :: rest, a ≠ 0) :
    ∃ data, initDiophantine (a0 :: rest) (some shape) = .ok data ∧ GoodData a0 rest shape data := by
  cases rest with
  | nil =>
    refine ⟨_, rfl, ⟨rfl, hnz a0 (by simp), trivial, rfl, rfl, rfl, rfl, ⟨_, rfl⟩, by simp, by simp⟩⟩
  | cons a1 rest =>
    obtain ⟨data, h1, h2, h3, h4, h5, h6, ⟨ss, h7, _⟩, h8, h9⟩ :=
      initDiophantine_ok a0 a1 rest (some shape) hnz (by rintro sh ⟨⟩; simp at hl; omega)
    have hok := DioOk.of_ne (hnz a0 (by simp)) (a1 :: rest)
    exact ⟨data, h1, ⟨h2, hok.d_ne_zero (by simp), hok, h3, h4, h5, h6, ⟨ss, h7⟩, h8, fun _ => h9⟩⟩

section

variable {a0 : Int} {rest : List Int} {shape : List Nat} {data : DioData}

/-- The candidate for a choice of `dt`. -/
def candidate (k : Int) (a0 : Int) (rest : List Int) (data : DioData) (dt : List Int) : List Int :=
  (List.range (rest.length + 1)).map fun i =>
    k * (dioZ0 a0 rest).getD i 0 + lin (dioCols a0 rest) (fun j => kq k data j + dt.getD j 0) i

theorem candidate_getD (k : Int) (dt : List Int) (i : Nat) (hi : i < rest.length + 1) :
    (candidate k a0 rest data dt).getD i 0
      = k * (dioZ0 a0 rest).getD i 0 + lin (dioCols a0 rest) (fun j => kq k data j + dt.getD j 0) i := by
  simp [candidate, List.getD_eq_getElem?_getD, hi]

theorem dotF_cast (R : Type) [CommRing R] (a : List Int) (x : Nat → Int) :
    ((dotF a x : Int) : R) = dotF a fun i => (x i : R) := by
  induction a generalizing x with
  | nil => simp [dotF]
  | cons a0 a ih => simp only [dotF]; push_cast; rw [ih]

theorem lin_cast (R : Type) [CommRing R] (zs : List (List Int)) (t : Nat → Int) (i : Nat) :
    ((lin zs t i : Int) : R) = lin zs (fun j => (t j : R)) i := by
  induction zs generalizing t with
  | nil => simp [lin]
  | cons z zs ih => simp only [lin]; push_cast; rw [ih]

theorem candidate_address (h : GoodData a0 rest shape data) (k : Int) (dt : List Int) :
    address (candidate k a0 rest data dt) (a0 :: rest) = dioD a0 rest * k := by
  rw [address_eq_dotF _ _ (by simp [candidate])]
  rw [dotF_congr _ _ (fun i => k * (dioZ0 a0 rest).getD i 0
    + lin (dioCols a0 rest) (fun j => kq k data j + dt.getD j 0) i) fun i hi =>
      candidate_getD k dt i (by simpa using hi)]
  rw [dotF_add, dotF_smul, dotF_lin a0 rest h.ok]
  have := dotF_z0 (R := Int) a0 rest h.ok
  simp only [Int.cast_id] at this
  rw [this]; ring

theorem candidate_add (h : GoodData a0 rest shape data) (k : Int) (dt : List Int) (hdt : dt.length = rest.length) :
    addKernel k data.D data.b data.s dt data.zs (axpy k data.z0 (data.z0.map fun _ => 0))
      = .ok (candidate k a0 rest data dt) := by
  obtain ⟨ss, hs⟩ := h.s
  have hz0 := dioZ0_length a0 rest
  obtain ⟨x, h1, h2, h3⟩ := addKernel_ok k data.D data.b ss dt data.zs
    (axpy k data.z0 (data.z0.map fun _ => 0)) (by rw [h.b_len, h.D_len]) (by rw [hdt, h.D_len])
    (by rw [h.zs, dioCols_length, h.D_len])
    (by
      intro d hd
      obtain ⟨j, hj, rfl⟩ := List.getElem_of_mem hd
      have := h.D_pos j (by rw [← h.D_len]; exact hj)
      rw [List.getD_eq_getElem?_getD, List.getElem?_eq_getElem hj, Option.getD_some] at this
      omega)
    (by
      intro z hz
      rw [h.zs] at hz
      rw [dioCols_mem_length a0 rest z hz, axpy_length _ _ _ (by simp), h.z0]
      simp [hz0])
  rw [hs, h1]
  congr 1
  have hx : x.length = rest.length + 1 := by
    rw [h2, axpy_length _ _ _ (by simp), h.z0]; simp [hz0]
  apply list_ext_getD _ _ (by rw [hx]; simp [candidate])
  intro i hi
  rw [hx] at hi
  rw [h3 i, candidate_getD k dt i hi, getD_axpy _ _ _ _ (by simp), h.z0, h.zs]
  congr 1
  · have : ((dioZ0 a0 rest).map fun _ => (0 : Int)).getD i 0 = 0 := by
      simp only [List.getD_eq_getElem?_getD, List.getElem?_map]
      cases (dioZ0 a0 rest)[i]? <;> rfl
    rw [this]; simp
  · apply lin_congr
    intro j _
    simp [kq, hs]

/-- The result of `solve_index` with good data. -/
theorem solveIndexData_spec (h : GoodData a0 rest shape data) (hl : shape.length = rest.length + 1) (pos : Int) :
    (¬ dioD a0 rest ∣ pos ∧ solveIndexData pos shape data = .ok none) ∨
    (dioD a0 rest ∣ pos ∧
      ((∃ dt ∈ bits rest.length, InBox (candidate (pos.fdiv (dioD a0 rest)) a0 rest data dt) shape ∧
        solveIndexData pos shape data = .ok (some (candidate (pos.fdiv (dioD a0 rest)) a0 rest data dt))) ∨
      ((∀ dt ∈ bits rest.length, ¬ InBox (candidate (pos.fdiv (dioD a0 rest)) a0 rest data dt) shape) ∧
        solveIndexData pos shape data = .ok none))) := by
  obtain ⟨ss, hs⟩ := h.s
  have h1 : solveIndexData pos shape data =
      if pos.fmod (dioD a0 rest) ≠ 0 then .ok none
      else tryDts (pos.fdiv (dioD a0 rest)) data shape (bits rest.length) := by
    simp only [solveIndexData, hs, Option.isSome_some, Bool.or_true, pyAssert, if_true, bind, Except.bind,
      h.d, pyMod, pyDiv, h.d_ne, if_false, h.zs, dioCols_length]
    split <;> rfl
  by_cases hdv : dioD a0 rest ∣ pos
  · right
    refine ⟨hdv, ?_⟩
    have hm : pos.fmod (dioD a0 rest) = 0 := Int.dvd_iff_fmod_eq_zero.1 hdv
    rw [h1, if_neg (by simp [hm])]
    exact tryDts_spec _ data shape (candidate (pos.fdiv (dioD a0 rest)) a0 rest data)
      (fun dt => by simp [candidate, hl]) (bits rest.length) fun dt hdt =>
        candidate_add h _ dt ((mem_bits _ _).1 hdt).1
  · left
    refine ⟨hdv, ?_⟩
    have hm : pos.fmod (dioD a0 rest) ≠ 0 := fun h => hdv (Int.dvd_iff_fmod_eq_zero.2 h)
    rw [h1, if_pos hm]

end

/-! ## Completeness for nested strides -/

/-- The strides `as` with sizes `ms` fit, one inside the other, into a gap of size `P`. -/
def Chain : Int → List Int → List Nat → Prop
  | _, [], [] => True
  | P, a :: as, m :: ms => ∃ S n : Int, 0 < S ∧ 0 < n ∧ n * S ∣ P ∧ S ∣ a ∧
      ((m : Int) - 1) * |a| ≤ (n - 1) * S ∧ Chain S as ms
  | _, _, _ => False

theorem Chain.length_eq {P : Int} {as : List Int} {ms : List Nat} (h : Chain P as ms) :
    as.length = ms.length := by
  induction as generalizing P ms with
  | nil => cases ms with
    | nil => rfl
    | cons => exact h.elim
  | cons a as ih => cases ms with
    | nil => exact h.elim
    | cons m ms =>
      obtain ⟨S, n, _, _, _, _, _, h⟩ := h
      simp [ih h]

theorem Chain.bound {P : Int} {as : List Int} {ms : List Nat} (hP : 0 < P) (h : Chain P as ms)
    (δ : Nat → Int) (hδ : ∀ i < ms.length, |δ i| ≤ (ms.getD i 0 : Int) - 1) : |dotF as δ| ≤ P - 1 := by
  induction as generalizing P ms δ with
  | nil => simp [dotF]; omega
  | cons a as ih => cases ms with
    | nil => exact h.elim
    | cons m ms =>
      obtain ⟨S, n, hS, hn, h1, h2, h3, h4⟩ := h
      have ih := ih hS h4 (fun i => δ (i + 1)) fun i hi => by
        simpa using hδ (i + 1) (by simpa using hi)
      have h0 : |δ 0| ≤ (m : Int) - 1 := by simpa using hδ 0 (by simp)
      have hle : n * S ≤ P := Int.le_of_dvd hP h1
      simp only [dotF, Int.cast_id]
      calc |a * δ 0 + dotF as fun i => δ (i + 1)|
          ≤ |a * δ 0| + |dotF as fun i => δ (i + 1)| := abs_add_le _ _
        _ ≤ (n - 1) * S + (S - 1) := by
            apply add_le_add _ ih
            rw [abs_mul, mul_comm]
            exact le_trans (mul_le_mul_of_nonneg_right h0 (abs_nonneg _)) h3
        _ ≤ P - 1 := by nlinarith

theorem level_bound (a0 a1 d y e n S R : Int) (ha1 : a1 ≠ 0) (hS : 0 < S)
    (he : 0 ≤ e) (h1 : e * |a1| ≤ (n - 1) * S) (h2 : n * S ≤ |a0|) (h3 : S ≤ |d|) (h4 : |R| ≤ S - 1)
    (h5 : 2 * (|y| * |d|) ≤ |a0|) (h6 : |a1| = |d| → |y| ≤ 1) (h7 : d ∣ a1) :
    |e * d + y * R| < |a0| := by
  have hd : 0 < |d| := by omega
  have htri : |e * d + y * R| ≤ e * |d| + |y| * |R| := by
    calc |e * d + y * R| ≤ |e * d| + |y * R| := abs_add_le _ _
      _ = e * |d| + |y| * |R| := by rw [abs_mul, abs_mul, abs_of_nonneg he]
  have hy := abs_nonneg y
  have hR := abs_nonneg R
  obtain ⟨q, hq⟩ := h7
  have hq0 : q ≠ 0 := by rintro rfl; simp at hq; exact ha1 hq
  have hqp : 0 < |q| := abs_pos.2 hq0
  have hab : |a1| = |d| * |q| := by rw [hq, abs_mul]
  by_cases hq1 : |q| = 1
  · rw [hq1, mul_one] at hab
    have hy1 := h6 hab
    rw [hab] at h1
    nlinarith [mul_le_mul hy1 h4 hR (by norm_num)]
  · have hq2 : 2 ≤ |q| := by omega
    have e1 : 2 * (e * |d|) ≤ (n - 1) * S := by
      refine le_trans ?_ h1
      rw [hab]
      have : 0 ≤ e * |d| := mul_nonneg he hd.le
      nlinarith
    have e2 : |y| * |R| ≤ |y| * |d| := mul_le_mul_of_nonneg_left (by omega) hy
    nlinarith

/-- The rational coefficients of a small vector of the kernel are below `1`. -/
theorem tau_bound (a0 : Int) (rest : List Int) (ms : List Nat) (P : Int) (hP : 0 < P) (hPa : P ∣ a0)
    (h0 : a0 ≠ 0) (hnz : ∀ a ∈ rest, a ≠ 0) (hc : Chain P rest ms) (τ : Nat → ℚ) (e : Nat → Int)
    (he : ∀ i < ms.length, 0 ≤ e i ∧ e i ≤ (ms.getD i 0 : Int) - 1)
    (hl : ∀ i < ms.length, lin (dioCols a0 rest) τ (i + 1) = -(e i : ℚ)) :
    ∀ j < ms.length, |τ j| < 1 := by
  induction rest generalizing a0 ms P τ e with
  | nil =>
    cases ms with
    | nil => simp
    | cons => exact hc.elim
  | cons a1 rest ih =>
    cases ms with
    | nil => exact hc.elim
    | cons m ms =>
      obtain ⟨S, n, hS, hn, h1, h2, h3, h4⟩ := hc
      obtain ⟨l0, l1, l2⟩ := lin_dioCols_cons a0 a1 rest τ
      have hd0 : (extgcd a0 a1).1 ≠ 0 := extgcd_ne_zero a0 a1 h0
      obtain ⟨e0, e1, e2⟩ := extgcd_level a0 a1 hd0
      obtain ⟨bz, dv0, dv1⟩ := extgcd_bezout a0 a1
      have hSa0 : S ∣ a0 := dvd_trans (dvd_trans (dvd_mul_left S n) h1) hPa
      have hSd : S ∣ (extgcd a0 a1).1 := by
        rw [bz]; exact dvd_add (dvd_mul_of_dvd_left hSa0 _) (dvd_mul_of_dvd_left h2 _)
      have hl' : ∀ i < ms.length, lin (dioCols (extgcd a0 a1).1 rest) (fun j => τ (j + 1)) (i + 1)
          = -(e (i + 1) : ℚ) := by
        intro i hi
        rw [← l2]
        exact hl (i + 1) (by simpa using hi)
      have he' : ∀ i < ms.length, 0 ≤ e (i + 1) ∧ e (i + 1) ≤ (ms.getD i 0 : Int) - 1 := by
        intro i hi
        simpa using he (i + 1) (by simpa using hi)
      have ih := ih (extgcd a0 a1).1 ms S hS hSd hd0 (fun a ha => hnz a (by simp [ha])) h4
        (fun j => τ (j + 1)) (fun i => e (i + 1)) he' hl'
      intro j hj
      cases j with
      | succ j => exact ih j (by simpa using hj)
      | zero =>
        have hker := dotF_lin (R := ℚ) (extgcd a0 a1).1 rest (DioOk.of_ne hd0 rest) fun j => τ (j + 1)
        simp only [dotF] at hker
        have hlen : rest.length = ms.length := h4.length_eq
        rw [dotF_congr rest (fun i => lin (dioCols (extgcd a0 a1).1 rest) (fun j => τ (j + 1)) (i + 1))
          (fun i => (-1 : ℚ) * (e (i + 1) : ℚ)) fun i hi => by
            rw [hl' i (by omega)]; ring, dotF_smul, ← dotF_cast ℚ rest fun i => e (i + 1)] at hker
        have hRb := h4.bound hS (fun i => e (i + 1)) fun i hi => by
          have := he' i hi
          rw [abs_of_nonneg this.1]; exact this.2
        have h10 := hl 0 (by simp)
        rw [l1] at h10
        have hee := he 0 (by simp)
        simp only [List.getD_cons_zero] at hee
        have hb := level_bound a0 a1 (extgcd a0 a1).1 (extgcd a0 a1).2.2 (e 0) n S
          (dotF rest fun i => e (i + 1)) (hnz a1 (by simp)) hS hee.1
          (le_trans (mul_le_mul_of_nonneg_right hee.2 (abs_nonneg _)) h3)
          (by
            have : n * S ∣ |a0| := (dvd_abs _ _).2 (dvd_trans h1 hPa)
            exact Int.le_of_dvd (abs_pos.2 h0) this)
          (Int.le_of_dvd (abs_pos.2 hd0) ((dvd_abs _ _).2 hSd)) hRb (extgcd_y_bound a0 a1 h0)
          (by
            intro hab
            apply extgcd_y_of_dvd a0 a1 h0
            have : |a1| ∣ a0 := by rw [hab]; exact (abs_dvd _ _).2 dv0
            exact (abs_dvd _ _).1 this) dv1
        have c0 : (a0 : ℚ) = ((extgcd a0 a1).1 : ℚ) * (a0.fdiv (extgcd a0 a1).1 : Int) := by
          exact_mod_cast congrArg (Int.cast (R := ℚ)) e0
        have key : (a0 : ℚ) * τ 0
            = -((e 0 * (extgcd a0 a1).1 + (extgcd a0 a1).2.2 * dotF rest fun i => e (i + 1) : Int) : ℚ) := by
          push_cast
          rw [c0]
          generalize ((a0.fdiv (extgcd a0 a1).1 : Int) : ℚ) = p at *
          generalize lin (dioCols (extgcd a0 a1).1 rest) (fun j => τ (j + 1)) 0 = L at *
          linear_combination ((extgcd a0 a1).1 : ℚ) * h10 - ((extgcd a0 a1).2.2 : ℚ) * hker
        have habs : |(a0 : ℚ)| * |τ 0| < |(a0 : ℚ)| := by
          rw [← abs_mul, key, abs_neg]
          exact_mod_cast hb
        have : 0 < |(a0 : ℚ)| := abs_pos.2 (by exact_mod_cast h0)
        nlinarith

theorem inBox_getD (x : List Int) (shape : List Nat) (h : InBox x shape) (i : Nat) (hi : i < shape.length) :
    0 ≤ x.getD i 0 ∧ x.getD i 0 < (shape.getD i 0 : Nat) := by
  induction x generalizing shape i with
  | nil => cases shape with
    | nil => simp at hi
    | cons => exact h.elim
  | cons x0 x ih => cases shape with
    | nil => exact h.elim
    | cons n shape =>
      obtain ⟨h1, h2⟩ := h
      cases i with
      | zero => simpa using h1
      | succ i => simpa using ih shape h2 i (by simpa using hi)

/-- Nested strides address the elements of a box injectively. -/
theorem chain_injective (a0 : Int) (rest : List Int) (m0 : Nat) (ms : List Nat) (P : Int) (hP : 0 < P)
    (hPa : P ∣ a0) (h0 : a0 ≠ 0) (hnz : ∀ a ∈ rest, a ≠ 0) (hc : Chain P rest ms)
    (x y : List Int) (hx : InBox x (m0 :: ms)) (hy : InBox y (m0 :: ms))
    (h : address x (a0 :: rest) = address y (a0 :: rest)) : x = y := by
  induction rest generalizing a0 m0 ms P x y with
  | nil =>
    cases ms with
    | cons => exact hc.elim
    | nil =>
      match x, y, hx, hy, h with
      | [x0], [y0], _, _, h =>
        simp [address] at h
        rcases h with h | h
        · rw [h]
        · exact absurd h h0
      | [_], _ :: _ :: _, _, hy, _ => exact hy.2.elim
      | _ :: _ :: _, _, hx, _, _ => exact hx.2.elim
      | [], _, hx, _, _ => exact hx.elim
      | _, [], _, hy, _ => exact hy.elim
  | cons a1 rest ih =>
    cases ms with
    | nil => exact hc.elim
    | cons m1 ms =>
      have hxl : x.length = rest.length + 2 := by
        have := hx.length_eq; have := hc.length_eq; simp at *; omega
      have hyl : y.length = rest.length + 2 := by
        have := hy.length_eq; have := hc.length_eq; simp at *; omega
      obtain ⟨x0, x, rfl⟩ := List.exists_of_length_succ x hxl
      obtain ⟨y0, y, rfl⟩ := List.exists_of_length_succ y hyl
      obtain ⟨hx0, hx⟩ := hx
      obtain ⟨hy0, hy⟩ := hy
      simp only [address] at h
      have hb := hc.bound hP (fun i => x.getD i 0 - y.getD i 0) fun i hi => by
        have b1 := inBox_getD x _ hx i hi
        have b2 := inBox_getD y _ hy i hi
        rw [abs_le]
        constructor <;> omega
      have hsub : dotF (a1 :: rest) (fun i => x.getD i 0 - y.getD i 0)
          = address x (a1 :: rest) - address y (a1 :: rest) := by
        rw [address_eq_dotF x _ (by simpa using hxl), address_eq_dotF y _ (by simpa using hyl)]
        have := dotF_add (R := Int) (a1 :: rest) (fun i => x.getD i 0) (fun i => (-1) * y.getD i 0)
        rw [dotF_smul] at this
        rw [dotF_congr _ (fun i => x.getD i 0 - y.getD i 0) (fun i => x.getD i 0 + (-1) * y.getD i 0)
          fun i _ => by ring, this]
        ring
      rw [hsub] at hb
      have hx0y0 : x0 = y0 := by
        by_contra hne
        have hne' : x0 - y0 ≠ 0 := by omega
        have e : address x (a1 :: rest) - address y (a1 :: rest) = -((x0 - y0) * a0) := by linarith
        rw [e, abs_neg] at hb
        have : P ∣ |(x0 - y0) * a0| := (dvd_abs _ _).2 (dvd_mul_of_dvd_right hPa _)
        have := Int.le_of_dvd (abs_pos.2 (mul_ne_zero hne' h0)) this
        omega
      subst hx0y0
      obtain ⟨S, n, hS, hn, h1, h2, h3, h4⟩ := hc
      have := ih a1 m1 ms S hS h2 (hnz a1 (by simp)) (fun a ha => hnz a (by simp [ha])) h4 x y hx hy
        (by linarith)
      rw [this]

/-- `solve_index` finds every element of a box with nested strides. -/
theorem solve_complete (a0 : Int) (rest : List Int) (m0 : Nat) (ms : List Nat) (P : Int) (hP : 0 < P)
    (hPa : P ∣ a0) (h0 : a0 ≠ 0) (hnz : ∀ a ∈ rest, a ≠ 0) (hc : Chain P rest ms)
    (x : List Int) (hx : InBox x (m0 :: ms)) :
    solveIndex (address x (a0 :: rest)) (m0 :: ms) (a0 :: rest) = .ok (some x) := by
  have hlen := hc.length_eq
  have hxl : x.length = rest.length + 1 := by have := hx.length_eq; simp at *; omega
  obtain ⟨data, hdata, hg⟩ := goodData_of_ne a0 rest (m0 :: ms) (by simp; omega) (by
    intro a ha
    rcases List.mem_cons.1 ha with rfl | ha
    · exact h0
    · exact hnz a ha)
  generalize hpos : address x (a0 :: rest) = pos
  have hpos' : dotF (a0 :: rest) (fun i => x.getD i 0) = pos := by
    rw [← hpos, address_eq_dotF x _ (by simpa using hxl)]
  have hsol : solveIndex pos (m0 :: ms) (a0 :: rest) = solveIndexData pos (m0 :: ms) data := by
    simp [solveIndex, hdata, bind, Except.bind]
  rw [hsol]
  -- `d` divides `pos`
  have hdv : ∀ (a0 : Int) (rest : List Int), dioD a0 rest ∣ a0 ∧ ∀ a ∈ rest, dioD a0 rest ∣ a := by
    intro a0 rest
    induction rest generalizing a0 with
    | nil => simp [dioD]
    | cons a1 rest ih =>
      obtain ⟨i1, i2⟩ := ih (extgcd a0 a1).1
      obtain ⟨_, b1, b2⟩ := extgcd_bezout a0 a1
      refine ⟨dvd_trans i1 b1, ?_⟩
      intro a ha
      rcases List.mem_cons.1 ha with rfl | ha
      · exact dvd_trans i1 b2
      · exact i2 a ha
  have hdd : ∀ (a : List Int) (y : Nat → Int) (g : Int), (∀ b ∈ a, g ∣ b) → g ∣ dotF a y := by
    intro a
    induction a with
    | nil => intro y g _; simp [dotF]
    | cons b a ih =>
      intro y g hgb
      simp only [dotF, Int.cast_id]
      exact dvd_add (dvd_mul_of_dvd_left (hgb b (by simp)) _) (ih _ _ fun c hc => hgb c (by simp [hc]))
  have hdpos : dioD a0 rest ∣ pos := by
    rw [← hpos']
    apply hdd
    intro b hb
    rcases List.mem_cons.1 hb with rfl | hb
    · exact (hdv b rest).1
    · exact (hdv a0 rest).2 b hb
  have hk : pos = dioD a0 rest * pos.fdiv (dioD a0 rest) := (Int.mul_fdiv_cancel' hdpos).symm
  generalize hkd : pos.fdiv (dioD a0 rest) = k at *
  -- coordinates of `x`
  obtain ⟨t, ht⟩ := lin_complete (R := Int) a0 rest hg.ok hg.d_ne (fun i => x.getD i 0) k
    (by rw [hpos']; simpa using hk)
  simp only [Int.cast_id] at ht
  -- coordinates of the corner
  have haq : (a0 : ℚ) ≠ 0 := by exact_mod_cast h0
  let X : Nat → ℚ := fun i => if i = 0 then
      ((pos : ℚ) - dotF rest fun i => (((ms.getD i 0 : Nat) : ℚ) - 1)) / a0
    else ((ms.getD (i - 1) 0 : Nat) : ℚ) - 1
  obtain ⟨u, hu⟩ := lin_complete (R := ℚ) a0 rest hg.ok hg.d_ne X (k : ℚ) (by
    simp only [dotF, X, if_true, Nat.add_eq_zero_iff, one_ne_zero, and_false, if_false, Nat.add_sub_cancel]
    rw [mul_div_cancel₀ _ haq]
    have : (pos : ℚ) = (dioD a0 rest : ℚ) * k := by exact_mod_cast congrArg (Int.cast (R := ℚ)) hk
    rw [← this]; ring)
  have hτ := tau_bound a0 rest ms P hP hPa h0 hnz hc (fun j => (t j : ℚ) - u j)
    (fun i => (ms.getD i 0 : Int) - 1 - x.getD (i + 1) 0)
    (by
      intro i hi
      have := inBox_getD x _ hx (i + 1) (by simpa using hi)
      simp only [List.getD_cons_succ] at this
      constructor <;> omega)
    (by
      intro i hi
      rw [lin_sub, ← lin_cast ℚ]
      have h1 := ht (i + 1) (by omega)
      have h2 := hu (i + 1) (by omega)
      simp only [X, Nat.add_eq_zero_iff, one_ne_zero, and_false, if_false, Nat.add_sub_cancel] at h2
      have h1' : ((x.getD (i + 1) 0 : Int) : ℚ) = k * ((dioZ0 a0 rest).getD (i + 1) 0 : Int)
          + (lin (dioCols a0 rest) t (i + 1) : Int) := by exact_mod_cast congrArg (Int.cast (R := ℚ)) h1
      push_cast
      linear_combination h2 - h1')
  -- the elimination finds these coordinates
  have hfloor : ∀ j < rest.length, kq k data j ≤ t j ∧ t j ≤ kq k data j + 1 := by
    intro j hj
    have hD := hg.D_pos j hj
    let v : Nat → ℚ := fun c =>
      if c < rest.length then u c
      else if c < 2 * rest.length + 1 then -X (c - rest.length)
      else if c = 2 * rest.length + 1 then X 0 - ((m0 : ℚ) - 1)
      else if c = 2 * rest.length + 2 then -(k : ℚ)
      else -1
    have hv : Kills (dioMatrix (rest.length + 1) rest.length (dioCols a0 rest) (dioZ0 a0 rest)
        (some (m0 :: ms))) (2 * (rest.length + 1)) v := by
      have hlv : ∀ r, lin (dioCols a0 rest) v r = lin (dioCols a0 rest) u r := by
        intro r
        apply lin_congr
        intro c hc
        rw [dioCols_length] at hc
        simp [v, hc]
      have hv2N : v (2 * (rest.length + 1)) = -(k : ℚ) := by
        simp only [v]
        rw [if_neg (by omega), if_neg (by omega), if_neg (by omega), if_pos (by omega)]
      have hv2N1 : v (2 * (rest.length + 1) + 1) = -1 := by
        simp only [v]
        rw [if_neg (by omega), if_neg (by omega), if_neg (by omega), if_neg (by omega)]
      have hv2N0 : v (2 * (rest.length + 1) - 1) = X 0 - ((m0 : ℚ) - 1) := by
        simp only [v]
        rw [if_neg (by omega), if_neg (by omega), if_pos (by omega)]
      intro c hc
      rcases lt_or_ge c (rest.length + 1) with h1 | h1
      · rw [dioMatrix_row_lo _ _ _ _ _ _ h1, dotF_rowLo _ _ _ _ _ _ rfl (dioCols_length a0 rest) h1, hlv,
          hv2N]
        have : v (rest.length + c) = -X c := by
          simp [v, show rest.length + c < 2 * rest.length + 1 by omega]
        rw [this, hu c h1]; ring
      · obtain ⟨r, rfl⟩ : ∃ r, c = rest.length + 1 + r := ⟨c - (rest.length + 1), by omega⟩
        have hr : r < rest.length + 1 := by omega
        rw [dioMatrix_row_hi _ _ _ _ _ _ hr, dotF_rowHi _ _ _ _ _ _ rfl (dioCols_length a0 rest) hr, hlv,
          hv2N, hv2N1, hv2N0]
        have hur := hu r hr
        cases r with
        | zero =>
          simp only [if_true, List.getD_cons_zero]
          linear_combination hur
        | succ r =>
          simp only [X, Nat.add_eq_zero_iff, one_ne_zero, and_false, if_false, Nat.add_sub_cancel] at hur
          simp only [Nat.add_eq_zero_iff, one_ne_zero, and_false, if_false, List.getD_cons_succ]
          linear_combination hur
    have hrest : rest ≠ [] := by rintro rfl; simp at hj
    have hs := hg.sol hrest v hv j hj
    have hvj : v j = u j := by simp [v, hj]
    have hv2N : v (2 * (rest.length + 1)) = -(k : ℚ) := by
      simp only [v]
      rw [if_neg (by omega), if_neg (by omega), if_neg (by omega), if_pos (by omega)]
    have hv2N1 : v (2 * (rest.length + 1) + 1) = -1 := by
      simp only [v]
      rw [if_neg (by omega), if_neg (by omega), if_neg (by omega), if_neg (by omega)]
    rw [hvj, hv2N, hv2N1] at hs
    have hτj := hτ j (by omega)
    rw [abs_lt] at hτj
    -- `D u = b k + s`
    generalize hDj : data.D.getD j 0 = D at *
    generalize hbj : data.b.getD j 0 = b at *
    generalize hsj : (data.s.getD []).getD j 0 = s at *
    have hDq : (0 : ℚ) < D := by exact_mod_cast hD
    have hnum : (D : ℚ) * u j = ((b * k + s : Int) : ℚ) := by push_cast; linarith
    have hkq : kq k data j = (b * k + s).fdiv D := by simp only [kq, hDj, hbj, hsj]
    have hfm := Int.fmod_add_mul_fdiv (b * k + s) D
    have f1 := Int.fmod_nonneg_of_pos (b * k + s) hD
    have f2 := Int.fmod_lt_of_pos (b * k + s) hD
    rw [hkq]
    generalize (b * k + s).fdiv D = q at *
    generalize (b * k + s).fmod D = r at *
    have g1 : ((b * k + s : Int) : ℚ) = (r : ℚ) + D * q := by exact_mod_cast congrArg (Int.cast (R := ℚ)) hfm.symm
    have f1q : (0 : ℚ) ≤ r := by exact_mod_cast f1
    have f2q : (r : ℚ) < D := by exact_mod_cast f2
    have hu1 : (q : ℚ) ≤ u j := by nlinarith
    have hu2 : u j < (q : ℚ) + 1 := by nlinarith
    constructor
    · have : (q : ℚ) < t j + 1 := by linarith
      have : q < t j + 1 := by exact_mod_cast this
      omega
    · have : (t j : ℚ) < q + 2 := by linarith
      have : t j < q + 2 := by exact_mod_cast this
      omega
  -- the right `dt`
  have hdt : (List.range rest.length).map (fun j => t j - kq k data j) ∈ bits rest.length := by
    rw [mem_bits]
    refine ⟨by simp, ?_⟩
    intro d hd
    obtain ⟨j, hj, rfl⟩ := List.mem_map.1 hd
    have := hfloor j (List.mem_range.1 hj)
    omega
  have hcand : candidate k a0 rest data ((List.range rest.length).map (fun j => t j - kq k data j)) = x := by
    apply list_ext_getD _ _ (by simp [candidate, hxl])
    intro i hi
    have hi : i < rest.length + 1 := by simpa [candidate] using hi
    rw [candidate_getD _ _ _ hi, ht i hi]
    congr 1
    apply lin_congr
    intro j hj
    rw [dioCols_length] at hj
    simp [List.getD_eq_getElem?_getD, hj]
  rcases solveIndexData_spec hg (by simp; omega) pos with ⟨hn, _⟩ | ⟨_, h | h⟩
  · exact absurd hdpos hn
  · rw [hkd] at h
    obtain ⟨dt', hdt', hbox, hres⟩ := h
    rw [hres]
    congr 2
    apply chain_injective a0 rest m0 ms P hP hPa h0 hnz hc _ _ hbox hx
    rw [candidate_address hg, hpos, ← hk]
  · rw [hkd] at h
    exact absurd (hcand ▸ hx) (h.1 _ hdt)

end Gcs
