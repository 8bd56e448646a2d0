import Verif.Lemmas.RowMajor
import Verif.Model.Basics

/-! Facts on the reduction of groups of axes to one and back. -/

namespace Gcs

open Spec

theorem pyGet_nat {α : Type} (l : List α) (k : Nat) (h : k < l.length) : pyGet l (k : Int) = .ok l[k] := by
  simp [pyGet, h]

theorem pyGet_natD {α : Type} (l : List α) (k : Nat) (d : α) (h : k < l.length) :
    pyGet l (k : Int) = .ok (l.getD k d) := by
  rw [pyGet_nat l k h]; simp [List.getD_eq_getElem?_getD, h]

theorem InBox_pos {ix : List Int} {shape : List Nat} (h : InBox ix shape) : PosShape shape := by
  induction ix generalizing shape with
  | nil => cases shape with
    | nil => intro n hn; simp at hn
    | cons => exact h.elim
  | cons x ix ih => cases shape with
    | nil => exact h.elim
    | cons n shape =>
      intro m hm
      rcases List.mem_cons.1 hm with rfl | hm
      · have := h.1; omega
      · exact ih h.2 m hm

/-! ## Digits -/

/-- The digits of `pos` in the mixed radix given by `sh`. -/
def decode (pos : Int) : List Nat → List Int
  | [] => []
  | n :: sh => (pos.fdiv (product sh)).fmod n :: decode pos sh

theorem decode_length (pos : Int) (sh : List Nat) : (decode pos sh).length = sh.length := by
  induction sh with
  | nil => rfl
  | cons n sh ih => simp [decode, ih]

theorem decode_mod (pos q : Int) (sh : List Nat) (hp : PosShape sh) :
    decode (pos + q * product sh) sh = decode pos sh := by
  induction sh generalizing q with
  | nil => rfl
  | cons n sh ih =>
    obtain ⟨h1, h2⟩ := hp.cons
    have hpp := product_pos h2
    simp only [decode]
    rw [product_cons]
    congr 1
    · rw [show pos + q * ((n * product sh : Nat) : Int) = pos + (q * n) * (product sh : Int) by push_cast; ring]
      rw [Int.add_mul_fdiv_right _ _ (by omega), Int.add_mul_fmod_self_right]
    · rw [show pos + q * ((n * product sh : Nat) : Int) = pos + (q * n) * (product sh : Int) by push_cast; ring]
      exact ih (q * n) h2

theorem address_bound {ix : List Int} {sh : List Nat} (h : InBox ix sh) :
    0 ≤ address ix (makeStrides sh) ∧ address ix (makeStrides sh) < product sh := by
  induction ix generalizing sh with
  | nil => cases sh with
    | nil => simp [address, product]
    | cons => exact h.elim
  | cons x ix ih => cases sh with
    | nil => exact h.elim
    | cons n sh =>
      obtain ⟨⟨h1, h2⟩, h3⟩ := h
      obtain ⟨i1, i2⟩ := ih h3
      rw [makeStrides_cons, product_cons, address]
      push_cast
      constructor
      · have : 0 ≤ x * (product sh : Int) := mul_nonneg h1 (by omega)
        omega
      · have : (x + 1) * (product sh : Int) ≤ n * product sh := Int.mul_le_mul_of_nonneg_right (by omega) (by omega)
        linarith

theorem decode_address {ix : List Int} {sh : List Nat} (h : InBox ix sh) :
    decode (address ix (makeStrides sh)) sh = ix := by
  induction ix generalizing sh with
  | nil => cases sh with
    | nil => rfl
    | cons => exact h.elim
  | cons x ix ih => cases sh with
    | nil => exact h.elim
    | cons n sh =>
      obtain ⟨⟨h1, h2⟩, h3⟩ := h
      have hb := address_bound h3
      have hpp := product_pos (InBox_pos h3)
      rw [makeStrides_cons, address]
      rw [show x * (product sh : Int) + address ix (makeStrides sh)
        = address ix (makeStrides sh) + x * product sh by ring]
      simp only [decode]
      rw [decode_mod _ _ _ (InBox_pos h3), ih h3, Int.add_mul_fdiv_right _ _ (by omega),
        Int.fdiv_eq_zero_of_lt hb.1 hb.2, zero_add, Int.fmod_eq_of_lt h1 h2]

theorem decode_inBox (pos : Int) {sh : List Nat} (hp : PosShape sh) : InBox (decode pos sh) sh := by
  induction sh with
  | nil => trivial
  | cons n sh ih =>
    obtain ⟨h1, h2⟩ := hp.cons
    exact ⟨⟨Int.fmod_nonneg_of_pos _ (by omega), Int.fmod_lt_of_pos _ (by omega)⟩, ih h2⟩

theorem address_decode_mod (pos : Int) {sh : List Nat} (hp : PosShape sh) :
    address (decode pos sh) (makeStrides sh) = pos.fmod (product sh) := by
  induction sh with
  | nil => simp [decode, address, product]
  | cons n sh ih =>
    obtain ⟨h1, h2⟩ := hp.cons
    have hpp := product_pos h2
    rw [makeStrides_cons, product_cons, decode, address, ih h2]
    push_cast
    replace hpp : (0 : Int) < (product sh : Int) := by omega
    generalize (product sh : Int) = P at *
    have hn : (0 : Int) < n := by omega
    generalize (n : Int) = N at *
    have e0 : (0 : Int) < N * P := mul_pos hn hpp
    simp only [Int.fmod_eq_emod_of_nonneg _ hpp.le, Int.fmod_eq_emod_of_nonneg _ hn.le,
      Int.fmod_eq_emod_of_nonneg _ e0.le, Int.fdiv_eq_ediv_of_nonneg _ hpp.le]
    have a1 := Int.mul_ediv_add_emod pos P
    have a2 := Int.mul_ediv_add_emod (pos / P) N
    have b1 := Int.emod_nonneg pos hpp.ne'
    have b2 := Int.emod_lt_of_pos pos hpp
    have b3 := Int.emod_nonneg (pos / P) hn.ne'
    have b4 := Int.emod_lt_of_pos (pos / P) hn
    have hmod : ((pos / P % N) * P + pos % P) % (N * P) = pos % (N * P) := by
      have : pos = (pos / P % N) * P + pos % P + (N * P) * (pos / P / N) := by
        calc pos = P * (pos / P) + pos % P := a1.symm
          _ = P * (N * (pos / P / N) + pos / P % N) + pos % P := by rw [a2]
          _ = _ := by ring
      conv_rhs => rw [this]
      rw [Int.add_mul_emod_self_left]
    rw [← hmod]
    symm
    apply Int.emod_eq_of_lt
    · have := mul_nonneg b3 hpp.le; omega
    · have : (pos / P % N + 1) * P ≤ N * P := Int.mul_le_mul_of_nonneg_right (by omega) hpp.le
      linarith

theorem address_decode {pos : Int} {sh : List Nat} (h0 : 0 ≤ pos) (h1 : pos < product sh) :
    InBox (decode pos sh) sh ∧ address (decode pos sh) (makeStrides sh) = pos := by
  have hp : PosShape sh := by
    intro n hn
    by_contra hc
    have : n = 0 := by omega
    subst this
    have hz : ∀ sh : List Nat, 0 ∈ sh → product sh = 0 := by
      intro sh
      induction sh with
      | nil => simp
      | cons m sh ih =>
        intro hm
        rw [product_cons]
        rcases List.mem_cons.1 hm with rfl | hm
        · simp
        · simp [ih hm]
    rw [hz sh hn] at h1
    omega
  exact ⟨decode_inBox pos hp, by rw [address_decode_mod pos hp, Int.fmod_eq_of_lt h0 h1]⟩

/-! ## Setting items of the index under construction -/

/-- `index[d] = v` for the pairs in order. -/
def setAll : List (Option Int) → List Nat → List Int → List (Option Int)
  | index, d :: ds, v :: vs => setAll (index.set d (some v)) ds vs
  | index, _, _ => index

theorem setAll_length (index : List (Option Int)) (ds : List Nat) (vs : List Int) :
    (setAll index ds vs).length = index.length := by
  induction ds generalizing index vs with
  | nil => simp [setAll]
  | cons d ds ih => cases vs with
    | nil => simp [setAll]
    | cons v vs => simp [setAll, ih]

theorem setAll_append (index : List (Option Int)) (ds1 ds2 : List Nat) (vs1 vs2 : List Int)
    (h : ds1.length = vs1.length) :
    setAll index (ds1 ++ ds2) (vs1 ++ vs2) = setAll (setAll index ds1 vs1) ds2 vs2 := by
  induction ds1 generalizing index vs1 with
  | nil => cases vs1 with
    | nil => rfl
    | cons => simp at h
  | cons d ds ih => cases vs1 with
    | nil => simp at h
    | cons v vs => simp [setAll, ih _ vs (by simpa using h)]

theorem setAll_not_mem (index : List (Option Int)) (ds : List Nat) (vs : List Int) (d : Nat) (h : d ∉ ds) :
    (setAll index ds vs)[d]? = index[d]? := by
  induction ds generalizing index vs with
  | nil => simp [setAll]
  | cons e ds ih => cases vs with
    | nil => simp [setAll]
    | cons v vs =>
      simp only [List.mem_cons, not_or] at h
      rw [setAll, ih _ _ h.2, List.getElem?_set_ne (Ne.symm h.1)]

theorem setAll_mem (index : List (Option Int)) (ds : List Nat) (vs : List Int) (hn : ds.Nodup)
    (hl : ds.length = vs.length) (hlt : ∀ d ∈ ds, d < index.length) (k : Nat) (hk : k < ds.length) :
    (setAll index ds vs)[ds.getD k 0]? = some (some (vs.getD k 0)) := by
  induction ds generalizing index vs k with
  | nil => simp at hk
  | cons e ds ih => cases vs with
    | nil => simp at hl
    | cons v vs =>
      obtain ⟨h1, h2⟩ := List.nodup_cons.1 hn
      rw [setAll]
      cases k with
      | zero =>
        simp only [List.getD_cons_zero]
        rw [setAll_not_mem _ _ _ _ h1, List.getElem?_set_self (hlt e (by simp))]
      | succ k =>
        simp only [List.getD_cons_succ]
        exact ih _ vs h2 (by simpa using hl) (by intro d hd; simpa using hlt d (by simp [hd])) k (by simpa using hk)

/-- Setting all items of a permutation of the axes. -/
theorem setAll_perm (n : Nat) (ds : List Nat) (vs : List Int) (hp : ds.Perm (List.range n))
    (hl : ds.length = vs.length) :
    ∃ ix : List Int, setAll (List.replicate n none) ds vs = ix.map some ∧ ix.length = n ∧
      ∀ k < ds.length, ix.getD (ds.getD k 0) 0 = vs.getD k 0 := by
  have hnd : ds.Nodup := hp.nodup_iff.2 List.nodup_range
  have hlt : ∀ d ∈ ds, d < n := fun d hd => by simpa using hp.mem_iff.1 hd
  have hmem := setAll_mem (List.replicate n none) ds vs hnd hl (by simpa using hlt)
  set R := setAll (List.replicate n none) ds vs with hR
  have hRl : R.length = n := by rw [hR, setAll_length]; simp
  refine ⟨R.map fun o => o.getD 0, ?_, by simpa using hRl, ?_⟩
  · apply List.ext_getElem (by simp)
    intro d h1 h2
    obtain ⟨k, hk, hkd⟩ := List.getElem_of_mem (hp.mem_iff.2 (List.mem_range.2 (hRl ▸ h1)))
    have := hmem k hk
    rw [List.getD_eq_getElem?_getD, List.getElem?_eq_getElem hk, Option.getD_some, hkd,
      List.getElem?_eq_getElem h1] at this
    simp only [Option.some.injEq] at this
    simp [this]
  · intro k hk
    have := hmem k hk
    rw [List.getD_eq_getElem?_getD, List.getElem?_map, this]
    simp

/-! ## One group of axes -/

theorem getRPosition_ok (index : List Int) (strides : List Int) (shape dims : List Nat)
    (h1 : strides.length = shape.length) (h2 : dims.length = shape.length)
    (hd : ∀ d ∈ dims, d < index.length) :
    getRPosition index strides shape dims = .ok (address (dims.map fun d => index.getD d 0) strides) := by
  induction shape generalizing strides dims with
  | nil =>
    obtain rfl := List.length_eq_zero_iff.1 h1
    obtain rfl := List.length_eq_zero_iff.1 h2
    rfl
  | cons n shape ih =>
    obtain ⟨s, strides, rfl⟩ := List.exists_of_length_succ strides h1
    obtain ⟨d, dims, rfl⟩ := List.exists_of_length_succ dims h2
    simp only [getRPosition, pyGet_natD index d 0 (hd d (by simp)), bind, Except.bind,
      ih strides dims (by simpa using h1) (by simpa using h2) (fun e he => hd e (by simp [he])), pure,
      Except.pure, List.map_cons, address]

theorem reductionSum_ok (index : List Int) (strides : List Int) (shape dims : List Nat)
    (h1 : strides.length = shape.length) (h2 : dims.length = shape.length)
    (hd : ∀ d ∈ dims, d < index.length) :
    Basics.reductionSum index shape strides dims
      = .ok (address (dims.map fun d => index.getD d 0) strides) := by
  induction shape generalizing strides dims with
  | nil =>
    obtain rfl := List.length_eq_zero_iff.1 h1
    obtain rfl := List.length_eq_zero_iff.1 h2
    rfl
  | cons n shape ih =>
    obtain ⟨s, strides, rfl⟩ := List.exists_of_length_succ strides h1
    obtain ⟨d, dims, rfl⟩ := List.exists_of_length_succ dims h2
    simp only [Basics.reductionSum, pyGet_natD index d 0 (hd d (by simp)), bind, Except.bind,
      ih strides dims (by simpa using h1) (by simpa using h2) (fun e he => hd e (by simp [he])), pure,
      Except.pure, List.map_cons, address]
    congr 1
    ring

theorem promoteGroup_ok (pos : Int) (dims : List Nat) (shape : List Nat) (index : List (Option Int))
    (h : dims.length = shape.length) (hp : PosShape shape) (hd : ∀ d ∈ dims, d < index.length) :
    promoteGroup pos dims (makeStrides shape) shape index = .ok (setAll index dims (decode pos shape)) := by
  induction dims generalizing shape index with
  | nil => simp [promoteGroup, setAll, pure, Except.pure]
  | cons d dims ih =>
    obtain ⟨n, shape, rfl⟩ := List.exists_of_length_succ shape h.symm
    obtain ⟨h1, h2⟩ := hp.cons
    have hpp := product_pos h2
    have e1 : pySet index (d : Int) (some ((pos.fdiv (product shape)).fmod n))
        = .ok (index.set d (some ((pos.fdiv (product shape)).fmod n))) := by
      have := hd d (by simp)
      simp [pySet, this]
    rw [makeStrides_cons]
    simp only [promoteGroup, pyDiv, pyMod, if_neg (show ¬ ((product shape : Int) = 0) by omega),
      if_neg (show ¬ ((n : Int) = 0) by omega), bind, Except.bind, e1]
    rw [ih shape _ (by simpa using h) h2 (fun e he => by simpa using hd e (by simp [he]))]
    simp [decode, setAll]

theorem promotionGroup_eq (pos : Int) (dims : List Nat) (strides : List Int) (shape : List Nat)
    (index : List (Option Int)) :
    Basics.promotionGroup pos dims strides shape index = promoteGroup pos dims strides shape index := by
  induction dims generalizing strides shape index with
  | nil => rfl
  | cons d dims ih =>
    cases strides with
    | nil => rfl
    | cons s strides => cases shape with
      | nil => rfl
      | cons n shape => simp only [Basics.promotionGroup, promoteGroup, ih]

/-! ## All groups -/

/-- The shapes of the groups. -/
def groupShapes (shape : List Nat) (rdims : List (List Nat)) : List (List Nat) :=
  rdims.map fun dims => dims.map fun d => shape.getD d 0

theorem groupShape_mapM (shape dims : List Nat) (h : ∀ d ∈ dims, d < shape.length) :
    (dims.mapM fun (d : Nat) => pyGet shape d) = .ok (dims.map fun d => shape.getD d 0) := by
  induction dims with
  | nil => rfl
  | cons d dims ih =>
    rw [List.mapM_cons, pyGet_natD shape d 0 (h d (by simp)), ih fun e he => h e (by simp [he])]
    rfl

theorem makeReduction_ok (shape : List Nat) (rdims : List (List Nat))
    (h : ∀ dims ∈ rdims, ∀ d ∈ dims, d < shape.length) :
    makeReduction shape rdims = .ok ((groupShapes shape rdims).map product, groupShapes shape rdims,
      (groupShapes shape rdims).map makeStrides) := by
  induction rdims with
  | nil => rfl
  | cons dims rdims ih =>
    simp only [makeReduction, groupShape_mapM shape dims (h dims (by simp)), bind, Except.bind,
      ih fun e he => h e (by simp [he]), pure, Except.pure]
    rfl

theorem reduceIndex_ok (index : List Int) (shape : List Nat) (rdims : List (List Nat)) (roffset : List Int)
    (ho : roffset.length = rdims.length) (hd : ∀ dims ∈ rdims, ∀ d ∈ dims, d < index.length) :
    reduceIndex (groupShapes shape rdims) rdims ((groupShapes shape rdims).map makeStrides) roffset index
      = .ok (List.zipWith (fun off dims => off + address (dims.map fun d => index.getD d 0)
          (makeStrides (dims.map fun d => shape.getD d 0))) roffset rdims) := by
  induction rdims generalizing roffset with
  | nil => simp [groupShapes, reduceIndex, pure, Except.pure]
  | cons dims rdims ih =>
    obtain ⟨off, roffset, rfl⟩ := List.exists_of_length_succ roffset ho
    have e := getRPosition_ok index (makeStrides (dims.map fun d => shape.getD d 0))
      (dims.map fun d => shape.getD d 0) dims (by simp [makeStrides_length]) (by simp) (hd dims (by simp))
    have ih' := ih roffset (by simpa using ho) fun e he => hd e (by simp [he])
    simp only [groupShapes] at ih'
    simp only [groupShapes, List.map_cons, reduceIndex, e, bind, Except.bind, ih', pure, Except.pure,
      List.zipWith_cons_cons]

theorem reductionLoop_ok (index : List Int) (shape : List Nat) (rdims : List (List Nat))
    (hd : ∀ dims ∈ rdims, ∀ d ∈ dims, d < index.length) :
    Basics.reductionLoop index (groupShapes shape rdims) ((groupShapes shape rdims).map makeStrides) rdims
      = .ok (rdims.map fun dims => address (dims.map fun d => index.getD d 0)
          (makeStrides (dims.map fun d => shape.getD d 0))) := by
  induction rdims with
  | nil => rfl
  | cons dims rdims ih =>
    have e := reductionSum_ok index (makeStrides (dims.map fun d => shape.getD d 0))
      (dims.map fun d => shape.getD d 0) dims (by simp [makeStrides_length]) (by simp) (hd dims (by simp))
    have ih' := ih fun e he => hd e (by simp [he])
    simp only [groupShapes] at ih'
    simp only [groupShapes, List.map_cons, Basics.reductionLoop, e, bind, Except.bind, ih', pure, Except.pure]

/-- The digits of all groups, one after the other. -/
def decodeAll (shape : List Nat) : List (List Nat) → List Int → List Int
  | dims :: rdims, p :: ps => decode p (dims.map fun d => shape.getD d 0) ++ decodeAll shape rdims ps
  | _, _ => []

theorem decodeAll_length (shape : List Nat) (rdims : List (List Nat)) (ps : List Int)
    (h : ps.length = rdims.length) : (decodeAll shape rdims ps).length = rdims.flatten.length := by
  induction rdims generalizing ps with
  | nil => simp [decodeAll]
  | cons dims rdims ih =>
    obtain ⟨p, ps, rfl⟩ := List.exists_of_length_succ ps h
    rw [decodeAll, List.length_append, decode_length, ih ps (by simpa using h)]
    simp

theorem promoteLoop_ok (shape : List Nat) (hp : PosShape shape) (rdims : List (List Nat)) (roffset rindex : List Int)
    (index : List (Option Int)) (hi : index.length = shape.length)
    (ho : roffset.length = rdims.length) (hr : rindex.length = rdims.length)
    (hd : ∀ dims ∈ rdims, ∀ d ∈ dims, d < shape.length) :
    promoteLoop (groupShapes shape rdims) rdims ((groupShapes shape rdims).map makeStrides) roffset rindex index
      = .ok (setAll index rdims.flatten (decodeAll shape rdims (List.zipWith (· - ·) rindex roffset))) := by
  induction rdims generalizing roffset rindex index with
  | nil => simp [groupShapes, promoteLoop, setAll, pure, Except.pure]
  | cons dims rdims ih =>
    obtain ⟨off, roffset, rfl⟩ := List.exists_of_length_succ roffset ho
    obtain ⟨r, rindex, rfl⟩ := List.exists_of_length_succ rindex hr
    have hps : PosShape (dims.map fun d => shape.getD d 0) := by
      intro n hn
      obtain ⟨d, hd1, rfl⟩ := List.mem_map.1 hn
      apply hp
      have := hd dims (by simp) d hd1
      simp [List.getD_eq_getElem?_getD, this]
    have e := promoteGroup_ok (r - off) dims (dims.map fun d => shape.getD d 0) index (by simp) hps
      (by intro d hd1; rw [hi]; exact hd dims (by simp) d hd1)
    have ih' := ih roffset rindex (setAll index dims (decode (r - off) (dims.map fun d => shape.getD d 0)))
      (by rw [setAll_length, hi]) (by simpa using ho) (by simpa using hr) fun e he => hd e (by simp [he])
    simp only [groupShapes] at ih'
    simp only [groupShapes, List.map_cons, promoteLoop, e, bind, Except.bind, ih', List.flatten_cons,
      List.zipWith_cons_cons, decodeAll]
    rw [setAll_append _ _ _ _ _ (by simp [decode_length])]

theorem promotionLoop_eq (dims : List (List Nat)) (strides : List (List Int)) (shapes : List (List Nat))
    (rindices : List Int) (index : List (Option Int)) (h : shapes.length = dims.length)
    (h2 : strides.length = dims.length) (h3 : rindices.length = dims.length) :
    Basics.promotionLoop dims strides shapes rindices index
      = promoteLoop shapes dims strides (List.replicate dims.length 0) rindices index := by
  induction dims generalizing strides shapes rindices index with
  | nil =>
    obtain rfl := List.length_eq_zero_iff.1 h
    simp [Basics.promotionLoop, promoteLoop]
  | cons d dims ih =>
    obtain ⟨s, strides, rfl⟩ := List.exists_of_length_succ strides h2
    obtain ⟨n, shapes, rfl⟩ := List.exists_of_length_succ shapes h
    obtain ⟨r, rindices, rfl⟩ := List.exists_of_length_succ rindices h3
    have ih' := fun i => ih strides shapes rindices i (by simpa using h) (by simpa using h2) (by simpa using h3)
    cases d with
    | nil =>
      simp only [Basics.promotionLoop, promoteLoop, List.length_cons, List.replicate_succ, sub_zero, promoteGroup,
        List.tail_cons, bind, Except.bind, pure, Except.pure, ih']
    | cons a d =>
      simp only [Basics.promotionLoop, promoteLoop, List.length_cons, List.replicate_succ, sub_zero,
        promotionGroup_eq, bind, Except.bind]
      cases promoteGroup r (a :: d) s n index with
      | error e => rfl
      | ok i => exact ih' i

/-- Group by group: encoding then decoding. -/
theorem decodeAll_encode (index : List Int) (shape : List Nat) (hb : InBox index shape) (rdims : List (List Nat))
    (hd : ∀ dims ∈ rdims, ∀ d ∈ dims, d < shape.length) :
    decodeAll shape rdims (rdims.map fun dims => address (dims.map fun d => index.getD d 0)
          (makeStrides (dims.map fun d => shape.getD d 0)))
      = rdims.flatten.map fun d => index.getD d 0 := by
  induction rdims with
  | nil => rfl
  | cons dims rdims ih =>
    simp only [List.map_cons, decodeAll, List.flatten_cons, List.map_append]
    rw [ih fun e he => hd e (by simp [he])]
    congr 1
    apply decode_address
    have hd' := hd dims (by simp)
    clear hd ih
    induction dims with
    | nil => trivial
    | cons d dims ih =>
      refine ⟨?_, ih fun e he => hd' e (by simp [he])⟩
      exact inBox_getD index shape hb d (hd' d (by simp))

/-- Group by group: decoding then encoding. -/
theorem encode_decodeAll (ix : List Int) (shape : List Nat) (rdims : List (List Nat)) (ps : List Int)
    (hb : InBox ps ((groupShapes shape rdims).map product))
    (hix : rdims.flatten.map (fun d => ix.getD d 0) = decodeAll shape rdims ps) :
    (rdims.map fun dims => address (dims.map fun d => ix.getD d 0)
          (makeStrides (dims.map fun d => shape.getD d 0))) = ps := by
  induction rdims generalizing ps with
  | nil =>
    cases ps with
    | nil => rfl
    | cons => exact hb.elim
  | cons dims rdims ih =>
    cases ps with
    | nil => exact hb.elim
    | cons p ps =>
      obtain ⟨⟨h1, h2⟩, h3⟩ := hb
      simp only [List.flatten_cons, List.map_append, decodeAll] at hix
      obtain ⟨e1, e2⟩ := List.append_inj hix (by simp [decode_length])
      simp only [List.map_cons]
      rw [ih ps h3 e2, e1, (address_decode h1 h2).2]

theorem groupShapes_pos (shape : List Nat) (rdims : List (List Nat)) (ps : List Int)
    (hperm : rdims.flatten.Perm (List.range shape.length))
    (hb : InBox ps ((groupShapes shape rdims).map product)) : PosShape shape := by
  intro n hn
  obtain ⟨d, hd, rfl⟩ := List.getElem_of_mem hn
  have hmem : d ∈ rdims.flatten := hperm.mem_iff.2 (List.mem_range.2 hd)
  obtain ⟨dims, h1, h2⟩ := List.mem_flatten.1 hmem
  have hp := InBox_pos hb
  have := hp (product (dims.map fun d => shape.getD d 0)) (by
    simp only [groupShapes, List.mem_map]
    exact ⟨_, ⟨dims, h1, rfl⟩, rfl⟩)
  by_contra hc
  have h0 : shape[d] = 0 := by omega
  have hz : ∀ l : List Nat, 0 ∈ l → product l = 0 := by
    intro l
    induction l with
    | nil => simp
    | cons m l ih =>
      intro hm
      rw [product_cons]
      rcases List.mem_cons.1 hm with rfl | hm
      · simp
      · simp [ih hm]
  rw [hz] at this
  · omega
  · rw [List.mem_map]
    exact ⟨d, h2, by simp [List.getD_eq_getElem?_getD, hd, h0]⟩

/-- `promote_index` for groups that are a permutation of the axes. -/
theorem promoteIndex_ok (shape : List Nat) (hp : PosShape shape) (rdims : List (List Nat))
    (roffset rindex : List Int) (hperm : rdims.flatten.Perm (List.range shape.length))
    (ho : roffset.length = rdims.length) (hr : rindex.length = rdims.length) :
    ∃ ix : List Int, ix.length = shape.length ∧
      promoteIndex (groupShapes shape rdims) rdims ((groupShapes shape rdims).map makeStrides) roffset rindex
        = .ok ix ∧
      promoteLoop (groupShapes shape rdims) rdims ((groupShapes shape rdims).map makeStrides) roffset rindex
        (List.replicate shape.length none) = .ok (ix.map some) ∧
      rdims.flatten.map (fun d => ix.getD d 0)
        = decodeAll shape rdims (List.zipWith (· - ·) rindex roffset) := by
  have hd : ∀ dims ∈ rdims, ∀ d ∈ dims, d < shape.length := fun dims h1 d h2 =>
    List.mem_range.1 (hperm.mem_iff.1 (List.mem_flatten.2 ⟨dims, h1, h2⟩))
  have hlen : (rdims.map List.length).foldr (· + ·) 0 = shape.length := by
    have := hperm.length_eq
    rw [List.length_flatten, List.length_range] at this
    rw [← this]; rfl
  have hloop := promoteLoop_ok shape hp rdims roffset rindex (List.replicate shape.length none) (by simp) ho hr hd
  have hdl := decodeAll_length shape rdims (List.zipWith (· - ·) rindex roffset) (by simp [ho, hr])
  obtain ⟨ix, h1, h2, h3⟩ := setAll_perm shape.length rdims.flatten
    (decodeAll shape rdims (List.zipWith (· - ·) rindex roffset)) hperm hdl.symm
  rw [h1] at hloop
  refine ⟨ix, h2, ?_, hloop, ?_⟩
  · simp only [promoteIndex, hlen, hloop, bind, Except.bind]
    clear hloop h1 h2 h3
    induction ix with
    | nil => rfl
    | cons x ix ih => rw [List.map_cons, List.mapM_cons, ih]; rfl
  · apply list_ext_getD _ _ (by rw [List.length_map, hdl])
    intro k hk
    have hk' : k < rdims.flatten.length := by rwa [List.length_map] at hk
    rw [← h3 k hk', List.getD_eq_getElem?_getD, List.getElem?_map, List.getElem?_eq_getElem hk',
      List.getD_eq_getElem?_getD (l := rdims.flatten), List.getElem?_eq_getElem hk']
    rfl

/-- The reduced index lies in the reduced box. -/
theorem encode_inBox (index : List Int) (shape : List Nat) (hb : InBox index shape) (rdims : List (List Nat))
    (hd : ∀ dims ∈ rdims, ∀ d ∈ dims, d < shape.length) :
    InBox (rdims.map fun dims => address (dims.map fun d => index.getD d 0)
          (makeStrides (dims.map fun d => shape.getD d 0))) ((groupShapes shape rdims).map product) := by
  induction rdims with
  | nil => trivial
  | cons dims rdims ih =>
    refine ⟨?_, ih fun e he => hd e (by simp [he])⟩
    apply address_bound
    have hd' := hd dims (by simp)
    clear hd ih
    induction dims with
    | nil => trivial
    | cons d dims ih =>
      exact ⟨inBox_getD index shape hb d (hd' d (by simp)), ih fun e he => hd' e (by simp [he])⟩

/-- The promoted index lies in the box. -/
theorem decode_perm_inBox (shape : List Nat) (hp : PosShape shape) (rdims : List (List Nat)) (ix ps : List Int)
    (hperm : rdims.flatten.Perm (List.range shape.length)) (hl : ix.length = shape.length)
    (hps : ps.length = rdims.length)
    (h : rdims.flatten.map (fun d => ix.getD d 0) = decodeAll shape rdims ps) : InBox ix shape := by
  have key : ∀ (rdims : List (List Nat)) (ps : List Int), ps.length = rdims.length →
      (∀ dims ∈ rdims, ∀ d ∈ dims, d < shape.length) →
      rdims.flatten.map (fun d => ix.getD d 0) = decodeAll shape rdims ps →
      ∀ d ∈ rdims.flatten, 0 ≤ ix.getD d 0 ∧ ix.getD d 0 < (shape.getD d 0 : Nat) := by
    intro rdims
    induction rdims with
    | nil => intro ps _ _ _ d hd; simp at hd
    | cons dims rdims ih =>
      intro ps hps hd h d hmem
      obtain ⟨p, ps, rfl⟩ := List.exists_of_length_succ ps hps
      simp only [List.flatten_cons, List.map_append, decodeAll] at h
      obtain ⟨e1, e2⟩ := List.append_inj h (by simp [decode_length])
      rcases List.mem_append.1 (by simpa using hmem : d ∈ dims ++ rdims.flatten) with h1 | h1
      · have hps : PosShape (dims.map fun d => shape.getD d 0) := by
          intro n hn
          obtain ⟨d, hd1, rfl⟩ := List.mem_map.1 hn
          apply hp
          have := hd dims (by simp) d hd1
          simp [List.getD_eq_getElem?_getD, this]
        have hb := decode_inBox p hps
        rw [← e1] at hb
        obtain ⟨k, hk, rfl⟩ := List.getElem_of_mem h1
        have := inBox_getD _ _ hb k (by simpa using hk)
        simpa [List.getD_eq_getElem?_getD, hk] using this
      · exact ih ps (by simpa using hps) (fun e he => hd e (by simp [he])) e2 d h1
  have hall := key rdims ps hps (fun dims h1 d h2 =>
    List.mem_range.1 (hperm.mem_iff.1 (List.mem_flatten.2 ⟨dims, h1, h2⟩))) h
  have hbox : ∀ (ix : List Int) (shape : List Nat), ix.length = shape.length →
      (∀ d < shape.length, 0 ≤ ix.getD d 0 ∧ ix.getD d 0 < (shape.getD d 0 : Nat)) → InBox ix shape := by
    intro ix
    induction ix with
    | nil => intro shape hl _; cases shape with
      | nil => trivial
      | cons => simp at hl
    | cons x ix ih => intro shape hl hh; cases shape with
      | nil => simp at hl
      | cons n shape =>
        refine ⟨by simpa using hh 0 (by simp), ih shape (by simpa using hl) fun d hd => ?_⟩
        simpa using hh (d + 1) (by simpa using hd)
  exact hbox ix shape hl fun d hd => hall d (hperm.mem_iff.2 (List.mem_range.2 hd))

/-- Two indices with the same items at a permutation of the axes are equal. -/
theorem eq_of_perm_map (n : Nat) (ds : List Nat) (hperm : ds.Perm (List.range n)) (x y : List Int)
    (hx : x.length = n) (hy : y.length = n)
    (h : ds.map (fun d => x.getD d 0) = ds.map (fun d => y.getD d 0)) : x = y := by
  apply list_ext_getD _ _ (by omega)
  intro i hi
  have hmem : i ∈ ds := hperm.mem_iff.2 (List.mem_range.2 (by omega))
  exact (List.map_inj_left.1 h) i hmem

end Gcs
