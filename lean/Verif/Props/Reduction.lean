import Verif.Lemmas.Box

/-!
# C19 to C21: reduction of dimensions, row-major positions
-/

namespace Gcs

open Spec

/-- Cutting a list at non-decreasing positions and putting the pieces together. -/
theorem splitDims_flatten (dims : List Nat) (last : Nat) (ps : List Nat) (lo : Nat)
    (hs : (lo :: ps).Pairwise (· ≤ ·)) (hle : ∀ p ∈ lo :: ps, p ≤ last) :
    (Basics.splitDims dims last ps lo).flatten = (dims.drop lo).take (last - lo) := by
  induction ps generalizing lo with
  | nil => simp [Basics.splitDims]
  | cons p ps ih =>
    have h1 := List.pairwise_cons.1 hs
    have h2 := h1.1 p (by simp)
    have h3 := hle p (by simp)
    rw [Basics.splitDims, List.flatten_cons, ih p h1.2 fun q hq => hle q (by simp at hq ⊢; tauto)]
    have e : dims.drop p = (dims.drop lo).drop (p - lo) := by rw [List.drop_drop]; congr 1; omega
    rw [e, ← List.take_add]
    congr 1; omega

theorem splitDims_length (dims : List Nat) (last : Nat) (ps : List Nat) (lo : Nat) :
    (Basics.splitDims dims last ps lo).length = ps.length + 1 := by
  induction ps generalizing lo with
  | nil => rfl
  | cons p ps ih => simp [Basics.splitDims, ih]

/-- The `k`-th piece runs from the `k`-th cut to the next. -/
theorem splitDims_getElem? (dims : List Nat) (last : Nat) (ps : List Nat) (lo k : Nat) (hk : k ≤ ps.length) :
    (Basics.splitDims dims last ps lo)[k]?
      = some ((dims.drop ((lo :: ps).getD k 0)).take ((ps ++ [last]).getD k 0 - (lo :: ps).getD k 0)) := by
  induction ps generalizing lo k with
  | nil =>
    obtain rfl : k = 0 := by simpa using hk
    rfl
  | cons p ps ih =>
    cases k with
    | zero => rfl
    | succ k =>
      rw [Basics.splitDims, List.getElem?_cons_succ, ih p k (by simpa using hk)]
      rfl

/-- C19.  Let `dims` be a permutation of the axes of `shape` and `part` non-decreasing cut positions,
fewer than axes.  `create_reduction_metadata` succeeds; axis `k` of the reduced array stands for the axes
`dims[cut k : cut (k + 1)]` and has as many elements as these together; an index of the array reduces,
group by group, to the row-major position of its items in the group, which is inside the reduced box;
`promotion` undoes `reduction`, and `reduction` undoes `promotion`. -/
theorem C19_reduction_promotion (shape dims part : List Nat) (hperm : dims.Perm (List.range shape.length))
    (hpart : part.Pairwise (· ≤ ·)) (hle : ∀ p ∈ part, p ≤ shape.length) (hlen : part.length < shape.length) :
    ∃ (md : Basics.Metadata) (groups : List (List Nat)),
      Basics.createReductionMetadata shape dims part = .ok md ∧
      groups.flatten = dims ∧ groups.length = part.length + 1 ∧
      (∀ k ≤ part.length, groups[k]? = some ((dims.drop ((0 :: part).getD k 0)).take
        ((part ++ [shape.length]).getD k 0 - (0 :: part).getD k 0))) ∧
      md.reductionShape = groups.map (fun g => Spec.count (g.map fun d => shape.getD d 0)) ∧
      (∀ ix, InBox ix shape → ∃ r, Basics.reduction md ix = .ok r ∧
        r = groups.map (fun g => rowMajor (g.map fun d => ix.getD d 0) (g.map fun d => shape.getD d 0) 0) ∧
        InBox r md.reductionShape ∧ Basics.promotion md r = .ok (ix.map some)) ∧
      (∀ r, InBox r md.reductionShape → ∃ ix, InBox ix shape ∧
        Basics.promotion md r = .ok (ix.map some) ∧ Basics.reduction md ix = .ok r) := by
  set groups := Basics.splitDims dims shape.length part 0 with hg
  have hflat : groups.flatten = dims := by
    rw [hg, splitDims_flatten dims shape.length part 0 (by simpa using hpart) (by simpa using hle)]
    have := hperm.length_eq
    rw [List.length_range] at this
    simp [← this]
  have hgp : groups.flatten.Perm (List.range shape.length) := by rw [hflat]; exact hperm
  have hd : ∀ g ∈ groups, ∀ d ∈ g, d < shape.length := fun g h1 d h2 =>
    List.mem_range.1 (hgp.mem_iff.1 (List.mem_flatten.2 ⟨g, h1, h2⟩))
  have hmap : (groups.mapM fun g => g.mapM fun (d : Nat) => pyGet shape d) = .ok (groupShapes shape groups) :=
    mapM_ok _ _ groups fun g hgm => groupShape_mapM shape g (hd g hgm)
  have hmd : Basics.createReductionMetadata shape dims part = .ok {
      dimensionality := shape.length, shape := shape, reductionDimensionality := part.length + 1,
      reductionShape := (groupShapes shape groups).map product, reductionDimensions := groups,
      reductionShapes := groupShapes shape groups,
      reductionStrides := (groupShapes shape groups).map makeStrides } := by
    have hc : decide (part.length + 1 ≤ shape.length) = true := decide_eq_true hlen
    simp only [Basics.createReductionMetadata, hc, pyAssert, if_true, bind, Except.bind, ← hg, hmap, pure, Except.pure]
    rfl
  have hpromo : ∀ r : List Int, r.length = groups.length →
      Basics.promotionLoop groups ((groupShapes shape groups).map makeStrides) (groupShapes shape groups) r
        (List.replicate shape.length none)
      = promoteLoop (groupShapes shape groups) groups ((groupShapes shape groups).map makeStrides)
        (List.replicate groups.length 0) r (List.replicate shape.length none) := fun r hr =>
    promotionLoop_eq _ _ _ _ _ (by simp [groupShapes]) (by simp [groupShapes]) hr
  have hzip : ∀ r : List Int, r.length = groups.length →
      List.zipWith (· - ·) r (List.replicate groups.length 0) = r := by
    intro r hr
    apply List.ext_getElem (by simp [hr])
    intro i h1 h2
    simp
  refine ⟨_, groups, hmd, hflat, splitDims_length _ _ _ _, ?_, ?_, ?_, ?_⟩
  · intro k hk
    exact splitDims_getElem? dims shape.length part 0 k hk
  · simp only [groupShapes, List.map_map]
    apply List.map_congr_left
    intro g _
    simp [count_eq]
  · intro ix hb
    have hr := reductionLoop_ok ix shape groups (by rw [hb.length_eq]; exact hd)
    refine ⟨_, hr, ?_, encode_inBox ix shape hb groups hd, ?_⟩
    · apply List.map_congr_left
      intro g _
      rw [rowMajor_eq _ _ _ (by simp)]
      simp
    · obtain ⟨iy, h1, _, h3, h4⟩ := promoteIndex_ok shape (InBox_pos hb) groups (List.replicate groups.length 0)
        (groups.map fun g => address (g.map fun d => ix.getD d 0) (makeStrides (g.map fun d => shape.getD d 0)))
        hgp (by simp) (by simp)
      rw [hzip _ (by simp), decodeAll_encode ix shape hb groups hd] at h4
      simp only [Basics.promotion]
      rw [hpromo _ (by simp), h3, eq_of_perm_map _ _ hgp iy ix h1 hb.length_eq h4]
  · intro r hb
    have hp := groupShapes_pos shape groups r hgp hb
    have hrl : r.length = groups.length := by rw [hb.length_eq]; simp [groupShapes]
    obtain ⟨iy, h1, _, h3, h4⟩ := promoteIndex_ok shape hp groups (List.replicate groups.length 0) r hgp (by simp) hrl
    rw [hzip _ hrl] at h4
    refine ⟨iy, decode_perm_inBox shape hp groups iy r hgp h1 hrl h4, ?_, ?_⟩
    · simp only [Basics.promotion]
      rw [hpromo _ hrl, h3]
    · simp only [Basics.reduction]
      rw [reductionLoop_ok iy shape groups (by rw [h1]; exact hd), encode_decodeAll iy shape groups r hb h4]

/-- A case of C19: axes of sizes 2, 3, 4 taken in the order 2, 0, 1 and cut in one and two. -/
example : (do
    let md ← Basics.createReductionMetadata [2, 3, 4] [2, 0, 1] [1]
    let r ← Basics.reduction md [1, 2, 3]
    let ix ← Basics.promotion md r
    return (md.reductionShape, r, ix)) = (.ok ([4, 6], [3, 5], [some 1, some 2, some 3]) : PyM _) := by
  decide

/-- C20.  Let the groups `rdims` together be a permutation of the axes, and `roffset` any offsets, one per
group.  With the shapes and strides of `make_reduction`, `reduce_index` maps an index, group by group, to the
offset plus the row-major position of its items in the group; `promote_index` undoes this, and `reduce_index`
undoes `promote_index`. -/
theorem C20_reduce_promote (shape : List Nat) (rdims : List (List Nat)) (roffset : List Int)
    (hperm : rdims.flatten.Perm (List.range shape.length)) (ho : roffset.length = rdims.length) :
    ∃ rshape rshapes rstrides, makeReduction shape rdims = .ok (rshape, rshapes, rstrides) ∧
      rshape = rdims.map (fun g => Spec.count (g.map fun d => shape.getD d 0)) ∧
      (∀ ix, InBox ix shape → ∃ r, reduceIndex rshapes rdims rstrides roffset ix = .ok r ∧
        r = List.zipWith (fun off g => off + rowMajor (g.map fun d => ix.getD d 0) (g.map fun d => shape.getD d 0) 0)
          roffset rdims ∧
        InBox (List.zipWith (· - ·) r roffset) rshape ∧
        promoteIndex rshapes rdims rstrides roffset r = .ok ix) ∧
      (∀ r, r.length = rdims.length → InBox (List.zipWith (· - ·) r roffset) rshape → ∃ ix, InBox ix shape ∧
        promoteIndex rshapes rdims rstrides roffset r = .ok ix ∧
        reduceIndex rshapes rdims rstrides roffset ix = .ok r) := by
  have hd : ∀ g ∈ rdims, ∀ d ∈ g, d < shape.length := fun g h1 d h2 =>
    List.mem_range.1 (hperm.mem_iff.1 (List.mem_flatten.2 ⟨g, h1, h2⟩))
  have hsub : ∀ f : List Nat → Int, List.zipWith (· - ·) (List.zipWith (fun off g => off + f g) roffset rdims) roffset
      = rdims.map f := by
    intro f
    apply List.ext_getElem (by simp [ho])
    intro i h1 h2
    simp
  refine ⟨_, _, _, makeReduction_ok shape rdims hd, ?_, ?_, ?_⟩
  · simp only [groupShapes, List.map_map]
    apply List.map_congr_left
    intro g _
    simp [count_eq]
  · intro ix hb
    have hr := reduceIndex_ok ix shape rdims roffset ho (by rw [hb.length_eq]; exact hd)
    refine ⟨_, hr, ?_, ?_, ?_⟩
    · congr 1
      funext off g
      rw [rowMajor_eq _ _ _ (by simp)]
      simp
    · rw [hsub]
      exact encode_inBox ix shape hb rdims hd
    · obtain ⟨iy, h1, h2, _, h4⟩ := promoteIndex_ok shape (InBox_pos hb) rdims roffset
        (List.zipWith (fun off g => off + address (g.map fun d => ix.getD d 0)
          (makeStrides (g.map fun d => shape.getD d 0))) roffset rdims) hperm ho (by simp [ho])
      rw [hsub, decodeAll_encode ix shape hb rdims hd] at h4
      rw [h2, eq_of_perm_map _ _ hperm iy ix h1 hb.length_eq h4]
  · intro r hrl hb
    have hp := groupShapes_pos shape rdims _ hperm hb
    obtain ⟨iy, h1, h2, _, h4⟩ := promoteIndex_ok shape hp rdims roffset r hperm ho hrl
    refine ⟨iy, decode_perm_inBox shape hp rdims iy _ hperm h1 (by simp [ho, hrl]) h4, h2, ?_⟩
    rw [reduceIndex_ok iy shape rdims roffset ho (by rw [h1]; exact hd)]
    have e := encode_decodeAll iy shape rdims _ hb h4
    congr 1
    apply List.ext_getElem (by simp [ho, hrl])
    intro i g1 g2
    have := congrArg (fun l => l[i]?) e
    simp only [List.length_zipWith] at g1
    simp [show i < rdims.length by omega, show i < roffset.length by omega, g2] at this
    simp only [List.getElem_zipWith]
    simp
    omega

/-- A case of C20: two groups with offsets 7 and -2. -/
example : (do
    let (_, rshapes, rstrides) ← makeReduction [2, 3, 4] [[2, 0], [1]]
    let r ← reduceIndex rshapes [[2, 0], [1]] rstrides [7, -2] [1, 2, 3]
    let ix ← promoteIndex rshapes [[2, 0], [1]] rstrides [7, -2] r
    return (r, ix)) = (.ok ([14, 0], [1, 2, 3]) : PyM _) := by
  decide

/-- C21.  For every shape, `get_position` with the strides of `make_strides` maps each index of the box to
its row-major position, which is below the number of elements; every such position comes from exactly one
index; it respects the lexicographic order; and iterating the box visits every index, at the positions
0, 1, 2, ... in order. -/
theorem C21_row_major (shape : List Nat) :
    (∀ ix, InBox ix shape → ∃ p : Nat, getPosition ix shape (makeStrides shape) = .ok (p : Int) ∧
      (p : Int) = rowMajor ix shape 0 ∧ p < Spec.count shape) ∧
    (∀ p : Nat, p < Spec.count shape → ∃ ix, InBox ix shape ∧
      getPosition ix shape (makeStrides shape) = .ok (p : Int) ∧
      ∀ iy, InBox iy shape → getPosition iy shape (makeStrides shape) = .ok (p : Int) → iy = ix) ∧
    (∀ ix iy p q, InBox ix shape → InBox iy shape → getPosition ix shape (makeStrides shape) = .ok p →
      getPosition iy shape (makeStrides shape) = .ok q → (p < q ↔ lexLt ix iy)) ∧
    (∀ ix, ix ∈ indexProduct shape ↔ InBox ix shape) ∧
    (indexProduct shape).mapM (fun ix => getPosition ix shape (makeStrides shape))
      = .ok ((List.range (Spec.count shape)).map fun (p : Nat) => (p : Int)) := by
  refine ⟨?_, ?_, ?_, mem_indexProduct shape, ?_⟩
  · intro ix h
    have hb := address_bound h
    refine ⟨(address ix (makeStrides shape)).toNat, ?_, ?_, ?_⟩
    · rw [getPosition_box h, Int.toNat_of_nonneg hb.1]
    · rw [rowMajor_eq _ _ _ h.length_eq, Int.toNat_of_nonneg hb.1]; simp
    · rw [count_eq]; omega
  · intro p hp
    rw [count_eq] at hp
    obtain ⟨h1, h2⟩ := address_decode (pos := p) (sh := shape) (by omega) (by omega)
    refine ⟨_, h1, by rw [getPosition_box h1, h2], ?_⟩
    intro iy hy he
    rw [getPosition_box hy, Except.ok.injEq] at he
    exact address_inj hy h1 (by rw [he, h2])
  · intro ix iy p q hx hy hp hq
    rw [getPosition_box hx, Except.ok.injEq] at hp
    rw [getPosition_box hy, Except.ok.injEq] at hq
    rw [← hp, ← hq]
    exact address_lt_iff hx hy
  · rw [count_eq, ← indexProduct_address shape]
    exact mapM_ok _ _ _ fun ix hix => getPosition_box ((mem_indexProduct _ _).1 hix)

/-- A case of C21. -/
example : (indexProduct [2, 3]).mapM (fun ix => getPosition ix [2, 3] (makeStrides [2, 3]))
    = .ok [0, 1, 2, 3, 4, 5] ∧ (indexProduct [2, 3])[4]? = some [1, 1] := by
  decide

/-- C19: with at least as many cuts as axes there would be more groups than axes, and `createReductionMetadata` raises
`AssertionError`, whatever the order of the axes. -/
theorem C19_too_many_groups (shape dims part : List Nat) (h : shape.length ≤ part.length) :
    Basics.createReductionMetadata shape dims part = .error .assertion := by
  have : ¬ part.length + 1 ≤ shape.length := by omega
  simp [Basics.createReductionMetadata, pyAssert, this, bind, Except.bind]

/-- A case of C19_too_many_groups, and the same axes with one cut less. -/
example : Basics.createReductionMetadata [2, 3] [1, 0] [1, 1] = .error .assertion ∧
    (Basics.createReductionMetadata [2, 3] [1, 0] [1]).toOption.isSome = true := by
  decide +kernel

end Gcs
