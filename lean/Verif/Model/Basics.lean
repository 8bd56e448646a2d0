import Verif.Model.Storage

/-!
# Model of `gcs_basics.py`

`product` is the same function as in `gcs/storage.py` (gcs_basics.py:11-12) and `compress_indices`
is line by line the same (gcs_basics.py:93-114, model `Gcs.compressIndices`).
-/

namespace Gcs.Basics

/-- The dictionary returned by `create_reduction_metadata`: gcs_basics.py:52-59. -/
structure Metadata where
  dimensionality : Nat
  shape : List Nat
  reductionDimensionality : Nat
  reductionShape : List Nat
  reductionDimensions : List (List Nat)
  reductionShapes : List (List Nat)
  reductionStrides : List (List Int)
  deriving DecidableEq, Repr

/-- `dimensions[partition_positions[k]:partition_positions[k+1]]` for `k` in
`range(reduction_dimensionality)`, where the positions still to come are `ps` followed by `last` and
the current one is `lo`: gcs_basics.py:40, 44-45. -/
def splitDims (dimensions : List Nat) (last : Nat) : List Nat → Nat → List (List Nat)
  | [], lo => [(dimensions.drop lo).take (last - lo)]
  | p :: ps, lo => (dimensions.drop lo).take (p - lo) :: splitDims dimensions last ps p

/-- `tuple(product(reduction_shape[i + 1:]) for i in range(len(reduction_shape)))`:
gcs_basics.py:47. -/
def reductionStride (reductionShape : List Nat) : List Int :=
  (List.range reductionShape.length).map fun i => ((product (reductionShape.drop (i + 1)) : Nat) : Int)

/-- `create_reduction_metadata(shape, dimensions, partitioning)`: gcs_basics.py:15-59.  Axes and
partition positions are modelled as naturals. -/
def createReductionMetadata (shape dimensions partitioning : List Nat) : PyM Metadata := do
  let dimensionality := shape.length
  let reductionDimensionality := partitioning.length + 1
  pyAssert (reductionDimensionality ≤ dimensionality)
  let groups := splitDims dimensions dimensionality partitioning 0
  let shapes ← groups.mapM fun g => g.mapM fun (d : Nat) => pyGet shape d
  return {
    dimensionality
    shape
    reductionDimensionality
    reductionShape := shapes.map product
    reductionDimensions := groups
    reductionShapes := shapes
    reductionStrides := shapes.map reductionStride }

/-- The sum in `reduction`: gcs_basics.py:72, over `i in range(len(reduction_shape))`. -/
def reductionSum (indices : List Int) : List Nat → List Int → List Nat → PyM Int
  | [], _, _ => return 0
  | _ :: shape, s :: strides, d :: dims => do
    let x ← pyGet indices d
    let r ← reductionSum indices shape strides dims
    return s * x + r
  | _ :: _, _, _ => .error .index

/-- The loop of `reduction`: gcs_basics.py:68-73. -/
def reductionLoop (indices : List Int) : List (List Nat) → List (List Int) → List (List Nat) →
    PyM (List Int)
  | [], _, _ => return []
  | sh :: shapes, st :: strides, d :: dims => do
    let x ← reductionSum indices sh st d
    let r ← reductionLoop indices shapes strides dims
    return x :: r
  | _ :: _, _, _ => .error .index

/-- `reduction(metadata, indices)`: gcs_basics.py:62-74.  (`len(metadata['reduction_shape'])` is the
number of groups.) -/
def reduction (md : Metadata) (indices : List Int) : PyM (List Int) :=
  reductionLoop indices md.reductionShapes md.reductionStrides md.reductionDimensions

/-- The inner loop of `promotion`: gcs_basics.py:88-89. -/
def promotionGroup (pos : Int) : List Nat → List Int → List Nat → List (Option Int) →
    PyM (List (Option Int))
  | [], _, _, indices => return indices
  | d :: dims, st :: strides, n :: shape, indices => do
    let q ← pyDiv pos st
    let m ← pyMod q n
    let indices ← pySet indices d (some m)
    promotionGroup pos dims strides shape indices
  | _ :: _, _, _, _ => .error .index

/-- The loop of `promotion`: gcs_basics.py:84-89.  `reduction_indices[k]` is read in the inner loop, so not for an
empty group. -/
def promotionLoop : List (List Nat) → List (List Int) → List (List Nat) → List Int →
    List (Option Int) → PyM (List (Option Int))
  | [], _, _, _, indices => return indices
  | [] :: dims, _ :: strides, _ :: shapes, rindices, indices =>
    promotionLoop dims strides shapes rindices.tail indices
  | d :: dims, st :: strides, sh :: shapes, r :: rindices, indices => do
    let indices ← promotionGroup r d st sh indices
    promotionLoop dims strides shapes rindices indices
  | _ :: _, _, _, _, _ => .error .index

/-- `promotion(metadata, reduction_indices)`: gcs_basics.py:77-90.  Items left `None` stay `none`. -/
def promotion (md : Metadata) (reductionIndices : List Int) : PyM (List (Option Int)) :=
  promotionLoop md.reductionDimensions md.reductionStrides md.reductionShapes reductionIndices
    (List.replicate md.dimensionality none)

end Gcs.Basics
