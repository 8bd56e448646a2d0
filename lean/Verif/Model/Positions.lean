import Verif.Model.Storage

/-!
# Model of the helpers of gcs/storage.py that the classes do not call
-/

namespace Gcs

/-- `get_index(pos, shape, strides, offset=0)`: gcs/storage.py:168-173.  `offset` is not used in the code. -/
def getIndex (pos : Int) (shape : List Nat) (strides : List Int) (_offset : Int) : PyM (Option (List Int)) :=
  solveIndex pos shape strides

/-- `get_slice_index(index, shape, strides, slice_shape, slice_strides, slice_offset)`: gcs/storage.py:190-197. -/
def getSliceIndex (index : List Int) (shape : List Nat) (strides : List Int) (sliceShape : List Nat)
    (sliceStrides : List Int) (sliceOffset : Int) : PyM (Option (List Int)) := do
  let stridedPos ← getPosition index shape strides
  solveIndex (stridedPos - sliceOffset) sliceShape sliceStrides

/-- `get_index_slice(slice_index, shape, strides, slice_shape, slice_strides, slice_offset)`:
gcs/storage.py:200-205. -/
def getIndexSlice (sliceIndex : List Int) (shape : List Nat) (strides : List Int) (sliceShape : List Nat)
    (sliceStrides : List Int) (sliceOffset : Int) : PyM (Option (List Int)) := do
  let p ← getPosition sliceIndex sliceShape sliceStrides
  let spos := p + sliceOffset
  getIndex spos shape strides 0

/-- `promote_index(rshapes, rdimensions, rstrides, roffset, rindex)` for an int `rindex`: gcs/storage.py:143-156, 165.
As in `promoteIndex`, a `None` left in the index is a `TypeError`. -/
def promoteIndexInt (rshapes : List (List Nat)) (rdims : List (List Nat)) (rstrides : List (List Int))
    (roffset : List Int) (rindex : Int) : PyM (List Int) := do
  let dimensionality := (rdims.map List.length).foldr (· + ·) 0
  pyAssert (rdims.length = 1)
  let off ← pyGet roffset 0
  let pos := rindex - off
  let strides ← pyGet rstrides 0
  let dims ← pyGet rdims 0
  let shape ← pyGet rshapes 0
  let index ← promoteGroup pos dims strides shape (List.replicate dimensionality none)
  index.mapM fun x => match x with
    | some v => .ok v
    | none => .error .type

/-- `Storage.slice_indices_and_data_position(shape, strides, offset, sort=True)` for an object with the shape
`selfShape`, the strides `selfStrides` and the method `get_data_position`: gcs/storage.py:375-391.
`get_data_position(None)` is a `TypeError`. -/
def sliceEntriesSorted {P : Type} (getDataPosition : List Int → PyM P) (selfShape : List Nat) (selfStrides : List Int)
    (shape : List Nat) (strides : List Int) (offset : Int) : PyM (List (List Int × P)) := do
  let data ← initDiophantine selfStrides (some selfShape)
  (indexProduct shape).mapM fun j => do
    let p ← getPosition j shape strides
    match ← solveIndexData (p + offset) selfShape data with
    | some index => do
      let dataPos ← getDataPosition index
      return (j, dataPos)
    | none => .error .type

variable {V : Type}

/-- `get_data_position` of the classes `COO`, `FlatCOO` and `CSR`: gcs/storage.py:718-719, 800-802, 868-869. -/
def Storage.sparsePos : Storage V → List Int → PyM (Option Int)
  | .coo c => c.getDataPosition
  | .flatcoo f => f.getDataPosition
  | .csr c => c.getDataPosition
  | _ => fun _ => .error .type

/-- `indices_and_data_position` of the classes `COO`, `FlatCOO` and `CSR`: gcs/storage.py:713-716, 792-798, 862-866. -/
def Storage.sparseEntries : Storage V → PyM (List (List Int × Int))
  | .coo c => c.entries
  | .flatcoo f => f.entries
  | .csr c => c.entries
  | _ => .error .type

end Gcs
