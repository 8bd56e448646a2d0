import Verif.Model.Py
import Verif.Model.SliceTools

/-!
# Specifications

Written from the Python language reference and from the meaning of a multidimensional array, without
the helper functions of the model.  (Only the data types `PySlice`, `Ix` and `Index` that represent
Python objects are shared with the model.)
-/

namespace Gcs.Spec

/-! ## Python slicing of a list of length `n`

Language reference, "Common sequence operations", notes 3 to 5, and `slice.indices`: a negative
bound counts from the end; bounds are clamped into `[0, n]` for a positive step and into
`[-1, n-1]` for a negative one; an omitted bound is the end from or to which the step runs.  The
slice of `x` from `i` to `j` with step `k` are the items with index `i + m*k` for
`0 <= m < (j - i)/k`, in this order.  -/

/-- A bound clamped into `[lo, hi]` after counting from the end if negative. -/
def clampBound (n lo hi b : Int) : Int :=
  let b := if b < 0 then b + n else b
  max lo (min hi b)

/-- The positions selected by the slice, in the order in which Python lists them. -/
def slicePositions (s : PySlice) (n : Nat) : List Nat :=
  let k := s.step.getD 1
  if 0 < k then
    let i := (s.start.map (clampBound n 0 n)).getD 0
    let j := (s.stop.map (clampBound n 0 n)).getD n
    (List.range n).filter fun x => i ≤ x ∧ x < j ∧ k ∣ x - i
  else
    let i := (s.start.map (clampBound n (-1) (n - 1))).getD (n - 1)
    let j := (s.stop.map (clampBound n (-1) (n - 1))).getD (-1)
    (List.range n).reverse.filter fun x => x ≤ i ∧ j < x ∧ k ∣ x - i

/-- `x[s]` for a list `x`; the step is not `0`. -/
def slice {α : Type} (x : List α) (s : PySlice) : List α :=
  (slicePositions s x.length).filterMap fun p => x[p]?

/-! ## Boxes and positions -/

/-- `ix` is an index of an array of shape `shape`. -/
def InBox : List Int → List Nat → Prop
  | [], [] => True
  | i :: ix, n :: shape => (0 ≤ i ∧ i < n) ∧ InBox ix shape
  | _, _ => False

/-- The address of `ix` for given strides: `sum(i * s)`. -/
def address : List Int → List Int → Int
  | i :: ix, s :: strides => i * s + address ix strides
  | _, _ => 0

/-- Row-major position of `ix` in an array of shape `shape`, by Horner's rule. -/
def rowMajor : List Int → List Nat → Int → Int
  | i :: ix, n :: shape, acc => rowMajor ix shape (acc * n + i)
  | _, _, acc => acc

/-- Lexicographic order of indices (Python's order on tuples). -/
def lexLt : List Int → List Int → Prop
  | _, [] => False
  | [], _ :: _ => True
  | a :: x, b :: y => a < b ∨ (a = b ∧ lexLt x y)

/-- The number of elements of an array of shape `shape`. -/
def count : List Nat → Nat
  | [] => 1
  | n :: shape => n * count shape

/-! ## Python indexing of a multidimensional array -/

/-- The items of a user index. -/
def items : Index → List Ix
  | .one i => [i]
  | .tuple is => is

/-- The shape of the selection: an int removes the axis, a slice keeps the selected positions, `None`
and axes that the index does not mention are kept whole. -/
def selShape : List Ix → List Nat → List Nat
  | [], shape => shape
  | _, [] => []
  | .int _ :: is, _ :: shape => selShape is shape
  | .slice s :: is, n :: shape => (slicePositions s n).length :: selShape is shape
  | _ :: is, n :: shape => n :: selShape is shape

/-- The index of the source element that is at `j` in the selection.  Ints are taken modulo the size
of the axis (this is the library's rule; on `-n <= i < n` it is Python's). -/
def selSource : List Ix → List Nat → List Int → List Int
  | [], _, j => j
  | _, [], j => j
  | .int i :: is, n :: shape, j => i % n :: selSource is shape j
  | .slice s :: is, n :: shape, j0 :: j =>
    ((slicePositions s n).getD j0.toNat 0 : Nat) :: selSource is shape j
  | _ :: is, _ :: shape, j0 :: j => j0 :: selSource is shape j
  | _ :: _, _ :: _, [] => []

/-- The index is one the library accepts for arrays of this shape with no empty axis: at most one
item per axis (further `None` are tolerated), no slice with step `0`, no foreign objects. -/
def ValidItems : List Ix → List Nat → Prop
  | [], _ => True
  | .int _ :: is, _ :: shape => ValidItems is shape
  | .slice s :: is, _ :: shape => s.step ≠ some 0 ∧ ValidItems is shape
  | .none :: is, shape => ValidItems is shape.tail
  | _, _ => False

/-- The shape of `a[i1][i2]...`. -/
def chainShape : List (List Ix) → List Nat → List Nat
  | [], shape => shape
  | is :: rest, shape => chainShape rest (selShape is shape)

/-- The index in the original array of element `j` of `a[i1][i2]...`. -/
def chainSource : List (List Ix) → List Nat → List Int → List Int
  | [], _, j => j
  | is :: rest, shape, j => selSource is shape (chainSource rest (selShape is shape) j)

end Gcs.Spec
