import Verif.Model.Py

/-!
# Model of `gcs/slice_tools.py`
-/

namespace Gcs

/-- `start` for a positive step: gcs/slice_tools.py:21-26. -/
def redStartUp (size : Int) : Option Int → Int
  | none => 0
  | some start =>
    if start < -size then 0
    else if start < 0 then start + size
    else if start > size then size
    else start

/-- `stop` for a positive step: gcs/slice_tools.py:27-32. -/
def redStopUp (size : Int) : Option Int → Int
  | none => size
  | some stop =>
    if stop > size then size
    else if stop < -size then 0
    else if stop < 0 then stop + size
    else stop

/-- `start` for a step that is not positive: gcs/slice_tools.py:36-41. -/
def redStartDown (size : Int) : Option Int → Int
  | none => -1
  | some start =>
    if start ≥ size then -1
    else if start < -size then -size - 1
    else if start ≥ 0 then start - size
    else start

/-- `stop` for a step that is not positive: gcs/slice_tools.py:42-47. -/
def redStopDown (size : Int) : Option Int → Int
  | none => -size - 1
  | some stop =>
    if stop < -size then -size - 1
    else if stop ≥ size then -1
    else if stop ≥ 0 then stop - size
    else stop

/-- `reduced(s, size)`: gcs/slice_tools.py:10-53.  Branch by branch.  `size` is a Python int. -/
def reduced (s : PySlice) (size : Int) : RSlice :=
  let step := s.step.getD 1
  let r : RSlice :=
    if step > 0 then
      ⟨redStartUp size s.start, redStopUp size s.stop, if step > size then size else step⟩
    else
      ⟨redStartDown size s.start, redStopDown size s.stop, if step < -size then -size else step⟩
  if (r.stop - r.start) * r.step ≤ 0 then ⟨0, 0, 1⟩ else r

/-- `nitems(s, size, reduce=False)`: gcs/slice_tools.py:69-72, for a slice with int parts.
The code's result is an int `≥ 0`; it is given here as a `Nat` (`max(0, ·)` is `Int.toNat`). -/
def nitemsR (s : RSlice) : PyM Nat := do
  if s.stop = s.start then return 0
  let sgn ← pyDiv s.step (s.step.natAbs : Int)
  let q ← pyDiv ((s.stop - s.start) + s.step - sgn) s.step
  return q.toNat

/-- `nitems(s, size)` (default `reduce=True`): gcs/slice_tools.py:56-72. -/
def nitems (s : PySlice) (size : Int) : PyM Nat := nitemsR (reduced s size)

/-- One item of a user index.  `other` stands for any object that is not an `int`, a `slice` or
`None`. -/
inductive Ix where
  | int (i : Int)
  | slice (s : PySlice)
  | none
  | other
  deriving DecidableEq, Repr

/-- A user index: one item, or a tuple of items. -/
inductive Index where
  | one (i : Ix)
  | tuple (is : List Ix)
  deriving DecidableEq, Repr

/-- One item of a normalized index (the items of what `normalize_index` returns). -/
inductive NIx where
  | int (i : Int)
  | slice (s : RSlice)
  | none
  deriving DecidableEq, Repr

/-- `apply_slices(slices, shape, strides)`: gcs/slice_tools.py:75-95.  The three arguments are
zipped, so the shortest one decides how many axes there are.  The loop is written as a recursion
that adds to `offset` from the right; Python adds from the left (int addition, same sum; the
exception raised is the one of the leftmost failing item in both). -/
def applySlices : List Ix → List Nat → List Int → PyM (List Nat × List Int × Int)
  | s :: slices, size :: shape, stride :: strides =>
    match s with
    | .int i => do
      let m ← pyMod i size
      let (sh, st, off) ← applySlices slices shape strides
      return (sh, st, stride * m + off)
    | .slice s => do
      let r := reduced s size
      let m ← pyMod r.start size
      let n ← nitemsR r
      let (sh, st, off) ← applySlices slices shape strides
      return (n :: sh, stride * r.step :: st, stride * m + off)
    | .none => do
      let (sh, st, off) ← applySlices slices shape strides
      return (size :: sh, stride :: st, off)
    | .other => .error .value
  | _, _, _ => return ([], [], 0)

/-- `shape_strided(index, shape)`: gcs/slice_tools.py:98-105 (index already normalized). -/
def shapeStrided : List NIx → List Nat → PyM (List Nat)
  | ind :: index, size :: shape =>
    match ind with
    | .slice s => do
      let n ← nitemsR s
      let sh ← shapeStrided index shape
      return n :: sh
    | .none => do
      let sh ← shapeStrided index shape
      return size :: sh
    | .int _ => shapeStrided index shape
  | _, _ => return []

/-- `index_strided(index, shape, strides)` with the default `offset=0`:
gcs/slice_tools.py:108-127.  `index` is normalized (the docstring's precondition), so the
`ValueError` branch cannot be reached.  Same recursion remark as `applySlices`. -/
def indexStrided : List NIx → List Nat → List Int → PyM (List Nat × List Int × Int)
  | ind :: index, size :: shape, stride :: strides =>
    match ind with
    | .int i => do
      let (sh, st, off) ← indexStrided index shape strides
      return (sh, st, stride * i + off)
    | .slice s => do
      let m ← pyMod s.start size
      let n ← nitemsR s
      let (sh, st, off) ← indexStrided index shape strides
      return (n :: sh, stride * s.step :: st, stride * m + off)
    | .none => do
      let (sh, st, off) ← indexStrided index shape strides
      return (size :: sh, stride :: st, off)
  | _, _, _ => return ([], [], 0)

/-- The loop over the items of a tuple index in `normalize_index`: gcs/slice_tools.py:139-151.
Axes that the index does not reach keep `None`.  An `int` or `slice` item beyond the last axis
reads `shape[i]` out of range (`IndexError`); an extra `None` item is skipped. -/
def normalizeItems : List Ix → List Nat → PyM (List NIx)
  | [], shape => return shape.map fun _ => .none
  | .int i :: is, n :: shape => do
    let m ← pyMod i n
    let r ← normalizeItems is shape
    return .int m :: r
  | .slice s :: is, n :: shape => do
    let r ← normalizeItems is shape
    return .slice (reduced s n) :: r
  | .none :: is, _ :: shape => do
    let r ← normalizeItems is shape
    return .none :: r
  | .other :: _, _ :: _ => .error .value
  | .int _ :: _, [] => .error .index
  | .slice _ :: _, [] => .error .index
  | .none :: is, [] => normalizeItems is []
  | .other :: _, [] => .error .value

/-- `normalize_index(index, shape)`: gcs/slice_tools.py:130-151.  A top level item that is not an
int, slice, `None` or tuple fails in `len(index)` (`TypeError`). -/
def normalizeIndex (index : Index) (shape : List Nat) : PyM (List NIx) :=
  match index with
  | .one (.int i) =>
    match shape with
    | [] => .error .index
    | n :: rest => do
      let m ← pyMod i n
      return .int m :: rest.map fun _ => .none
  | .one (.slice s) =>
    match shape with
    | [] => .error .index
    | n :: rest => return .slice (reduced s n) :: rest.map fun _ => .none
  | .one .none => return shape.map fun _ => .none
  | .one .other => .error .type
  | .tuple is => normalizeItems is shape

private theorem natAbs_fmod_lt (a b : Int) (h : a ≠ 0) : (b.fmod a).natAbs < a.natAbs := by
  rcases Int.lt_or_gt_of_ne h with h1 | h1
  · have e : b.fmod a = -((-b).fmod (-a)) := by rw [Int.neg_fmod_neg]; omega
    have := Int.fmod_lt_of_pos (-b) (show 0 < -a by omega)
    have := Int.fmod_nonneg_of_pos (-b) (show 0 < -a by omega)
    omega
  · have := Int.fmod_lt_of_pos b h1
    have := Int.fmod_nonneg_of_pos b h1
    omega

/-- `extgcd(a, b)`: gcs/slice_tools.py:154-160. -/
def extgcd (a b : Int) : Int × Int × Int :=
  if _h : a = 0 then (b, 0, 1)
  else
    let r := extgcd (b.fmod a) a
    (r.1, r.2.2 - (b.fdiv a) * r.2.1, r.2.1)
termination_by a.natAbs
decreasing_by exact natAbs_fmod_lt a b _h

/-- `_init_diophantine(a)`: gcs/slice_tools.py:163-183, for `a = (a0,) + rest`.
The code returns the list of the tuples of all recursion levels; only three of its parts are ever
read: the `d` of the innermost level (`data[0][0]`), and the `z0` and `ds` of the outermost one
(`data[-1][-2]`, `data[-1][-1]`).  The model returns these three.  For a one-item tuple the code
returns `[]` and its caller continues with `z0 = (1,)`, `zs = ((),)`, which is the base case here. -/
def initDioRec : Int → List Int → PyM (Int × List Int × List (List Int))
  | a0, [] => return (a0, [1], [[]])
  | a0, a1 :: rest => do
    let (d, x0, y0) := extgcd a0 a1
    let q1 ← pyDiv a1 d
    let q0 ← pyDiv a0 d
    let xs := -q1
    let ys := q0
    let (dd, z0, zs) ← initDioRec d rest
    let zs0 := zs.headD []
    let s0 := xs :: zs0.map fun z => x0 * z
    let s1 := ys :: zs0.map fun z => y0 * z
    let sr := zs.tail.map fun z => (0 : Int) :: z
    let z00 := z0.headD 0
    return (dd, x0 * z00 :: y0 * z00 :: z0.tail, s0 :: s1 :: sr)

/-- `tuple(zip(*rows))`: as many tuples as the shortest row has items. -/
def zipStar (rows : List (List Int)) : List (List Int) :=
  match rows with
  | [] => []
  | r :: rs =>
    (List.range (rs.foldl (fun m r => min m r.length) r.length)).map fun j =>
      rows.map fun r => r.getD j 0

/-- What `init_diophantine` returns: `(d, z0, zs, D, b, s)`. -/
structure DioData where
  d : Int
  z0 : List Int
  zs : List (List Int)
  D : List Int
  b : List Int
  s : Option (List Int)
  deriving DecidableEq, Repr

/-- Row `i < N` of the matrix `A` of `init_diophantine`: gcs/slice_tools.py:224-235. -/
def dioRowLo (N n : Nat) (zs : List (List Int)) (z0 : List Int) (shape : Option (List Nat)) (i : Nat) :
    List Int :=
  (zs.map fun z => z.getD i 0)
    ++ ((List.range (2 * N - n)).map fun j => if i = j then (1 : Int) else 0)
    ++ [-(z0.getD i 0)]
    ++ (match shape with | none => [] | some _ => [0])

/-- Row `N + i` of the matrix `A` of `init_diophantine`: gcs/slice_tools.py:224-235. -/
def dioRowHi (N n : Nat) (zs : List (List Int)) (z0 : List Int) (shape : Option (List Nat)) (i : Nat) :
    List Int :=
  (zs.map fun z => -(z.getD i 0))
    ++ ((List.range (2 * N - n)).map fun (j : Nat) => if (i : Int) = (j : Int) - N then (1 : Int) else 0)
    ++ [z0.getD i 0]
    ++ (match shape with | none => [] | some sh => [-((sh.getD i 0 : Nat) : Int) + 1])

/-- The matrix `A` before the elimination, as a list of rows. -/
def dioMatrix (N n : Nat) (zs : List (List Int)) (z0 : List Int) (shape : Option (List Nat)) :
    List (List Int) :=
  ((List.range N).map (dioRowLo N n zs z0 shape)) ++ ((List.range N).map (dioRowHi N n zs z0 shape))

/-- One step `i` of the integral Gauss elimination: gcs/slice_tools.py:239-248.  The code runs over
the rows `k ≠ i` one after the other; the new row `k` depends only on the old row `k` and on row
`i`, which the step leaves alone, so the step is a map over the rows.  The second assertion of the
code (`A[k, i] == 0`) is checked on the new rows. -/
def gaussStep (A : List (List Int)) (i : Nat) : PyM (List (List Int)) := do
  let ri := A.getD i []
  let aii := ri.getD i 0
  pyAssert (aii ≠ 0)
  let A' := A.mapIdx fun k rk =>
    if k = i then rk
    else
      let aki := rk.getD i 0
      if aki ≠ 0 then List.zipWith (fun x y => x * aki - y * aii) ri rk else rk
  pyAssert ((List.range A'.length).all fun k => k = i || (A'.getD k []).getD i 0 = 0)
  return A'

/-- `for i in range(2*N)`: gcs/slice_tools.py:238-248. -/
def gaussLoop (A : List (List Int)) : List Nat → PyM (List (List Int))
  | [] => return A
  | i :: is => do
    let A' ← gaussStep A i
    gaussLoop A' is

/-- Row `i < n` after "Ensure positive diagonal and row-wise unit gcd":
gcs/slice_tools.py:251-258.  Returns the diagonal item followed by the items of the columns
`2*N .. m-1`.  `g` cannot be `0` because the diagonal item is not (asserted above); the division by
`0` is kept as an exception all the same. -/
def normalizeRow (N : Nat) (row : List Int) (i : Nat) : PyM (List Int) := do
  let aii := row.getD i 0
  let rhs := row.drop (2 * N)
  let g := rhs.foldl (fun g x => (extgcd g x).1) aii
  if g ≠ 1 then (aii :: rhs).mapM fun x => pyDiv x g
  else return aii :: rhs

/-- `init_diophantine(a, shape)`: gcs/slice_tools.py:186-263. -/
def initDiophantine (a : List Int) (shape : Option (List Nat)) : PyM DioData :=
  match a with
  | [] => return ⟨1, [], [], [], [], none⟩
  | [a0] => return ⟨a0, [1], [], [], [], shape.map fun sh => sh.map fun (n : Nat) => (n : Int)⟩
  | a0 :: rest => do
    let (d, z0, ds) ← initDioRec a0 rest
    let zs := zipStar ds
    let N := a.length
    let n := zs.length
    if (shape.getD (List.replicate N 0)).length < N then throw .index
    let A ← gaussLoop (dioMatrix N n zs z0 shape) (List.range (2 * N))
    let rows ← (List.range n).mapM fun i => normalizeRow N (A.getD i []) i
    return ⟨d, z0, zs, rows.map (·.getD 0 0), rows.map (·.getD 1 0),
      shape.map fun _ => rows.map (·.getD 2 0)⟩

/-- `dot(a, b)`: gcs/slice_tools.py:281-282. -/
def dot (a b : List Int) : Int := (List.zipWith (· * ·) a b).foldl (· + ·) 0

/-- `axpy(a, x, y)`: gcs/slice_tools.py:285-286. -/
def axpy (a : Int) (x y : List Int) : List Int := List.zipWith (fun x y => a * x + y) x y

/-- `diophantine(a, c)`: gcs/slice_tools.py:266-278.  `(None, ())` is `(none, [])`. -/
def diophantine (a : List Int) (c : Int) : PyM (Option (List Int) × List (List Int)) := do
  let data ← initDiophantine a none
  let r ← pyMod c data.d
  if r ≠ 0 then return (none, [])
  let k ← pyDiv c data.d
  return (some (data.z0.map fun z => z * k), data.zs)

/-- The range check `0 <= index[i] < shape[i]` for all axes: gcs/slice_tools.py:358-362.
`index[i]` raises `IndexError` when the index is shorter than the shape. -/
def inBox : List Int → List Nat → PyM Bool
  | _, [] => return true
  | [], _ :: _ => .error .index
  | x :: index, n :: shape => if 0 ≤ x ∧ x < n then inBox index shape else return false

/-- The loop over `i in range(n)` that adds the kernel vectors: gcs/slice_tools.py:352-357.
`b`, `s`, `D`, `dt` and `zs` are walked together. -/
def addKernel (k : Int) : List Int → List Int → Option (List Int) → List Int → List (List Int) →
    List Int → PyM (List Int)
  | D :: Ds, b :: bs, s, t :: dts, z :: zs, index => do
    let num := match s with
      | some ss => b * k + ss.headD 0
      | none => b * k
    let q ← pyDiv num D
    addKernel k Ds bs (s.map List.tail) dts zs (axpy (q + t) z index)
  | _, _, _, _, _, index => return index

/-- The loop over `dt`: gcs/slice_tools.py:350-363. -/
def tryDts (k : Int) (data : DioData) (shape : List Nat) : List (List Int) → PyM (Option (List Int))
  | [] => return none
  | dt :: dts => do
    let index ← addKernel k data.D data.b data.s dt data.zs
      (axpy k data.z0 (data.z0.map fun _ => 0))
    if ← inBox index shape then return some index
    else tryDts k data shape dts

/-- `solve_index(pos, shape, strides, data=data)`: gcs/slice_tools.py:339-363, `data` given. -/
def solveIndexData (pos : Int) (shape : List Nat) (data : DioData) : PyM (Option (List Int)) := do
  pyAssert (shape.isEmpty || data.s.isSome)
  let r ← pyMod pos data.d
  if r ≠ 0 then return none
  let k ← pyDiv pos data.d
  tryDts k data shape (bits data.zs.length)

/-- `solve_index(pos, shape, strides)`: gcs/slice_tools.py:308-363. -/
def solveIndex (pos : Int) (shape : List Nat) (strides : List Int) : PyM (Option (List Int)) := do
  let data ← initDiophantine strides (some shape)
  solveIndexData pos shape data

end Gcs
