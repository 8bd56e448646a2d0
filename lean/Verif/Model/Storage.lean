import Mathlib.Data.List.Sort
import Verif.Model.SliceTools

/-!
# Model of `gcs/storage.py`

A storage object of the code holds, directly or through the storage it wraps, exactly one buffer of
array values, and that buffer is a window on a Python list.  Several storage objects can share that
list (that is what slicing a `Strided` or a `Buffer` does).  The model splits the two: a storage
object is a *descriptor* (shapes, strides, offsets, index arrays), and every operation takes the
current contents `mem` of the Python list the descriptor points to.  Operations that write return
the new contents.  Operations that make an object say whether it shares the list of the original
(`Res.view`) or comes with a list of its own (`Res.fresh`).

The arrays of indices inside `COO`, `FlatCOO` and `CSR` are buffers of the same kind; nothing in the
API writes to them, so their contents are part of the descriptor.  They are buffers of
`Option Int`: an `int`, or the `None` that is their `unspecified`.

Values are any type `V` with decidable equality (Python `==` on values, assumed to be an equivalence
that does not distinguish equal values: no NaN) and with a distinguished `None`.
-/

namespace Gcs

/-- A type of Python values that has `None`. -/
class HasNone (α : Type) where
  pyNone : α

export HasNone (pyNone)

instance {α : Type} : HasNone (Option α) := ⟨none⟩

/-! ## Free functions -/

/-- The inner loop `for n in range(last_index, index)` of `compress_indices`: writes `i` at the
`count` positions from `k` on.  gcs/storage.py:37-39. -/
def fillRun (compressed : List Int) (k : Nat) (i : Int) : Nat → PyM (List Int × Nat)
  | 0 => return (compressed, k)
  | count + 1 => do
    let c ← pySet compressed k i
    fillRun c (k + 1) i count

/-- The outer loop `for i in range(nse)` of `compress_indices`: gcs/storage.py:35-40. -/
def compressLoop (compressed : List Int) (k : Nat) (last : Int) (i : Nat) :
    List Int → PyM (List Int × Nat)
  | [] => return (compressed, k)
  | index :: rest => do
    let (c, k') ← fillRun compressed k i (index - last).toNat
    compressLoop c k' index (i + 1) rest

/-- `compress_indices(indices, size)`: gcs/storage.py:24-45 (and the identical
gcs_basics.py:93-114). -/
def compressIndices (indices : List Int) (size : Nat) : PyM (List Int) := do
  let nse := indices.length
  let (c, k) ← compressLoop (List.replicate (size + 1) 0) 1 0 0 indices
  let (c, _) ← fillRun c k nse (size + 1 - k)
  return c

/-- `uncompress_indices(compressed)`: gcs/storage.py:48-54.  `[i] * n` is empty for `n ≤ 0`. -/
def uncompressIndices (compressed : List Int) : List Int :=
  (List.range (compressed.length - 1)).flatMap fun i =>
    List.replicate (compressed.getD (i + 1) 0 - compressed.getD i 0).toNat (i : Int)

/-- `product(seq)`: gcs/storage.py:57-62 (both branches compute this). -/
def product (seq : List Nat) : Nat := seq.foldr (· * ·) 1

/-- `make_strides(shape)`: gcs/storage.py:65-68. -/
def makeStrides (shape : List Nat) : List Int :=
  (List.range shape.length).map fun i => ((product (shape.drop (i + 1)) : Nat) : Int)

/-- `get_position(index, shape, strides)`: gcs/storage.py:176-187.  The cases of dimensionality
0, 1, 2 in the code are the same sum written out.  Too short an `index` or `strides` is an
`IndexError`. -/
def getPosition : List Int → List Nat → List Int → PyM Int
  | _, [], _ => return 0
  | x :: index, _ :: shape, s :: strides => do
    let r ← getPosition index shape strides
    return x * s + r
  | _, _ :: _, _ => .error .index

/-- `get_rposition(index, strides, shape, axis_map)`: gcs/storage.py:124-132. -/
def getRPosition (index : List Int) : List Int → List Nat → List Nat → PyM Int
  | _, [], _ => return 0
  | s :: strides, _ :: shape, a :: axisMap => do
    let x ← pyGet index a
    let r ← getRPosition index strides shape axisMap
    return x * s + r
  | _, _ :: _, _ => .error .index

/-- `reduce_index(rshapes, rdimensions, rstrides, roffset, index)`: gcs/storage.py:135-140. -/
def reduceIndex : List (List Nat) → List (List Nat) → List (List Int) → List Int → List Int →
    PyM (List Int)
  | [], _, _, _, _ => return []
  | sh :: rshapes, dims :: rdims, st :: rstrides, off :: roffset, index => do
    let p ← getRPosition index st sh dims
    let r ← reduceIndex rshapes rdims rstrides roffset index
    return (off + p) :: r
  | _ :: _, _, _, _, _ => .error .index

/-- The inner loop of `promote_index` over the axes of one group: gcs/storage.py:163-164.
`index` is the list under construction (`none` is `None`). -/
def promoteGroup (pos : Int) : List Nat → List Int → List Nat → List (Option Int) →
    PyM (List (Option Int))
  | [], _, _, index => return index
  | a :: dims, st :: strides, n :: shape, index => do
    let q ← pyDiv pos st
    let m ← pyMod q n
    let index' ← pySet index a (some m)
    promoteGroup pos dims strides shape index'
  | _ :: _, _, _, _ => .error .index

/-- The outer loop of `promote_index`: gcs/storage.py:158-164. -/
def promoteLoop : List (List Nat) → List (List Nat) → List (List Int) → List Int → List Int →
    List (Option Int) → PyM (List (Option Int))
  | [], _, _, _, _, index => return index
  | sh :: rshapes, dims :: rdims, st :: rstrides, off :: roffset, r :: rindex, index => do
    let index' ← promoteGroup (r - off) dims st sh index
    promoteLoop rshapes rdims rstrides roffset rindex index'
  | _ :: _, _, _, _, _, _ => .error .index

/-- `promote_index(rshapes, rdimensions, rstrides, roffset, rindex)`: gcs/storage.py:143-165, for a
tuple `rindex`.  (The branch for an `int` rindex, lines 149-156, is the case of one group and is not
reached from the storage classes.)  An index with a `None` left in it is reported as `TypeError`
here; it cannot occur for a permutation of the axes. -/
def promoteIndex (rshapes : List (List Nat)) (rdims : List (List Nat)) (rstrides : List (List Int))
    (roffset : List Int) (rindex : List Int) : PyM (List Int) := do
  let dimensionality := (rdims.map List.length).foldr (· + ·) 0
  let index ← promoteLoop rshapes rdims rstrides roffset rindex (List.replicate dimensionality none)
  index.mapM fun x => match x with
    | some v => .ok v
    | none => .error .type

private theorem bsearch_mid {left right : Int} (h : left ≤ right) :
    left ≤ Int.fdiv (left + right) 2 ∧ Int.fdiv (left + right) 2 ≤ right := by
  rw [Int.fdiv_eq_ediv_of_nonneg _ (by omega)]
  omega

/-- The binary search shared, line by line, by `get_coo_position`, `get_flatcoo_position` and
`get_csr_position` (gcs/storage.py:213-230, 238-250, 259-271): `cmp pos` says whether the stored
index at `pos` is below (`lt`), at (`eq`) or above (`gt`) the wanted one. -/
def bsearch (cmp : Int → PyM Ordering) (left right : Int) : PyM (Option Int) :=
  if _h : left ≤ right then
    let pos := Int.fdiv (left + right) 2
    match cmp pos with
    | .error e => .error e
    | .ok .eq => .ok (some pos)
    | .ok .lt => bsearch cmp (pos + 1) right
    | .ok .gt => bsearch cmp left (pos - 1)
  else .ok none
termination_by (right + 1 - left).toNat
decreasing_by
  all_goals
    have := bsearch_mid _h
    omega

/-- `d == 0` / `d < 0` / `d > 0` for `d = stored - wanted`. -/
def signOf (d : Int) : Ordering :=
  if d = 0 then .eq else if d < 0 then .lt else .gt

/-- Reading an item of an index array as an int; arithmetic on `None` is a `TypeError`. -/
def asInt : Option Int → PyM Int
  | some i => .ok i
  | none => .error .type

/-! ## `Buffer` -/

/-- `Buffer` without its list `data`: gcs/storage.py:452-502. -/
structure Buffer (α : Type) where
  size : Nat
  offset : Nat
  unspec : α
  deriving DecidableEq, Repr

variable {α : Type}

/-- `Buffer.__init__(size, offset, data, unspecified)`: gcs/storage.py:480-502.  Only non-negative
sizes and offsets are modelled. -/
def Buffer.new (size offset : Nat) (mem : List α) (unspec : α) : PyM (Buffer α) := do
  pyAssert (offset + size ≤ mem.length)
  return ⟨size, offset, unspec⟩

/-- `self.data[self.offset:self.offset+self.size]`. -/
def Buffer.window (b : Buffer α) (mem : List α) : List α := (mem.drop b.offset).take b.size

/-- `Buffer.__getitem__` with an int: gcs/storage.py:579-580. -/
def Buffer.getInt (b : Buffer α) (mem : List α) (i : Int) : PyM α := pyGet mem (b.offset + i)

/-- `Buffer.__setitem__` with an int: gcs/storage.py:585-586. -/
def Buffer.setInt (b : Buffer α) (mem : List α) (i : Int) (v : α) : PyM (List α) :=
  pySet mem (b.offset + i) v

/-- `Buffer.__getitem__` with a slice: gcs/storage.py:560-577. -/
def Buffer.getSlice (b : Buffer α) (mem : List α) (s : PySlice) : PyM (Buffer α) := do
  let start : Int := match s.start with
    | some i => b.offset + i
    | none => b.offset
  let stop : Int := match s.stop with
    | some i => b.offset + i
    | none => b.offset + b.size
  if start < 0 ∨ start ≥ mem.length then throw .index
  if stop ≤ 0 ∨ stop > mem.length then throw .index
  let r := reduced ⟨some start, some stop, s.step⟩ mem.length
  if r.step ≠ 1 then throw .index
  Buffer.new (r.stop - r.start).toNat r.start.toNat mem b.unspec

/-- `Buffer.copy(unspecified)`: gcs/storage.py:511-525; `none` is `DEFAULT`.  Returns the new buffer
and the contents of its list. -/
def Buffer.copy [DecidableEq α] (b : Buffer α) (mem : List α) (unspec : Option α) :
    Buffer α × List α :=
  let u := unspec.getD b.unspec
  let data :=
    if u = b.unspec then b.window mem
    else (b.window mem).map fun v => if v = b.unspec then u else v
  (⟨data.length, 0, u⟩, data)

/-- `Buffer.__eq__`: gcs/storage.py:538-545. -/
def Buffer.eq [DecidableEq α] (b : Buffer α) (mem : List α) (b' : Buffer α) (mem' : List α) : Bool :=
  b.size = b'.size && b.window mem = b'.window mem' && b.unspec = b'.unspec

/-- `Buffer.indices_and_data_position`: gcs/storage.py:592-595.  The index is an int here, and the
data position is a position of the list itself, not of the buffer. -/
def Buffer.entries (b : Buffer α) : List (Int × Int) :=
  (List.range b.size).map fun (i : Nat) => ((i : Int), (b.offset : Int) + i)

/-! ## `Strided` -/

/-- `Strided`: gcs/storage.py:598-652. -/
structure Strided (α : Type) where
  shape : List Nat
  strides : List Int
  data : Buffer α
  deriving DecidableEq, Repr

/-- `Strided.__init__`: gcs/storage.py:613-619. -/
def Strided.new (shape : List Nat) (strides : List Int) (data : Buffer α) : PyM (Strided α) := do
  pyAssert (shape.length = strides.length)
  return ⟨shape, strides, data⟩

/-- `is_element_index(index, shape)` for a normalized index (a tuple as long as the shape):
gcs/storage.py:97-112.  Returns the ints when all items are ints. -/
def elementIndex : List NIx → Option (List Int)
  | [] => some []
  | .int i :: r => (elementIndex r).map fun is => i :: is
  | _ :: _ => none

/-- `Strided.get_data_position(index)`: gcs/storage.py:648-649. -/
def Strided.getDataPosition (s : Strided α) (index : List Int) : PyM Int :=
  getPosition index s.shape s.strides

/-- `Strided.get_slice(shape, strides, offset)`: gcs/storage.py:651-652.  The result shares the
list. -/
def Strided.getSlice (s : Strided α) (mem : List α) (shape : List Nat) (strides : List Int)
    (offset : Int) : PyM (Strided α) := do
  let data ← s.data.getSlice mem ⟨some offset, none, none⟩
  Strided.new shape strides data

/-- `Storage.__getitem__` of a `Strided`: gcs/storage.py:362-370. -/
def Strided.getItem (s : Strided α) (mem : List α) (index : Index) : PyM (α ⊕ Strided α) := do
  let nix ← normalizeIndex index s.shape
  match elementIndex nix with
  | some ix =>
    let p ← s.getDataPosition ix
    let v ← s.data.getInt mem p
    return .inl v
  | none =>
    let (shape, strides, offset) ← indexStrided nix s.shape s.strides
    let r ← s.getSlice mem shape strides offset
    return .inr r

/-- `s[index]` where the caller uses the result as a value. -/
def Strided.getScalar (s : Strided α) (mem : List α) (index : Index) : PyM α := do
  match ← s.getItem mem index with
  | .inl v => return v
  | .inr _ => .error .type

/-- `s[index]` where the caller uses the result as an array. -/
def Strided.getView (s : Strided α) (mem : List α) (index : Index) : PyM (Strided α) := do
  match ← s.getItem mem index with
  | .inr r => return r
  | .inl _ => .error .type

/-- `Strided.indices_and_data_position`: gcs/storage.py:637-640. -/
def Strided.entries (s : Strided α) : PyM (List (List Int × Int)) :=
  (indexProduct s.shape).mapM fun ix => do
    let p ← getPosition ix s.shape s.strides
    return (ix, p)

/-- `Strided.slice_indices_and_data_position(shape, strides, offset)`: gcs/storage.py:642-646. -/
def Strided.sliceEntries (shape : List Nat) (strides : List Int) (offset : Int) :
    PyM (List (List Int × Int)) :=
  (indexProduct shape).mapM fun ix => do
    let p ← getPosition ix shape strides
    return (ix, offset + p)

/-- Outcome of an operation that writes: the contents of the list afterwards, and the exception that
stopped it, if any.  Writes made before the exception stay. -/
structure Wr (α : Type) where
  mem : List α
  err : Option PyErr
  deriving DecidableEq, Repr

/-- A write step that raises leaves the list as it was. -/
def Wr.ofPyM (old : List α) : PyM (List α) → Wr α
  | .ok m => ⟨m, none⟩
  | .error e => ⟨old, some e⟩

/-- The loop of `Storage.__setitem__`: gcs/storage.py:353-354.  `valueAt mem vi` is
`get_value(value, vi)` evaluated while the list holds `mem`; `write1` is `self.data[data_pos] = ·`. -/
def writeAll {P : Type} (write1 : List α → P → α → Wr α) (valueAt : List α → List Int → PyM α) :
    List (List Int × P) → List α → Wr α
  | [], mem => ⟨mem, none⟩
  | (vi, p) :: rest, mem =>
    match valueAt mem vi with
    | .error e => ⟨mem, some e⟩
    | .ok v =>
      let w := write1 mem p v
      match w.err with
      | some e => ⟨w.mem, some e⟩
      | none => writeAll write1 valueAt rest w.mem

/-- `self.data[p] = v` for a `Buffer` `self.data`. -/
def Buffer.write1 (b : Buffer α) (mem : List α) (p : Int) (v : α) : Wr α :=
  Wr.ofPyM mem (b.setInt mem p v)

/-- `Storage.__setitem__` of a `Strided`: gcs/storage.py:350-354 with the iterator of `Strided`. -/
def Strided.setItem (s : Strided α) (mem : List α) (index : Index)
    (valueAt : List α → List Int → PyM α) : Wr α :=
  let plan : PyM (List (List Int × Int)) := do
    let nix ← normalizeIndex index s.shape
    let (shape, strides, offset) ← indexStrided nix s.shape s.strides
    Strided.sliceEntries shape strides offset
  match plan with
  | .error e => ⟨mem, some e⟩
  | .ok entries => writeAll s.data.write1 valueAt entries mem

/-- `Storage.elements` of a `Strided`: gcs/storage.py:405-409. -/
def Strided.elements (s : Strided α) (mem : List α) : PyM (List (List Int × α)) := do
  let es ← s.entries
  es.mapM fun e => do
    let v ← s.data.getInt mem e.2
    return (e.1, v)

/-- The loop of `Strided.copy`: gcs/storage.py:631-634. -/
def Strided.copyLoop [DecidableEq α] (result : Strided α) (old u : α) :
    List (List Int × α) → List α → PyM (List α)
  | [], mem => return mem
  | (ix, v) :: rest, mem =>
    let v := if v = old then u else v
    let w := result.setItem mem (.tuple (ix.map .int)) (fun _ _ => .ok v)
    match w.err with
    | some e => .error e
    | none => copyLoop result old u rest w.mem

/-- `Strided.copy(unspecified)`: gcs/storage.py:624-635. -/
def Strided.copy [DecidableEq α] (s : Strided α) (mem : List α) (unspec : Option α) :
    PyM (Strided α × List α) := do
  let u := unspec.getD s.data.unspec
  let size := product s.shape
  let mem0 := List.replicate size u
  let data ← Buffer.new size 0 mem0 u
  let result ← Strided.new s.shape (makeStrides s.shape) data
  let es ← s.elements mem
  let mem' ← Strided.copyLoop result s.data.unspec u es mem0
  return (result, mem')

/-- `Storage.__eq__` of two `Strided` (two objects): gcs/storage.py:294-297, 621-622. -/
def Strided.eq [DecidableEq α] (s : Strided α) (mem : List α) (s' : Strided α) (mem' : List α) :
    Bool :=
  s.shape = s'.shape && s.strides = s'.strides && s.data.eq mem s'.data mem'

/-! ## Building from values

`fromobject` reads `get_value(seq, get_seq_index(index))` for every index of the box; the functions
below take that as `value : List Int → PyM α`.  `su` is `get_unspecified(seq)` and `u` the
`unspecified` of the result. -/

/-- The loop of `Buffer.fromobject`: gcs/storage.py:472-478. -/
def bufferBuild [DecidableEq α] (shape : List Nat) (value : List Int → PyM α) (su u : α) :
    PyM (Buffer α × List α) := do
  let values ← (indexProduct shape).mapM fun ix => do
    let v ← value ix
    return if v = su then u else v
  let b ← Buffer.new values.length 0 values u
  return (b, values)

/-- `Strided.fromobject`, after the identity shortcut: gcs/storage.py:607-611. -/
def stridedBuild [DecidableEq α] (shape : List Nat) (value : List Int → PyM α) (su u : α) :
    PyM (Strided α × List α) := do
  let (b, mem) ← bufferBuild shape value su u
  let s ← Strided.new shape (makeStrides shape) b
  return (s, mem)

/-- A nested Python list. -/
inductive Nested (α : Type) where
  | leaf (v : α)
  | seq (items : List (Nested α))

/-- `get_shape(seq)` of a nested list: gcs/storage.py:71-80. -/
def Nested.shape : Nested α → List Nat
  | .leaf _ => []
  | .seq [] => [0]
  | .seq (x :: xs) => (x :: xs).length :: x.shape

/-- The loop `for i in index: value = value[i]` of `get_value`: gcs/storage.py:91-94.  Indexing something that
is not a list is a `TypeError`.  When the index stops at a list, Python would return the list as if it
were a value; the model reports `TypeError` (no property speaks about this case). -/
def Nested.walk : Nested α → List Int → PyM α
  | .leaf v, [] => return v
  | .seq _, [] => .error .type
  | .leaf _, _ :: _ => .error .type
  | .seq items, i :: ix => do
    let x ← pyGet items i
    x.walk ix

/-- `get_value(seq, index)` of a nested list or a scalar: gcs/storage.py:83-94.  A scalar with an index that is
not empty fails in `assert isinstance(seq, (tuple, list))`. -/
def Nested.getValue : Nested α → List Int → PyM α
  | .leaf v, [] => return v
  | .leaf _, _ :: _ => .error .assertion
  | .seq items, ix => (Nested.seq items).walk ix

/-- `Strided.fromobject(list)` with defaults: gcs/storage.py:602-611. -/
def Strided.ofNested [DecidableEq α] [HasNone α] (seq : Nested α) : PyM (Strided α × List α) :=
  stridedBuild seq.shape seq.getValue pyNone pyNone

/-- A Python list of ints as a one-dimensional nested list. -/
def nestedRow (row : List Int) : Nested (Option Int) := .seq (row.map fun i => .leaf (some i))

/-- `Buffer.fromobject(list_of_ints)`: gcs/storage.py:457-478. -/
def intBuffer (row : List Int) : PyM (Buffer (Option Int) × List (Option Int)) :=
  bufferBuild (nestedRow row).shape (nestedRow row).getValue none none

/-- `Buffer(len(values), 0, values)` for a list of ints, without `fromobject`. -/
def rawIntBuffer (row : List Int) : PyM (Buffer (Option Int) × List (Option Int)) := do
  let mem := row.map some
  let b ← Buffer.new mem.length 0 mem none
  return (b, mem)

/-! ## Slicing of the sparse formats -/

/-- `Storage.slice_indices_and_data_position(shape, strides, offset)` with `sort=False`, for an array
of shape `selfShape` with the given index / data position pairs: gcs/storage.py:393-403.
`self.strides` is `make_strides(self.shape)` for every class but `Strided` (which overrides this
method): gcs/storage.py:324-329.  (`sort=True`, never used in the code, is in Model/Positions.lean.) -/
def sliceEntries {P : Type} (entries : PyM (List (List Int × P))) (selfShape : List Nat)
    (shape : List Nat) (strides : List Int) (offset : Int) : PyM (List (List Int × P)) := do
  let data ← initDiophantine strides (some shape)
  let es ← entries
  let rs ← es.mapM fun e => do
    let p ← getPosition e.1 selfShape (makeStrides selfShape)
    let r ← solveIndexData (p - offset) shape data
    return r.map fun ix => (ix, e.2)
  return rs.filterMap id

/-- Lexicographic `<=` on tuples of ints, Python's order. -/
def lexLe : List Int → List Int → Bool
  | [], _ => true
  | _ :: _, [] => false
  | a :: as, b :: bs => if a < b then true else if b < a then false else lexLe as bs

/-- Python's order on `(slice_index, data_pos)` pairs, used by `sorted`. -/
def pairLe (x y : List Int × Int) : Bool :=
  if x.1 = y.1 then decide (x.2 ≤ y.2) else lexLe x.1 y.1

/-- Python `sorted(pairs)`.  (Any sorting method gives the same list, since `pairLe` is a total order on
the pairs; insertion is the one that Lean evaluates best.) -/
def pySorted (l : List (List Int × Int)) : List (List Int × Int) :=
  l.insertionSort fun a b => pairLe a b = true

/-- `self.data[data_pos]` for each pair. -/
def readAll (b : Buffer α) (mem : List α) (es : List (List Int × Int)) : PyM (List α) :=
  es.mapM fun e => b.getInt mem e.2

/-! ## `COO` -/

/-- `COO`: gcs/storage.py:655-734.  `imem` is the list behind `indices`. -/
structure COO (α : Type) where
  shape : List Nat
  indices : Strided (Option Int)
  imem : List (Option Int)
  data : Buffer α
  deriving DecidableEq, Repr

/-- `self.size = indices.shape[1]`. -/
def COO.size (c : COO α) : Nat := c.indices.shape.getD 1 0

/-- `COO.__init__`: gcs/storage.py:700-708. -/
def COO.new (shape : List Nat) (indices : Strided (Option Int)) (imem : List (Option Int))
    (data : Buffer α) : PyM (COO α) := do
  let size ← pyGet indices.shape 1
  pyAssert (size = data.size)
  return ⟨shape, indices, imem, data⟩

/-- `indices[j, pos]` as an int. -/
def readIndex (indices : Strided (Option Int)) (imem : List (Option Int)) (j pos : Int) : PyM Int := do
  match ← indices.getItem imem (.tuple [.int j, .int pos]) with
  | .inl v => asInt v
  | .inr _ => .error .type

/-- `COO.indices_and_data_position`: gcs/storage.py:713-716. -/
def COO.entries (c : COO α) : PyM (List (List Int × Int)) :=
  (List.range c.size).mapM fun (p : Nat) => do
    let ix ← (List.range (c.indices.shape.getD 0 0)).mapM fun (j : Nat) => readIndex c.indices c.imem j p
    return (ix, (p : Int))

/-- The comparison loop `for j in range(dims)` of `get_coo_position`: gcs/storage.py:218-228.
`ix` are the remaining items of the wanted index, from axis `j` on. -/
def cooCompare (indices : Strided (Option Int)) (imem : List (Option Int)) (pos : Int) :
    Nat → List Int → PyM Ordering
  | _, [] => return .eq
  | j, x :: ix => do
    let d ← readIndex indices imem j pos
    match signOf (d - x) with
    | .eq => cooCompare indices imem pos (j + 1) ix
    | o => return o

/-- `get_coo_position(index, shape, indices)`: gcs/storage.py:208-230.  `index` has one item per
axis of `shape`. -/
def getCooPosition (index : List Int) (indices : Strided (Option Int)) (imem : List (Option Int)) :
    PyM (Option Int) := do
  let n ← pyGet indices.shape 1
  bsearch (fun pos => cooCompare indices imem pos 0 index) 0 ((n : Int) - 1)

/-- `COO.get_data_position`: gcs/storage.py:718-719. -/
def COO.getDataPosition (c : COO α) (index : List Int) : PyM (Option Int) :=
  getCooPosition index c.indices c.imem

/-- The columns `[row[i] for row in rows]` for `i` in `range(n)`: how `COO` lays out indices. -/
def columns (n : Nat) (rows : List (List Int)) : List (List Int) :=
  (List.range n).map fun i => rows.map fun ix => ix.getD i 0

/-- A nested list of ints. -/
def nestedRows (rows : List (List Int)) : Nested (Option Int) := .seq (rows.map nestedRow)

/-- The general branch of `COO.fromobject`: gcs/storage.py:685-698. -/
def cooBuild [DecidableEq α] (shape : List Nat) (value : List Int → PyM α) (su u : α) :
    PyM (COO α × List α) := do
  let found ← (indexProduct shape).mapM fun ix => do
    let v ← value ix
    return (ix, if v = su then u else v)
  let kept := found.filter fun e => e.2 ≠ u
  let values := kept.map (·.2)
  let data ← Buffer.new values.length 0 values u
  let (indices, imem) ← Strided.ofNested (nestedRows (columns shape.length (kept.map (·.1))))
  let c ← COO.new shape indices imem data
  return (c, values)

/-- `COO.get_slice(shape, strides, offset)`: gcs/storage.py:721-734.  The result has a list of its
own.  `indices[0]` of an empty list (a zero-dimensional slice) is an `IndexError`. -/
def COO.getSlice (c : COO α) (mem : List α) (shape : List Nat) (strides : List Int) (offset : Int) :
    PyM (COO α × List α) := do
  let es := pySorted (← sliceEntries c.entries c.shape shape strides offset)
  let values ← readAll c.data mem es
  let cols := columns shape.length (es.map (·.1))
  let col0 ← pyGet cols 0
  let ishape := [shape.length, col0.length]
  let imem := (cols.foldr (· ++ ·) []).map some
  let ibuf ← Buffer.new (product ishape) 0 imem none
  let indices ← Strided.new ishape (makeStrides ishape) ibuf
  let data ← Buffer.new values.length 0 values c.data.unspec
  let r ← COO.new shape indices imem data
  return (r, values)

/-! ## `FlatCOO` -/

/-- `FlatCOO`: gcs/storage.py:737-815.  `fmem` is the list behind `findices`. -/
structure FlatCOO (α : Type) where
  shape : List Nat
  findices : Buffer (Option Int)
  fmem : List (Option Int)
  data : Buffer α
  deriving DecidableEq, Repr

/-- `FlatCOO.__init__`: gcs/storage.py:779-787. -/
def FlatCOO.new (shape : List Nat) (findices : Buffer (Option Int)) (fmem : List (Option Int))
    (data : Buffer α) : PyM (FlatCOO α) := do
  pyAssert (findices.size = data.size)
  return ⟨shape, findices, fmem, data⟩

/-- `findices[pos]` as an int. -/
def readBuf (b : Buffer (Option Int)) (mem : List (Option Int)) (i : Int) : PyM Int := do
  asInt (← b.getInt mem i)

/-- `FlatCOO.indices_and_data_position`: gcs/storage.py:792-798.  When `solve_index` finds nothing (a flat index
outside of the array), the code yields `None` as index; slices and assignments then fail with `TypeError`, which the
model reports at once (`elements` and `equal` of the code would go on with the key `None`). -/
def FlatCOO.entries (f : FlatCOO α) : PyM (List (List Int × Int)) := do
  let data ← initDiophantine (makeStrides f.shape) (some f.shape)
  (List.range f.findices.size).mapM fun (p : Nat) => do
    let findex ← readBuf f.findices f.fmem p
    match ← solveIndexData findex f.shape data with
    | some ix => return (ix, (p : Int))
    | none => .error .type

/-- `get_flatcoo_position(findex, shape, findices)`: gcs/storage.py:233-250. -/
def getFlatcooPosition (findex : Int) (findices : Buffer (Option Int)) (fmem : List (Option Int)) :
    PyM (Option Int) :=
  bsearch (fun pos => do
      let v ← readBuf findices fmem pos
      return signOf (v - findex))
    0 ((findices.size : Int) - 1)

/-- `FlatCOO.get_data_position`: gcs/storage.py:800-802. -/
def FlatCOO.getDataPosition (f : FlatCOO α) (index : List Int) : PyM (Option Int) := do
  let findex ← getPosition index f.shape (makeStrides f.shape)
  getFlatcooPosition findex f.findices f.fmem

/-- The general branch of `FlatCOO.fromobject`: gcs/storage.py:763-777. -/
def flatBuild [DecidableEq α] (shape : List Nat) (value : List Int → PyM α) (su u : α) :
    PyM (FlatCOO α × List α) := do
  let found ← (indexProduct shape).mapM fun ix => do
    let v ← value ix
    return (ix, if v = su then u else v)
  let kept := found.filter fun e => e.2 ≠ u
  let values := kept.map (·.2)
  let fis ← kept.mapM fun e => getPosition e.1 shape (makeStrides shape)
  let data ← Buffer.new values.length 0 values u
  let (findices, fmem) ← rawIntBuffer fis
  let f ← FlatCOO.new shape findices fmem data
  return (f, values)

/-- `FlatCOO.get_slice(shape, strides, offset)`: gcs/storage.py:804-815. -/
def FlatCOO.getSlice (f : FlatCOO α) (mem : List α) (shape : List Nat) (strides : List Int)
    (offset : Int) : PyM (FlatCOO α × List α) := do
  let es := pySorted (← sliceEntries f.entries f.shape shape strides offset)
  let fis ← es.mapM fun e => getPosition e.1 shape (makeStrides shape)
  let values ← readAll f.data mem es
  let data ← Buffer.new values.length 0 values f.data.unspec
  let (findices, fmem) ← rawIntBuffer fis
  let r ← FlatCOO.new shape findices fmem data
  return (r, values)

/-! ## `CSR` -/

/-- `CSR`: gcs/storage.py:818-887. -/
structure CSR (α : Type) where
  shape : List Nat
  crow : Buffer (Option Int)
  crowMem : List (Option Int)
  col : Buffer (Option Int)
  colMem : List (Option Int)
  data : Buffer α
  deriving DecidableEq, Repr

/-- `CSR.__init__`: gcs/storage.py:833-857. -/
def CSR.new (shape : List Nat) (crow : Buffer (Option Int)) (crowMem : List (Option Int))
    (col : Buffer (Option Int)) (colMem : List (Option Int)) (data : Buffer α) : PyM (CSR α) := do
  pyAssert (shape.length = 2)
  let n0 ← pyGet shape 0
  pyAssert (crow.size = n0 + 1)
  pyAssert (col.size = data.size)
  return ⟨shape, crow, crowMem, col, colMem, data⟩

/-- `CSR.indices_and_data_position`: gcs/storage.py:862-866. -/
def CSR.entries (c : CSR α) : PyM (List (List Int × Int)) := do
  let rows ← (List.range (c.shape.getD 0 0)).mapM fun (row : Nat) => do
    let lo ← readBuf c.crow c.crowMem row
    let hi ← readBuf c.crow c.crowMem ((row : Int) + 1)
    (List.range (hi - lo).toNat).mapM fun (q : Nat) => do
      let p := lo + q
      let col ← readBuf c.col c.colMem p
      return ([(row : Int), col], p)
  return rows.foldr (· ++ ·) []

/-- `get_csr_position(index, shape, crow_indices, col_indices)`: gcs/storage.py:253-271.  An index
that is not a pair fails to unpack (`ValueError`). -/
def getCsrPosition (index : List Int) (crow : Buffer (Option Int)) (crowMem : List (Option Int))
    (col : Buffer (Option Int)) (colMem : List (Option Int)) : PyM (Option Int) :=
  match index with
  | [r, c] => do
    let left ← readBuf crow crowMem r
    let right ← readBuf crow crowMem (r + 1)
    bsearch (fun i => do
        let v ← readBuf col colMem i
        return signOf (v - c))
      left (right - 1)
  | _ => .error .value

/-- `CSR.get_data_position`: gcs/storage.py:868-869. -/
def CSR.getDataPosition (c : CSR α) (index : List Int) : PyM (Option Int) :=
  getCsrPosition index c.crow c.crowMem c.col c.colMem

/-- Element access of the sparse classes in `Storage.__getitem__`: gcs/storage.py:364-368. -/
def readAt (b : Buffer α) (mem : List α) : Option Int → PyM α
  | none => .ok b.unspec
  | some p => b.getInt mem p

/-- `self[index]` with a tuple of ints on a `CSR` (used by `get_value`): gcs/storage.py:362-368. -/
def CSR.getElem (c : CSR α) (mem : List α) (ix : List Int) : PyM α := do
  let nix ← normalizeIndex (.tuple (ix.map .int)) c.shape
  match elementIndex nix with
  | some ix =>
    let p ← c.getDataPosition ix
    readAt c.data mem p
  | none => .error .type

/-- The COO branch of `CSR.fromobject`: gcs/storage.py:824-828.  `seq.indices[0]`,
`seq.indices[1]` are slices of the index array; `compress_indices` reads `indices[i]` for each `i` in
`range(len(indices))`. -/
def cooToCsr [DecidableEq α] (c : COO α) (mem : List α) : PyM (CSR α × List α) := do
  let row0 ← c.indices.getView c.imem (.one (.int 0))
  let n0 ← pyGet c.shape 0
  let len ← pyGet row0.shape 0
  let rows ← (List.range len).mapM fun (i : Nat) => do
    asInt (← row0.getScalar c.imem (.one (.int i)))
  let compressed ← compressIndices rows n0
  let (crow, crowMem) ← intBuffer compressed
  let row1 ← c.indices.getView c.imem (.one (.int 1))
  let (row1c, row1mem) ← row1.copy c.imem none
  let (col, colMem) ← bufferBuild row1c.shape (fun ix => row1c.getScalar row1mem (.tuple (ix.map .int)))
    row1c.data.unspec row1c.data.unspec
  let (data, mem') := c.data.copy mem none
  let r ← CSR.new c.shape crow crowMem col colMem data
  return (r, mem')

/-- The general branch of `CSR.fromobject`: gcs/storage.py:830-831. -/
def csrBuild [DecidableEq α] (shape : List Nat) (value : List Int → PyM α) (su u : α) :
    PyM (CSR α × List α) := do
  let (c, mem) ← cooBuild shape value su u
  cooToCsr c mem

/-- The two-dimensional branch of `CSR.get_slice`: gcs/storage.py:875-887. -/
def CSR.getSlice2 (c : CSR α) (mem : List α) (shape : List Nat) (strides : List Int) (offset : Int) :
    PyM (CSR α × List α) := do
  pyAssert (shape.length = 2)
  let es := pySorted (← sliceEntries c.entries c.shape shape strides offset)
  let rows := es.map fun e => e.1.getD 0 0
  let cols := es.map fun e => e.1.getD 1 0
  let values ← readAll c.data mem es
  let data ← Buffer.new values.length 0 values c.data.unspec
  let n0 ← pyGet shape 0
  let compressed ← compressIndices rows n0
  let (crow, crowMem) ← intBuffer compressed
  let (col, colMem) ← intBuffer cols
  let r ← CSR.new shape crow crowMem col colMem data
  return (r, values)

/-- The one-dimensional branch of `CSR.get_slice`: gcs/storage.py:872-873.  `self.as_COO()` is
`COO.fromobject(self)`, its general branch. -/
def CSR.getSlice1 [DecidableEq α] (c : CSR α) (mem : List α) (shape : List Nat) (strides : List Int)
    (offset : Int) : PyM (COO α × List α) := do
  let (coo, cmem) ← cooBuild c.shape (c.getElem mem) c.data.unspec c.data.unspec
  coo.getSlice cmem shape strides offset

/-! ## `DM` -/

/-- The parts of a `DM` other than the storage it wraps: gcs/storage.py:1045-1067. -/
structure DMMeta where
  shape : List Nat
  rdims : List (List Nat)
  rshapes : List (List Nat)
  rstrides : List (List Int)
  roffset : List Int
  deriving DecidableEq, Repr

/-- `make_reduction(shape, rdimensions)`: gcs/storage.py:925-950.  Returns
`(rshape, rshapes, rstrides)`.  (The assertion of lines 945-946 compares `make_strides` with its own
definition.) -/
def makeReduction (shape : List Nat) : List (List Nat) →
    PyM (List Nat × List (List Nat) × List (List Int))
  | [] => return ([], [], [])
  | dims :: rdims => do
    let sh ← dims.mapM fun (d : Nat) => pyGet shape d
    let (rshape, rshapes, rstrides) ← makeReduction shape rdims
    return (product sh :: rshape, sh :: rshapes, makeStrides sh :: rstrides)

/-- `DM.__init__` (all but the storage): gcs/storage.py:1045-1067.  `set.union()` of nothing is a
`TypeError`. -/
def DMMeta.new (shape : List Nat) (rdims : List (List Nat)) (rstrides : List (List Int))
    (roffset : List Int) : PyM DMMeta := do
  if rdims.isEmpty then throw .type
  let union := rdims.foldr (· ++ ·) []
  pyAssert (union.all fun d => decide (d < shape.length))
  pyAssert ((List.range shape.length).all fun d => union.contains d)
  let (_, rshapes, _) ← makeReduction shape rdims
  return ⟨shape, rdims, rshapes, rstrides, roffset⟩

/-- `DM.get_data_position(index)`: gcs/storage.py:1080-1081. -/
def DMMeta.getDataPosition (m : DMMeta) (index : List Int) : PyM (List Int) :=
  reduceIndex m.rshapes m.rdims m.rstrides m.roffset index

/-- `DM.indices_and_data_position`: gcs/storage.py:1072-1078. -/
def DMMeta.entries (m : DMMeta) : PyM (List (List Int × List Int)) :=
  (indexProduct m.shape).mapM fun ix => do
    let r ← m.getDataPosition ix
    return (ix, r)

/-- Whether item `i` of a normalized index is an int. -/
def isIntAt (nix : List NIx) (i : Nat) : Bool :=
  match nix[i]? with
  | some (.int _) => true
  | _ => false

/-- `axis_map[i]` for an axis that is kept: gcs/storage.py:1094-1099. -/
def axisMap (nix : List NIx) (i : Nat) : Nat :=
  i - ((List.range i).filter fun j => isIntAt nix j).length

/-- The loop of `DM.__getitem__` over the groups of axes: gcs/storage.py:1101-1119.  Returns
`(rdimensions, rstrides, roffset, dindex)`.  `index[i]` with `i` out of range is an `IndexError`. -/
def dmSliceLoop (nix : List NIx) : List (List Nat) → List (List Nat) → List (List Int) → List Int →
    PyM (List (List Nat) × List (List Int) × List Int × List Ix)
  | [], _, _, _ => return ([], [], [], [])
  | dims :: rdims, sh :: rshapes, st :: rstrides, off :: roffset => do
    let kslice ← dims.mapM fun (d : Nat) => pyGet nix d
    let (kshape, kstrides, koffset) ← indexStrided kslice sh st
    let t := (dims.filter fun i => !isIntAt nix i).map (axisMap nix)
    let (rd, rst, roff, dix) ← dmSliceLoop nix rdims rshapes rstrides roffset
    let rd' := if t.isEmpty then rd else t :: rd
    if kshape.isEmpty then return (rd', rst, roff, .int koffset :: dix)
    else return (rd', kstrides :: rst, (off + koffset) :: roff, .none :: dix)
  | _ :: _, _, _, _ => .error .index

/-! ## Storage objects -/

/-- A storage object of any of the classes. -/
inductive Storage (V : Type) where
  | buffer (b : Buffer V)
  | strided (s : Strided V)
  | coo (c : COO V)
  | flatcoo (f : FlatCOO V)
  | csr (c : CSR V)
  | dm (m : DMMeta) (data : Storage V)
  deriving DecidableEq, Repr

/-- What `__getitem__` returns: a value; an object on the same list; an object with a list of its
own, together with the contents of that list. -/
inductive Res (V : Type) where
  | val (v : V)
  | view (s : Storage V)
  | fresh (s : Storage V) (mem : List V)
  deriving DecidableEq, Repr

namespace Storage

variable {V : Type}

/-- `self.shape`. -/
def shape : Storage V → List Nat
  | buffer b => [b.size]
  | strided s => s.shape
  | coo c => c.shape
  | flatcoo f => f.shape
  | csr c => c.shape
  | dm m _ => m.shape

/-- `self.size`: gcs/storage.py:499, 619, 707, 786, 857, 1067. -/
def size : Storage V → Nat
  | buffer b => b.size
  | strided s => product s.shape
  | coo c => c.size
  | flatcoo f => f.findices.size
  | csr c => c.data.size
  | dm _ data => data.size

/-- `self.is_full()`: gcs/storage.py:299-300. -/
def isFull (s : Storage V) : Bool := s.size = product s.shape

/-- `self.unspecified`: gcs/storage.py:320-322, 507-509. -/
def unspec : Storage V → V
  | buffer b => b.unspec
  | strided s => s.data.unspec
  | coo c => c.data.unspec
  | flatcoo f => f.data.unspec
  | csr c => c.data.unspec
  | dm _ data => data.unspec

/-- `Buffer.__getitem__(index)`: gcs/storage.py:547-580. -/
def bufferGetItem (b : Buffer V) (mem : List V) (index : Index) : PyM (Res V) := do
  let i ← match index with
    | .one i => pure i
    | .tuple [i] => pure i
    | .tuple _ => .error .assertion
  match i with
  | .none => return .view (.buffer b)
  | .slice s => return .view (.buffer (← b.getSlice mem s))
  | .int i => return .val (← b.getInt mem i)
  | .other => .error .type

/-- `self[index]`: gcs/storage.py:362-370 and the overrides 553-580 (`Buffer`) and 1083-1126 (`DM`).
The second `normalize_index` of line 1090 repeats the first on its own result; it changes nothing
(theorem `reduced_idem`, `normalizeIndex_idem`). -/
def getItem [DecidableEq V] : Storage V → List V → Index → PyM (Res V)
  | buffer b, mem, index => bufferGetItem b mem index
  | strided s, mem, index => do
    match ← s.getItem mem index with
    | .inl v => return .val v
    | .inr r => return .view (.strided r)
  | coo c, mem, index => do
    let nix ← normalizeIndex index c.shape
    match elementIndex nix with
    | some ix => return .val (← readAt c.data mem (← c.getDataPosition ix))
    | none =>
      let (shape, strides, offset) ← indexStrided nix c.shape (makeStrides c.shape)
      let (r, m) ← c.getSlice mem shape strides offset
      return .fresh (.coo r) m
  | flatcoo f, mem, index => do
    let nix ← normalizeIndex index f.shape
    match elementIndex nix with
    | some ix => return .val (← readAt f.data mem (← f.getDataPosition ix))
    | none =>
      let (shape, strides, offset) ← indexStrided nix f.shape (makeStrides f.shape)
      let (r, m) ← f.getSlice mem shape strides offset
      return .fresh (.flatcoo r) m
  | csr c, mem, index => do
    let nix ← normalizeIndex index c.shape
    match elementIndex nix with
    | some ix => return .val (← readAt c.data mem (← c.getDataPosition ix))
    | none =>
      let (shape, strides, offset) ← indexStrided nix c.shape (makeStrides c.shape)
      if shape.length = 1 then
        let (r, m) ← c.getSlice1 mem shape strides offset
        return .fresh (.coo r) m
      else
        let (r, m) ← c.getSlice2 mem shape strides offset
        return .fresh (.csr r) m
  | dm m data, mem, index => do
    let nix ← normalizeIndex index m.shape
    match elementIndex nix with
    | some ix =>
      let rindex ← m.getDataPosition ix
      getItem data mem (.tuple (rindex.map .int))
    | none =>
      let gshape ← shapeStrided nix m.shape
      let (rdims, rstrides, roffset, dindex) ←
        dmSliceLoop nix m.rdims m.rshapes m.rstrides m.roffset
      let r ← if dindex.isEmpty then pure (Res.view data) else getItem data mem (.tuple dindex)
      let m' ← DMMeta.new gshape rdims rstrides roffset
      match r with
      | .val _ => .error .assertion
      | .view s => return .view (.dm m' s)
      | .fresh s fm => return .fresh (.dm m' s) fm

/-- `self[index]` where the caller uses the result as a value. -/
def getVal [DecidableEq V] (s : Storage V) (mem : List V) (ix : List Int) : PyM V := do
  match ← s.getItem mem (.tuple (ix.map .int)) with
  | .val v => return v
  | _ => .error .type

/-- The positions `__setitem__` writes to, for the classes whose `data` is a `Buffer`:
gcs/storage.py:351-353. -/
def setPlan : Storage V → Index → PyM (List (List Int × Int))
  | strided s, index => do
    let nix ← normalizeIndex index s.shape
    let (shape, strides, offset) ← indexStrided nix s.shape s.strides
    Strided.sliceEntries shape strides offset
  | coo c, index => do
    let nix ← normalizeIndex index c.shape
    let (shape, strides, offset) ← indexStrided nix c.shape (makeStrides c.shape)
    sliceEntries c.entries c.shape shape strides offset
  | flatcoo f, index => do
    let nix ← normalizeIndex index f.shape
    let (shape, strides, offset) ← indexStrided nix f.shape (makeStrides f.shape)
    sliceEntries f.entries f.shape shape strides offset
  | csr c, index => do
    let nix ← normalizeIndex index c.shape
    let (shape, strides, offset) ← indexStrided nix c.shape (makeStrides c.shape)
    sliceEntries c.entries c.shape shape strides offset
  | buffer _, _ => .error .type
  | dm _ _, _ => .error .type

/-- The positions (tuples, indices into the wrapped storage) `__setitem__` of a `DM` writes to:
gcs/storage.py:351-353, 1072-1078. -/
def dmSetPlan (m : DMMeta) (index : Index) : PyM (List (List Int × List Int)) := do
  let nix ← normalizeIndex index m.shape
  let (shape, strides, offset) ← indexStrided nix m.shape (makeStrides m.shape)
  sliceEntries m.entries m.shape shape strides offset

/-- `self[index] = value`: gcs/storage.py:350-354 and the override 582-586 (`Buffer`).
`valueAt mem vi` is `get_value(value, vi)` evaluated while the list holds `mem` (for a value that
shares the list of `self`, it depends on `mem`).  The code interleaves the search for positions with the writes, here
all positions are found first; Model/Lazy.lean has the loop of the code, and theorem `C64_interleaved`
says that the two agree. -/
def setItem : Storage V → List V → Index → (List V → List Int → PyM V) → Wr V
  | buffer b, mem, index, valueAt =>
    let pos : PyM Int := match index with
      | .one (.int i) => .ok i
      | .tuple [.int i] => .ok i
      | _ => .error .assertion
    match pos with
    | .error e => ⟨mem, some e⟩
    | .ok i =>
      match valueAt mem [] with
      | .error e => ⟨mem, some e⟩
      | .ok v => b.write1 mem i v
  | strided s, mem, index, valueAt => s.setItem mem index valueAt
  | coo c, mem, index, valueAt =>
    match setPlan (coo c) index with
    | .error e => ⟨mem, some e⟩
    | .ok entries => writeAll c.data.write1 valueAt entries mem
  | flatcoo f, mem, index, valueAt =>
    match setPlan (flatcoo f) index with
    | .error e => ⟨mem, some e⟩
    | .ok entries => writeAll f.data.write1 valueAt entries mem
  | csr c, mem, index, valueAt =>
    match setPlan (csr c) index with
    | .error e => ⟨mem, some e⟩
    | .ok entries => writeAll c.data.write1 valueAt entries mem
  | dm m data, mem, index, valueAt =>
    match dmSetPlan m index with
    | .error e => ⟨mem, some e⟩
    | .ok entries =>
      writeAll (fun mem rindex v => setItem data mem (.tuple (rindex.map .int)) (fun _ _ => .ok v))
        valueAt entries mem

/-- A key of the dictionaries in `equal`: `Buffer` yields int indices, the others tuples. -/
inductive Key where
  | int (i : Int)
  | tuple (ix : List Int)
  deriving DecidableEq, Repr

/-- `list(self.elements())`: gcs/storage.py:405-409.  For a `Buffer`, `self.data` is the list itself
and the positions are positions of that list. -/
def elements [DecidableEq V] : Storage V → List V → PyM (List (Key × V))
  | buffer b, mem => b.entries.mapM fun e => do
    let v ← pyGet mem e.2
    return (.int e.1, v)
  | strided s, mem => do
    let es ← s.elements mem
    return es.map fun e => (.tuple e.1, e.2)
  | coo c, mem => do
    let es ← c.entries
    es.mapM fun e => do return (.tuple e.1, ← c.data.getInt mem e.2)
  | flatcoo f, mem => do
    let es ← f.entries
    es.mapM fun e => do return (.tuple e.1, ← f.data.getInt mem e.2)
  | csr c, mem => do
    let es ← c.entries
    es.mapM fun e => do return (.tuple e.1, ← c.data.getInt mem e.2)
  | dm m data, mem => do
    let es ← m.entries
    es.mapM fun e => do return (.tuple e.1, ← data.getVal mem e.2)

/-- `self.copy(unspecified)`: gcs/storage.py:313-318, 511-525 (`Buffer`), 624-635 (`Strided`);
`none` is `DEFAULT`.  The index arrays are shared with the original; nothing writes to them. -/
def copy [DecidableEq V] : Storage V → List V → Option V → PyM (Storage V × List V)
  | buffer b, mem, u =>
    let r := b.copy mem u
    return (buffer r.1, r.2)
  | strided s, mem, u => do
    let (r, m) ← s.copy mem u
    return (strided r, m)
  | coo c, mem, u => do
    let r := c.data.copy mem u
    let c' ← COO.new c.shape c.indices c.imem r.1
    return (coo c', r.2)
  | flatcoo f, mem, u => do
    let r := f.data.copy mem u
    let f' ← FlatCOO.new f.shape f.findices f.fmem r.1
    return (flatcoo f', r.2)
  | csr c, mem, u => do
    let r := c.data.copy mem u
    let c' ← CSR.new c.shape c.crow c.crowMem c.col c.colMem r.1
    return (csr c', r.2)
  | dm m data, mem, u => do
    let (d', mem') ← data.copy mem u
    let m' ← DMMeta.new m.shape m.rdims m.rstrides m.roffset
    return (dm m' d', mem')

/-- `self == other` for two distinct objects: gcs/storage.py:294-297, 538-545.  Objects of
different classes compare unequal (`NotImplemented` on both sides). -/
def eq [DecidableEq V] : Storage V → List V → Storage V → List V → Bool
  | buffer b, mem, buffer b', mem' => b.eq mem b' mem'
  | strided s, mem, strided s', mem' => s.eq mem s' mem'
  | coo c, mem, coo c', mem' =>
    c.shape = c'.shape && c.indices.eq c.imem c'.indices c'.imem && c.data.eq mem c'.data mem'
  | flatcoo f, mem, flatcoo f', mem' =>
    f.shape = f'.shape && f.findices.eq f.fmem f'.findices f'.fmem && f.data.eq mem f'.data mem'
  | csr c, mem, csr c', mem' =>
    c.shape = c'.shape && c.crow.eq c.crowMem c'.crow c'.crowMem && c.col.eq c.colMem c'.col c'.colMem
      && c.data.eq mem c'.data mem'
  | dm m data, mem, dm m' data', mem' =>
    m.shape = m'.shape && m.rdims = m'.rdims && m.rstrides = m'.rstrides && m.roffset = m'.roffset
      && eq data mem data' mem'
  | _, _, _, _ => false

/-- Lookup in the dictionary built by `d[index] = value` over the pairs in order: the last pair with
the key wins. -/
def dictGet {K : Type} [DecidableEq K] : List (K × V) → K → Option V
  | [], _ => none
  | (k, v) :: rest, key =>
    match dictGet rest key with
    | some w => some w
    | none => if k = key then some v else none

/-- Python `d1 == d2` for the two dictionaries. -/
def dictEq {K : Type} [DecidableEq K] [DecidableEq V] (l1 l2 : List (K × V)) : Bool :=
  l1.all (fun e => dictGet l2 e.1 = dictGet l1 e.1) && l2.all (fun e => dictGet l1 e.1 = dictGet l2 e.1)

/-- `self.equal(other)` for a storage `other`: gcs/storage.py:331-348. -/
def equal [DecidableEq V] (s : Storage V) (mem : List V) (t : Storage V) (mem' : List V) :
    PyM Bool := do
  let d1 ← s.elements mem
  let d2 ← t.elements mem'
  return dictEq d1 d2

end Storage

/-! ## `fromobject` and the conversions -/

/-- The storage classes. -/
inductive Cls where
  | buffer | strided | coo | flatcoo | csr | dm
  deriving DecidableEq, Repr

/-- The argument `seq` of `fromobject`: a nested list, or a storage object with the contents of its
list. -/
inductive Src (V : Type) where
  | nested (n : Nested V)
  | store (s : Storage V) (mem : List V)

namespace Src

variable {V : Type}

/-- `get_shape(seq)`: gcs/storage.py:71-80. -/
def shape : Src V → List Nat
  | nested n => n.shape
  | store s _ => s.shape

/-- `get_unspecified(seq)`: gcs/storage.py:115-121. -/
def unspec [HasNone V] : Src V → V
  | nested _ => pyNone
  | store s _ => s.unspec

/-- `get_value(seq, index)`: gcs/storage.py:83-94.  For a storage and the empty index Python returns
the storage itself as if it were a value; the model reports `TypeError`, and Model/Objects.lean has such values. -/
def getValue [DecidableEq V] : Src V → List Int → PyM V
  | nested n, ix => n.getValue ix
  | store _ _, [] => .error .type
  | store s mem, i :: ix => s.getVal mem (i :: ix)

end Src

variable {V : Type} [DecidableEq V]

/-- `partition_positions` and `rdimensions` in `DM.fromobject`: gcs/storage.py:1016-1021. -/
def dmGroups (dimensions : List Nat) (dimensionality : Nat) : List Nat → Nat → List (List Nat)
  | [], lo => [(dimensions.drop lo).take (dimensionality - lo)]
  | p :: ps, lo => ((dimensions.drop lo).take (p - lo)) :: dmGroups dimensions dimensionality ps p

/-- `partitioning` with the default filled in: gcs/storage.py:992-1000.  `isBuffer` is
`storage_class is Buffer`. -/
def dmPartitioning (dimensionality : Nat) (isBuffer : Bool) : Option (List Nat) → List Nat
  | some p => p
  | none => if isBuffer ∨ dimensionality = 1 then [] else [dimensionality - 1]

/-- `DM.fromobject` up to the construction of the storage: gcs/storage.py:981-1024.  Returns
`(rdimensions, rshape, rshapes, rstrides, roffset)`.  `isBuffer` is `storage_class is Buffer`. -/
def dmPrepare (shape : List Nat) (dimensions partitioning : Option (List Nat)) (isBuffer : Bool) :
    PyM (List (List Nat) × List Nat × List (List Nat) × List (List Int) × List Int) := do
  let dimensionality := shape.length
  let dims := dimensions.getD (List.range dimensionality)
  let part := dmPartitioning dimensionality isBuffer partitioning
  pyAssert (part = part.insertionSort (· ≤ ·))
  pyAssert (part.all fun p => decide (0 < p))
  pyAssert (part.all fun p => decide (p < dimensionality))
  let rdimensionality := part.length + 1
  pyAssert (rdimensionality ≤ dimensionality)
  let rdims := dmGroups dims dimensionality part 0
  pyAssert (decide rdims.Nodup)
  let roffset := List.replicate rdimensionality (0 : Int)
  let (rshape, rshapes, rstrides) ← makeReduction shape rdims
  return (rdims, rshape, rshapes, rstrides, roffset)

/-- The general branch of `fromobject` of the classes other than `DM`, for a given shape and reader
(`value index` is `get_value(seq, get_seq_index(index))`). -/
def buildFlat (cls : Cls) (shape : List Nat) (value : List Int → PyM V) (su u : V) :
    PyM (Storage V × List V) :=
  match cls with
  | .buffer => do let r ← bufferBuild shape value su u; return (.buffer r.1, r.2)
  | .strided => do let r ← stridedBuild shape value su u; return (.strided r.1, r.2)
  | .coo => do let r ← cooBuild shape value su u; return (.coo r.1, r.2)
  | .flatcoo => do let r ← flatBuild shape value su u; return (.flatcoo r.1, r.2)
  | .csr => do let r ← csrBuild shape value su u; return (.csr r.1, r.2)
  | .dm => .error .type

/-- `DM.fromobject(seq, shape, dimensions, partitioning, storage_class, get_seq_index, unspecified)`
with the storage built by `inner`: gcs/storage.py:981-1043. -/
def dmBuildWith (inner : List Nat → (List Int → PyM V) → PyM (Storage V × List V)) (isBuffer : Bool)
    (shape : List Nat) (dimensions partitioning : Option (List Nat)) (value : List Int → PyM V) :
    PyM (Storage V × List V) := do
  let (rdims, rshape, rshapes, rstrides, roffset) ← dmPrepare shape dimensions partitioning isBuffer
  let (st, mem) ← inner rshape fun rindex => do
    let ix ← promoteIndex rshapes rdims rstrides roffset rindex
    value ix
  pyAssert (st.shape.length = rdims.length)
  let m ← DMMeta.new shape rdims rstrides roffset
  return (.dm m st, mem)

/-- `DM.fromobject` with a storage class, `none` meaning the default `Strided`
(gcs/storage.py:986-987).  For `storage_class=DM` the inner call uses the defaults for its own
dimensions, partitioning and storage class. -/
def dmBuild (cls : Cls) (shape : List Nat) (dimensions partitioning : Option (List Nat))
    (value : List Int → PyM V) (su u : V) : PyM (Storage V × List V) :=
  match cls with
  | .dm =>
    dmBuildWith (fun rshape value' =>
        dmBuildWith (fun rshape' value'' => buildFlat .strided rshape' value'' su u) false rshape none
          none value')
      false shape dimensions partitioning value
  | c =>
    dmBuildWith (fun rshape value' => buildFlat c rshape value' su u) (c = .buffer) shape dimensions
      partitioning value

/-- What `fromobject` returns: the argument itself, or a new object with a list of its own. -/
inductive Made (V : Type) where
  | same
  | fresh (s : Storage V) (mem : List V)
  deriving DecidableEq, Repr

/-- `FlatCOO` to `COO`: gcs/storage.py:663-673.  `seq.findices` is iterated (`Buffer.__iter__`). -/
def flatToCoo (f : FlatCOO V) (mem : List V) : PyM (COO V × List V) := do
  let data ← initDiophantine (makeStrides f.shape) (some f.shape)
  let ixs ← (List.range f.findices.size).mapM fun (p : Nat) => do
    let findex ← asInt (← pyGet f.fmem ((f.findices.offset : Int) + p))
    match ← solveIndexData findex f.shape data with
    | some ix => return ix
    | none => .error .type
  let (indices, imem) ← Strided.ofNested (nestedRows (columns f.shape.length ixs))
  let (d, mem') := f.data.copy mem none
  let c ← COO.new f.shape indices imem d
  return (c, mem')

/-- `COO` to `FlatCOO`: gcs/storage.py:745-751. -/
def cooToFlat (c : COO V) (mem : List V) : PyM (FlatCOO V × List V) := do
  let es ← c.entries
  let fis ← es.mapM fun e => getPosition e.1 c.shape (makeStrides c.shape)
  let (findices, fmem) ← rawIntBuffer fis
  let (d, mem') := c.data.copy mem none
  let f ← FlatCOO.new c.shape findices fmem d
  return (f, mem')

/-- `cls.fromobject(seq, unspecified=unspecified)` with the other arguments at their defaults;
`none` is `DEFAULT`.  gcs/storage.py:457-478 (`Buffer`), 602-611 (`Strided`), 658-698 (`COO`),
740-777 (`FlatCOO`), 822-831 (`CSR`), 959-1043 (`DM`). -/
def fromObject [HasNone V] (cls : Cls) (seq : Src V) (unspec : Option V) : PyM (Made V) :=
  let su := seq.unspec
  let u := unspec.getD su
  let general : PyM (Made V) := do
    let (s, mem) ← match cls with
      | .dm => dmBuild .strided seq.shape none none seq.getValue su u
      | c => buildFlat c seq.shape seq.getValue su u
    return .fresh s mem
  match unspec with
  | some _ => general
  | none =>
    match cls, seq with
    | .buffer, .store (.buffer _) _ => .ok .same
    | .strided, .store (.strided _) _ => .ok .same
    | .coo, .store (.coo _) _ => .ok .same
    | .flatcoo, .store (.flatcoo _) _ => .ok .same
    | .coo, .store (.flatcoo f) mem => do
      let (c, m) ← flatToCoo f mem
      return .fresh (.coo c) m
    | .flatcoo, .store (.coo c) mem => do
      let (f, m) ← cooToFlat c mem
      return .fresh (.flatcoo f) m
    | .csr, .store (.coo c) mem => do
      let (r, m) ← cooToCsr c mem
      return .fresh (.csr r) m
    | .csr, .store (.flatcoo f) mem => do
      let (c, m) ← flatToCoo f mem
      let (r, m') ← cooToCsr c m
      return .fresh (.csr r) m'
    | _, _ => general

/-- `self.as_Buffer(unspecified)`, `as_Strided`, `as_COO`, `as_FlatCOO`, `as_CSR`, and `as_DM` with
its other arguments at their defaults: gcs/storage.py:427-449.  The result is the object itself (with
its list) or a new object with a list of its own. -/
def Storage.convert [HasNone V] (s : Storage V) (mem : List V) (cls : Cls) (unspec : Option V) :
    PyM (Storage V × List V) := do
  match ← fromObject cls (.store s mem) unspec with
  | .same => return (s, mem)
  | .fresh r m => return (r, m)

/-- `self.as_DM(dimensions, partitioning, storage_class, unspecified)` and
`DM.fromobject(seq, dimensions=..., partitioning=..., storage_class=..., unspecified=...)`:
gcs/storage.py:445-449, 959-1043. -/
def fromObjectDM [HasNone V] (seq : Src V) (dimensions partitioning : Option (List Nat)) (cls : Cls)
    (unspec : Option V) : PyM (Storage V × List V) :=
  dmBuild cls seq.shape dimensions partitioning seq.getValue seq.unspec (unspec.getD seq.unspec)

/-- `self.as_C2SR(...)`: gcs/storage.py:442-443.  `C2SR` has no `fromobject` (gcs/storage.py:890-922),
so the attribute lookup raises. -/
def asC2SR (_s : Storage V) : PyM (Storage V) := .error .attribute

/-- `self.equal(other)` for a nested list `other`: gcs/storage.py:331-348.  The list is first made a
`Buffer` or a `Strided` whose `unspecified` is that of `self`. -/
def Storage.equalNested [HasNone V] (s : Storage V) (mem : List V) (n : Nested V) : PyM Bool := do
  let d1 ← s.elements mem
  let cls : Cls := match s with | .buffer _ => .buffer | _ => .strided
  match ← fromObject cls (.nested n) (some s.unspec) with
  | .fresh t m => do
    let d2 ← t.elements m
    return Storage.dictEq d1 d2
  | .same => .error .type

/-- `self[index] = value` for a nested list or a scalar `value`: gcs/storage.py:350-354. -/
def Storage.assign (s : Storage V) (mem : List V) (index : Index) (value : Nested V) : Wr V :=
  s.setItem mem index fun _ vi => value.getValue vi

/-- `self[index] = value` for a storage `value` that does not share the list of `self`, with the contents
`tmem` of its list: gcs/storage.py:350-354, 83-89.  With an int on every axis, `get_value(value, ())` is
the storage object itself, which is not one of the values of the model (`TypeError` here; Model/Objects.lean has
such values). -/
def Storage.assignStore (s : Storage V) (mem : List V) (index : Index) (t : Storage V)
    (tmem : List V) : Wr V :=
  s.setItem mem index fun _ vi => if vi = [] then .error .type else t.getVal tmem vi

/-- `self[index] = value` for a storage `value` on the list of `self`, e.g. a slice of `self`: every
element is read from the list as the earlier writes have left it.  gcs/storage.py:350-354, 83-89. -/
def Storage.assignShared (s : Storage V) (mem : List V) (index : Index) (t : Storage V) : Wr V :=
  s.setItem mem index fun m vi => if vi = [] then .error .type else t.getVal m vi

end Gcs
