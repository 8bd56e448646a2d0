import Verif.Model.Storage

/-!
# A `Buffer` with any int as its size and its offset

`Buffer.__init__` only looks at `offset + size`, so both may be negative (Model/Storage.lean has the others).  The methods of
`Buffer`, for any ints.
-/

namespace Gcs

variable {V : Type}

/-- `Buffer` without its list `data`: gcs/storage.py:452-502. -/
structure AnyBuffer (V : Type) where
  size : Int
  offset : Int
  unspec : V
  deriving DecidableEq, Repr

/-- A place in `l[a:b]`: a negative one counts from the end, then it is moved into the list (library reference, common
sequence operations, notes 3 and 4). -/
def sliceBound (n : Nat) (a : Int) : Nat := if a < 0 then (n + a).toNat else min a.toNat n

/-- `l[a:b]`. -/
def pyWindow (l : List V) (a b : Int) : List V := (l.take (sliceBound l.length b)).drop (sliceBound l.length a)

/-- `range(offset, offset+size)`. -/
def rangeFrom (offset size : Int) : List Int := (List.range size.toNat).map fun (i : Nat) => offset + i

/-- `Buffer.__init__(size, offset, data, unspecified)`: gcs/storage.py:480-502. -/
def AnyBuffer.new (size offset : Int) (mem : List V) (unspec : V) : PyM (AnyBuffer V) := do
  pyAssert (offset + size ≤ mem.length)
  return ⟨size, offset, unspec⟩

/-- `len(self)`: gcs/storage.py:291-292 with `shape = (size,)` from line 497.  The built-in function `len` raises `ValueError`
for a negative result. -/
def AnyBuffer.len (b : AnyBuffer V) : PyM Nat := if b.size < 0 then .error .value else .ok b.size.toNat

/-- `self[i]` with an int: gcs/storage.py:579-580. -/
def AnyBuffer.getInt (b : AnyBuffer V) (mem : List V) (i : Int) : PyM V := pyGet mem (b.offset + i)

/-- `self[i] = v` with an int: gcs/storage.py:582-586. -/
def AnyBuffer.setInt (b : AnyBuffer V) (mem : List V) (i : Int) (v : V) : PyM (List V) := pySet mem (b.offset + i) v

/-- `self[s]` with a slice: gcs/storage.py:560-577. -/
def AnyBuffer.getSlice (b : AnyBuffer V) (mem : List V) (s : PySlice) : PyM (AnyBuffer V) := do
  let start : Int := match s.start with
    | some i => b.offset + i
    | none => b.offset
  let stop : Int := match s.stop with
    | some i => b.offset + i
    | none => b.offset + b.size
  if start < 0 ∨ start ≥ mem.length then throw .index
  if stop ≤ 0 ∨ stop > mem.length then throw .index
  let r := reduced ⟨some start, some stop, s.step⟩ mem.length
  if r.step ≠ 1 then throw .index
  AnyBuffer.new (r.stop - r.start) r.start mem b.unspec

/-- `list(self)`: gcs/storage.py:588-590.  The values of `self.elements()` (405-409 with 592-595) are the same. -/
def AnyBuffer.items (b : AnyBuffer V) (mem : List V) : PyM (List V) := (rangeFrom b.offset b.size).mapM fun pos => pyGet mem pos

/-- `self.copy(unspecified)`: gcs/storage.py:511-525; `none` is `DEFAULT`.  The new buffer and its list. -/
def AnyBuffer.copy [DecidableEq V] (b : AnyBuffer V) (mem : List V) (unspec : Option V) : PyM (AnyBuffer V × List V) := do
  let u := unspec.getD b.unspec
  let data ←
    if u = b.unspec then pure (pyWindow mem b.offset (b.offset + b.size))
    else (rangeFrom b.offset b.size).mapM fun pos => do
      let value ← pyGet mem pos
      return if value = b.unspec then u else value
  let r ← AnyBuffer.new data.length 0 data u
  return (r, data)

/-- `self == other` for two buffers: gcs/storage.py:538-545. -/
def AnyBuffer.eq [DecidableEq V] (b : AnyBuffer V) (mem : List V) (b' : AnyBuffer V) (mem' : List V) : Bool :=
  b.size = b'.size && pyWindow mem b.offset (b.offset + b.size) = pyWindow mem' b'.offset (b'.offset + b'.size)
    && b.unspec = b'.unspec

end Gcs
