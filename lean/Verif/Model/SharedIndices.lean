import Verif.Model.Storage

/-!
# Index arrays that are shared

In Model/Storage.lean the lists of the index arrays are part of the object, as nothing in gcs/storage.py writes to them.  A
program can: `s.indices`, `s.findices`, `s.crow_indices` and `s.col_indices` are attributes, and `Strided` or `Buffer` objects that
take assignments.  Here an object has the addresses of those lists, and `h` says what they hold.
-/

namespace Gcs

variable {V : Type}

/-- What the lists of the index arrays hold. -/
abbrev IHeap := Nat → List (Option Int)

/-- A storage object whose index arrays are at addresses: the attributes that the methods `__init__` set,
gcs/storage.py:613-619, 700-708, 779-787, 833-857, 1045-1067.  `dense` is a `Buffer` or a `Strided`. -/
inductive SharedObj (V : Type) where
  | dense (s : Storage V)
  | coo (shape : List Nat) (indices : Strided (Option Int)) (a : Nat) (data : Buffer V)
  | flatcoo (shape : List Nat) (findices : Buffer (Option Int)) (a : Nat) (data : Buffer V)
  | csr (shape : List Nat) (crow : Buffer (Option Int)) (a : Nat) (col : Buffer (Option Int)) (a' : Nat) (data : Buffer V)
  | dm (m : DMMeta) (data : SharedObj V)

/-- The object of Model/Storage.lean, with what the lists hold now. -/
def SharedObj.load (h : IHeap) : SharedObj V → Storage V
  | dense s => s
  | coo shape indices a data => .coo ⟨shape, indices, h a, data⟩
  | flatcoo shape findices a data => .flatcoo ⟨shape, findices, h a, data⟩
  | csr shape crow a col a' data => .csr ⟨shape, crow, h a, col, h a', data⟩
  | dm m data => .dm m (data.load h)

/-- `self.copy(unspecified)`: gcs/storage.py:313-318.  Only the last item of `_get_object_data()`, which is `data`, is copied; the
index arrays (lines 710-711, 789-790, 859-860) are passed to the new object. -/
def SharedObj.copy [DecidableEq V] (h : IHeap) : SharedObj V → List V → Option V → PyM (SharedObj V × List V)
  | dense s, mem, u => do
    let (r, m) ← s.copy mem u
    return (dense r, m)
  | coo shape indices a data, mem, u => do
    let r := data.copy mem u
    let _ ← COO.new shape indices (h a) r.1
    return (coo shape indices a r.1, r.2)
  | flatcoo shape findices a data, mem, u => do
    let r := data.copy mem u
    let _ ← FlatCOO.new shape findices (h a) r.1
    return (flatcoo shape findices a r.1, r.2)
  | csr shape crow a col a' data, mem, u => do
    let r := data.copy mem u
    let _ ← CSR.new shape crow (h a) col (h a') r.1
    return (csr shape crow a col a' r.1, r.2)
  | dm m data, mem, u => do
    let (d', mem') ← data.copy h mem u
    let m' ← DMMeta.new m.shape m.rdims m.rstrides m.roffset
    return (dm m' d', mem')

/-- A statement that assigns to an index array: `s.indices[index] = value` (a `Strided`; `valueAt` as in Model/Storage.lean),
`s.findices[i] = v`, `s.crow_indices[i] = v`, `s.col_indices[i] = v`; for a `DM`, those of what it wraps (`s.data.indices`). -/
inductive IxStmt where
  | indices (index : Index) (valueAt : List (Option Int) → List Int → PyM (Option Int))
  | findices (i : Int) (v : Option Int)
  | crow (i : Int) (v : Option Int)
  | col (i : Int) (v : Option Int)

/-- The lists after a statement, and its exception: gcs/storage.py:350-354 for `indices`, 582-586 for the others.  An object
without the attribute raises `AttributeError`. -/
def SharedObj.run (h : IHeap) : SharedObj V → IxStmt → IHeap × Option PyErr
  | coo _ indices a _, .indices index valueAt =>
    let w := indices.setItem (h a) index valueAt
    (Function.update h a w.mem, w.err)
  | flatcoo _ findices a _, .findices i v =>
    let w := findices.write1 (h a) i v
    (Function.update h a w.mem, w.err)
  | csr _ crow a _ _ _, .crow i v =>
    let w := crow.write1 (h a) i v
    (Function.update h a w.mem, w.err)
  | csr _ _ _ col a' _, .col i v =>
    let w := col.write1 (h a') i v
    (Function.update h a' w.mem, w.err)
  | dm _ data, st => data.run h st
  | _, _ => (h, some .attribute)

end Gcs
