import Verif.Model.Objects
import Verif.Model.Text

/-!
# Model of the class `C2SR`

gcs/storage.py:890-922.  The class has a constructor and `_get_object_data`; everything else comes from the base class
`Storage`, where `get_data_position`, `get_slice` and `indices_and_data_position` raise `NotImplementedError`
(gcs/storage.py:356-360, 372-373).
-/

namespace Gcs

variable {V : Type}

/-- `C2SR`: gcs/storage.py:890-922.  Each `Buffer` of ints is with the contents of its list; the list of `data` is
separate, as for the other classes. -/
structure C2SR (V : Type) where
  shape : List Nat
  channels : Int
  rowLengths : Buffer (Option Int)
  rowLengthsMem : List (Option Int)
  rowPointers : Buffer (Option Int)
  rowPointersMem : List (Option Int)
  col : Buffer (Option Int)
  colMem : List (Option Int)
  data : Buffer V
  deriving DecidableEq, Repr

namespace C2SR

/-- `C2SR.__init__`: gcs/storage.py:901-918.  The `isinstance` checks are in the types. -/
def new (shape : List Nat) (channels : Int) (rowLengths : Buffer (Option Int)) (rowLengthsMem : List (Option Int))
    (rowPointers : Buffer (Option Int)) (rowPointersMem : List (Option Int)) (col : Buffer (Option Int))
    (colMem : List (Option Int)) (data : Buffer V) : PyM (C2SR V) := do
  pyAssert (shape.length = 2)
  pyAssert (rowLengths.size = rowPointers.size)
  let n0 ← pyGet shape 0
  pyAssert (n0 = rowLengths.size)
  return ⟨shape, channels, rowLengths, rowLengthsMem, rowPointers, rowPointersMem, col, colMem, data⟩

/-- `self.size`: gcs/storage.py:918. -/
def size (c : C2SR V) : Nat := c.data.size

/-- `self.is_full()`: gcs/storage.py:299-300. -/
def isFull (c : C2SR V) : Bool := c.size = product c.shape

/-- `len(self)`: gcs/storage.py:291-292. -/
def len (c : C2SR V) : PyM Nat := pyGet c.shape 0

/-- `self.unspecified`: gcs/storage.py:320-322. -/
def unspec (c : C2SR V) : V := c.data.unspec

/-- `Storage.get_data_position`: gcs/storage.py:356-357. -/
def getDataPosition (_c : C2SR V) (_index : List Int) : PyM (Option Int) := .error .notImplemented

/-- `Storage.get_slice`: gcs/storage.py:359-360. -/
def getSlice (_c : C2SR V) (_shape : List Nat) (_strides : List Int) (_offset : Int) : PyM (Res V) := .error .notImplemented

/-- `Storage.indices_and_data_position`: gcs/storage.py:372-373. -/
def entries (_c : C2SR V) : PyM (List (List Int × Int)) := .error .notImplemented

/-- `self[index]`: gcs/storage.py:362-370. -/
def getItem (c : C2SR V) (mem : List V) (index : Index) : PyM (Res V) := do
  let nix ← normalizeIndex index c.shape
  match elementIndex nix with
  | some ix => do
    let p ← c.getDataPosition ix
    return .val (← readAt c.data mem p)
  | none => do
    let (shape, strides, offset) ← indexStrided nix c.shape (makeStrides c.shape)
    c.getSlice shape strides offset

/-- `get_value(self, index)`: gcs/storage.py:83-89.  For the empty index Python returns the object itself; below the
indices have two items. -/
def getValue (c : C2SR V) (mem : List V) : List Int → PyM V
  | [] => .error .type
  | i :: ix => do
    match ← c.getItem mem (.tuple ((i :: ix).map .int)) with
    | .val v => return v
    | _ => .error .type

/-- `self[index] = value`: gcs/storage.py:350-354. -/
def setItem (c : C2SR V) (mem : List V) (index : Index) (valueAt : List V → List Int → PyM V) : Wr V :=
  match (do
    let nix ← normalizeIndex index c.shape
    let (shape, strides, offset) ← indexStrided nix c.shape (makeStrides c.shape)
    sliceEntries c.entries c.shape shape strides offset : PyM (List (List Int × Int))) with
  | .error e => ⟨mem, some e⟩
  | .ok plan => writeAll c.data.write1 valueAt plan mem

/-- `self.elements()`, all of its pairs: gcs/storage.py:405-409. -/
def elements (c : C2SR V) (mem : List V) : PyM (List (List Int × V)) := do
  let es ← c.entries
  es.mapM fun e => do return (e.1, ← c.data.getInt mem e.2)

/-- `self.equal(other)` for an object with the given `other.elements()`: gcs/storage.py:331-348. -/
def equal [DecidableEq V] (c : C2SR V) (mem : List V) (others : PyM (List (List Int × V))) : PyM Bool := do
  let d1 ← c.elements mem
  let d2 ← others
  return Storage.dictEq d1 d2

/-- `s.equal(self)` for a storage `s`: gcs/storage.py:331-348. -/
def equalTo [DecidableEq V] (s : Storage V) (smem : List V) (c : C2SR V) (mem : List V) : PyM Bool := do
  let d1 ← s.elements smem
  let d2 ← c.elements mem
  return Storage.dictEq d1 (d2.map fun e => (Storage.Key.tuple e.1, e.2))

/-- `next` on `iter(self)`, call number `i`: as `Storage.next` (Model/Protocol.lean). -/
def next (c : C2SR V) (mem : List V) (i : Nat) : PyM (Option (Res V)) :=
  match c.getItem mem (.one (.int i)) with
  | .ok r => .ok (some r)
  | .error .index => .ok none
  | .error e => .error e

/-- `self.copy(unspecified)`: gcs/storage.py:313-318, 920-922. -/
def copy [DecidableEq V] (c : C2SR V) (mem : List V) (unspec : Option V) : PyM (C2SR V × List V) := do
  let r := c.data.copy mem unspec
  let c' ← new c.shape c.channels c.rowLengths c.rowLengthsMem c.rowPointers c.rowPointersMem c.col c.colMem r.1
  return (c', r.2)

/-- `self == other` for two distinct objects: gcs/storage.py:294-297, 920-922. -/
def eq [DecidableEq V] (c : C2SR V) (mem : List V) (c' : C2SR V) (mem' : List V) : Bool :=
  c.shape = c'.shape && c.channels = c'.channels && c.rowLengths.eq c.rowLengthsMem c'.rowLengths c'.rowLengthsMem
    && c.rowPointers.eq c.rowPointersMem c'.rowPointers c'.rowPointersMem && c.col.eq c.colMem c'.col c'.colMem
    && c.data.eq mem c'.data mem'

/-- `cls.fromobject(self, unspecified=...)`, i.e. `self.as_Buffer()` and so on: as the general branch of `fromObject`
(Model/Storage.lean); `none` is `DEFAULT`. -/
def convert [DecidableEq V] (c : C2SR V) (mem : List V) (cls : Cls) (unspec : Option V) : PyM (Storage V × List V) :=
  match cls with
  | .dm => dmBuild .strided c.shape none none (c.getValue mem) c.unspec (unspec.getD c.unspec)
  | cls => buildFlat cls c.shape (c.getValue mem) c.unspec (unspec.getD c.unspec)

/-- `repr(self)`: gcs/storage.py:305-306, 920-922. -/
def repr (T : Text.Texts V) (c : C2SR V) (mem : List V) : Version.Str :=
  "C2SR".toList ++ Text.tupleText [Text.shapeText c.shape, Text.intText c.channels,
    Text.bufferRepr Text.optTexts c.rowLengths c.rowLengthsMem, Text.bufferRepr Text.optTexts c.rowPointers c.rowPointersMem,
    Text.bufferRepr Text.optTexts c.col c.colMem, Text.bufferRepr T c.data mem]

end C2SR
end Gcs
