/-
Lists and storage objects as values: what Python does where `Nested.getValue`, `Src.getValue`, `Storage.assignStore` and
`Storage.assignShared` (Model/Storage.lean) report a `TypeError` for want of such values.
-/
import Verif.Model.Storage

namespace Gcs

variable {V : Type}

/-- Lists and storage objects are Python objects like any other, so they can be elements of an array. -/
structure Objects (V : Type) where
  list : List (Nested V) → V
  store : Storage V → List V → V

/-- A list or a scalar as a value. -/
def Nested.asValue (O : Objects V) : Nested V → V
  | .leaf v => v
  | .seq items => O.list items

/-- The loop `for i in index: value = value[i]` of `get_value`: gcs/storage.py:91-94. -/
def Nested.walkObj (O : Objects V) : Nested V → List Int → PyM V
  | n, [] => return n.asValue O
  | .leaf _, _ :: _ => .error .type
  | .seq items, i :: ix => do
    let x ← pyGet items i
    x.walkObj O ix

/-- `get_value(seq, index)` of a nested list or a scalar: gcs/storage.py:83-94. -/
def Nested.getValueObj (O : Objects V) : Nested V → List Int → PyM V
  | n, [] => return n.asValue O
  | .leaf _, _ :: _ => .error .assertion
  | .seq items, i :: ix => (Nested.seq items).walkObj O (i :: ix)

/-- `get_value(seq, index)` of a storage: gcs/storage.py:83-94. -/
def Storage.getValueObj [DecidableEq V] (O : Objects V) (s : Storage V) (mem : List V) : List Int → PyM V
  | [] => return O.store s mem
  | i :: ix => do
    match ← s.getItem mem (.tuple ((i :: ix).map .int)) with
    | .val v => return v
    | .view r => return O.store r mem
    | .fresh r m => return O.store r m

/-- `get_value(seq, index)`: gcs/storage.py:83-94. -/
def Src.getValueObj [DecidableEq V] (O : Objects V) : Src V → List Int → PyM V
  | nested n, ix => n.getValueObj O ix
  | store s mem, ix => s.getValueObj O mem ix

/-- `cls.fromobject(seq, unspecified=unspecified)`, as `fromObject`: gcs/storage.py:457-478 (`Buffer`), 602-611
(`Strided`), 658-698 (`COO`), 740-777 (`FlatCOO`), 822-831 (`CSR`), 959-1043 (`DM`). -/
def fromObjectObj [DecidableEq V] [HasNone V] (O : Objects V) (cls : Cls) (seq : Src V) (unspec : Option V) :
    PyM (Made V) :=
  let su := seq.unspec
  let u := unspec.getD su
  let general : PyM (Made V) := do
    let (s, mem) ← match cls with
      | .dm => dmBuild .strided seq.shape none none (seq.getValueObj O) su u
      | c => buildFlat c seq.shape (seq.getValueObj O) su u
    return .fresh s mem
  match unspec with
  | some _ => general
  | none =>
    match cls, seq with
    | .buffer, .store (.buffer _) _ => .ok .same
    | .strided, .store (.strided _) _ => .ok .same
    | .coo, .store (.coo _) _ => .ok .same
    | .flatcoo, .store (.flatcoo _) _ => .ok .same
    | .coo, .store (.flatcoo f) mem => do
      let (c, m) ← flatToCoo f mem
      return .fresh (.coo c) m
    | .flatcoo, .store (.coo c) mem => do
      let (f, m) ← cooToFlat c mem
      return .fresh (.flatcoo f) m
    | .csr, .store (.coo c) mem => do
      let (r, m) ← cooToCsr c mem
      return .fresh (.csr r) m
    | .csr, .store (.flatcoo f) mem => do
      let (c, m) ← flatToCoo f mem
      let (r, m') ← cooToCsr c m
      return .fresh (.csr r) m'
    | _, _ => general

/-- `DM.fromobject(seq, dimensions=..., partitioning=..., storage_class=..., unspecified=...)`:
gcs/storage.py:959-1043. -/
def fromObjectDMObj [DecidableEq V] [HasNone V] (O : Objects V) (seq : Src V) (dimensions partitioning : Option (List Nat))
    (cls : Cls) (unspec : Option V) : PyM (Storage V × List V) :=
  dmBuild cls seq.shape dimensions partitioning (seq.getValueObj O) seq.unspec (unspec.getD seq.unspec)

/-- `self[index] = value` for a nested list or a scalar: gcs/storage.py:350-354, 582-586. -/
def Storage.assignObj (O : Objects V) (s : Storage V) (mem : List V) (index : Index) (value : Nested V) : Wr V :=
  s.setItem mem index fun _ vi => value.getValueObj O vi

/-- `self[index] = value` for a storage on a list of its own: gcs/storage.py:350-354, 582-586, 83-89. -/
def Storage.assignStoreObj [DecidableEq V] (O : Objects V) (s : Storage V) (mem : List V) (index : Index) (t : Storage V)
    (tmem : List V) : Wr V :=
  s.setItem mem index fun _ vi => t.getValueObj O tmem vi

/-- `self[index] = value` for a storage on the list of `self`: gcs/storage.py:350-354, 582-586, 83-89. -/
def Storage.assignSharedObj [DecidableEq V] (O : Objects V) (s : Storage V) (mem : List V) (index : Index)
    (t : Storage V) : Wr V :=
  s.setItem mem index fun m vi => t.getValueObj O m vi

end Gcs
