import Verif.Model.Storage

/-!
# `fromobject` with its arguments `shape` and `get_seq_index`

Model/Storage.lean has `fromobject` with these arguments at their defaults, and the way `DM.fromobject` uses them.
-/

namespace Gcs

variable {V : Type} [DecidableEq V]

/-- `get_value(seq, get_seq_index(index))`: gcs/storage.py:473, 687, 766.  Without `get_seq_index` it is the identity
(gcs/storage.py:465-468, 680-683, 758-761, 1007-1010).  `get_seq_index` is a function of the user that returns an index or
raises. -/
def Src.getMapped (seq : Src V) (g : Option (List Int → PyM (List Int))) (ix : List Int) : PyM V :=
  match g with
  | none => seq.getValue ix
  | some g => do
    let j ← g ix
    seq.getValue j

/-- `cls.fromobject(seq, shape=shape, get_seq_index=g, unspecified=unspec)`; `none` is the default of an argument.
gcs/storage.py:457-478 (`Buffer`), 602-611 (`Strided`), 658-698 (`COO`), 740-777 (`FlatCOO`), 822-831 (`CSR`: with one of
the arguments it is `COO.fromobject(...).as_CSR()`, line 830), 959-1043 (`DM`, with its other arguments at their defaults).
The branches for objects of the class itself and for `COO`, `FlatCOO` and `CSR` of one another ask for the defaults of all
arguments. -/
def fromObjectWith [HasNone V] (cls : Cls) (seq : Src V) (shape : Option (List Nat))
    (g : Option (List Int → PyM (List Int))) (unspec : Option V) : PyM (Made V) :=
  match shape, g with
  | none, none => fromObject cls seq unspec
  | _, _ => do
    let sh := shape.getD seq.shape
    let su := seq.unspec
    let u := unspec.getD su
    let (s, mem) ← match cls with
      | .dm => dmBuild .strided sh none none (seq.getMapped g) su u
      | c => buildFlat c sh (seq.getMapped g) su u
    return .fresh s mem

/-- `DM.fromobject(seq, shape, dimensions, partitioning, storage_class, get_seq_index, unspecified)`:
gcs/storage.py:959-1043. -/
def fromObjectDMWith [HasNone V] (seq : Src V) (shape : Option (List Nat)) (dimensions partitioning : Option (List Nat))
    (cls : Cls) (g : Option (List Int → PyM (List Int))) (unspec : Option V) : PyM (Storage V × List V) :=
  dmBuild cls (shape.getD seq.shape) dimensions partitioning (seq.getMapped g) seq.unspec (unspec.getD seq.unspec)

end Gcs
