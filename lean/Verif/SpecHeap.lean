import Verif.SpecArray
import Verif.Model.Heap

/-!
# Specifications for programs with several objects
-/

namespace Gcs.Spec

variable {V : Type} [DecidableEq V]

/-- In the world `w`, object number `o` has the element `v` at `ix`. -/
def ReadsAt (w : World V) (o : Nat) (ix : List Int) (v : V) : Prop :=
  ∃ x, w.objs[o]? = some x ∧ Reads x.desc (w.list x.addr) ix v

/-- Object number `o` exists and has the given shape. -/
def ShapeAt (w : World V) (o : Nat) (shape : List Nat) : Prop :=
  ∃ x, w.objs[o]? = some x ∧ x.desc.shape = shape

/-- The statement makes its result from new parts: `fromobject` of a nested list; `copy`; `as_DM`; slicing a
`COO`, `FlatCOO` or `CSR`; a conversion that asks for another `unspecified`, for another class, for `CSR`
or for `DM`.  (`fromobject` of a `Buffer`, `Strided`, `COO` or `FlatCOO` returns an object of its class as it is.) -/
def OwnParts (w : World V) : Op V → Prop
  | .make .. | .makeDM .. | .copy .. | .convertDM .. => True
  | .get o _ => ∃ x, w.objs[o]? = some x ∧ match x.desc with
    | .coo _ | .flatcoo _ | .csr _ => True
    | _ => False
  | .convert o cls u => u ≠ none ∨ cls = .csr ∨ cls = .dm ∨ ∃ x, w.objs[o]? = some x ∧ match x.desc, cls with
    | .buffer _, .buffer | .strided _, .strided | .coo _, .coo | .flatcoo _, .flatcoo => False
    | _, _ => True
  | .set .. | .setFrom .. => False

variable [HasNone V]

/-- Two groups of objects: an object that a statement creates belongs to the group of the object that the statement
is about, and to the first group (`false`) if it is about none. -/
def groupStep (w : World V) (group : List Bool) (op : Op V) : List Bool :=
  if (w.step op).1.objs.length = w.objs.length then group
  else group ++ [match op.on with | some o => group.getD o false | none => false]

/-- The groups after a sequence of statements. -/
def groupRun (w : World V) (group : List Bool) : List (Op V) → List Bool
  | [] => group
  | op :: ops => groupRun (w.step op).1 (groupStep w group op) ops

end Gcs.Spec
