import Verif.Model.Storage

/-!
# Programs with several storage objects

A storage object refers to the Python list that holds its values; several objects can refer to one list
(slices of `Strided` and `Buffer`, the object itself returned by `fromobject`).  A `World` has the lists
and the objects that a program has made so far, and `step` is one statement of the program.

An object never changes after its construction: `__setitem__` (gcs/storage.py:350-354, 582-586) only
writes to the list, and nothing writes to the index arrays.  So an object is a value here, the descriptor
of Model/Storage.lean, together with the number of its list.
-/

namespace Gcs

variable {V : Type}

/-- An object: its descriptor and the number of the list with its values. -/
structure Obj (V : Type) where
  addr : Nat
  desc : Storage V
  deriving DecidableEq, Repr

/-- The lists and the objects that exist. -/
structure World (V : Type) where
  lists : List (List V)
  objs : List (Obj V)
  deriving DecidableEq, Repr

/-- The contents of a list. -/
def World.list (w : World V) (a : Nat) : List V := w.lists.getD a []

/-- A new object on a list that exists. -/
def World.addView (w : World V) (a : Nat) (s : Storage V) : World V := ⟨w.lists, w.objs ++ [⟨a, s⟩]⟩

/-- A new object with a list of its own. -/
def World.addFresh (w : World V) (s : Storage V) (mem : List V) : World V :=
  ⟨w.lists ++ [mem], w.objs ++ [⟨w.lists.length, s⟩]⟩

/-- A list gets new contents. -/
def World.put (w : World V) (a : Nat) (mem : List V) : World V := ⟨w.lists.set a mem, w.objs⟩

/-- A statement.  Objects are numbered in the order of their creation; a statement that creates an object
gives it the next number. -/
inductive Op (V : Type) where
  /-- `cls.fromobject(seq, unspecified=unspec)`: gcs/storage.py:457-478, 602-611, 658-698, 740-777,
  822-831, 959-1043. -/
  | make (cls : Cls) (seq : Nested V) (unspec : Option V)
  /-- `DM.fromobject(seq, dimensions=..., partitioning=..., storage_class=cls, unspecified=unspec)`:
  gcs/storage.py:959-1043. -/
  | makeDM (seq : Nested V) (dimensions partitioning : Option (List Nat)) (cls : Cls) (unspec : Option V)
  /-- `o[index]`: gcs/storage.py:362-370, 553-580, 1083-1126. -/
  | get (o : Nat) (index : Index)
  /-- `o.as_Strided(unspec)` and the like, which are `cls.fromobject(o, unspecified=unspec)`:
  gcs/storage.py:427-449. -/
  | convert (o : Nat) (cls : Cls) (unspec : Option V)
  /-- `o.as_DM(dimensions, partitioning, cls, unspec)`: gcs/storage.py:445-449. -/
  | convertDM (o : Nat) (dimensions partitioning : Option (List Nat)) (cls : Cls) (unspec : Option V)
  /-- `o.copy(unspec)`: gcs/storage.py:313-318, 511-525, 624-635. -/
  | copy (o : Nat) (unspec : Option V)
  /-- `o[index] = value` with a nested list or a scalar: gcs/storage.py:350-354, 582-586. -/
  | set (o : Nat) (index : Index) (value : Nested V)
  /-- `o[index] = p` with another (or the same) object `p`: gcs/storage.py:350-354, 83-89. -/
  | setFrom (o : Nat) (index : Index) (p : Nat)

/-- The object that the statement is about. -/
def Op.on : Op V → Option Nat
  | .make .. | .makeDM .. => none
  | .get o _ | .convert o .. | .convertDM o .. | .copy o _ | .set o .. | .setFrom o .. => some o

/-- What the program sees of a statement: nothing special, a value, an exception, or the `NameError` of a
statement about an object that does not exist. -/
inductive Outcome (V : Type) where
  | done
  | val (v : V)
  | raised (e : PyErr)
  | noObject
  deriving DecidableEq, Repr

/-- A statement that creates an object with a list of its own, or raises. -/
def World.create (w : World V) (r : PyM (Storage V × List V)) : World V × Outcome V :=
  match r with
  | .ok (s, mem) => (w.addFresh s mem, .done)
  | .error e => (w, .raised e)

/-- The effect of an assignment on the list `a`.  The writes made before an exception stay. -/
def World.write (w : World V) (a : Nat) (r : Wr V) : World V × Outcome V :=
  (w.put a r.mem, match r.err with | none => .done | some e => .raised e)

variable [DecidableEq V] [HasNone V]

/-- `cls.fromobject` of the object `x`: the object itself, or a new one with a list of its own. -/
def World.made (w : World V) (x : Obj V) (r : PyM (Made V)) : World V × Outcome V :=
  match r with
  | .ok .same => (w.addView x.addr x.desc, .done)
  | .ok (.fresh s mem) => (w.addFresh s mem, .done)
  | .error e => (w, .raised e)

/-- `x[index]`. -/
def World.got (w : World V) (x : Obj V) (r : PyM (Res V)) : World V × Outcome V :=
  match r with
  | .ok (.val v) => (w, .val v)
  | .ok (.view s) => (w.addView x.addr s, .done)
  | .ok (.fresh s mem) => (w.addFresh s mem, .done)
  | .error e => (w, .raised e)

/-- `fromobject` of a nested list: always a new object. -/
def makeNested (cls : Cls) (seq : Nested V) (unspec : Option V) : PyM (Storage V × List V) := do
  match ← fromObject cls (.nested seq) unspec with
  | .fresh s mem => return (s, mem)
  | .same => .error .type

/-- A statement about the object `x`. -/
def World.stepOn (w : World V) (x : Obj V) : Op V → World V × Outcome V
  | .make .. | .makeDM .. => (w, .done)
  | .get _ index => w.got x (x.desc.getItem (w.list x.addr) index)
  | .convert _ cls unspec => w.made x (fromObject cls (.store x.desc (w.list x.addr)) unspec)
  | .convertDM _ dims part cls unspec =>
    w.create (fromObjectDM (.store x.desc (w.list x.addr)) dims part cls unspec)
  | .copy _ unspec => w.create (x.desc.copy (w.list x.addr) unspec)
  | .set _ index value => w.write x.addr (x.desc.assign (w.list x.addr) index value)
  | .setFrom _ index p =>
    match w.objs[p]? with
    | none => (w, .noObject)
    | some y =>
      if y.addr = x.addr then w.write x.addr (x.desc.assignShared (w.list x.addr) index y.desc)
      else w.write x.addr (x.desc.assignStore (w.list x.addr) index y.desc (w.list y.addr))

/-- One statement. -/
def World.step (w : World V) (op : Op V) : World V × Outcome V :=
  match op with
  | .make cls seq unspec => w.create (makeNested cls seq unspec)
  | .makeDM seq dims part cls unspec => w.create (fromObjectDM (.nested seq) dims part cls unspec)
  | op =>
    match op.on.bind fun o => w.objs[o]? with
    | none => (w, .noObject)
    | some x => w.stepOn x op

/-- A sequence of statements, each executed whether or not the earlier ones raised. -/
def World.run (w : World V) : List (Op V) → World V
  | [] => w
  | op :: ops => World.run (w.step op).1 ops

/-- No lists and no objects. -/
def World.empty : World V := ⟨[], []⟩

end Gcs
