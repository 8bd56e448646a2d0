import Verif.Model.PyEq

/-!
# The operators `==` and `!=`

`a == b` and `a != b` as Python evaluates them (language reference, 3.3.1): the method of the left operand, then that of the
right one if the first gives `NotImplemented`, then identity.  An object has an identity (`id`), and so has the object in its
attribute `data`.  `E` is `==` of values, as in Model/PyEq.lean.
-/

namespace Gcs

variable {V : Type}

/-- The identities of an object, of its `data`, of the `data` of that and so on down to the `Buffer`: the heads are those
of the objects themselves. -/
def sameObject : List Nat → List Nat → Bool
  | i :: _, j :: _ => i = j
  | _, _ => false

/-- `x == y` of items of tuples, here the `data`: the same object or `==` (library reference, comparisons). -/
def tupleItemEq (ids ids' : List Nat) (eq : Bool) : Bool := sameObject ids ids' || eq

/-- `self.__eq__(other)` for a storage `other`; `none` is `NotImplemented`: gcs/storage.py:294-297 and, for `Buffer`, 538-545.
The tuples of `_get_object_data`: 621-622, 710-711, 789-790, 859-860, 1069-1070.  Where the `data` of two `DM`s are of
different classes, both methods give `NotImplemented`, and the two are not the same object. -/
def Storage.dunderEq [DecidableEq V] (E : V → V → Bool) :
    Storage V → List Nat → List V → Storage V → List Nat → List V → Option Bool
  | .buffer b, _, mem, .buffer b', _, mem' => some (b.eqE E mem b' mem')
  | .strided s, ids, mem, .strided s', ids', mem' =>
    some (sameObject ids ids' || (s.shape = s'.shape && s.strides = s'.strides
      && tupleItemEq ids.tail ids'.tail (s.data.eqE E mem s'.data mem')))
  | .coo c, ids, mem, .coo c', ids', mem' =>
    some (sameObject ids ids' || (c.shape = c'.shape && c.indices.eq c.imem c'.indices c'.imem
      && tupleItemEq ids.tail ids'.tail (c.data.eqE E mem c'.data mem')))
  | .flatcoo f, ids, mem, .flatcoo f', ids', mem' =>
    some (sameObject ids ids' || (f.shape = f'.shape && f.findices.eq f.fmem f'.findices f'.fmem
      && tupleItemEq ids.tail ids'.tail (f.data.eqE E mem f'.data mem')))
  | .csr c, ids, mem, .csr c', ids', mem' =>
    some (sameObject ids ids' || (c.shape = c'.shape && c.crow.eq c.crowMem c'.crow c'.crowMem
      && c.col.eq c.colMem c'.col c'.colMem && tupleItemEq ids.tail ids'.tail (c.data.eqE E mem c'.data mem')))
  | .dm m d, ids, mem, .dm m' d', ids', mem' =>
    some (sameObject ids ids' || (m.shape = m'.shape && m.rdims = m'.rdims && m.rstrides = m'.rstrides
      && m.roffset = m'.roffset
      && tupleItemEq ids.tail ids'.tail ((dunderEq E d ids.tail mem d' ids'.tail mem').getD false)))
  | _, _, _, _, _, _ => none

/-- An operand: a storage object, with its identities and the contents of its list, or an object of Python that knows
nothing of storage objects (a list, a number, `None`), with its identity: its own methods give `NotImplemented`. -/
inductive Operand (V : Type) where
  | store (desc : Storage V) (ids : List Nat) (mem : List V)
  | other (id : Nat)

/-- `a.__eq__(b)`: gcs/storage.py:294-297, 538-545; `none` is `NotImplemented`. -/
def Operand.dunderEq [DecidableEq V] (E : V → V → Bool) : Operand V → Operand V → Option Bool
  | store s ids mem, store t ids' mem' => s.dunderEq E ids mem t ids' mem'
  | _, _ => none

/-- `a is b`. -/
def Operand.is : Operand V → Operand V → Bool
  | store _ ids _, store _ ids' _ => sameObject ids ids'
  | other i, other j => i = j
  | _, _ => false

/-- `a == b`.  (No class of gcs/storage.py is derived from another one but `Storage`, so the left operand is asked first.) -/
def Operand.eq [DecidableEq V] (E : V → V → Bool) (a b : Operand V) : Bool :=
  match a.dunderEq E b with
  | some r => r
  | none =>
    match b.dunderEq E a with
    | some r => r
    | none => a.is b

/-- `a.__ne__(b)`: gcs/storage.py:302-303. -/
def Operand.dunderNe [DecidableEq V] (E : V → V → Bool) : Operand V → Operand V → Option Bool
  | store s ids mem, b => some (!((store s ids mem).eq E b))
  | other _, _ => none

/-- `a != b`. -/
def Operand.ne [DecidableEq V] (E : V → V → Bool) (a b : Operand V) : Bool :=
  match a.dunderNe E b with
  | some r => r
  | none =>
    match b.dunderNe E a with
    | some r => r
    | none => !(a.is b)

end Gcs
