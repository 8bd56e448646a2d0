import Verif.SpecHeap

/-!
# Specification of whole programs

A machine that knows arrays, but no lists, buffers, strides and index arrays.  An array has a value at some of its
indices, its places.  An object is a view of an array: it has a shape, and for each of its indices an index of the array.
Several objects can be views of one array.  The statements are those of Model/Heap.lean.
-/

namespace Gcs.Spec

variable {V : Type}

instance InBox.decide : (ix : List Int) → (shape : List Nat) → Decidable (InBox ix shape)
  | [], [] => .isTrue trivial
  | i :: ix, n :: shape => @instDecidableAnd _ _ (inferInstanceAs (Decidable (0 ≤ i ∧ i < n))) (InBox.decide ix shape)
  | [], _ :: _ => .isFalse id
  | _ :: _, [] => .isFalse id

/-- The indices of an array in lexicographic order. -/
def boxList : List Nat → List (List Int)
  | [] => [[]]
  | n :: shape => (List.range n).flatMap fun (i : Nat) => (boxList shape).map fun ix => (i : Int) :: ix

/-- The sizes of a rectangular nested list. -/
def dims : Nested V → List Nat
  | .leaf _ => []
  | .seq [] => [0]
  | .seq (x :: xs) => (xs.length + 1) :: dims x

/-- The kind of an object.  `dm false` is a `DM` as `fromobject` makes it, `dm true` a slice of a `DM`. -/
inductive Kind where
  | strided | coo | flatcoo | csr
  | dm (cut : Bool)
  deriving DecidableEq, Repr

/-- The kind of `cls.fromobject(...)`. -/
def Kind.ofCls : Cls → Kind
  | .buffer | .strided => .strided
  | .coo => .coo
  | .flatcoo => .flatcoo
  | .csr => .csr
  | .dm => .dm false

/-- The class of an object. -/
def Kind.cls : Kind → Cls
  | .strided => .strided
  | .coo => .coo
  | .flatcoo => .flatcoo
  | .csr => .csr
  | .dm _ => .dm

/-- Objects that need not have a place for each index. -/
def Kind.sparse : Kind → Bool
  | .coo | .flatcoo | .csr => true
  | _ => false

/-- An object: its kind, shape and unspecified value, the number of its array, and for each of its indices the index of
the array. -/
structure View (V : Type) where
  kind : Kind
  shape : List Nat
  unspec : V
  arr : Nat
  src : List Int → List Int

/-- The arrays and the objects that exist. -/
structure Machine (V : Type) where
  arrs : List (List Int → Option V)
  views : List (View V)

/-- What array number `a` has at an index: a value, or no place. -/
def Machine.elem (m : Machine V) (a : Nat) (ix : List Int) : Option V := (m.arrs[a]?).bind fun e => e ix

/-- What an object has at an index. -/
def Machine.place (m : Machine V) (v : View V) (ix : List Int) : Option V := m.elem v.arr (v.src ix)

/-- The element of an object. -/
def Machine.read (m : Machine V) (v : View V) (ix : List Int) : V := (m.place v ix).getD v.unspec

/-- A new object with an array of its own. -/
def Machine.add (m : Machine V) (kind : Kind) (shape : List Nat) (unspec : V) (elem : List Int → Option V) : Machine V :=
  ⟨m.arrs ++ [fun ix => if InBox ix shape then elem ix else none], m.views ++ [⟨kind, shape, unspec, m.arrs.length, id⟩]⟩

/-- A new object on an array that exists. -/
def Machine.addView (m : Machine V) (v : View V) : Machine V := ⟨m.arrs, m.views ++ [v]⟩

/-- Array number `a` gets the value `x` at `ix`, if it has a place there. -/
def Machine.write (m : Machine V) (a : Nat) (ix : List Int) (x : V) : Machine V :=
  ⟨m.arrs.modify a fun e jx => if jx = ix then (e jx).map fun _ => x else e jx, m.views⟩

/-- The element that `o[index] = value` writes, with the index of the value, in the order of the writes.  A `COO`, `FlatCOO`,
`CSR` or `DM` writes all its elements when the index has an int on every axis (C39, C53). -/
def View.targets (v : View V) (index : Index) : List (List Int × List Int) :=
  if selShape (items index) v.shape = [] ∧ v.kind ≠ .strided then (boxList v.shape).map fun ix => (ix, [])
  else (boxList (selShape (items index) v.shape)).map fun j => (selSource (items index) v.shape j, j)

/-- `o[index] = value`, with the values that the machine has for the index `j` at the time of the write. -/
def Machine.assign (m : Machine V) (v : View V) (index : Index) (value : Machine V → List Int → V) : Machine V :=
  (v.targets index).foldl (fun m e => m.write v.arr (v.src e.1) (value m e.2)) m

variable [DecidableEq V]

/-- The elements of a new object: the unspecified value has no place in a `COO`, `FlatCOO` or `CSR`. -/
def made (kind : Kind) (unspec : V) (f : List Int → V) (ix : List Int) : Option V :=
  if kind.sparse = true ∧ f ix = unspec then none else some (f ix)

/-- `new` for `old`. -/
def replaced (old new x : V) : V := if x = old then new else x

/-- `o[index]` for an index that keeps an axis. -/
def Machine.slice (m : Machine V) (v : View V) (index : Index) : Machine V :=
  let shape := selShape (items index) v.shape
  let src := selSource (items index) v.shape
  match v.kind with
  | .strided => m.addView ⟨.strided, shape, v.unspec, v.arr, fun j => v.src (src j)⟩
  | .dm _ => m.addView ⟨.dm true, shape, v.unspec, v.arr, fun j => v.src (src j)⟩
  | .coo => m.add .coo shape v.unspec fun j => m.place v (src j)
  | .flatcoo => m.add .flatcoo shape v.unspec fun j => m.place v (src j)
  | .csr =>
    if shape.length = 1 then m.add .coo shape v.unspec (made .coo v.unspec fun j => m.read v (src j))
    else m.add .csr shape v.unspec fun j => m.place v (src j)

/-- Whether `fromobject` returns the object itself. -/
def Kind.same : Kind → Kind → Bool
  | .strided, .strided | .coo, .coo | .flatcoo, .flatcoo => true
  | _, _ => false

/-- Whether `fromobject` takes over the places of an object. -/
def Kind.takes : Kind → Kind → Bool
  | .flatcoo, .coo | .coo, .flatcoo | .coo, .csr | .flatcoo, .csr => true
  | _, _ => false

/-- `o.as_X(unspecified=u)`. -/
def Machine.convert (m : Machine V) (v : View V) (kind : Kind) (u : Option V) : Machine V :=
  if u = none ∧ v.kind.same kind = true then m.addView v
  else if u = none ∧ v.kind.takes kind = true then m.add kind v.shape v.unspec (m.place v)
  else m.add kind v.shape (u.getD v.unspec)
    (made kind (u.getD v.unspec) fun ix => replaced v.unspec (u.getD v.unspec) (m.read v ix))

/-- The elements of `cls.fromobject(seq, unspecified=u)`: `u` for `None`. -/
def listElem [HasNone V] (seq : Nested V) (u : Option V) (ix : List Int) : V :=
  replaced pyNone (u.getD pyNone) ((item seq ix).getD pyNone)

/-- One statement: the new state, and what the program sees. -/
def Machine.step [HasNone V] (m : Machine V) : Op V → Machine V × Outcome V
  | .make cls seq u =>
    (m.add (Kind.ofCls cls) (dims seq) (u.getD pyNone) (made (Kind.ofCls cls) (u.getD pyNone) (listElem seq u)), .done)
  | .makeDM seq _ _ _ u =>
    (m.add (.dm false) (dims seq) (u.getD pyNone) (made (.dm false) (u.getD pyNone) (listElem seq u)), .done)
  | .get o index =>
    match m.views[o]? with
    | none => (m, .noObject)
    | some v =>
      if selShape (items index) v.shape = [] then (m, .val (m.read v (selSource (items index) v.shape [])))
      else (m.slice v index, .done)
  | .convert o cls u =>
    match m.views[o]? with
    | none => (m, .noObject)
    | some v => (m.convert v (Kind.ofCls cls) u, .done)
  | .convertDM o _ _ _ u =>
    match m.views[o]? with
    | none => (m, .noObject)
    | some v => (m.convert v (.dm false) u, .done)
  | .copy o u =>
    match m.views[o]? with
    | none => (m, .noObject)
    | some v => (m.add v.kind v.shape (u.getD v.unspec) fun ix =>
        (m.place v ix).map (replaced v.unspec (u.getD v.unspec)), .done)
  | .set o index value =>
    match m.views[o]? with
    | none => (m, .noObject)
    | some v => (m.assign v index fun _ j => (item value j).getD v.unspec, .done)
  | .setFrom o index p =>
    match m.views[o]?, m.views[p]? with
    | some v, some q => (m.assign v index fun m j => m.read q j, .done)
    | _, _ => (m, .noObject)

/-- The program, statement by statement. -/
def Machine.run [HasNone V] (m : Machine V) : List (Op V) → Machine V
  | [] => m
  | op :: ops => Machine.run (m.step op).1 ops

/-- No arrays and no objects. -/
def Machine.empty : Machine V := ⟨[], []⟩

/-- What a class needs: `CSR` two axes and an element that is not the unspecified value (C28); `Buffer` is left out, since
indexing means something else there (C47). -/
def ClassFits (cls : Cls) (shape : List Nat) (unspec : V) (f : List Int → V) : Prop :=
  cls ≠ .buffer ∧ (cls = .csr → shape.length = 2 ∧ ∃ ix, InBox ix shape ∧ f ix ≠ unspec)

/-- The arguments of `DM.fromobject` for `n` axes: the dimensions are a permutation of the axes, and the partitioning is
increasing inside `1, ..., n - 1`; `Strided` or `Buffer` as the storage class, the latter with one group of axes. -/
def SplitFits (n : Nat) (dimensions partitioning : Option (List Nat)) (cls : Cls) : Prop :=
  (∀ d, dimensions = some d → d.Perm (List.range n)) ∧
  (∀ p, partitioning = some p → p.Pairwise (· < ·) ∧ ∀ k ∈ p, 0 < k ∧ k < n) ∧
  (cls = .strided ∨ (cls = .buffer ∧ (partitioning = none ∨ partitioning = some [])))

/-- The conditions of a statement.
* `fromobject`: a rectangular list without empty axes.
* `o[index]`: a valid index and a selection without empty axes; of a slice of a `DM` an element or a
  slice without ints (C36).
* `o[index] = value`: a valid index, and the value has an item for each selected index.
* `o[index] = p`: `p` has the shape of the selection; if `p` and `o` are views of one array, `o` is a `Strided`. -/
def Machine.Fits [HasNone V] (m : Machine V) : Op V → Prop
  | .make cls seq u => HasShape seq (dims seq) ∧ dims seq ≠ [] ∧ (∀ n ∈ dims seq, 0 < n) ∧
    ClassFits cls (dims seq) (u.getD pyNone) (listElem seq u)
  | .makeDM seq d p cls _ => HasShape seq (dims seq) ∧ dims seq ≠ [] ∧ (∀ n ∈ dims seq, 0 < n) ∧
    SplitFits (dims seq).length d p cls
  | .get o index => ∃ v, m.views[o]? = some v ∧ ValidItems (items index) v.shape ∧
    (∀ n ∈ selShape (items index) v.shape, 0 < n) ∧ (v.kind = .dm true →
      selShape (items index) v.shape = [] ∨ ∀ i, Ix.int i ∉ items index)
  | .convert o cls u => ∃ v, m.views[o]? = some v ∧
    ClassFits cls v.shape (u.getD v.unspec) fun ix => replaced v.unspec (u.getD v.unspec) (m.read v ix)
  | .convertDM o d p cls _ => ∃ v, m.views[o]? = some v ∧ SplitFits v.shape.length d p cls
  | .copy o _ => ∃ v, m.views[o]? = some v
  | .set o index value => ∃ v, m.views[o]? = some v ∧ ValidItems (items index) v.shape ∧
    ∀ j, InBox j (selShape (items index) v.shape) → ∃ x, item value j = some x
  | .setFrom o index p => ∃ v q, m.views[o]? = some v ∧ m.views[p]? = some q ∧ ValidItems (items index) v.shape ∧
    selShape (items index) v.shape ≠ [] ∧ q.shape = selShape (items index) v.shape ∧ (v.arr = q.arr → v.kind = .strided)

/-- The conditions of all statements of a program. -/
def Machine.FitsAll [HasNone V] (m : Machine V) : List (Op V) → Prop
  | [] => True
  | op :: ops => m.Fits op ∧ (m.step op).1.FitsAll ops

/-- The statement with `dimensions`, `partitioning` and `storage_class` of a `DM` left out. -/
def plainDM : Op V → Op V
  | .makeDM seq _ _ _ u => .makeDM seq none none .strided u
  | .convertDM o _ _ _ u => .convertDM o none none .strided u
  | op => op

/-- The statement with `Strided` in place of the class. -/
def allStrided : Op V → Op V
  | .make _ seq u | .makeDM seq _ _ _ u => .make .strided seq u
  | .convert o _ u | .convertDM o _ _ _ u => .convert o .strided u
  | op => op

/-- The statement is not an assignment. -/
def ReadOnly : Op V → Prop
  | .set .. | .setFrom .. => False
  | _ => True

end Gcs.Spec
