import Verif.Spec
import Verif.Model.Storage

/-!
# Specifications of arrays

What a nested Python list and a storage object mean as arrays.  Only the data types of the model are
used for nested lists; for a storage object the meaning is what its users see: `s.shape` and
`s[i, j, ...]`.
-/

namespace Gcs.Spec

variable {V : Type}

/-- A rectangular nested list of the given shape.  The shape of `[]` is `(0,)`. -/
inductive HasShape : Nested V → List Nat → Prop
  | leaf (v : V) : HasShape (.leaf v) []
  | empty : HasShape (.seq []) [0]
  | seq (items : List (Nested V)) (shape : List Nat) (hne : items ≠ []) (h : ∀ x ∈ items, HasShape x shape) :
    HasShape (.seq items) (items.length :: shape)

/-- The item `n[i][j]...` of a nested list, for indices counted from `0`. -/
def item : Nested V → List Int → Option V
  | .leaf v, [] => some v
  | .seq items, i :: ix => if 0 ≤ i then (items[i.toNat]?).bind fun x => item x ix else none
  | _, _ => none

/-- The item or list `n[i][j]...` of a nested list, for indices counted from `0`; `none` when there is no such thing. -/
def place : Nested V → List Int → Option (Nested V)
  | n, [] => some n
  | .seq items, i :: ix => if 0 ≤ i then (items[i.toNat]?).bind fun x => place x ix else none
  | .leaf _, _ :: _ => none

/-- `s[ix]` with an int on every axis is `v`. -/
def Reads [DecidableEq V] (s : Storage V) (mem : List V) (ix : List Int) (v : V) : Prop :=
  s.getItem mem (.tuple (ix.map .int)) = .ok (.val v)

/-- `s.elements()` is the list of all pairs of an index of the box and its value for which `keep`
holds, each once, in increasing lexicographic order of the indices. -/
def Enumerates [DecidableEq V] (s : Storage V) (mem : List V) (keep : List Int → V → Prop) : Prop :=
  ∃ es : List (List Int × V), s.elements mem = .ok (es.map fun e => (.tuple e.1, e.2)) ∧
    (es.map (·.1)).Pairwise lexLt ∧ ∀ ix v, (ix, v) ∈ es ↔ InBox ix s.shape ∧ Reads s mem ix v ∧ keep ix v

/-- `ix` is one of the indices that `s.elements()` yields. -/
def Stored [DecidableEq V] (s : Storage V) (mem : List V) (ix : List Int) : Prop :=
  ∃ es v, s.elements mem = .ok es ∧ (Storage.Key.tuple ix, v) ∈ es

/-- `s` has a place for the element at `ix`, according to its index arrays.  `COO`: some column of `indices`
is `ix`.  `FlatCOO`: the row-major position of `ix` is in `findices`.  `CSR`: the column number is in the
part of `col_indices` that `crow_indices` gives for the row.  The other classes have a place for every index. -/
def HasPlace : Storage V → List Int → Prop
  | .coo c, ix => ix.length = c.shape.length ∧ ∃ p : Nat, p < c.indices.shape.getD 1 0 ∧
    ∀ (k : Nat) (_ : k < ix.length), Reads (.strided c.indices) c.imem [(k : Int), (p : Int)] (some ix[k])
  | .flatcoo f, ix => InBox ix f.shape ∧ ∃ p : Nat, p < f.findices.size ∧
    Reads (.buffer f.findices) f.fmem [(p : Int)] (some (rowMajor ix f.shape 0))
  | .csr c, ix => InBox ix c.shape ∧ ∃ r k lo hi p : Int, ix = [r, k] ∧
    Reads (.buffer c.crow) c.crowMem [r] (some lo) ∧ Reads (.buffer c.crow) c.crowMem [r + 1] (some hi) ∧
    lo ≤ p ∧ p < hi ∧ Reads (.buffer c.col) c.colMem [p] (some k)
  | s, ix => InBox ix s.shape

/-- `ix` is stored index number `p` of a `COO`, `FlatCOO` or `CSR`, according to its index arrays: column `p` of
`indices`; the index with row-major position `findices[p]`; the column number `col_indices[p]` in the row whose part
of `col_indices`, as `crow_indices` gives it, has `p`. -/
def NthStored : Storage V → Nat → List Int → Prop
  | .coo c, p, ix => p < c.indices.shape.getD 1 0 ∧ ix.length = c.shape.length ∧
    ∀ (k : Nat) (_ : k < ix.length), Reads (.strided c.indices) c.imem [(k : Int), (p : Int)] (some ix[k])
  | .flatcoo f, p, ix => p < f.findices.size ∧ InBox ix f.shape ∧
    Reads (.buffer f.findices) f.fmem [(p : Int)] (some (rowMajor ix f.shape 0))
  | .csr c, p, ix => p < c.col.size ∧ InBox ix c.shape ∧ ∃ r k lo hi : Int, ix = [r, k] ∧
    Reads (.buffer c.crow) c.crowMem [r] (some lo) ∧ Reads (.buffer c.crow) c.crowMem [r + 1] (some hi) ∧
    lo ≤ p ∧ p < hi ∧ Reads (.buffer c.col) c.colMem [(p : Int)] (some k)
  | _, _, _ => False

/-- There is a stored index for each of the `n` values and no other; each is inside the box; and they increase
lexicographically, so no two are equal. -/
def GoodIndices (s : Storage V) (n : Nat) : Prop :=
  (∀ p, p < n → ∃ ix, NthStored s p ix) ∧
  (∀ p ix, NthStored s p ix → p < n ∧ InBox ix s.shape) ∧
  (∀ p ix jx, NthStored s p ix → NthStored s p jx → ix = jx) ∧
  ∀ p q ix jx, p < q → NthStored s p ix → NthStored s q jx → lexLt ix jx

/-- The index arrays of a `COO`, a `FlatCOO`, a `CSR`, and of the storage in a `DM`. -/
def GoodStorage : Storage V → Prop
  | .buffer _ | .strided _ => True
  | .coo c => GoodIndices (.coo c) c.data.size
  | .flatcoo f => GoodIndices (.flatcoo f) f.data.size
  | .csr c => GoodIndices (.csr c) c.data.size
  | .dm _ d => GoodStorage d

/-- The last pair of `d` with key `k` has the value `v`: `v` is what a dictionary filled from `d` has for `k`. -/
def LastValue {K : Type} (d : List (K × V)) (k : K) (v : V) : Prop :=
  ∃ pre post, d = pre ++ (k, v) :: post ∧ ∀ w, (k, w) ∉ post

/-- `s[index]` is the object `r`, on a list with the contents `m` (the list of `s` if `r` is a view). -/
def Gives [DecidableEq V] (s : Storage V) (mem : List V) (index : Index) (r : Storage V) (m : List V) : Prop :=
  (s.getItem mem index = .ok (.view r) ∧ m = mem) ∨ s.getItem mem index = .ok (.fresh r m)

/-- `s[index]` is the selection: if the index has an int on every axis it is the element of `s` there,
and otherwise it is an object `r` with the shape of the selection, the same unspecified value, and at
each index `j` the element of `s` selected for `j`.  `P` is what else holds of `r` and its list. -/
def Selects [DecidableEq V] (s : Storage V) (mem : List V) (index : Index) (P : Storage V → List V → Prop) : Prop :=
  (selShape (items index) s.shape = [] →
    ∃ v, s.getItem mem index = .ok (.val v) ∧ Reads s mem (selSource (items index) s.shape []) v) ∧
  (selShape (items index) s.shape ≠ [] →
    ∃ r m, Gives s mem index r m ∧ P r m ∧ r.shape = selShape (items index) s.shape ∧ r.unspec = s.unspec ∧
      ∀ j, InBox j r.shape → ∃ v, Reads s mem (selSource (items index) s.shape j) v ∧ Reads r m j v)

/-- `s[i1][i2]...[ik]` is `r` on a list with the contents `m`. -/
def ChainGives [DecidableEq V] : Storage V → List V → List Index → Storage V → List V → Prop
  | s, mem, [], r, m => r = s ∧ m = mem
  | s, mem, i :: is, r, m => ∃ t mt, Gives s mem i t mt ∧ ChainGives t mt is r m

/-- Each index of the chain is valid for an array without empty axes, and keeps an axis. -/
def ChainOk : List (List Ix) → List Nat → Prop
  | [], _ => True
  | is :: rest, shape => (∀ n ∈ shape, 0 < n) ∧ ValidItems is shape ∧ selShape is shape ≠ [] ∧
    ChainOk rest (selShape is shape)

/-- The cell `c` of the list lies in the window of the `Buffer` that holds the values of `s`. -/
def InWindow : Storage V → Nat → Prop
  | .buffer b, c => b.offset ≤ c ∧ c < b.offset + b.size
  | .strided s, c => s.data.offset ≤ c ∧ c < s.data.offset + s.data.size
  | .coo s, c => s.data.offset ≤ c ∧ c < s.data.offset + s.data.size
  | .flatcoo s, c => s.data.offset ≤ c ∧ c < s.data.offset + s.data.size
  | .csr s, c => s.data.offset ≤ c ∧ c < s.data.offset + s.data.size
  | .dm _ s, c => InWindow s c

/-- No element of a `Strided` lies before the window of its `Buffer`, also for the index array of a `COO` and the
storage in a `DM`.  (A slice with a negative step makes a `Strided` that starts at its last element in the list.) -/
def NoneBefore : Storage V → Prop
  | .strided s => ∀ ix, InBox ix s.shape → 0 ≤ address ix s.strides
  | .coo c => ∀ ix, InBox ix c.indices.shape → 0 ≤ address ix c.indices.strides
  | .dm _ d => NoneBefore d
  | _ => True

/-- Different indices have different addresses. -/
def DistinctAddresses (shape : List Nat) (strides : List Int) : Prop :=
  ∀ ix jx, InBox ix shape → InBox jx shape → address ix strides = address jx strides → ix = jx

/-- Different indices of a `DM` have different addresses in at least one group of its axes. -/
def DistinctGroups (m : DMMeta) : Prop :=
  ∀ ix jx, InBox ix m.shape → InBox jx m.shape →
    (∀ (k : Nat) dims st, m.rdims[k]? = some dims → m.rstrides[k]? = some st →
      address (dims.map fun d => ix.getD d 0) st = address (dims.map fun d => jx.getD d 0) st) → ix = jx

/-- The index of the wrapped storage that holds the element of a `DM` at `ix`: for each group of axes, the offset
plus the address of the indices on these axes. -/
def target : List (List Nat) → List (List Int) → List Int → List Int → List Int
  | dims :: rdims, st :: rstrides, off :: roffset, ix =>
    (off + address (dims.map fun d => ix.getD d 0) st) :: target rdims rstrides roffset ix
  | _, _, _, _ => []

/-- As `target`, but for a group with only axes that are `fixed` the offset is left out, and the address is taken
modulo the size of the axis of the wrapped storage, whose shape is `inner`. -/
def forgetful (fixed : Nat → Bool) : List (List Nat) → List (List Int) → List Int → List Nat → List Int → List Int
  | dims :: rdims, st :: rstrides, off :: roffset, n :: inner, ix =>
    (if dims.all fixed then address (dims.map fun d => ix.getD d 0) st % (n : Int)
      else off + address (dims.map fun d => ix.getD d 0) st) :: forgetful fixed rdims rstrides roffset inner ix
  | _, _, _, _, _ => []

/-- What `s[i1][i2]` reads of the storage wrapped in the `DM` `s`: `fixed1 a` says that `i1` has an int on the axis
`a`, `fixed2 a` that `i2` has an int on the axis that `a` has become, `x` is the index in `s` that is meant, and
`x0` is the index in `s` of the first element of `s[i1]`. -/
def forgetful2 (fixed1 fixed2 : Nat → Bool) :
    List (List Nat) → List (List Int) → List Int → List Nat → List Int → List Int → List Int
  | dims :: rdims, st :: rstrides, off :: roffset, n :: inner, x, x0 =>
    (if dims.all fixed1 then address (dims.map fun d => x.getD d 0) st % (n : Int)
      else if dims.all fun a => fixed1 a || fixed2 a then
        (address (dims.map fun d => x.getD d 0) st - address (dims.map fun d => x0.getD d 0) st) % (n : Int)
      else off + address (dims.map fun d => x.getD d 0) st)
      :: forgetful2 fixed1 fixed2 rdims rstrides roffset inner x x0
  | _, _, _, _, _, _ => []

/-- The element of a dense storage at `ix` is in the cell `c` of the list. -/
def InCell : Storage V → List Int → Int → Prop
  | .buffer b, [i], c => c = b.offset + i
  | .strided s, ix, c => c = s.data.offset + address ix s.strides
  | .dm m d, ix, c => InCell d (target m.rdims m.rstrides m.roffset ix) c
  | _, _, _ => False

/-- A dense storage whose elements are all in different cells of the list. -/
def DistinctCells : Storage V → Prop
  | .buffer _ => True
  | .strided s => DistinctAddresses s.shape s.strides
  | .dm m d => DistinctGroups m ∧ DistinctCells d
  | _ => False

/-- `ix` is one of the selected indices. -/
def Selected (is : List Ix) (shape : List Nat) (ix : List Int) : Prop :=
  ∃ j, InBox j (selShape is shape) ∧ selSource is shape j = ix

/-- The new contents `mem'` of the list of `s` result from `s[index] = value`, where `value j v` says that
the value has the item `v` at `j`: the selected elements have the items of the value, the other elements
of `s` are as before. -/
def Assigned [DecidableEq V] (s : Storage V) (mem mem' : List V) (index : Index) (value : List Int → V → Prop) : Prop :=
  (∀ j v, InBox j (selShape (items index) s.shape) → value j v →
    Reads s mem' (selSource (items index) s.shape j) v) ∧
  ∀ ix v, InBox ix s.shape → ¬ Selected (items index) s.shape ix → Reads s mem ix v → Reads s mem' ix v

/-- The pieces `l[lo:p1]`, `l[p1:p2]`, ..., `l[pk:]` of a list. -/
def cutAt {α : Type} (l : List α) : Nat → List Nat → List (List α)
  | lo, [] => [l.drop lo]
  | lo, p :: ps => (l.take p).drop lo :: cutAt l p ps

/-- The sizes of groups of axes. -/
def groupSizes (shape : List Nat) (groups : List (List Nat)) : List Nat :=
  groups.map fun g => count (g.map fun d => shape.getD d 0)

end Gcs.Spec
