/-
Model of the assignment loop with generators: `slice_indices_and_data_position` and
`indices_and_data_position` are Python generators, so the search for the positions and the writes
alternate.  `Storage.setItem` (Model/Storage.lean) finds all positions first; here they are found one
at a time, as in the code.
-/
import Verif.Model.Storage

namespace Gcs

variable {V : Type}

/-- A generator, as the outcomes of the successive calls of `next`: a yielded item, or an exception.
A consumer stops at the first exception, so what follows one is of no importance. -/
abbrev Gen (E : Type) := List (PyM E)

/-- Code that runs at the first `next`, before the loop of the generator. -/
def Gen.after {B E : Type} (x : PyM B) (f : B → Gen E) : Gen E :=
  match x with
  | .error e => [.error e]
  | .ok b => f b

/-- `COO.indices_and_data_position`: gcs/storage.py:713-716. -/
def COO.gen (c : COO V) : Gen (List Int × Int) :=
  (List.range c.size).map fun (p : Nat) => do
    let ix ← (List.range (c.indices.shape.getD 0 0)).mapM fun (j : Nat) => readIndex c.indices c.imem j p
    return (ix, (p : Int))

/-- `FlatCOO.indices_and_data_position`: gcs/storage.py:792-798. -/
def FlatCOO.gen (f : FlatCOO V) : Gen (List Int × Int) :=
  Gen.after (initDiophantine (makeStrides f.shape) (some f.shape)) fun data =>
    (List.range f.findices.size).map fun (p : Nat) => do
      let findex ← readBuf f.findices f.fmem p
      match ← solveIndexData findex f.shape data with
      | some ix => return (ix, (p : Int))
      | none => .error .type

/-- One turn of the outer loop of `CSR.indices_and_data_position`: gcs/storage.py:864-866. -/
def CSR.genRow (c : CSR V) (row : Nat) : Gen (List Int × Int) :=
  Gen.after (do
      let lo ← readBuf c.crow c.crowMem row
      let hi ← readBuf c.crow c.crowMem ((row : Int) + 1)
      return (lo, hi)) fun b =>
    (List.range (b.2 - b.1).toNat).map fun (q : Nat) => do
      let p := b.1 + q
      let col ← readBuf c.col c.colMem p
      return ([(row : Int), col], p)

/-- `CSR.indices_and_data_position`: gcs/storage.py:862-866. -/
def CSR.gen (c : CSR V) : Gen (List Int × Int) :=
  (List.range (c.shape.getD 0 0)).flatMap c.genRow

/-- `DM.indices_and_data_position`: gcs/storage.py:1072-1078. -/
def DMMeta.gen (m : DMMeta) : Gen (List Int × List Int) :=
  (indexProduct m.shape).map fun ix => do
    let r ← m.getDataPosition ix
    return (ix, r)

/-- `Storage.slice_indices_and_data_position(shape, strides, offset)` with `sort=False`:
gcs/storage.py:393-403.  `none` stands for an element that is not in the slice and is passed over. -/
def sliceGen {P : Type} (entries : Gen (List Int × P)) (selfShape : List Nat) (shape : List Nat)
    (strides : List Int) (offset : Int) : Gen (Option (List Int × P)) :=
  Gen.after (initDiophantine strides (some shape)) fun data =>
    entries.map fun e => do
      let e ← e
      let p ← getPosition e.1 selfShape (makeStrides selfShape)
      let r ← solveIndexData (p - offset) shape data
      return r.map fun ix => (ix, e.2)

/-- `Strided.slice_indices_and_data_position(shape, strides, offset)`: gcs/storage.py:642-646. -/
def Strided.sliceGen (shape : List Nat) (strides : List Int) (offset : Int) :
    Gen (Option (List Int × Int)) :=
  (indexProduct shape).map fun ix => do
    let p ← getPosition ix shape strides
    return some (ix, offset + p)

/-- `for value_index, data_pos in …: self.data[data_pos] = get_value(value, value_index)`:
gcs/storage.py:353-354. -/
def writeGen {P : Type} (write1 : List V → P → V → Wr V) (valueAt : List V → List Int → PyM V) :
    Gen (Option (List Int × P)) → List V → Wr V
  | [], mem => ⟨mem, none⟩
  | .error e :: _, mem => ⟨mem, some e⟩
  | .ok none :: rest, mem => writeGen write1 valueAt rest mem
  | .ok (some (vi, p)) :: rest, mem =>
    match valueAt mem vi with
    | .error e => ⟨mem, some e⟩
    | .ok v =>
      let w := write1 mem p v
      match w.err with
      | some e => ⟨w.mem, some e⟩
      | none => writeGen write1 valueAt rest w.mem

/-- `Storage.__setitem__`: gcs/storage.py:350-354.  `gen shape strides offset` is
`self.slice_indices_and_data_position(shape, strides, offset)`. -/
def setLoop {P : Type} (selfShape : List Nat) (selfStrides : List Int)
    (gen : List Nat → List Int → Int → Gen (Option (List Int × P))) (write1 : List V → P → V → Wr V)
    (valueAt : List V → List Int → PyM V) (index : Index) (mem : List V) : Wr V :=
  match normalizeIndex index selfShape with
  | .error e => ⟨mem, some e⟩
  | .ok nix =>
    match indexStrided nix selfShape selfStrides with
    | .error e => ⟨mem, some e⟩
    | .ok (shape, strides, offset) => writeGen write1 valueAt (gen shape strides offset) mem

/-- `self[index] = value`: gcs/storage.py:350-354 and the override 582-586 (`Buffer`). -/
def Storage.setItemLazy : Storage V → List V → Index → (List V → List Int → PyM V) → Wr V
  | buffer b, mem, index, valueAt => (Storage.buffer b).setItem mem index valueAt
  | strided s, mem, index, valueAt =>
    setLoop s.shape s.strides Strided.sliceGen s.data.write1 valueAt index mem
  | coo c, mem, index, valueAt =>
    setLoop c.shape (makeStrides c.shape) (sliceGen c.gen c.shape) c.data.write1 valueAt index mem
  | flatcoo f, mem, index, valueAt =>
    setLoop f.shape (makeStrides f.shape) (sliceGen f.gen f.shape) f.data.write1 valueAt index mem
  | csr c, mem, index, valueAt =>
    setLoop c.shape (makeStrides c.shape) (sliceGen c.gen c.shape) c.data.write1 valueAt index mem
  | dm m data, mem, index, valueAt =>
    setLoop m.shape (makeStrides m.shape) (sliceGen m.gen m.shape)
      (fun mem rindex v => setItemLazy data mem (.tuple (rindex.map .int)) (fun _ _ => .ok v))
      valueAt index mem

end Gcs
