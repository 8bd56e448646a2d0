import Verif.Model.Storage

/-!
# `==` of values as a parameter

Model/Storage.lean takes Python's `==` of values to be equality.  It is not for NaN (`nan == nan` is false) and for values of
different types (`0 == 0.0 == False`).  Here the functions of gcs/storage.py that compare values are written once more, with
any relation `E` in the place of `==`; equality of the values of the model stands for identity of Python objects.  Index arrays
hold ints and `None`, for which `==` is equality.
-/

namespace Gcs

variable {V : Type}

/-- `l == l'` for lists: as many items, and each two are the same object or `==` (library reference, comparisons). -/
def listEqE [DecidableEq V] (E : V → V → Bool) : List V → List V → Bool
  | [], [] => true
  | x :: l, y :: l' => (x = y || E x y) && listEqE E l l'
  | _, _ => false

/-- `Buffer.copy(unspecified)`: gcs/storage.py:511-525; `none` is `DEFAULT`. -/
def Buffer.copyE (E : V → V → Bool) (b : Buffer V) (mem : List V) (unspec : Option V) : Buffer V × List V :=
  let u := unspec.getD b.unspec
  let data :=
    if E u b.unspec then b.window mem
    else (b.window mem).map fun v => if E v b.unspec then u else v
  (⟨data.length, 0, u⟩, data)

/-- `Buffer.__eq__`: gcs/storage.py:538-545. -/
def Buffer.eqE [DecidableEq V] (E : V → V → Bool) (b : Buffer V) (mem : List V) (b' : Buffer V) (mem' : List V) : Bool :=
  b.size = b'.size && listEqE E (b.window mem) (b'.window mem') && E b.unspec b'.unspec

/-- The loop of `Strided.copy`: gcs/storage.py:631-634. -/
def Strided.copyLoopE (E : V → V → Bool) (result : Strided V) (old u : V) : List (List Int × V) → List V → PyM (List V)
  | [], mem => return mem
  | (ix, v) :: rest, mem =>
    let v := if E v old then u else v
    let w := result.setItem mem (.tuple (ix.map .int)) (fun _ _ => .ok v)
    match w.err with
    | some e => .error e
    | none => copyLoopE E result old u rest w.mem

/-- `Strided.copy(unspecified)`: gcs/storage.py:624-635. -/
def Strided.copyE (E : V → V → Bool) (s : Strided V) (mem : List V) (unspec : Option V) : PyM (Strided V × List V) := do
  let u := unspec.getD s.data.unspec
  let size := product s.shape
  let mem0 := List.replicate size u
  let data ← Buffer.new size 0 mem0 u
  let result ← Strided.new s.shape (makeStrides s.shape) data
  let es ← s.elements mem
  let mem' ← Strided.copyLoopE E result s.data.unspec u es mem0
  return (result, mem')

/-- The loop of `Buffer.fromobject`: gcs/storage.py:472-478. -/
def bufferBuildE (E : V → V → Bool) (shape : List Nat) (value : List Int → PyM V) (su u : V) : PyM (Buffer V × List V) := do
  let values ← (indexProduct shape).mapM fun ix => do
    let v ← value ix
    return if E v su then u else v
  let b ← Buffer.new values.length 0 values u
  return (b, values)

/-- `Strided.fromobject`, after the identity shortcut: gcs/storage.py:607-611. -/
def stridedBuildE (E : V → V → Bool) (shape : List Nat) (value : List Int → PyM V) (su u : V) : PyM (Strided V × List V) := do
  let (b, mem) ← bufferBuildE E shape value su u
  let s ← Strided.new shape (makeStrides shape) b
  return (s, mem)

/-- The general branch of `COO.fromobject`: gcs/storage.py:685-698. -/
def cooBuildE (E : V → V → Bool) (shape : List Nat) (value : List Int → PyM V) (su u : V) : PyM (COO V × List V) := do
  let found ← (indexProduct shape).mapM fun ix => do
    let v ← value ix
    return (ix, if E v su then u else v)
  let kept := found.filter fun e => !E e.2 u
  let values := kept.map (·.2)
  let data ← Buffer.new values.length 0 values u
  let (indices, imem) ← Strided.ofNested (nestedRows (columns shape.length (kept.map (·.1))))
  let c ← COO.new shape indices imem data
  return (c, values)

/-- The general branch of `FlatCOO.fromobject`: gcs/storage.py:763-777. -/
def flatBuildE (E : V → V → Bool) (shape : List Nat) (value : List Int → PyM V) (su u : V) : PyM (FlatCOO V × List V) := do
  let found ← (indexProduct shape).mapM fun ix => do
    let v ← value ix
    return (ix, if E v su then u else v)
  let kept := found.filter fun e => !E e.2 u
  let values := kept.map (·.2)
  let fis ← kept.mapM fun e => getPosition e.1 shape (makeStrides shape)
  let data ← Buffer.new values.length 0 values u
  let (findices, fmem) ← rawIntBuffer fis
  let f ← FlatCOO.new shape findices fmem data
  return (f, values)

/-- The COO branch of `CSR.fromobject`: gcs/storage.py:824-828. -/
def cooToCsrE (E : V → V → Bool) (c : COO V) (mem : List V) : PyM (CSR V × List V) := do
  let row0 ← c.indices.getView c.imem (.one (.int 0))
  let n0 ← pyGet c.shape 0
  let len ← pyGet row0.shape 0
  let rows ← (List.range len).mapM fun (i : Nat) => do
    asInt (← row0.getScalar c.imem (.one (.int i)))
  let compressed ← compressIndices rows n0
  let (crow, crowMem) ← intBuffer compressed
  let row1 ← c.indices.getView c.imem (.one (.int 1))
  let (row1c, row1mem) ← row1.copy c.imem none
  let (col, colMem) ← bufferBuild row1c.shape (fun ix => row1c.getScalar row1mem (.tuple (ix.map .int)))
    row1c.data.unspec row1c.data.unspec
  let (data, mem') := c.data.copyE E mem none
  let r ← CSR.new c.shape crow crowMem col colMem data
  return (r, mem')

/-- The general branch of `CSR.fromobject`: gcs/storage.py:830-831. -/
def csrBuildE (E : V → V → Bool) (shape : List Nat) (value : List Int → PyM V) (su u : V) : PyM (CSR V × List V) := do
  let (c, mem) ← cooBuildE E shape value su u
  cooToCsrE E c mem

/-- The one-dimensional branch of `CSR.get_slice`: gcs/storage.py:872-873. -/
def CSR.getSlice1E (E : V → V → Bool) (c : CSR V) (mem : List V) (shape : List Nat) (strides : List Int) (offset : Int) :
    PyM (COO V × List V) := do
  let (coo, cmem) ← cooBuildE E c.shape (c.getElem mem) c.data.unspec c.data.unspec
  coo.getSlice cmem shape strides offset

namespace Storage

/-- `self[index]`: gcs/storage.py:362-370, 553-580 (`Buffer`), 1083-1126 (`DM`).  Only slices of a `CSR` with one axis compare
values. -/
def getItemE (E : V → V → Bool) : Storage V → List V → Index → PyM (Res V)
  | buffer b, mem, index => bufferGetItem b mem index
  | strided s, mem, index => do
    match ← s.getItem mem index with
    | .inl v => return .val v
    | .inr r => return .view (.strided r)
  | coo c, mem, index => do
    let nix ← normalizeIndex index c.shape
    match elementIndex nix with
    | some ix => return .val (← readAt c.data mem (← c.getDataPosition ix))
    | none =>
      let (shape, strides, offset) ← indexStrided nix c.shape (makeStrides c.shape)
      let (r, m) ← c.getSlice mem shape strides offset
      return .fresh (.coo r) m
  | flatcoo f, mem, index => do
    let nix ← normalizeIndex index f.shape
    match elementIndex nix with
    | some ix => return .val (← readAt f.data mem (← f.getDataPosition ix))
    | none =>
      let (shape, strides, offset) ← indexStrided nix f.shape (makeStrides f.shape)
      let (r, m) ← f.getSlice mem shape strides offset
      return .fresh (.flatcoo r) m
  | csr c, mem, index => do
    let nix ← normalizeIndex index c.shape
    match elementIndex nix with
    | some ix => return .val (← readAt c.data mem (← c.getDataPosition ix))
    | none =>
      let (shape, strides, offset) ← indexStrided nix c.shape (makeStrides c.shape)
      if shape.length = 1 then
        let (r, m) ← c.getSlice1E E mem shape strides offset
        return .fresh (.coo r) m
      else
        let (r, m) ← c.getSlice2 mem shape strides offset
        return .fresh (.csr r) m
  | dm m data, mem, index => do
    let nix ← normalizeIndex index m.shape
    match elementIndex nix with
    | some ix =>
      let rindex ← m.getDataPosition ix
      getItemE E data mem (.tuple (rindex.map .int))
    | none =>
      let gshape ← shapeStrided nix m.shape
      let (rdims, rstrides, roffset, dindex) ←
        dmSliceLoop nix m.rdims m.rshapes m.rstrides m.roffset
      let r ← if dindex.isEmpty then pure (Res.view data) else getItemE E data mem (.tuple dindex)
      let m' ← DMMeta.new gshape rdims rstrides roffset
      match r with
      | .val _ => .error .assertion
      | .view s => return .view (.dm m' s)
      | .fresh s fm => return .fresh (.dm m' s) fm

/-- `self[index]` where the caller uses the result as a value. -/
def getValE (E : V → V → Bool) (s : Storage V) (mem : List V) (ix : List Int) : PyM V := do
  match ← s.getItemE E mem (.tuple (ix.map .int)) with
  | .val v => return v
  | _ => .error .type

/-- `list(self.elements())`: gcs/storage.py:405-409. -/
def elementsE (E : V → V → Bool) : Storage V → List V → PyM (List (Key × V))
  | buffer b, mem => b.entries.mapM fun e => do
    let v ← pyGet mem e.2
    return (.int e.1, v)
  | strided s, mem => do
    let es ← s.elements mem
    return es.map fun e => (.tuple e.1, e.2)
  | coo c, mem => do
    let es ← c.entries
    es.mapM fun e => do return (.tuple e.1, ← c.data.getInt mem e.2)
  | flatcoo f, mem => do
    let es ← f.entries
    es.mapM fun e => do return (.tuple e.1, ← f.data.getInt mem e.2)
  | csr c, mem => do
    let es ← c.entries
    es.mapM fun e => do return (.tuple e.1, ← c.data.getInt mem e.2)
  | dm m data, mem => do
    let es ← m.entries
    es.mapM fun e => do return (.tuple e.1, ← data.getValE E mem e.2)

/-- `self.copy(unspecified)`: gcs/storage.py:313-318, 511-525 (`Buffer`), 624-635 (`Strided`). -/
def copyE (E : V → V → Bool) : Storage V → List V → Option V → PyM (Storage V × List V)
  | buffer b, mem, u =>
    let r := b.copyE E mem u
    return (buffer r.1, r.2)
  | strided s, mem, u => do
    let (r, m) ← s.copyE E mem u
    return (strided r, m)
  | coo c, mem, u => do
    let r := c.data.copyE E mem u
    let c' ← COO.new c.shape c.indices c.imem r.1
    return (coo c', r.2)
  | flatcoo f, mem, u => do
    let r := f.data.copyE E mem u
    let f' ← FlatCOO.new f.shape f.findices f.fmem r.1
    return (flatcoo f', r.2)
  | csr c, mem, u => do
    let r := c.data.copyE E mem u
    let c' ← CSR.new c.shape c.crow c.crowMem c.col c.colMem r.1
    return (csr c', r.2)
  | dm m data, mem, u => do
    let (d', mem') ← data.copyE E mem u
    let m' ← DMMeta.new m.shape m.rdims m.rstrides m.roffset
    return (dm m' d', mem')

/-- `self == other` for two objects that have no `Buffer` object in common: gcs/storage.py:294-297, 538-545.  (Tuples compare
a common `Buffer` object by identity, as do `Storage.__eq__` for one object; `Buffer.__eq__` does not.) -/
def eqE [DecidableEq V] (E : V → V → Bool) : Storage V → List V → Storage V → List V → Bool
  | buffer b, mem, buffer b', mem' => b.eqE E mem b' mem'
  | strided s, mem, strided s', mem' =>
    s.shape = s'.shape && s.strides = s'.strides && s.data.eqE E mem s'.data mem'
  | coo c, mem, coo c', mem' =>
    c.shape = c'.shape && c.indices.eq c.imem c'.indices c'.imem && c.data.eqE E mem c'.data mem'
  | flatcoo f, mem, flatcoo f', mem' =>
    f.shape = f'.shape && f.findices.eq f.fmem f'.findices f'.fmem && f.data.eqE E mem f'.data mem'
  | csr c, mem, csr c', mem' =>
    c.shape = c'.shape && c.crow.eq c.crowMem c'.crow c'.crowMem && c.col.eq c.colMem c'.col c'.colMem
      && c.data.eqE E mem c'.data mem'
  | dm m data, mem, dm m' data', mem' =>
    m.shape = m'.shape && m.rdims = m'.rdims && m.rstrides = m'.rstrides && m.roffset = m'.roffset
      && eqE E data mem data' mem'
  | _, _, _, _ => false

/-- `x == y` of two items of dictionaries, `none` for a missing key: the same object or `==`. -/
def itemEqE [DecidableEq V] (E : V → V → Bool) : Option V → Option V → Bool
  | some x, some y => x = y || E x y
  | none, none => true
  | _, _ => false

/-- Python `d1 == d2` for two dictionaries with values. -/
def dictEqE {K : Type} [DecidableEq K] [DecidableEq V] (E : V → V → Bool) (l1 l2 : List (K × V)) : Bool :=
  l1.all (fun e => itemEqE E (dictGet l1 e.1) (dictGet l2 e.1)) && l2.all (fun e => (dictGet l1 e.1).isSome)

/-- `self.equal(other)` for a storage `other`: gcs/storage.py:331-348.  (`d1 != d2` of line 344 only prints.) -/
def equalE [DecidableEq V] (E : V → V → Bool) (s : Storage V) (mem : List V) (t : Storage V) (mem' : List V) : PyM Bool := do
  let d1 ← s.elementsE E mem
  let d2 ← t.elementsE E mem'
  return dictEqE E d1 d2

end Storage

/-- `get_value(seq, index)`: gcs/storage.py:83-94. -/
def Src.getValueE (E : V → V → Bool) : Src V → List Int → PyM V
  | .nested n, ix => n.getValue ix
  | .store _ _, [] => .error .type
  | .store s mem, i :: ix => s.getValE E mem (i :: ix)

/-- The general branch of `fromobject` of the classes other than `DM`. -/
def buildFlatE (E : V → V → Bool) (cls : Cls) (shape : List Nat) (value : List Int → PyM V) (su u : V) :
    PyM (Storage V × List V) :=
  match cls with
  | .buffer => do let r ← bufferBuildE E shape value su u; return (.buffer r.1, r.2)
  | .strided => do let r ← stridedBuildE E shape value su u; return (.strided r.1, r.2)
  | .coo => do let r ← cooBuildE E shape value su u; return (.coo r.1, r.2)
  | .flatcoo => do let r ← flatBuildE E shape value su u; return (.flatcoo r.1, r.2)
  | .csr => do let r ← csrBuildE E shape value su u; return (.csr r.1, r.2)
  | .dm => .error .type

/-- `DM.fromobject` with a storage class: gcs/storage.py:981-1043 (`dmBuild` with `E`). -/
def dmBuildE (E : V → V → Bool) (cls : Cls) (shape : List Nat) (dimensions partitioning : Option (List Nat))
    (value : List Int → PyM V) (su u : V) : PyM (Storage V × List V) :=
  match cls with
  | .dm =>
    dmBuildWith (fun rshape value' =>
        dmBuildWith (fun rshape' value'' => buildFlatE E .strided rshape' value'' su u) false rshape none
          none value')
      false shape dimensions partitioning value
  | c =>
    dmBuildWith (fun rshape value' => buildFlatE E c rshape value' su u) (c = .buffer) shape dimensions
      partitioning value

/-- `FlatCOO` to `COO`: gcs/storage.py:663-673. -/
def flatToCooE (E : V → V → Bool) (f : FlatCOO V) (mem : List V) : PyM (COO V × List V) := do
  let data ← initDiophantine (makeStrides f.shape) (some f.shape)
  let ixs ← (List.range f.findices.size).mapM fun (p : Nat) => do
    let findex ← asInt (← pyGet f.fmem ((f.findices.offset : Int) + p))
    match ← solveIndexData findex f.shape data with
    | some ix => return ix
    | none => .error .type
  let (indices, imem) ← Strided.ofNested (nestedRows (columns f.shape.length ixs))
  let (d, mem') := f.data.copyE E mem none
  let c ← COO.new f.shape indices imem d
  return (c, mem')

/-- `COO` to `FlatCOO`: gcs/storage.py:745-751. -/
def cooToFlatE (E : V → V → Bool) (c : COO V) (mem : List V) : PyM (FlatCOO V × List V) := do
  let es ← c.entries
  let fis ← es.mapM fun e => getPosition e.1 c.shape (makeStrides c.shape)
  let (findices, fmem) ← rawIntBuffer fis
  let (d, mem') := c.data.copyE E mem none
  let f ← FlatCOO.new c.shape findices fmem d
  return (f, mem')

/-- `cls.fromobject(seq, unspecified=unspecified)`: gcs/storage.py:457-478 (`Buffer`), 602-611 (`Strided`), 658-698 (`COO`),
740-777 (`FlatCOO`), 822-831 (`CSR`), 959-1043 (`DM`). -/
def fromObjectE [HasNone V] (E : V → V → Bool) (cls : Cls) (seq : Src V) (unspec : Option V) : PyM (Made V) :=
  let su := seq.unspec
  let u := unspec.getD su
  let general : PyM (Made V) := do
    let (s, mem) ← match cls with
      | .dm => dmBuildE E .strided seq.shape none none (seq.getValueE E) su u
      | c => buildFlatE E c seq.shape (seq.getValueE E) su u
    return .fresh s mem
  match unspec with
  | some _ => general
  | none =>
    match cls, seq with
    | .buffer, .store (.buffer _) _ => .ok .same
    | .strided, .store (.strided _) _ => .ok .same
    | .coo, .store (.coo _) _ => .ok .same
    | .flatcoo, .store (.flatcoo _) _ => .ok .same
    | .coo, .store (.flatcoo f) mem => do
      let (c, m) ← flatToCooE E f mem
      return .fresh (.coo c) m
    | .flatcoo, .store (.coo c) mem => do
      let (f, m) ← cooToFlatE E c mem
      return .fresh (.flatcoo f) m
    | .csr, .store (.coo c) mem => do
      let (r, m) ← cooToCsrE E c mem
      return .fresh (.csr r) m
    | .csr, .store (.flatcoo f) mem => do
      let (c, m) ← flatToCooE E f mem
      let (r, m') ← cooToCsrE E c m
      return .fresh (.csr r) m'
    | _, _ => general

/-- `self.as_DM(...)` and `DM.fromobject(...)`: gcs/storage.py:445-449, 959-1043. -/
def fromObjectDME [HasNone V] (E : V → V → Bool) (seq : Src V) (dimensions partitioning : Option (List Nat)) (cls : Cls)
    (unspec : Option V) : PyM (Storage V × List V) :=
  dmBuildE E cls seq.shape dimensions partitioning (seq.getValueE E) seq.unspec (unspec.getD seq.unspec)

end Gcs
