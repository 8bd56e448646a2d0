import Verif.Model.Storage

/-!
# The project's own tests, run on the model

The assertions of gcs/tests/test_storage.py, in the same order, evaluated by the kernel on the model.  The tests with
many parameters are included for the small shapes.  These are not proofs of properties; they check the reading of the code by the
model against results that the authors of the code expect.  `check` is numbered with the line of the assertion.
-/

namespace Gcs.Conformance

/-- Values of the tests: ints and `None`. -/
abbrev V := Option Int

/-- An object with the contents of its list. -/
structure Obj where
  s : Storage V
  m : List V

/-- `cls.fromobject(seq, unspecified=u)`. -/
def from_ (c : Cls) (n : Nested V) (u : Option V) : PyM Obj := do
  match ← fromObject c (.nested n) u with
  | .fresh s m => return ⟨s, m⟩
  | .same => .error .type

def mkBuffer (size offset : Nat) (m : List V) : PyM Obj := do
  let b ← Buffer.new size offset m none
  return ⟨.buffer b, m⟩

def mkStrided (shape : List Nat) (strides : List Int) (d : PyM Obj) : PyM Obj := do
  match ← d with
  | ⟨.buffer b, m⟩ => do
    let s ← Strided.new shape strides b
    return ⟨.strided s, m⟩
  | _ => .error .type

def mkCOO (shape : List Nat) (i d : PyM Obj) : PyM Obj := do
  match ← i, ← d with
  | ⟨.strided i, im⟩, ⟨.buffer b, m⟩ => do
    let c ← COO.new shape i im b
    return ⟨.coo c, m⟩
  | _, _ => .error .type

def mkFlatCOO (shape : List Nat) (i d : PyM Obj) : PyM Obj := do
  match ← i, ← d with
  | ⟨.buffer i, im⟩, ⟨.buffer b, m⟩ => do
    let c ← FlatCOO.new shape i im b
    return ⟨.flatcoo c, m⟩
  | _, _ => .error .type

def mkCSR (shape : List Nat) (i j d : PyM Obj) : PyM Obj := do
  match ← i, ← j, ← d with
  | ⟨.buffer i, im⟩, ⟨.buffer j, jm⟩, ⟨.buffer b, m⟩ => do
    let c ← CSR.new shape i im j jm b
    return ⟨.csr c, m⟩
  | _, _, _ => .error .type

/-- `o[index]`, an object. -/
def Obj.sub (o : Obj) (ix : Index) : PyM Obj := do
  match ← o.s.getItem o.m ix with
  | .val _ => .error .type
  | .view s => return ⟨s, o.m⟩
  | .fresh s m => return ⟨s, m⟩

/-- `o[index]`, a value. -/
def Obj.val (o : Obj) (ix : Index) : PyM V := do
  match ← o.s.getItem o.m ix with
  | .val v => return v
  | _ => .error .type

/-- `o.equal(list)`. -/
def Obj.eqL (o : Obj) (n : Nested V) : PyM Bool := o.s.equalNested o.m n
/-- `o.equal(p)`. -/
def Obj.equal (o p : Obj) : PyM Bool := o.s.equal o.m p.s p.m
/-- `o == p`. -/
def Obj.eq (o p : Obj) : Bool := o.s.eq o.m p.s p.m
/-- `list(o.elements())`. -/
def Obj.els (o : Obj) : PyM (List (Storage.Key × V)) := o.s.elements o.m

/-- `o[index] = value`. -/
def Obj.set (o : Obj) (ix : Index) (n : Nested V) : PyM Obj :=
  let w := o.s.assign o.m ix n
  match w.err with
  | none => .ok ⟨o.s, w.mem⟩
  | some e => .error e

def Obj.conv (o : Obj) (c : Cls) (u : Option V) : PyM Obj := do
  let (s, m) ← o.s.convert o.m c u
  return ⟨s, m⟩

def Obj.asDM (o : Obj) (c : Cls) : PyM Obj := do
  let (s, m) ← fromObjectDM (.store o.s o.m) none none c none
  return ⟨s, m⟩

def Obj.copy (o : Obj) (u : Option V) : PyM Obj := do
  let (s, m) ← o.s.copy o.m u
  return ⟨s, m⟩

def sl (a b c : Option Int) : Ix := .slice ⟨a, b, c⟩

/-- `assert c`, in the given line of the test. -/
def check (_line : Nat) (c : PyM Bool) : PyM Unit := do
  pyAssert (← c)

/-- gcs/tests/test_storage.py:6-41. -/
def test_Buffer : PyM Unit := do
  let mut s ← (from_ .buffer (.seq [.seq [.leaf (some (1)), .leaf (some (2)), .leaf (some (3))], .seq [.leaf (some (4)), .leaf (some (5)), .leaf (some (6))]]) none)
  let mut s2 ← (mkBuffer 6 0 [(some (1)), (some (2)), (some (3)), (some (4)), (some (5)), (some (6))])
  check 9 (do return (← (pure s)).eq (← (pure s2)))
  check 11 (do return (← ((pure s) >>= fun x => x.val (.one (.int (0))))) = (some (1)))
  check 11 (do return (← ((pure s) >>= fun x => x.val (.one (.int (1))))) = (some (2)))
  check 11 (do return (← ((pure s) >>= fun x => x.val (.one (.int (2))))) = (some (3)))
  check 11 (do return (← ((pure s) >>= fun x => x.val (.one (.int (3))))) = (some (4)))
  check 11 (do return (← ((pure s) >>= fun x => x.val (.one (.int (4))))) = (some (5)))
  check 11 (do return (← ((pure s) >>= fun x => x.val (.one (.int (5))))) = (some (6)))
  s2 ← s2.set (.one (.int (3))) (.leaf (some (22)))
  check 13 (do return (← ((pure s2) >>= fun x => x.val (.one (.int (3))))) = (some (22)))
  check 14 (do return !(← (do return (← (pure s)).eq (← (pure s2)))))
  check 15 (do return (← (pure s)).s.size = 6)
  check 16 (do return (← (pure s)).s.shape = [6])
  check 18 (do return (← ((pure s) >>= fun x => x.sub (.one (sl none (some (2)) none)))).eq (← ((pure s) >>= fun x => mkBuffer 2 0 x.m)))
  check 19 (do return (← ((pure s) >>= fun x => x.sub (.one (sl none (some (2)) none)))).s.shape.head? = some 2)
  check 20 (do return (← ((pure s) >>= fun x => x.sub (.one (sl none (some (2)) none)))).s.size = 2)
  check 21 (do return (← ((pure s) >>= fun x => x.sub (.one (sl none (some (2)) none)))).s.shape = [2])
  check 22 (do return (← ((pure s) >>= fun x => x.sub (.one (sl (some (1)) (some (2)) none)))).s.shape.head? = some 1)
  check 26 (do return (← (((pure s) >>= fun x => x.sub (.one (sl (some (2)) (some (5)) none))) >>= fun x => x.val (.one (.int (0))))) = (some (3)))
  check 27 (do return (← (((pure s) >>= fun x => x.sub (.one (sl (some (2)) (some (5)) none))) >>= fun x => x.val (.one (.int (1))))) = (some (4)))
  check 28 (do return (← (((pure s) >>= fun x => x.sub (.one (sl (some (2)) (some (5)) none))) >>= fun x => x.val (.one (.int (2))))) = (some (5)))
  check 29 (do return (← (((pure s) >>= fun x => x.sub (.one (sl (some (2)) (some (5)) none))) >>= fun x => x.val (.one (.int (3))))) = (some (6)))
  check 30 (do return (← (((pure s) >>= fun x => x.sub (.one (sl (some (2)) (some (5)) none))) >>= fun x => x.val (.one (.int (-1))))) = (some (2)))
  check 31 (do return (← (((pure s) >>= fun x => x.sub (.one (sl (some (2)) (some (5)) none))) >>= fun x => x.val (.one (.int (-2))))) = (some (1)))
  check 33 ((((pure s) >>= fun x => x.sub (.one (sl (some (2)) none none))) >>= fun x => x.sub (.one (sl none none none))) >>= fun x => x.eqL (.seq [.leaf (some (3)), .leaf (some (4)), .leaf (some (5)), .leaf (some (6))]))
  check 34 (do return (← (((pure s) >>= fun x => x.sub (.one (sl (some (2)) none none))) >>= fun x => x.sub (.one (sl none none none)))).s.size = 4)
  check 35 ((((pure s) >>= fun x => x.sub (.one (sl (some (2)) none none))) >>= fun x => x.sub (.one (sl (some (-1)) none none))) >>= fun x => x.eqL (.seq [.leaf (some (2)), .leaf (some (3)), .leaf (some (4)), .leaf (some (5)), .leaf (some (6))]))
  check 36 (do return (← (((pure s) >>= fun x => x.sub (.one (sl (some (2)) none none))) >>= fun x => x.sub (.one (sl (some (-1)) none none)))).s.size = 5)
  check 37 ((((pure s) >>= fun x => x.sub (.one (sl (some (2)) (some (4)) none))) >>= fun x => x.sub (.one (sl (some (-1)) none none))) >>= fun x => x.eqL (.seq [.leaf (some (2)), .leaf (some (3)), .leaf (some (4))]))
  check 38 ((((pure s) >>= fun x => x.sub (.one (sl (some (2)) (some (4)) none))) >>= fun x => x.sub (.one (sl (some (-2)) none none))) >>= fun x => x.eqL (.seq [.leaf (some (1)), .leaf (some (2)), .leaf (some (3)), .leaf (some (4))]))
  check 39 ((((pure s) >>= fun x => x.sub (.one (sl (some (2)) (some (4)) none))) >>= fun x => x.sub (.one (sl (some (-2)) (some (2)) none))) >>= fun x => x.eqL (.seq [.leaf (some (1)), .leaf (some (2)), .leaf (some (3)), .leaf (some (4))]))
  check 40 ((((pure s) >>= fun x => x.sub (.one (sl (some (2)) (some (4)) none))) >>= fun x => x.sub (.one (sl (some (-2)) (some (3)) none))) >>= fun x => x.eqL (.seq [.leaf (some (1)), .leaf (some (2)), .leaf (some (3)), .leaf (some (4)), .leaf (some (5))]))
  check 41 ((((pure s) >>= fun x => x.sub (.one (sl (some (2)) (some (4)) none))) >>= fun x => x.sub (.one (sl (some (-2)) (some (1)) none))) >>= fun x => x.eqL (.seq [.leaf (some (1)), .leaf (some (2)), .leaf (some (3))]))

example : test_Buffer = .ok () := by decide +kernel

/-- gcs/tests/test_storage.py:44-92. -/
def test_Strided : PyM Unit := do
  let mut s ← (from_ .strided (.seq [.seq [.leaf (some (1)), .leaf (some (2)), .leaf (some (3))], .seq [.leaf (some (4)), .leaf (some (5)), .leaf (some (6))]]) none)
  let mut s2 ← (mkStrided [2, 3] [3, 1] (from_ .buffer (.seq [.leaf (some (1)), .leaf (some (2)), .leaf (some (3)), .leaf (some (4)), .leaf (some (5)), .leaf (some (6))]) none))
  check 47 (do return (← (pure s)).eq (← (pure s2)))
  check 48 (do return (← ((pure s) >>= fun x => x.val (.tuple [.int (0), .int (0)]))) = (some (1)))
  check 49 (do return (← ((pure s) >>= fun x => x.val (.tuple [.int (0), .int (1)]))) = (some (2)))
  check 50 (do return (← ((pure s) >>= fun x => x.val (.tuple [.int (0), .int (2)]))) = (some (3)))
  check 51 (do return (← ((pure s) >>= fun x => x.val (.tuple [.int (1), .int (0)]))) = (some (4)))
  check 52 (do return (← ((pure s) >>= fun x => x.val (.tuple [.int (1), .int (1)]))) = (some (5)))
  check 53 (do return (← ((pure s) >>= fun x => x.val (.tuple [.int (1), .int (2)]))) = (some (6)))
  check 54 (do return (← (pure s)).s.shape = [2, 3])
  s2 ← s2.set (.tuple [.int (1), .int (1)]) (.leaf (some (22)))
  check 57 (do return (← ((pure s2) >>= fun x => x.val (.tuple [.int (1), .int (1)]))) = (some (22)))
  check 58 (do return !(← (do return (← (pure s)).eq (← (pure s2)))))
  check 60 (((pure s) >>= fun x => x.sub (.one (.int (0)))) >>= fun x => x.eqL (.seq [.leaf (some (1)), .leaf (some (2)), .leaf (some (3))]))
  check 61 (do return (← ((pure s) >>= fun x => x.sub (.one (.int (0))))).s.size = 3)
  check 62 (do return (← ((pure s) >>= fun x => x.sub (.one (.int (0))))).s.shape = [3])
  check 63 (((pure s) >>= fun x => x.sub (.one (.int (1)))) >>= fun x => x.eqL (.seq [.leaf (some (4)), .leaf (some (5)), .leaf (some (6))]))
  check 64 (((pure s) >>= fun x => x.sub (.one (.int (-1)))) >>= fun x => x.eqL (.seq [.leaf (some (4)), .leaf (some (5)), .leaf (some (6))]))
  check 65 (((pure s) >>= fun x => x.sub (.tuple [sl none none none, .int (0)])) >>= fun x => x.eqL (.seq [.leaf (some (1)), .leaf (some (4))]))
  check 66 (((pure s) >>= fun x => x.sub (.tuple [sl none none none, .int (1)])) >>= fun x => x.eqL (.seq [.leaf (some (2)), .leaf (some (5))]))
  check 67 (((pure s) >>= fun x => x.sub (.tuple [sl none none none, .int (2)])) >>= fun x => x.eqL (.seq [.leaf (some (3)), .leaf (some (6))]))
  check 68 (((pure s) >>= fun x => x.sub (.tuple [sl none none none, .int (-1)])) >>= fun x => x.eqL (.seq [.leaf (some (3)), .leaf (some (6))]))
  check 69 (((pure s) >>= fun x => x.sub (.tuple [sl none none none, .int (-2)])) >>= fun x => x.eqL (.seq [.leaf (some (2)), .leaf (some (5))]))
  check 71 (((pure s) >>= fun x => x.sub (.one (sl (some (0)) none none))) >>= fun x => x.eqL (.seq [.seq [.leaf (some (1)), .leaf (some (2)), .leaf (some (3))], .seq [.leaf (some (4)), .leaf (some (5)), .leaf (some (6))]]))
  check 72 (((pure s) >>= fun x => x.sub (.one (sl (some (1)) none none))) >>= fun x => x.eqL (.seq [.seq [.leaf (some (4)), .leaf (some (5)), .leaf (some (6))]]))
  check 73 (((pure s) >>= fun x => x.sub (.one (sl none none (some (-1))))) >>= fun x => x.eqL (.seq [.seq [.leaf (some (4)), .leaf (some (5)), .leaf (some (6))], .seq [.leaf (some (1)), .leaf (some (2)), .leaf (some (3))]]))
  check 74 (((pure s) >>= fun x => x.sub (.one (sl (some (-2)) none (some (-1))))) >>= fun x => x.eqL (.seq [.seq [.leaf (some (1)), .leaf (some (2)), .leaf (some (3))]]))
  check 76 (((pure s) >>= fun x => x.sub (.tuple [sl none none none, sl (some (0)) none none])) >>= fun x => x.eqL (.seq [.seq [.leaf (some (1)), .leaf (some (2)), .leaf (some (3))], .seq [.leaf (some (4)), .leaf (some (5)), .leaf (some (6))]]))
  check 77 (((pure s) >>= fun x => x.sub (.tuple [sl none none none, sl (some (1)) none none])) >>= fun x => x.eqL (.seq [.seq [.leaf (some (2)), .leaf (some (3))], .seq [.leaf (some (5)), .leaf (some (6))]]))
  check 78 (((pure s) >>= fun x => x.sub (.tuple [sl none none none, sl (some (2)) none none])) >>= fun x => x.eqL (.seq [.seq [.leaf (some (3))], .seq [.leaf (some (6))]]))
  check 80 (((pure s) >>= fun x => x.sub (.tuple [sl none none none, sl (some (0)) (some (2)) none])) >>= fun x => x.eqL (.seq [.seq [.leaf (some (1)), .leaf (some (2))], .seq [.leaf (some (4)), .leaf (some (5))]]))
  check 81 (((pure s) >>= fun x => x.sub (.tuple [sl none none none, sl none (some (-1)) none])) >>= fun x => x.eqL (.seq [.seq [.leaf (some (1)), .leaf (some (2))], .seq [.leaf (some (4)), .leaf (some (5))]]))
  check 82 (((pure s) >>= fun x => x.sub (.tuple [sl none none none, sl (some (1)) (some (2)) none])) >>= fun x => x.eqL (.seq [.seq [.leaf (some (2))], .seq [.leaf (some (5))]]))
  check 83 (((pure s) >>= fun x => x.sub (.tuple [sl none none none, sl none none (some (2))])) >>= fun x => x.eqL (.seq [.seq [.leaf (some (1)), .leaf (some (3))], .seq [.leaf (some (4)), .leaf (some (6))]]))
  check 84 (((pure s) >>= fun x => x.sub (.tuple [sl none none none, sl none none (some (-1))])) >>= fun x => x.eqL (.seq [.seq [.leaf (some (3)), .leaf (some (2)), .leaf (some (1))], .seq [.leaf (some (6)), .leaf (some (5)), .leaf (some (4))]]))
  check 85 (((pure s) >>= fun x => x.sub (.tuple [sl none none none, sl none none (some (-2))])) >>= fun x => x.eqL (.seq [.seq [.leaf (some (3)), .leaf (some (1))], .seq [.leaf (some (6)), .leaf (some (4))]]))
  check 86 (((pure s) >>= fun x => x.sub (.tuple [sl none none none, sl (some (-2)) none (some (-1))])) >>= fun x => x.eqL (.seq [.seq [.leaf (some (2)), .leaf (some (1))], .seq [.leaf (some (5)), .leaf (some (4))]]))
  check 88 (do (← ((pure s) >>= fun x => x.copy none)).equal (← (pure s)))
  check 89 (do (← (pure s)).equal (← ((pure s) >>= fun x => x.copy none)))
  check 90 (do return (← (pure s)).eq (← ((pure s) >>= fun x => x.copy none)))
  check 91 (do (← ((pure s) >>= fun x => x.copy (some (some (0))))).equal (← (pure s)))
  check 92 (do return !(← (do return (← (pure s)).eq (← ((pure s) >>= fun x => x.copy (some (some (0))))))))

example : test_Strided = .ok () := by decide +kernel

/-- gcs/tests/test_storage.py:95-165. -/
def test_COO : PyM Unit := do
  let mut s ← (from_ .coo (.seq [.seq [.leaf (some (1)), .leaf (some (2)), .leaf (some (3))], .seq [.leaf (some (4)), .leaf (some (5)), .leaf (some (6))]]) none)
  let mut s2 ← (mkCOO [2, 3] (from_ .strided (.seq [.seq [.leaf (some (0)), .leaf (some (0)), .leaf (some (0)), .leaf (some (1)), .leaf (some (1)), .leaf (some (1))], .seq [.leaf (some (0)), .leaf (some (1)), .leaf (some (2)), .leaf (some (0)), .leaf (some (1)), .leaf (some (2))]]) none) (from_ .buffer (.seq [.leaf (some (1)), .leaf (some (2)), .leaf (some (3)), .leaf (some (4)), .leaf (some (5)), .leaf (some (6))]) none))
  check 99 (do return (← (pure s)).eq (← (pure s2)))
  check 100 (do return (← (pure s)).s.isFull)
  check 101 (do return (← ((pure s) >>= fun x => x.val (.tuple [.int (0), .int (0)]))) = (some (1)))
  check 102 (do return (← ((pure s) >>= fun x => x.val (.tuple [.int (0), .int (1)]))) = (some (2)))
  check 103 (do return (← ((pure s) >>= fun x => x.val (.tuple [.int (0), .int (2)]))) = (some (3)))
  check 104 (do return (← ((pure s) >>= fun x => x.val (.tuple [.int (1), .int (0)]))) = (some (4)))
  check 105 (do return (← ((pure s) >>= fun x => x.val (.tuple [.int (1), .int (1)]))) = (some (5)))
  check 106 (do return (← ((pure s) >>= fun x => x.val (.tuple [.int (1), .int (2)]))) = (some (6)))
  check 107 (do return (← (pure s)).s.shape = [2, 3])
  check 109 (((pure s) >>= fun x => x.sub (.one (.int (0)))) >>= fun x => x.eqL (.seq [.leaf (some (1)), .leaf (some (2)), .leaf (some (3))]))
  check 110 (do return (← ((pure s) >>= fun x => x.sub (.one (.int (0))))).s.size = 3)
  check 111 (do return (← ((pure s) >>= fun x => x.sub (.one (.int (0))))).s.shape = [3])
  check 112 (((pure s) >>= fun x => x.sub (.one (.int (1)))) >>= fun x => x.eqL (.seq [.leaf (some (4)), .leaf (some (5)), .leaf (some (6))]))
  check 113 (((pure s) >>= fun x => x.sub (.one (.int (-1)))) >>= fun x => x.eqL (.seq [.leaf (some (4)), .leaf (some (5)), .leaf (some (6))]))
  check 114 (((pure s) >>= fun x => x.sub (.tuple [sl none none none, .int (0)])) >>= fun x => x.eqL (.seq [.leaf (some (1)), .leaf (some (4))]))
  check 115 (((pure s) >>= fun x => x.sub (.tuple [sl none none none, .int (1)])) >>= fun x => x.eqL (.seq [.leaf (some (2)), .leaf (some (5))]))
  check 116 (((pure s) >>= fun x => x.sub (.tuple [sl none none none, .int (2)])) >>= fun x => x.eqL (.seq [.leaf (some (3)), .leaf (some (6))]))
  check 117 (((pure s) >>= fun x => x.sub (.tuple [sl none none none, .int (-1)])) >>= fun x => x.eqL (.seq [.leaf (some (3)), .leaf (some (6))]))
  check 118 (((pure s) >>= fun x => x.sub (.tuple [sl none none none, .int (-2)])) >>= fun x => x.eqL (.seq [.leaf (some (2)), .leaf (some (5))]))
  check 120 (((pure s) >>= fun x => x.sub (.one (sl (some (0)) none none))) >>= fun x => x.eqL (.seq [.seq [.leaf (some (1)), .leaf (some (2)), .leaf (some (3))], .seq [.leaf (some (4)), .leaf (some (5)), .leaf (some (6))]]))
  check 121 (((pure s) >>= fun x => x.sub (.one (sl (some (1)) none none))) >>= fun x => x.eqL (.seq [.seq [.leaf (some (4)), .leaf (some (5)), .leaf (some (6))]]))
  check 123 (((pure s) >>= fun x => x.sub (.one (sl none none (some (-1))))) >>= fun x => x.eqL (.seq [.seq [.leaf (some (4)), .leaf (some (5)), .leaf (some (6))], .seq [.leaf (some (1)), .leaf (some (2)), .leaf (some (3))]]))
  check 124 (((pure s) >>= fun x => x.sub (.one (sl (some (-2)) none (some (-1))))) >>= fun x => x.eqL (.seq [.seq [.leaf (some (1)), .leaf (some (2)), .leaf (some (3))]]))
  check 126 (((pure s) >>= fun x => x.sub (.tuple [sl none none none, sl (some (0)) none none])) >>= fun x => x.eqL (.seq [.seq [.leaf (some (1)), .leaf (some (2)), .leaf (some (3))], .seq [.leaf (some (4)), .leaf (some (5)), .leaf (some (6))]]))
  check 127 (((pure s) >>= fun x => x.sub (.tuple [sl none none none, sl (some (1)) none none])) >>= fun x => x.eqL (.seq [.seq [.leaf (some (2)), .leaf (some (3))], .seq [.leaf (some (5)), .leaf (some (6))]]))
  check 128 (((pure s) >>= fun x => x.sub (.tuple [sl none none none, sl (some (2)) none none])) >>= fun x => x.eqL (.seq [.seq [.leaf (some (3))], .seq [.leaf (some (6))]]))
  check 130 (((pure s) >>= fun x => x.sub (.tuple [sl none none none, sl (some (0)) (some (2)) none])) >>= fun x => x.eqL (.seq [.seq [.leaf (some (1)), .leaf (some (2))], .seq [.leaf (some (4)), .leaf (some (5))]]))
  check 131 (((pure s) >>= fun x => x.sub (.tuple [sl none none none, sl none (some (-1)) none])) >>= fun x => x.eqL (.seq [.seq [.leaf (some (1)), .leaf (some (2))], .seq [.leaf (some (4)), .leaf (some (5))]]))
  check 132 (((pure s) >>= fun x => x.sub (.tuple [sl none none none, sl (some (1)) (some (2)) none])) >>= fun x => x.eqL (.seq [.seq [.leaf (some (2))], .seq [.leaf (some (5))]]))
  check 133 (((pure s) >>= fun x => x.sub (.tuple [sl none none none, sl none none (some (2))])) >>= fun x => x.eqL (.seq [.seq [.leaf (some (1)), .leaf (some (3))], .seq [.leaf (some (4)), .leaf (some (6))]]))
  check 134 (((pure s) >>= fun x => x.sub (.tuple [sl none none none, sl none none (some (-1))])) >>= fun x => x.eqL (.seq [.seq [.leaf (some (3)), .leaf (some (2)), .leaf (some (1))], .seq [.leaf (some (6)), .leaf (some (5)), .leaf (some (4))]]))
  check 135 (((pure s) >>= fun x => x.sub (.tuple [sl none none none, sl none none (some (-2))])) >>= fun x => x.eqL (.seq [.seq [.leaf (some (3)), .leaf (some (1))], .seq [.leaf (some (6)), .leaf (some (4))]]))
  check 136 (((pure s) >>= fun x => x.sub (.tuple [sl none none none, sl (some (-2)) none (some (-1))])) >>= fun x => x.eqL (.seq [.seq [.leaf (some (2)), .leaf (some (1))], .seq [.leaf (some (5)), .leaf (some (4))]]))
  s ← s.set (.tuple [.int (1), .int (1)]) (.leaf (some (22)))
  check 139 (do return (← ((pure s) >>= fun x => x.val (.tuple [.int (1), .int (1)]))) = (some (22)))
  check 140 (do return !(← (do return (← (pure s)).eq (← (pure s2)))))
  s ← (from_ .coo (.seq [.seq [.leaf (some (1)), .leaf none, .leaf (some (3))], .seq [.leaf none, .leaf (some (5)), .leaf none]]) none)
  s2 ← (mkCOO [2, 3] (from_ .strided (.seq [.seq [.leaf (some (0)), .leaf (some (0)), .leaf (some (1))], .seq [.leaf (some (0)), .leaf (some (2)), .leaf (some (1))]]) none) (from_ .buffer (.seq [.leaf (some (1)), .leaf (some (3)), .leaf (some (5))]) none))
  check 144 (do return (← (pure s)).eq (← (pure s2)))
  check 145 (do return !(← (do return (← (pure s)).s.isFull)))
  check 147 (do return (← ((pure s) >>= fun x => x.val (.tuple [.int (0), .int (0)]))) = (some (1)))
  check 148 (do return (← ((pure s) >>= fun x => x.val (.tuple [.int (0), .int (1)]))) = (← (pure s)).s.unspec)
  check 149 (do return (← ((pure s) >>= fun x => x.val (.tuple [.int (0), .int (2)]))) = (some (3)))
  check 150 (do return (← ((pure s) >>= fun x => x.val (.tuple [.int (1), .int (0)]))) = (← (pure s)).s.unspec)
  check 151 (do return (← ((pure s) >>= fun x => x.val (.tuple [.int (1), .int (1)]))) = (some (5)))
  check 152 (do return (← ((pure s) >>= fun x => x.val (.tuple [.int (1), .int (2)]))) = (← (pure s)).s.unspec)
  s ← (from_ .coo (.seq [.seq [.leaf (some (1)), .leaf (some (0)), .leaf (some (3))], .seq [.leaf (some (0)), .leaf (some (5)), .leaf (some (0))]]) (some (some (0))))
  s2 ← (mkCOO [2, 3] (from_ .strided (.seq [.seq [.leaf (some (0)), .leaf (some (0)), .leaf (some (1))], .seq [.leaf (some (0)), .leaf (some (2)), .leaf (some (1))]]) none) (from_ .buffer (.seq [.leaf (some (1)), .leaf (some (3)), .leaf (some (5))]) (some (some (0)))))
  check 157 (do return (← (pure s)).eq (← (pure s2)))
  check 158 (do return !(← (do return (← (pure s)).s.isFull)))
  check 160 (do return (← ((pure s) >>= fun x => x.val (.tuple [.int (0), .int (0)]))) = (some (1)))
  check 161 (do return (← ((pure s) >>= fun x => x.val (.tuple [.int (0), .int (1)]))) = (← (pure s)).s.unspec)
  check 162 (do return (← ((pure s) >>= fun x => x.val (.tuple [.int (0), .int (2)]))) = (some (3)))
  check 163 (do return (← ((pure s) >>= fun x => x.val (.tuple [.int (1), .int (0)]))) = (← (pure s)).s.unspec)
  check 164 (do return (← ((pure s) >>= fun x => x.val (.tuple [.int (1), .int (1)]))) = (some (5)))
  check 165 (do return (← ((pure s) >>= fun x => x.val (.tuple [.int (1), .int (2)]))) = (← (pure s)).s.unspec)

example : test_COO = .ok () := by decide +kernel

/-- gcs/tests/test_storage.py:168-237. -/
def test_FlatCOO : PyM Unit := do
  let mut s ← (from_ .flatcoo (.seq [.seq [.leaf (some (1)), .leaf (some (2)), .leaf (some (3))], .seq [.leaf (some (4)), .leaf (some (5)), .leaf (some (6))]]) none)
  let mut s2 ← (mkFlatCOO [2, 3] (from_ .buffer (.seq [.leaf (some (0)), .leaf (some (1)), .leaf (some (2)), .leaf (some (3)), .leaf (some (4)), .leaf (some (5))]) none) (from_ .buffer (.seq [.leaf (some (1)), .leaf (some (2)), .leaf (some (3)), .leaf (some (4)), .leaf (some (5)), .leaf (some (6))]) none))
  check 172 (do return (← (pure s)).eq (← (pure s2)))
  check 173 (do return (← (pure s)).s.isFull)
  check 174 (do return (← ((pure s) >>= fun x => x.val (.tuple [.int (0), .int (0)]))) = (some (1)))
  check 175 (do return (← ((pure s) >>= fun x => x.val (.tuple [.int (0), .int (1)]))) = (some (2)))
  check 176 (do return (← ((pure s) >>= fun x => x.val (.tuple [.int (0), .int (2)]))) = (some (3)))
  check 177 (do return (← ((pure s) >>= fun x => x.val (.tuple [.int (1), .int (0)]))) = (some (4)))
  check 178 (do return (← ((pure s) >>= fun x => x.val (.tuple [.int (1), .int (1)]))) = (some (5)))
  check 179 (do return (← ((pure s) >>= fun x => x.val (.tuple [.int (1), .int (2)]))) = (some (6)))
  check 180 (do return (← (pure s)).s.shape = [2, 3])
  check 182 (((pure s) >>= fun x => x.sub (.one (.int (0)))) >>= fun x => x.eqL (.seq [.leaf (some (1)), .leaf (some (2)), .leaf (some (3))]))
  check 183 (do return (← ((pure s) >>= fun x => x.sub (.one (.int (0))))).s.size = 3)
  check 184 (do return (← ((pure s) >>= fun x => x.sub (.one (.int (0))))).s.shape = [3])
  check 185 (((pure s) >>= fun x => x.sub (.one (.int (1)))) >>= fun x => x.eqL (.seq [.leaf (some (4)), .leaf (some (5)), .leaf (some (6))]))
  check 186 (((pure s) >>= fun x => x.sub (.one (.int (-1)))) >>= fun x => x.eqL (.seq [.leaf (some (4)), .leaf (some (5)), .leaf (some (6))]))
  check 187 (((pure s) >>= fun x => x.sub (.tuple [sl none none none, .int (0)])) >>= fun x => x.eqL (.seq [.leaf (some (1)), .leaf (some (4))]))
  check 188 (((pure s) >>= fun x => x.sub (.tuple [sl none none none, .int (1)])) >>= fun x => x.eqL (.seq [.leaf (some (2)), .leaf (some (5))]))
  check 189 (((pure s) >>= fun x => x.sub (.tuple [sl none none none, .int (2)])) >>= fun x => x.eqL (.seq [.leaf (some (3)), .leaf (some (6))]))
  check 190 (((pure s) >>= fun x => x.sub (.tuple [sl none none none, .int (-1)])) >>= fun x => x.eqL (.seq [.leaf (some (3)), .leaf (some (6))]))
  check 191 (((pure s) >>= fun x => x.sub (.tuple [sl none none none, .int (-2)])) >>= fun x => x.eqL (.seq [.leaf (some (2)), .leaf (some (5))]))
  check 193 (((pure s) >>= fun x => x.sub (.one (sl (some (0)) none none))) >>= fun x => x.eqL (.seq [.seq [.leaf (some (1)), .leaf (some (2)), .leaf (some (3))], .seq [.leaf (some (4)), .leaf (some (5)), .leaf (some (6))]]))
  check 194 (((pure s) >>= fun x => x.sub (.one (sl (some (1)) none none))) >>= fun x => x.eqL (.seq [.seq [.leaf (some (4)), .leaf (some (5)), .leaf (some (6))]]))
  check 196 (((pure s) >>= fun x => x.sub (.one (sl none none (some (-1))))) >>= fun x => x.eqL (.seq [.seq [.leaf (some (4)), .leaf (some (5)), .leaf (some (6))], .seq [.leaf (some (1)), .leaf (some (2)), .leaf (some (3))]]))
  check 197 (((pure s) >>= fun x => x.sub (.one (sl (some (-2)) none (some (-1))))) >>= fun x => x.eqL (.seq [.seq [.leaf (some (1)), .leaf (some (2)), .leaf (some (3))]]))
  check 199 (((pure s) >>= fun x => x.sub (.tuple [sl none none none, sl (some (0)) none none])) >>= fun x => x.eqL (.seq [.seq [.leaf (some (1)), .leaf (some (2)), .leaf (some (3))], .seq [.leaf (some (4)), .leaf (some (5)), .leaf (some (6))]]))
  check 200 (((pure s) >>= fun x => x.sub (.tuple [sl none none none, sl (some (1)) none none])) >>= fun x => x.eqL (.seq [.seq [.leaf (some (2)), .leaf (some (3))], .seq [.leaf (some (5)), .leaf (some (6))]]))
  check 201 (((pure s) >>= fun x => x.sub (.tuple [sl none none none, sl (some (2)) none none])) >>= fun x => x.eqL (.seq [.seq [.leaf (some (3))], .seq [.leaf (some (6))]]))
  check 203 (((pure s) >>= fun x => x.sub (.tuple [sl none none none, sl (some (0)) (some (2)) none])) >>= fun x => x.eqL (.seq [.seq [.leaf (some (1)), .leaf (some (2))], .seq [.leaf (some (4)), .leaf (some (5))]]))
  check 204 (((pure s) >>= fun x => x.sub (.tuple [sl none none none, sl none (some (-1)) none])) >>= fun x => x.eqL (.seq [.seq [.leaf (some (1)), .leaf (some (2))], .seq [.leaf (some (4)), .leaf (some (5))]]))
  check 205 (((pure s) >>= fun x => x.sub (.tuple [sl none none none, sl (some (1)) (some (2)) none])) >>= fun x => x.eqL (.seq [.seq [.leaf (some (2))], .seq [.leaf (some (5))]]))
  check 206 (((pure s) >>= fun x => x.sub (.tuple [sl none none none, sl none none (some (2))])) >>= fun x => x.eqL (.seq [.seq [.leaf (some (1)), .leaf (some (3))], .seq [.leaf (some (4)), .leaf (some (6))]]))
  check 207 (((pure s) >>= fun x => x.sub (.tuple [sl none none none, sl none none (some (-1))])) >>= fun x => x.eqL (.seq [.seq [.leaf (some (3)), .leaf (some (2)), .leaf (some (1))], .seq [.leaf (some (6)), .leaf (some (5)), .leaf (some (4))]]))
  check 208 (((pure s) >>= fun x => x.sub (.tuple [sl none none none, sl none none (some (-2))])) >>= fun x => x.eqL (.seq [.seq [.leaf (some (3)), .leaf (some (1))], .seq [.leaf (some (6)), .leaf (some (4))]]))
  check 209 (((pure s) >>= fun x => x.sub (.tuple [sl none none none, sl (some (-2)) none (some (-1))])) >>= fun x => x.eqL (.seq [.seq [.leaf (some (2)), .leaf (some (1))], .seq [.leaf (some (5)), .leaf (some (4))]]))
  s ← s.set (.tuple [.int (1), .int (1)]) (.leaf (some (22)))
  check 212 (do return (← ((pure s) >>= fun x => x.val (.tuple [.int (1), .int (1)]))) = (some (22)))
  check 213 (do return !(← (do return (← (pure s)).eq (← (pure s2)))))
  s ← (from_ .flatcoo (.seq [.seq [.leaf (some (1)), .leaf none, .leaf (some (3))], .seq [.leaf none, .leaf (some (5)), .leaf none]]) none)
  s2 ← (mkFlatCOO [2, 3] (from_ .buffer (.seq [.leaf (some (0)), .leaf (some (2)), .leaf (some (4))]) none) (from_ .buffer (.seq [.leaf (some (1)), .leaf (some (3)), .leaf (some (5))]) none))
  check 217 (do return (← (pure s)).eq (← (pure s2)))
  check 218 (do return !(← (do return (← (pure s)).s.isFull)))
  check 220 (do return (← ((pure s) >>= fun x => x.val (.tuple [.int (0), .int (0)]))) = (some (1)))
  check 221 (do return (← ((pure s) >>= fun x => x.val (.tuple [.int (0), .int (1)]))) = (← (pure s)).s.unspec)
  check 222 (do return (← ((pure s) >>= fun x => x.val (.tuple [.int (0), .int (2)]))) = (some (3)))
  check 223 (do return (← ((pure s) >>= fun x => x.val (.tuple [.int (1), .int (0)]))) = (← (pure s)).s.unspec)
  check 224 (do return (← ((pure s) >>= fun x => x.val (.tuple [.int (1), .int (1)]))) = (some (5)))
  check 225 (do return (← ((pure s) >>= fun x => x.val (.tuple [.int (1), .int (2)]))) = (← (pure s)).s.unspec)
  s ← (from_ .flatcoo (.seq [.seq [.leaf (some (1)), .leaf (some (0)), .leaf (some (3))], .seq [.leaf (some (0)), .leaf (some (5)), .leaf (some (0))]]) (some (some (0))))
  s2 ← (mkFlatCOO [2, 3] (from_ .buffer (.seq [.leaf (some (0)), .leaf (some (2)), .leaf (some (4))]) none) (from_ .buffer (.seq [.leaf (some (1)), .leaf (some (3)), .leaf (some (5))]) (some (some (0)))))
  check 229 (do return (← (pure s)).eq (← (pure s2)))
  check 230 (do return !(← (do return (← (pure s)).s.isFull)))
  check 232 (do return (← ((pure s) >>= fun x => x.val (.tuple [.int (0), .int (0)]))) = (some (1)))
  check 233 (do return (← ((pure s) >>= fun x => x.val (.tuple [.int (0), .int (1)]))) = (← (pure s)).s.unspec)
  check 234 (do return (← ((pure s) >>= fun x => x.val (.tuple [.int (0), .int (2)]))) = (some (3)))
  check 235 (do return (← ((pure s) >>= fun x => x.val (.tuple [.int (1), .int (0)]))) = (← (pure s)).s.unspec)
  check 236 (do return (← ((pure s) >>= fun x => x.val (.tuple [.int (1), .int (1)]))) = (some (5)))
  check 237 (do return (← ((pure s) >>= fun x => x.val (.tuple [.int (1), .int (2)]))) = (← (pure s)).s.unspec)

example : test_FlatCOO = .ok () := by decide +kernel

/-- gcs/tests/test_storage.py:240-317. -/
def test_CSR : PyM Unit := do
  let mut s ← (from_ .csr (.seq [.seq [.leaf (some (1)), .leaf (some (2)), .leaf (some (3))], .seq [.leaf (some (4)), .leaf (some (5)), .leaf (some (6))]]) none)
  let mut s2 ← (mkCSR [2, 3] (from_ .buffer (.seq [.leaf (some (0)), .leaf (some (3)), .leaf (some (6))]) none) (from_ .buffer (.seq [.leaf (some (0)), .leaf (some (1)), .leaf (some (2)), .leaf (some (0)), .leaf (some (1)), .leaf (some (2))]) none) (from_ .buffer (.seq [.leaf (some (1)), .leaf (some (2)), .leaf (some (3)), .leaf (some (4)), .leaf (some (5)), .leaf (some (6))]) none))
  check 246 (do return (← (pure s)).eq (← (pure s2)))
  check 247 (do return (← (pure s)).s.isFull)
  check 248 (do return (← ((pure s) >>= fun x => x.val (.tuple [.int (0), .int (0)]))) = (some (1)))
  check 249 (do return (← ((pure s) >>= fun x => x.val (.tuple [.int (0), .int (1)]))) = (some (2)))
  check 250 (do return (← ((pure s) >>= fun x => x.val (.tuple [.int (0), .int (2)]))) = (some (3)))
  check 251 (do return (← ((pure s) >>= fun x => x.val (.tuple [.int (1), .int (0)]))) = (some (4)))
  check 252 (do return (← ((pure s) >>= fun x => x.val (.tuple [.int (1), .int (1)]))) = (some (5)))
  check 253 (do return (← ((pure s) >>= fun x => x.val (.tuple [.int (1), .int (2)]))) = (some (6)))
  check 254 (do return (← (pure s)).s.shape = [2, 3])
  check 256 (((pure s) >>= fun x => x.sub (.one (.int (0)))) >>= fun x => x.eqL (.seq [.leaf (some (1)), .leaf (some (2)), .leaf (some (3))]))
  check 257 (do return (← ((pure s) >>= fun x => x.sub (.one (.int (0))))).s.size = 3)
  check 258 (do return (← ((pure s) >>= fun x => x.sub (.one (.int (0))))).s.shape = [3])
  check 259 (((pure s) >>= fun x => x.sub (.one (.int (1)))) >>= fun x => x.eqL (.seq [.leaf (some (4)), .leaf (some (5)), .leaf (some (6))]))
  check 260 (((pure s) >>= fun x => x.sub (.one (.int (-1)))) >>= fun x => x.eqL (.seq [.leaf (some (4)), .leaf (some (5)), .leaf (some (6))]))
  check 261 (((pure s) >>= fun x => x.sub (.tuple [sl none none none, .int (0)])) >>= fun x => x.eqL (.seq [.leaf (some (1)), .leaf (some (4))]))
  check 262 (((pure s) >>= fun x => x.sub (.tuple [sl none none none, .int (1)])) >>= fun x => x.eqL (.seq [.leaf (some (2)), .leaf (some (5))]))
  check 263 (((pure s) >>= fun x => x.sub (.tuple [sl none none none, .int (2)])) >>= fun x => x.eqL (.seq [.leaf (some (3)), .leaf (some (6))]))
  check 264 (((pure s) >>= fun x => x.sub (.tuple [sl none none none, .int (-1)])) >>= fun x => x.eqL (.seq [.leaf (some (3)), .leaf (some (6))]))
  check 265 (((pure s) >>= fun x => x.sub (.tuple [sl none none none, .int (-2)])) >>= fun x => x.eqL (.seq [.leaf (some (2)), .leaf (some (5))]))
  check 267 (((pure s) >>= fun x => x.sub (.one (sl (some (0)) none none))) >>= fun x => x.eqL (.seq [.seq [.leaf (some (1)), .leaf (some (2)), .leaf (some (3))], .seq [.leaf (some (4)), .leaf (some (5)), .leaf (some (6))]]))
  check 268 (((pure s) >>= fun x => x.sub (.one (sl (some (1)) none none))) >>= fun x => x.eqL (.seq [.seq [.leaf (some (4)), .leaf (some (5)), .leaf (some (6))]]))
  check 270 (((pure s) >>= fun x => x.sub (.one (sl none none (some (-1))))) >>= fun x => x.eqL (.seq [.seq [.leaf (some (4)), .leaf (some (5)), .leaf (some (6))], .seq [.leaf (some (1)), .leaf (some (2)), .leaf (some (3))]]))
  check 271 (((pure s) >>= fun x => x.sub (.one (sl (some (-2)) none (some (-1))))) >>= fun x => x.eqL (.seq [.seq [.leaf (some (1)), .leaf (some (2)), .leaf (some (3))]]))
  check 273 (((pure s) >>= fun x => x.sub (.tuple [sl none none none, sl (some (0)) none none])) >>= fun x => x.eqL (.seq [.seq [.leaf (some (1)), .leaf (some (2)), .leaf (some (3))], .seq [.leaf (some (4)), .leaf (some (5)), .leaf (some (6))]]))
  check 274 (((pure s) >>= fun x => x.sub (.tuple [sl none none none, sl (some (1)) none none])) >>= fun x => x.eqL (.seq [.seq [.leaf (some (2)), .leaf (some (3))], .seq [.leaf (some (5)), .leaf (some (6))]]))
  check 275 (((pure s) >>= fun x => x.sub (.tuple [sl none none none, sl (some (2)) none none])) >>= fun x => x.eqL (.seq [.seq [.leaf (some (3))], .seq [.leaf (some (6))]]))
  check 277 (((pure s) >>= fun x => x.sub (.tuple [sl none none none, sl (some (0)) (some (2)) none])) >>= fun x => x.eqL (.seq [.seq [.leaf (some (1)), .leaf (some (2))], .seq [.leaf (some (4)), .leaf (some (5))]]))
  check 278 (((pure s) >>= fun x => x.sub (.tuple [sl none none none, sl none (some (-1)) none])) >>= fun x => x.eqL (.seq [.seq [.leaf (some (1)), .leaf (some (2))], .seq [.leaf (some (4)), .leaf (some (5))]]))
  check 279 (((pure s) >>= fun x => x.sub (.tuple [sl none none none, sl (some (1)) (some (2)) none])) >>= fun x => x.eqL (.seq [.seq [.leaf (some (2))], .seq [.leaf (some (5))]]))
  check 280 (((pure s) >>= fun x => x.sub (.tuple [sl none none none, sl none none (some (2))])) >>= fun x => x.eqL (.seq [.seq [.leaf (some (1)), .leaf (some (3))], .seq [.leaf (some (4)), .leaf (some (6))]]))
  check 281 (((pure s) >>= fun x => x.sub (.tuple [sl none none none, sl none none (some (-1))])) >>= fun x => x.eqL (.seq [.seq [.leaf (some (3)), .leaf (some (2)), .leaf (some (1))], .seq [.leaf (some (6)), .leaf (some (5)), .leaf (some (4))]]))
  check 282 (((pure s) >>= fun x => x.sub (.tuple [sl none none none, sl none none (some (-2))])) >>= fun x => x.eqL (.seq [.seq [.leaf (some (3)), .leaf (some (1))], .seq [.leaf (some (6)), .leaf (some (4))]]))
  check 283 (((pure s) >>= fun x => x.sub (.tuple [sl none none none, sl (some (-2)) none (some (-1))])) >>= fun x => x.eqL (.seq [.seq [.leaf (some (2)), .leaf (some (1))], .seq [.leaf (some (5)), .leaf (some (4))]]))
  s ← s.set (.tuple [.int (1), .int (1)]) (.leaf (some (22)))
  check 286 (do return (← ((pure s) >>= fun x => x.val (.tuple [.int (1), .int (1)]))) = (some (22)))
  check 287 (do return !(← (do return (← (pure s)).eq (← (pure s2)))))
  s ← (from_ .csr (.seq [.seq [.leaf (some (1)), .leaf none, .leaf (some (3))], .seq [.leaf none, .leaf (some (5)), .leaf none]]) none)
  s2 ← (mkCSR [2, 3] (from_ .buffer (.seq [.leaf (some (0)), .leaf (some (2)), .leaf (some (3))]) none) (from_ .buffer (.seq [.leaf (some (0)), .leaf (some (2)), .leaf (some (1))]) none) (from_ .buffer (.seq [.leaf (some (1)), .leaf (some (3)), .leaf (some (5))]) none))
  check 294 (do return (← (pure s)).eq (← (pure s2)))
  check 295 (do return !(← (do return (← (pure s)).s.isFull)))
  check 297 (do return (← ((pure s) >>= fun x => x.val (.tuple [.int (0), .int (0)]))) = (some (1)))
  check 298 (do return (← ((pure s) >>= fun x => x.val (.tuple [.int (0), .int (1)]))) = (← (pure s)).s.unspec)
  check 299 (do return (← ((pure s) >>= fun x => x.val (.tuple [.int (0), .int (2)]))) = (some (3)))
  check 300 (do return (← ((pure s) >>= fun x => x.val (.tuple [.int (1), .int (0)]))) = (← (pure s)).s.unspec)
  check 301 (do return (← ((pure s) >>= fun x => x.val (.tuple [.int (1), .int (1)]))) = (some (5)))
  check 302 (do return (← ((pure s) >>= fun x => x.val (.tuple [.int (1), .int (2)]))) = (← (pure s)).s.unspec)
  s ← (from_ .csr (.seq [.seq [.leaf (some (1)), .leaf (some (0)), .leaf (some (3))], .seq [.leaf (some (0)), .leaf (some (5)), .leaf (some (0))]]) (some (some (0))))
  s2 ← (mkCSR [2, 3] (from_ .buffer (.seq [.leaf (some (0)), .leaf (some (2)), .leaf (some (3))]) none) (from_ .buffer (.seq [.leaf (some (0)), .leaf (some (2)), .leaf (some (1))]) none) (from_ .buffer (.seq [.leaf (some (1)), .leaf (some (3)), .leaf (some (5))]) (some (some (0)))))
  check 309 (do return (← (pure s)).eq (← (pure s2)))
  check 310 (do return !(← (do return (← (pure s)).s.isFull)))
  check 312 (do return (← ((pure s) >>= fun x => x.val (.tuple [.int (0), .int (0)]))) = (some (1)))
  check 313 (do return (← ((pure s) >>= fun x => x.val (.tuple [.int (0), .int (1)]))) = (← (pure s)).s.unspec)
  check 314 (do return (← ((pure s) >>= fun x => x.val (.tuple [.int (0), .int (2)]))) = (some (3)))
  check 315 (do return (← ((pure s) >>= fun x => x.val (.tuple [.int (1), .int (0)]))) = (← (pure s)).s.unspec)
  check 316 (do return (← ((pure s) >>= fun x => x.val (.tuple [.int (1), .int (1)]))) = (some (5)))
  check 317 (do return (← ((pure s) >>= fun x => x.val (.tuple [.int (1), .int (2)]))) = (← (pure s)).s.unspec)

example : test_CSR = .ok () := by decide +kernel

/-- gcs/tests/test_storage.py:320-362. -/
def test_conversion : PyM Unit := do
  let mut s ← (from_ .strided (.seq [.seq [.leaf (some (1)), .leaf (some (2)), .leaf (some (3))], .seq [.leaf (some (4)), .leaf (some (5)), .leaf (some (6))]]) none)
  let mut coo ← ((pure s) >>= fun x => x.conv .coo none)
  let mut fcoo ← ((pure s) >>= fun x => x.conv .flatcoo none)
  let mut csr ← ((pure s) >>= fun x => x.conv .csr none)
  check 326 (do return (← ((pure coo) >>= fun x => x.conv .strided none)).eq (← (pure s)))
  check 327 (do return (← ((pure coo) >>= fun x => x.conv .flatcoo none)).eq (← (pure fcoo)))
  check 328 (do return (← ((pure coo) >>= fun x => x.conv .csr none)).eq (← (pure csr)))
  check 329 (do return (← ((pure fcoo) >>= fun x => x.conv .strided none)).eq (← (pure s)))
  check 330 (do return (← ((pure fcoo) >>= fun x => x.conv .coo none)).eq (← (pure coo)))
  check 331 (do return (← ((pure fcoo) >>= fun x => x.conv .csr none)).eq (← (pure csr)))
  check 332 (do return (← ((pure csr) >>= fun x => x.conv .strided none)).eq (← (pure s)))
  check 333 (do return (← ((pure csr) >>= fun x => x.conv .coo none)).eq (← (pure coo)))
  check 334 (do return (← ((pure csr) >>= fun x => x.conv .flatcoo none)).eq (← (pure fcoo)))
  s ← (from_ .strided (.seq [.seq [.leaf (some (1)), .leaf none, .leaf (some (3))], .seq [.leaf none, .leaf (some (5)), .leaf none]]) none)
  coo ← ((pure s) >>= fun x => x.conv .coo none)
  fcoo ← ((pure s) >>= fun x => x.conv .flatcoo none)
  csr ← ((pure s) >>= fun x => x.conv .csr none)
  check 340 (do return (← ((pure coo) >>= fun x => x.conv .strided none)).eq (← (pure s)))
  check 341 (do return (← ((pure coo) >>= fun x => x.conv .flatcoo none)).eq (← (pure fcoo)))
  check 342 (do return (← ((pure coo) >>= fun x => x.conv .csr none)).eq (← (pure csr)))
  check 343 (do return (← ((pure fcoo) >>= fun x => x.conv .strided none)).eq (← (pure s)))
  check 344 (do return (← ((pure fcoo) >>= fun x => x.conv .coo none)).eq (← (pure coo)))
  check 345 (do return (← ((pure fcoo) >>= fun x => x.conv .csr none)).eq (← (pure csr)))
  check 346 (do return (← ((pure csr) >>= fun x => x.conv .strided none)).eq (← (pure s)))
  check 347 (do return (← ((pure csr) >>= fun x => x.conv .coo none)).eq (← (pure coo)))
  check 348 (do return (← ((pure csr) >>= fun x => x.conv .flatcoo none)).eq (← (pure fcoo)))
  s ← (from_ .strided (.seq [.seq [.leaf (some (1)), .leaf (some (0)), .leaf (some (3))], .seq [.leaf (some (0)), .leaf (some (5)), .leaf (some (0))]]) none)
  coo ← ((pure s) >>= fun x => x.conv .coo (some (some (0))))
  fcoo ← ((pure s) >>= fun x => x.conv .flatcoo (some (some (0))))
  csr ← ((pure s) >>= fun x => x.conv .csr (some (some (0))))
  check 354 (do return (← ((pure coo) >>= fun x => x.conv .strided none)).eq (← ((pure s) >>= fun x => x.copy (some (some (0))))))
  check 355 (do return (← ((pure coo) >>= fun x => x.conv .flatcoo none)).eq (← (pure fcoo)))
  check 356 (do return (← ((pure coo) >>= fun x => x.conv .csr none)).eq (← (pure csr)))
  check 357 (do return (← ((pure fcoo) >>= fun x => x.conv .strided none)).eq (← ((pure s) >>= fun x => x.copy (some (some (0))))))
  check 358 (do return (← ((pure fcoo) >>= fun x => x.conv .coo none)).eq (← (pure coo)))
  check 359 (do return (← ((pure fcoo) >>= fun x => x.conv .csr none)).eq (← (pure csr)))
  check 360 (do return (← ((pure csr) >>= fun x => x.conv .strided none)).eq (← ((pure s) >>= fun x => x.copy (some (some (0))))))
  check 361 (do return (← ((pure csr) >>= fun x => x.conv .coo none)).eq (← (pure coo)))
  check 362 (do return (← ((pure csr) >>= fun x => x.conv .flatcoo none)).eq (← (pure fcoo)))

example : test_conversion = .ok () := by decide +kernel

/-- gcs/tests/test_storage.py:365-379. -/
def test_elements : PyM Unit := do
  let mut s ← (from_ .strided (.seq [.seq [.leaf (some (1)), .leaf (some (2)), .leaf (some (3))], .seq [.leaf (some (4)), .leaf (some (5)), .leaf (some (6))]]) none)
  check 370 (do return (← (← (pure s)).els) = [(.tuple [0, 0], some 1), (.tuple [0, 1], some 2), (.tuple [0, 2], some 3), (.tuple [1, 0], some 4), (.tuple [1, 1], some 5), (.tuple [1, 2], some 6)])
  check 371 (do return (← (← ((pure s) >>= fun x => x.conv .coo none)).els) = [(.tuple [0, 0], some 1), (.tuple [0, 1], some 2), (.tuple [0, 2], some 3), (.tuple [1, 0], some 4), (.tuple [1, 1], some 5), (.tuple [1, 2], some 6)])
  check 372 (do return (← (← ((pure s) >>= fun x => x.conv .flatcoo none)).els) = [(.tuple [0, 0], some 1), (.tuple [0, 1], some 2), (.tuple [0, 2], some 3), (.tuple [1, 0], some 4), (.tuple [1, 1], some 5), (.tuple [1, 2], some 6)])
  check 373 (do return (← (← ((pure s) >>= fun x => x.conv .csr none)).els) = [(.tuple [0, 0], some 1), (.tuple [0, 1], some 2), (.tuple [0, 2], some 3), (.tuple [1, 0], some 4), (.tuple [1, 1], some 5), (.tuple [1, 2], some 6)])
  check 374 (do return (← (← ((pure s) >>= fun x => x.asDM .strided)).els) = [(.tuple [0, 0], some 1), (.tuple [0, 1], some 2), (.tuple [0, 2], some 3), (.tuple [1, 0], some 4), (.tuple [1, 1], some 5), (.tuple [1, 2], some 6)])
  check 375 (do return (← (← ((pure s) >>= fun x => x.asDM .strided)).els) = [(.tuple [0, 0], some 1), (.tuple [0, 1], some 2), (.tuple [0, 2], some 3), (.tuple [1, 0], some 4), (.tuple [1, 1], some 5), (.tuple [1, 2], some 6)])
  check 376 (do return (← (← ((pure s) >>= fun x => x.asDM .coo)).els) = [(.tuple [0, 0], some 1), (.tuple [0, 1], some 2), (.tuple [0, 2], some 3), (.tuple [1, 0], some 4), (.tuple [1, 1], some 5), (.tuple [1, 2], some 6)])
  check 377 (do return (← (← ((pure s) >>= fun x => x.asDM .flatcoo)).els) = [(.tuple [0, 0], some 1), (.tuple [0, 1], some 2), (.tuple [0, 2], some 3), (.tuple [1, 0], some 4), (.tuple [1, 1], some 5), (.tuple [1, 2], some 6)])
  check 378 (do return (← (← ((pure s) >>= fun x => x.asDM .csr)).els) = [(.tuple [0, 0], some 1), (.tuple [0, 1], some 2), (.tuple [0, 2], some 3), (.tuple [1, 0], some 4), (.tuple [1, 1], some 5), (.tuple [1, 2], some 6)])
  check 379 (do return (← (← ((pure s) >>= fun x => x.asDM .buffer)).els) = [(.tuple [0, 0], some 1), (.tuple [0, 1], some 2), (.tuple [0, 2], some 3), (.tuple [1, 0], some 4), (.tuple [1, 1], some 5), (.tuple [1, 2], some 6)])

example : test_elements = .ok () := by decide +kernel

/-- gcs/tests/test_storage.py:565-588, for `Strided`. -/
def test_slicing_Strided : PyM Unit := do
  let mut s ← (from_ .strided (.seq [.seq [.leaf (some (1)), .leaf (some (2)), .leaf (some (3))], .seq [.leaf (some (4)), .leaf (some (5)), .leaf (some (6))]]) none)
  s ← s.set (.one (.int (0))) (.seq [.leaf (some (11)), .leaf (some (12)), .leaf (some (13))])
  check 569 ((pure s) >>= fun x => x.eqL (.seq [.seq [.leaf (some (11)), .leaf (some (12)), .leaf (some (13))], .seq [.leaf (some (4)), .leaf (some (5)), .leaf (some (6))]]))
  s ← s.set (.one (.int (1))) (.seq [.leaf (some (21)), .leaf (some (22)), .leaf (some (23))])
  check 571 ((pure s) >>= fun x => x.eqL (.seq [.seq [.leaf (some (11)), .leaf (some (12)), .leaf (some (13))], .seq [.leaf (some (21)), .leaf (some (22)), .leaf (some (23))]]))
  s ← s.set (.tuple [.int (0), sl (some (1)) none none]) (.seq [.leaf (some (120)), .leaf (some (130))])
  check 573 ((pure s) >>= fun x => x.eqL (.seq [.seq [.leaf (some (11)), .leaf (some (120)), .leaf (some (130))], .seq [.leaf (some (21)), .leaf (some (22)), .leaf (some (23))]]))
  s ← s.set (.tuple [sl none none none, .int (1)]) (.seq [.leaf (some (221)), .leaf (some (222))])
  check 575 ((pure s) >>= fun x => x.eqL (.seq [.seq [.leaf (some (11)), .leaf (some (221)), .leaf (some (130))], .seq [.leaf (some (21)), .leaf (some (222)), .leaf (some (23))]]))
  s ← (from_ .strided (.seq [.seq [.leaf (some (1)), .leaf (some (2)), .leaf (some (3))], .seq [.leaf (some (4)), .leaf (some (5)), .leaf (some (6))]]) none)
  check 578 (((pure s) >>= fun x => x.sub (.one (.int (0)))) >>= fun x => x.eqL (.seq [.leaf (some (1)), .leaf (some (2)), .leaf (some (3))]))
  check 579 (((pure s) >>= fun x => x.sub (.one (.int (1)))) >>= fun x => x.eqL (.seq [.leaf (some (4)), .leaf (some (5)), .leaf (some (6))]))
  check 580 (((pure s) >>= fun x => x.sub (.tuple [sl none none none, .int (0)])) >>= fun x => x.eqL (.seq [.leaf (some (1)), .leaf (some (4))]))
  check 581 (((pure s) >>= fun x => x.sub (.tuple [sl none none none, .int (1)])) >>= fun x => x.eqL (.seq [.leaf (some (2)), .leaf (some (5))]))
  check 582 (((pure s) >>= fun x => x.sub (.tuple [sl none none none, .int (2)])) >>= fun x => x.eqL (.seq [.leaf (some (3)), .leaf (some (6))]))
  check 583 (((pure s) >>= fun x => x.sub (.tuple [sl (some (1)) none none, sl (some (1)) none none])) >>= fun x => x.eqL (.seq [.seq [.leaf (some (5)), .leaf (some (6))]]))
  check 584 (((pure s) >>= fun x => x.sub (.tuple [sl none (some (1)) none, sl none (some (2)) none])) >>= fun x => x.eqL (.seq [.seq [.leaf (some (1)), .leaf (some (2))]]))
  check 585 (((pure s) >>= fun x => x.sub (.tuple [.int (0), sl none none (some (2))])) >>= fun x => x.eqL (.seq [.leaf (some (1)), .leaf (some (3))]))
  check 586 (((pure s) >>= fun x => x.sub (.tuple [.int (1), sl none none (some (2))])) >>= fun x => x.eqL (.seq [.leaf (some (4)), .leaf (some (6))]))
  check 587 (((pure s) >>= fun x => x.sub (.tuple [.int (0), sl none none (some (-1))])) >>= fun x => x.eqL (.seq [.leaf (some (3)), .leaf (some (2)), .leaf (some (1))]))
  check 588 (((pure s) >>= fun x => x.sub (.tuple [sl none none (some (-1)), sl none none (some (-1))])) >>= fun x => x.eqL (.seq [.seq [.leaf (some (6)), .leaf (some (5)), .leaf (some (4))], .seq [.leaf (some (3)), .leaf (some (2)), .leaf (some (1))]]))

example : test_slicing_Strided = .ok () := by decide +kernel

/-- gcs/tests/test_storage.py:565-588, for `COO`. -/
def test_slicing_COO : PyM Unit := do
  let mut s ← (from_ .coo (.seq [.seq [.leaf (some (1)), .leaf (some (2)), .leaf (some (3))], .seq [.leaf (some (4)), .leaf (some (5)), .leaf (some (6))]]) none)
  s ← s.set (.one (.int (0))) (.seq [.leaf (some (11)), .leaf (some (12)), .leaf (some (13))])
  check 569 ((pure s) >>= fun x => x.eqL (.seq [.seq [.leaf (some (11)), .leaf (some (12)), .leaf (some (13))], .seq [.leaf (some (4)), .leaf (some (5)), .leaf (some (6))]]))
  s ← s.set (.one (.int (1))) (.seq [.leaf (some (21)), .leaf (some (22)), .leaf (some (23))])
  check 571 ((pure s) >>= fun x => x.eqL (.seq [.seq [.leaf (some (11)), .leaf (some (12)), .leaf (some (13))], .seq [.leaf (some (21)), .leaf (some (22)), .leaf (some (23))]]))
  s ← s.set (.tuple [.int (0), sl (some (1)) none none]) (.seq [.leaf (some (120)), .leaf (some (130))])
  check 573 ((pure s) >>= fun x => x.eqL (.seq [.seq [.leaf (some (11)), .leaf (some (120)), .leaf (some (130))], .seq [.leaf (some (21)), .leaf (some (22)), .leaf (some (23))]]))
  s ← s.set (.tuple [sl none none none, .int (1)]) (.seq [.leaf (some (221)), .leaf (some (222))])
  check 575 ((pure s) >>= fun x => x.eqL (.seq [.seq [.leaf (some (11)), .leaf (some (221)), .leaf (some (130))], .seq [.leaf (some (21)), .leaf (some (222)), .leaf (some (23))]]))
  s ← (from_ .coo (.seq [.seq [.leaf (some (1)), .leaf (some (2)), .leaf (some (3))], .seq [.leaf (some (4)), .leaf (some (5)), .leaf (some (6))]]) none)
  check 578 (((pure s) >>= fun x => x.sub (.one (.int (0)))) >>= fun x => x.eqL (.seq [.leaf (some (1)), .leaf (some (2)), .leaf (some (3))]))
  check 579 (((pure s) >>= fun x => x.sub (.one (.int (1)))) >>= fun x => x.eqL (.seq [.leaf (some (4)), .leaf (some (5)), .leaf (some (6))]))
  check 580 (((pure s) >>= fun x => x.sub (.tuple [sl none none none, .int (0)])) >>= fun x => x.eqL (.seq [.leaf (some (1)), .leaf (some (4))]))
  check 581 (((pure s) >>= fun x => x.sub (.tuple [sl none none none, .int (1)])) >>= fun x => x.eqL (.seq [.leaf (some (2)), .leaf (some (5))]))
  check 582 (((pure s) >>= fun x => x.sub (.tuple [sl none none none, .int (2)])) >>= fun x => x.eqL (.seq [.leaf (some (3)), .leaf (some (6))]))
  check 583 (((pure s) >>= fun x => x.sub (.tuple [sl (some (1)) none none, sl (some (1)) none none])) >>= fun x => x.eqL (.seq [.seq [.leaf (some (5)), .leaf (some (6))]]))
  check 584 (((pure s) >>= fun x => x.sub (.tuple [sl none (some (1)) none, sl none (some (2)) none])) >>= fun x => x.eqL (.seq [.seq [.leaf (some (1)), .leaf (some (2))]]))
  check 585 (((pure s) >>= fun x => x.sub (.tuple [.int (0), sl none none (some (2))])) >>= fun x => x.eqL (.seq [.leaf (some (1)), .leaf (some (3))]))
  check 586 (((pure s) >>= fun x => x.sub (.tuple [.int (1), sl none none (some (2))])) >>= fun x => x.eqL (.seq [.leaf (some (4)), .leaf (some (6))]))
  check 587 (((pure s) >>= fun x => x.sub (.tuple [.int (0), sl none none (some (-1))])) >>= fun x => x.eqL (.seq [.leaf (some (3)), .leaf (some (2)), .leaf (some (1))]))
  check 588 (((pure s) >>= fun x => x.sub (.tuple [sl none none (some (-1)), sl none none (some (-1))])) >>= fun x => x.eqL (.seq [.seq [.leaf (some (6)), .leaf (some (5)), .leaf (some (4))], .seq [.leaf (some (3)), .leaf (some (2)), .leaf (some (1))]]))

example : test_slicing_COO = .ok () := by decide +kernel

/-- gcs/tests/test_storage.py:565-588, for `FlatCOO`. -/
def test_slicing_FlatCOO : PyM Unit := do
  let mut s ← (from_ .flatcoo (.seq [.seq [.leaf (some (1)), .leaf (some (2)), .leaf (some (3))], .seq [.leaf (some (4)), .leaf (some (5)), .leaf (some (6))]]) none)
  s ← s.set (.one (.int (0))) (.seq [.leaf (some (11)), .leaf (some (12)), .leaf (some (13))])
  check 569 ((pure s) >>= fun x => x.eqL (.seq [.seq [.leaf (some (11)), .leaf (some (12)), .leaf (some (13))], .seq [.leaf (some (4)), .leaf (some (5)), .leaf (some (6))]]))
  s ← s.set (.one (.int (1))) (.seq [.leaf (some (21)), .leaf (some (22)), .leaf (some (23))])
  check 571 ((pure s) >>= fun x => x.eqL (.seq [.seq [.leaf (some (11)), .leaf (some (12)), .leaf (some (13))], .seq [.leaf (some (21)), .leaf (some (22)), .leaf (some (23))]]))
  s ← s.set (.tuple [.int (0), sl (some (1)) none none]) (.seq [.leaf (some (120)), .leaf (some (130))])
  check 573 ((pure s) >>= fun x => x.eqL (.seq [.seq [.leaf (some (11)), .leaf (some (120)), .leaf (some (130))], .seq [.leaf (some (21)), .leaf (some (22)), .leaf (some (23))]]))
  s ← s.set (.tuple [sl none none none, .int (1)]) (.seq [.leaf (some (221)), .leaf (some (222))])
  check 575 ((pure s) >>= fun x => x.eqL (.seq [.seq [.leaf (some (11)), .leaf (some (221)), .leaf (some (130))], .seq [.leaf (some (21)), .leaf (some (222)), .leaf (some (23))]]))
  s ← (from_ .flatcoo (.seq [.seq [.leaf (some (1)), .leaf (some (2)), .leaf (some (3))], .seq [.leaf (some (4)), .leaf (some (5)), .leaf (some (6))]]) none)
  check 578 (((pure s) >>= fun x => x.sub (.one (.int (0)))) >>= fun x => x.eqL (.seq [.leaf (some (1)), .leaf (some (2)), .leaf (some (3))]))
  check 579 (((pure s) >>= fun x => x.sub (.one (.int (1)))) >>= fun x => x.eqL (.seq [.leaf (some (4)), .leaf (some (5)), .leaf (some (6))]))
  check 580 (((pure s) >>= fun x => x.sub (.tuple [sl none none none, .int (0)])) >>= fun x => x.eqL (.seq [.leaf (some (1)), .leaf (some (4))]))
  check 581 (((pure s) >>= fun x => x.sub (.tuple [sl none none none, .int (1)])) >>= fun x => x.eqL (.seq [.leaf (some (2)), .leaf (some (5))]))
  check 582 (((pure s) >>= fun x => x.sub (.tuple [sl none none none, .int (2)])) >>= fun x => x.eqL (.seq [.leaf (some (3)), .leaf (some (6))]))
  check 583 (((pure s) >>= fun x => x.sub (.tuple [sl (some (1)) none none, sl (some (1)) none none])) >>= fun x => x.eqL (.seq [.seq [.leaf (some (5)), .leaf (some (6))]]))
  check 584 (((pure s) >>= fun x => x.sub (.tuple [sl none (some (1)) none, sl none (some (2)) none])) >>= fun x => x.eqL (.seq [.seq [.leaf (some (1)), .leaf (some (2))]]))
  check 585 (((pure s) >>= fun x => x.sub (.tuple [.int (0), sl none none (some (2))])) >>= fun x => x.eqL (.seq [.leaf (some (1)), .leaf (some (3))]))
  check 586 (((pure s) >>= fun x => x.sub (.tuple [.int (1), sl none none (some (2))])) >>= fun x => x.eqL (.seq [.leaf (some (4)), .leaf (some (6))]))
  check 587 (((pure s) >>= fun x => x.sub (.tuple [.int (0), sl none none (some (-1))])) >>= fun x => x.eqL (.seq [.leaf (some (3)), .leaf (some (2)), .leaf (some (1))]))
  check 588 (((pure s) >>= fun x => x.sub (.tuple [sl none none (some (-1)), sl none none (some (-1))])) >>= fun x => x.eqL (.seq [.seq [.leaf (some (6)), .leaf (some (5)), .leaf (some (4))], .seq [.leaf (some (3)), .leaf (some (2)), .leaf (some (1))]]))

example : test_slicing_FlatCOO = .ok () := by decide +kernel

/-- gcs/tests/test_storage.py:565-588, for `CSR`. -/
def test_slicing_CSR : PyM Unit := do
  let mut s ← (from_ .csr (.seq [.seq [.leaf (some (1)), .leaf (some (2)), .leaf (some (3))], .seq [.leaf (some (4)), .leaf (some (5)), .leaf (some (6))]]) none)
  s ← s.set (.one (.int (0))) (.seq [.leaf (some (11)), .leaf (some (12)), .leaf (some (13))])
  check 569 ((pure s) >>= fun x => x.eqL (.seq [.seq [.leaf (some (11)), .leaf (some (12)), .leaf (some (13))], .seq [.leaf (some (4)), .leaf (some (5)), .leaf (some (6))]]))
  s ← s.set (.one (.int (1))) (.seq [.leaf (some (21)), .leaf (some (22)), .leaf (some (23))])
  check 571 ((pure s) >>= fun x => x.eqL (.seq [.seq [.leaf (some (11)), .leaf (some (12)), .leaf (some (13))], .seq [.leaf (some (21)), .leaf (some (22)), .leaf (some (23))]]))
  s ← s.set (.tuple [.int (0), sl (some (1)) none none]) (.seq [.leaf (some (120)), .leaf (some (130))])
  check 573 ((pure s) >>= fun x => x.eqL (.seq [.seq [.leaf (some (11)), .leaf (some (120)), .leaf (some (130))], .seq [.leaf (some (21)), .leaf (some (22)), .leaf (some (23))]]))
  s ← s.set (.tuple [sl none none none, .int (1)]) (.seq [.leaf (some (221)), .leaf (some (222))])
  check 575 ((pure s) >>= fun x => x.eqL (.seq [.seq [.leaf (some (11)), .leaf (some (221)), .leaf (some (130))], .seq [.leaf (some (21)), .leaf (some (222)), .leaf (some (23))]]))
  s ← (from_ .csr (.seq [.seq [.leaf (some (1)), .leaf (some (2)), .leaf (some (3))], .seq [.leaf (some (4)), .leaf (some (5)), .leaf (some (6))]]) none)
  check 578 (((pure s) >>= fun x => x.sub (.one (.int (0)))) >>= fun x => x.eqL (.seq [.leaf (some (1)), .leaf (some (2)), .leaf (some (3))]))
  check 579 (((pure s) >>= fun x => x.sub (.one (.int (1)))) >>= fun x => x.eqL (.seq [.leaf (some (4)), .leaf (some (5)), .leaf (some (6))]))
  check 580 (((pure s) >>= fun x => x.sub (.tuple [sl none none none, .int (0)])) >>= fun x => x.eqL (.seq [.leaf (some (1)), .leaf (some (4))]))
  check 581 (((pure s) >>= fun x => x.sub (.tuple [sl none none none, .int (1)])) >>= fun x => x.eqL (.seq [.leaf (some (2)), .leaf (some (5))]))
  check 582 (((pure s) >>= fun x => x.sub (.tuple [sl none none none, .int (2)])) >>= fun x => x.eqL (.seq [.leaf (some (3)), .leaf (some (6))]))
  check 583 (((pure s) >>= fun x => x.sub (.tuple [sl (some (1)) none none, sl (some (1)) none none])) >>= fun x => x.eqL (.seq [.seq [.leaf (some (5)), .leaf (some (6))]]))
  check 584 (((pure s) >>= fun x => x.sub (.tuple [sl none (some (1)) none, sl none (some (2)) none])) >>= fun x => x.eqL (.seq [.seq [.leaf (some (1)), .leaf (some (2))]]))
  check 585 (((pure s) >>= fun x => x.sub (.tuple [.int (0), sl none none (some (2))])) >>= fun x => x.eqL (.seq [.leaf (some (1)), .leaf (some (3))]))
  check 586 (((pure s) >>= fun x => x.sub (.tuple [.int (1), sl none none (some (2))])) >>= fun x => x.eqL (.seq [.leaf (some (4)), .leaf (some (6))]))
  check 587 (((pure s) >>= fun x => x.sub (.tuple [.int (0), sl none none (some (-1))])) >>= fun x => x.eqL (.seq [.leaf (some (3)), .leaf (some (2)), .leaf (some (1))]))
  check 588 (((pure s) >>= fun x => x.sub (.tuple [sl none none (some (-1)), sl none none (some (-1))])) >>= fun x => x.eqL (.seq [.seq [.leaf (some (6)), .leaf (some (5)), .leaf (some (4))], .seq [.leaf (some (3)), .leaf (some (2)), .leaf (some (1))]]))

example : test_slicing_CSR = .ok () := by decide +kernel

/-- gcs/tests/test_storage.py:565-588, for `DM`. -/
def test_slicing_DM : PyM Unit := do
  let mut s ← (from_ .dm (.seq [.seq [.leaf (some (1)), .leaf (some (2)), .leaf (some (3))], .seq [.leaf (some (4)), .leaf (some (5)), .leaf (some (6))]]) none)
  s ← s.set (.one (.int (0))) (.seq [.leaf (some (11)), .leaf (some (12)), .leaf (some (13))])
  check 569 ((pure s) >>= fun x => x.eqL (.seq [.seq [.leaf (some (11)), .leaf (some (12)), .leaf (some (13))], .seq [.leaf (some (4)), .leaf (some (5)), .leaf (some (6))]]))
  s ← s.set (.one (.int (1))) (.seq [.leaf (some (21)), .leaf (some (22)), .leaf (some (23))])
  check 571 ((pure s) >>= fun x => x.eqL (.seq [.seq [.leaf (some (11)), .leaf (some (12)), .leaf (some (13))], .seq [.leaf (some (21)), .leaf (some (22)), .leaf (some (23))]]))
  s ← s.set (.tuple [.int (0), sl (some (1)) none none]) (.seq [.leaf (some (120)), .leaf (some (130))])
  check 573 ((pure s) >>= fun x => x.eqL (.seq [.seq [.leaf (some (11)), .leaf (some (120)), .leaf (some (130))], .seq [.leaf (some (21)), .leaf (some (22)), .leaf (some (23))]]))
  s ← s.set (.tuple [sl none none none, .int (1)]) (.seq [.leaf (some (221)), .leaf (some (222))])
  check 575 ((pure s) >>= fun x => x.eqL (.seq [.seq [.leaf (some (11)), .leaf (some (221)), .leaf (some (130))], .seq [.leaf (some (21)), .leaf (some (222)), .leaf (some (23))]]))
  s ← (from_ .dm (.seq [.seq [.leaf (some (1)), .leaf (some (2)), .leaf (some (3))], .seq [.leaf (some (4)), .leaf (some (5)), .leaf (some (6))]]) none)
  check 578 (((pure s) >>= fun x => x.sub (.one (.int (0)))) >>= fun x => x.eqL (.seq [.leaf (some (1)), .leaf (some (2)), .leaf (some (3))]))
  check 579 (((pure s) >>= fun x => x.sub (.one (.int (1)))) >>= fun x => x.eqL (.seq [.leaf (some (4)), .leaf (some (5)), .leaf (some (6))]))
  check 580 (((pure s) >>= fun x => x.sub (.tuple [sl none none none, .int (0)])) >>= fun x => x.eqL (.seq [.leaf (some (1)), .leaf (some (4))]))
  check 581 (((pure s) >>= fun x => x.sub (.tuple [sl none none none, .int (1)])) >>= fun x => x.eqL (.seq [.leaf (some (2)), .leaf (some (5))]))
  check 582 (((pure s) >>= fun x => x.sub (.tuple [sl none none none, .int (2)])) >>= fun x => x.eqL (.seq [.leaf (some (3)), .leaf (some (6))]))
  check 583 (((pure s) >>= fun x => x.sub (.tuple [sl (some (1)) none none, sl (some (1)) none none])) >>= fun x => x.eqL (.seq [.seq [.leaf (some (5)), .leaf (some (6))]]))
  check 584 (((pure s) >>= fun x => x.sub (.tuple [sl none (some (1)) none, sl none (some (2)) none])) >>= fun x => x.eqL (.seq [.seq [.leaf (some (1)), .leaf (some (2))]]))
  check 585 (((pure s) >>= fun x => x.sub (.tuple [.int (0), sl none none (some (2))])) >>= fun x => x.eqL (.seq [.leaf (some (1)), .leaf (some (3))]))
  check 586 (((pure s) >>= fun x => x.sub (.tuple [.int (1), sl none none (some (2))])) >>= fun x => x.eqL (.seq [.leaf (some (4)), .leaf (some (6))]))
  check 587 (((pure s) >>= fun x => x.sub (.tuple [.int (0), sl none none (some (-1))])) >>= fun x => x.eqL (.seq [.leaf (some (3)), .leaf (some (2)), .leaf (some (1))]))
  check 588 (((pure s) >>= fun x => x.sub (.tuple [sl none none (some (-1)), sl none none (some (-1))])) >>= fun x => x.eqL (.seq [.seq [.leaf (some (6)), .leaf (some (5)), .leaf (some (4))], .seq [.leaf (some (3)), .leaf (some (2)), .leaf (some (1))]]))

example : test_slicing_DM = .ok () := by decide +kernel

/-! ## Tests of `DM` -/

/-- `DM(shape, rdimensions, rstrides, roffset, data)`. -/
def mkDM (shape : List Nat) (rdims : List (List Nat)) (rstrides : List (List Int)) (roffset : List Int) (d : PyM Obj) :
    PyM Obj := do
  let o ← d
  let m ← DMMeta.new shape rdims rstrides roffset
  return ⟨.dm m o.s, o.m⟩

/-- `DM.fromobject(seq, dimensions=..., partitioning=..., storage_class=..., unspecified=u)`. -/
def dmFrom (n : Nested V) (dims part : Option (List Nat)) (c : Cls) (u : Option V) : PyM Obj := do
  let (s, m) ← fromObjectDM (.nested n) dims part c u
  return ⟨s, m⟩

def rows2 (l : List (List V)) : Nested V := .seq (l.map fun r => .seq (r.map .leaf))
def row1 (l : List V) : Nested V := .seq (l.map .leaf)

/-- The parameters of `test_2D_DM`: gcs/tests/test_storage.py:389-428. -/
inductive Red where
  | d2 | d1 | t1

def Red.mk2 (r : Red) (c : Cls) (seq : List (List V)) (u : Option V) : PyM Obj :=
  match r with
  | .d2 => mkDM [2, 3] [[0], [1]] [[1], [1]] [0, 0] (from_ c (rows2 seq) u)
  | .d1 => mkDM [2, 3] [[0, 1]] [[3, 1]] [0] (from_ c (row1 seq.flatten) (some (u.getD none)))
  | .t1 => mkDM [2, 3] [[1, 0]] [[2, 1]] [0] (from_ c (row1 (seq.transpose.flatten)) (some (u.getD none)))

def Red.dims : Red → Option (List Nat)
  | .d2 => none
  | .d1 => some [0, 1]
  | .t1 => some [1, 0]

def Red.part : Red → Option (List Nat)
  | .d2 => none
  | _ => some []

/-- gcs/tests/test_storage.py:387-475. -/
def test_2D_DM (c : Cls) (dense : Bool) (r : Red) : PyM Unit := do
  let seq : List (List V) := [[some 1, some 2, some 3], [some 4, some 5, some 6]]
  let s ← dmFrom (rows2 seq) r.dims r.part c none
  let s2 ← r.mk2 c seq none
  check 433 (return s.eq s2)
  for (i, j, v) in [(0, 0, 1), (0, 1, 2), (0, 2, 3), (1, 0, 4), (1, 1, 5), (1, 2, 6)] do
    check 435 (do return (← s.val (.tuple [.int i, .int j])) = some v)
  check 441 (return s.s.shape = [2, 3])
  let s2 ← s2.set (.tuple [.int 1, .int 1]) (.leaf (some 22))
  check 444 (do return (← s2.val (.tuple [.int 1, .int 1])) = some 22)
  check 445 (return !s.eq s2)
  let seq : List (List V) := [[some 1, none, some 3], [none, some 5, none]]
  let s ← dmFrom (rows2 seq) r.dims r.part c none
  let s2 ← r.mk2 c seq none
  check 452 (return s.eq s2)
  check 453 (return s.s.isFull = dense)
  for (i, j, v) in ([(0, 0, some 1), (0, 1, none), (0, 2, some 3), (1, 0, none), (1, 1, some 5), (1, 2, none)] : List (Int × Int × V)) do
    check 455 (do return (← s.val (.tuple [.int i, .int j])) = v)
  check 456 (return s.s.unspec = none)
  let seq : List (List V) := [[some 1, some 0, some 3], [some 0, some 5, some 0]]
  let s ← dmFrom (rows2 seq) r.dims r.part c (some (some 0))
  let s2 ← r.mk2 c seq (some (some 0))
  check 467 (return s.eq s2)
  check 468 (return s.s.isFull = dense)
  for (i, j, v) in ([(0, 0, 1), (0, 1, 0), (0, 2, 3), (1, 0, 0), (1, 1, 5), (1, 2, 0)] : List (Int × Int × Int)) do
    check 470 (do return (← s.val (.tuple [.int i, .int j])) = some v)
  check 471 (return s.s.unspec = some 0)

/-- `make_sample(shape, base)`: gcs/tests/test_storage.py:478-484. -/
def makeSample : List Nat → Int → Nested V
  | [], base => .leaf (some base)
  | [n], base => .seq ((List.range n).map fun (i : Nat) => .leaf (some (base + i + 1)))
  | n :: m :: rest, base =>
    .seq ((List.range n).map fun (i : Nat) => makeSample (m :: rest) (base + (i + 1) * 10 ^ (rest.length + 1)))

def sampleShape (n : Nat) : List Nat := (List.range n).map fun i => [2, 3, 4].getD (i % 3) 0

/-- gcs/tests/test_storage.py:538-560. -/
def test_NtoM_DM (c : Cls) (dims part : List Nat) : PyM Unit := do
  let shape := sampleShape dims.length
  let seq := makeSample shape 0
  let sample ← from_ .strided seq none
  let s ← dmFrom seq (some dims) (some part) c none
  check 554 (return s.s.shape.length = dims.length)
  check 555 (match s.s with | .dm _ d => return d.shape.length = part.length + 1 | _ => return false)
  check 556 (sample.equal s)
  check 557 (s.equal sample)

/-- `make_slice_samples(size)`: gcs/tests/test_storage.py:590-615. -/
def makeSliceSamples (size : Int) : List Ix :=
  [.int 0, .int (size / 2), .int (size - 1), .int (-1), .int (Int.fdiv (-size) 2),
   sl none none none, sl none (some (size / 2)) none, sl none (some (size / 2)) none,
   sl (some (size / 4)) (some (3 * size / 2)) none, sl none none (some 2), sl none none (some 3),
   sl (some (size / 2)) none (some 2), sl none (some (size / 2)) (some 2),
   sl (some (size / 4)) (some (3 * size / 2)) (some 2), sl (some (size / 2)) none (some 3),
   sl none (some (size / 2)) (some 3), sl (some (size / 4)) (some (3 * size / 2)) (some 3),
   sl none none (some (-1)), sl (some (-2)) none (some (-1)), sl none (some 1) (some (-1)),
   sl (some (-2)) (some 1) (some (-1)), sl none none (some (-2)), sl (some (-2)) none (some (-2)),
   sl none (some 1) (some (-2)), sl (some (-2)) (some 1) (some (-2))]

def Obj.isDM (o : Obj) : Bool := match o.s with | .dm .. => true | _ => false

/-- The second half of `test_DM_slicing`, for one slice. -/
def sameSlice (strided s : Obj) (ix : List Ix) (line : Nat) (mustDM : Bool) : PyM Unit := do
  match ← s.s.getItem s.m (.tuple ix) with
  | .val v => do
    check line (return !mustDM)
    check line (do return (← strided.val (.tuple ix)) = v)
  | .view r => do
    check line (return (⟨r, s.m⟩ : Obj).isDM)
    check line (do (← strided.sub (.tuple ix)).equal ⟨r, s.m⟩)
  | .fresh r m => do
    check line (return (⟨r, m⟩ : Obj).isDM)
    check line (do (← strided.sub (.tuple ix)).equal ⟨r, m⟩)

def dedup (l : List Nat) : List Nat := l.eraseDups

/-- gcs/tests/test_storage.py:627-673. -/
def test_DM_slicing (c : Cls) (dims part : List Nat) (two : Bool) : PyM Unit := do
  let n := dims.length
  let shape := sampleShape n
  let seq := makeSample shape 0
  let strided ← from_ .strided seq none
  let s ← dmFrom seq (some dims) (some part) c none
  check 640 (strided.equal s)
  check 641 (s.equal strided)
  let st (a b : Option Int) (k : Int) := sl a b (some k)
  for ix in [[sl none none none, st none none 3], [st none none 2], [st none none 2, st none none 3], [st (some 1) none 2],
      [st (some 1) none 2, st (some 2) none 3], [st none none (-2)]] do
    check 642 (do (← strided.sub (.tuple ix)).equal (← s.sub (.tuple ix)))
  let sel := dedup [0, n / 2, n - 1]
  for k in sel do
    for sl1 in makeSliceSamples (shape.getD k 0) do
      let pre := List.replicate k (sl none none none)
      sameSlice strided s (pre ++ [sl1]) 661 true
      if two then
        for k2 in sel do
          if k < k2 then
            for sl2 in makeSliceSamples (shape.getD k2 0) do
              sameSlice strided s (pre ++ [sl1] ++ List.replicate (k2 - k - 1) (sl none none none) ++ [sl2]) 669 false

example : (do for (c, d) in [(Cls.strided, true), (.coo, false), (.flatcoo, false)] do
                for r in [Red.d2, .d1, .t1] do test_2D_DM c d r : PyM Unit) = .ok () := by decide +kernel

example : test_2D_DM .csr false .d2 = .ok () := by decide +kernel

/-- The parameters of `test_NtoM_DM` with two and three axes: gcs/tests/test_storage.py:495-535. -/
def parameters : List (Cls × List Nat × List Nat) := [
  (.strided, [0, 1], []), (.strided, [1, 0], []), (.coo, [0, 1], []), (.coo, [1, 0], []), (.flatcoo, [0, 1], []),
  (.flatcoo, [1, 0], []), (.buffer, [0, 1], []), (.buffer, [1, 0], []), (.strided, [0, 1], [1]),
  (.strided, [1, 0], [1]), (.coo, [0, 1], [1]), (.coo, [1, 0], [1]), (.flatcoo, [0, 1], [1]),
  (.flatcoo, [1, 0], [1]), (.csr, [0, 1], [1]), (.csr, [1, 0], [1]), (.strided, [0, 1, 2], []),
  (.strided, [0, 2, 1], []), (.strided, [1, 0, 2], []), (.strided, [1, 2, 0], []), (.strided, [2, 0, 1], []),
  (.strided, [2, 1, 0], []), (.coo, [0, 1, 2], []), (.coo, [0, 2, 1], []), (.coo, [1, 0, 2], []),
  (.coo, [1, 2, 0], []), (.coo, [2, 0, 1], []), (.coo, [2, 1, 0], []), (.flatcoo, [0, 1, 2], []),
  (.flatcoo, [0, 2, 1], []), (.flatcoo, [1, 0, 2], []), (.flatcoo, [1, 2, 0], []), (.flatcoo, [2, 0, 1], []),
  (.flatcoo, [2, 1, 0], []), (.buffer, [0, 1, 2], []), (.buffer, [0, 2, 1], []), (.buffer, [1, 0, 2], []),
  (.buffer, [1, 2, 0], []), (.buffer, [2, 0, 1], []), (.buffer, [2, 1, 0], []), (.strided, [0, 1, 2], [1]),
  (.strided, [0, 1, 2], [2]), (.strided, [0, 2, 1], [1]), (.strided, [0, 2, 1], [2]), (.strided, [1, 0, 2], [1]),
  (.strided, [1, 0, 2], [2]), (.strided, [1, 2, 0], [1]), (.strided, [1, 2, 0], [2]), (.strided, [2, 0, 1], [1]),
  (.strided, [2, 0, 1], [2]), (.strided, [2, 1, 0], [1]), (.strided, [2, 1, 0], [2]), (.coo, [0, 1, 2], [1]),
  (.coo, [0, 1, 2], [2]), (.coo, [0, 2, 1], [1]), (.coo, [0, 2, 1], [2]), (.coo, [1, 0, 2], [1]),
  (.coo, [1, 0, 2], [2]), (.coo, [1, 2, 0], [1]), (.coo, [1, 2, 0], [2]), (.coo, [2, 0, 1], [1]),
  (.coo, [2, 0, 1], [2]), (.coo, [2, 1, 0], [1]), (.coo, [2, 1, 0], [2]), (.flatcoo, [0, 1, 2], [1]),
  (.flatcoo, [0, 1, 2], [2]), (.flatcoo, [0, 2, 1], [1]), (.flatcoo, [0, 2, 1], [2]), (.flatcoo, [1, 0, 2], [1]),
  (.flatcoo, [1, 0, 2], [2]), (.flatcoo, [1, 2, 0], [1]), (.flatcoo, [1, 2, 0], [2]), (.flatcoo, [2, 0, 1], [1]),
  (.flatcoo, [2, 0, 1], [2]), (.flatcoo, [2, 1, 0], [1]), (.flatcoo, [2, 1, 0], [2]), (.csr, [0, 1, 2], [1]),
  (.csr, [0, 1, 2], [2]), (.csr, [0, 2, 1], [1]), (.csr, [0, 2, 1], [2]), (.csr, [1, 0, 2], [1]),
  (.csr, [1, 0, 2], [2]), (.csr, [1, 2, 0], [1]), (.csr, [1, 2, 0], [2]), (.csr, [2, 0, 1], [1]),
  (.csr, [2, 0, 1], [2]), (.csr, [2, 1, 0], [1]), (.csr, [2, 1, 0], [2]), (.strided, [0, 1, 2], [1, 2]),
  (.strided, [0, 2, 1], [1, 2]), (.strided, [1, 0, 2], [1, 2]), (.strided, [1, 2, 0], [1, 2]),
  (.strided, [2, 0, 1], [1, 2]), (.strided, [2, 1, 0], [1, 2]), (.coo, [0, 1, 2], [1, 2]),
  (.coo, [0, 2, 1], [1, 2]), (.coo, [1, 0, 2], [1, 2]), (.coo, [1, 2, 0], [1, 2]), (.coo, [2, 0, 1], [1, 2]),
  (.coo, [2, 1, 0], [1, 2]), (.flatcoo, [0, 1, 2], [1, 2]), (.flatcoo, [0, 2, 1], [1, 2]),
  (.flatcoo, [1, 0, 2], [1, 2]), (.flatcoo, [1, 2, 0], [1, 2]), (.flatcoo, [2, 0, 1], [1, 2]),
  (.flatcoo, [2, 1, 0], [1, 2])]

example : (do for (c, d, p) in parameters do test_NtoM_DM c d p : PyM Unit) = .ok () := by decide +kernel

/-- The parameters of `test_DM_slicing` with two axes (here for one slice at a time). -/
def slicingParameters : List (Cls × List Nat × List Nat) := [
  (.strided, [0, 1], []), (.strided, [1, 0], []), (.coo, [0, 1], []), (.coo, [1, 0], []), (.flatcoo, [0, 1], []),
  (.flatcoo, [1, 0], []), (.buffer, [0, 1], []), (.buffer, [1, 0], []), (.strided, [0, 1], [1]),
  (.strided, [1, 0], [1]), (.coo, [0, 1], [1]), (.coo, [1, 0], [1]), (.flatcoo, [0, 1], [1]),
  (.flatcoo, [1, 0], [1]), (.csr, [0, 1], [1]), (.csr, [1, 0], [1])]

example : (do for (c, d, p) in slicingParameters do test_DM_slicing c d p false : PyM Unit) = .ok () := by decide +kernel

/-- test_gcs_basics.py:40-53. -/
def test_compress_indices : PyM Unit := do
  check 42 (do return (← compressIndices [0, 1, 2, 3, 4] 5) = [0, 1, 2, 3, 4, 5])
  check 43 (do return (← compressIndices [0, 1, 2] 3) = [0, 1, 2, 3])
  check 44 (do return (← compressIndices [0, 1, 1] 3) = [0, 1, 3, 3])
  check 45 (do return (← compressIndices [0, 0, 2] 3) = [0, 2, 2, 3])
  check 46 (do return (← compressIndices [1, 1, 2] 3) = [0, 0, 2, 3])
  check 47 (do return (← compressIndices [0, 0, 1, 1, 1, 2, 2, 2, 2] 3) = [0, 2, 5, 9])
  check 48 (do return (← compressIndices [0, 0, 2, 2, 2, 2] 3) = [0, 2, 2, 6])
  check 50 (do return (← compressIndices [] 3) = [0, 0, 0, 0])
  check 51 (do return (← compressIndices [0] 3) = [0, 1, 1, 1])
  check 52 (do return (← compressIndices [2] 3) = [0, 0, 0, 1])

example : test_compress_indices = .ok () := by decide +kernel

end Gcs.Conformance
