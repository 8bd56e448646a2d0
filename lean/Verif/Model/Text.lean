/-
Model of the text of objects: `Storage.__repr__`, `Storage.__str__`, `Buffer.__repr__` (gcs/storage.py) and `show`
(gcs/slice_tools.py).  How a value of the user is printed is a parameter.
-/
import Verif.Model.Version
import Verif.Model.Storage

namespace Gcs
namespace Text

open Version (Str dec)

variable {V : Type}

/-- `str(v)` and `repr(v)` of the values. -/
structure Texts (V : Type) where
  str : V → Str
  repr : V → Str

/-- `str(i)` of an int. -/
def intText (i : Int) : Str := if i < 0 then '-' :: dec i.natAbs else dec i.natAbs

/-- Ints and `None` (the items of index lists). -/
def optTexts : Texts (Option Int) where
  str := fun v => v.elim "None".toList intText
  repr := fun v => v.elim "None".toList intText

/-- `sep.join(items)`. -/
def join (sep : Str) : List Str → Str
  | [] => []
  | [s] => s
  | s :: t :: ts => s ++ sep ++ join sep (t :: ts)

/-- `str(list)`. -/
def listText (items : List Str) : Str := "[".toList ++ join ", ".toList items ++ "]".toList

/-- `str(tuple)`: a tuple of one item has a comma. -/
def tupleText : List Str → Str
  | [s] => "(".toList ++ s ++ ",)".toList
  | items => "(".toList ++ join ", ".toList items ++ ")".toList

/-- `s[:40] + "....." + s[-40:]` of a text longer than 100: gcs/storage.py:416-417, 533-534. -/
def shorten (s : Str) : Str :=
  if s.length > 100 then s.take 40 ++ ".....".toList ++ s.drop (s.length - 40) else s

/-- `c * n`, empty for a negative number. -/
def times (c : Char) (n : Int) : Str := List.replicate n.toNat c

/-- `Buffer.__repr__`: gcs/storage.py:527-536. -/
def bufferRepr (T : Texts V) (b : Buffer V) (mem : List V) : Str :=
  let data := listText (((mem.drop b.offset).take b.size).map T.repr)
  let n : Int := b.offset
  let p := times '*' (Int.fdiv n 10) ++ times '.' (Int.fmod n 10)
  let n : Int := (mem.length : Int) - (b.offset + b.size)
  let s := times '.' (Int.fmod n 10) ++ times '*' (Int.fdiv n 10)
  let data := shorten data
  "Buffer(".toList ++ dec b.size ++ ", ".toList ++ dec b.offset ++ ", ".toList ++ p ++ data ++ s ++
    ", unspecified=".toList ++ T.str b.unspec ++ ")".toList

/-- `str(shape)`. -/
def shapeText (l : List Nat) : Str := tupleText (l.map dec)

/-- `str(strides)`. -/
def intsText (l : List Int) : Str := tupleText (l.map intText)

/-- `Storage.__repr__` of a `Strided`: gcs/storage.py:305-306, 621-622. -/
def stridedRepr (T : Texts V) (s : Strided V) (mem : List V) : Str :=
  "Strided".toList ++ tupleText [shapeText s.shape, intsText s.strides, bufferRepr T s.data mem]

/-- `Storage.__repr__`: gcs/storage.py:305-306, with the `_get_object_data` of the classes: 621-622, 710-711,
789-790, 859-860, 1069-1070. -/
def storageRepr (T : Texts V) : Storage V → List V → Str
  | .buffer b, mem => bufferRepr T b mem
  | .strided s, mem => stridedRepr T s mem
  | .coo c, mem =>
    "COO".toList ++ tupleText [shapeText c.shape, stridedRepr optTexts c.indices c.imem, bufferRepr T c.data mem]
  | .flatcoo f, mem =>
    "FlatCOO".toList ++ tupleText [shapeText f.shape, bufferRepr optTexts f.findices f.fmem, bufferRepr T f.data mem]
  | .csr c, mem =>
    "CSR".toList ++ tupleText [shapeText c.shape, bufferRepr optTexts c.crow c.crowMem,
      bufferRepr optTexts c.col c.colMem, bufferRepr T c.data mem]
  | .dm m d, mem =>
    "DM".toList ++ tupleText [shapeText m.shape, tupleText (m.rdims.map shapeText), tupleText (m.rstrides.map intsText),
      intsText m.roffset, storageRepr T d mem]

/-- `str(self[i])` in a line of `Storage.__str__` of a one-dimensional array: gcs/storage.py:415. -/
def itemStr (T : Texts V) (s : Strided V) (mem : List V) (i : Nat) : PyM Str := do
  match ← s.getItem mem (.one (.int i)) with
  | .inl v => return T.str v
  | .inr r => return stridedRepr T r mem

/-- `Storage.__str__` of a one-dimensional array: gcs/storage.py:414-418. -/
def lineStr (T : Texts V) (s : Strided V) (mem : List V) (n : Nat) : PyM Str := do
  let items ← (List.range n).mapM fun (i : Nat) => itemStr T s mem i
  return "[".toList ++ shorten (join ", ".toList items) ++ "]".toList

/-- `str(self[i])` in `Storage.__str__` of a two-dimensional array: gcs/storage.py:421. -/
def rowStr (T : Texts V) (s : Strided V) (mem : List V) (i : Nat) : PyM Str := do
  match ← s.getItem mem (.one (.int i)) with
  | .inl v => return T.str v
  | .inr r =>
    match r.shape with
    | [n] => lineStr T r mem n
    | _ => return stridedRepr T r mem

/-- `Storage.__str__`: gcs/storage.py:411-423. -/
def storageStr (T : Texts V) : Storage V → List V → PyM Str
  | .strided s, mem =>
    match s.shape with
    | [n] => lineStr T s mem n
    | [n, _] => do
      let rows ← (List.range n).mapM fun (i : Nat) => rowStr T s mem i
      return "[ ".toList ++ join "\n  ".toList rows ++ "\n]".toList
    | _ => return stridedRepr T s mem
  | s, mem => return storageRepr T s mem

/-- `fmt % text` with a width: padded on the left. -/
def padLeft (w : Nat) (s : Str) : Str := List.replicate (w - s.length) ' ' ++ s

/-- The lines that `show(A)` prints, for a dictionary of ints with pairs of ints as keys: gcs/slice_tools.py:289-305. -/
def showLines (A : List ((Nat × Nat) × Int)) : List Str :=
  let n := if A.isEmpty then 0 else (A.map fun e => e.1.1).foldl max 0 + 1
  let m := if A.isEmpty then 0 else (A.map fun e => e.1.2).foldl max 0 + 1
  let w := if A.isEmpty then 0 else (A.map fun e => (intText e.2).length).foldl max 0
  let rows := (List.range n).map fun i =>
    ((List.range m).map fun j => padLeft (w + 1) (((A.lookup (i, j)).map intText).getD "-".toList)).flatten
  ["[".toList] ++ rows ++ ["]".toList]

end Text
end Gcs
