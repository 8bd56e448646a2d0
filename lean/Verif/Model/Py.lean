/-!
# Python primitives used by the model

Exceptions are values: a Python call that can raise returns `PyM α = Except PyErr α`.
Python `int` is `Int` (both unbounded); `//` and `%` on ints round towards minus infinity, which is
`Int.fdiv` / `Int.fmod`, and raise `ZeroDivisionError` when the divisor is `0`.
-/

namespace Gcs

/-- The Python exception classes that the modelled code can raise (built-in exceptions, no file). -/
inductive PyErr where
  | zeroDivision
  | index
  | value
  | assertion
  | type
  | attribute
  | notImplemented
  | key
  deriving DecidableEq, Repr

/-- A Python computation that returns a value or raises. -/
abbrev PyM (α : Type) := Except PyErr α

/-- Python `a // b` on ints. -/
def pyDiv (a b : Int) : PyM Int :=
  if b = 0 then .error .zeroDivision else .ok (Int.fdiv a b)

/-- Python `a % b` on ints. -/
def pyMod (a b : Int) : PyM Int :=
  if b = 0 then .error .zeroDivision else .ok (Int.fmod a b)

/-- Python `assert c`. -/
def pyAssert (c : Bool) : PyM Unit :=
  if c then .ok () else .error .assertion

/-- Python `l[i]` on a list or tuple, `i` an int: negative positions count from the end, positions
outside `[-len, len)` raise `IndexError`. -/
def pyGet {α : Type} (l : List α) (i : Int) : PyM α :=
  if 0 ≤ i then
    match l[i.toNat]? with
    | some v => .ok v
    | none => .error .index
  else if -(l.length : Int) ≤ i then
    match l[(i + l.length).toNat]? with
    | some v => .ok v
    | none => .error .index
  else .error .index

/-- Python `l[i] = v` on a list: same positions as `pyGet`; the list afterwards. -/
def pySet {α : Type} (l : List α) (i : Int) (v : α) : PyM (List α) :=
  if 0 ≤ i then
    if i < l.length then .ok (l.set i.toNat v) else .error .index
  else if -(l.length : Int) ≤ i then .ok (l.set (i + l.length).toNat v)
  else .error .index

/-- A Python `slice` object; `none` is `None`. -/
structure PySlice where
  start : Option Int
  stop : Option Int
  step : Option Int
  deriving DecidableEq, Repr

/-- A Python `slice` object all of whose parts are ints (what `reduced` returns). -/
structure RSlice where
  start : Int
  stop : Int
  step : Int
  deriving DecidableEq, Repr

/-- The `slice` object itself. -/
def RSlice.toPy (r : RSlice) : PySlice := ⟨some r.start, some r.stop, some r.step⟩

/-- `itertools.product(*map(range, shape))`: all index tuples of the box `shape`, the last
component varying fastest. -/
def indexProduct : List Nat → List (List Int)
  | [] => [[]]
  | n :: rest => (List.range n).flatMap fun (i : Nat) => (indexProduct rest).map fun ix => (i : Int) :: ix

/-- `itertools.product((0, 1), repeat=n)` in the order Python yields it. -/
def bits : Nat → List (List Int)
  | 0 => [[]]
  | n + 1 => [0, 1].flatMap fun (i : Int) => (bits n).map fun ix => i :: ix

end Gcs
