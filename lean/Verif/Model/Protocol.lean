import Verif.Model.Storage

/-!
# Model of the sequence protocol: `len(s)`, `for x in s`, `v in s`

Python's loops over objects of the classes of gcs/storage.py.  Only `Buffer` has an `__iter__`
(gcs/storage.py:588-590); for all others Python falls back on `s[0]`, `s[1]`, ... until an `IndexError`
(Python language reference, "iterator types": the old sequence protocol).
-/

namespace Gcs

variable {V : Type}

/-- `len(self)`: gcs/storage.py:291-292. -/
def Storage.len (s : Storage V) : PyM Nat := pyGet s.shape 0

/-- What call number `i` (from `0`) of `next` on `iter(self)` gives; `none` is the end of the iteration.
`Buffer`: gcs/storage.py:588-590; the others: `self[i]`, gcs/storage.py:362-370, where an `IndexError` ends the
iteration and other exceptions are passed on. -/
def Storage.next [DecidableEq V] (s : Storage V) (mem : List V) (i : Nat) : PyM (Option (Res V)) :=
  match s with
  | .buffer b => if i < b.size then do return some (.val (← pyGet mem ((b.offset : Int) + i))) else return none
  | s =>
    match s.getItem mem (.one (.int i)) with
    | .ok r => .ok (some r)
    | .error .index => .ok none
    | .error e => .error e

/-- The first `k` turns of the loop `for x in self` from item `i` on: the items, and whether the loop has ended. -/
def Storage.loop [DecidableEq V] (s : Storage V) (mem : List V) : Nat → Nat → PyM (List (Res V) × Bool)
  | _, 0 => return ([], false)
  | i, k + 1 => do
    match ← s.next mem i with
    | none => return ([], true)
    | some r => do
      let (rs, e) ← s.loop mem (i + 1) k
      return (r :: rs, e)

/-- `v in self`, after at most `k` turns of its loop from item `i` on: `none` means that it still runs.  No class
has a `__contains__`, so Python compares `v` with the items of the iteration.  A value is never equal to a storage
object (gcs/storage.py:294-297). -/
def Storage.contains [DecidableEq V] (s : Storage V) (mem : List V) (v : V) : Nat → Nat → PyM (Option Bool)
  | _, 0 => return none
  | i, k + 1 => do
    match ← s.next mem i with
    | none => return some false
    | some (.val w) => if w = v then return some true else s.contains mem v (i + 1) k
    | some _ => s.contains mem v (i + 1) k

end Gcs
