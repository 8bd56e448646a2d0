import Verif.Model.Basics

/-!
# Model of the examples of `test_gcs_basics.py`

How the examples make the lists of the GCS format from the elements of an array: a dictionary from reduced indices to values,
and then row indices, column indices and values in the order of the sorted keys.
-/

namespace Gcs.Basics

variable {V : Type}

/-- `x <= y` for tuples of ints, the order of `sorted` (language reference, value comparisons). -/
def tupleLe : List Int → List Int → Bool
  | [], _ => true
  | _ :: _, [] => false
  | a :: x, b :: y => if a = b then tupleLe x y else decide (a < b)

/-- `d[key] = value`: a new key comes last, the value of an old key is replaced (language reference, dictionaries). -/
def dictSet (key : List Int) (value : V) : List (List Int × V) → List (List Int × V)
  | [] => [(key, value)]
  | e :: d => if e.1 = key then (key, value) :: d else e :: dictSet key value d

/-- `d[key]`. -/
def dictGet (key : List Int) : List (List Int × V) → PyM V
  | [] => .error .key
  | e :: d => if e.1 = key then .ok e.2 else dictGet key d

/-- The loop that fills the dictionary: test_gcs_basics.py:121-126 (the same in lines 64-68 and 181-185). -/
def reducedDict (md : Metadata) : List (List Int × V) → List (List Int × V) → PyM (List (List Int × V))
  | [], d => return d
  | (indices, value) :: sample, d => do
    let r ← reduction md indices
    reducedDict md sample (dictSet r value d)

/-- The loop over the sorted keys: test_gcs_basics.py:141-147 (the same in lines 77-83).  `for i, j in ...` raises
`ValueError` unless the key has two items. -/
def gcsLoop (d : List (List Int × V)) : List (List Int) → PyM (List Int × List Int × List V)
  | [] => return ([], [], [])
  | [i, j] :: keys => do
    let value ← dictGet [i, j] d
    let (rows, cols, values) ← gcsLoop d keys
    return (i :: rows, j :: cols, value :: values)
  | _ :: _ => .error .value

/-- `row_indices, col_indices, values` of the examples: test_gcs_basics.py:121-147. -/
def gcsArrays (md : Metadata) (sample : List (List Int × V)) : PyM (List Int × List Int × List V) := do
  let d ← reducedDict md sample []
  gcsLoop d ((d.map Prod.fst).insertionSort (tupleLe · ·))

end Gcs.Basics
