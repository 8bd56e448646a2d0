import Verif.Props.Direct

/-!
# C78: what the constructors accept

The constructors of `Buffer`, `Strided`, `COO`, `FlatCOO`, `CSR` and `DM` called with any arguments of the right types: for
which arguments there is an object, which object it is, and which exception is raised for the others.
-/

namespace Gcs

variable {V : Type}

/-- The call `x` gives `a` when `p` holds; otherwise it raises `e`. -/
def Spec.Accepts {A : Type} (x : PyM A) (p : Prop) (a : A) (e : PyErr) : Prop :=
  (p → x = .ok a) ∧ (¬ p → x = .error e)

open Spec

/-- C78 for `Buffer(size, offset, data, unspecified)`: the window must be inside the list. -/
theorem C78_buffer (size offset : Nat) (values : List V) (u : V) :
    Accepts (Buffer.new size offset values u) (offset + size ≤ values.length) ⟨size, offset, u⟩ .assertion := by
  constructor <;> intro h <;> simp [Buffer.new, pyAssert, h, bind, Except.bind, pure, Except.pure]

/-- C78 for `Strided(shape, strides, data)`: one stride for each axis; the addresses are not checked. -/
theorem C78_strided (shape : List Nat) (strides : List Int) (data : Buffer V) :
    Accepts (Strided.new shape strides data) (strides.length = shape.length) ⟨shape, strides, data⟩ .assertion := by
  constructor <;> intro h <;> simp [Strided.new, pyAssert, eq_comm (a := shape.length), h, bind, Except.bind, pure, Except.pure]

/-- C78 for `COO(shape, indices, data)`: as many columns of indices as values.  Neither the number of rows of `indices` nor the
items are checked. -/
theorem C78_coo (shape : List Nat) (indices : Strided (Option Int)) (imem : List (Option Int)) (data : Buffer V) :
    (indices.shape.length < 2 → COO.new shape indices imem data = .error .index) ∧
    (2 ≤ indices.shape.length →
      Accepts (COO.new shape indices imem data) (indices.shape[1]? = some data.size) ⟨shape, indices, imem, data⟩ .assertion) := by
  match h : indices.shape with
  | [] => simp [COO.new, h, pyGet, bind, Except.bind]
  | [a] => simp [COO.new, h, pyGet, bind, Except.bind]
  | a :: b :: r =>
    refine ⟨by simp, fun _ => ?_⟩
    have e : pyGet indices.shape 1 = .ok b := by rw [h]; simp [pyGet]
    constructor <;> intro hb <;> simp_all [COO.new, pyAssert, bind, Except.bind, pure, Except.pure]

/-- C78 for `FlatCOO(shape, findices, data)`: as many positions as values. -/
theorem C78_flatcoo (shape : List Nat) (findices : Buffer (Option Int)) (fmem : List (Option Int)) (data : Buffer V) :
    Accepts (FlatCOO.new shape findices fmem data) (findices.size = data.size) ⟨shape, findices, fmem, data⟩ .assertion := by
  constructor <;> intro h <;> simp [FlatCOO.new, pyAssert, h, bind, Except.bind, pure, Except.pure]

/-- C78 for `CSR(shape, crow_indices, col_indices, data)`: two axes, one row pointer more than rows, as many column indices as
values. -/
theorem C78_csr (shape : List Nat) (crow : Buffer (Option Int)) (crowMem : List (Option Int)) (col : Buffer (Option Int))
    (colMem : List (Option Int)) (data : Buffer V) :
    Accepts (CSR.new shape crow crowMem col colMem data)
      (∃ rows cols, shape = [rows, cols] ∧ crow.size = rows + 1 ∧ col.size = data.size)
      ⟨shape, crow, crowMem, col, colMem, data⟩ .assertion := by
  constructor
  · rintro ⟨rows, cols, rfl, h1, h2⟩
    simp [CSR.new, pyAssert, pyGet, h1, h2, bind, Except.bind, pure, Except.pure]
  · intro h
    match shape with
    | [] => simp [CSR.new, pyAssert, bind, Except.bind]
    | [a] => simp [CSR.new, pyAssert, bind, Except.bind]
    | a :: b :: c :: r => simp [CSR.new, pyAssert, bind, Except.bind]
    | [a, b] =>
      have h' : crow.size = a + 1 → ¬ col.size = data.size := fun h1 h2 => h ⟨a, b, rfl, h1, h2⟩
      simp only [CSR.new, pyAssert, pyGet, bind, Except.bind, List.length_cons, List.length_nil]
      by_cases h1 : crow.size = a + 1
      · simp [h1, h' h1]
      · simp [h1]

/-- C78 for `DM(shape, rdimensions, rstrides, roffset, data)`: at least one group, and the axes in the groups are those of the
shape.  An axis may be in two groups, and neither `rstrides` nor `roffset` nor the shape of `data` is looked at. -/
theorem C78_dm (shape : List Nat) (rdims : List (List Nat)) (rstrides : List (List Int)) (roffset : List Int) :
    (rdims = [] → DMMeta.new shape rdims rstrides roffset = .error .type) ∧
    (rdims ≠ [] → Accepts (DMMeta.new shape rdims rstrides roffset)
      (∀ d, (∃ g ∈ rdims, d ∈ g) ↔ d < shape.length)
      ⟨shape, rdims, rdims.map fun g => g.map fun d => shape.getD d 0, rstrides, roffset⟩ .assertion) := by
  refine ⟨?_, fun hne => ⟨fun h => ?_, fun h => ?_⟩⟩
  · rintro rfl
    simp [DMMeta.new, throw, throwThe, MonadExceptOf.throw, bind, Except.bind]
  · rw [DMMeta.new_ok shape rdims rstrides roffset hne fun d => by rw [← h d, List.mem_flatten]]
    rfl
  · have h1 : rdims.isEmpty = false := by cases rdims <;> simp_all
    simp only [DMMeta.new, h1, Bool.false_eq_true, if_false, flatten_foldr, pyAssert, bind, Except.bind]
    by_cases h2 : rdims.flatten.all (fun d => decide (d < shape.length)) = true
    · have h3 : ¬ (List.range shape.length).all (fun d => rdims.flatten.contains d) = true := by
        intro h3
        refine h fun d => ?_
        rw [← List.mem_flatten]
        constructor
        · intro hd
          simpa using List.all_eq_true.1 h2 d hd
        · intro hd
          simpa using List.all_eq_true.1 h3 d (by simpa using hd)
      simp only [h2, h3, decide_true, decide_false, if_true, Bool.false_eq_true, if_false]
    · simp only [h2, decide_false, Bool.false_eq_true, if_false]

/-- A case of C78: arguments that are accepted and arguments that are not. -/
example :
    CSR.new [2, 3] ⟨3, 0, none⟩ [some 0, some 2, some 3] ⟨3, 0, none⟩ [some 0, some 2, some 1] (⟨3, 0, none⟩ : Buffer (Option Int))
      = .ok ⟨[2, 3], ⟨3, 0, none⟩, [some 0, some 2, some 3], ⟨3, 0, none⟩, [some 0, some 2, some 1], ⟨3, 0, none⟩⟩ ∧
    CSR.new [2, 3] ⟨2, 0, none⟩ [some 0, some 2] ⟨3, 0, none⟩ [some 0, some 2, some 1] (⟨3, 0, none⟩ : Buffer (Option Int))
      = .error .assertion ∧
    Buffer.new 3 1 [some 1, some 2, some 3] (none : Option Int) = .error .assertion ∧
    DMMeta.new [2, 3] [[0, 1], [1]] [[3, 1], [1]] [0, 0] = .ok ⟨[2, 3], [[0, 1], [1]], [[2, 3], [3]], [[3, 1], [1]], [0, 0]⟩ ∧
    DMMeta.new [2, 3] [[1]] [[1]] [0] = .error .assertion := by
  decide +kernel

end Gcs
