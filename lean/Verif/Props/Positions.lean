import Verif.Model.Positions
import Verif.Props.Getting
import Verif.Props.Diophantine

/-!
# C61: from indices of an array to indices of a slice and back
-/

namespace Gcs

open Spec

variable {V : Type}

theorem rowMajor_address (x : List Int) (shape : List Nat) (hx : InBox x shape) :
    rowMajor x shape 0 = address x (makeStrides shape) := by
  have := rowMajor_eq x shape 0 hx.length_eq
  rwa [zero_mul, zero_add] at this

/-- C61.  For a slice of a contiguous array that keeps an axis: `get_index_slice` sends each index of the slice to
the index of the selected element of the array, `get_slice_index` sends it back, and gives `None` for the elements
that are not selected. -/
theorem C61_slice_index (index : Index) (shape : List Nat) (hp : ∀ n ∈ shape, 0 < n)
    (hv : ValidItems (items index) shape) (hk : selShape (items index) shape ≠ []) :
    ∃ nix sh st off, normalizeIndex index shape = .ok nix ∧
      indexStrided nix shape (makeStrides shape) = .ok (sh, st, off) ∧
      sh = selShape (items index) shape ∧
      (∀ j, InBox j sh → InBox (selSource (items index) shape j) shape ∧
        getIndexSlice j shape (makeStrides shape) sh st off = .ok (some (selSource (items index) shape j)) ∧
        getSliceIndex (selSource (items index) shape j) shape (makeStrides shape) sh st off = .ok (some j)) ∧
      ∀ x, InBox x shape → (∀ j, InBox j sh → selSource (items index) shape j ≠ x) →
        getSliceIndex x shape (makeStrides shape) sh st off = .ok none := by
  obtain ⟨nix, st, off, h1, h2, h3, h4, h5⟩ := index_ok index shape (makeStrides shape) hp hv (makeStrides_length _)
  obtain ⟨nix', sh', st', off', g1, g2, g3, g4, g5⟩ := C14_solve_index_slice index shape hp hv hk
  rw [h1] at g1
  cases g1
  rw [h3] at g2
  cases g2
  have hne : shape ≠ [] := by
    rintro rfl
    have := selShape_length_le (items index) []
    exact hk (List.length_eq_zero_iff.1 (Nat.le_zero.1 this))
  have hpos : ∀ x, InBox x shape → getPosition x shape (makeStrides shape) = .ok (rowMajor x shape 0) := fun x hx =>
    (C13_solve_index_contiguous shape hp hne x hx).1
  refine ⟨nix, _, st, off, h1, h3, rfl, fun j hj => ⟨(h5 j hj).1, ?_, ?_⟩, fun x hx hno => ?_⟩
  · simp only [getIndexSlice, getPosition_ok j _ st hj.length_eq h4, bind, Except.bind, getIndex]
    rw [(h5 j hj).2, ← rowMajor_address _ _ (h5 j hj).1]
    exact (C13_solve_index_contiguous shape hp hne _ (h5 j hj).1).2
  · simp only [getSliceIndex, hpos _ (h5 j hj).1, bind, Except.bind]
    exact g4 j hj
  · simp only [getSliceIndex, hpos _ hx, bind, Except.bind]
    exact g5 x hx hno

/-- A case of C61: the slice `[::-1, 1:]` of a 2x3 array. -/
example : ValidItems (items turned) [2, 3] ∧ selSource (items turned) [2, 3] [0, 1] = [1, 2] ∧
    normalizeIndex turned [2, 3] = .ok [.slice ⟨-1, -3, -1⟩, .slice ⟨1, 3, 1⟩] ∧
    indexStrided [.slice ⟨-1, -3, -1⟩, .slice ⟨1, 3, 1⟩] [2, 3] [3, 1] = .ok ([2, 2], [-3, 1], 4) ∧
    getIndexSlice [0, 1] [2, 3] [3, 1] [2, 2] [-3, 1] 4 = .ok (some [1, 2]) ∧
    getSliceIndex [1, 2] [2, 3] [3, 1] [2, 2] [-3, 1] 4 = .ok (some [0, 1]) ∧
    getSliceIndex [1, 0] [2, 3] [3, 1] [2, 2] [-3, 1] 4 = .ok none := by
  refine ⟨⟨by simp, by simp, trivial⟩, ?_⟩
  decide +kernel

/-- C61.  `get_index` ignores its argument `offset`: for a contiguous array that starts at `offset` of a list it finds
no element from its position in the list, unless `offset` is `0`. -/
theorem C61_offset_ignored (shape : List Nat) (hp : ∀ n ∈ shape, 0 < n) (hne : shape ≠ []) (ix : List Int)
    (hi : InBox ix shape) (offset : Int) :
    getIndex (offset + rowMajor ix shape 0) shape (makeStrides shape) offset = .ok (some ix) ↔ offset = 0 := by
  constructor
  · intro h
    have := (C12_solve_index_sound _ shape _ (makeStrides_length _) hne ix h).2
    rw [rowMajor_address ix shape hi] at this
    omega
  · rintro rfl
    simpa [getIndex] using (C13_solve_index_contiguous shape hp hne ix hi).2

/-- A case of the defect. -/
example : InBox [1, 2] [2, 3] ∧ rowMajor [1, 2] [2, 3] 0 = 5 ∧ getIndex (5 + 4) [2, 3] [3, 1] 4 = .ok none ∧
    getIndex (1 + 4) [2, 3] [3, 1] 4 = .ok (some [1, 2]) := by
  refine ⟨by simp [InBox], ?_⟩
  decide +kernel

theorem promoteInt_eq (sh : List Nat) (dims : List Nat) (st : List Int) (off r : Int) :
    promoteIndexInt [sh] [dims] [st] [off] r = promoteIndex [sh] [dims] [st] [off] [r] := by
  simp only [promoteIndexInt, promoteIndex, promoteLoop, pyAssert, pyGet]
  simp [bind, Except.bind, pure, Except.pure]
  cases promoteGroup (r - off) dims st sh (List.replicate dims.length none) <;> rfl

/-- C61.  `promote_index` with an int, for a single group of axes in any order: the position `off + p`, where `p` is
the row-major position of the items of `ix` in the order of the group, is sent to `ix`. -/
theorem C61_promote_int (shape dims : List Nat) (off : Int) (hperm : dims.Perm (List.range shape.length)) :
    ∃ rshape sh st, makeReduction shape [dims] = .ok (rshape, [sh], [st]) ∧
      ∀ ix, InBox ix shape → promoteIndexInt [sh] [dims] [st] [off]
        (off + rowMajor (dims.map fun d => ix.getD d 0) (dims.map fun d => shape.getD d 0) 0) = .ok ix := by
  have hp' : [dims].flatten.Perm (List.range shape.length) := by simpa using hperm
  obtain ⟨rshape, rshapes, rstrides, e1, _, e3, _⟩ := C20_reduce_promote shape [dims] [off] hp' rfl
  have hax : ∀ d ∈ dims, d < shape.length := fun d hd => List.mem_range.1 (hperm.mem_iff.1 hd)
  have e1' := e1
  rw [makeReduction_ok shape [dims] fun g' hg' d hd => hax d (by simp at hg'; exact hg' ▸ hd)] at e1'
  simp only [Except.ok.injEq, Prod.mk.injEq] at e1'
  obtain ⟨_, rfl, rfl⟩ := e1'
  refine ⟨rshape, _, _, e1, fun ix hi => ?_⟩
  obtain ⟨r, r1, r2, r3, r4⟩ := e3 ix hi
  rw [promoteInt_eq]
  simp only [List.zipWith_cons_cons, List.zipWith_nil_left] at r2
  rw [r2] at r4
  exact r4

/-- A case: the axes of a 2x3 array swapped, starting at `10`. -/
example : makeReduction [2, 3] [[1, 0]] = .ok ([6], [[3, 2]], [[2, 1]]) ∧
    promoteIndexInt [[3, 2]] [[1, 0]] [[2, 1]] [10] 15 = .ok [1, 2] ∧ rowMajor [2, 1] [3, 2] 0 = 5 := by
  decide +kernel

/-! ## The two ways of finding the elements of a slice -/

/-- The method for `sort=True`, for any object with the strides of a contiguous array. -/
theorem sliceEntriesSorted_ok {P : Type} (getPos : List Int → PyM P) (dp : List Int → P) (shape : List Nat)
    (hp : PosShape shape) (hne : shape ≠ []) (hdp : ∀ ix, InBox ix shape → getPos ix = .ok (dp ix)) (index : Index)
    (hv : ValidItems (items index) shape) :
    ∃ nix st off, normalizeIndex index shape = .ok nix ∧
      indexStrided nix shape (makeStrides shape) = .ok (selShape (items index) shape, st, off) ∧
      sliceEntriesSorted getPos shape (makeStrides shape) (selShape (items index) shape) st off =
        .ok ((indexProduct (selShape (items index) shape)).map fun j => (j, dp (selSource (items index) shape j))) := by
  obtain ⟨nix, st, off, h1, h2, h3, h4, h5⟩ := index_ok index shape (makeStrides shape) hp hv (makeStrides_length _)
  refine ⟨nix, st, off, h1, h3, ?_⟩
  have hs := fun ix hi => (C13_solve_index_contiguous shape hp hne ix hi).2
  cases hd : initDiophantine (makeStrides shape) (some shape) with
  | error e =>
    obtain ⟨ix, hi⟩ := exists_inBox hp
    have := hs ix hi
    simp only [solveIndex, hd, bind, Except.bind] at this
    cases this
  | ok data =>
    simp only [sliceEntriesSorted, hd, bind, Except.bind]
    apply mapM_ok
    intro j hj
    have hj := (mem_indexProduct _ _).1 hj
    have := hs _ (h5 j hj).1
    simp only [solveIndex, hd, bind, Except.bind] at this
    simp only [getPosition_ok j _ st hj.length_eq h4]
    rw [(h5 j hj).2, ← rowMajor_address _ _ (h5 j hj).1, this]
    simp only [hdp _ (h5 j hj).1, pure, Except.pure]

theorem findPos_iff {rows : List (List Int)} (hn : rows.Nodup) (ix : List Int) (p : Int) :
    (ix, p) ∈ withPos rows ↔ findPos rows ix = some p := by
  rw [mem_withPos]
  constructor
  · rintro ⟨q, hq, rfl, rfl⟩
    exact findPos_some hn hq
  · intro h
    by_cases hm : ix ∈ rows
    · obtain ⟨q, hq, rfl⟩ := List.getElem_of_mem hm
      rw [findPos_some hn hq, Option.some.injEq] at h
      exact ⟨q, hq, rfl, h.symm⟩
    · rw [findPos_none hm] at h
      cases h

theorem Sparse.pos_ok {s : Storage V} {rows : List (List Int)} {b : Buffer V} (h : Sparse s rows b) (hp : PosShape s.shape) :
    s.sparseEntries = .ok (withPos rows) ∧ ∀ ix, InBox ix s.shape → s.sparsePos ix = .ok (findPos rows ix) := by
  cases h with
  | coo h => exact ⟨h.entries_ok, fun ix hi => h.find_ok ix hi⟩
  | flatcoo h => exact ⟨h.entries_ok hp, fun ix hi => h.find_ok ix hi⟩
  | csr h => exact ⟨h.entries_ok, fun ix hi => h.find_ok ix hi⟩

/-- C61: an int is promoted only when all axes are in one group; otherwise it is an `AssertionError`. -/
theorem C61_promote_int_groups (rshapes rdims : List (List Nat)) (rstrides : List (List Int)) (roffset : List Int) (r : Int)
    (h : rdims.length ≠ 1) : promoteIndexInt rshapes rdims rstrides roffset r = .error .assertion := by
  simp [promoteIndexInt, pyAssert, h, bind, Except.bind]

/-- A case of C61_promote_int_groups. -/
example : promoteIndexInt [[2], [3]] [[0], [1]] [[1], [1]] [0, 0] 1 = .error .assertion ∧
    promoteIndexInt [[2, 3]] [[0, 1]] [[3, 1]] [0] 4 = .ok [1, 1] := by
  decide +kernel

/-- C61.  The two branches of `slice_indices_and_data_position` agree for `COO`, `FlatCOO` and `CSR`: with
`sort=True` it goes through all elements of the slice in row-major order, with `None` for those that are not stored;
the others, with their positions, are the ones that it finds with `sort=False`. -/
theorem C61_sort_agrees (s : Storage V) (mem : List V) (h : s.WF mem)
    (hc : s.cls = .coo ∨ s.cls = .flatcoo ∨ s.cls = .csr) (hp : ∀ n ∈ s.shape, 0 < n) (index : Index)
    (hv : ValidItems (items index) s.shape) (hne : selShape (items index) s.shape ≠ []) :
    ∃ nix sh st off entries found all, normalizeIndex index s.shape = .ok nix ∧
      indexStrided nix s.shape (makeStrides s.shape) = .ok (sh, st, off) ∧ sh = selShape (items index) s.shape ∧
      s.sparseEntries = .ok entries ∧ sliceEntries s.sparseEntries s.shape sh st off = .ok found ∧
      sliceEntriesSorted s.sparsePos s.shape (makeStrides s.shape) sh st off = .ok all ∧
      (∀ j, (∃ p, (j, p) ∈ all) ↔ InBox j sh) ∧ (all.map (·.1)).Pairwise lexLt ∧
      ∀ j p, (j, p) ∈ found ↔ (j, some p) ∈ all := by
  obtain ⟨rows, b, hs⟩ : ∃ rows b, Sparse s rows b := by
    cases s with
    | coo c => obtain ⟨⟨rows, hr⟩, _⟩ := h; exact ⟨_, _, .coo hr⟩
    | flatcoo c => obtain ⟨⟨rows, hr⟩, _⟩ := h; exact ⟨_, _, .flatcoo hr⟩
    | csr c => obtain ⟨⟨rows, hr⟩, _⟩ := h; exact ⟨_, _, .csr hr⟩
    | _ => simp [Storage.cls] at hc
  obtain ⟨p1, p2⟩ := hs.pos_ok hp
  have hne' : s.shape ≠ [] := by
    intro he
    have := selShape_length_le (items index) s.shape
    rw [he] at this hne
    exact hne (List.length_eq_zero_iff.1 (Nat.le_zero.1 this))
  have hnd := hs.rows_ok.nodup
  obtain ⟨nix, st, off, L, h1, _, h3, h4, h5, _, _⟩ := sliceEntries_ok (withPos rows) s.shape hp
    (by
      intro e he
      obtain ⟨q, hq, e1, _⟩ := (mem_withPos e.1 e.2).1 he
      rw [← e1]
      exact hs.rows_ok.inbox _ (List.getElem_mem hq))
    (by rw [withPos_fst]; exact hnd) index hv hne
  obtain ⟨nix', st', off', g1, g2, g3⟩ := sliceEntriesSorted_ok s.sparsePos (findPos rows) s.shape hp hne' p2 index hv
  rw [h1] at g1
  cases g1
  rw [h3] at g2
  cases g2
  refine ⟨nix, _, st, off, _, L, _, h1, h3, rfl, p1, by rw [p1]; exact h4, g3, fun j => ?_, ?_, fun j p => ?_⟩
  · simp only [List.mem_map, Prod.mk.injEq]
    constructor
    · rintro ⟨p, j', hj, rfl, _⟩
      exact (mem_indexProduct _ _).1 hj
    · intro hj
      exact ⟨_, j, (mem_indexProduct _ _).2 hj, rfl, rfl⟩
  · rw [List.map_map]
    simpa [Function.comp_def] using indexProduct_sorted (selShape (items index) s.shape)
  · rw [h5, findPos_iff hnd]
    simp only [List.mem_map, Prod.mk.injEq]
    constructor
    · rintro ⟨hj, hf⟩
      exact ⟨j, (mem_indexProduct _ _).2 hj, rfl, hf⟩
    · rintro ⟨j', hj, rfl, hf⟩
      exact ⟨(mem_indexProduct _ _).1 hj, hf⟩

/-- A case: the slice `[::-1, 1:]` of a `COO`. -/
example : (Storage.coo sampleCOO).WF sampleItems ∧
    (Storage.coo sampleCOO).sparseEntries = .ok [([0, 0], 0), ([0, 2], 1), ([1, 1], 2)] ∧
    sliceEntries (Storage.coo sampleCOO).sparseEntries [2, 3] [2, 2] [-3, 1] 4
      = .ok [([1, 1], 1), ([0, 0], 2)] ∧
    sliceEntriesSorted (Storage.coo sampleCOO).sparsePos [2, 3] [3, 1] [2, 2] [-3, 1] 4
      = .ok [([0, 0], some 2), ([0, 1], none), ([1, 0], none), ([1, 1], some 1)] := by
  refine ⟨sampleCOO_wf, ?_⟩
  decide +kernel

end Gcs
