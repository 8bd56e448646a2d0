import Verif.Lemmas.Index

/-!
# C04 - C07: indexing of strided arrays
-/

namespace Gcs

open Spec

/-- C04.  Normalizing a user index and applying `index_strided` gives the shape of the selection, and
strides and an offset that address, for each index `j` of the selection, the source element that
Python indexing selects for `j`. -/
theorem C04_index_strided (index : Index) (shape : List Nat) (strides : List Int)
    (hp : ∀ n ∈ shape, 0 < n) (hv : ValidItems (items index) shape)
    (hs : strides.length = shape.length) :
    ∃ nix sh st off, normalizeIndex index shape = .ok nix ∧
      indexStrided nix shape strides = .ok (sh, st, off) ∧
      sh = selShape (items index) shape ∧ st.length = sh.length ∧
      ∀ j, InBox j sh →
        InBox (selSource (items index) shape j) shape ∧
        off + address j st = address (selSource (items index) shape j) strides := by
  obtain ⟨nix, st, off, h1, _, h3, h4, h5⟩ := index_ok index shape strides hp hv hs
  refine ⟨nix, _, st, off, h1, h3, rfl, h4, fun j hj => ⟨(h5 j hj).1, ?_⟩⟩
  rw [← (h5 j hj).2]; ring

/-- A non-trivial case of C04: a 3x4x5 array, `a[-1, ::-2, 1:4]`, element `[1, 2]`. -/
example :
    let index : Index := .tuple [.int (-1), .slice ⟨none, none, some (-2)⟩, .slice ⟨some 1, some 4, none⟩]
    ValidItems (items index) [3, 4, 5] ∧ selShape (items index) [3, 4, 5] = [2, 3] ∧
      selSource (items index) [3, 4, 5] [1, 2] = [2, 1, 3] ∧
      (do let nix ← normalizeIndex index [3, 4, 5]; indexStrided nix [3, 4, 5] [20, 5, 1])
        = .ok ([2, 3], [-10, 1], 56) := by
  refine ⟨?_, by decide, by decide, by decide⟩
  simp [items, ValidItems]

theorem applySlices_eq (is : List Ix) (shape : List Nat) (strides : List Int)
    (h1 : is.length = shape.length) (h2 : strides.length = shape.length) :
    (applySlices is shape strides).toOption
      = (do let nix ← normalizeItems is shape; indexStrided nix shape strides : PyM _).toOption := by
  induction is generalizing shape strides with
  | nil =>
    cases shape with
    | nil => cases strides <;> rfl
    | cons n shape => simp at h1
  | cons a is ih =>
    cases shape with
    | nil => simp at h1
    | cons n shape =>
      cases strides with
      | nil => simp at h2
      | cons s strides =>
        have ih := ih shape strides (by simpa using h1) (by simpa using h2)
        cases a with
        | int i =>
          simp only [applySlices, normalizeItems]
          cases pyMod i n with
          | error e => rfl
          | ok m =>
            revert ih
            cases applySlices is shape strides <;> cases hn : normalizeItems is shape
            · intro _; rfl
            · rename_i nix
              simp only [bind, Except.bind, pure, Except.pure, indexStrided]
              cases indexStrided nix shape strides <;> simp [Except.toOption]
            · simp [bind, Except.bind, Except.toOption]
            · rename_i r nix
              simp only [bind, Except.bind, pure, Except.pure, indexStrided]
              cases indexStrided nix shape strides with
              | error e => simp [Except.toOption]
              | ok v => simp [Except.toOption]; rintro rfl; exact ⟨rfl, rfl, rfl⟩
        | slice sl =>
          simp only [applySlices, normalizeItems]
          revert ih
          cases hm : pyMod (reduced sl n).start n with
          | error e =>
            cases hn : normalizeItems is shape <;>
              simp [bind, Except.bind, pure, Except.pure, Except.toOption, indexStrided, hm]
          | ok m =>
            cases hni : nitemsR (reduced sl n) with
            | error e =>
              cases hn : normalizeItems is shape <;>
                simp [bind, Except.bind, pure, Except.pure, Except.toOption, indexStrided, hm, hni]
            | ok k =>
              cases applySlices is shape strides <;> cases hn : normalizeItems is shape
              · intro _; rfl
              · rename_i nix
                simp only [bind, Except.bind, pure, Except.pure, indexStrided, hm, hni]
                cases indexStrided nix shape strides <;> simp [Except.toOption]
              · simp [bind, Except.bind, Except.toOption]
              · rename_i r nix
                simp only [bind, Except.bind, pure, Except.pure, indexStrided, hm, hni]
                cases indexStrided nix shape strides with
                | error e => simp [Except.toOption]
                | ok v => simp [Except.toOption]; rintro rfl; exact ⟨rfl, rfl, rfl⟩
        | none =>
          simp only [applySlices, normalizeItems]
          revert ih
          cases applySlices is shape strides <;> cases hn : normalizeItems is shape
          · intro _; rfl
          · rename_i nix
            simp only [bind, Except.bind, pure, Except.pure, indexStrided]
            cases indexStrided nix shape strides <;> simp [Except.toOption]
          · simp [bind, Except.bind, Except.toOption]
          · rename_i r nix
            simp only [bind, Except.bind, pure, Except.pure, indexStrided]
            cases indexStrided nix shape strides with
            | error e => simp [Except.toOption]
            | ok v => simp [Except.toOption]; rintro rfl; exact ⟨rfl, rfl, rfl⟩
        | other => rfl

/-- C05.  With one item per axis, `apply_slices(slices, shape, strides)` succeeds iff
`index_strided(normalize_index(slices, shape), shape, strides)` does, with the same result. -/
theorem C05_apply_slices (is : List Ix) (shape : List Nat) (strides : List Int)
    (h1 : is.length = shape.length) (h2 : strides.length = shape.length)
    (r : List Nat × List Int × Int) :
    applySlices is shape strides = .ok r ↔
      ∃ nix, normalizeIndex (.tuple is) shape = .ok nix ∧ indexStrided nix shape strides = .ok r := by
  have h := applySlices_eq is shape strides h1 h2
  have e : ∀ {α : Type} (x : PyM α) (v : α), x = .ok v ↔ x.toOption = some v := by
    intro α x v; cases x <;> simp [Except.toOption]
  rw [e, h, ← e]
  simp only [normalizeIndex]
  cases normalizeItems is shape <;> simp [bind, Except.bind]

/-- C05.  `shape_strided` gives the shape that `index_strided` gives. -/
theorem C05_shape_strided (nix : List NIx) (shape : List Nat) (strides : List Int)
    (h : strides.length = shape.length) (sh : List Nat) (st : List Int) (off : Int)
    (hr : indexStrided nix shape strides = .ok (sh, st, off)) : shapeStrided nix shape = .ok sh := by
  induction nix generalizing shape strides sh st off with
  | nil => simp [indexStrided, pure, Except.pure] at hr; simp [shapeStrided, hr, pure, Except.pure]
  | cons a nix ih =>
    cases shape with
    | nil => simp [indexStrided, pure, Except.pure] at hr; simp [shapeStrided, hr, pure, Except.pure]
    | cons n shape =>
      cases strides with
      | nil => simp at h
      | cons s strides =>
        have h' : strides.length = shape.length := by simpa using h
        cases hi : indexStrided nix shape strides with
        | error e =>
          cases a with
          | int i => simp [indexStrided, hi, bind, Except.bind] at hr
          | none => simp [indexStrided, hi, bind, Except.bind] at hr
          | slice r =>
            simp only [indexStrided, hi, bind, Except.bind] at hr
            cases hm : pyMod r.start n <;> simp [hm] at hr
            cases hn : nitemsR r <;> simp [hn] at hr
        | ok v =>
          obtain ⟨sh', st', off'⟩ := v
          have ih := ih shape strides h' _ _ _ hi
          cases a with
          | int i =>
            simp [indexStrided, hi, bind, Except.bind, pure, Except.pure] at hr
            simp [shapeStrided, ih, hr]
          | none =>
            simp [indexStrided, hi, bind, Except.bind, pure, Except.pure] at hr
            simp [shapeStrided, ih, ← hr.1, bind, Except.bind, pure, Except.pure]
          | slice r =>
            simp only [indexStrided, hi, bind, Except.bind] at hr
            cases hm : pyMod r.start n <;> simp [hm] at hr
            cases hn : nitemsR r <;> simp [hn, pure, Except.pure] at hr
            simp [shapeStrided, ih, hn, ← hr.1, bind, Except.bind, pure, Except.pure]

example : applySlices [.slice ⟨some 5, none, some (-2)⟩, .int (-1)] [6, 4] [4, 1]
    = .ok ([3], [-8], 23) := by decide

/-- C06, specification of the error side. -/
def Spec.Refused : List Ix → List Nat → Prop
  | [], _ => False
  | .int _ :: is, n :: shape => n = 0 ∨ Refused is shape
  | .slice _ :: is, _ :: shape => Refused is shape
  | .none :: is, shape => Refused is shape.tail
  | .other :: _, _ => True
  | _ :: _, [] => True

/-- C06, specification of a normalized item for axis size `n` and user item `u`: an int in range and
congruent to the given one, a slice that selects the same positions. -/
def Spec.NormItem (n : Nat) : Ix → NIx → Prop
  | .int i, .int m => 0 ≤ m ∧ m < n ∧ (n : Int) ∣ i - m
  | .slice s, .slice r => s.step ≠ some 0 → slicePositions r.toPy n = slicePositions s n
  | .none, .none => True
  | _, _ => False

/-- C06, specification of the result: axis by axis, axes not mentioned are full (`None`). -/
def Spec.NormResult : List Ix → List Nat → List NIx → Prop
  | [], shape, r => r = shape.map fun _ => .none
  | _ :: _, [], r => r = []
  | u :: us, n :: shape, m :: r => NormItem n u m ∧ NormResult us shape r
  | _ :: _, _ :: _, [] => False

theorem normalizeItems_result (is : List Ix) (shape : List Nat) (nix : List NIx)
    (h : normalizeItems is shape = .ok nix) :
    nix.length = shape.length ∧ NormResult is shape nix ∧
      normalizeItems (nix.map NIx.toIx) shape = .ok nix := by
  induction is generalizing shape nix with
  | nil =>
    simp only [normalizeItems, pure, Except.pure, Except.ok.injEq] at h
    subst h
    refine ⟨by simp, rfl, ?_⟩
    induction shape with
    | nil => rfl
    | cons n shape ih => simp only [List.map_cons, NIx.toIx, normalizeItems, ih]; rfl
  | cons a is ih =>
    cases shape with
    | nil =>
      cases a with
      | none =>
        have := ih [] nix h
        refine ⟨this.1, ?_, this.2.2⟩
        simpa [NormResult] using this.1
      | _ => simp [normalizeItems] at h
    | cons n shape =>
      cases a with
      | int i =>
        simp only [normalizeItems, bind, Except.bind] at h
        cases hm : pyMod i n with
        | error e => simp [hm] at h
        | ok m =>
          cases hr : normalizeItems is shape with
          | error e => simp [hm, hr] at h
          | ok r =>
            simp [hm, hr, pure, Except.pure] at h
            subst h
            have ih := ih shape r hr
            have hn : ¬ ((n : Int) = 0) := by
              intro h0; simp [pyMod, h0] at hm
            have hm' : i % (n : Int) = m := by
              have := pyMod_pos i n (by omega)
              rw [hm] at this; simpa using this.symm
            have b1 : 0 ≤ m := by rw [← hm']; exact Int.emod_nonneg _ hn
            have b2 : m < n := by rw [← hm']; exact Int.emod_lt_of_pos _ (by omega)
            refine ⟨by simp [ih.1], ⟨⟨b1, b2, ?_⟩, ih.2.1⟩, ?_⟩
            · rw [← hm']; exact Int.dvd_self_sub_emod
            · simp only [List.map_cons, NIx.toIx, normalizeItems, ih.2.2, pyMod_pos m n (by omega),
                Int.emod_eq_of_lt b1 b2]
              rfl
      | slice s =>
        simp only [normalizeItems, bind, Except.bind] at h
        cases hr : normalizeItems is shape with
        | error e => simp [hr] at h
        | ok r =>
          simp [hr, pure, Except.pure] at h
          subst h
          have ih := ih shape r hr
          refine ⟨by simp [ih.1], ⟨fun h0 => slicePositions_reduced s n h0, ih.2.1⟩, ?_⟩
          simp only [List.map_cons, NIx.toIx, normalizeItems, ih.2.2, reduced_idem]
          rfl
      | none =>
        simp only [normalizeItems, bind, Except.bind] at h
        cases hr : normalizeItems is shape with
        | error e => simp [hr] at h
        | ok r =>
          simp [hr, pure, Except.pure] at h
          subst h
          have ih := ih shape r hr
          refine ⟨by simp [ih.1], ⟨trivial, ih.2.1⟩, ?_⟩
          simp only [List.map_cons, NIx.toIx, normalizeItems, ih.2.2]
          rfl
      | other => simp [normalizeItems] at h

theorem normalizeIndex_eq_items' (index : Index) (shape : List Nat) (nix : List NIx) :
    normalizeIndex index shape = .ok nix ↔ normalizeItems (items index) shape = .ok nix := by
  cases index with
  | tuple is => exact Iff.rfl
  | one i =>
    cases i with
    | int i => cases shape <;> exact Iff.rfl
    | slice s => cases shape <;> exact Iff.rfl
    | none => cases shape <;> exact Iff.rfl
    | other => cases shape <;> simp [normalizeIndex, normalizeItems, items]

/-- C06, success side: one item per axis, ints in range and congruent to the given ones, slices
reduced, other axes full; normalizing the result again gives the result. -/
theorem C06_normalize_index (index : Index) (shape : List Nat) (nix : List NIx)
    (h : normalizeIndex index shape = .ok nix) :
    nix.length = shape.length ∧ NormResult (items index) shape nix ∧
      normalizeIndex (.tuple (nix.map NIx.toIx)) shape = .ok nix :=
  normalizeItems_result (items index) shape nix ((normalizeIndex_eq_items' index shape nix).1 h)

theorem normalizeItems_error (is : List Ix) (shape : List Nat) :
    (∃ e, normalizeItems is shape = .error e) ↔ Refused is shape := by
  induction is generalizing shape with
  | nil => simp [normalizeItems, Refused, pure, Except.pure]
  | cons a is ih =>
    cases shape with
    | nil =>
      cases a with
      | none => simpa [normalizeItems, Refused] using ih []
      | _ => simp [normalizeItems, Refused]
    | cons n shape =>
      have ih := ih shape
      cases a with
      | int i =>
        simp only [normalizeItems, Refused, ← ih]
        by_cases hn : n = 0
        · subst hn; simp [pyMod, bind, Except.bind]
        · rw [pyMod_pos i n (by omega)]
          cases normalizeItems is shape <;> simp [bind, Except.bind, pure, Except.pure, hn]
      | slice s =>
        simp only [normalizeItems, Refused, ← ih]
        cases normalizeItems is shape <;> simp [bind, Except.bind, pure, Except.pure]
      | none =>
        simp only [normalizeItems, Refused, List.tail_cons, ← ih]
        cases normalizeItems is shape <;> simp [bind, Except.bind, pure, Except.pure]
      | other => simp [normalizeItems, Refused]

/-- C06, error side: it raises exactly when an int meets an empty axis, an int or a slice has no
axis, or an item is of another type. -/
theorem C06_normalize_index_raises (index : Index) (shape : List Nat) :
    (∃ e, normalizeIndex index shape = .error e) ↔ Refused (items index) shape := by
  rw [← normalizeItems_error]
  cases h1 : normalizeIndex index shape with
  | ok nix => rw [(normalizeIndex_eq_items' index shape nix).1 h1]
  | error e =>
    cases h2 : normalizeItems (items index) shape with
    | error e' => simp
    | ok nix => rw [(normalizeIndex_eq_items' index shape nix).2 h2] at h1; simp at h1

/-- Out-of-range ints wrap around and do not raise. -/
example : normalizeIndex (.tuple [.int 7, .int (-5)]) [3, 4] = .ok [.int 1, .int 3] := by decide

example : Refused [.int 0] [0, 2] ∧ Refused [.none, .int 0] [2] ∧ ¬ Refused [.int 9, .none, .none] [2] := by
  simp [Refused]

/-- Every index of the chain is valid and only the last may select nothing. -/
def Spec.ValidChain : List (List Ix) → List Nat → Prop
  | [], _ => True
  | is :: rest, shape => (∀ n ∈ shape, 0 < n) ∧ ValidItems is shape ∧ ValidChain rest (selShape is shape)

/-- What a chain of slices of a strided array computes (each step as in `Strided.get_slice`: new
shape and strides, offsets added). -/
def chainStrided : List Index → List Nat → List Int → PyM (List Nat × List Int × Int)
  | [], shape, strides => return (shape, strides, 0)
  | index :: rest, shape, strides => do
    let nix ← normalizeIndex index shape
    let (sh, st, off) ← indexStrided nix shape strides
    let (sh', st', off') ← chainStrided rest sh st
    return (sh', st', off + off')

/-- C07.  Any chain of slices addresses the elements that the chain of selections selects. -/
theorem C07_chain (chain : List Index) (shape : List Nat) (strides : List Int)
    (hs : strides.length = shape.length) (hv : ValidChain (chain.map items) shape) :
    ∃ st off, chainStrided chain shape strides = .ok (chainShape (chain.map items) shape, st, off) ∧
      st.length = (chainShape (chain.map items) shape).length ∧
      ∀ j, InBox j (chainShape (chain.map items) shape) →
        InBox (chainSource (chain.map items) shape j) shape ∧
        off + address j st = address (chainSource (chain.map items) shape j) strides := by
  induction chain generalizing shape strides with
  | nil =>
    refine ⟨strides, 0, rfl, hs, fun j hj => ⟨hj, ?_⟩⟩
    simp [chainSource]
  | cons index chain ih =>
    obtain ⟨hp, hv1, hv2⟩ := hv
    obtain ⟨nix, st, off, h1, _, h3, h4, h5⟩ := index_ok index shape strides hp hv1 hs
    obtain ⟨st', off', h6, h7, h8⟩ := ih (selShape (items index) shape) st h4 hv2
    refine ⟨st', off + off', ?_, h7, ?_⟩
    · simp [chainStrided, h1, h3, h6, bind, Except.bind, pure, Except.pure, chainShape]
    · intro j hj
      obtain ⟨h9, h10⟩ := h8 j hj
      obtain ⟨h11, h12⟩ := h5 _ h9
      refine ⟨h11, ?_⟩
      simp only [List.map_cons, chainSource]
      rw [← h12, ← h10]; ring

example :
    let chain : List Index := [.one (.slice ⟨none, none, some (-1)⟩), .tuple [.slice ⟨some 1, none, none⟩, .int 2]]
    ValidChain (chain.map items) [4, 3] ∧ chainShape (chain.map items) [4, 3] = [3] ∧
      chainSource (chain.map items) [4, 3] [0] = [2, 2] ∧
      chainStrided chain [4, 3] [3, 1] = .ok ([3], [-3], 8) := by
  refine ⟨?_, by decide, by decide, by decide⟩
  simp [items, ValidChain, ValidItems, selShape]
  decide

end Gcs
