import Verif.Lemmas.Slice
import Verif.Model.Storage

/-! Facts on `normalizeIndex` and `indexStrided`. -/

namespace Gcs

open Spec

/-- No axis is empty. -/
def PosShape (shape : List Nat) : Prop := ∀ n ∈ shape, 0 < n

theorem PosShape.cons {n : Nat} {shape : List Nat} (h : PosShape (n :: shape)) :
    0 < n ∧ PosShape shape :=
  ⟨h n (by simp), fun m hm => h m (by simp [hm])⟩

theorem PosShape.tail {shape : List Nat} (h : PosShape shape) : PosShape shape.tail :=
  fun m hm => h m (List.mem_of_mem_tail hm)

/-- A normalized item as a user item. -/
def NIx.toIx : NIx → Ix
  | .int i => .int i
  | .slice s => .slice s.toPy
  | .none => .none

/-- What `normalizeIndex` guarantees. -/
def Normalized : List NIx → List Nat → Prop
  | [], [] => True
  | .int i :: is, n :: shape => (0 ≤ i ∧ i < n) ∧ Normalized is shape
  | .slice r :: is, n :: shape => (reduced r.toPy n = r ∧ r.step ≠ 0) ∧ Normalized is shape
  | .none :: is, _ :: shape => Normalized is shape
  | _, _ => False

theorem Normalized.length_eq {nix : List NIx} {shape : List Nat} (h : Normalized nix shape) :
    nix.length = shape.length := by
  induction nix generalizing shape with
  | nil => cases shape <;> simp_all [Normalized]
  | cons a is ih =>
    cases shape with
    | nil => cases a <;> simp [Normalized] at h
    | cons n shape => cases a <;> simp [Normalized] at h <;> simp [ih (by tauto : Normalized is shape)]

theorem Spec.InBox.length_eq {ix : List Int} {shape : List Nat} (h : InBox ix shape) :
    ix.length = shape.length := by
  induction ix generalizing shape with
  | nil => cases shape <;> simp_all [InBox]
  | cons a is ih =>
    cases shape with
    | nil => simp [InBox] at h
    | cons n shape => simp [InBox] at h; simp [ih h.2]

theorem normalized_none (shape : List Nat) : Normalized (shape.map fun _ => NIx.none) shape := by
  induction shape with
  | nil => trivial
  | cons n shape ih => simpa [Normalized] using ih

theorem selShape_none (shape : List Nat) :
    selShape (shape.map fun _ => Ix.none) shape = shape := by
  induction shape with
  | nil => rfl
  | cons n shape ih => simp only [List.map_cons, selShape, ih]

theorem selShape_nil (is : List Ix) : selShape is [] = [] := by
  cases is with
  | nil => rfl
  | cons a is => cases a <;> rfl

theorem selSource_nil_shape (is : List Ix) (j : List Int) : selSource is [] j = j := by
  cases is with
  | nil => rfl
  | cons a is => cases a <;> rfl

theorem selSource_none (shape : List Nat) (j : List Int) (h : j.length = shape.length) :
    selSource (shape.map fun _ => Ix.none) shape j = j := by
  induction shape generalizing j with
  | nil => rfl
  | cons n shape ih =>
    cases j with
    | nil => simp at h
    | cons j0 j => simp only [List.map_cons, selSource, ih j (by simpa using h)]

theorem pyMod_pos (i : Int) (n : Nat) (hn : 0 < n) : pyMod i n = .ok (i % n) := by
  have : ¬ ((n : Int) = 0) := by omega
  simp only [pyMod, this, if_false]
  rw [Int.fmod_eq_emod_of_nonneg _ (by omega)]

theorem normalizeItems_ok (is : List Ix) (shape : List Nat) (hp : PosShape shape)
    (hv : ValidItems is shape) :
    ∃ nix, normalizeItems is shape = .ok nix ∧ Normalized nix shape ∧
      selShape (nix.map NIx.toIx) shape = selShape is shape ∧
      ∀ j, InBox j (selShape is shape) →
        selSource (nix.map NIx.toIx) shape j = selSource is shape j := by
  induction is generalizing shape with
  | nil =>
    refine ⟨shape.map fun _ => .none, rfl, normalized_none shape, ?_, ?_⟩
    · rw [List.map_map]; exact selShape_none shape
    · intro j hj
      rw [List.map_map]
      exact selSource_none shape j hj.length_eq
  | cons a is ih =>
    cases a with
    | int i =>
      cases shape with
      | nil => simp [ValidItems] at hv
      | cons n shape =>
        obtain ⟨hn, hp'⟩ := hp.cons
        obtain ⟨nix, h1, h2, h3, h4⟩ := ih shape hp' hv
        refine ⟨.int (i % n) :: nix, ?_, ?_, ?_, ?_⟩
        · simp [normalizeItems, pyMod_pos i n hn, h1, pure, Except.pure, bind, Except.bind]
        · exact ⟨⟨Int.emod_nonneg _ (by omega), Int.emod_lt_of_pos _ (by omega)⟩, h2⟩
        · exact h3
        · intro j hj
          simp only [List.map_cons, NIx.toIx, selSource, h4 j hj]
          rw [Int.emod_emod_of_dvd _ (Int.dvd_refl _)]
    | slice s =>
      cases shape with
      | nil => simp [ValidItems] at hv
      | cons n shape =>
        obtain ⟨hn, hp'⟩ := hp.cons
        obtain ⟨nix, h1, h2, h3, h4⟩ := ih shape hp' hv.2
        refine ⟨.slice (reduced s n) :: nix, ?_, ?_, ?_, ?_⟩
        · simp [normalizeItems, h1, pure, Except.pure, bind, Except.bind]
        · refine ⟨⟨reduced_idem s n, ?_⟩, h2⟩
          have := reduced_step_ne_zero s n
          simpa [RSlice.toPy] using this
        · simp [NIx.toIx, selShape, h3, slicePositions_reduced s n hv.1]
        · intro j hj
          cases j with
          | nil => simp [selShape, InBox] at hj
          | cons j0 j =>
            simp only [List.map_cons, NIx.toIx, selSource, slicePositions_reduced s n hv.1]
            rw [h4 j hj.2]
    | none =>
      cases shape with
      | nil =>
        obtain ⟨nix, h1, h2, h3, h4⟩ := ih [] (by intro m hm; simp at hm) hv
        refine ⟨nix, h1, h2, ?_, ?_⟩
        · simp [selShape_nil]
        · intro j _; simp [selSource_nil_shape]
      | cons n shape =>
        obtain ⟨hn, hp'⟩ := hp.cons
        obtain ⟨nix, h1, h2, h3, h4⟩ := ih shape hp' hv
        refine ⟨.none :: nix, ?_, h2, ?_, ?_⟩
        · simp [normalizeItems, h1, pure, Except.pure, bind, Except.bind]
        · simp [NIx.toIx, selShape, h3]
        · intro j hj
          cases j with
          | nil => simp [selShape, InBox] at hj
          | cons j0 j =>
            simp only [List.map_cons, NIx.toIx, selSource]
            rw [h4 j hj.2]
    | other => cases shape <;> simp [ValidItems] at hv

theorem normalizeIndex_eq_items (index : Index) (shape : List Nat)
    (hv : ValidItems (items index) shape) :
    normalizeIndex index shape = normalizeItems (items index) shape := by
  cases index with
  | tuple is => rfl
  | one i =>
    cases i with
    | int i =>
      cases shape with
      | nil => simp [items, ValidItems] at hv
      | cons n shape => rfl
    | slice s =>
      cases shape with
      | nil => simp [items, ValidItems] at hv
      | cons n shape => rfl
    | none =>
      cases shape with
      | nil => rfl
      | cons n shape => rfl
    | other => cases shape <;> simp [items, ValidItems] at hv

theorem normalizeIndex_ok (index : Index) (shape : List Nat) (hp : PosShape shape)
    (hv : ValidItems (items index) shape) :
    ∃ nix, normalizeIndex index shape = .ok nix ∧ Normalized nix shape ∧
      selShape (nix.map NIx.toIx) shape = selShape (items index) shape ∧
      ∀ j, InBox j (selShape (items index) shape) →
        selSource (nix.map NIx.toIx) shape j = selSource (items index) shape j := by
  rw [normalizeIndex_eq_items index shape hv]
  exact normalizeItems_ok (items index) shape hp hv

theorem normalized_nitems {r : RSlice} {n : Nat} (h : reduced r.toPy n = r) (h0 : r.step ≠ 0) :
    nitemsR r = .ok (slicePositions r.toPy n).length ∧
    ∀ t : Nat, t < (slicePositions r.toPy n).length →
      (((slicePositions r.toPy n).getD t 0 : Nat) : Int) = r.start.fmod n + t * r.step
        ∧ 0 ≤ r.start.fmod n + t * r.step
        ∧ r.start.fmod n + t * r.step < n := by
  have h1 := reduced_nitems r.toPy n (by simpa [RSlice.toPy] using h0)
  rw [h] at h1
  refine ⟨h1.1, fun t ht => ?_⟩
  obtain ⟨h2, h3, h4⟩ := h1.2 t ht
  refine ⟨?_, h3, h4⟩
  rw [List.getD_eq_getElem?_getD, h2, Option.getD_some, Int.toNat_of_nonneg h3]

theorem indexStrided_ok (nix : List NIx) (shape : List Nat) (strides : List Int)
    (hp : PosShape shape) (hn : Normalized nix shape) (hs : strides.length = shape.length) :
    ∃ st off, indexStrided nix shape strides = .ok (selShape (nix.map NIx.toIx) shape, st, off) ∧
      st.length = (selShape (nix.map NIx.toIx) shape).length ∧
      ∀ j, InBox j (selShape (nix.map NIx.toIx) shape) →
        InBox (selSource (nix.map NIx.toIx) shape j) shape ∧
        address j st + off = address (selSource (nix.map NIx.toIx) shape j) strides := by
  induction nix generalizing shape strides with
  | nil =>
    cases shape with
    | nil =>
      refine ⟨[], 0, rfl, rfl, ?_⟩
      intro j hj
      cases j with
      | nil => cases strides <;> simp [selSource, InBox, address]
      | cons a j => simp [selShape, InBox] at hj
    | cons n shape => simp [Normalized] at hn
  | cons a nix ih =>
    cases shape with
    | nil => cases a <;> simp [Normalized] at hn
    | cons n shape =>
      cases strides with
      | nil => simp at hs
      | cons s strides =>
        obtain ⟨hn0, hp'⟩ := hp.cons
        have hs' : strides.length = shape.length := by simpa using hs
        cases a with
        | int i =>
          obtain ⟨st, off, h1, h2, h3⟩ := ih shape strides hp' hn.2 hs'
          refine ⟨st, s * i + off, ?_, h2, ?_⟩
          · simp [indexStrided, h1, selShape, NIx.toIx, pure, Except.pure, bind, Except.bind]
          · intro j hj
            obtain ⟨h4, h5⟩ := h3 j hj
            have e : i % (n : Int) = i := Int.emod_eq_of_lt hn.1.1 hn.1.2
            refine ⟨⟨by rw [e]; exact hn.1, h4⟩, ?_⟩
            simp only [List.map_cons, NIx.toIx, selSource, address, e]
            rw [← h5]; ring
        | slice r =>
          obtain ⟨st, off, h1, h2, h3⟩ := ih shape strides hp' hn.2 hs'
          obtain ⟨h4, h5⟩ := normalized_nitems hn.1.1 hn.1.2
          refine ⟨s * r.step :: st, s * r.start.fmod n + off, ?_, ?_, ?_⟩
          · have : ¬ ((n : Int) = 0) := by omega
            simp only [indexStrided, pyMod, this, if_false, h4, h1, List.map_cons, NIx.toIx, selShape]
            rfl
          · simp [NIx.toIx, selShape, h2]
          · intro j hj
            cases j with
            | nil => simp [selShape, NIx.toIx, InBox] at hj
            | cons j0 j =>
              simp only [List.map_cons, NIx.toIx, selShape] at hj
              obtain ⟨⟨hj0, hj1⟩, hj2⟩ := hj
              obtain ⟨h6, h7⟩ := h3 j hj2
              obtain ⟨h8, h9, h10⟩ := h5 j0.toNat (by omega)
              have ej : ((j0.toNat : Nat) : Int) = j0 := Int.toNat_of_nonneg hj0
              rw [ej] at h8 h9 h10
              refine ⟨⟨by rw [h8]; exact ⟨h9, h10⟩, h6⟩, ?_⟩
              simp only [List.map_cons, NIx.toIx, selSource, address, h8]
              rw [← h7]; ring
        | none =>
          obtain ⟨st, off, h1, h2, h3⟩ := ih shape strides hp' hn hs'
          refine ⟨s :: st, off, ?_, ?_, ?_⟩
          · simp [indexStrided, h1, selShape, NIx.toIx, pure, Except.pure, bind, Except.bind]
          · simp [NIx.toIx, selShape, h2]
          · intro j hj
            cases j with
            | nil => simp [selShape, NIx.toIx, InBox] at hj
            | cons j0 j =>
              simp only [List.map_cons, NIx.toIx, selShape] at hj
              obtain ⟨h6, h7⟩ := h3 j hj.2
              refine ⟨⟨hj.1, h6⟩, ?_⟩
              simp only [List.map_cons, NIx.toIx, selSource, address]
              rw [← h7]; ring

/-- `normalizeIndex` followed by `indexStrided`, in terms of the specification of indexing. -/
theorem index_ok (index : Index) (shape : List Nat) (strides : List Int) (hp : PosShape shape)
    (hv : ValidItems (items index) shape) (hs : strides.length = shape.length) :
    ∃ nix st off, normalizeIndex index shape = .ok nix ∧ Normalized nix shape ∧
      indexStrided nix shape strides = .ok (selShape (items index) shape, st, off) ∧
      st.length = (selShape (items index) shape).length ∧
      ∀ j, InBox j (selShape (items index) shape) →
        InBox (selSource (items index) shape j) shape ∧
        address j st + off = address (selSource (items index) shape j) strides := by
  obtain ⟨nix, h1, h2, h3, h4⟩ := normalizeIndex_ok index shape hp hv
  obtain ⟨st, off, h5, h6, h7⟩ := indexStrided_ok nix shape strides hp h2 hs
  rw [h3] at h5 h6 h7
  refine ⟨nix, st, off, h1, h2, h5, h6, fun j hj => ?_⟩
  obtain ⟨h8, h9⟩ := h7 j hj
  rw [h4 j hj] at h8 h9
  exact ⟨h8, h9⟩

end Gcs
