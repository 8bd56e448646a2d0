import Verif.Props.Construct
import Verif.Props.Diophantine
import Verif.Props.Indexing
import Verif.Props.Observing
import Verif.Lemmas.Keep

/-!
# C72: arrays with an empty axis
-/

namespace Gcs

open Spec

variable {V : Type} [DecidableEq V]

/-- An item of the index that is an int. -/
def Spec.IsInt (x : Ix) : Prop := ∃ i, x = .int i

/-- An item of the index that is an int or a slice. -/
def Spec.IsIntOrSlice (x : Ix) : Prop := (∃ i, x = .int i) ∨ ∃ s, x = .slice s

/-- Some item of the index with the property `P` is at an axis of size `0`. -/
def Spec.Meets (P : Ix → Prop) (is : List Ix) (shape : List Nat) : Prop :=
  ∃ (k : Nat) (x : Ix), is[k]? = some x ∧ P x ∧ shape[k]? = some 0

/-- An axis that the index keeps is followed by an axis of size `0`. -/
def Spec.KeptBefore (is : List Ix) (shape : List Nat) : Prop :=
  ∃ j k : Nat, j < k ∧ (∀ i, is[j]? ≠ some (.int i)) ∧ shape[k]? = some 0

theorem Meets_cons {P : Ix → Prop} {x : Ix} {is : List Ix} {n : Nat} {shape : List Nat} :
    Meets P (x :: is) (n :: shape) ↔ (P x ∧ n = 0) ∨ Meets P is shape := by
  constructor
  · rintro ⟨k, y, h1, h2, h3⟩
    cases k with
    | zero => simp at h1 h3; subst h1; exact .inl ⟨h2, h3⟩
    | succ k => exact .inr ⟨k, y, by simpa using h1, h2, by simpa using h3⟩
  · rintro (⟨h1, h2⟩ | ⟨k, y, h1, h2, h3⟩)
    · exact ⟨0, x, rfl, h1, by simp [h2]⟩
    · exact ⟨k + 1, y, by simpa using h1, h2, by simpa using h3⟩

theorem not_Meets_nil {P : Ix → Prop} {shape : List Nat} : ¬ Meets P [] shape := by
  rintro ⟨k, x, h, _⟩; simp at h

theorem not_Meets_shape {P : Ix → Prop} {is : List Ix} : ¬ Meets P is [] := by
  rintro ⟨k, x, _, _, h⟩; simp at h

theorem KeptBefore_cons {x : Ix} {is : List Ix} {n : Nat} {shape : List Nat} :
    KeptBefore (x :: is) (n :: shape) ↔ (¬ IsInt x ∧ 0 ∈ shape) ∨ KeptBefore is shape := by
  constructor
  · rintro ⟨j, k, h1, h2, h3⟩
    cases k with
    | zero => omega
    | succ k =>
      cases j with
      | zero =>
        refine .inl ⟨?_, List.mem_of_getElem? (by simpa using h3)⟩
        rintro ⟨i, rfl⟩; exact h2 i rfl
      | succ j => exact .inr ⟨j, k, by omega, by simpa using h2, by simpa using h3⟩
  · rintro (⟨h1, h2⟩ | ⟨j, k, h1, h2, h3⟩)
    · obtain ⟨k, hk⟩ := List.mem_iff_getElem?.1 h2
      exact ⟨0, k + 1, by omega, fun i hi => h1 ⟨i, by simpa using hi⟩, by simpa using hk⟩
    · exact ⟨j + 1, k + 1, by omega, by simpa using h2, by simpa using h3⟩

theorem KeptBefore_nil_cons {n : Nat} {shape : List Nat} :
    KeptBefore [] (n :: shape) ↔ 0 ∈ shape := by
  constructor
  · rintro ⟨j, k, h1, h2, h3⟩
    cases k with
    | zero => omega
    | succ k => exact List.mem_of_getElem? (by simpa using h3)
  · intro h2
    obtain ⟨k, hk⟩ := List.mem_iff_getElem?.1 h2
    exact ⟨0, k + 1, by omega, by simp, by simpa using hk⟩

theorem not_KeptBefore_shape {is : List Ix} : ¬ KeptBefore is [] := by
  rintro ⟨j, k, _, _, h⟩; simp at h

theorem normalizeItems_empty (is : List Ix) (shape : List Nat) (hv : ValidItems is shape) (hm : Meets IsInt is shape) :
    normalizeItems is shape = .error .zeroDivision := by
  induction is generalizing shape with
  | nil => exact absurd hm not_Meets_nil
  | cons x is ih =>
    cases shape with
    | nil => exact absurd hm not_Meets_shape
    | cons n shape =>
      rw [Meets_cons] at hm
      cases x with
      | int i =>
        by_cases hn : n = 0
        · simp [normalizeItems, pyMod, hn, bind, Except.bind]
        · have := ih shape hv (hm.resolve_left (by simp [hn]))
          simp [normalizeItems, pyMod, hn, bind, Except.bind, this]
      | slice s => simp [normalizeItems, bind, Except.bind, ih shape hv.2 (hm.resolve_left (by simp [IsInt]))]
      | none => simp [normalizeItems, bind, Except.bind, ih shape hv (hm.resolve_left (by simp [IsInt]))]
      | other => exact hv.elim

theorem zero_mem_product {shape : List Nat} (h : 0 ∈ shape) : product shape = 0 := by
  induction shape with
  | nil => cases h
  | cons n shape ih =>
    rw [product_cons]
    rcases List.mem_cons.1 h with rfl | h
    · simp
    · simp [ih h]

theorem product_zero_mem {shape : List Nat} (h : product shape = 0) : 0 ∈ shape := by
  induction shape with
  | nil => simp [product] at h
  | cons n shape ih =>
    rw [product_cons] at h
    rcases Nat.mul_eq_zero.1 h with h | h
    · simp [h]
    · exact List.mem_cons_of_mem _ (ih h)

/-- Without an int on an empty axis the index is normalized; with a slice on one `index_strided` raises; with neither
the selection has the expected shape and strides. -/
theorem normalizeItems_plan (is : List Ix) (shape : List Nat) (hv : ValidItems is shape) (hm : ¬ Meets IsInt is shape) :
    ∃ nix, normalizeItems is shape = .ok nix ∧
      (Meets IsIntOrSlice is shape → elementIndex nix = none ∧
        ∀ strides : List Int, strides.length = shape.length → indexStrided nix shape strides = .error .zeroDivision) ∧
      (¬ Meets IsIntOrSlice is shape → ∃ st off, indexStrided nix shape (makeStrides shape) = .ok (selShape is shape, st, off) ∧
        st.length = (selShape is shape).length ∧ (0 ∈ st ↔ KeptBefore is shape) ∧
        (0 ∈ shape → selShape is shape ≠ [] ∧ elementIndex nix = none ∧ 0 ∈ selShape is shape) ∧
        (0 ∈ st → 2 ≤ st.length)) := by
  induction is generalizing shape with
  | nil =>
    refine ⟨shape.map fun _ => .none, rfl, fun h => absurd h not_Meets_nil, fun _ => ?_⟩
    induction shape with
    | nil => exact ⟨[], 0, rfl, rfl, by simp [not_KeptBefore_shape], by simp, by simp⟩
    | cons n shape ih =>
      obtain ⟨st, off, h1, h2, h3, h4, h5⟩ := ih (by simp [ValidItems]) not_Meets_nil not_Meets_nil
      have e : selShape [] shape = shape := by cases shape <;> rfl
      refine ⟨(product shape : Int) :: st, off, ?_, ?_, ?_, ?_, ?_⟩
      · simp only [List.map_cons, indexStrided, makeStrides_cons, h1, bind, Except.bind, pure, Except.pure, e]
        rfl
      · simp [selShape, h2, e]
      · rw [KeptBefore_nil_cons]
        simp only [List.mem_cons, h3]
        constructor
        · rintro (h | h)
          · exact product_zero_mem (by exact_mod_cast h.symm)
          · cases shape with
            | nil => exact absurd h not_KeptBefore_shape
            | cons m shape => exact List.mem_cons_of_mem _ (KeptBefore_nil_cons.1 h)
        · intro h; left; exact_mod_cast (zero_mem_product h).symm
      · intro h; exact ⟨by simp [selShape], rfl, h⟩
      · intro h
        rcases List.mem_cons.1 h with h | h
        · have : 0 ∈ shape := product_zero_mem (by exact_mod_cast h.symm)
          have := List.length_pos_of_ne_nil (h4 this).1
          simp [h2]; omega
        · have := h5 h; simp; omega
  | cons x is ih =>
    cases shape with
    | nil =>
      cases x with
      | none =>
        obtain ⟨nix, h1, h2, h3⟩ := ih [] hv not_Meets_shape
        refine ⟨nix, h1, fun h => absurd h not_Meets_shape, fun _ => ?_⟩
        obtain ⟨st, off, a1, a2, a3, a4, a5⟩ := h3 not_Meets_shape
        rw [selShape_nil] at *
        exact ⟨st, off, a1, a2, by rw [a3]; simp [not_KeptBefore_shape], by simp, a5⟩
      | _ => exact hv.elim
    | cons n shape =>
      rw [Meets_cons, not_or] at hm
      simp only [Meets_cons, KeptBefore_cons]
      cases x with
      | other => exact hv.elim
      | int i =>
        obtain ⟨nix, h1, h2, h3⟩ := ih shape hv hm.2
        have hn : n ≠ 0 := fun h => hm.1 ⟨⟨i, rfl⟩, h⟩
        refine ⟨.int (i % n) :: nix, ?_, ?_, ?_⟩
        · simp [normalizeItems, pyMod_pos i n (by omega), h1, bind, Except.bind, pure, Except.pure]
        · rintro (⟨_, h⟩ | h)
          · exact absurd h hn
          · obtain ⟨a1, a2⟩ := h2 h
            refine ⟨by simp [elementIndex, a1], fun strides hs => ?_⟩
            cases strides with
            | nil => simp at hs
            | cons st strides => simp [indexStrided, a2 strides (by simpa using hs), bind, Except.bind]
        · intro h
          obtain ⟨st, off, a1, a2, a3, a4, a5⟩ := h3 (fun h' => h (.inr h'))
          refine ⟨st, _, by simp [indexStrided, makeStrides_cons, a1, selShape, bind, Except.bind, pure, Except.pure]; rfl,
            by simpa [selShape] using a2, by rw [a3]; simp [IsInt], ?_, a5⟩
          intro h0
          obtain ⟨b1, b2, b3⟩ := a4 ((List.mem_cons.1 h0).resolve_left (fun h => hn h.symm))
          exact ⟨b1, by simp [elementIndex, b2], b3⟩
      | slice s =>
        obtain ⟨nix, h1, h2, h3⟩ := ih shape hv.2 hm.2
        refine ⟨.slice (reduced s n) :: nix, ?_, ?_, ?_⟩
        · simp [normalizeItems, h1, bind, Except.bind, pure, Except.pure]
        · intro h
          refine ⟨rfl, fun strides hs => ?_⟩
          cases strides with
          | nil => simp at hs
          | cons st strides =>
            by_cases hn : n = 0
            · simp [indexStrided, pyMod, hn, bind, Except.bind]
            · have h := h.resolve_left (fun h => hn h.2)
              simp only [indexStrided, pyMod_pos _ n (by omega), (reduced_nitems s n hv.1).1,
                (h2 h).2 strides (by simpa using hs), bind, Except.bind]
        · intro h
          obtain ⟨st, off, a1, a2, a3, a4, a5⟩ := h3 (fun h' => h (.inr h'))
          have hn : n ≠ 0 := fun h' => h (.inl ⟨.inr ⟨s, rfl⟩, h'⟩)
          have hst : (reduced s n).step ≠ 0 := by
            have := reduced_step_ne_zero s n
            simpa [RSlice.toPy] using this
          refine ⟨(product shape : Int) * (reduced s n).step :: st, (product shape : Int) * ((reduced s n).start % n) + off, ?_, ?_, ?_, ?_, ?_⟩
          · simp only [indexStrided, makeStrides_cons, pyMod_pos _ n (by omega), (reduced_nitems s n hv.1).1, a1, selShape,
              bind, Except.bind, pure, Except.pure]
          · simp [selShape, a2]
          · simp only [List.mem_cons, a3]
            refine or_congr ⟨fun h => ⟨by simp [IsInt], ?_⟩, fun h => ?_⟩ Iff.rfl
            · have h := (Int.mul_eq_zero.1 h.symm).resolve_right hst
              exact product_zero_mem (by exact_mod_cast h)
            · simp [zero_mem_product h.2]
          · intro h0
            have := a4 ((List.mem_cons.1 h0).resolve_left (fun h => hn h.symm))
            exact ⟨by simp [selShape], rfl, by simp [selShape, this.2.2]⟩
          · intro h0
            rcases List.mem_cons.1 h0 with h | h
            · have h := (Int.mul_eq_zero.1 h.symm).resolve_right hst
              have : 0 ∈ shape := product_zero_mem (by exact_mod_cast h)
              have := List.length_pos_of_ne_nil (a4 this).1
              simp [a2]; omega
            · have := a5 h; simp; omega
      | none =>
        obtain ⟨nix, h1, h2, h3⟩ := ih shape hv hm.2
        refine ⟨.none :: nix, ?_, ?_, ?_⟩
        · simp [normalizeItems, h1, bind, Except.bind, pure, Except.pure]
        · intro h
          refine ⟨rfl, fun strides hs => ?_⟩
          have h := h.resolve_left (by rintro ⟨h | h, _⟩ <;> simp at h)
          cases strides with
          | nil => simp at hs
          | cons st strides => simp only [indexStrided, (h2 h).2 strides (by simpa using hs), bind, Except.bind]
        · intro h
          obtain ⟨st, off, a1, a2, a3, a4, a5⟩ := h3 (fun h' => h (.inr h'))
          refine ⟨(product shape : Int) :: st, off, ?_, ?_, ?_, ?_, ?_⟩
          · simp only [indexStrided, makeStrides_cons, a1, selShape, bind, Except.bind, pure, Except.pure]
          · simp [selShape, a2]
          · simp only [List.mem_cons, a3]
            refine or_congr ⟨fun h => ⟨by simp [IsInt], ?_⟩, fun h => ?_⟩ Iff.rfl
            · exact product_zero_mem (by exact_mod_cast h.symm)
            · simp [zero_mem_product h.2]
          · intro h0
            refine ⟨by simp [selShape], rfl, ?_⟩
            rcases List.mem_cons.1 h0 with rfl | h0
            · simp [selShape]
            · simp [selShape, (a4 h0).2.2]
          · intro h0
            rcases List.mem_cons.1 h0 with h | h
            · have : 0 ∈ shape := product_zero_mem (by exact_mod_cast h.symm)
              have := List.length_pos_of_ne_nil (a4 this).1
              simp [a2]; omega
            · have := a5 h; simp; omega

theorem no_inBox {shape : List Nat} (h : 0 ∈ shape) (ix : List Int) : ¬ InBox ix shape := fun hi =>
  absurd (InBox_pos hi 0 h) (by omega)

theorem indexProduct_nil {shape : List Nat} (h : 0 ∈ shape) : indexProduct shape = [] := by
  rw [List.eq_nil_iff_forall_not_mem]
  exact fun ix hx => no_inBox h ix ((mem_indexProduct _ _).1 hx)

theorem rows_none {shape : List Nat} (h : 0 ∈ shape) {rows : List (List Int)} (hr : SortedRows shape rows) : rows = [] := by
  rw [List.eq_nil_iff_forall_not_mem]
  exact fun ix hx => no_inBox h ix (hr.inbox ix hx)

theorem zero_mem_makeStrides (shape : List Nat) : (0 : Int) ∈ makeStrides shape ↔ 0 ∈ shape.tail := by
  induction shape with
  | nil => simp [makeStrides]
  | cons n shape ih =>
    rw [makeStrides_cons, List.mem_cons, ih, List.tail_cons]
    constructor
    · rintro (h | h)
      · exact product_zero_mem (by exact_mod_cast h.symm)
      · exact List.mem_of_mem_tail h
    · intro h; left; exact_mod_cast (zero_mem_product h).symm

/-- The two errors of `Diophantine` equations with a zero coefficient. -/
def Spec.DioErr {α : Type} (x : PyM α) : Prop := x = .error .assertion ∨ x = .error .zeroDivision

theorem init_iff (st : List Int) (sh : List Nat) (hl : st.length = sh.length) (h2 : 0 ∈ st → 2 ≤ st.length) :
    (0 ∉ st → ∃ d, initDiophantine st (some sh) = .ok d) ∧ (0 ∈ st → DioErr (initDiophantine st (some sh))) := by
  constructor
  · intro h0
    match st, hl with
    | [], _ => exact ⟨_, rfl⟩
    | [a], _ => exact ⟨_, rfl⟩
    | a0 :: a1 :: rest, hl =>
      obtain ⟨d, h, _⟩ := initDiophantine_ok a0 a1 rest (some sh) (fun a ha h => h0 (h ▸ ha))
        (by intro sh' h'; cases h'; simp at hl; omega)
      exact ⟨d, h⟩
  · intro h0
    match st, hl, h2 h0 with
    | a0 :: a1 :: rest, hl, _ =>
      obtain ⟨e, he⟩ := initDiophantine_zero a0 a1 rest (some sh) ⟨0, h0, rfl⟩
      rcases initDiophantine_error _ sh hl.symm e he with rfl | rfl
      · exact .inl he
      · exact .inr he

theorem FlatCOO.entries_empty {f : FlatCOO V} {rows : List (List Int)} (h : f.Rep rows) (h0 : 0 ∈ f.shape) :
    (0 ∉ f.shape.tail → f.entries = .ok []) ∧ (0 ∈ f.shape.tail → DioErr f.entries) := by
  have hr := rows_none h0 h.rows_ok
  subst hr
  have hf : f.findices.size = 0 := h.fsize
  obtain ⟨a1, a2⟩ := init_iff (makeStrides f.shape) f.shape (makeStrides_length _) (by
    rw [zero_mem_makeStrides, makeStrides_length]
    cases hs : f.shape with
    | nil => simp
    | cons n l => cases l with
      | nil => simp
      | cons => simp)
  rw [zero_mem_makeStrides] at a1 a2
  constructor
  · intro ht
    obtain ⟨d, hd⟩ := a1 ht
    simp [FlatCOO.entries, hd, hf, bind, Except.bind, pure, Except.pure]
  · intro ht
    rcases a2 ht with h | h
    · left; simp only [FlatCOO.entries, h, bind, Except.bind]
    · right; simp only [FlatCOO.entries, h, bind, Except.bind]

/-- C72.  On an array with an empty axis of any class but `Buffer`, an int on that axis raises `ZeroDivisionError`; on
all classes but `DM` and `Buffer` so does a slice. -/
theorem C72_index (s : Storage V) (mem : List V) (h : s.WF mem) (hb : s.cls ≠ .buffer) (index : Index)
    (hv : ValidItems (items index) s.shape) :
    (Meets IsInt (items index) s.shape → s.getItem mem index = .error .zeroDivision) ∧
    (Meets IsIntOrSlice (items index) s.shape → s.cls ≠ .dm → s.getItem mem index = .error .zeroDivision) := by
  have hi : Meets IsInt (items index) s.shape → normalizeIndex index s.shape = .error .zeroDivision := fun hm => by
    rw [normalizeIndex_eq_items _ _ hv, normalizeItems_empty _ _ hv hm]
  have first : Meets IsInt (items index) s.shape → s.getItem mem index = .error .zeroDivision := by
    intro hm
    have := hi hm
    cases s with
    | buffer => exact absurd rfl hb
    | _ => simp only [Storage.shape] at this; simp only [Storage.getItem, Strided.getItem, this, bind, Except.bind]
  refine ⟨first, fun hm hd => ?_⟩
  by_cases hm' : Meets IsInt (items index) s.shape
  · exact first hm'
  · obtain ⟨nix, h1, h2, _⟩ := normalizeItems_plan _ _ hv hm'
    rw [← normalizeIndex_eq_items _ _ hv] at h1
    obtain ⟨h3, h4⟩ := h2 hm
    cases s with
    | buffer => exact absurd rfl hb
    | dm => exact absurd rfl hd
    | strided s =>
      simp only [Storage.shape] at h1 h4
      simp only [Storage.getItem, Strided.getItem, h1, h3, h4 _ h.len, bind, Except.bind]
    | _ =>
      simp only [Storage.shape] at h1 h4
      simp only [Storage.getItem, h1, h3, h4 _ (makeStrides_length _), bind, Except.bind]

/-- C72.  An assignment with an int or a slice on an empty axis raises `ZeroDivisionError` before it writes, for all
classes but `Buffer` and all values. -/
theorem C72_assign (s : Storage V) (mem : List V) (h : s.WF mem) (hb : s.cls ≠ .buffer) (index : Index)
    (hv : ValidItems (items index) s.shape) (hm : Meets IsIntOrSlice (items index) s.shape)
    (valueAt : List V → List Int → PyM V) : s.setItem mem index valueAt = ⟨mem, some .zeroDivision⟩ := by
  by_cases hm' : Meets IsInt (items index) s.shape
  · have : normalizeIndex index s.shape = .error .zeroDivision := by
      rw [normalizeIndex_eq_items _ _ hv, normalizeItems_empty _ _ hv hm']
    cases s with
    | buffer => exact absurd rfl hb
    | _ =>
      simp only [Storage.shape] at this
      simp only [Storage.setItem, Strided.setItem, Storage.setPlan, Storage.dmSetPlan, this, bind, Except.bind]
  · obtain ⟨nix, h1, h2, _⟩ := normalizeItems_plan _ _ hv hm'
    rw [← normalizeIndex_eq_items _ _ hv] at h1
    obtain ⟨h3, h4⟩ := h2 hm
    cases s with
    | buffer => exact absurd rfl hb
    | strided s =>
      simp only [Storage.shape] at h1 h4
      simp only [Storage.setItem, Strided.setItem, h1, h3, h4 _ h.len, bind, Except.bind]
    | _ =>
      simp only [Storage.shape] at h1 h4
      simp only [Storage.setItem, Storage.setPlan, Storage.dmSetPlan, h1, h3, h4 _ (makeStrides_length _), bind, Except.bind]

/-- An operation that goes over the entries of an array with an empty axis raises: the equation that looks for the
positions has a zero coefficient. -/
def Spec.Stuck (cls : Cls) (is : List Ix) (shape : List Nat) : Prop :=
  match cls with
  | .buffer | .strided => False
  | .flatcoo => 0 ∈ shape.tail
  | .coo | .csr | .dm => KeptBefore is shape

theorem Spec.KeptBefore.tail {is : List Ix} {shape : List Nat} (h : KeptBefore is shape) : 0 ∈ shape.tail := by
  obtain ⟨j, k, h1, _, h3⟩ := h
  cases shape with
  | nil => simp at h3
  | cons n shape =>
    cases k with
    | zero => omega
    | succ k => exact List.mem_of_getElem? (by simpa using h3)

theorem sliceEntries_empty {P : Type} (entries : PyM (List (List Int × P))) (selfShape sh : List Nat) (st : List Int)
    (off : Int) (hl : st.length = sh.length) (h2 : 0 ∈ st → 2 ≤ st.length) :
    (0 ∈ st → DioErr (sliceEntries entries selfShape sh st off)) ∧
    (0 ∉ st → DioErr entries → DioErr (sliceEntries entries selfShape sh st off)) ∧
    (0 ∉ st → entries = .ok [] → sliceEntries entries selfShape sh st off = .ok []) := by
  obtain ⟨a1, a2⟩ := init_iff st sh hl h2
  refine ⟨fun h => ?_, fun h he => ?_, fun h he => ?_⟩
  · rcases a2 h with h | h
    · left; simp only [sliceEntries, h, bind, Except.bind]
    · right; simp only [sliceEntries, h, bind, Except.bind]
  · obtain ⟨d, hd⟩ := a1 h
    rcases he with he | he
    · left; simp only [sliceEntries, hd, he, bind, Except.bind]
    · right; simp only [sliceEntries, hd, he, bind, Except.bind]
  · obtain ⟨d, hd⟩ := a1 h
    simp [sliceEntries, hd, he, bind, Except.bind, pure, Except.pure]

omit [DecidableEq V] in
theorem pySorted_nil : pySorted [] = [] := rfl

theorem indexStrided_shape (nix : List NIx) (shape : List Nat) (st1 st2 : List Int) (h1 : st1.length = shape.length)
    (h2 : st2.length = shape.length) (sh : List Nat) (st : List Int) (off : Int)
    (h : indexStrided nix shape st1 = .ok (sh, st, off)) : ∃ st' off', indexStrided nix shape st2 = .ok (sh, st', off') := by
  induction nix generalizing shape st1 st2 sh st off with
  | nil =>
    simp only [indexStrided, pure_eq_ok, Prod.mk.injEq] at h
    exact ⟨[], 0, by simp [indexStrided, ← h.1, pure, Except.pure]⟩
  | cons x nix ih =>
    match shape, st1, st2, h1, h2 with
    | [], [], [], _, _ =>
      simp only [indexStrided, pure_eq_ok, Prod.mk.injEq] at h
      exact ⟨[], 0, by simp [indexStrided, ← h.1, pure, Except.pure]⟩
    | n :: shape, a :: st1, b :: st2, h1, h2 =>
      cases x with
      | int i =>
        simp only [indexStrided, bind_eq_ok, pure_eq_ok, Prod.exists, Prod.mk.injEq] at h
        obtain ⟨sh', st', off', h3, rfl, _⟩ := h
        obtain ⟨st2', off2, h4⟩ := ih shape st1 st2 (by simpa using h1) (by simpa using h2) _ _ _ h3
        exact ⟨_, _, by simp only [indexStrided, h4, bind, Except.bind]; rfl⟩
      | slice r =>
        simp only [indexStrided, bind_eq_ok, pure_eq_ok, Prod.exists, Prod.mk.injEq] at h
        obtain ⟨m, h5, k, h6, sh', st', off', h3, rfl, _⟩ := h
        obtain ⟨st2', off2, h4⟩ := ih shape st1 st2 (by simpa using h1) (by simpa using h2) _ _ _ h3
        exact ⟨_, _, by simp only [indexStrided, h4, h5, h6, bind, Except.bind]; rfl⟩
      | none =>
        simp only [indexStrided, bind_eq_ok, pure_eq_ok, Prod.exists, Prod.mk.injEq] at h
        obtain ⟨sh', st', off', h3, rfl, _⟩ := h
        obtain ⟨st2', off2, h4⟩ := ih shape st1 st2 (by simpa using h1) (by simpa using h2) _ _ _ h3
        exact ⟨_, _, by simp only [indexStrided, h4, bind, Except.bind]; rfl⟩

/-- C72.  An index that keeps every empty axis whole (with `None` or by being short) on a `COO`, `FlatCOO` or `CSR` raises if the positions cannot be looked for
(`Stuck`), and otherwise gives an array without elements of the expected shape. -/
theorem C72_keep (s : Storage V) (mem : List V) (h : s.WF mem) (hc : s.cls = .coo ∨ s.cls = .flatcoo ∨ s.cls = .csr)
    (index : Index) (h0 : 0 ∈ s.shape) (hv : ValidItems (items index) s.shape) (hm : ¬ Meets IsIntOrSlice (items index) s.shape) :
    (Stuck s.cls (items index) s.shape → DioErr (s.getItem mem index)) ∧
    (¬ Stuck s.cls (items index) s.shape → ∃ r, s.getItem mem index = .ok (.fresh r []) ∧ r.WF [] ∧
      r.shape = selShape (items index) s.shape ∧ 0 ∈ r.shape ∧ r.unspec = s.unspec ∧
      r.cls = if s.cls = .csr ∧ r.shape.length = 1 then .coo else s.cls) := by
  have hm' : ¬ Meets IsInt (items index) s.shape := fun ⟨k, x, a, b, c⟩ => hm ⟨k, x, a, .inl b, c⟩
  obtain ⟨nix, h1, _, h2⟩ := normalizeItems_plan _ _ hv hm'
  rw [← normalizeIndex_eq_items _ _ hv] at h1
  obtain ⟨st, off, a1, a2, a3, a4, a5⟩ := h2 hm
  obtain ⟨b1, b2, b3⟩ := a4 h0
  have hs : ∀ sh : List Nat, SortedRows sh [] := fun sh => ⟨List.Pairwise.nil, by simp⟩
  cases s with
  | buffer | strided | dm => simp [Storage.cls] at hc
  | coo c =>
    obtain ⟨⟨rows, hr⟩, hd⟩ := h
    have := rows_none h0 hr.rows_ok; subst this
    simp only [Storage.shape] at *
    simp only [Storage.cls, Stuck, ← a3]
    obtain ⟨e1, _, e3⟩ := sliceEntries_empty c.entries c.shape (selShape (items index) c.shape) st off a2 a5
    constructor
    · intro hk
      rcases e1 hk with hk | hk
      · left; simp only [Storage.getItem, h1, b2, a1, COO.getSlice, hk, bind, Except.bind]
      · right; simp only [Storage.getItem, h1, b2, a1, COO.getSlice, hk, bind, Except.bind]
    · intro hk
      have e3 := e3 hk hr.entries_ok
      rw [hr.entries_ok] at e3
      have := hr.getSlice_ok mem _ st off [] [] b1 e3 rfl rfl
      refine ⟨.coo (cooOf (selShape (items index) c.shape) [] ⟨0, 0, c.data.unspec⟩), ?_, ⟨⟨[], cooOf_rep _ b1 [] (hs _) _ rfl⟩,
        by simp [Buffer.WF, cooOf]⟩, rfl, b3, rfl, by simp [Storage.cls]⟩
      simp only [Storage.getItem, h1, b2, a1, this, bind, Except.bind]
      rfl
  | flatcoo f =>
    obtain ⟨⟨rows, hr⟩, hd⟩ := h
    have := rows_none h0 hr.rows_ok; subst this
    simp only [Storage.shape] at *
    simp only [Storage.cls, Stuck]
    obtain ⟨e1, e2, e3⟩ := sliceEntries_empty f.entries f.shape (selShape (items index) f.shape) st off a2 a5
    obtain ⟨f1, f2⟩ := FlatCOO.entries_empty hr h0
    constructor
    · intro hk
      have : DioErr (sliceEntries f.entries f.shape (selShape (items index) f.shape) st off) := by
        by_cases hz : 0 ∈ st
        · exact e1 hz
        · exact e2 hz (f2 hk)
      rcases this with hk | hk
      · left; simp only [Storage.getItem, h1, b2, a1, FlatCOO.getSlice, hk, bind, Except.bind]
      · right; simp only [Storage.getItem, h1, b2, a1, FlatCOO.getSlice, hk, bind, Except.bind]
    · intro hk
      have e3 := e3 (fun hz => hk (a3.1 hz).tail) (f1 hk)
      refine ⟨.flatcoo (flatOf (selShape (items index) f.shape) [] ⟨0, 0, f.data.unspec⟩), ?_, ⟨⟨[], flatOf_rep _ [] (hs _) _ rfl⟩,
        by simp [Buffer.WF, flatOf]⟩, rfl, b3, rfl, by simp [Storage.cls]⟩
      simp only [Storage.getItem, h1, b2, a1, FlatCOO.getSlice, e3, bind, Except.bind, pySorted_nil]
      rfl
  | csr c =>
    obtain ⟨⟨rows, hr⟩, hd⟩ := h
    have := rows_none h0 hr.rows_ok; subst this
    simp only [Storage.shape] at *
    simp only [Storage.cls, Stuck, ← a3]
    obtain ⟨e1, _, e3⟩ := sliceEntries_empty c.entries c.shape (selShape (items index) c.shape) st off a2 a5
    have hle := selShape_length_le (items index) c.shape
    have hpos := List.length_pos_of_ne_nil b1
    rw [hr.two] at hle
    constructor
    · intro hk
      have h2 : (selShape (items index) c.shape).length = 2 := by have := a5 hk; omega
      rcases e1 hk with hk | hk
      · left
        simp only [Storage.getItem, h1, b2, a1, CSR.getSlice2, h2, pyAssert, hk, bind, Except.bind, Nat.reduceEqDiff, if_false,
          if_true, decide_true]
      · right
        simp only [Storage.getItem, h1, b2, a1, CSR.getSlice2, h2, pyAssert, hk, bind, Except.bind, Nat.reduceEqDiff, if_false,
          if_true, decide_true]
    · intro hk
      by_cases hl : (selShape (items index) c.shape).length = 1
      · have hc : cooBuild c.shape (c.getElem mem) c.data.unspec c.data.unspec
            = .ok (cooOf c.shape [] ⟨0, 0, c.data.unspec⟩, []) := by
          have hk : keptRows c.shape (fun _ => subst c.data.unspec c.data.unspec c.data.unspec) c.data.unspec = [] := by
            rw [List.eq_nil_iff_forall_not_mem]
            exact fun ix hx => no_inBox h0 ix ((mem_keptRows _ _ _ _).1 hx).1
          have := cooBuild_ok c.shape (fun h => by simp [h] at h0) (c.getElem mem) c.data.unspec c.data.unspec
            (fun _ => c.data.unspec) (fun ix hi => absurd hi (no_inBox h0 ix))
          rw [hk] at this
          exact this
        have hr' : (cooOf c.shape [] (⟨0, 0, c.data.unspec⟩ : Buffer V)).Rep [] :=
          cooOf_rep _ (fun h => by simp [h] at h0) [] (hs _) _ rfl
        have e3 := e3 hk hr.entries_ok
        rw [hr.entries_ok] at e3
        have := hr'.getSlice_ok [] _ st off [] [] b1 e3 rfl rfl
        refine ⟨.coo (cooOf (selShape (items index) c.shape) [] ⟨0, 0, c.data.unspec⟩), ?_,
          ⟨⟨[], cooOf_rep _ b1 [] (hs _) _ rfl⟩, by simp [Buffer.WF, cooOf]⟩, rfl, b3, rfl, ?_⟩
        · simp only [Storage.getItem, h1, b2, a1, hl, if_true, CSR.getSlice1, hc, this, bind, Except.bind]
          rfl
        · simp [Storage.shape, cooOf, hl]
      · have hl2 : (selShape (items index) c.shape).length = 2 := by omega
        have e3 := e3 hk hr.entries_ok
        rw [hr.entries_ok] at e3
        have := hr.getSlice2_ok mem _ st off [] [] hl2 (hs _) e3 rfl rfl
        refine ⟨.csr (csrOf (selShape (items index) c.shape) [] ⟨0, 0, c.data.unspec⟩), ?_,
          ⟨⟨[], csrOf_rep _ hl2 [] (hs _) _ rfl⟩, by simp [Buffer.WF, csrOf]⟩, rfl, b3, rfl, ?_⟩
        · simp only [Storage.getItem, h1, b2, a1, hl, if_false, this, bind, Except.bind]
          rfl
        · simp [Storage.shape, csrOf, hl]

/-- C72.  No index reads anything from a `Strided` whose list is empty, whatever its shape. -/
theorem C72_strided (s : Strided V) (index : Index) : ∃ e, (Storage.strided s).getItem [] index = .error e := by
  have hg : ∀ i : Int, ∃ e, pyGet ([] : List V) i = .error e := fun i => by
    simp only [pyGet]
    split <;> simp
  cases h1 : normalizeIndex index s.shape with
  | error e => exact ⟨e, by simp only [Storage.getItem, Strided.getItem, h1, bind, Except.bind]⟩
  | ok nix =>
    cases h2 : elementIndex nix with
    | some ix =>
      cases h3 : s.getDataPosition ix with
      | error e => exact ⟨e, by simp only [Storage.getItem, Strided.getItem, h1, h2, h3, bind, Except.bind]⟩
      | ok p =>
        obtain ⟨e, he⟩ := hg (s.data.offset + p)
        exact ⟨e, by simp only [Storage.getItem, Strided.getItem, h1, h2, h3, Buffer.getInt, he, bind, Except.bind]⟩
    | none =>
      cases h3 : indexStrided nix s.shape s.strides with
      | error e => exact ⟨e, by simp only [Storage.getItem, Strided.getItem, h1, h2, h3, bind, Except.bind]⟩
      | ok r =>
        obtain ⟨sh, st, off⟩ := r
        refine ⟨.index, ?_⟩
        have : (s.data.offset : Int) + off < 0 ∨ (s.data.offset : Int) + off ≥ 0 := by omega
        simp only [Storage.getItem, Strided.getItem, h1, h2, h3, Strided.getSlice, Buffer.getSlice, List.length_nil,
          Nat.cast_zero, this, if_true, throw, throwThe, MonadExceptOf.throw, bind, Except.bind]

/-- C72.  An assignment with an index that keeps every empty axis whole writes nothing; it raises exactly if the positions cannot be
looked for. -/
theorem C72_assign_keep (s : Storage V) (mem : List V) (h : s.WF mem) (hb : s.cls ≠ .buffer) (index : Index) (h0 : 0 ∈ s.shape)
    (hv : ValidItems (items index) s.shape) (hm : ¬ Meets IsIntOrSlice (items index) s.shape)
    (valueAt : List V → List Int → PyM V) :
    (Stuck s.cls (items index) s.shape → s.setItem mem index valueAt = ⟨mem, some .assertion⟩ ∨
      s.setItem mem index valueAt = ⟨mem, some .zeroDivision⟩) ∧
    (¬ Stuck s.cls (items index) s.shape → s.setItem mem index valueAt = ⟨mem, none⟩) := by
  have hm' : ¬ Meets IsInt (items index) s.shape := fun ⟨k, x, a, b, c⟩ => hm ⟨k, x, a, .inl b, c⟩
  obtain ⟨nix, h1, _, h2⟩ := normalizeItems_plan _ _ hv hm'
  rw [← normalizeIndex_eq_items _ _ hv] at h1
  obtain ⟨st, off, a1, a2, a3, a4, a5⟩ := h2 hm
  obtain ⟨b1, b2, b3⟩ := a4 h0
  cases s with
  | buffer => exact absurd rfl hb
  | strided s =>
    refine ⟨fun h => h.elim, fun _ => ?_⟩
    simp only [Storage.shape] at *
    obtain ⟨st', off', hn⟩ := indexStrided_shape nix s.shape _ s.strides (makeStrides_length _) h.len _ _ _ a1
    simp only [Storage.setItem, Strided.setItem, h1, hn, Strided.sliceEntries, indexProduct_nil b3, bind, Except.bind]
    rfl
  | coo c =>
    obtain ⟨⟨rows, hr⟩, hd⟩ := h
    have := rows_none h0 hr.rows_ok; subst this
    simp only [Storage.shape] at *
    simp only [Storage.cls, Stuck, ← a3]
    obtain ⟨e1, _, e3⟩ := sliceEntries_empty c.entries c.shape (selShape (items index) c.shape) st off a2 a5
    constructor
    · intro hk
      rcases e1 hk with hk | hk
      · left; simp only [Storage.setItem, Storage.setPlan, h1, a1, hk, bind, Except.bind]
      · right; simp only [Storage.setItem, Storage.setPlan, h1, a1, hk, bind, Except.bind]
    · intro hk
      simp only [Storage.setItem, Storage.setPlan, h1, a1, e3 hk hr.entries_ok, bind, Except.bind, writeAll]
  | csr c =>
    obtain ⟨⟨rows, hr⟩, hd⟩ := h
    have := rows_none h0 hr.rows_ok; subst this
    simp only [Storage.shape] at *
    simp only [Storage.cls, Stuck, ← a3]
    obtain ⟨e1, _, e3⟩ := sliceEntries_empty c.entries c.shape (selShape (items index) c.shape) st off a2 a5
    constructor
    · intro hk
      rcases e1 hk with hk | hk
      · left; simp only [Storage.setItem, Storage.setPlan, h1, a1, hk, bind, Except.bind]
      · right; simp only [Storage.setItem, Storage.setPlan, h1, a1, hk, bind, Except.bind]
    · intro hk
      simp only [Storage.setItem, Storage.setPlan, h1, a1, e3 hk hr.entries_ok, bind, Except.bind, writeAll]
  | flatcoo f =>
    obtain ⟨⟨rows, hr⟩, hd⟩ := h
    have := rows_none h0 hr.rows_ok; subst this
    simp only [Storage.shape] at *
    simp only [Storage.cls, Stuck]
    obtain ⟨e1, e2, e3⟩ := sliceEntries_empty f.entries f.shape (selShape (items index) f.shape) st off a2 a5
    obtain ⟨f1, f2⟩ := FlatCOO.entries_empty hr h0
    constructor
    · intro hk
      have : DioErr (sliceEntries f.entries f.shape (selShape (items index) f.shape) st off) := by
        by_cases hz : 0 ∈ st
        · exact e1 hz
        · exact e2 hz (f2 hk)
      rcases this with hk | hk
      · left; simp only [Storage.setItem, Storage.setPlan, h1, a1, hk, bind, Except.bind]
      · right; simp only [Storage.setItem, Storage.setPlan, h1, a1, hk, bind, Except.bind]
    · intro hk
      simp only [Storage.setItem, Storage.setPlan, h1, a1, e3 (fun hz => hk (a3.1 hz).tail) (f1 hk), bind, Except.bind, writeAll]
  | dm m d =>
    simp only [Storage.shape] at *
    simp only [Storage.cls, Stuck, ← a3]
    have he : m.entries = .ok [] := by
      simp only [DMMeta.entries, indexProduct_nil h0]
      rfl
    obtain ⟨e1, _, e3⟩ := sliceEntries_empty m.entries m.shape (selShape (items index) m.shape) st off a2 a5
    constructor
    · intro hk
      rcases e1 hk with hk | hk
      · left; simp only [Storage.setItem, Storage.dmSetPlan, h1, a1, hk, bind, Except.bind]
      · right; simp only [Storage.setItem, Storage.dmSetPlan, h1, a1, hk, bind, Except.bind]
    · intro hk
      simp only [Storage.setItem, Storage.dmSetPlan, h1, a1, e3 hk he, bind, Except.bind, writeAll]

/-- C72.  An array with an empty axis has no elements; but `elements()` of a `FlatCOO` raises if an axis other than the first is
empty. -/
theorem C72_elements (s : Storage V) (mem : List V) (h : s.WF mem) (h0 : 0 ∈ s.shape) :
    (¬ (s.cls = .flatcoo ∧ 0 ∈ s.shape.tail) → s.elements mem = .ok []) ∧
    (s.cls = .flatcoo ∧ 0 ∈ s.shape.tail → DioErr (s.elements mem)) := by
  cases s with
  | buffer b =>
    simp only [Storage.shape, List.mem_singleton] at h0
    refine ⟨fun _ => ?_, fun h => by simp [Storage.cls] at h⟩
    simp [Storage.elements, Buffer.entries, ← h0, pure, Except.pure]
  | strided s =>
    refine ⟨fun _ => ?_, fun h => by simp [Storage.cls] at h⟩
    rw [strided_elements h, indexProduct_nil (shape := s.shape) h0]; rfl
  | dm m d =>
    refine ⟨fun _ => ?_, fun h => by simp [Storage.cls] at h⟩
    rw [dm_elements h.1 h.2, indexProduct_nil (shape := m.shape) h0]; rfl
  | coo c =>
    obtain ⟨⟨rows, hr⟩, hd⟩ := h
    have := rows_none h0 hr.rows_ok; subst this
    refine ⟨fun _ => ?_, fun h => by simp [Storage.cls] at h⟩
    simp only [Storage.elements, hr.entries_ok, bind, Except.bind]; rfl
  | csr c =>
    obtain ⟨⟨rows, hr⟩, hd⟩ := h
    have := rows_none h0 hr.rows_ok; subst this
    refine ⟨fun _ => ?_, fun h => by simp [Storage.cls] at h⟩
    simp only [Storage.elements, hr.entries_ok, bind, Except.bind]; rfl
  | flatcoo f =>
    obtain ⟨⟨rows, hr⟩, hd⟩ := h
    obtain ⟨f1, f2⟩ := FlatCOO.entries_empty hr h0
    simp only [Storage.cls, true_and]
    refine ⟨fun hk => ?_, fun hk => ?_⟩
    · simp only [Storage.elements, f1 hk, bind, Except.bind]; rfl
    · rcases f2 hk with hk | hk
      · left; simp only [Storage.elements, hk, bind, Except.bind]
      · right; simp only [Storage.elements, hk, bind, Except.bind]

/-- C72.  `equal` of two arrays with an empty axis is `True` whatever their shapes and classes are; of one such array and any
other it is `True` exactly if the other lists no elements.  (`FlatCOO` as in `C72_elements` excepted.) -/
theorem C72_equal (s t : Storage V) (mem tmem : List V) (h : s.WF mem) (h0 : 0 ∈ s.shape)
    (hf : ¬ (s.cls = .flatcoo ∧ 0 ∈ s.shape.tail)) :
    (∀ es, t.elements tmem = .ok es → (s.equal mem t tmem = .ok true ↔ es = []) ∧ (t.equal tmem s mem = .ok true ↔ es = [])) ∧
    (t.WF tmem → 0 ∈ t.shape → ¬ (t.cls = .flatcoo ∧ 0 ∈ t.shape.tail) → s.equal mem t tmem = .ok true) := by
  have h1 := (C72_elements s mem h h0).1 hf
  refine ⟨fun es he => ?_, fun ht ht0 htf => ?_⟩
  · have key : ∀ (k : Storage.Key) (v : V) (rest : List (Storage.Key × V)), ∃ w, Storage.dictGet ((k, v) :: rest) k = some w := by
      intro k v rest
      simp only [Storage.dictGet]
      cases Storage.dictGet rest k with
      | none => exact ⟨v, by simp⟩
      | some w => exact ⟨w, rfl⟩
    simp only [Storage.equal, h1, he, bind, Except.bind, pure, Except.pure, Except.ok.injEq]
    cases es with
    | nil => simp [Storage.dictEq]
    | cons e es =>
      obtain ⟨w, hw⟩ := key e.1 e.2 es
      have hw : Storage.dictGet (e :: es) e.1 = some w := hw
      have hn : Storage.dictGet ([] : List (Storage.Key × V)) e.1 = none := rfl
      constructor <;> simp [Storage.dictEq, hn, hw]
  · have h2 := (C72_elements t tmem ht ht0).1 htf
    simp only [Storage.equal, h1, h2, bind, Except.bind]
    rfl

omit [DecidableEq V] in
theorem getView_empty_list (s : Strided V) (d : Nat) (hs : s.shape = [d, 0]) (hl : s.strides.length = 2) (hd : 0 < d) :
    s.getView [] (.one (.int 0)) = .error .index := by
  match hst : s.strides, hl with
  | [a, b], _ =>
    have : (s.data.offset : Int) + (a * 0 + 0) < 0 ∨ (s.data.offset : Int) + (a * 0 + 0) ≥ 0 := by omega
    have hm : pyMod 0 (d : Int) = .ok 0 := by rw [pyMod_pos 0 d hd]; simp
    simp only [Strided.getView, Strided.getItem, hs, hst, normalizeIndex, hm, List.map_cons, List.map_nil, elementIndex, Option.map,
      indexStrided, Strided.getSlice, Buffer.getSlice, List.length_nil, Nat.cast_zero, this, if_true, throw, throwThe,
      MonadExceptOf.throw, bind, Except.bind, pure, Except.pure]

theorem cooToCsr_empty_list (c : COO V) (mem : List V) (h : c.indices.shape = [c.shape.length, 0]) (hl : c.indices.strides.length = 2)
    (hm : c.imem = []) (hne : c.shape ≠ []) : cooToCsr c mem = .error .index := by
  simp only [cooToCsr, hm, getView_empty_list c.indices _ h hl (List.length_pos_of_ne_nil hne), bind, Except.bind]

theorem cooToCsr_cooOf (shape : List Nat) (hne : shape ≠ []) (b : Buffer V) (mem : List V) :
    cooToCsr (cooOf shape [] b) mem = .error .index := by
  refine cooToCsr_empty_list _ _ rfl rfl ?_ hne
  simp [cooOf, imemOf, indexProduct_nil (shape := [shape.length, 0]) (by simp)]

theorem flatToCoo_empty {f : FlatCOO V} {mem : List V} (h : (Storage.flatcoo f).WF mem) (h0 : 0 ∈ f.shape) :
    (0 ∈ f.shape.tail → DioErr (flatToCoo f mem)) ∧
    (0 ∉ f.shape.tail → flatToCoo f mem = .ok (cooOf f.shape [] ⟨0, 0, f.data.unspec⟩, [])) := by
  obtain ⟨⟨rows, hr⟩, hd⟩ := h
  have := rows_none h0 hr.rows_ok
  subst this
  have hf : f.findices.size = 0 := hr.fsize
  have hd0 : f.data.size = 0 := hr.size
  have hne : f.shape ≠ [] := fun h => by simp [h] at h0
  obtain ⟨a1, a2⟩ := init_iff (makeStrides f.shape) f.shape (makeStrides_length _) (by
    rw [zero_mem_makeStrides, makeStrides_length]
    cases hs : f.shape with
    | nil => simp
    | cons n l => cases l with
      | nil => simp
      | cons => simp)
  rw [zero_mem_makeStrides] at a1 a2
  constructor
  · intro ht
    rcases a2 ht with h | h
    · left; simp only [flatToCoo, h, bind, Except.bind]
    · right; simp only [flatToCoo, h, bind, Except.bind]
  · intro ht
    obtain ⟨d, hd⟩ := a1 ht
    have hw : f.data.copy mem none = (⟨0, 0, f.data.unspec⟩, []) := by
      simp [Buffer.copy, Buffer.window, hd0]
    simp only [flatToCoo, hd, hf, List.range_zero, List.mapM_nil, bind, Except.bind, pure, Except.pure,
      ofNested_columns _ (List.length_pos_of_ne_nil hne), hw]
    rfl

/-- C72.  Conversions of an array with an empty axis.  From `FlatCOO` to `COO` with the default `unspecified` it raises exactly
if an axis other than the first is empty; to `CSR` always (`IndexError`, or the error of `COO` on the way).  All other
conversions give an array without elements (C43). -/
theorem C72_convert [HasNone V] (s : Storage V) (mem : List V) (h : s.WF mem) (h0 : 0 ∈ s.shape) (u : Option V) :
    (s.cls = .flatcoo → 0 ∈ s.shape.tail → DioErr (s.convert mem .coo none) ∧ DioErr (s.convert mem .csr none)) ∧
    (s.cls = .flatcoo → 0 ∉ s.shape.tail → ∃ r, s.convert mem .coo none = .ok (r, []) ∧ r.WF [] ∧ r.cls = .coo ∧
      r.shape = s.shape ∧ r.unspec = s.unspec) ∧
    ((s.cls = .flatcoo → u = none → 0 ∉ s.shape.tail) → (∀ c, s = .coo c → u = none → c.imem = []) →
      s.convert mem .csr u = .error .index) := by
  have hne : s.shape ≠ [] := fun h => by simp [h] at h0
  have hs : ∀ sh : List Nat, SortedRows sh [] := fun sh => ⟨List.Pairwise.nil, by simp⟩
  refine ⟨fun hc ht => ?_, fun hc ht => ?_, fun hf hi => ?_⟩
  · cases s with
    | flatcoo f =>
      constructor
      · rcases (flatToCoo_empty h h0).1 ht with h | h
        · left; simp only [Storage.convert, fromObject, h, bind, Except.bind]
        · right; simp only [Storage.convert, fromObject, h, bind, Except.bind]
      · rcases (flatToCoo_empty h h0).1 ht with h | h
        · left; simp only [Storage.convert, fromObject, h, bind, Except.bind]
        · right; simp only [Storage.convert, fromObject, h, bind, Except.bind]
    | _ => simp [Storage.cls] at hc
  · cases s with
    | flatcoo f =>
      refine ⟨.coo (cooOf f.shape [] ⟨0, 0, f.data.unspec⟩), ?_, ⟨⟨[], cooOf_rep _ hne [] (hs _) _ rfl⟩, by simp [Buffer.WF, cooOf]⟩,
        rfl, rfl, rfl⟩
      simp only [Storage.convert, fromObject, (flatToCoo_empty h h0).2 ht, bind, Except.bind]
      rfl
    | _ => simp [Storage.cls] at hc
  · have general : ∀ value : List Int → PyM V, buildFlat .csr s.shape value s.unspec (u.getD s.unspec) = .error .index := by
      intro value
      have hk : keptRows s.shape (fun _ => subst s.unspec (u.getD s.unspec) s.unspec) (u.getD s.unspec) = [] := by
        rw [List.eq_nil_iff_forall_not_mem]
        exact fun ix hx => no_inBox h0 ix ((mem_keptRows _ _ _ _).1 hx).1
      have := cooBuild_ok s.shape hne value s.unspec (u.getD s.unspec)
        (fun _ => s.unspec) (fun ix hi => absurd hi (no_inBox h0 ix))
      rw [hk] at this
      simp only [buildFlat, csrBuild, this, cooToCsr_cooOf _ hne, bind, Except.bind]
    cases u with
    | some v =>
      have := general (Src.store s mem).getValue
      simp only [Storage.convert, fromObject, Src.shape, Src.unspec, this, bind, Except.bind]
    | none =>
      cases s with
      | coo c =>
        obtain ⟨⟨rows, hr⟩, hd⟩ := h
        have := rows_none h0 hr.rows_ok; subst this
        have := cooToCsr_empty_list c mem hr.ishape (by rw [hr.iwf.len, hr.ishape]; rfl) (hi c rfl rfl) hne
        simp only [Storage.convert, fromObject, this, bind, Except.bind]
      | flatcoo f =>
        simp only [Storage.convert, fromObject, (flatToCoo_empty h h0).2 (hf rfl rfl), cooToCsr_cooOf f.shape hne, bind, Except.bind]
      | _ =>
        simp only [Storage.convert, fromObject, Src.shape, Src.unspec, general, bind, Except.bind]

/-- Cases of C72: a `FlatCOO` and a `COO` without elements. -/
def emptyFlat (shape : List Nat) : Storage (Option Int) := .flatcoo ⟨shape, ⟨0, 0, none⟩, [], ⟨0, 0, none⟩⟩

/-- See `emptyFlat`. -/
def emptyCOO (shape : List Nat) : Storage (Option Int) := .coo (cooOf shape [] ⟨0, 0, none⟩)

example : (emptyCOO [0, 3]).WF [] ∧ (emptyFlat [2, 0]).WF [] :=
  ⟨⟨⟨[], cooOf_rep _ (by simp) [] ⟨List.Pairwise.nil, by simp⟩ _ rfl⟩, by simp [Buffer.WF, cooOf]⟩,
    ⟨[], flatOf_rep [2, 0] [] ⟨List.Pairwise.nil, by simp⟩ ⟨0, 0, none⟩ rfl⟩, by simp [Buffer.WF]⟩

example : fromObject .coo (.nested (.seq [.seq [], .seq []] : Nested (Option Int))) none = .ok (.fresh (emptyCOO [2, 0]) []) := by
  decide +kernel

example : fromObject .flatcoo (.nested (.seq [.seq [], .seq []] : Nested (Option Int))) none = .ok (.fresh (emptyFlat [2, 0]) []) := by
  decide +kernel

/-- `a[0]`, `a[:, 0]`, `a[:]`, `a[()]` and `a[None, 1]`. -/
example : (emptyCOO [2, 0]).getItem [] (.one (.int 0)) = .ok (.fresh (emptyCOO [0]) []) ∧
    (emptyCOO [2, 0]).getItem [] (.tuple [.slice ⟨none, none, none⟩, .int 0]) = .error .zeroDivision ∧
    (emptyCOO [2, 0]).getItem [] (.one (.slice ⟨none, none, none⟩)) = .error .assertion ∧
    (emptyCOO [2, 0]).getItem [] (.tuple []) = .error .assertion ∧
    (emptyCOO [0, 3]).getItem [] (.one (.slice ⟨none, none, none⟩)) = .error .zeroDivision ∧
    (emptyCOO [0, 3]).getItem [] (.tuple [.none, .int 1]) = .ok (.fresh (emptyCOO [0]) []) := by decide +kernel

example : Stuck .coo [.slice ⟨none, none, none⟩] [2, 0] ∧ ¬ Stuck .coo [.int 0] [2, 0] ∧ Meets IsIntOrSlice [.none, .int 0] [2, 0] :=
  ⟨⟨0, 1, by omega, by simp, rfl⟩, by rintro ⟨j, k, h1, h2, h3⟩; match j, k with
    | 0, _ => exact h2 0 rfl
    | j + 1, 0 => omega
    | j + 1, 1 => omega
    | j + 1, k + 2 => simp at h3, ⟨1, _, rfl, .inl ⟨0, rfl⟩, rfl⟩⟩

example : (emptyFlat [2, 0]).elements [] = .error .assertion ∧ (emptyFlat [0, 2]).elements [] = .ok [] ∧
    (emptyFlat [2, 3, 0]).elements [] = .error .zeroDivision ∧
    (emptyCOO [2, 0]).equal [] (emptyCOO [0, 7, 7]) [] = .ok true := by decide +kernel

example :
    (emptyFlat [2, 0]).convert [] .coo none = .error .assertion ∧
    (emptyFlat [2, 0]).convert [] .coo (some none) = .ok (emptyCOO [2, 0], []) ∧
    (emptyCOO [2, 0]).convert [] .csr none = .error .index ∧
    (emptyCOO [0, 3]).assign [] (.one (.slice ⟨none, none, none⟩)) (.leaf (some 1)) = ⟨[], some .zeroDivision⟩ ∧
    (emptyCOO [0, 3]).assign [] (.one .none) (.leaf (some 1)) = ⟨[], none⟩ := by decide +kernel

end Gcs
