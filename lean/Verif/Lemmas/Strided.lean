import Verif.Lemmas.Box

/-! Facts on `Buffer` and `Strided`. -/

namespace Gcs

open Spec

variable {α : Type}

theorem pyGet_int (l : List α) (i : Int) (d : α) (h0 : 0 ≤ i) (h1 : i < l.length) :
    pyGet l i = .ok (l.getD i.toNat d) := by
  have := pyGet_natD l i.toNat d (by omega)
  rwa [Int.toNat_of_nonneg h0] at this

/-! ## Normalized indices -/

/-- The offset of a slice is the address of an index of the array. -/
theorem indexStrided_base (nix : List NIx) (shape : List Nat) (strides : List Int)
    (hp : PosShape shape) (hn : Normalized nix shape) (hs : strides.length = shape.length)
    (sh : List Nat) (st : List Int) (off : Int) (h : indexStrided nix shape strides = .ok (sh, st, off)) :
    ∃ base, InBox base shape ∧ address base strides = off := by
  induction nix generalizing shape strides sh st off with
  | nil =>
    cases shape with
    | nil =>
      simp only [indexStrided, pure, Except.pure, Except.ok.injEq, Prod.mk.injEq] at h
      exact ⟨[], trivial, by simp [address, h]⟩
    | cons n shape => simp [Normalized] at hn
  | cons a nix ih =>
    cases shape with
    | nil => cases a <;> simp [Normalized] at hn
    | cons n shape =>
      cases strides with
      | nil => simp at hs
      | cons s strides =>
        obtain ⟨hn0, hp'⟩ := hp.cons
        have hs' : strides.length = shape.length := by simpa using hs
        have hn' : Normalized nix shape := by cases a <;> simp [Normalized] at hn <;> tauto
        obtain ⟨st', off', h1, _⟩ := indexStrided_ok nix shape strides hp' hn' hs'
        obtain ⟨base, hb1, hb2⟩ := ih shape strides hp' hn' hs' _ _ _ h1
        cases a with
        | int i =>
          simp only [indexStrided, h1, bind, Except.bind, pure, Except.pure, Except.ok.injEq, Prod.mk.injEq] at h
          refine ⟨i :: base, ⟨hn.1, hb1⟩, ?_⟩
          rw [address, hb2, ← h.2.2]; ring
        | slice r =>
          obtain ⟨h4, _⟩ := normalized_nitems hn.1.1 hn.1.2
          have hz : ¬ ((n : Int) = 0) := by omega
          simp only [indexStrided, h1, bind, Except.bind, pure, Except.pure, pyMod, hz, if_false, h4,
            Except.ok.injEq, Prod.mk.injEq] at h
          refine ⟨r.start.fmod n :: base,
            ⟨⟨Int.fmod_nonneg_of_pos _ (by omega), Int.fmod_lt_of_pos _ (by omega)⟩, hb1⟩, ?_⟩
          rw [address, hb2, ← h.2.2]; ring
        | none =>
          simp only [indexStrided, h1, bind, Except.bind, pure, Except.pure, Except.ok.injEq, Prod.mk.injEq] at h
          refine ⟨0 :: base, ⟨⟨by omega, by omega⟩, hb1⟩, ?_⟩
          rw [address, hb2, ← h.2.2]; ring

/-- A normalized index of ints only selects one element, any other keeps an axis. -/
theorem elementIndex_cases (nix : List NIx) (shape : List Nat) (hn : Normalized nix shape) :
    (∃ ix, elementIndex nix = some ix ∧ nix = ix.map NIx.int ∧ InBox ix shape ∧
      selShape (nix.map NIx.toIx) shape = [] ∧ selSource (nix.map NIx.toIx) shape [] = ix) ∨
    (elementIndex nix = none ∧ selShape (nix.map NIx.toIx) shape ≠ []) := by
  induction nix generalizing shape with
  | nil =>
    cases shape with
    | nil => exact .inl ⟨[], rfl, rfl, trivial, rfl, rfl⟩
    | cons => simp [Normalized] at hn
  | cons a nix ih =>
    cases shape with
    | nil => cases a <;> simp [Normalized] at hn
    | cons n shape =>
      cases a with
      | int i =>
        rcases ih shape hn.2 with ⟨ix, h1, h2, h3, h4, h5⟩ | ⟨h1, h2⟩
        · refine .inl ⟨i :: ix, by simp [elementIndex, h1], by simp [h2], ⟨hn.1, h3⟩, ?_, ?_⟩
          · simpa [NIx.toIx, selShape] using h4
          · simp only [List.map_cons, NIx.toIx, selSource, h5]
            rw [Int.emod_eq_of_lt hn.1.1 hn.1.2]
        · exact .inr ⟨by simp [elementIndex, h1], by simpa [NIx.toIx, selShape] using h2⟩
      | slice r => exact .inr ⟨rfl, by simp [NIx.toIx, selShape]⟩
      | none => exact .inr ⟨rfl, by simp [NIx.toIx, selShape]⟩

theorem normalize_ints (ix : List Int) (shape : List Nat) (h : InBox ix shape) :
    normalizeIndex (.tuple (ix.map .int)) shape = .ok (ix.map .int) := by
  simp only [normalizeIndex]
  induction ix generalizing shape with
  | nil => cases shape with
    | nil => rfl
    | cons => exact h.elim
  | cons x ix ih => cases shape with
    | nil => exact h.elim
    | cons n shape =>
      obtain ⟨⟨h1, h2⟩, h3⟩ := h
      simp only [List.map_cons, normalizeItems, pyMod_pos x n (by omega), bind, Except.bind, ih shape h3,
        Int.emod_eq_of_lt h1 h2, pure, Except.pure]

theorem elementIndex_ints (ix : List Int) : elementIndex (ix.map NIx.int) = some ix := by
  induction ix with
  | nil => rfl
  | cons x ix ih => simp [elementIndex, ih]

/-- All that is needed about a valid index of an array without empty axes. -/
theorem index_cases (index : Index) (shape : List Nat) (hp : PosShape shape)
    (hv : ValidItems (items index) shape) :
    ∃ nix, normalizeIndex index shape = .ok nix ∧ Normalized nix shape ∧
      selShape (nix.map NIx.toIx) shape = selShape (items index) shape ∧
      (∀ j, InBox j (selShape (items index) shape) →
        selSource (nix.map NIx.toIx) shape j = selSource (items index) shape j) ∧
      ((elementIndex nix = some (selSource (items index) shape []) ∧ selShape (items index) shape = [] ∧
          InBox (selSource (items index) shape []) shape) ∨
        (elementIndex nix = none ∧ selShape (items index) shape ≠ [])) := by
  obtain ⟨nix, h1, h2, h3, h4⟩ := normalizeIndex_ok index shape hp hv
  refine ⟨nix, h1, h2, h3, h4, ?_⟩
  rcases elementIndex_cases nix shape h2 with ⟨ix, g1, _, g3, g4, g5⟩ | ⟨g1, g2⟩
  · rw [h3] at g4
    have := h4 [] (by rw [g4]; trivial)
    rw [g5] at this
    exact .inl ⟨by rw [← this]; exact g1, g4, by rw [← this]; exact g3⟩
  · rw [h3] at g2
    exact .inr ⟨g1, g2⟩

/-! ## `Buffer` -/

/-- The window of the buffer lies in the list. -/
def Buffer.WF (b : Buffer α) (mem : List α) : Prop := b.offset + b.size ≤ mem.length

theorem Buffer.window_length (b : Buffer α) (mem : List α) (h : b.WF mem) : (b.window mem).length = b.size := by
  unfold Buffer.WF at h
  simp only [Buffer.window, List.length_take, List.length_drop]
  omega

theorem Buffer.window_getD (b : Buffer α) (mem : List α) (h : b.WF mem) (p : Nat) (hp : p < b.size) (d : α) :
    (b.window mem).getD p d = mem.getD (b.offset + p) d := by
  unfold Buffer.WF at h
  simp only [Buffer.window, List.getD_eq_getElem?_getD, List.getElem?_take, hp, if_true, List.getElem?_drop]

theorem Buffer.getInt_ok (b : Buffer α) (mem : List α) (i : Int) (d : α) (h0 : 0 ≤ b.offset + i)
    (h1 : b.offset + i < mem.length) : b.getInt mem i = .ok (mem.getD (b.offset + i).toNat d) :=
  pyGet_int mem _ d h0 h1

theorem Buffer.getInt_window (b : Buffer α) (mem : List α) (h : b.WF mem) (p : Nat) (hp : p < b.size) (d : α) :
    b.getInt mem p = .ok ((b.window mem).getD p d) := by
  rw [b.window_getD mem h p hp d]
  unfold Buffer.WF at h
  rw [b.getInt_ok mem p d (by omega) (by omega)]
  congr 2

theorem Buffer.new_ok (size offset : Nat) (mem : List α) (u : α) (h : offset + size ≤ mem.length) :
    Buffer.new size offset mem u = .ok ⟨size, offset, u⟩ := by
  simp [Buffer.new, pyAssert, h, bind, Except.bind, pure, Except.pure]

/-- `buffer[i:]` for a position `i` inside the window or before it. -/
theorem Buffer.getSlice_from (b : Buffer α) (mem : List α) (h : b.WF mem) (i : Int) (h0 : 0 ≤ b.offset + i)
    (h1 : i < b.size) :
    b.getSlice mem ⟨some i, none, none⟩
      = .ok ⟨((b.size : Int) - i).toNat, ((b.offset : Int) + i).toNat, b.unspec⟩ := by
  unfold Buffer.WF at h
  have e : reduced ⟨some ((b.offset : Int) + i), some ((b.offset : Int) + b.size), none⟩ (mem.length : Int)
      = ⟨(b.offset : Int) + i, (b.offset : Int) + b.size, 1⟩ := by
    have ea : redStartUp (mem.length : Int) (some ((b.offset : Int) + i)) = (b.offset : Int) + i := by
      simp only [redStartUp]
      rw [if_neg (by omega), if_neg (by omega), if_neg (by omega)]
    have eb : redStopUp (mem.length : Int) (some ((b.offset : Int) + b.size)) = (b.offset : Int) + b.size := by
      simp only [redStopUp]
      rw [if_neg (by omega), if_neg (by omega), if_neg (by omega)]
    have ec : (if (1 : Int) > (mem.length : Int) then (mem.length : Int) else 1) = 1 := if_neg (by omega)
    simp only [reduced, Option.getD_none, ea, eb, ec]
    rw [if_pos (by omega : (1 : Int) > 0)]
    simp only [mul_one]
    rw [if_neg (by omega)]
  simp only [Buffer.getSlice, e]
  rw [if_neg (by omega), if_neg (by omega), if_neg (by simp)]
  rw [Buffer.new_ok _ _ _ _ (by omega)]
  congr 2
  omega

/-! ## `Strided` -/

/-- Every index of the box addresses a cell of the list, before the end of the window. -/
structure Strided.WF (s : Strided α) (mem : List α) : Prop where
  len : s.strides.length = s.shape.length
  buf : s.data.WF mem
  addr : ∀ ix, InBox ix s.shape →
    0 ≤ (s.data.offset : Int) + address ix s.strides ∧ address ix s.strides < s.data.size

/-- The cell that `ix` addresses. -/
def Strided.cell (s : Strided α) (ix : List Int) : Nat := ((s.data.offset : Int) + address ix s.strides).toNat

/-- The element at `ix`. -/
def Strided.val (s : Strided α) (mem : List α) (ix : List Int) : α := mem.getD (s.cell ix) s.data.unspec

theorem Strided.WF.cell_lt {s : Strided α} {mem : List α} (h : s.WF mem) {ix : List Int} (hi : InBox ix s.shape) :
    s.cell ix < mem.length := by
  have := h.addr ix hi
  have := h.buf
  unfold Buffer.WF at this
  unfold Strided.cell
  omega

theorem Strided.getDataPosition_ok {s : Strided α} {mem : List α} (h : s.WF mem) {ix : List Int}
    (hi : InBox ix s.shape) : s.getDataPosition ix = .ok (address ix s.strides) :=
  getPosition_ok ix s.shape s.strides hi.length_eq h.len

theorem Strided.getInt_val {s : Strided α} {mem : List α} (h : s.WF mem) {ix : List Int} (hi : InBox ix s.shape) :
    s.data.getInt mem (address ix s.strides) = .ok (s.val mem ix) := by
  have h1 := h.addr ix hi
  have h2 := h.buf
  unfold Buffer.WF at h2
  rw [s.data.getInt_ok mem _ s.data.unspec h1.1 (by omega)]
  rfl

/-- Reading one element. -/
theorem Strided.getItem_elem {s : Strided α} {mem : List α} (h : s.WF mem) (ix : List Int)
    (hi : InBox ix s.shape) : s.getItem mem (.tuple (ix.map .int)) = .ok (.inl (s.val mem ix)) := by
  simp only [Strided.getItem, normalize_ints ix s.shape hi, bind, Except.bind, elementIndex_ints,
    Strided.getDataPosition_ok h hi, Strided.getInt_val h hi, pure, Except.pure]

/-- Slicing: the result addresses the selected elements. -/
theorem Strided.getItem_slice {s : Strided α} {mem : List α} (h : s.WF mem) (hp : PosShape s.shape) (index : Index)
    (hv : ValidItems (items index) s.shape) :
    (selShape (items index) s.shape = [] ∧
      s.getItem mem index = .ok (.inl (s.val mem (selSource (items index) s.shape [])))) ∨
    (selShape (items index) s.shape ≠ [] ∧ ∃ r : Strided α, s.getItem mem index = .ok (.inr r) ∧ r.WF mem ∧
      r.shape = selShape (items index) s.shape ∧ r.data.unspec = s.data.unspec ∧
      (∀ j, InBox j r.shape → InBox (selSource (items index) s.shape j) s.shape ∧
        r.cell j = s.cell (selSource (items index) s.shape j)) ∧
      ∀ nix st off, normalizeIndex index s.shape = .ok nix →
        indexStrided nix s.shape s.strides = .ok (selShape (items index) s.shape, st, off) →
        r.strides = st) := by
  obtain ⟨nix, h1, h2, h3, h4, h5⟩ := index_cases index s.shape hp hv
  rcases h5 with ⟨g1, g2, g3⟩ | ⟨g1, g2⟩
  · refine .inl ⟨g2, ?_⟩
    simp only [Strided.getItem, h1, bind, Except.bind, g1, Strided.getDataPosition_ok h g3, Strided.getInt_val h g3,
      pure, Except.pure]
  · refine .inr ⟨g2, ?_⟩
    obtain ⟨st, off, k1, k2, k3⟩ := indexStrided_ok nix s.shape s.strides hp h2 h.len
    obtain ⟨base, b1, b2⟩ := indexStrided_base nix s.shape s.strides hp h2 h.len _ _ _ k1
    rw [h3] at k1 k2 k3
    have hbase := h.addr base b1
    rw [b2] at hbase
    have hbuf := h.buf
    have hsl := s.data.getSlice_from mem h.buf off hbase.1 hbase.2
    unfold Buffer.WF at hbuf
    refine ⟨⟨selShape (items index) s.shape, st, ⟨((s.data.size : Int) - off).toNat, ((s.data.offset : Int) + off).toNat,
      s.data.unspec⟩⟩, ?_, ?_, rfl, rfl, ?_, ?_⟩
    · simp [Strided.getItem, h1, bind, Except.bind, g1, k1, Strided.getSlice, hsl, Strided.new,
        pyAssert, k2, pure, Except.pure]
    · refine ⟨k2, ?_, ?_⟩
      · unfold Buffer.WF
        simp only
        omega
      · intro j hj
        obtain ⟨c1, c2⟩ := k3 j hj
        rw [h4 j hj] at c1 c2
        have := h.addr _ c1
        simp only
        omega
    · intro j hj
      obtain ⟨c1, c2⟩ := k3 j hj
      rw [h4 j hj] at c1 c2
      refine ⟨c1, ?_⟩
      unfold Strided.cell
      simp only
      rw [← c2]
      congr 1
      omega
    · intro nix' st' off' e1 e2
      rw [h1, Except.ok.injEq] at e1
      subst e1
      rw [k1] at e2
      simp only [Except.ok.injEq, Prod.mk.injEq] at e2
      exact e2.2.1

theorem Strided.elements_ok {s : Strided α} {mem : List α} (h : s.WF mem) :
    s.elements mem = .ok ((indexProduct s.shape).map fun ix => (ix, s.val mem ix)) := by
  have e1 : s.entries = .ok ((indexProduct s.shape).map fun ix => (ix, address ix s.strides)) := by
    apply mapM_ok
    intro ix hix
    have hi := (mem_indexProduct _ _).1 hix
    simp only [getPosition_ok ix s.shape s.strides hi.length_eq h.len, bind, Except.bind, pure, Except.pure]
  simp only [Strided.elements, e1, bind, Except.bind]
  rw [mapM_ok _ (fun e : List Int × Int => (e.1, s.val mem e.1))]
  · rw [List.map_map]; rfl
  · intro e he
    obtain ⟨ix, hix, rfl⟩ := List.mem_map.1 he
    have hi := (mem_indexProduct _ _).1 hix
    simp only [Strided.getInt_val h hi, pure, Except.pure]

/-! ## Building from values -/

/-- What `fromobject` stores for the value `v`. -/
def subst [DecidableEq α] (su u v : α) : α := if v = su then u else v

theorem bufferBuild_ok [DecidableEq α] (shape : List Nat) (value : List Int → PyM α) (su u : α) (a : List Int → α)
    (h : ∀ ix, InBox ix shape → value ix = .ok (a ix)) :
    bufferBuild shape value su u
      = .ok (⟨product shape, 0, u⟩, (indexProduct shape).map fun ix => subst su u (a ix)) := by
  have e : ((indexProduct shape).mapM fun ix => do
      let v ← value ix
      return if v = su then u else v : PyM (List α)) = .ok ((indexProduct shape).map fun ix => subst su u (a ix)) := by
    apply mapM_ok
    intro ix hix
    simp only [h ix ((mem_indexProduct _ _).1 hix), bind, Except.bind, pure, Except.pure, subst]
  unfold bufferBuild
  rw [e]
  simp only [bind, Except.bind]
  rw [Buffer.new_ok _ _ _ _ (by simp)]
  simp only [List.length_map, indexProduct_length, pure, Except.pure]

/-- A contiguous array over the list of its values. -/
theorem contiguous_WF (shape : List Nat) (f : List Int → α) (u : α) :
    Strided.WF ⟨shape, makeStrides shape, ⟨product shape, 0, u⟩⟩ ((indexProduct shape).map f) ∧
    ∀ ix, InBox ix shape →
      Strided.val ⟨shape, makeStrides shape, ⟨product shape, 0, u⟩⟩ ((indexProduct shape).map f) ix = f ix := by
  constructor
  · refine ⟨makeStrides_length _, ?_, ?_⟩
    · unfold Buffer.WF; simp [indexProduct_length]
    · intro ix hi
      have : 0 ≤ address ix (makeStrides shape) ∧ address ix (makeStrides shape) < product shape := address_bound hi
      simp only
      omega
  · intro ix hi
    have hb := address_bound hi
    simp only [Strided.val, Strided.cell]
    rw [List.getD_eq_getElem?_getD, List.getElem?_map, show ((0 : Nat) : Int) + address ix (makeStrides shape)
      = address ix (makeStrides shape) by omega, indexProduct_at shape ix hi]
    rfl

theorem stridedBuild_ok [DecidableEq α] (shape : List Nat) (value : List Int → PyM α) (su u : α) (a : List Int → α)
    (h : ∀ ix, InBox ix shape → value ix = .ok (a ix)) :
    stridedBuild shape value su u = .ok (⟨shape, makeStrides shape, ⟨product shape, 0, u⟩⟩,
      (indexProduct shape).map fun ix => subst su u (a ix)) := by
  simp only [stridedBuild, bufferBuild_ok shape value su u a h, bind, Except.bind, Strided.new, pyAssert,
    makeStrides_length, decide_true, if_true, pure, Except.pure]

end Gcs
