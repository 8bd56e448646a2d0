import Verif.Lemmas.Build

/-! Reading sparse storages; conversions between the sparse formats. -/

namespace Gcs

open Spec

variable {V : Type}

/-- The value at `ix` of a list of stored indices and a list of values. -/
def lookup (rows : List (List Int)) (vals : List V) (u : V) (ix : List Int) : V :=
  match rows.idxOf? ix with
  | some p => vals.getD p u
  | none => u

theorem lookup_at {rows : List (List Int)} (hn : rows.Nodup) (vals : List V) (u : V) (p : Nat) (hp : p < rows.length) :
    lookup rows vals u rows[p] = vals.getD p u := by
  have := findPos_some hn hp
  unfold findPos at this
  unfold lookup
  cases h : rows.idxOf? rows[p] with
  | none => rw [h] at this; simp at this
  | some q =>
    rw [h] at this
    simp at this
    rw [this]

theorem lookup_none {rows : List (List Int)} (vals : List V) (u : V) {ix : List Int} (h : ix ∉ rows) :
    lookup rows vals u ix = u := by
  have : rows.idxOf? ix = none := by simpa [List.idxOf?_eq_none_iff] using h
  simp [lookup, this]

theorem lookup_map {rows : List (List Int)} (hn : rows.Nodup) (f : List Int → V) (u : V) (ix : List Int) :
    lookup rows (rows.map f) u ix = if ix ∈ rows then f ix else u := by
  split
  · next h =>
    obtain ⟨p, hp, rfl⟩ := List.getElem_of_mem h
    rw [lookup_at hn _ _ p hp]
    simp [List.getD_eq_getElem?_getD, hp]
  · next h => exact lookup_none _ _ h

/-- Dropping the elements that are `u` does not change any value. -/
theorem lookup_kept [DecidableEq V] (shape : List Nat) (f : List Int → V) (u : V) (ix : List Int)
    (hi : InBox ix shape) : lookup (keptRows shape f u) ((keptRows shape f u).map f) u ix = f ix := by
  rw [lookup_map (keptRows_sorted shape f u).nodup]
  split
  · rfl
  · next h =>
    by_contra hne
    exact h ((mem_keptRows _ _ _ _).2 ⟨hi, fun he => hne he.symm⟩)

/-- The pair of a stored index and its position. -/
theorem mem_withPos {rows : List (List Int)} (ix : List Int) (p : Int) :
    (ix, p) ∈ withPos rows ↔ ∃ q : Nat, ∃ hq : q < rows.length, rows[q] = ix ∧ p = q := by
  simp only [withPos, List.mem_mapIdx, Prod.mk.injEq]
  constructor
  · rintro ⟨q, hq, h1, h2⟩
    exact ⟨q, hq, h1, h2.symm⟩
  · rintro ⟨q, hq, h1, h2⟩
    exact ⟨q, hq, h1, h2.symm⟩

theorem withPos_fst (rows : List (List Int)) : (withPos rows).map (·.1) = rows := by
  apply List.ext_getElem
  · simp [withPos]
  · intro i h1 h2
    simp [withPos]

/-- A sparse storage with stored indices `rows` and values in the buffer `b`. -/
inductive Sparse : Storage V → List (List Int) → Buffer V → Prop
  | coo {c : COO V} {rows} (h : c.Rep rows) : Sparse (.coo c) rows c.data
  | flatcoo {f : FlatCOO V} {rows} (h : f.Rep rows) : Sparse (.flatcoo f) rows f.data
  | csr {c : CSR V} {rows} (h : c.Rep rows) : Sparse (.csr c) rows c.data

theorem Sparse.rows_ok {s : Storage V} {rows : List (List Int)} {b : Buffer V} (h : Sparse s rows b) :
    SortedRows s.shape rows := by
  cases h with
  | coo h => exact h.rows_ok
  | flatcoo h => exact h.rows_ok
  | csr h => exact h.rows_ok

theorem Sparse.size {s : Storage V} {rows : List (List Int)} {b : Buffer V} (h : Sparse s rows b) :
    b.size = rows.length := by
  cases h with
  | coo h => exact h.size
  | flatcoo h => exact h.size
  | csr h => exact h.size

theorem Sparse.unspec {s : Storage V} {rows : List (List Int)} {b : Buffer V} (h : Sparse s rows b) :
    s.unspec = b.unspec := by
  cases h <;> rfl

theorem readAt_findPos (b : Buffer V) (mem : List V) (h : b.WF mem) (rows : List (List Int)) (hs : b.size = rows.length)
    (ix : List Int) : readAt b mem (findPos rows ix) = .ok (lookup rows (b.window mem) b.unspec ix) := by
  unfold findPos lookup
  cases hi : rows.idxOf? ix with
  | none => rfl
  | some p =>
    have hp : p < rows.length := by
      rw [List.idxOf?_eq_some_iff] at hi
      exact hi.1
    simp only [Option.map_some, readAt]
    exact b.getInt_window mem h p (by omega) b.unspec

theorem Sparse.getVal [DecidableEq V] {s : Storage V} {rows : List (List Int)} {b : Buffer V} (h : Sparse s rows b)
    (mem : List V) (hm : b.WF mem) (ix : List Int) (hi : InBox ix s.shape) :
    s.getVal mem ix = .ok (lookup rows (b.window mem) b.unspec ix) := by
  have hr := readAt_findPos b mem hm rows h.size ix
  cases h with
  | coo h =>
    simp only [Storage.shape] at hi
    simp only [Storage.getVal, Storage.getItem, normalize_ints ix _ hi, bind, Except.bind, elementIndex_ints,
      h.find_ok ix hi, hr, pure, Except.pure]
  | flatcoo h =>
    simp only [Storage.shape] at hi
    simp only [Storage.getVal, Storage.getItem, normalize_ints ix _ hi, bind, Except.bind, elementIndex_ints,
      h.find_ok ix hi, hr, pure, Except.pure]
  | csr h =>
    simp only [Storage.shape] at hi
    simp only [Storage.getVal, Storage.getItem, normalize_ints ix _ hi, bind, Except.bind, elementIndex_ints,
      h.find_ok ix hi, hr, pure, Except.pure]

/-! ## Conversions between the sparse formats -/

theorem flatToCoo_ok [DecidableEq V] {f : FlatCOO V} {rows : List (List Int)} (h : f.Rep rows) (hp : PosShape f.shape)
    (hne : f.shape ≠ []) (mem : List V) (hm : f.data.WF mem) :
    flatToCoo f mem = .ok (cooOf f.shape rows ⟨rows.length, 0, f.data.unspec⟩, f.data.window mem) := by
  obtain ⟨data, h1, h2⟩ := solve_flat f.shape hp
  simp only [flatToCoo, h1, bind, Except.bind, h.fsize]
  have key : ∀ g : Nat → PyM (List Int), (∀ p (hp : p < rows.length), g p = .ok rows[p]) →
      (List.range rows.length).mapM g = .ok rows := by
    intro g hg
    have e : rows = (List.range rows.length).map fun p => rows.getD p [] := by
      apply List.ext_getElem (by simp)
      intro i h1 h2
      simp [List.getD_eq_getElem?_getD, h1]
    conv_rhs => rw [e]
    apply mapM_ok
    intro p hp
    have hp : p < rows.length := by simpa using hp
    rw [hg p hp]
    simp [List.getD_eq_getElem?_getD, hp]
  rw [key]
  · simp only [ofNested_columns _ (List.length_pos_of_ne_nil hne), f.data.copy_same mem hm]
    rw [COO.new_ok _ _ _ _ f.shape.length rows.length (by rfl) (by exact h.size)]
    simp [pure, Except.pure, cooOf, h.size]
  · intro p hp
    have := h.read_ok p hp
    simp only [readBuf, Buffer.getInt, bind, Except.bind] at this
    cases hg : pyGet f.fmem ((f.findices.offset : Int) + (p : Int)) with
    | error e => rw [hg] at this; simp at this
    | ok v =>
      rw [hg] at this
      simp only at this
      simp only [this, h2 _ (h.rows_ok.inbox _ (List.getElem_mem hp)), pure, Except.pure]

theorem cooToFlat_ok [DecidableEq V] {c : COO V} {rows : List (List Int)} (h : c.Rep rows) (mem : List V)
    (hm : c.data.WF mem) :
    cooToFlat c mem = .ok (flatOf c.shape rows ⟨rows.length, 0, c.data.unspec⟩, c.data.window mem) := by
  simp only [cooToFlat, h.entries_ok, bind, Except.bind]
  rw [positions_ok _ _ (by
    intro e he
    obtain ⟨q, hq, h1, _⟩ := (mem_withPos e.1 e.2).1 he
    rw [← h1]
    exact h.rows_ok.inbox _ (List.getElem_mem hq))]
  simp only [withPos_fst, rawIntBuffer_ok, c.data.copy_same mem hm]
  rw [FlatCOO.new_ok _ _ _ _ (by simp [h.size])]
  simp [pure, Except.pure, flatOf, fmemOf, h.size, Function.comp_def]

end Gcs
