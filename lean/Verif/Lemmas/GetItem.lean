import Verif.Lemmas.DMSlice

/-! `getItem` of every class, in terms of the specification of indexing. -/

namespace Gcs

open Spec

variable {V : Type}

/-- The result `r` of a slice of the sparse storage `s`: it stores the stored elements inside the selection. -/
structure SparseSlice [DecidableEq V] (s : Storage V) (mem : List V) (index : Index) (rows : List (List Int))
    (b : Buffer V) (r : Storage V) (vals : List V) (rows' : List (List Int)) (b' : Buffer V) : Prop where
  eval : s.getItem mem index = .ok (.fresh r vals)
  sparse : Sparse r rows' b'
  buf : b'.WF vals
  shape_eq : r.shape = selShape (items index) s.shape
  unspec_eq : b'.unspec = b.unspec
  stored : ∀ j, InBox j (selShape (items index) s.shape) → j ∈ rows' → selSource (items index) s.shape j ∈ rows
  values : ∀ j, InBox j (selShape (items index) s.shape) →
    lookup rows' (b'.window vals) b'.unspec j = lookup rows (b.window mem) b.unspec (selSource (items index) s.shape j)

theorem coo_getItem [DecidableEq V] {c : COO V} {rows : List (List Int)} (h : c.Rep rows) (hp : PosShape c.shape)
    (mem : List V) (hm : c.data.WF mem) (index : Index) (hv : ValidItems (items index) c.shape)
    (hne : selShape (items index) c.shape ≠ []) :
    ∃ r vals rows' b', SparseSlice (.coo c) mem index rows c.data (.coo r) vals rows' b' ∧
      ∀ j, InBox j (selShape (items index) c.shape) →
        (j ∈ rows' ↔ selSource (items index) c.shape j ∈ rows) := by
  obtain ⟨nix, st, off, L, es, vals, h1, h2, h3, h4, rfl, h6, h7, h8, h9, h10, h11⟩ :=
    slice_core h.rows_ok hp c.data mem hm h.size index hv hne
  refine ⟨_, vals, _, ⟨vals.length, 0, c.data.unspec⟩, ⟨?_, .coo (cooOf_rep _ hne _ h8 _ (by simpa using h7)), ?_, rfl,
    rfl, ?_, ?_⟩, h9⟩
  · simp only [Storage.getItem, h1, h2, h3, bind, Except.bind, h.getSlice_ok mem _ st off L vals hne h4 h6 h7, pure,
      Except.pure]
  · simp [Buffer.WF]
  · exact fun j hj hm => (h9 j hj).1 hm
  · intro j hj
    rw [buffer_window_map _ _ _ rfl]
    exact h10 j hj

theorem flatcoo_getItem [DecidableEq V] {f : FlatCOO V} {rows : List (List Int)} (h : f.Rep rows) (hp : PosShape f.shape)
    (mem : List V) (hm : f.data.WF mem) (index : Index) (hv : ValidItems (items index) f.shape)
    (hne : selShape (items index) f.shape ≠ []) :
    ∃ r vals rows' b', SparseSlice (.flatcoo f) mem index rows f.data (.flatcoo r) vals rows' b' ∧
      ∀ j, InBox j (selShape (items index) f.shape) →
        (j ∈ rows' ↔ selSource (items index) f.shape j ∈ rows) := by
  obtain ⟨nix, st, off, L, es, vals, h1, h2, h3, h4, rfl, h6, h7, h8, h9, h10, h11⟩ :=
    slice_core h.rows_ok hp f.data mem hm h.size index hv hne
  refine ⟨_, vals, _, ⟨vals.length, 0, f.data.unspec⟩, ⟨?_, .flatcoo (flatOf_rep _ _ h8 _ (by simpa using h7)), ?_, rfl,
    rfl, ?_, ?_⟩, h9⟩
  · simp only [Storage.getItem, h1, h2, h3, bind, Except.bind, h.getSlice_ok hp mem _ st off L vals h11 h4 h6 h7, pure,
      Except.pure]
  · simp [Buffer.WF]
  · exact fun j hj hm => (h9 j hj).1 hm
  · intro j hj
    rw [buffer_window_map _ _ _ rfl]
    exact h10 j hj

theorem selShape_length_le (is : List Ix) (shape : List Nat) : (selShape is shape).length ≤ shape.length := by
  induction is generalizing shape with
  | nil => cases shape <;> simp [selShape]
  | cons x is ih => cases shape with
    | nil => simp [selShape]
    | cons n shape =>
      have := ih shape
      cases x <;> simp [selShape] <;> omega

/-- Slices of a `CSR` that keep both axes. -/
theorem csr_getItem2 [DecidableEq V] {c : CSR V} {rows : List (List Int)} (h : c.Rep rows) (hp : PosShape c.shape)
    (mem : List V) (hm : c.data.WF mem) (index : Index) (hv : ValidItems (items index) c.shape)
    (hl : (selShape (items index) c.shape).length = 2) :
    ∃ r vals rows' b', SparseSlice (.csr c) mem index rows c.data (.csr r) vals rows' b' ∧
      ∀ j, InBox j (selShape (items index) c.shape) →
        (j ∈ rows' ↔ selSource (items index) c.shape j ∈ rows) := by
  have hne : selShape (items index) c.shape ≠ [] := by intro he; rw [he] at hl; simp at hl
  obtain ⟨nix, st, off, L, es, vals, h1, h2, h3, h4, rfl, h6, h7, h8, h9, h10, h11⟩ :=
    slice_core h.rows_ok hp c.data mem hm h.size index hv hne
  refine ⟨_, vals, _, ⟨vals.length, 0, c.data.unspec⟩, ⟨?_, .csr (csrOf_rep _ hl _ h8 _ (by simpa using h7)), ?_, rfl,
    rfl, ?_, ?_⟩, h9⟩
  · simp only [Storage.getItem, h1, h2, h3, bind, Except.bind, hl, h.getSlice2_ok mem _ st off L vals hl h8 h4 h6 h7,
      pure, Except.pure]
    rfl
  · simp [Buffer.WF]
  · exact fun j hj hm => (h9 j hj).1 hm
  · intro j hj
    rw [buffer_window_map _ _ _ rfl]
    exact h10 j hj

/-- `CSR.getElem` inside the box. -/
theorem csr_getElem [DecidableEq V] {c : CSR V} {rows : List (List Int)} (h : c.Rep rows)
    (mem : List V) (hm : c.data.WF mem) (ix : List Int) (hi : InBox ix c.shape) :
    c.getElem mem ix = .ok (lookup rows (c.data.window mem) c.data.unspec ix) := by
  have := getItem_of_getVal ((Sparse.csr h).getVal mem hm ix hi)
  simp only [Storage.getItem, normalize_ints ix c.shape hi, elementIndex_ints, bind, Except.bind] at this
  simp only [CSR.getElem, normalize_ints ix c.shape hi, elementIndex_ints, bind, Except.bind]
  cases hg : c.getDataPosition ix with
  | error e => rw [hg] at this; simp at this
  | ok p =>
    rw [hg] at this
    simp only at this ⊢
    cases hr : readAt c.data mem p with
    | error e => rw [hr] at this; simp at this
    | ok v =>
      rw [hr] at this
      simpa [pure, Except.pure] using this

/-- Slices of a `CSR` that keep one axis. -/
theorem csr_getItem1 [DecidableEq V] {c : CSR V} {rows : List (List Int)} (h : c.Rep rows) (hp : PosShape c.shape)
    (mem : List V) (hm : c.data.WF mem) (index : Index) (hv : ValidItems (items index) c.shape)
    (hl : (selShape (items index) c.shape).length = 1) :
    ∃ r vals rows' b', SparseSlice (.csr c) mem index rows c.data (.coo r) vals rows' b' ∧
      ∀ j, InBox j (selShape (items index) c.shape) →
        (j ∈ rows' ↔ lookup rows (c.data.window mem) c.data.unspec (selSource (items index) c.shape j)
          ≠ c.data.unspec) := by
  have hne : selShape (items index) c.shape ≠ [] := by intro he; rw [he] at hl; simp at hl
  have hcne : c.shape ≠ [] := by
    intro he
    rw [he] at hl
    simp [selShape_nil] at hl
  set f := fun ix => lookup rows (c.data.window mem) c.data.unspec ix with hf
  set K := keptRows c.shape f c.data.unspec with hK
  have hb := cooBuild_ok c.shape hcne (c.getElem mem) c.data.unspec c.data.unspec f
    (fun ix hi => csr_getElem h mem hm ix hi)
  simp only [subst_self] at hb
  have hKs : SortedRows c.shape K := keptRows_sorted _ _ _
  have hrep : (cooOf c.shape K (⟨K.length, 0, c.data.unspec⟩ : Buffer V)).Rep K := cooOf_rep _ hcne _ hKs _ rfl
  have hKm : Buffer.WF ⟨K.length, 0, c.data.unspec⟩ (K.map f) := by simp [Buffer.WF]
  obtain ⟨nix, st, off, L, es, vals, h1, h2, h3, h4, rfl, h6, h7, h8, h9, h10, h11⟩ :=
    slice_core hKs hp ⟨K.length, 0, c.data.unspec⟩ (K.map f) hKm rfl index hv hne
  have hs : ∀ j, InBox j (selShape (items index) c.shape) → InBox (selSource (items index) c.shape j) c.shape := by
    intro j hj
    obtain ⟨_, _, _, _, _, _, _, g⟩ := index_ok index c.shape (makeStrides c.shape) hp hv (makeStrides_length _)
    exact (g j hj).1
  refine ⟨_, vals, _, ⟨vals.length, 0, c.data.unspec⟩, ⟨?_, .coo (cooOf_rep _ hne _ h8 _ (by simpa using h7)), ?_, rfl,
    rfl, ?_, ?_⟩, ?_⟩
  · have hg := hrep.getSlice_ok (K.map f) _ st off L vals hne h4 h6 h7
    simp only [Storage.getItem, h1, h2, h3, bind, Except.bind, hl, CSR.getSlice1, hb]
    simp only [← hK, hg, pure, Except.pure]
    rfl
  · simp [Buffer.WF]
  · intro j hj hmem
    have := (mem_keptRows _ _ _ _).1 ((h9 j hj).1 hmem)
    by_contra hc
    exact this.2 (lookup_none _ _ hc)
  · intro j hj
    rw [buffer_window_map _ _ _ rfl, h10 j hj, buffer_window_map _ _ _ (by simp)]
    exact lookup_kept c.shape f c.data.unspec _ (hs j hj)
  · intro j hj
    rw [h9 j hj, mem_keptRows]
    exact and_iff_right (hs j hj)

/-- The class of a slice: that of the storage, except that a slice of a `CSR` can be a `COO`. -/
def SliceCls (c r : Cls) : Prop := r = c ∨ (c = .csr ∧ r = .coo)

/-- Slices of the sparse classes. -/
theorem Sparse.getItem_slice [DecidableEq V] {s : Storage V} {rows : List (List Int)} {b : Buffer V} (h : Sparse s rows b)
    (hp : PosShape s.shape) (mem : List V) (hm : b.WF mem) (index : Index) (hv : ValidItems (items index) s.shape)
    (hne : selShape (items index) s.shape ≠ []) :
    ∃ r vals rows' b', SparseSlice s mem index rows b r vals rows' b' ∧ SliceCls s.cls r.cls := by
  cases h with
  | coo h =>
    obtain ⟨r, vals, rows', b', h1, _⟩ := coo_getItem h hp mem hm index hv hne
    exact ⟨_, vals, rows', b', h1, .inl rfl⟩
  | flatcoo h =>
    obtain ⟨r, vals, rows', b', h1, _⟩ := flatcoo_getItem h hp mem hm index hv hne
    exact ⟨_, vals, rows', b', h1, .inl rfl⟩
  | @csr c rows h =>
    have hl := selShape_length_le (items index) c.shape
    have h2 := h.two
    have h0 : (selShape (items index) c.shape).length ≠ 0 := fun he => hne (List.length_eq_zero_iff.1 he)
    by_cases h1 : (selShape (items index) c.shape).length = 1
    · obtain ⟨r, vals, rows', b', h1, _⟩ := csr_getItem1 h hp mem hm index hv h1
      exact ⟨_, vals, rows', b', h1, .inr ⟨rfl, rfl⟩⟩
    · obtain ⟨r, vals, rows', b', h1, _⟩ := csr_getItem2 h hp mem hm index hv (by omega)
      exact ⟨_, vals, rows', b', h1, .inl rfl⟩

/-- Elements of the sparse classes. -/
theorem Sparse.getItem_elem [DecidableEq V] {s : Storage V} {rows : List (List Int)} {b : Buffer V} (h : Sparse s rows b)
    (hp : PosShape s.shape) (mem : List V) (hm : b.WF mem) (index : Index) (hv : ValidItems (items index) s.shape)
    (hne : selShape (items index) s.shape = []) :
    s.getItem mem index = .ok (.val (s.at mem (selSource (items index) s.shape []))) := by
  obtain ⟨nix, h1, h2, h3, h4, h5⟩ := index_cases index s.shape hp hv
  rcases h5 with ⟨g1, g2, g3⟩ | ⟨g1, g2⟩
  · have hr := getItem_of_getVal ((h.wf mem hm).getVal_ok _ g3)
    rw [← hr]
    cases h with
    | coo h => simp only [Storage.getItem, Storage.shape] at *; simp only [h1, normalize_ints _ _ g3, elementIndex_ints, g1, bind, Except.bind]
    | flatcoo h => simp only [Storage.getItem, Storage.shape] at *; simp only [h1, normalize_ints _ _ g3, elementIndex_ints, g1, bind, Except.bind]
    | csr h => simp only [Storage.getItem, Storage.shape] at *; simp only [h1, normalize_ints _ _ g3, elementIndex_ints, g1, bind, Except.bind]
  · exact absurd hne g2

/-! ## All classes -/

/-- For a `Buffer`, the index is one int inside the buffer or `None`; no condition for the other classes. -/
def BufferIndex : Storage V → Index → Prop
  | .buffer b, index => items index = [.none] ∨ ∃ i, items index = [.int i] ∧ 0 ≤ i ∧ i < b.size
  | _, _ => True

/-- All offsets are `0`, in the wrapped storages too. -/
def ZeroOff : Storage V → Prop
  | .dm m d => (∀ o ∈ m.roffset, o = 0) ∧ ZeroOff d
  | _ => True

/-- Whether item `d` of an index is an int. -/
def intItem (is : List Ix) (d : Nat) : Prop := ∃ i, is[d]? = some (.int i)

/-- The groups of axes of a `DM` have axes, in the wrapped storages too. -/
def Grouped : Storage V → Prop
  | .dm m d => (∀ g ∈ m.rdims, g ≠ []) ∧ Grouped d
  | _ => True

/-- For a `DM`: groups of axes that the index fixes altogether have the offset `0`, and the wrapped storage
has no offsets or there are no such groups; no condition for the other classes. -/
def SafeIndex : Storage V → Index → Prop
  | .dm m d, index =>
    (∀ (k : Nat) dims off, m.rdims[k]? = some dims → m.roffset[k]? = some off →
      (∀ a ∈ dims, intItem (items index) a) → off = 0) ∧
    (ZeroOff d ∨ (∀ g ∈ m.rdims, ∃ a ∈ g, ¬ intItem (items index) a) ∧ Grouped d)
  | _, _ => True

theorem normalizeItems_int (is : List Ix) (shape : List Nat) (nix : List NIx) (h : normalizeItems is shape = .ok nix)
    (d : Nat) (hi : isIntAt nix d = true) : intItem is d := by
  induction is generalizing shape nix d with
  | nil =>
    simp only [normalizeItems, pure, Except.pure, Except.ok.injEq] at h
    subst h
    simp only [isIntAt, List.getElem?_map] at hi
    cases hs : shape[d]? <;> simp [hs] at hi
  | cons x is ih =>
    cases shape with
    | nil =>
      cases x with
      | int i => simp [normalizeItems] at h
      | slice s => simp [normalizeItems] at h
      | other => simp [normalizeItems] at h
      | none =>
        simp only [normalizeItems] at h
        have hl : ∀ is nix, normalizeItems is [] = .ok nix → nix = [] := by
          intro is
          induction is with
          | nil => intro nix h; simp [normalizeItems, pure, Except.pure] at h; exact h
          | cons y is ih' =>
            intro nix h
            cases y with
            | int i => simp [normalizeItems] at h
            | slice s => simp [normalizeItems] at h
            | other => simp [normalizeItems] at h
            | none => simp only [normalizeItems] at h; exact ih' nix h
        rw [hl is nix h] at hi
        simp [isIntAt] at hi
    | cons n shape =>
      cases x with
      | other => simp [normalizeItems] at h
      | int i =>
        cases d with
        | zero => exact ⟨i, rfl⟩
        | succ d =>
          simp only [normalizeItems, bind, Except.bind] at h
          cases hm : pyMod i n with
          | error e => rw [hm] at h; simp at h
          | ok m =>
            rw [hm] at h
            cases hr : normalizeItems is shape with
            | error e => rw [hr] at h; simp at h
            | ok r =>
              rw [hr] at h
              simp only [pure, Except.pure, Except.ok.injEq] at h
              subst h
              exact ih shape r hr d hi
      | slice s =>
        simp only [normalizeItems, bind, Except.bind] at h
        cases hr : normalizeItems is shape with
        | error e => rw [hr] at h; simp at h
        | ok r =>
          rw [hr] at h
          simp only [pure, Except.pure, Except.ok.injEq] at h
          subst h
          cases d with
          | zero => simp [isIntAt] at hi
          | succ d => exact ih shape r hr d hi
      | none =>
        simp only [normalizeItems, bind, Except.bind] at h
        cases hr : normalizeItems is shape with
        | error e => rw [hr] at h; simp at h
        | ok r =>
          rw [hr] at h
          simp only [pure, Except.pure, Except.ok.injEq] at h
          subst h
          cases d with
          | zero => simp [isIntAt] at hi
          | succ d => exact ih shape r hr d hi

theorem offsetsOk_of (is : List Ix) (nix : List NIx) (hi : ∀ d, isIntAt nix d = true → intItem is d)
    (rdims : List (List Nat)) (roffset : List Int)
    (h : ∀ (k : Nat) dims off, rdims[k]? = some dims → roffset[k]? = some off → (∀ a ∈ dims, intItem is a) → off = 0) :
    OffsetsOk nix rdims roffset := by
  induction rdims generalizing roffset with
  | nil => simp [OffsetsOk]
  | cons dims rdims ih => cases roffset with
    | nil => simp [OffsetsOk]
    | cons off roffset =>
      refine ⟨fun h1 => h 0 dims off rfl rfl fun a ha => hi a (h1 a ha), ih roffset fun k dims' off' h1 h2 h3 => ?_⟩
      exact h (k + 1) dims' off' h1 h2 h3

theorem ZeroOff.safe {s : Storage V} (h : ZeroOff s) (index : Index) : SafeIndex s index := by
  cases s with
  | dm m d => exact ⟨fun k dims off _ h2 _ => h.1 off (List.mem_of_getElem? h2), .inl h.2⟩
  | _ => trivial

theorem Grouped.safe {s : Storage V} (h : Grouped s) (index : Index) (hi : ∀ i, Ix.int i ∉ items index) :
    SafeIndex s index := by
  have hn : ∀ a, ¬ intItem (items index) a := fun a ⟨i, ha⟩ => hi i (List.mem_of_getElem? ha)
  cases s with
  | dm m d =>
    have : ∀ g ∈ m.rdims, ∃ a ∈ g, ¬ intItem (items index) a := by
      intro g hg
      obtain ⟨a, ha⟩ := List.exists_mem_of_ne_nil _ (h.1 g hg)
      exact ⟨a, ha, hn a⟩
    refine ⟨fun k dims off h1 _ h3 => ?_, .inr ⟨this, h.2⟩⟩
    obtain ⟨a, ha, hna⟩ := this dims (List.mem_of_getElem? h1)
    exact absurd (h3 a ha) hna
  | _ => trivial

/-- The groups of a slice of a `DM` have axes, and there are as many as before if each has an axis without an int. -/
theorem dmSliceLoop_groups (nix : List NIx) (rdims rshapes : List (List Nat)) (rstrides : List (List Int)) (roffset : List Int)
    {r : List (List Nat) × List (List Int) × List Int × List Ix}
    (h : dmSliceLoop nix rdims rshapes rstrides roffset = .ok r) : (∀ g ∈ r.1, g ≠ []) ∧
    ((∀ g ∈ rdims, ∃ a ∈ g, isIntAt nix a = false) → r.1.length = rdims.length) := by
  induction rdims generalizing rshapes rstrides roffset r with
  | nil =>
    simp only [dmSliceLoop, pure, Except.pure, Except.ok.injEq] at h
    subst h
    exact ⟨by simp, fun _ => rfl⟩
  | cons dims rdims ih =>
    match rshapes, rstrides, roffset with
    | sh :: rshapes, st :: rstrides, off :: roffset =>
      simp only [dmSliceLoop, bind, Except.bind] at h
      split at h
      · cases h
      split at h
      · cases h
      split at h
      · cases h
      next hr =>
      obtain ⟨i1, i2⟩ := ih _ _ _ hr
      have h5 : ∀ rd : List (List Nat), (∀ g ∈ rd, g ≠ []) →
          ∀ g ∈ (if ((dims.filter fun i => !isIntAt nix i).map (axisMap nix)).isEmpty then rd
          else (dims.filter fun i => !isIntAt nix i).map (axisMap nix) :: rd), g ≠ [] := by
        intro rd hrd g hg
        split at hg
        · exact hrd g hg
        · next hne =>
          rcases List.mem_cons.1 hg with rfl | hg
          · simpa using hne
          · exact hrd g hg
      have h6 : ∀ rd : List (List Nat), ((∀ g ∈ rdims, ∃ a ∈ g, isIntAt nix a = false) → rd.length = rdims.length) →
          (∀ g ∈ dims :: rdims, ∃ a ∈ g, isIntAt nix a = false) →
          (if ((dims.filter fun i => !isIntAt nix i).map (axisMap nix)).isEmpty then rd
          else (dims.filter fun i => !isIntAt nix i).map (axisMap nix) :: rd).length = (dims :: rdims).length := by
        intro rd hrd hg
        obtain ⟨a, ha, hn⟩ := hg dims (by simp)
        have : ((dims.filter fun i => !isIntAt nix i).map (axisMap nix)).isEmpty = false := by
          rw [← Bool.not_eq_true, List.isEmpty_iff]
          intro h0
          have := List.map_eq_nil_iff.1 h0
          have h1 : a ∈ dims.filter fun i => !isIntAt nix i := List.mem_filter.2 ⟨ha, by simp [hn]⟩
          rw [this] at h1
          simp at h1
        rw [this]
        simp [hrd fun g hg' => hg g (by simp [hg'])]
      split at h
      · simp only [pure, Except.pure, Except.ok.injEq] at h; subst h; exact ⟨h5 _ i1, h6 _ i2⟩
      · simp only [pure, Except.pure, Except.ok.injEq] at h; subst h; exact ⟨h5 _ i1, h6 _ i2⟩
    | [], _, _ => simp [dmSliceLoop] at h
    | _ :: _, [], _ => simp [dmSliceLoop] at h
    | _ :: _, _ :: _, [] => simp [dmSliceLoop] at h

theorem selShape_length_ints (is : List Ix) (hi : IntsNones is) (shape : List Nat) (hl : is.length = shape.length) :
    (selShape is shape).length ≤ is.length ∧ ((selShape is shape).length = is.length → ∀ i, Ix.int i ∉ is) := by
  induction is generalizing shape with
  | nil => cases shape <;> simp_all [selShape]
  | cons x is ih => cases shape with
    | nil => simp at hl
    | cons n shape =>
      obtain ⟨h1, h2⟩ := ih (fun y hy => hi y (by simp [hy])) shape (by simpa using hl)
      rcases hi x (by simp) with rfl | ⟨i, rfl⟩
      · simp only [selShape, List.length_cons, List.mem_cons, not_or]
        exact ⟨by omega, fun h i => ⟨by simp, h2 (by omega) i⟩⟩
      · simp only [selShape, List.length_cons]
        exact ⟨by omega, fun h => by omega⟩

theorem exists_inBox {shape : List Nat} (hp : PosShape shape) : ∃ ix, InBox ix shape :=
  ⟨decode 0 shape, decode_inBox 0 hp⟩

theorem validItems_intsNones {is : List Ix} (h : IntsNones is) (shape : List Nat) (hl : is.length = shape.length) :
    ValidItems is shape := by
  induction is generalizing shape with
  | nil => trivial
  | cons x is ih => cases shape with
    | nil => simp at hl
    | cons n shape =>
      have ih' := ih (fun y hy => h y (by simp [hy])) shape (by simpa using hl)
      rcases h x (by simp) with rfl | ⟨i, rfl⟩
      · exact ih'
      · exact ih'

theorem flatten_foldr {α : Type} (l : List (List α)) : l.foldr (· ++ ·) [] = l.flatten := by
  induction l with
  | nil => rfl
  | cons x l ih => rw [List.foldr_cons, ih, List.flatten_cons]

theorem DMMeta.new_ok (shape : List Nat) (rdims : List (List Nat)) (rstrides : List (List Int)) (roffset : List Int)
    (hne : rdims ≠ []) (hax : ∀ d, d ∈ rdims.flatten ↔ d < shape.length) :
    DMMeta.new shape rdims rstrides roffset = .ok ⟨shape, rdims, groupShapes shape rdims, rstrides, roffset⟩ := by
  have h1 : rdims.isEmpty = false := by cases rdims <;> simp_all
  have h2 : (rdims.foldr (· ++ ·) []).all (fun d => decide (d < shape.length)) = true := by
    rw [flatten_foldr, List.all_eq_true]
    intro d hd
    simpa using (hax d).1 hd
  have h3 : (List.range shape.length).all (fun d => (rdims.foldr (· ++ ·) []).contains d) = true := by
    rw [flatten_foldr, List.all_eq_true]
    intro d hd
    simpa using (hax d).2 (by simpa using hd)
  simp only [DMMeta.new, h1, h2, h3, Bool.false_eq_true, if_false, pyAssert, bind, Except.bind, pure, Except.pure, if_true]
  rw [makeReduction_ok shape rdims fun g hg d hd => (hax d).1 (List.mem_flatten.2 ⟨g, hg, hd⟩)]

/-- What indexing returns: the selected element, or an array with the selected elements. -/
theorem Storage.WF.getItem_ok [DecidableEq V] {s : Storage V} {mem : List V} (h : s.WF mem) (hp : PosShape s.shape)
    (index : Index) (hv : ValidItems (items index) s.shape) (hb : BufferIndex s index) (hz : SafeIndex s index) :
    (selShape (items index) s.shape = [] ∧
      s.getItem mem index = .ok (.val (s.at mem (selSource (items index) s.shape [])))) ∨
    (selShape (items index) s.shape ≠ [] ∧ ∃ r mem',
      ((s.getItem mem index = .ok (.view r) ∧ mem' = mem) ∨ s.getItem mem index = .ok (.fresh r mem')) ∧
      (r.unspec = s.unspec ∧ SliceCls s.cls r.cls) ∧
      Stands r mem' (selShape (items index) s.shape) fun j => s.at mem (selSource (items index) s.shape j)) := by
  induction s generalizing index with
  | buffer b =>
    have hi : ∀ i, items index = [i] → (Storage.buffer b).getItem mem index = (Storage.buffer b).getItem mem (.one i) := by
      intro i hi
      cases index with
      | one j => simp only [items, List.cons.injEq, and_true] at hi; rw [hi]
      | tuple is => simp only [items] at hi; rw [hi]; rfl
    rcases hb with h1 | ⟨i, h1, h2, h3⟩
    · right
      rw [h1]
      refine ⟨by simp [selShape, Storage.shape], .buffer b, mem, .inl ⟨?_, rfl⟩, ⟨rfl, .inl rfl⟩, h, rfl, ?_⟩
      · rw [hi _ h1]; rfl
      · intro j hj
        cases j with
        | nil => exact hj.elim
        | cons j0 j => rfl
    · left
      rw [h1]
      refine ⟨rfl, ?_⟩
      have := getItem_of_getVal (h.getVal_ok [i] ⟨⟨h2, h3⟩, trivial⟩)
      rw [hi _ h1]
      simp only [selSource, Storage.shape]
      rw [Int.emod_eq_of_lt h2 h3]
      exact this
  | strided s =>
    rcases Strided.getItem_slice h hp index hv with ⟨h1, h2⟩ | ⟨h1, r, h2, h3, h4, h5, h6, _⟩
    · left
      refine ⟨h1, ?_⟩
      simp only [Storage.getItem, h2, bind, Except.bind, pure, Except.pure, Storage.shape]
      obtain ⟨_, _, _, _, _, _, _, g⟩ := index_ok index s.shape (makeStrides s.shape) hp hv (makeStrides_length _)
      rw [at_strided h _ (g [] (by rw [h1]; trivial)).1]
    · right
      refine ⟨h1, .strided r, mem, .inl ⟨?_, rfl⟩, ⟨h5, .inl rfl⟩, h3, h4, ?_⟩
      · simp only [Storage.getItem, h2, bind, Except.bind, pure, Except.pure]
      · intro j hj
        have hj' : InBox j r.shape := by rw [h4]; exact hj
        obtain ⟨g1, g2⟩ := h6 j hj'
        rw [at_strided h3 j hj']
        refine Eq.trans ?_ (at_strided h _ g1).symm
        simp only [Strided.val, g2, h5]
  | coo c =>
    obtain ⟨⟨rows, hr⟩, hm⟩ := h
    by_cases h1 : selShape (items index) c.shape = []
    · exact .inl ⟨h1, (Sparse.coo hr).getItem_elem hp mem hm index hv h1⟩
    · right
      obtain ⟨r, vals, rows', b', g, gc⟩ := (Sparse.coo hr).getItem_slice hp mem hm index hv h1
      refine ⟨h1, r, vals, .inr g.eval, ⟨by rw [g.sparse.unspec, g.unspec_eq]; rfl, gc⟩, g.sparse.wf _ g.buf, g.shape_eq, ?_⟩
      intro j hj
      obtain ⟨_, _, _, _, _, _, _, gg⟩ := index_ok index c.shape (makeStrides c.shape) hp hv (makeStrides_length _)
      rw [g.sparse.at _ g.buf j (by rw [g.shape_eq]; exact hj), g.values j hj]
      exact ((Sparse.coo hr).at mem hm _ (gg j hj).1).symm
  | flatcoo c =>
    obtain ⟨⟨rows, hr⟩, hm⟩ := h
    by_cases h1 : selShape (items index) c.shape = []
    · exact .inl ⟨h1, (Sparse.flatcoo hr).getItem_elem hp mem hm index hv h1⟩
    · right
      obtain ⟨r, vals, rows', b', g, gc⟩ := (Sparse.flatcoo hr).getItem_slice hp mem hm index hv h1
      refine ⟨h1, r, vals, .inr g.eval, ⟨by rw [g.sparse.unspec, g.unspec_eq]; rfl, gc⟩, g.sparse.wf _ g.buf, g.shape_eq, ?_⟩
      intro j hj
      obtain ⟨_, _, _, _, _, _, _, gg⟩ := index_ok index c.shape (makeStrides c.shape) hp hv (makeStrides_length _)
      rw [g.sparse.at _ g.buf j (by rw [g.shape_eq]; exact hj), g.values j hj]
      exact ((Sparse.flatcoo hr).at mem hm _ (gg j hj).1).symm
  | csr c =>
    obtain ⟨⟨rows, hr⟩, hm⟩ := h
    by_cases h1 : selShape (items index) c.shape = []
    · exact .inl ⟨h1, (Sparse.csr hr).getItem_elem hp mem hm index hv h1⟩
    · right
      obtain ⟨r, vals, rows', b', g, gc⟩ := (Sparse.csr hr).getItem_slice hp mem hm index hv h1
      refine ⟨h1, r, vals, .inr g.eval, ⟨by rw [g.sparse.unspec, g.unspec_eq]; rfl, gc⟩, g.sparse.wf _ g.buf, g.shape_eq, ?_⟩
      intro j hj
      obtain ⟨_, _, _, _, _, _, _, gg⟩ := index_ok index c.shape (makeStrides c.shape) hp hv (makeStrides_length _)
      rw [g.sparse.at _ g.buf j (by rw [g.shape_eq]; exact hj), g.values j hj]
      exact ((Sparse.csr hr).at mem hm _ (gg j hj).1).symm
  | dm m d ih =>
    obtain ⟨hm, hd⟩ := h
    simp only [Storage.shape] at hp hv ⊢
    obtain ⟨nix, n1, n2, n3, n4, n5⟩ := index_cases index m.shape hp hv
    have hint : ∀ a, isIntAt nix a = true → intItem (items index) a := by
      intro a ha
      rw [normalizeIndex_eq_items index m.shape hv] at n1
      exact normalizeItems_int _ _ _ n1 a ha
    obtain ⟨_, _, _, _, _, _, _, gsrc⟩ := index_ok index m.shape (makeStrides m.shape) hp hv (makeStrides_length _)
    rcases n5 with ⟨g1, g2, g3⟩ | ⟨g1, g2⟩
    · left
      refine ⟨g2, ?_⟩
      have := getItem_of_getVal (hd.getVal_ok _ (hm.into _ g3))
      simp only [Storage.getItem, n1, bind, Except.bind, g1, hm.getDataPosition_ok _ g3, this, at_dm hm hd _ g3]
    · right
      refine ⟨g2, ?_⟩
      obtain ⟨rd, rst, roff, dix, e1, e2, e3, e4, e5, e6, e7, e8⟩ := dmSliceLoop_ok nix m.shape n2 hp m.rdims m.rstrides
        m.roffset (fun a ha => (hm.axes a).1 ha) hm.rstrides hm.roffset
      have hoff := offsetsOk_of (items index) nix hint m.rdims m.roffset hz.1
      obtain ⟨ix0, hx0⟩ := exists_inBox hp
      have hpin : PosShape d.shape := InBox_pos (hm.into ix0 hx0)
      have hdl : dix.length = d.shape.length := by rw [e5, hm.rank]
      have hval : ValidItems (items (.tuple dix)) d.shape := validItems_intsNones e6 _ hdl
      have hax : ∀ a, a ∈ rd.flatten ↔ a < (selShape (items index) m.shape).length := by
        intro a
        rw [e4, ← n3, ← axes_ok nix m.shape n2 a]
        constructor
        · rintro ⟨x, h1, h2⟩; exact ⟨x, (hm.axes x).1 h1, h2⟩
        · rintro ⟨x, h1, h2⟩; exact ⟨x, (hm.axes x).2 h1, h2⟩
      have hrd : rd ≠ [] := by
        intro he
        rw [he] at hax
        have h0 := (hax 0).2 (by
          rcases hsel : selShape (items index) m.shape with _ | ⟨_, _⟩
          · exact absurd hsel g2
          · simp)
        simp at h0
      have hsl : selShape dix d.shape ≠ [] := by
        intro he
        have := e7 d.shape hm.rank
        rw [he] at this
        exact hrd (List.length_eq_zero_iff.1 this.symm)
      have hdne : dix.isEmpty = false := by
        cases dix with
        | nil =>
          exfalso
          simp at e5
          exact hm.ne (List.length_eq_zero_iff.1 e5.symm)
        | cons => rfl
      have hbi : BufferIndex d (.tuple dix) := by
        cases d with
        | buffer b =>
          left
          simp only [Storage.shape, List.length_singleton] at hdl
          obtain ⟨x, rfl⟩ := List.length_eq_one_iff.1 hdl
          rcases e6 x (by simp) with rfl | ⟨i, rfl⟩
          · rfl
          · exact absurd rfl hsl
        | _ => trivial
      have hsafe : SafeIndex d (.tuple dix) := by
        rcases hz.2 with hz | ⟨hz1, hz2⟩
        · exact hz.safe _
        · refine hz2.safe _ ?_
          refine (selShape_length_ints dix e6 d.shape hdl).2 ?_
          rw [e7 d.shape hm.rank, e5]
          exact (dmSliceLoop_groups nix _ _ _ _ e1).2 fun g hg => by
            obtain ⟨a, ha, hn⟩ := hz1 g hg
            exact ⟨a, ha, by rw [← Bool.not_eq_true]; exact fun h => hn (hint a h)⟩
      rcases ih hd hpin (.tuple dix) hval hbi hsafe with ⟨q1, _⟩ | ⟨_, r, mem', q2, q3, q4⟩
      · exact absurd q1 hsl
      · have hshape : shapeStrided nix m.shape = .ok (selShape (items index) m.shape) := by
          rw [shapeStrided_ok nix m.shape n2, n3]
        have hnew := DMMeta.new_ok (selShape (items index) m.shape) rd rst roff hrd hax
        have hloop : dmSliceLoop nix m.rdims m.rshapes m.rstrides m.roffset = .ok (rd, rst, roff, dix) := by
          rw [hm.rshapes]; exact e1
        have hm' : DMMeta.WF ⟨selShape (items index) m.shape, rd, groupShapes (selShape (items index) m.shape) rd, rst,
            roff⟩ r.shape := by
          refine ⟨hrd, hax, rfl, e2, e3, ?_, ?_⟩
          · rw [q4.shape_eq]; exact e7 d.shape hm.rank
          · intro j hj
            have := e8 d.shape j (by rw [n3]; exact hj) hoff (by rw [n4 j hj]; exact hm.into _ (gsrc j hj).1)
            rw [q4.shape_eq]
            exact this.1
        refine ⟨.dm _ r, mem', ?_, ⟨q3.1, .inl rfl⟩, ⟨hm', q4.wf⟩, rfl, ?_⟩
        · rcases q2 with ⟨q2, q2'⟩ | q2
          · left
            refine ⟨?_, q2'⟩
            simp only [Storage.getItem, n1, bind, Except.bind, g1, hshape, hloop, hdne, Bool.false_eq_true, if_false, q2,
              hnew, pure, Except.pure]
          · right
            simp only [Storage.getItem, n1, bind, Except.bind, g1, hshape, hloop, hdne, Bool.false_eq_true, if_false, q2,
              hnew, pure, Except.pure]
        · intro j hj
          have hs := (gsrc j hj).1
          have := e8 d.shape j (by rw [n3]; exact hj) hoff (by rw [n4 j hj]; exact hm.into _ hs)
          rw [at_dm hm' q4.wf j hj, at_dm hm hd _ hs]
          rw [q4.reads _ this.1]
          have e := this.2
          rw [n4 j hj] at e
          simp only [items, e]

end Gcs
