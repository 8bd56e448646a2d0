import Verif.Lemmas.Write

/-! Building the sparse storages from the elements of an array. -/

namespace Gcs

open Spec

variable {α : Type}

theorem subst_self [DecidableEq α] (u v : α) : subst u u v = v := by
  simp only [subst]
  split
  · next h => exact h.symm
  · rfl

/-! ## The index array of a `COO` -/

theorem nestedRow_shape (row : List Int) : (nestedRow row).shape = [row.length] := by
  cases row with
  | nil => rfl
  | cons a row => simp [nestedRow, Nested.shape]

theorem nestedRow_getValue (row : List Int) (p : Nat) (hp : p < row.length) :
    (nestedRow row).getValue [(p : Int)] = .ok (some (row.getD p 0)) := by
  have : pyGet (row.map fun i => Nested.leaf (some i)) (p : Int) = .ok (Nested.leaf (some (row.getD p 0))) := by
    rw [pyGet_nat _ p (by simpa using hp)]
    simp [List.getD_eq_getElem?_getD, hp]
  simp only [nestedRow, Nested.getValue, Nested.walk, this, bind, Except.bind, pure, Except.pure]

/-- The cells of the index array: axis by axis. -/
def imemOf (d : Nat) (rows : List (List Int)) : List (Option Int) :=
  (indexProduct [d, rows.length]).map fun ix => some ((rows.getD (ix.getD 1 0).toNat []).getD (ix.getD 0 0).toNat 0)

/-- The index array with the columns `rows`. -/
def indicesOf (d : Nat) (rows : List (List Int)) : Strided (Option Int) :=
  ⟨[d, rows.length], makeStrides [d, rows.length], ⟨product [d, rows.length], 0, none⟩⟩

theorem columns_length (d : Nat) (rows : List (List Int)) : (columns d rows).length = d := by simp [columns]

theorem columns_getElem (d : Nat) (rows : List (List Int)) (j : Nat) (hj : j < (columns d rows).length) :
    (columns d rows)[j] = rows.map fun ix => ix.getD j 0 := by simp [columns]

theorem two_inBox {ix : List Int} {n m : Nat} (h : InBox ix [n, m]) :
    ∃ j p : Nat, ix = [(j : Int), (p : Int)] ∧ j < n ∧ p < m := by
  obtain ⟨r, c, n', m', e1, e2, h1, h2, h3, h4⟩ := pair_of_two h rfl
  simp only [List.cons.injEq, and_true] at e2
  obtain ⟨rfl, rfl⟩ := e2
  refine ⟨r.toNat, c.toNat, ?_, by omega, by omega⟩
  rw [e1, Int.toNat_of_nonneg h1, Int.toNat_of_nonneg h3]

theorem ofNested_columns (d : Nat) (hd : 0 < d) (rows : List (List Int)) :
    Strided.ofNested (nestedRows (columns d rows)) = .ok (indicesOf d rows, imemOf d rows) := by
  have hsh : (nestedRows (columns d rows)).shape = [d, rows.length] := by
    obtain ⟨k, rfl⟩ : ∃ k, d = k + 1 := ⟨d - 1, by omega⟩
    have : columns (k + 1) rows = (rows.map fun ix => ix.getD 0 0) ::
        (List.range k).map fun i => rows.map fun ix => ix.getD (i + 1) 0 := by
      simp only [columns, List.range_succ_eq_map, List.map_cons, List.map_map]
      rfl
    rw [this]
    simp [nestedRows, Nested.shape, nestedRow_shape]
  unfold Strided.ofNested
  rw [hsh, stridedBuild_ok _ _ _ _ (fun ix => some ((rows.getD (ix.getD 1 0).toNat []).getD (ix.getD 0 0).toNat 0))]
  · unfold indicesOf imemOf
    congr 2
  · intro ix hix
    obtain ⟨j, p, rfl, hj, hp⟩ := two_inBox hix
    have e : pyGet ((columns d rows).map nestedRow) (j : Int)
        = .ok (nestedRow (rows.map fun ix => ix.getD j 0)) := by
      rw [pyGet_nat _ j (by simpa [columns] using hj)]
      simp [columns]
    simp only [nestedRows, Nested.getValue, Nested.walk, e, bind, Except.bind]
    have := nestedRow_getValue (rows.map fun ix => ix.getD j 0) p (by simpa using hp)
    rw [nestedRow, Nested.getValue] at this
    rw [nestedRow, this]
    simp [List.getD_eq_getElem?_getD, hp]

theorem indicesOf_ok (d : Nat) (rows : List (List Int)) :
    (indicesOf d rows).shape = [d, rows.length] ∧ (indicesOf d rows).WF (imemOf d rows) ∧
    ∀ p (hp : p < rows.length) j, j < d →
      (indicesOf d rows).val (imemOf d rows) [(j : Int), (p : Int)] = some (rows[p].getD j 0) := by
  have := contiguous_WF [d, rows.length]
    (fun ix => some ((rows.getD (ix.getD 1 0).toNat []).getD (ix.getD 0 0).toNat 0)) (none : Option Int)
  refine ⟨rfl, this.1, fun p hp j hj => ?_⟩
  have h2 := this.2 [(j : Int), (p : Int)] ⟨⟨by omega, by omega⟩, ⟨by omega, by omega⟩, trivial⟩
  unfold indicesOf imemOf
  rw [h2]
  simp [List.getD_eq_getElem?_getD, hp]

theorem COO.new_ok (shape : List Nat) (indices : Strided (Option Int)) (imem : List (Option Int)) (data : Buffer α)
    (d n : Nat) (h1 : indices.shape = [d, n]) (h2 : data.size = n) :
    COO.new shape indices imem data = .ok ⟨shape, indices, imem, data⟩ := by
  have : pyGet indices.shape 1 = .ok n := by rw [h1]; rfl
  simp [COO.new, this, bind, Except.bind, pyAssert, h2, pure, Except.pure]

/-- A `COO` with the given stored indices and a buffer of the right size. -/
def cooOf (shape : List Nat) (rows : List (List Int)) (data : Buffer α) : COO α :=
  ⟨shape, indicesOf shape.length rows, imemOf shape.length rows, data⟩

theorem cooOf_rep (shape : List Nat) (hne : shape ≠ []) (rows : List (List Int)) (hr : SortedRows shape rows)
    (data : Buffer α) (hd : data.size = rows.length) : (cooOf shape rows data).Rep rows := by
  obtain ⟨h1, h2, h3⟩ := indicesOf_ok shape.length rows
  exact ⟨hr, hne, h1, h2, rfl, h3, hd⟩

/-! ## Keeping the elements that are specified -/

/-- The indices where the array `f` differs from `u`, in order. -/
def keptRows (shape : List Nat) (f : List Int → α) (u : α) [DecidableEq α] : List (List Int) :=
  (indexProduct shape).filter fun ix => f ix ≠ u

theorem keptRows_sorted (shape : List Nat) (f : List Int → α) (u : α) [DecidableEq α] :
    SortedRows shape (keptRows shape f u) := by
  refine ⟨(indexProduct_sorted shape).filter _, ?_⟩
  intro r hr
  exact (mem_indexProduct _ _).1 (List.mem_filter.1 hr).1

theorem mem_keptRows (shape : List Nat) (f : List Int → α) (u : α) [DecidableEq α] (ix : List Int) :
    ix ∈ keptRows shape f u ↔ InBox ix shape ∧ f ix ≠ u := by
  simp [keptRows, mem_indexProduct]

theorem found_kept [DecidableEq α] (shape : List Nat) (value : List Int → PyM α) (su u : α) (a : List Int → α)
    (h : ∀ ix, InBox ix shape → value ix = .ok (a ix)) :
    ((indexProduct shape).mapM fun ix => do
      let v ← value ix
      return (ix, if v = su then u else v) : PyM (List (List Int × α)))
      = .ok ((indexProduct shape).map fun ix => (ix, subst su u (a ix))) ∧
    (((indexProduct shape).map fun ix => (ix, subst su u (a ix))).filter fun e => e.2 ≠ u)
      = (keptRows shape (fun ix => subst su u (a ix)) u).map fun ix => (ix, subst su u (a ix)) := by
  constructor
  · apply mapM_ok
    intro ix hix
    simp only [h ix ((mem_indexProduct _ _).1 hix), bind, Except.bind, pure, Except.pure, subst]
  · rw [List.filter_map]
    rfl

theorem cooBuild_ok [DecidableEq α] (shape : List Nat) (hne : shape ≠ []) (value : List Int → PyM α) (su u : α)
    (a : List Int → α) (h : ∀ ix, InBox ix shape → value ix = .ok (a ix)) :
    cooBuild shape value su u
      = .ok (cooOf shape (keptRows shape (fun ix => subst su u (a ix)) u)
          ⟨(keptRows shape (fun ix => subst su u (a ix)) u).length, 0, u⟩,
        (keptRows shape (fun ix => subst su u (a ix)) u).map fun ix => subst su u (a ix)) := by
  obtain ⟨h1, h2⟩ := found_kept shape value su u a h
  unfold cooBuild
  rw [h1]
  simp only [bind, Except.bind, h2]
  rw [Buffer.new_ok _ _ _ _ (by simp)]
  simp only [List.map_map]
  have e1 : ((fun e : List Int × α => e.1) ∘ fun ix => (ix, subst su u (a ix))) = id := rfl
  have e2 : ((fun e : List Int × α => e.2) ∘ fun ix => (ix, subst su u (a ix))) = fun ix => subst su u (a ix) := rfl
  rw [e1, e2, List.map_id, ofNested_columns _ (List.length_pos_of_ne_nil hne)]
  simp only [List.length_map]
  rw [COO.new_ok _ _ _ _ shape.length _ rfl rfl]
  rfl

/-! ## `FlatCOO` -/

/-- The cells of the array of flat indices. -/
def fmemOf (shape : List Nat) (rows : List (List Int)) : List (Option Int) :=
  rows.map fun r => some (address r (makeStrides shape))

/-- A `FlatCOO` with the given stored indices and a buffer of the right size. -/
def flatOf (shape : List Nat) (rows : List (List Int)) (data : Buffer α) : FlatCOO α :=
  ⟨shape, ⟨rows.length, 0, none⟩, fmemOf shape rows, data⟩

theorem flatOf_rep (shape : List Nat) (rows : List (List Int)) (hr : SortedRows shape rows)
    (data : Buffer α) (hd : data.size = rows.length) : (flatOf shape rows data).Rep rows := by
  refine ⟨hr, ?_, ?_, hd⟩
  · simp [flatOf, fmemOf, Buffer.WF]
  · simp [flatOf, fmemOf, Buffer.window]

theorem positions_ok {P : Type} (shape : List Nat) (es : List (List Int × P)) (h : ∀ e ∈ es, InBox e.1 shape) :
    (es.mapM fun e => getPosition e.1 shape (makeStrides shape) : PyM (List Int))
      = .ok ((es.map (·.1)).map fun r => address r (makeStrides shape)) := by
  rw [List.map_map]
  apply mapM_ok
  intro e he
  exact getPosition_box (h e he)

theorem rawIntBuffer_ok (l : List Int) : rawIntBuffer l = .ok (⟨l.length, 0, none⟩, l.map some) := by
  simp only [rawIntBuffer, bind, Except.bind]
  rw [Buffer.new_ok _ _ _ _ (by simp)]
  simp [pure, Except.pure]

theorem FlatCOO.new_ok (shape : List Nat) (findices : Buffer (Option Int)) (fmem : List (Option Int))
    (data : Buffer α) (h : findices.size = data.size) :
    FlatCOO.new shape findices fmem data = .ok ⟨shape, findices, fmem, data⟩ := by
  simp [FlatCOO.new, bind, Except.bind, pyAssert, h, pure, Except.pure]

theorem flatBuild_ok [DecidableEq α] (shape : List Nat) (value : List Int → PyM α) (su u : α)
    (a : List Int → α) (h : ∀ ix, InBox ix shape → value ix = .ok (a ix)) :
    flatBuild shape value su u
      = .ok (flatOf shape (keptRows shape (fun ix => subst su u (a ix)) u)
          ⟨(keptRows shape (fun ix => subst su u (a ix)) u).length, 0, u⟩,
        (keptRows shape (fun ix => subst su u (a ix)) u).map fun ix => subst su u (a ix)) := by
  obtain ⟨h1, h2⟩ := found_kept shape value su u a h
  unfold flatBuild
  rw [h1]
  simp only [bind, Except.bind, h2]
  rw [positions_ok _ _ (by
    intro e he
    obtain ⟨ix, hix, rfl⟩ := List.mem_map.1 he
    exact (keptRows_sorted _ _ _).inbox ix hix)]
  simp only
  rw [Buffer.new_ok _ _ _ _ (by simp)]
  simp only [List.map_map, rawIntBuffer_ok]
  rw [FlatCOO.new_ok _ _ _ _ (by simp)]
  simp [pure, Except.pure, flatOf, fmemOf, Function.comp_def]

/-! ## `CSR` -/

theorem intBuffer_ok (l : List Int) : intBuffer l = .ok (⟨l.length, 0, none⟩, l.map some) := by
  unfold intBuffer
  rw [nestedRow_shape, bufferBuild_ok _ _ _ _ (fun ix => some (l.getD (ix.getD 0 0).toNat 0))]
  · congr 2
    · simp [product]
    · apply List.ext_getElem?
      intro k
      by_cases hk : k < l.length
      · obtain ⟨ix, h1, h2, h3⟩ := indexProduct_getElem? [l.length] k (by simpa [product] using hk)
        cases ix with
        | nil => exact h2.elim
        | cons i ix => cases ix with
          | cons => exact h2.2.elim
          | nil =>
            have : i = k := by simpa [address, makeStrides, product] using h3
            subst this
            rw [List.getElem?_map, h1]
            simp [subst, hk]
      · rw [List.getElem?_eq_none (by simp [indexProduct_length, product]; omega), List.getElem?_eq_none (by simp; omega)]
  · intro ix hix
    cases ix with
    | nil => exact hix.elim
    | cons i ix => cases ix with
      | cons => exact hix.2.elim
      | nil =>
        obtain ⟨h0, h1⟩ := hix.1
        have := nestedRow_getValue l i.toNat (by omega)
        rw [Int.toNat_of_nonneg h0] at this
        rw [this]
        rfl

theorem CSR.new_ok (shape : List Nat) (crow : Buffer (Option Int)) (crowMem : List (Option Int))
    (col : Buffer (Option Int)) (colMem : List (Option Int)) (data : Buffer α) (n m : Nat) (hs : shape = [n, m])
    (h1 : crow.size = n + 1) (h2 : col.size = data.size) :
    CSR.new shape crow crowMem col colMem data = .ok ⟨shape, crow, crowMem, col, colMem, data⟩ := by
  have : pyGet shape 0 = .ok n := by rw [hs]; rfl
  have h3 : shape.length = 2 := by rw [hs]; rfl
  simp [CSR.new, this, bind, Except.bind, pyAssert, h1, h2, h3, pure, Except.pure]

/-- A `CSR` with the given stored indices and a buffer of the right size. -/
def csrOf (shape : List Nat) (rows : List (List Int)) (data : Buffer α) : CSR α :=
  ⟨shape, ⟨shape.getD 0 0 + 1, 0, none⟩,
    (List.range (shape.getD 0 0 + 1)).map fun (r : Nat) => some ((below (firsts rows) r : Nat) : Int),
    ⟨rows.length, 0, none⟩, rows.map fun r => some (r.getD 1 0), data⟩

theorem csrOf_rep (shape : List Nat) (h2 : shape.length = 2) (rows : List (List Int)) (hr : SortedRows shape rows)
    (data : Buffer α) (hd : data.size = rows.length) : (csrOf shape rows data).Rep rows := by
  refine ⟨hr, h2, ?_, ?_, ?_, ?_, hd⟩
  · simp [csrOf, Buffer.WF]
  · simp [csrOf, Buffer.window, Function.comp_def]
  · simp [csrOf, Buffer.WF]
  · simp only [csrOf, Buffer.window, List.drop_zero, List.map_map]
    rw [List.take_of_length_le (by simp)]
    rfl

/-- The row pointers. -/
theorem compress_firsts (shape : List Nat) (h2 : shape.length = 2) (rows : List (List Int))
    (hr : SortedRows shape rows) :
    compressIndices (firsts rows) (shape.getD 0 0)
      = .ok ((List.range (shape.getD 0 0 + 1)).map fun (r : Nat) => ((below (firsts rows) r : Nat) : Int)) := by
  have hf : ∀ x ∈ firsts rows, 0 ≤ x ∧ x < ((shape.getD 0 0 : Nat) : Int) := by
    intro x hx
    obtain ⟨r, hr', rfl⟩ := List.mem_map.1 hx
    obtain ⟨r, c, n, m, rfl, rfl, h1, h3, _⟩ := pair_of_two (hr.inbox r hr') h2
    simpa using ⟨h1, h3⟩
  obtain ⟨c, h1, h2, h3⟩ := compressIndices_ok (firsts rows) (shape.getD 0 0) hr.firsts_sorted
    (fun x hx => (hf x hx).1) (fun x hx => (hf x hx).2)
  rw [h1]
  congr 1
  apply List.ext_getElem (by simpa using h2)
  intro r hr1 hr2
  have := h3 r (by omega)
  rw [List.getD_eq_getElem?_getD, List.getElem?_eq_getElem hr1] at this
  simpa using this

theorem Buffer.copy_same [DecidableEq α] (b : Buffer α) (mem : List α) (h : b.WF mem) :
    b.copy mem none = (⟨b.size, 0, b.unspec⟩, b.window mem) := by
  simp [Buffer.copy, Option.getD_none, b.window_length mem h]

/-- One row of the index array. -/
theorem COO.Rep.row_ok {c : COO α} {rows : List (List Int)} (h : c.Rep rows) (hr : rows ≠ []) (j : Nat)
    (hj : j < c.shape.length) : ∃ s : Strided (Option Int), c.indices.getItem c.imem (.one (.int j)) = .ok (.inr s) ∧
      s.WF c.imem ∧ s.data.unspec = none ∧ s.shape = [rows.length] ∧ ∀ p (hp : p < rows.length), s.val c.imem [(p : Int)] = some (rows[p].getD j 0) := by
  have hpos : PosShape c.indices.shape := by
    rw [h.ishape]
    intro n hn
    have := List.length_pos_of_ne_nil hr
    have := List.length_pos_of_ne_nil h.ne
    simp at hn
    omega
  have hsel : selShape [.int (j : Int)] c.indices.shape = [rows.length] := by rw [h.ishape]; rfl
  rcases Strided.getItem_slice h.iwf hpos (.one (.int j)) (by simp only [items]; rw [h.ishape]; trivial)
    with ⟨h1, _⟩ | ⟨h1, s, h2, h3, h4, h5, h6, _⟩
  · simp only [items] at h1
    rw [hsel] at h1
    simp at h1
  · simp only [items] at h4 h6
    rw [hsel] at h4
    refine ⟨s, h2, h3, by rw [h5, h.iun], h4, fun p hp => ?_⟩
    have hb : InBox [(p : Int)] s.shape := by
      rw [h4]; exact ⟨⟨by omega, by omega⟩, trivial⟩
    have hsrc : selSource [.int (j : Int)] c.indices.shape [(p : Int)] = [(j : Int), (p : Int)] := by
      rw [h.ishape]
      simp only [selSource]
      rw [Int.emod_eq_of_lt (by omega) (by omega)]
    have e := (h6 _ hb).2
    rw [hsrc] at e
    have := h.ival p hp j hj
    unfold Strided.val at this ⊢
    rw [e, h5]
    exact this

theorem row_elem {s : Strided (Option Int)} {mem : List (Option Int)} {n : Nat} (h : s.WF mem) (hs : s.shape = [n])
    (p : Nat) (hp : p < n) : s.getItem mem (.one (.int p)) = .ok (.inl (s.val mem [(p : Int)])) := by
  have hb : InBox [(p : Int)] s.shape := by
    rw [hs]; exact ⟨⟨by omega, by omega⟩, trivial⟩
  have hpos : PosShape s.shape := InBox_pos hb
  have := Strided.getItem_elem h _ hb
  rcases Strided.getItem_slice h hpos (.one (.int p)) (by simp only [items]; rw [hs]; trivial) with ⟨h1, h2⟩ | ⟨h1, _⟩
  · rw [h2]
    simp only [items]
    rw [hs]
    simp only [selSource]
    rw [Int.emod_eq_of_lt (by omega) (by omega)]
  · simp only [items] at h1
    rw [hs] at h1
    simp [selShape] at h1

theorem cooToCsr_ok [DecidableEq α] {c : COO α} {rows : List (List Int)} (h : c.Rep rows) (hr : rows ≠ [])
    (h2 : c.shape.length = 2) (mem : List α) (hm : c.data.WF mem) :
    cooToCsr c mem = .ok (csrOf c.shape rows ⟨rows.length, 0, c.data.unspec⟩, c.data.window mem) := by
  obtain ⟨row0, a1, a2, _, a3, a4⟩ := h.row_ok hr 0 (by omega)
  obtain ⟨row1, b1, b2, bu, b3, b4⟩ := h.row_ok hr 1 (by omega)
  obtain ⟨n, m, hsh⟩ := List.length_eq_two.1 h2
  have hn0 : pyGet c.shape 0 = .ok n := by rw [hsh]; rfl
  have hlen : pyGet row0.shape 0 = .ok rows.length := by rw [a3]; rfl
  have hrows : ((List.range rows.length).mapM fun (i : Nat) => (do
      asInt (← row0.getScalar c.imem (.one (.int i))) : PyM Int)) = .ok (firsts rows) := by
    have e : firsts rows = (List.range rows.length).map fun p => (firsts rows).getD p 0 := by
      symm
      exact range_getD _ _ (firsts_length rows)
    rw [e]
    apply mapM_ok
    intro p hp
    have hp : p < rows.length := by simpa using hp
    simp only [Strided.getScalar, row_elem a2 a3 p hp, bind, pure, Except.pure, Except.bind, a4 p hp, asInt]
    rw [firsts_getD _ _ hp]
  have hcomp := compress_firsts c.shape h2 rows h.rows_ok
  have hs0 : c.shape.getD 0 0 = n := by rw [hsh]; rfl
  rw [hs0] at hcomp
  have hcopy := Strided.copy_ok b2 none
  have hcopyWF := contiguous_WF row1.shape (fun ix => subst row1.data.unspec ((none : Option (Option Int)).getD row1.data.unspec) (row1.val c.imem ix))
    ((none : Option (Option Int)).getD row1.data.unspec)
  simp only [Nat.cast_zero, Nat.cast_one] at a1 b1
  simp only [cooToCsr, Strided.getView, a1, b1, bind, Except.bind, pure, Except.pure, hn0, hlen]
  have hrows' := hrows
  simp only [bind, Except.bind] at hrows'
  rw [hrows']
  simp only [hcomp, intBuffer_ok, hcopy]
  rw [bufferBuild_ok _ _ _ _ (fun ix => row1.val c.imem ix)]
  · simp only [c.data.copy_same mem hm]
    rw [CSR.new_ok _ _ _ _ _ _ n m hsh (by simp) (by simp [b3, product, h.size])]
    simp only [csrOf, hs0]
    congr 2
    rw [b3, h.size]
    simp only [List.length_map, List.length_range, List.map_map]
    congr 1
    · simp [product, bu]
    · apply List.ext_getElem?
      intro k
      by_cases hk : k < rows.length
      · obtain ⟨ix, g1, g2, g3⟩ := indexProduct_getElem? [rows.length] k (by simpa [product] using hk)
        cases ix with
        | nil => exact g2.elim
        | cons i ix => cases ix with
          | cons => exact g2.2.elim
          | nil =>
            have : i = k := by simpa [address, makeStrides, product] using g3
            subst this
            rw [List.getElem?_map, g1]
            simp [subst_self, hk, b4]
      · rw [List.getElem?_eq_none (by simp [indexProduct_length, product]; omega), List.getElem?_eq_none (by simp; omega)]
  · intro ix hix
    have e := Strided.getItem_elem hcopyWF.1 ix hix
    have e2 := hcopyWF.2 ix hix
    simp only [Option.getD_none] at e e2 ⊢
    simp only [Strided.getScalar, e, e2, bind, Except.bind, pure, Except.pure]
    rw [subst_self]

end Gcs
