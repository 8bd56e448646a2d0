import Verif.Lemmas.Sparse

/-! The assignment loop, assignment to a `Strided`, and `Strided.copy`. -/

namespace Gcs

open Spec

variable {α : Type}

/-! ## Writing a list of cells -/

/-- The list after writing the cells in order. -/
def setCells (mem : List α) : List (Nat × α) → List α
  | [] => mem
  | e :: l => setCells (mem.set e.1 e.2) l

theorem setCells_length (mem : List α) (l : List (Nat × α)) : (setCells mem l).length = mem.length := by
  induction l generalizing mem with
  | nil => rfl
  | cons e l ih => simp [setCells, ih]

theorem setCells_append (mem : List α) (l1 l2 : List (Nat × α)) :
    setCells mem (l1 ++ l2) = setCells (setCells mem l1) l2 := by
  induction l1 generalizing mem with
  | nil => rfl
  | cons e l ih => simp [setCells, ih]

theorem setCells_not_mem (mem : List α) (l : List (Nat × α)) (k : Nat) (h : k ∉ l.map (·.1)) :
    (setCells mem l)[k]? = mem[k]? := by
  induction l generalizing mem with
  | nil => rfl
  | cons e l ih =>
    simp only [List.map_cons, List.mem_cons, not_or] at h
    simp only [setCells]
    rw [ih _ h.2, List.getElem?_set_ne (fun he => h.1 he.symm)]

theorem setCells_mem (mem : List α) (l : List (Nat × α)) (hn : (l.map (·.1)).Nodup) (k : Nat) (v : α)
    (h : (k, v) ∈ l) (hk : k < mem.length) : (setCells mem l)[k]? = some v := by
  induction l generalizing mem with
  | nil => simp at h
  | cons e l ih =>
    simp only [List.map_cons, List.nodup_cons] at hn
    rcases List.mem_cons.1 h with rfl | h
    · simp only [setCells]
      rw [setCells_not_mem _ _ _ hn.1, List.getElem?_set_self hk]
    · exact ih _ hn.2 h (by simpa using hk)

theorem pySet_int (l : List α) (i : Int) (v : α) (h0 : 0 ≤ i) (h1 : i < l.length) :
    pySet l i v = .ok (l.set i.toNat v) := by
  simp [pySet, h0, h1]

theorem Buffer.write1_ok (b : Buffer α) (mem : List α) (p : Int) (v : α) (h0 : 0 ≤ (b.offset : Int) + p)
    (h1 : (b.offset : Int) + p < mem.length) :
    b.write1 mem p v = ⟨mem.set ((b.offset : Int) + p).toNat v, none⟩ := by
  simp only [Buffer.write1, Buffer.setInt, pySet_int mem _ v h0 h1, Wr.ofPyM]

theorem writeAll_ok {P : Type} (write1 : List α → P → α → Wr α) (valueAt : List α → List Int → PyM α)
    (cell : P → Nat) (w : List Int → α) (n : Nat) (entries : List (List Int × P)) (mem : List α) (hm : mem.length = n)
    (h1 : ∀ m, m.length = n → ∀ e ∈ entries, ∀ v, write1 m e.2 v = ⟨m.set (cell e.2) v, none⟩)
    (h2 : ∀ m, m.length = n → ∀ e ∈ entries, valueAt m e.1 = .ok (w e.1)) :
    writeAll write1 valueAt entries mem = ⟨setCells mem (entries.map fun e => (cell e.2, w e.1)), none⟩ := by
  induction entries generalizing mem with
  | nil => rfl
  | cons e entries ih =>
    simp only [writeAll, h2 mem hm e List.mem_cons_self, h1 mem hm e List.mem_cons_self]
    rw [ih _ (by simpa using hm) (fun m hm e he => h1 m hm e (List.mem_cons_of_mem _ he))
      (fun m hm e he => h2 m hm e (List.mem_cons_of_mem _ he))]
    rfl

/-- A value that is missing stops the loop; what was written before stays. -/
theorem writeAll_stop {P : Type} (write1 : List α → P → α → Wr α) (valueAt : List α → List Int → PyM α)
    (cell : P → Nat) (w : List Int → α) (n : Nat) (pre rest : List (List Int × P)) (e0 : List Int × P) (err : PyErr)
    (mem : List α) (hm : mem.length = n)
    (h1 : ∀ m, m.length = n → ∀ e ∈ pre, ∀ v, write1 m e.2 v = ⟨m.set (cell e.2) v, none⟩)
    (h2 : ∀ m, m.length = n → ∀ e ∈ pre, valueAt m e.1 = .ok (w e.1))
    (h3 : ∀ m, m.length = n → valueAt m e0.1 = .error err) :
    writeAll write1 valueAt (pre ++ e0 :: rest) mem
      = ⟨setCells mem (pre.map fun e => (cell e.2, w e.1)), some err⟩ := by
  induction pre generalizing mem with
  | nil => simp only [List.nil_append, writeAll, h3 mem hm]; rfl
  | cons e entries ih =>
    simp only [List.cons_append, writeAll, h2 mem hm e List.mem_cons_self, h1 mem hm e List.mem_cons_self]
    rw [ih _ (by simpa using hm) (fun m hm e he => h1 m hm e (List.mem_cons_of_mem _ he))
      (fun m hm e he => h2 m hm e (List.mem_cons_of_mem _ he))]
    rfl

/-! ## The positions that an assignment to a `Strided` writes -/

theorem Strided.sliceEntries_ok (shape : List Nat) (strides : List Int) (off : Int)
    (hl : strides.length = shape.length) :
    Strided.sliceEntries shape strides off
      = .ok ((indexProduct shape).map fun j => (j, off + address j strides)) := by
  apply mapM_ok
  intro ix hix
  have hi := (mem_indexProduct _ _).1 hix
  simp only [getPosition_ok ix shape strides hi.length_eq hl, bind, Except.bind, pure, Except.pure]

/-- What `s[index] = value` writes, as a list of cells, for a value that is defined on the selection. -/
theorem Strided.setItem_ok {s : Strided α} {mem : List α} (h : s.WF mem) (hp : PosShape s.shape) (index : Index)
    (hv : ValidItems (items index) s.shape) (valueAt : List α → List Int → PyM α) (w : List Int → α)
    (hw : ∀ m, m.length = mem.length → ∀ j, InBox j (selShape (items index) s.shape) → valueAt m j = .ok (w j)) :
    s.setItem mem index valueAt = ⟨setCells mem ((indexProduct (selShape (items index) s.shape)).map fun j =>
      (s.cell (selSource (items index) s.shape j), w j)), none⟩ := by
  obtain ⟨nix, st, off, h1, h2, h3, h4, h5⟩ := index_ok index s.shape s.strides hp hv h.len
  simp only [Strided.setItem, h1, h3, bind, Except.bind, Strided.sliceEntries_ok _ st off h4]
  rw [writeAll_ok _ _ (fun p => ((s.data.offset : Int) + p).toNat) w mem.length _ _ rfl]
  · congr 2
    rw [List.map_map]
    apply List.map_congr_left
    intro j hj
    have hj := (mem_indexProduct _ _).1 hj
    have := (h5 j hj).2
    simp only [Function.comp_apply, Strided.cell]
    congr 2
    omega
  · intro m hm e he v
    obtain ⟨j, hj, rfl⟩ := List.mem_map.1 he
    have hj := (mem_indexProduct _ _).1 hj
    obtain ⟨a1, a2⟩ := h5 j hj
    have b1 := h.addr _ a1
    have b2 := h.buf
    unfold Buffer.WF at b2
    apply Buffer.write1_ok <;> simp only <;> omega
  · intro m hm e he
    obtain ⟨j, hj, rfl⟩ := List.mem_map.1 he
    exact hw m hm j ((mem_indexProduct _ _).1 hj)

/-- The same when the value is missing at `j0`, the first of the indices where it is. -/
theorem Strided.setItem_stop {s : Strided α} {mem : List α} (h : s.WF mem) (hp : PosShape s.shape) (index : Index)
    (hv : ValidItems (items index) s.shape) (valueAt : List α → List Int → PyM α) (w : List Int → α)
    (pre rest : List (List Int)) (j0 : List Int) (err : PyErr)
    (hsplit : indexProduct (selShape (items index) s.shape) = pre ++ j0 :: rest)
    (hw : ∀ m, m.length = mem.length → ∀ j ∈ pre, valueAt m j = .ok (w j))
    (he : ∀ m, m.length = mem.length → valueAt m j0 = .error err) :
    s.setItem mem index valueAt = ⟨setCells mem (pre.map fun j =>
      (s.cell (selSource (items index) s.shape j), w j)), some err⟩ := by
  obtain ⟨nix, st, off, h1, h2, h3, h4, h5⟩ := index_ok index s.shape s.strides hp hv h.len
  simp only [Strided.setItem, h1, h3, bind, Except.bind, Strided.sliceEntries_ok _ st off h4]
  have hpre : ∀ j ∈ pre, InBox j (selShape (items index) s.shape) := by
    intro j hj
    rw [← mem_indexProduct, hsplit]
    exact List.mem_append_left _ hj
  rw [hsplit, List.map_append, List.map_cons]
  rw [writeAll_stop _ _ (fun p => ((s.data.offset : Int) + p).toNat) w mem.length _ _ _ err _ rfl]
  · congr 2
    rw [List.map_map]
    apply List.map_congr_left
    intro j hj
    have hj := hpre j hj
    have := (h5 j hj).2
    simp only [Function.comp_apply, Strided.cell]
    congr 2
    omega
  · intro m hm e he v
    obtain ⟨j, hj, rfl⟩ := List.mem_map.1 he
    have hj := hpre j hj
    obtain ⟨a1, a2⟩ := h5 j hj
    have b1 := h.addr _ a1
    have b2 := h.buf
    unfold Buffer.WF at b2
    apply Buffer.write1_ok <;> simp only <;> omega
  · intro m hm e he
    obtain ⟨j, hj, rfl⟩ := List.mem_map.1 he
    exact hw m hm j hj
  · intro m hm
    exact he m hm

/-! ## Distinct indices of a selection select distinct elements -/

theorem slicePositions_nodup (s : PySlice) (n : Nat) : (slicePositions s n).Nodup := by
  unfold slicePositions
  simp only
  split
  · exact List.Nodup.filter _ List.nodup_range
  · exact List.Nodup.filter _ (List.nodup_reverse.2 List.nodup_range)

theorem selSource_inj (is : List Ix) (shape : List Nat) (j k : List Int) (hj : InBox j (selShape is shape))
    (hk : InBox k (selShape is shape)) (h : selSource is shape j = selSource is shape k) : j = k := by
  induction is generalizing shape j k with
  | nil => simpa [selSource] using h
  | cons i is ih =>
    cases shape with
    | nil => simpa [selSource_nil_shape] using h
    | cons n shape =>
      cases i with
      | int i =>
        simp only [selSource, selShape, List.cons.injEq, true_and] at h hj hk
        exact ih shape j k hj hk h
      | slice s =>
        simp only [selShape] at hj hk
        cases j with
        | nil => exact hj.elim
        | cons j0 j => cases k with
          | nil => exact hk.elim
          | cons k0 k =>
            simp only [selSource, List.cons.injEq] at h
            obtain ⟨⟨a1, a2⟩, a3⟩ := hj
            obtain ⟨⟨b1, b2⟩, b3⟩ := hk
            rw [ih shape j k a3 b3 h.2]
            congr 1
            have hn := slicePositions_nodup s n
            have e : (slicePositions s n).getD j0.toNat 0 = (slicePositions s n).getD k0.toNat 0 := by
              have := h.1
              omega
            have hj' : j0.toNat < (slicePositions s n).length := by omega
            have hk' : k0.toNat < (slicePositions s n).length := by omega
            rw [List.getD_eq_getElem?_getD, List.getD_eq_getElem?_getD, List.getElem?_eq_getElem hj',
              List.getElem?_eq_getElem hk', Option.getD_some, Option.getD_some, hn.getElem_inj_iff] at e
            omega
      | none =>
        simp only [selShape] at hj hk
        cases j with
        | nil => exact hj.elim
        | cons j0 j => cases k with
          | nil => exact hk.elim
          | cons k0 k =>
            simp only [selSource, List.cons.injEq] at h
            rw [ih shape j k hj.2 hk.2 h.2, h.1]
      | other =>
        simp only [selShape] at hj hk
        cases j with
        | nil => exact hj.elim
        | cons j0 j => cases k with
          | nil => exact hk.elim
          | cons k0 k =>
            simp only [selSource, List.cons.injEq] at h
            rw [ih shape j k hj.2 hk.2 h.2, h.1]

/-! ## `Strided.copy` -/

theorem indexStrided_ints (ix : List Int) (shape : List Nat) (strides : List Int) (h : ix.length = shape.length)
    (hs : strides.length = shape.length) :
    indexStrided (ix.map NIx.int) shape strides = .ok ([], [], address ix strides) := by
  induction ix generalizing shape strides with
  | nil =>
    cases shape with
    | nil => cases strides with
      | nil => rfl
      | cons => simp at hs
    | cons => simp at h
  | cons i ix ih =>
    cases shape with
    | nil => simp at h
    | cons n shape => cases strides with
      | nil => simp at hs
      | cons s strides =>
        simp at h hs
        simp only [List.map_cons, indexStrided, ih shape strides h hs, bind, Except.bind, pure, Except.pure, address]
        congr 3
        rw [Int.mul_comm]

theorem Strided.setItem_elem {s : Strided α} {mem : List α} (h : s.WF mem) (ix : List Int) (hi : InBox ix s.shape)
    (v : α) : s.setItem mem (.tuple (ix.map .int)) (fun _ _ => .ok v) = ⟨mem.set (s.cell ix) v, none⟩ := by
  have a := h.addr ix hi
  have b := h.buf
  unfold Buffer.WF at b
  simp only [Strided.setItem, normalize_ints ix s.shape hi, bind, Except.bind,
    indexStrided_ints ix s.shape s.strides hi.length_eq h.len, Strided.sliceEntries_ok [] [] _ rfl, indexProduct,
    List.map_cons, List.map_nil, writeAll]
  rw [Buffer.write1_ok _ _ _ _ (by simp only [address]; omega) (by simp only [address]; omega)]
  simp only [address, Strided.cell]
  congr 3
  omega

theorem Strided.copyLoop_ok [DecidableEq α] (r : Strided α) (old u : α) (g : List Int → α) (l : List (List Int))
    (mem : List α) (h : ∀ m, m.length = mem.length → r.WF m) (hl : ∀ ix ∈ l, InBox ix r.shape) :
    Strided.copyLoop r old u (l.map fun ix => (ix, g ix)) mem
      = .ok (setCells mem (l.map fun ix => (r.cell ix, subst old u (g ix)))) := by
  induction l generalizing mem with
  | nil => rfl
  | cons ix l ih =>
    simp only [List.map_cons, Strided.copyLoop]
    rw [Strided.setItem_elem (h mem rfl) ix (hl ix List.mem_cons_self)]
    simp only
    rw [ih _ (fun m hm => h m (by simpa using hm)) (fun ix hix => hl ix (List.mem_cons_of_mem _ hix))]
    rfl

theorem contiguous_WF' (shape : List Nat) (u : α) (m : List α) (hm : m.length = product shape) :
    Strided.WF ⟨shape, makeStrides shape, ⟨product shape, 0, u⟩⟩ m := by
  refine ⟨makeStrides_length _, ?_, ?_⟩
  · unfold Buffer.WF; simp [hm]
  · intro ix hi
    have : 0 ≤ address ix (makeStrides shape) ∧ address ix (makeStrides shape) < product shape := address_bound hi
    simp only
    omega

/-- Writing every element of a contiguous array. -/
theorem setCells_box (shape : List Nat) (u : α) (g : List Int → α) (mem : List α) (hm : mem.length = product shape) :
    setCells mem ((indexProduct shape).map fun ix =>
      (Strided.cell ⟨shape, makeStrides shape, ⟨product shape, 0, u⟩⟩ ix, g ix)) = (indexProduct shape).map g := by
  have hcell : ∀ ix, Strided.cell ⟨shape, makeStrides shape, ⟨product shape, 0, u⟩⟩ ix
      = (address ix (makeStrides shape)).toNat := by
    intro ix
    simp only [Strided.cell]
    congr 1
    omega
  apply List.ext_getElem?
  intro k
  by_cases hk : k < product shape
  · obtain ⟨ix, h1, h2, h3⟩ := indexProduct_getElem? shape k hk
    rw [List.getElem?_map, h1, Option.map_some]
    apply setCells_mem
    · rw [List.map_map]
      apply List.Nodup.map_on _ (indexProduct_nodup shape)
      intro x hx y hy hxy
      simp only [Function.comp_apply, hcell] at hxy
      have hx := (mem_indexProduct _ _).1 hx
      have hy := (mem_indexProduct _ _).1 hy
      apply address_inj hx hy
      have := (address_bound hx).1
      have := (address_bound hy).1
      omega
    · apply List.mem_map.2
      refine ⟨ix, (mem_indexProduct _ _).2 h2, ?_⟩
      rw [hcell, h3]
      rfl
    · omega
  · rw [List.getElem?_eq_none (by rw [setCells_length]; omega),
      List.getElem?_eq_none (by rw [List.length_map, indexProduct_length]; omega)]

theorem Strided.copy_ok [DecidableEq α] {s : Strided α} {mem : List α} (h : s.WF mem) (u : Option α) :
    s.copy mem u = .ok (⟨s.shape, makeStrides s.shape, ⟨product s.shape, 0, u.getD s.data.unspec⟩⟩,
      (indexProduct s.shape).map fun ix => subst s.data.unspec (u.getD s.data.unspec) (s.val mem ix)) := by
  simp only [Strided.copy, Buffer.new_ok (product s.shape) 0 (List.replicate (product s.shape) (u.getD s.data.unspec)) _
      (by simp), bind, Except.bind, Strided.new, pyAssert, makeStrides_length, decide_true, if_true, pure, Except.pure,
    Strided.elements_ok h]
  rw [Strided.copyLoop_ok]
  · simp only
    rw [setCells_box]
    simp
  · intro m hm
    exact contiguous_WF' _ _ _ (by simpa using hm)
  · intro ix hix
    exact (mem_indexProduct _ _).1 hix

end Gcs
