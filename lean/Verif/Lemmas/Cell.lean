import Verif.Lemmas.GetItem

/-!
# Lemmas: the cells of the list that hold the elements, and assignments
-/

namespace Gcs

open Spec

variable {V : Type}

/-- The cell of the list that holds the element at `ix`, if the element is stored. -/
def Storage.cellAt : Storage V → List Int → Option Nat
  | .buffer b, ix => match ix with
    | [i] => some ((b.offset : Int) + i).toNat
    | _ => none
  | .strided s, ix => some (s.cell ix)
  | .coo c, ix => match c.getDataPosition ix with
    | .ok (some p) => some ((c.data.offset : Int) + p).toNat
    | _ => none
  | .flatcoo f, ix => match f.getDataPosition ix with
    | .ok (some p) => some ((f.data.offset : Int) + p).toNat
    | _ => none
  | .csr c, ix => match c.getDataPosition ix with
    | .ok (some p) => some ((c.data.offset : Int) + p).toNat
    | _ => none
  | .dm m d, ix => d.cellAt (target m.rdims m.rstrides m.roffset ix)

/-- The value of a cell. -/
def cellVal (mem : List V) (u : V) : Option Nat → V
  | some c => mem.getD c u
  | none => u

theorem Sparse.cellAt {s : Storage V} {rows : List (List Int)} {b : Buffer V} (h : Sparse s rows b) (ix : List Int)
    (hi : InBox ix s.shape) : s.cellAt ix = (findPos rows ix).map fun p => ((b.offset : Int) + p).toNat := by
  cases h with
  | coo h => simp only [Storage.cellAt, h.find_ok ix hi]; cases findPos rows ix <;> rfl
  | flatcoo h => simp only [Storage.cellAt, h.find_ok ix hi]; cases findPos rows ix <;> rfl
  | csr h => simp only [Storage.cellAt, h.find_ok ix hi]; cases findPos rows ix <;> rfl

theorem Sparse.cell_stored {s : Storage V} {rows : List (List Int)} {b : Buffer V} (h : Sparse s rows b)
    (q : Nat) (hq : q < rows.length) : s.cellAt rows[q] = some (b.offset + q) := by
  rw [h.cellAt _ (h.rows_ok.inbox _ (List.getElem_mem hq)), findPos_some h.rows_ok.nodup hq]
  simp only [Option.map_some, Option.some.injEq]
  omega

theorem Sparse.cell_none {s : Storage V} {rows : List (List Int)} {b : Buffer V} (h : Sparse s rows b) (ix : List Int)
    (hi : InBox ix s.shape) : s.cellAt ix = none ↔ ix ∉ rows := by
  rw [h.cellAt ix hi]
  simp [findPos, List.idxOf?_eq_none_iff]

theorem Sparse.at_cell [DecidableEq V] {s : Storage V} {rows : List (List Int)} {b : Buffer V} (h : Sparse s rows b)
    (mem : List V) (hm : b.WF mem) (ix : List Int) (hi : InBox ix s.shape) :
    s.at mem ix = cellVal mem s.unspec (s.cellAt ix) := by
  rw [h.at mem hm ix hi, h.unspec]
  by_cases hr : ix ∈ rows
  · obtain ⟨q, hq, rfl⟩ := List.getElem_of_mem hr
    rw [h.cell_stored q hq, lookup_at h.rows_ok.nodup _ _ q hq, b.window_getD mem hm q (by rw [h.size]; exact hq)]
    rfl
  · rw [(h.cell_none ix hi).2 hr, lookup_none _ _ hr]
    rfl

theorem Storage.WF.at_cell [DecidableEq V] {s : Storage V} {mem : List V} (h : s.WF mem) (ix : List Int)
    (hi : InBox ix s.shape) : s.at mem ix = cellVal mem s.unspec (s.cellAt ix) := by
  induction s generalizing ix with
  | buffer b =>
    match ix, hi with
    | [i], hi =>
      have := buffer_getVal h i hi.1.1 hi.1.2
      rw [at_of_getVal this, b.window_getD mem h _ (by have := hi.1; omega)]
      simp only [Storage.cellAt, cellVal, Storage.unspec]
      congr 1
      have := hi.1
      omega
  | strided s => rw [at_strided h ix hi]; rfl
  | coo c =>
    obtain ⟨⟨rows, hr⟩, hm⟩ := h
    exact (Sparse.coo hr).at_cell mem hm ix hi
  | flatcoo c =>
    obtain ⟨⟨rows, hr⟩, hm⟩ := h
    exact (Sparse.flatcoo hr).at_cell mem hm ix hi
  | csr c =>
    obtain ⟨⟨rows, hr⟩, hm⟩ := h
    exact (Sparse.csr hr).at_cell mem hm ix hi
  | dm m d ih =>
    obtain ⟨hm, hd⟩ := h
    rw [at_dm hm hd ix hi, ih hd _ (hm.into ix hi)]
    rfl

theorem Sparse.cell_lt {s : Storage V} {rows : List (List Int)} {b : Buffer V} (h : Sparse s rows b)
    (mem : List V) (hm : b.WF mem) (ix : List Int) (hi : InBox ix s.shape) (c : Nat) (hc : s.cellAt ix = some c) :
    c < mem.length := by
  by_cases hr : ix ∈ rows
  · obtain ⟨q, hq, rfl⟩ := List.getElem_of_mem hr
    rw [h.cell_stored q hq, Option.some.injEq] at hc
    have := h.size
    unfold Buffer.WF at hm
    omega
  · rw [(h.cell_none ix hi).2 hr] at hc
    simp at hc

theorem Storage.WF.cell_lt {s : Storage V} {mem : List V} (h : s.WF mem) (ix : List Int)
    (hi : InBox ix s.shape) (c : Nat) (hc : s.cellAt ix = some c) : c < mem.length := by
  induction s generalizing ix with
  | buffer b =>
    match ix, hi with
    | [i], hi =>
      have := hi.1
      have h : b.WF mem := h
      unfold Buffer.WF at h
      simp only [Storage.cellAt, Option.some.injEq] at hc
      omega
  | strided s =>
    have a := h.addr ix hi
    have b := h.buf
    unfold Buffer.WF at b
    simp only [Storage.cellAt, Strided.cell, Option.some.injEq] at hc
    omega
  | coo c =>
    obtain ⟨⟨rows, hr⟩, hm⟩ := h
    exact (Sparse.coo hr).cell_lt mem hm ix hi _ hc
  | flatcoo c =>
    obtain ⟨⟨rows, hr⟩, hm⟩ := h
    exact (Sparse.flatcoo hr).cell_lt mem hm ix hi _ hc
  | csr c =>
    obtain ⟨⟨rows, hr⟩, hm⟩ := h
    exact (Sparse.csr hr).cell_lt mem hm ix hi _ hc
  | dm m d ih =>
    obtain ⟨hm, hd⟩ := h
    exact ih hd _ (hm.into ix hi) hc

/-- Reading after a list of writes to distinct cells: a written element. -/
theorem Storage.WF.at_written [DecidableEq V] {s : Storage V} {mem : List V} (h : s.WF mem) (l : List (Nat × V))
    (hn : (l.map (·.1)).Nodup) (ix : List Int) (hi : InBox ix s.shape) (c : Nat) (v : V) (hc : s.cellAt ix = some c)
    (hl : (c, v) ∈ l) : s.at (setCells mem l) ix = v := by
  have h' : s.WF (setCells mem l) := h.of_length (setCells_length _ _)
  rw [h'.at_cell ix hi, hc]
  have := setCells_mem mem l hn c v hl (h.cell_lt ix hi c hc)
  simp only [cellVal, List.getD_eq_getElem?_getD, this, Option.getD_some]

/-- Reading after a list of writes: an element that is not written. -/
theorem Storage.WF.at_kept [DecidableEq V] {s : Storage V} {mem : List V} (h : s.WF mem) (l : List (Nat × V))
    (ix : List Int) (hi : InBox ix s.shape) (hc : ∀ c, s.cellAt ix = some c → c ∉ l.map (·.1)) :
    s.at (setCells mem l) ix = s.at mem ix := by
  have h' : s.WF (setCells mem l) := h.of_length (setCells_length _ _)
  rw [h'.at_cell ix hi, h.at_cell ix hi]
  cases hx : s.cellAt ix with
  | none => rfl
  | some c =>
    simp only [cellVal, List.getD_eq_getElem?_getD, setCells_not_mem mem l c (hc c hx)]

/-- Different stored elements of a sparse storage are in different cells. -/
theorem Sparse.cell_inj {s : Storage V} {rows : List (List Int)} {b : Buffer V} (h : Sparse s rows b)
    (ix jx : List Int) (hi : ix ∈ rows) (hj : jx ∈ rows) (he : s.cellAt ix = s.cellAt jx) : ix = jx := by
  obtain ⟨p, hp, rfl⟩ := List.getElem_of_mem hi
  obtain ⟨q, hq, rfl⟩ := List.getElem_of_mem hj
  rw [h.cell_stored p hp, h.cell_stored q hq] at he
  simp only [Option.some.injEq, Nat.add_left_cancel_iff] at he
  subst he
  rfl

/-- The writes of `s[index] = value` for a sparse storage and an index that keeps an axis. -/
theorem Sparse.setItem_ok {s : Storage V} {rows : List (List Int)} {b : Buffer V} (h : Sparse s rows b)
    (hp : PosShape s.shape) (mem : List V) (hm : b.WF mem) (index : Index) (hv : ValidItems (items index) s.shape)
    (hne : selShape (items index) s.shape ≠ []) (valueAt : List V → List Int → PyM V) (w : List Int → V)
    (hw : ∀ m, m.length = mem.length → ∀ j, InBox j (selShape (items index) s.shape) →
      selSource (items index) s.shape j ∈ rows → valueAt m j = .ok (w j)) :
    ∃ L : List (List Int), (∀ j, j ∈ L ↔ InBox j (selShape (items index) s.shape) ∧
        selSource (items index) s.shape j ∈ rows) ∧ L.Nodup ∧
      s.setItem mem index valueAt = ⟨setCells mem (L.map fun j =>
        ((s.cellAt (selSource (items index) s.shape j)).getD 0, w j)), none⟩ := by
  obtain ⟨nix, st, off, L, h1, h2, h3, h4, h5, h6, _⟩ := sliceEntries_ok (withPos rows) s.shape hp
    (by
      intro e he
      obtain ⟨q, hq, e1, _⟩ := (mem_withPos e.1 e.2).1 he
      rw [← e1]
      exact h.rows_ok.inbox _ (List.getElem_mem hq))
    (by rw [withPos_fst]; exact h.rows_ok.nodup) index hv hne
  refine ⟨L.map (·.1), ?_, h6, ?_⟩
  · intro j
    rw [List.mem_map]
    constructor
    · rintro ⟨⟨j, p⟩, hjp, rfl⟩
      obtain ⟨g1, g2⟩ := (h5 j p).1 hjp
      obtain ⟨q, hq, e1, _⟩ := (mem_withPos _ _).1 g2
      exact ⟨g1, e1 ▸ List.getElem_mem hq⟩
    · rintro ⟨g1, g2⟩
      obtain ⟨q, hq, e1⟩ := List.getElem_of_mem g2
      exact ⟨(j, (q : Int)), (h5 j q).2 ⟨g1, (mem_withPos _ _).2 ⟨q, hq, e1, rfl⟩⟩, rfl⟩
  · have hpos : ∀ e ∈ L, InBox e.1 (selShape (items index) s.shape) ∧ selSource (items index) s.shape e.1 ∈ rows ∧
        ∃ q : Nat, q < rows.length ∧ e.2 = q ∧
          s.cellAt (selSource (items index) s.shape e.1) = some (b.offset + q) := by
      intro e he
      obtain ⟨g1, g2⟩ := (h5 e.1 e.2).1 he
      obtain ⟨q, hq, e1, e2⟩ := (mem_withPos _ _).1 g2
      refine ⟨g1, e1 ▸ List.getElem_mem hq, q, hq, e2, ?_⟩
      rw [← e1]
      exact h.cell_stored q hq
    have hwr : writeAll b.write1 valueAt L mem = ⟨setCells mem ((L.map (·.1)).map fun j =>
        ((s.cellAt (selSource (items index) s.shape j)).getD 0, w j)), none⟩ := by
      rw [writeAll_ok _ _ (fun p => ((b.offset : Int) + p).toNat) w mem.length L mem rfl]
      · congr 2
        rw [List.map_map]
        apply List.map_congr_left
        intro e he
        obtain ⟨_, _, q, _, e2, e3⟩ := hpos e he
        simp only [Function.comp_apply, e3, e2, Option.getD_some, Prod.mk.injEq, and_true]
        omega
      · intro m hml e he v
        obtain ⟨_, _, q, hq, e2, _⟩ := hpos e he
        have := h.size
        unfold Buffer.WF at hm
        exact Buffer.write1_ok b m e.2 v (by omega) (by omega)
      · intro m hml e he
        obtain ⟨g1, g2, _⟩ := hpos e he
        exact hw m hml e.1 g1 g2
    rw [← hwr]
    cases h with
    | coo h =>
      simp only [Storage.shape] at h1 h3 h4
      simp only [Storage.setItem, Storage.setPlan, h1, h3, h.entries_ok, bind, Except.bind, h4]
    | flatcoo h =>
      simp only [Storage.shape] at h1 h3 h4 hp
      simp only [Storage.setItem, Storage.setPlan, h1, h3, h.entries_ok hp, bind, Except.bind, h4]
    | csr h =>
      simp only [Storage.shape] at h1 h3 h4
      simp only [Storage.setItem, Storage.setPlan, h1, h3, h.entries_ok, bind, Except.bind, h4]

end Gcs
