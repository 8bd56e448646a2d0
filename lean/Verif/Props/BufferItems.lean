import Verif.Props.Observing

/-!
# C87: all indices of a `Buffer`

What reading and assigning do for every index object, and which exception they raise: gcs/storage.py:547-586.
-/

namespace Gcs

namespace Spec

/-- The cell of a list of length `n` that Python means by the int `p`, if there is one. -/
def cell (n : Nat) (p : Int) : Option Nat :=
  if 0 ≤ p ∧ p < n then some p.toNat
  else if -(n : Int) ≤ p ∧ p < 0 then some (n + p).toNat
  else none

end Spec

open Spec

variable {V : Type} [DecidableEq V]

omit [DecidableEq V] in
theorem pyGet_cell (l : List V) (p : Int) :
    (∀ c, cell l.length p = some c → ∃ v, l[c]? = some v ∧ pyGet l p = .ok v) ∧
    (cell l.length p = none → pyGet l p = .error .index) := by
  unfold cell pyGet
  by_cases h1 : 0 ≤ p
  · by_cases h2 : p < l.length
    · have h3 : p.toNat < l.length := by omega
      simp [h1, h2, List.getElem?_eq_getElem h3]
    · have h3 : ¬ p.toNat < l.length := by omega
      have h4 : l[p.toNat]? = none := by simp; omega
      simp [h1, h2, h4]
  · by_cases h2 : -(l.length : Int) ≤ p
    · have h3 : ((l.length : Int) + p).toNat < l.length := by omega
      have h4 : p < 0 := by omega
      simp [h1, h2, h4, Int.add_comm p, List.getElem?_eq_getElem h3]
    · simp [h1, h2]

omit [DecidableEq V] in
theorem pySet_cell (l : List V) (p : Int) (v : V) :
    (∀ c, cell l.length p = some c → pySet l p v = .ok (l.set c v)) ∧
    (cell l.length p = none → pySet l p v = .error .index) := by
  unfold cell pySet
  by_cases h1 : 0 ≤ p
  · by_cases h2 : p < l.length
    · simp [h1, h2]
    · simp [h1, h2]
  · by_cases h2 : -(l.length : Int) ≤ p
    · have h4 : p < 0 := by omega
      simp [h1, h2, h4, Int.add_comm p]
    · simp [h1, h2]

/-- C87.  `b[index]`: a tuple of one item is taken as the item and any other tuple is an `AssertionError`; `None`
gives `b` itself; an int means a cell of the list, counted from the offset, wherever the window of `b` ends (before the
list begins it goes on from its end), and is an `IndexError` if there is no such cell; a slice gives a buffer or is an
`IndexError`; anything else is a `TypeError`. -/
theorem C87_read (b : Buffer V) (mem : List V) :
    (∀ is, is.length ≠ 1 → (Storage.buffer b).getItem mem (.tuple is) = .error .assertion) ∧
    (∀ x, (Storage.buffer b).getItem mem (.tuple [x]) = (Storage.buffer b).getItem mem (.one x)) ∧
    (Storage.buffer b).getItem mem (.one .none) = .ok (.view (.buffer b)) ∧
    (∀ i c, cell mem.length (b.offset + i) = some c →
      ∃ v, mem[c]? = some v ∧ (Storage.buffer b).getItem mem (.one (.int i)) = .ok (.val v)) ∧
    (∀ i, cell mem.length (b.offset + i) = none →
      (Storage.buffer b).getItem mem (.one (.int i)) = .error .index) ∧
    (∀ s, (∃ r, (Storage.buffer b).getItem mem (.one (.slice s)) = .ok (.view (.buffer r))) ∨
      (Storage.buffer b).getItem mem (.one (.slice s)) = .error .index) ∧
    (Storage.buffer b).getItem mem (.one .other) = .error .type := by
  refine ⟨?_, fun x => rfl, rfl, ?_, ?_, ?_, rfl⟩
  · intro is hl
    match is, hl with
    | [], _ => rfl
    | [x], h => exact absurd rfl h
    | _ :: _ :: _, _ => rfl
  · intro i c hc
    obtain ⟨v, h1, h2⟩ := (pyGet_cell mem (b.offset + i)).1 c hc
    exact ⟨v, h1, by simp [Storage.getItem, Storage.bufferGetItem, Buffer.getInt, h2, bind, Except.bind, pure, Except.pure]⟩
  · intro i hc
    have h2 := (pyGet_cell mem (b.offset + i)).2 hc
    simp [Storage.getItem, Storage.bufferGetItem, Buffer.getInt, h2, bind, Except.bind, pure, Except.pure]
  · intro s
    by_cases hs : s.step = some 0
    · obtain ⟨start, stop, step⟩ := s
      simp only at hs
      subst hs
      by_cases h1 : 0 ≤ (b.offset : Int) + start.getD 0 ∧ (b.offset : Int) + start.getD 0 < mem.length ∧
          0 < (b.offset : Int) + stop.getD b.size ∧ (b.offset : Int) + stop.getD b.size ≤ mem.length
      · exact .inl ⟨_, C47_zero_step b mem start stop h1.1 h1.2.1 h1.2.2.1 h1.2.2.2⟩
      · right
        simp only [Storage.getItem, Storage.bufferGetItem,
          Buffer.getSlice_eq b mem ⟨start, stop, some 0⟩ _ _ rfl rfl, bind, Except.bind, pure, Except.pure]
        by_cases h2 : (b.offset : Int) + start.getD 0 < 0 ∨ (b.offset : Int) + start.getD 0 ≥ mem.length
        · rw [if_pos h2]
        · rw [if_neg h2, if_pos (by omega)]
    · obtain ⟨g1, g2⟩ := C47_buffer_slice b mem s hs _ _ rfl rfl
      by_cases h1 : (b.offset : Int) + s.start.getD 0 < 0 ∨ mem.length ≤ (b.offset : Int) + s.start.getD 0 ∨
          (b.offset : Int) + s.stop.getD b.size ≤ 0 ∨ mem.length < (b.offset : Int) + s.stop.getD b.size
      · exact .inr (g1 h1)
      · obtain ⟨g3, g4⟩ := g2 (by omega) (by omega) (by omega) (by omega)
        by_cases h2 : s.step.getD 1 = 1 ∨ slicePositions ⟨some (b.offset + s.start.getD 0),
            some (b.offset + s.stop.getD b.size), s.step⟩ mem.length = [] ∨ mem.length = 1
        · obtain ⟨r, hr, _⟩ := g3 h2
          exact .inl ⟨r, hr⟩
        · simp only [not_or] at h2
          exact .inr (g4 h2.1 h2.2.1 (by omega))

/-- C87.  `b[index] = value` for an int, or a tuple of one int: the cell that is read there is replaced and no other;
without such a cell it is an `IndexError`.  Any other index is an `AssertionError`.  A statement that raises writes
nothing. -/
theorem C87_write (b : Buffer V) (mem : List V) (v : V) :
    (∀ i c, cell mem.length (b.offset + i) = some c →
      (Storage.buffer b).assign mem (.one (.int i)) (.leaf v) = ⟨mem.set c v, none⟩) ∧
    (∀ i, cell mem.length (b.offset + i) = none →
      (Storage.buffer b).assign mem (.one (.int i)) (.leaf v) = ⟨mem, some .index⟩) ∧
    (∀ x, (Storage.buffer b).assign mem (.tuple [x]) (.leaf v) = (Storage.buffer b).assign mem (.one x) (.leaf v)) ∧
    ∀ index, (∀ i, index ≠ .one (.int i) ∧ index ≠ .tuple [.int i]) →
      (Storage.buffer b).assign mem index (.leaf v) = ⟨mem, some .assertion⟩ := by
  refine ⟨?_, ?_, ?_, ?_⟩
  · intro i c hc
    have h := (pySet_cell mem (b.offset + i) v).1 c hc
    simp only [Storage.assign, Storage.setItem, Nested.getValue, Buffer.write1, Buffer.setInt, pure, Except.pure, h, Wr.ofPyM]
  · intro i hc
    have h := (pySet_cell mem (b.offset + i) v).2 hc
    simp only [Storage.assign, Storage.setItem, Nested.getValue, Buffer.write1, Buffer.setInt, pure, Except.pure, h, Wr.ofPyM]
  · intro x
    cases x <;> rfl
  · intro index hi
    match index, hi with
    | .one (.int i), hi => exact absurd rfl (hi i).1
    | .one .none, _ => rfl
    | .one (.slice _), _ => rfl
    | .one .other, _ => rfl
    | .tuple [], _ => rfl
    | .tuple [.int i], hi => exact absurd rfl (hi i).2
    | .tuple [.none], _ => rfl
    | .tuple [.slice _], _ => rfl
    | .tuple [.other], _ => rfl
    | .tuple (_ :: _ :: _), _ => simp [Storage.assign, Storage.setItem]

/-- Cases of C87: a buffer with the cells number 2, 3, 4 of a list of six.  `b[3]` is the cell after the window,
`b[-3]` is the last cell of the list, `b[4]` and `b[-9]` raise, and assignments likewise. -/
example : let b : Buffer Int := ⟨3, 2, 0⟩
    let mem : List Int := [10, 11, 12, 13, 14, 15]
    cell 6 (2 + 3) = some 5 ∧ cell 6 (2 + -3) = some 5 ∧ cell 6 (2 + -8) = some 0 ∧ cell 6 (2 + 4) = none ∧
    cell 6 (2 + -9) = none ∧
    (Storage.buffer b).getItem mem (.one (.int 3)) = .ok (.val 15) ∧
    (Storage.buffer b).getItem mem (.one (.int (-3))) = .ok (.val 15) ∧
    (Storage.buffer b).getItem mem (.one (.int 4)) = .error .index ∧
    (Storage.buffer b).assign mem (.one (.int (-3))) (.leaf 7) = ⟨[10, 11, 12, 13, 14, 7], none⟩ ∧
    (Storage.buffer b).assign mem (.one (.int (-9))) (.leaf 7) = ⟨mem, some .index⟩ ∧
    (Storage.buffer b).assign mem (.one (.slice ⟨none, none, none⟩)) (.leaf 7) = ⟨mem, some .assertion⟩ := by
  decide +kernel

end Gcs
