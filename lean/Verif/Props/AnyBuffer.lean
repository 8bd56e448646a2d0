import Verif.Model.AnyBuffer
import Verif.Props.BufferItems
import Verif.Props.Constructors
import Verif.Props.Slices

/-!
# C98: a `Buffer` with a negative offset or size
-/

namespace Gcs

open Spec

variable {V : Type} [DecidableEq V]

/-- The value in the cell that Python means by the int `p` is `v`. -/
def Spec.CellHolds (mem : List V) (p : Int) (v : V) : Prop := ∃ c, cell mem.length p = some c ∧ mem[c]? = some v

/-- The same buffer, with a natural size and offset. -/
def Spec.asAny (b : Buffer V) : AnyBuffer V := ⟨b.size, b.offset, b.unspec⟩

omit [DecidableEq V] in
/-- C98, `Buffer(size, offset, data)` takes every size and offset whose sum is at most the length of the list. -/
theorem C98_accepts (size offset : Int) (mem : List V) (u : V) :
    Accepts (AnyBuffer.new size offset mem u) (offset + size ≤ mem.length) ⟨size, offset, u⟩ .assertion := by
  constructor <;> intro h <;> simp [AnyBuffer.new, pyAssert, h, bind, Except.bind, pure, Except.pure]

omit [DecidableEq V] in
theorem pyGet_holds (mem : List V) (p : Int) (v : V) : pyGet mem p = .ok v ↔ CellHolds mem p v := by
  constructor
  · intro h
    cases hc : cell mem.length p with
    | none => rw [(pyGet_cell mem p).2 hc] at h; cases h
    | some c =>
      obtain ⟨w, h1, h2⟩ := (pyGet_cell mem p).1 c hc
      rw [h2] at h
      cases h
      exact ⟨c, hc, h1⟩
  · rintro ⟨c, hc, hv⟩
    obtain ⟨w, h1, h2⟩ := (pyGet_cell mem p).1 c hc
    rw [hv] at h1
    cases h1
    exact h2

omit [DecidableEq V] in
theorem rangeFrom_mapM {W : Type} (f : Int → PyM W) (g : Nat → W) (offset size : Int)
    (h : ∀ i : Nat, (i : Int) < size → f (offset + i) = .ok (g i)) :
    (rangeFrom offset size).mapM f = .ok ((List.range size.toNat).map g) := by
  have key : ∀ l : List Nat, (∀ i ∈ l, (i : Int) < size) →
      (l.map fun (i : Nat) => offset + (i : Int)).mapM f = .ok (l.map g) := by
    intro l hl
    induction l with
    | nil => rfl
    | cons i l ih =>
      simp only [List.map_cons, List.mapM_cons, h i (hl i (by simp)), ih (fun j hj => hl j (by simp [hj])), bind, Except.bind,
        pure, Except.pure]
  exact key _ fun i hi => by
    have := List.mem_range.1 hi
    omega

theorem reduced_one (s : PySlice) (n : Nat) (h : (reduced s n).step = 1) :
    0 ≤ (reduced s n).start ∧ (reduced s n).start ≤ (reduced s n).stop ∧ (reduced s n).stop ≤ n := by
  by_cases h0 : s.step = some 0
  · have e : reduced s n = ⟨0, 0, 1⟩ := by
      simp only [reduced, h0, Option.getD_some]
      split_ifs <;> simp_all <;> omega
    rw [e]
    simp
  · rcases C03_canonical s n h0 with ⟨-, e⟩ | ⟨-, -, -, h1, h2, h3⟩ | ⟨-, h1, -⟩
    · rw [e]; simp
    · omega
    · omega

omit [DecidableEq V] in
theorem AnyBuffer.getSlice_eq (b : AnyBuffer V) (mem : List V) (s : PySlice) (a z : Int)
    (ha : a = b.offset + s.start.getD 0) (hz : z = b.offset + s.stop.getD b.size) :
    b.getSlice mem s =
      (if a < 0 ∨ a ≥ mem.length then .error .index else
        if z ≤ 0 ∨ z > mem.length then .error .index else
          if (reduced ⟨some a, some z, s.step⟩ mem.length).step ≠ 1 then .error .index else
            AnyBuffer.new ((reduced ⟨some a, some z, s.step⟩ mem.length).stop -
              (reduced ⟨some a, some z, s.step⟩ mem.length).start)
              (reduced ⟨some a, some z, s.step⟩ mem.length).start mem b.unspec) := by
  subst ha hz
  obtain ⟨start, stop, step⟩ := s
  cases start <;> cases stop <;>
    simp only [AnyBuffer.getSlice, throw, throwThe, MonadExceptOf.throw, bind, Except.bind, pure, Except.pure,
      Option.getD_some, Option.getD_none, Int.add_zero] <;> split_ifs <;> rfl

omit [DecidableEq V] in
/-- C98, slices.  A slice of a buffer with any offset and size is an `IndexError` or a buffer inside the list, of natural
size and offset. -/
theorem C98_slice (b : AnyBuffer V) (mem : List V) (s : PySlice) :
    b.getSlice mem s = .error .index ∨
    ∃ r : Buffer V, b.getSlice mem s = .ok (asAny r) ∧ r.offset + r.size ≤ mem.length ∧ r.unspec = b.unspec := by
  rw [AnyBuffer.getSlice_eq b mem s _ _ rfl rfl]
  split_ifs with h1 h2 h3
  · exact .inl rfl
  · exact .inl rfl
  · exact .inl rfl
  · right
    obtain ⟨g1, g2, g3⟩ := reduced_one _ _ (not_not.1 h3)
    generalize reduced _ _ = r at g1 g2 g3
    refine ⟨⟨(r.stop - r.start).toNat, r.start.toNat, b.unspec⟩, ?_, by simp only; omega, rfl⟩
    have e1 : ((r.stop - r.start).toNat : Int) = r.stop - r.start := by omega
    have e2 : (r.start.toNat : Int) = r.start := by omega
    simp only [asAny, e1, e2]
    exact (C98_accepts _ _ _ _).1 (by omega)

omit [DecidableEq V] in
/-- C98, slices of a buffer with a negative offset: one that begins before the list (as `b[:]` does) is an `IndexError`; one
of the rest, `b[start:stop]` between the offset of the list and the end, is the buffer of those items. -/
theorem C98_slice_negative (b : AnyBuffer V) (mem : List V) (h : b.offset < 0) :
    (∀ s : PySlice, b.offset + s.start.getD 0 < 0 → b.getSlice mem s = .error .index) ∧
    ∀ start stop : Int, 0 ≤ b.offset + start → start < stop → b.offset + stop ≤ mem.length →
      b.getSlice mem ⟨some start, some stop, none⟩ = .ok ⟨stop - start, b.offset + start, b.unspec⟩ := by
  refine ⟨fun s hs => ?_, fun start stop h1 h2 h3 => ?_⟩
  · rw [AnyBuffer.getSlice_eq b mem s _ _ rfl rfl, if_pos (.inl hs)]
  · rw [AnyBuffer.getSlice_eq b mem _ _ _ rfl rfl]
    simp only [Option.getD_some]
    have e : reduced ⟨some (b.offset + start), some (b.offset + stop), none⟩ mem.length
        = ⟨b.offset + start, b.offset + stop, 1⟩ := by
      simp only [reduced, redStartUp, redStopUp, Option.getD_none]
      split_ifs <;> simp_all <;> omega
    rw [if_neg (by omega), if_neg (by omega), e, if_neg (by simp)]
    rw [(C98_accepts _ _ _ _).1 (by simp only; omega)]
    simp only [Except.ok.injEq, AnyBuffer.mk.injEq, and_true]
    omega

omit [DecidableEq V] in
/-- C98, reading and writing: an int means the cell of the list counted from the offset, from the end of the list if that is
negative; a write replaces it. -/
theorem C98_item (b : AnyBuffer V) (mem : List V) (i : Int) (v : V) :
    (b.getInt mem i = .ok v ↔ CellHolds mem (b.offset + i) v) ∧
    (∀ c, cell mem.length (b.offset + i) = some c → b.setInt mem i v = .ok (mem.set c v)) ∧
    (cell mem.length (b.offset + i) = none → b.getInt mem i = .error .index ∧ b.setInt mem i v = .error .index) :=
  ⟨pyGet_holds mem _ v, (pySet_cell mem _ v).1, fun h => ⟨(pyGet_cell mem _).2 h, (pySet_cell mem _ v).2 h⟩⟩

omit [DecidableEq V] in
theorem cell_some {n : Nat} {p : Int} (h : -(n : Int) ≤ p) (h' : p < n) : ∃ c, cell n p = some c ∧ c < n := by
  unfold cell
  split_ifs with h1 h2
  · exact ⟨_, rfl, by omega⟩
  · exact ⟨_, rfl, by omega⟩
  · omega

omit [DecidableEq V] in
theorem holds_exists (mem : List V) (p : Int) (h : -(mem.length : Int) ≤ p) (h' : p < mem.length) : ∃ v, CellHolds mem p v := by
  obtain ⟨c, h1, h2⟩ := cell_some h h'
  exact ⟨mem[c], c, h1, List.getElem?_eq_getElem h2⟩

omit [DecidableEq V] in
theorem items_values (b : AnyBuffer V) (mem : List V) (ho : -(mem.length : Int) ≤ b.offset)
    (hf : b.offset + b.size ≤ mem.length) :
    ∃ g : Nat → V, (∀ i : Nat, (i : Int) < b.size → CellHolds mem (b.offset + i) (g i)) ∧
      b.items mem = .ok ((List.range b.size.toNat).map g) := by
  by_cases hs : b.size ≤ 0
  · refine ⟨fun _ => b.unspec, fun i hi => by omega, ?_⟩
    have h : b.size.toNat = 0 := by omega
    simp [AnyBuffer.items, rangeFrom, h, pure, Except.pure]
  · have key : ∀ i : Nat, ∃ v, (i : Int) < b.size → CellHolds mem (b.offset + i) v := by
      intro i
      by_cases hi : (i : Int) < b.size
      · obtain ⟨v, hv⟩ := holds_exists mem (b.offset + i) (by omega) (by omega)
        exact ⟨v, fun _ => hv⟩
      · exact ⟨b.unspec, fun h => absurd h hi⟩
    choose g hg using key
    exact ⟨g, hg, rangeFrom_mapM _ g _ _ fun i hi => (pyGet_holds _ _ _).2 (hg i hi)⟩

omit [DecidableEq V] in
/-- C98, loops.  `list(b)` has `size` items, those that `b[i]` gives, as long as the offset is not before the list counted from
its end; if it is, the loop raises `IndexError`.  With a negative size there are none, and `len(b)` raises `ValueError`. -/
theorem C98_items (b : AnyBuffer V) (mem : List V) (hf : b.offset + b.size ≤ mem.length) :
    (-(mem.length : Int) ≤ b.offset → ∃ vs, b.items mem = .ok vs ∧ vs.length = b.size.toNat ∧
      ∀ (i : Nat) v, vs[i]? = some v → CellHolds mem (b.offset + i) v) ∧
    (b.offset < -(mem.length : Int) → 0 < b.size → b.items mem = .error .index) ∧
    (b.size ≤ 0 → b.items mem = .ok []) ∧
    (b.size < 0 → b.len = .error .value) ∧ (0 ≤ b.size → b.len = .ok b.size.toNat) := by
  refine ⟨fun ho => ?_, fun ho hs => ?_, fun hs => ?_, fun h => if_pos h, fun h => if_neg (by omega)⟩
  · obtain ⟨g, hg, e⟩ := items_values b mem ho hf
    refine ⟨_, e, by simp, fun i v hv => ?_⟩
    simp only [List.getElem?_map, Option.map_eq_some_iff, List.getElem?_range] at hv
    obtain ⟨a, ha, rfl⟩ := hv
    have hi : i < b.size.toNat ∧ a = i := by
      rw [List.getElem?_eq_some_iff] at ha
      obtain ⟨h1, h2⟩ := ha
      simp at h1 h2
      exact ⟨by omega, h2.symm⟩
    rw [hi.2]
    exact hg i (by omega)
  · obtain ⟨n, hn⟩ : ∃ n, b.size.toNat = n + 1 := ⟨b.size.toNat - 1, by omega⟩
    have hc : cell mem.length b.offset = none := by
      unfold cell
      rw [if_neg (by omega), if_neg (by omega)]
    simp only [AnyBuffer.items, rangeFrom, hn, List.range_succ_eq_map, List.map_cons, List.mapM_cons, Nat.cast_zero, Int.add_zero]
    have e := (pyGet_cell mem (b.offset + ((0 : Nat) : Int))).2 (by simpa using hc)
    simp only [Nat.cast_zero, Int.add_zero] at e
    simp [e, bind, Except.bind]
  · have h : b.size.toNat = 0 := by omega
    simp [AnyBuffer.items, rangeFrom, h, pure, Except.pure]

omit [DecidableEq V] in
theorem pyWindow_getElem (mem : List V) (a b : Int) (i : Nat) :
    (pyWindow mem a b)[i]? =
      if sliceBound mem.length a + i < sliceBound mem.length b then mem[sliceBound mem.length a + i]? else none := by
  simp only [pyWindow, List.getElem?_drop, List.getElem?_take]

omit [DecidableEq V] in
theorem sliceBound_le (n : Nat) (a : Int) (h : a ≤ n) : sliceBound n a ≤ n := by
  unfold sliceBound
  split_ifs <;> omega

omit [DecidableEq V] in
theorem pyWindow_length (mem : List V) (a b : Int) (hb : b ≤ mem.length) :
    (pyWindow mem a b).length = sliceBound mem.length b - sliceBound mem.length a := by
  have := sliceBound_le mem.length b hb
  simp only [pyWindow, List.length_drop, List.length_take]
  omega

theorem copy_none (b : AnyBuffer V) (mem : List V) : b.copy mem none
    = .ok (⟨(pyWindow mem b.offset (b.offset + b.size)).length, 0, b.unspec⟩, pyWindow mem b.offset (b.offset + b.size)) := by
  simp [AnyBuffer.copy, AnyBuffer.new, pyAssert, bind, Except.bind, pure, Except.pure]

/-- C98, `copy()` and negative offsets.  If the buffer ends before the end of the list (counted from there) the copy has the same
items.  If it reaches the first cell of the list, or would end just before it, the copy has no items (as long as the buffer has
no more items than the list). -/
theorem C98_copy (b : AnyBuffer V) (mem : List V) (h0 : 0 ≤ b.size) (ho : -(mem.length : Int) ≤ b.offset) (hn : b.offset < 0)
    (hf : b.offset + b.size ≤ mem.length) :
    (b.offset + b.size < 0 → ∃ vs, b.items mem = .ok vs ∧ b.copy mem none = .ok (⟨b.size, 0, b.unspec⟩, vs)) ∧
    (0 ≤ b.offset + b.size → b.size ≤ mem.length → b.copy mem none = .ok (⟨0, 0, b.unspec⟩, [])) := by
  refine ⟨fun he => ?_, fun he hl => ?_⟩
  · obtain ⟨g, hg, e⟩ := items_values b mem ho hf
    have hw : pyWindow mem b.offset (b.offset + b.size) = (List.range b.size.toNat).map g := by
      refine List.ext_getElem? fun i => ?_
      rw [pyWindow_getElem]
      have e1 : sliceBound mem.length b.offset = (mem.length + b.offset).toNat := if_pos hn
      have e2 : sliceBound mem.length (b.offset + b.size) = (mem.length + (b.offset + b.size)).toNat := if_pos he
      rw [e1, e2]
      by_cases hi : (i : Int) < b.size
      · obtain ⟨c, h1, h2⟩ := hg i hi
        unfold cell at h1
        rw [if_neg (by omega), if_pos (by omega)] at h1
        cases h1
        rw [if_pos (by omega)]
        have e3 : (mem.length + b.offset).toNat + i = (mem.length + (b.offset + i)).toNat := by omega
        rw [e3, h2]
        have : i < b.size.toNat := by omega
        simp [this]
      · rw [if_neg (by omega)]
        simp
        omega
    refine ⟨_, e, ?_⟩
    rw [copy_none, hw]
    simp only [List.length_map, List.length_range, Int.toNat_of_nonneg h0]
  · have hw : pyWindow mem b.offset (b.offset + b.size) = [] := by
      have e1 : sliceBound mem.length b.offset = (mem.length + b.offset).toNat := if_pos hn
      have e2 : sliceBound mem.length (b.offset + b.size) ≤ (mem.length + b.offset).toNat := by
        unfold sliceBound
        rw [if_neg (by omega)]
        omega
      refine List.eq_nil_of_length_eq_zero ?_
      rw [pyWindow_length mem _ _ hf, e1]
      omega
    rw [copy_none, hw]
    rfl

/-- C98, `copy(unspecified=u)` with another unspecified value reads the items one by one: it has all of them, with `u` in the
place of the old unspecified value. -/
theorem C98_copy_unspecified (b : AnyBuffer V) (mem : List V) (u : V) (hu : u ≠ b.unspec) (h0 : 0 ≤ b.size)
    (ho : -(mem.length : Int) ≤ b.offset) (hf : b.offset + b.size ≤ mem.length) :
    ∃ vs, b.items mem = .ok vs ∧
      b.copy mem (some u) = .ok (⟨b.size, 0, u⟩, vs.map fun v => if v = b.unspec then u else v) := by
  obtain ⟨g, hg, e⟩ := items_values b mem ho hf
  refine ⟨_, e, ?_⟩
  have hm := rangeFrom_mapM (fun pos => do
      let value ← pyGet mem pos
      return if value = b.unspec then u else value) (fun i => if g i = b.unspec then u else g i) b.offset b.size (fun i hi => by
    have := (pyGet_holds _ _ _).2 (hg i hi)
    simp [this, bind, Except.bind, pure, Except.pure])
  simp only [bind, Except.bind, pure, Except.pure] at hm
  simp only [AnyBuffer.copy, Option.getD_some, if_neg hu, bind, Except.bind, pure, Except.pure, hm]
  simp [AnyBuffer.new, pyAssert, bind, Except.bind, pure, Except.pure, h0, Function.comp_def]

/-- C98, defect: two buffers whose windows reach from the end of their lists to the beginning are `==` if they have the same size
and the same unspecified value, whatever they hold. -/
theorem C98_eq (b b' : AnyBuffer V) (mem mem' : List V) (hs : b'.size = b.size) (hu : b'.unspec = b.unspec)
    (hn : b.offset < 0 ∧ b'.offset < 0) (he : 0 ≤ b.offset + b.size ∧ 0 ≤ b'.offset + b'.size)
    (hl : b.size ≤ mem.length ∧ b'.size ≤ mem'.length) : b.eq mem b' mem' = true := by
  have key : ∀ (c : AnyBuffer V) (m : List V), c.offset < 0 → 0 ≤ c.offset + c.size → c.size ≤ m.length →
      pyWindow m c.offset (c.offset + c.size) = [] := by
    intro c m h1 h2 h3
    refine List.eq_nil_of_length_eq_zero ?_
    rw [pyWindow_length m _ _ (by omega)]
    unfold sliceBound
    rw [if_neg (by omega), if_pos h1]
    omega
  simp [AnyBuffer.eq, hs, hu, key b mem hn.1 he.1 hl.1, hs ▸ key b' mem' hn.2 he.2 hl.2]

omit [DecidableEq V] in
theorem window_nat (b : Buffer V) (mem : List V) (h : b.offset + b.size ≤ mem.length) :
    pyWindow mem b.offset (b.offset + b.size) = b.window mem := by
  have e1 : sliceBound mem.length b.offset = b.offset := by
    unfold sliceBound
    rw [if_neg (by omega)]
    omega
  have e2 : sliceBound mem.length ((b.offset : Int) + b.size) = b.offset + b.size := by
    unfold sliceBound
    rw [if_neg (by omega)]
    omega
  simp only [pyWindow, e1, e2, Buffer.window, List.drop_take, Nat.add_sub_cancel_left]

/-- C98, if size and offset are natural numbers the methods are those of Model/Storage.lean. -/
theorem C98_natural (b b' : Buffer V) (mem mem' : List V) (h : b.offset + b.size ≤ mem.length)
    (h' : b'.offset + b'.size ≤ mem'.length) (i : Int) (v : V) (s : PySlice) (u : Option V) :
    (asAny b).getInt mem i = b.getInt mem i ∧ (asAny b).setInt mem i v = b.setInt mem i v ∧
    (asAny b).getSlice mem s = (b.getSlice mem s).map asAny ∧ (asAny b).items mem = .ok (b.window mem) ∧
    (asAny b).copy mem u = .ok (asAny (b.copy mem u).1, (b.copy mem u).2) ∧
    (asAny b).eq mem (asAny b') mem' = b.eq mem b' mem' := by
  have hi : (asAny b).items mem = .ok (b.window mem) := by
    obtain ⟨g, hg, e⟩ := items_values (asAny b) mem (by simp only [asAny]; omega) (by simp only [asAny]; omega)
    rw [e]
    congr 1
    refine List.ext_getElem? fun k => ?_
    simp only [asAny, Int.toNat_natCast, Buffer.window, List.getElem?_map, List.getElem?_take, List.getElem?_drop]
    by_cases hk : k < b.size
    · have hv : CellHolds mem ((b.offset : Int) + k) (g k) := hg k (by simp only [asAny]; omega)
      obtain ⟨c, h1, h2⟩ := hv
      unfold cell at h1
      rw [if_pos (by omega)] at h1
      cases h1
      have e3 : ((b.offset : Int) + k).toNat = b.offset + k := by omega
      rw [e3] at h2
      simp [hk, h2]
    · have : b.size ≤ k := by omega
      simp [hk, this]
  refine ⟨rfl, rfl, ?_, hi, ?_, ?_⟩
  · rw [AnyBuffer.getSlice_eq (asAny b) mem s (b.offset + s.start.getD 0) (b.offset + s.stop.getD b.size) rfl rfl,
      Buffer.getSlice_eq b mem s _ _ rfl rfl]
    split_ifs with h1 h2 h3
    · rfl
    · rfl
    · rfl
    · obtain ⟨g1, g2, g3⟩ := reduced_one _ _ (not_not.1 h3)
      generalize reduced _ _ = r at g1 g2 g3
      rw [(C98_accepts _ _ _ _).1 (by omega), (C78_buffer _ _ _ _).1 (by omega)]
      simp only [Except.map, asAny, Except.ok.injEq, AnyBuffer.mk.injEq, and_true]
      omega
  · by_cases hu : u.getD b.unspec = b.unspec
    · simp [AnyBuffer.copy, Buffer.copy, asAny, hu, window_nat b mem h, AnyBuffer.new, pyAssert, bind, Except.bind, pure, Except.pure]
    · cases u with
      | none => simp at hu
      | some u =>
        simp only [Option.getD_some] at hu
        obtain ⟨vs, h1, h2⟩ := C98_copy_unspecified (asAny b) mem u hu (by simp [asAny]) (by simp only [asAny]; omega)
          (by simp only [asAny]; omega)
        rw [hi] at h1
        cases h1
        rw [h2]
        have : (b.window mem).length = b.size := Buffer.window_length b mem h
        simp [Buffer.copy, hu, asAny, this]
        intros
        rfl
  · simp only [AnyBuffer.eq, Buffer.eq, asAny, window_nat b mem h, window_nat b' mem' h', Nat.cast_inj]
    congr

/-- A case of C98: `Buffer(2, -1, [1, 2, 3])` has the items 3 and 1, its copy has none, the copy with another unspecified value
has both, `b[:]` is an `IndexError`; `Buffer(2, -3, [1, 2, 3])` has the items 1 and 2, and so has its copy.  All buffers of size 2
and offset -1 on lists of two or more items are `==`. -/
example :
    let b : AnyBuffer (Option Int) := ⟨2, -1, none⟩
    let mem := [some 1, some 2, some 3]
    AnyBuffer.new 2 (-1) mem none = .ok b ∧ b.items mem = .ok [some 3, some 1] ∧ b.copy mem none = .ok (⟨0, 0, none⟩, []) ∧
    b.copy mem (some (some 0)) = .ok (⟨2, 0, some 0⟩, [some 3, some 1]) ∧
    b.getSlice mem ⟨none, none, none⟩ = .error .index ∧
    b.getSlice mem ⟨some 1, some 3, none⟩ = .ok ⟨2, 0, none⟩ ∧
    (⟨2, -3, none⟩ : AnyBuffer (Option Int)).items mem = .ok [some 1, some 2] ∧
    (⟨2, -3, none⟩ : AnyBuffer (Option Int)).copy mem none = .ok (⟨2, 0, none⟩, [some 1, some 2]) ∧
    b.eq mem b [some 7, some 8] = true ∧ b.items [some 7, some 8] = .ok [some 8, some 7] ∧
    (⟨-1, 2, none⟩ : AnyBuffer (Option Int)).len = .error .value ∧
    (⟨1, -4, none⟩ : AnyBuffer (Option Int)).items mem = .error .index := by
  decide +kernel

end Gcs
