import Verif.Model.Protocol
import Verif.Props.Observing

/-!
# C60: loops over storages
-/

namespace Gcs

open Spec

variable {V : Type} [DecidableEq V]

/-- `r` is the element or the array `s[i]`, for `i` a position on the first axis. -/
def Spec.ItemAt (s : Storage V) (mem : List V) (i : Int) (r : Res V) : Prop :=
  match s.shape with
  | [] => False
  | [_] => ∃ v, r = .val v ∧ Reads s mem [i] v
  | _ :: rest => ∃ t m, (r = .view t ∧ m = mem ∨ r = .fresh t m) ∧ t.shape = rest ∧
      ∀ j, InBox j rest → ∃ v, Reads s mem (i :: j) v ∧ Reads t m j v

theorem next_of_getItem {s : Storage V} (hb : s.cls ≠ .buffer) (mem : List V) (i : Nat) {r : Res V}
    (h : s.getItem mem (.one (.int i)) = .ok r) : s.next mem i = .ok (some r) := by
  cases s with
  | buffer b => exact absurd rfl hb
  | _ => simp only [Storage.next, h]

/-- Every turn of the loop gives an item. -/
theorem next_endless {s : Storage V} {mem : List V} (h : s.WF mem) (hb : s.cls ≠ .buffer) (hz : ZeroOff s)
    (hp : ∀ n ∈ s.shape, 0 < n) (n : Nat) (rest : List Nat) (hs : s.shape = n :: rest) (i : Nat) :
    ∃ r, s.next mem i = .ok (some r) ∧ ItemAt s mem ((i : Int) % n) r := by
  have hv : ValidItems (items (.one (.int (i : Int)))) s.shape := by rw [hs]; trivial
  have hsel := selects_any h hp hv (by cases s <;> first | trivial | exact absurd rfl hb) (hz.safe _)
  simp only [Selects, hs, items, selShape, selSource] at hsel
  cases rest with
  | nil =>
    obtain ⟨v, g1, g2⟩ := hsel.1 rfl
    exact ⟨_, next_of_getItem hb mem i g1, by simp only [ItemAt, hs]; exact ⟨v, rfl, g2⟩⟩
  | cons n' rest =>
    obtain ⟨t, m, g1, _, g3, _, g4⟩ := hsel.2 (by simp)
    rw [g3] at g4
    rcases g1 with ⟨g1, rfl⟩ | g1
    · exact ⟨_, next_of_getItem hb m i g1, by simp only [ItemAt, hs]; exact ⟨t, m, .inl ⟨rfl, rfl⟩, g3, g4⟩⟩
    · exact ⟨_, next_of_getItem hb mem i g1, by simp only [ItemAt, hs]; exact ⟨t, m, .inr rfl, g3, g4⟩⟩

/-- C60.  The loop `for x in s` does not end, for a storage of any class but `Buffer` that has no empty axis: after
any number `k` of turns it has produced `k` items and is still running.  Item `i` is `s[i mod n]`, where `n` is the
size of the first axis. -/
theorem C60_endless_loop (s : Storage V) (mem : List V) (h : s.WF mem) (hb : s.cls ≠ .buffer) (hz : ZeroOff s)
    (hp : ∀ n ∈ s.shape, 0 < n) (n : Nat) (rest : List Nat) (hs : s.shape = n :: rest) (k : Nat) :
    ∃ rs, s.loop mem 0 k = .ok (rs, false) ∧ rs.length = k ∧
      ∀ (i : Nat) r, rs[i]? = some r → ItemAt s mem ((i : Int) % n) r := by
  suffices ∀ i0, ∃ rs, s.loop mem i0 k = .ok (rs, false) ∧ rs.length = k ∧
      ∀ i r, rs[i]? = some r → ItemAt s mem (((i0 + i : Nat) : Int) % n) r by
    obtain ⟨rs, h1, h2, h3⟩ := this 0
    exact ⟨rs, h1, h2, by simpa using h3⟩
  induction k with
  | zero => exact fun i0 => ⟨[], rfl, rfl, by simp⟩
  | succ k ih =>
    intro i0
    obtain ⟨r, g1, g2⟩ := next_endless h hb hz hp n rest hs i0
    obtain ⟨rs, h1, h2, h3⟩ := ih (i0 + 1)
    refine ⟨r :: rs, by simp only [Storage.loop, g1, h1, bind, Except.bind, pure, Except.pure], by simp [h2], ?_⟩
    intro i r' hi
    cases i with
    | zero =>
      simp only [List.getElem?_cons_zero, Option.some.injEq] at hi
      subst hi
      exact g2
    | succ i =>
      have := h3 i r' (by simpa using hi)
      rwa [show i0 + 1 + i = i0 + (i + 1) by omega] at this

/-- C60 for an empty first axis: the loop raises at once, instead of ending. -/
theorem C60_empty_axis (s : Storage V) (mem : List V) (hb : s.cls ≠ .buffer) (rest : List Nat) (hs : s.shape = 0 :: rest)
    (k : Nat) : s.loop mem 0 (k + 1) = .error .zeroDivision := by
  have : s.next mem 0 = .error .zeroDivision := by
    cases s with
    | buffer b => exact absurd rfl hb
    | strided s => simp only [Storage.shape] at hs; simp [Storage.next, Storage.getItem, Strided.getItem, normalizeIndex, hs, normalizeItems, bind, Except.bind, pyMod]
    | coo s => simp only [Storage.shape] at hs; simp [Storage.next, Storage.getItem, normalizeIndex, hs, normalizeItems, bind, Except.bind, pyMod, Storage.shape]
    | flatcoo s => simp only [Storage.shape] at hs; simp [Storage.next, Storage.getItem, normalizeIndex, hs, normalizeItems, bind, Except.bind, pyMod, Storage.shape]
    | csr s => simp only [Storage.shape] at hs; simp [Storage.next, Storage.getItem, normalizeIndex, hs, normalizeItems, bind, Except.bind, pyMod, Storage.shape]
    | dm m d => simp only [Storage.shape] at hs; simp [Storage.next, Storage.getItem, normalizeIndex, hs, normalizeItems, bind, Except.bind, pyMod, Storage.shape]
  simp only [Storage.loop, this, bind, Except.bind]

/-- C60 without axes: `s[0]` is an `IndexError`, which ends the loop before its first turn, and `v in s` is false, also
for the value that is stored. -/
theorem C60_no_axes (s : Storage V) (mem : List V) (hb : s.cls ≠ .buffer) (hs : s.shape = []) (k : Nat) (v : V) :
    s.loop mem 0 (k + 1) = .ok ([], true) ∧ s.contains mem v 0 (k + 1) = .ok (some false) := by
  have : s.next mem 0 = .ok none := by
    cases s with
    | buffer b => exact absurd rfl hb
    | strided s => simp only [Storage.shape] at hs; simp [Storage.next, Storage.getItem, Strided.getItem, normalizeIndex, hs, bind, Except.bind]
    | coo s => simp only [Storage.shape] at hs; simp [Storage.next, Storage.getItem, normalizeIndex, hs, bind, Except.bind, Storage.shape]
    | flatcoo s => simp only [Storage.shape] at hs; simp [Storage.next, Storage.getItem, normalizeIndex, hs, bind, Except.bind, Storage.shape]
    | csr s => simp only [Storage.shape] at hs; simp [Storage.next, Storage.getItem, normalizeIndex, hs, bind, Except.bind, Storage.shape]
    | dm m d => simp only [Storage.shape] at hs; simp [Storage.next, Storage.getItem, normalizeIndex, hs, bind, Except.bind, Storage.shape]
  constructor
  · simp only [Storage.loop, this, bind, Except.bind, pure, Except.pure]
  · simp only [Storage.contains, this, bind, Except.bind, pure, Except.pure]

/-- C60, `len(s)`: the size of the first axis. -/
theorem C60_len (s : Storage V) (n : Nat) (rest : List Nat) (hs : s.shape = n :: rest) : s.len = .ok n := by
  simp [Storage.len, hs, pyGet]

/-- Cases: no axes; the length of `[[1, None, 3], [None, 5, None]]`. -/
example : (let s : Strided (Option Int) := ⟨[], [], ⟨1, 0, none⟩⟩
    (Storage.strided s).loop [some 4] 0 5 = .ok ([], true) ∧
    (Storage.strided s).contains [some 4] (some 4) 0 5 = .ok (some false)) ∧
    (Storage.coo sampleCOO).len = .ok 2 := by
  decide +kernel

theorem buffer_next {b : Buffer V} {mem : List V} (h : b.WF mem) (i : Nat) :
    (Storage.buffer b).next mem i = .ok (((mem.drop b.offset).take b.size)[i]?.map .val) := by
  simp only [Storage.next]
  by_cases hi : i < b.size
  · have hl : b.offset + i < mem.length := by have := h; simp only [Buffer.WF] at this; omega
    have e : ((b.offset : Int) + i) = ((b.offset + i : Nat) : Int) := by omega
    rw [if_pos hi, e, pyGet_nat mem _ hl]
    simp [List.getElem?_take, hi, List.getElem?_drop, List.getElem?_eq_getElem hl, bind, Except.bind, pure, Except.pure]
  · rw [if_neg hi, List.getElem?_eq_none (by simp; omega)]
    rfl

/-- C60 for a `Buffer`: the loop produces the items of the window and ends. -/
theorem C60_buffer_loop (b : Buffer V) (mem : List V) (h : b.WF mem) (k : Nat) (hk : b.size < k) :
    (Storage.buffer b).loop mem 0 k = .ok (((mem.drop b.offset).take b.size).map .val, true) := by
  have hl : ((mem.drop b.offset).take b.size).length = b.size := by
    have := h; simp only [Buffer.WF] at this; simp; omega
  have hn := buffer_next h
  generalize (mem.drop b.offset).take b.size = w at *
  suffices ∀ k i0, i0 ≤ b.size → b.size < i0 + k →
    (Storage.buffer b).loop mem i0 k = .ok ((w.drop i0).map .val, true) by
    simpa using this k 0 (by omega) (by omega)
  intro k
  induction k with
  | zero => intro i0 h1 h2; omega
  | succ k ih =>
    intro i0 h1 h2
    by_cases he : i0 = b.size
    · have e1 : w[i0]? = none := List.getElem?_eq_none (by omega)
      have e2 : w.drop i0 = [] := List.drop_eq_nil_of_le (by omega)
      simp only [Storage.loop, hn, e1, e2, Option.map_none, bind, Except.bind, pure, Except.pure, List.map_nil]
    · have hlt : i0 < w.length := by omega
      have e1 : w[i0]? = some w[i0] := List.getElem?_eq_getElem hlt
      rw [List.drop_eq_getElem_cons hlt]
      simp only [Storage.loop, hn, e1, Option.map_some, ih (i0 + 1) (by omega) (by omega), bind, Except.bind, pure,
        Except.pure, List.map_cons]

/-- Cases of C60: three turns over a `Strided` of two rows, five over one with no row; a `Buffer` of two items. -/
example : (Storage.strided sampleStrided).loop sampleCells 0 3 =
      .ok ([.view (.strided ⟨[3], [1], ⟨6, 0, none⟩⟩), .view (.strided ⟨[3], [1], ⟨3, 3, none⟩⟩),
        .view (.strided ⟨[3], [1], ⟨6, 0, none⟩⟩)], false) ∧
    (let s : Strided (Option Int) := ⟨[0], [1], ⟨0, 0, none⟩⟩
    (Storage.strided s).loop [] 0 5 = .error .zeroDivision) ∧
    (let b : Buffer (Option Int) := ⟨2, 1, none⟩
    (Storage.buffer b).loop [some 4, some 5, some 6, some 7] 0 5 = .ok ([.val (some 5), .val (some 6)], true)) := by
  decide +kernel

/-! ## `v in s` -/

/-- `v in s` for one axis: it is true as soon as an element is `v`, and otherwise the statement never ends. -/
theorem C60_in (s : Storage V) (mem : List V) (h : s.WF mem) (hb : s.cls ≠ .buffer) (hz : ZeroOff s) (n : Nat)
    (hn : 0 < n) (hs : s.shape = [n]) (v : V) :
    ((∃ i : Nat, i < n ∧ Reads s mem [(i : Int)] v) → ∃ k, s.contains mem v 0 k = .ok (some true)) ∧
    ((∀ i : Nat, i < n → ¬ Reads s mem [(i : Int)] v) → ∀ k, s.contains mem v 0 k = .ok none) := by
  have hp : ∀ m ∈ s.shape, 0 < m := by rw [hs]; simpa using hn
  have step : ∀ i : Nat, ∃ w, s.next mem i = .ok (some (.val w)) ∧ Reads s mem [(i : Int) % n] w := by
    intro i
    obtain ⟨r, g1, g2⟩ := next_endless h hb hz hp n [] hs i
    simp only [ItemAt, hs] at g2
    obtain ⟨w, rfl, g3⟩ := g2
    exact ⟨w, g1, g3⟩
  have uniq : ∀ {ix : List Int} {a b : V}, Reads s mem ix a → Reads s mem ix b → a = b := by
    intro ix a b h1 h2
    exact h1.at_eq.symm.trans h2.at_eq
  constructor
  · rintro ⟨i, hi, hr⟩
    suffices ∀ d i0, i0 + d = i → ∃ k, s.contains mem v i0 k = .ok (some true) from this i 0 (by omega)
    intro d
    induction d with
    | zero =>
      intro i0 h0
      obtain rfl : i0 = i := by omega
      obtain ⟨w, g1, g2⟩ := step i0
      rw [Int.emod_eq_of_lt (by omega) (by omega)] at g2
      exact ⟨1, by simp only [Storage.contains, g1, bind, Except.bind, uniq g2 hr, if_true]; rfl⟩
    | succ d ih =>
      intro i0 h0
      obtain ⟨k, hk⟩ := ih (i0 + 1) (by omega)
      obtain ⟨w, g1, g2⟩ := step i0
      refine ⟨k + 1, ?_⟩
      simp only [Storage.contains, g1, bind, Except.bind, hk]
      split <;> rfl
  · intro hno k
    generalize 0 = i0
    induction k generalizing i0 with
    | zero => rfl
    | succ k ih =>
      obtain ⟨w, g1, g2⟩ := step i0
      have hne : w ≠ v := by
        rintro rfl
        have hm : (((i0 % n : Nat)) : Int) = (i0 : Int) % n := by omega
        rw [← hm] at g2
        exact hno _ (Nat.mod_lt _ hn) g2
      simp only [Storage.contains, g1, bind, Except.bind, hne, if_false, ih]

/-- `v in s` for more than one axis never ends. -/
theorem C60_in_endless (s : Storage V) (mem : List V) (h : s.WF mem) (hb : s.cls ≠ .buffer) (hz : ZeroOff s)
    (hp : ∀ n ∈ s.shape, 0 < n) (hr : 1 < s.shape.length) (v : V) (k : Nat) :
    s.contains mem v 0 k = .ok none := by
  match hs : s.shape, hr with
  | n :: n' :: rest, _ =>
    generalize 0 = i0
    induction k generalizing i0 with
    | zero => rfl
    | succ k ih =>
      obtain ⟨r, g1, g2⟩ := next_endless h hb hz hp n _ hs i0
      simp only [ItemAt, hs] at g2
      obtain ⟨t, m, g3, _⟩ := g2
      rcases g3 with ⟨rfl, _⟩ | rfl <;> simp only [Storage.contains, g1, bind, Except.bind, ih]

/-- `v in b` for a `Buffer` ends, with the right answer. -/
theorem C60_buffer_in (b : Buffer V) (mem : List V) (h : b.WF mem) (v : V) :
    (Storage.buffer b).contains mem v 0 (b.size + 1) = .ok (some (decide (v ∈ (mem.drop b.offset).take b.size))) := by
  have hl : ((mem.drop b.offset).take b.size).length = b.size := by
    have := h; simp only [Buffer.WF] at this; simp; omega
  have hn := buffer_next h
  generalize (mem.drop b.offset).take b.size = w at *
  suffices ∀ k i0, i0 + k = b.size → (Storage.buffer b).contains mem v i0 (k + 1) = .ok (some (decide (v ∈ w.drop i0))) by
    simpa using this b.size 0 (by omega)
  intro k
  induction k with
  | zero =>
    intro i0 h1
    have e1 : w[i0]? = none := List.getElem?_eq_none (by omega)
    have e2 : w.drop i0 = [] := List.drop_eq_nil_of_le (by omega)
    simp only [Storage.contains, hn, e1, e2, Option.map_none, bind, Except.bind, pure, Except.pure, List.not_mem_nil, decide_false]
  | succ k ih =>
    intro i0 h1
    have hlt : i0 < w.length := by omega
    have e1 : w[i0]? = some w[i0] := List.getElem?_eq_getElem hlt
    rw [List.drop_eq_getElem_cons hlt, Storage.contains]
    simp only [hn, e1, Option.map_some, bind, Except.bind, ih (i0 + 1) (by omega), List.mem_cons]
    by_cases he : w[i0] = v
    · simp [he, pure, Except.pure]
    · simp [he, Ne.symm he]

/-- Cases: `5 in s` and `8 in s` for a `Strided` and for a `Buffer`. -/
example : (let s : Strided (Option Int) := ⟨[2], [1], ⟨2, 0, none⟩⟩
    (Storage.strided s).contains [some 4, some 5] (some 5) 0 9 = .ok (some true) ∧
    (Storage.strided s).contains [some 4, some 5] (some 8) 0 9 = .ok none) ∧
    (let b : Buffer (Option Int) := ⟨2, 1, none⟩
    (Storage.buffer b).contains [some 4, some 5, some 6, some 7] (some 5) 0 9 = .ok (some true) ∧
    (Storage.buffer b).contains [some 4, some 5, some 6, some 7] (some 7) 0 9 = .ok (some false)) := by
  decide +kernel

end Gcs
