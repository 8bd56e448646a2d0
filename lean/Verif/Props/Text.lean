/-
C67: the text of objects.
-/
import Verif.Model.Text
import Verif.Props.Version
import Verif.Props.Getting

namespace Gcs
namespace Text

open Spec
open Version (Str dec split_at isDigit_toDigits)

variable {V : Type}

/-! ### Specification -/

/-- A text of more than 100 characters is printed as its first 40 characters, five dots and its last 40. -/
def Spec.Shown (t s : Str) : Prop :=
  (t.length ≤ 100 ∧ s = t) ∨
    (100 < t.length ∧ ∃ a b c, t = a ++ b ++ c ∧ a.length = 40 ∧ c.length = 40 ∧ s = a ++ ".....".toList ++ c)

theorem shown_shorten (t : Str) : Spec.Shown t (shorten t) := by
  by_cases h : t.length > 100
  · refine Or.inr ⟨h, t.take 40, (t.drop 40).take (t.length - 80), t.drop (t.length - 40), ?_, ?_, ?_, ?_⟩
    · have e1 : t.drop (t.length - 40) = (t.drop 40).drop (t.length - 80) := by
        rw [List.drop_drop]
        congr 1
        omega
      rw [e1, List.append_assoc, List.take_append_drop, List.take_append_drop]
    · rw [List.length_take]
      omega
    · rw [List.length_drop]
      omega
    · rw [shorten, if_pos h]
  · exact Or.inl ⟨by omega, by rw [shorten, if_neg h]⟩

theorem join_eq (sep : Str) (l : List Str) : join sep l = sep.intercalate l := by
  induction l with
  | nil => rfl
  | cons a l ih =>
    cases l with
    | nil => simp [join, List.intercalate]
    | cons b l =>
      rw [join, ih]
      simp [List.intercalate]

/-! ### Lines and matrices -/

theorem mapM_range {β : Type} (n : Nat) (g : Nat → PyM β) (f : Nat → β) (h : ∀ i, i < n → g i = .ok (f i)) :
    (List.range n).mapM g = .ok ((List.range n).map f) := by
  have key : ∀ l : List Nat, (∀ i ∈ l, i < n) → l.mapM g = .ok (l.map f) := by
    intro l
    induction l with
    | nil => intro _; rfl
    | cons a l ih =>
      intro hl
      rw [List.mapM_cons, h a (hl a (by simp)), ih fun i hi => hl i (by simp [hi])]
      rfl
  exact key _ fun i hi => List.mem_range.mp hi

theorem inBox_one (i n : Nat) (h : i < n) : InBox [(i : Int)] [n] := by
  simp [InBox, h]

theorem item_line {s : Strided V} {mem : List V} (h : s.WF mem) (n : Nat) (hs : s.shape = [n]) (i : Nat) (hi : i < n) :
    s.getItem mem (.one (.int i)) = .ok (.inl (s.val mem [(i : Int)])) := by
  have hp : ∀ k ∈ s.shape, 0 < k := by
    intro k hk
    rw [hs] at hk
    simp at hk
    omega
  have hm : (i : Int) % (n : Int) = i := Int.emod_eq_of_lt (by omega) (by omega)
  rcases Strided.getItem_slice h hp (.one (.int i)) (by simp only [items]; rw [hs]; trivial) with ⟨_, h2⟩ | ⟨h1, _⟩
  · rw [h2]
    simp only [items]
    rw [hs]
    simp only [selSource, hm]
  · simp only [items] at h1
    rw [hs] at h1
    simp [selShape] at h1

theorem lineStr_ok (T : Texts V) {s : Strided V} {mem : List V} (h : s.WF mem) (n : Nat) (hs : s.shape = [n]) :
    lineStr T s mem n = .ok ("[".toList ++
      shorten (join ", ".toList ((List.range n).map fun (i : Nat) => T.str (s.val mem [(i : Int)]))) ++ "]".toList) := by
  rw [lineStr, mapM_range n _ fun (i : Nat) => T.str (s.val mem [(i : Int)])]
  · rfl
  · intro i hi
    rw [itemStr, item_line h n hs i hi]
    rfl

section

variable [DecidableEq V]

theorem strided_reads {s : Strided V} {mem : List V} (h : s.WF mem) (ix : List Int) (hi : InBox ix s.shape) :
    Reads (.strided s) mem ix (s.val mem ix) := by
  simp only [Reads, Storage.getItem, Strided.getItem_elem h ix hi, bind, Except.bind, pure, Except.pure]

/-- `str` of a one-dimensional `Strided`: the texts of the elements, in order; shortened in the middle if long. -/
theorem C67_line (T : Texts V) (s : Strided V) (mem : List V) (h : s.WF mem) (n : Nat) (hs : s.shape = [n]) :
    ∃ f : Nat → V, (∀ i, i < n → Reads (.strided s) mem [(i : Int)] (f i)) ∧
      ∃ t, Spec.Shown (", ".toList.intercalate ((List.range n).map fun i => T.str (f i))) t ∧
        storageStr T (.strided s) mem = .ok ('[' :: t ++ [']']) := by
  refine ⟨fun i => s.val mem [(i : Int)], ?_, _, shown_shorten _, ?_⟩
  · intro i hi
    exact strided_reads h _ (by rw [hs]; exact inBox_one i n hi)
  · simp only [storageStr, hs]
    rw [lineStr_ok T h n hs, join_eq]
    simp

/-- `str` of a two-dimensional `Strided`: a line for each row, like that of a one-dimensional array. -/
theorem C67_matrix (T : Texts V) (s : Strided V) (mem : List V) (h : s.WF mem) (n m : Nat) (hs : s.shape = [n, m])
    (hm : 0 < m) :
    ∃ f : Nat → Nat → V, (∀ i j, i < n → j < m → Reads (.strided s) mem [(i : Int), (j : Int)] (f i j)) ∧
      ∃ t : Nat → Str, (∀ i, i < n → Spec.Shown (", ".toList.intercalate ((List.range m).map fun j => T.str (f i j))) (t i)) ∧
        storageStr T (.strided s) mem =
          .ok ("[ ".toList ++ "\n  ".toList.intercalate ((List.range n).map fun i => '[' :: t i ++ [']']) ++ "\n]".toList) := by
  refine ⟨fun i j => s.val mem [(i : Int), (j : Int)], ?_,
    fun i => shorten (join ", ".toList ((List.range m).map fun (j : Nat) => T.str (s.val mem [(i : Int), (j : Int)]))), ?_, ?_⟩
  · intro i j hi hj
    exact strided_reads h _ (by rw [hs]; simp [InBox, hi, hj])
  · intro i _
    have := shown_shorten (join ", ".toList ((List.range m).map fun (j : Nat) => T.str (s.val mem [(i : Int), (j : Int)])))
    simp only [join_eq] at this ⊢
    exact this
  · have hrow : ∀ i, i < n → rowStr T s mem i = .ok ('[' ::
        shorten (join ", ".toList ((List.range m).map fun (j : Nat) => T.str (s.val mem [(i : Int), (j : Int)]))) ++ [']']) := by
      intro i hi
      have hp : ∀ k ∈ s.shape, 0 < k := by
        intro k hk
        rw [hs] at hk
        simp at hk
        omega
      have hmod : (i : Int) % (n : Int) = i := Int.emod_eq_of_lt (by omega) (by omega)
      rcases Strided.getItem_slice h hp (.one (.int i)) (by simp only [items]; rw [hs]; trivial) with
        ⟨h1, _⟩ | ⟨_, r, e, hr, hrs, hu, hcell, _⟩
      · simp only [items] at h1
        rw [hs] at h1
        simp [selShape] at h1
      · have hrs' : r.shape = [m] := by
          rw [hrs, hs]
          simp [items, selShape]
        have hval : ∀ j : Nat, j < m → r.val mem [(j : Int)] = s.val mem [(i : Int), (j : Int)] := by
          intro j hj
          obtain ⟨g1, g2⟩ := hcell [(j : Int)] (by rw [hrs']; exact inBox_one j m hj)
          rw [hs] at g1 g2
          simp only [items, selSource, hmod] at g1 g2
          rw [Strided.val, Strided.val, ← g2, hu]
        rw [rowStr, e]
        simp only [bind, Except.bind, hrs']
        rw [lineStr_ok T hr m hrs']
        have : (List.range m).map (fun (j : Nat) => T.str (r.val mem [(j : Int)])) =
            (List.range m).map (fun (j : Nat) => T.str (s.val mem [(i : Int), (j : Int)])) := by
          apply List.map_congr_left
          intro j hj
          rw [hval j (List.mem_range.mp hj)]
        rw [this]
        simp
    simp only [storageStr, hs]
    rw [mapM_range n _ _ hrow]
    simp only [bind, Except.bind, join_eq, pure, Except.pure]

end

/-- `str` of an array of rows without columns raises, if the list is empty (as it is if `fromobject` made the
array). -/
theorem C67_no_columns (T : Texts V) (s : Strided V) (n : Nat) (hs : s.shape = [n + 1, 0]) (hl : s.strides.length = 2) :
    storageStr T (.strided s) ([] : List V) = .error .index := by
  obtain ⟨a, b, hab⟩ : ∃ a b, s.strides = [a, b] := by
    match hst : s.strides, hl with
    | [a, b], _ => exact ⟨a, b, rfl⟩
  have h0 : rowStr T s ([] : List V) 0 = .error .index := by
    have hn : normalizeIndex (.one (.int ((0 : Nat) : Int))) [n + 1, 0] = .ok [.int 0, .none] := by
      have hm : pyMod ((0 : Nat) : Int) ((n + 1 : Nat) : Int) = .ok 0 := by
        rw [pyMod, if_neg (by omega)]
        simp
      simp only [normalizeIndex, hm, bind, Except.bind, pure, Except.pure, List.map_cons, List.map_nil]
    have hi : indexStrided [.int 0, .none] [n + 1, 0] [a, b] = .ok ([0], [b], 0) := by
      simp [indexStrided, bind, Except.bind, pure, Except.pure]
    have hg : s.getItem ([] : List V) (.one (.int ((0 : Nat) : Int))) = .error .index := by
      rw [Strided.getItem, hs, hn]
      simp only [bind, Except.bind, elementIndex, Option.map_none, hab, hi]
      simp only [Strided.getSlice, Buffer.getSlice, bind, Except.bind, List.length_nil]
      rw [if_pos (by omega)]
      rfl
    rw [rowStr, hg]
    rfl
  simp only [storageStr, hs]
  rw [List.range_succ_eq_map, List.mapM_cons, h0]
  rfl

/-! ### Buffers -/

theorem times_mem (c d : Char) (n : Int) (h : d ∈ times c n) : d = c := by
  rw [times, List.mem_replicate] at h
  exact h.2

theorem join_inj (l1 l2 : List Str) (hl : l1.length = l2.length) (h1 : ∀ s ∈ l1, ',' ∉ s) (h2 : ∀ s ∈ l2, ',' ∉ s)
    (h : join [',', ' '] l1 = join [',', ' '] l2) : l1 = l2 := by
  induction l1 generalizing l2 with
  | nil =>
    cases l2 with
    | nil => rfl
    | cons => simp at hl
  | cons a l1 ih =>
    cases l2 with
    | nil => simp at hl
    | cons b l2 =>
      cases l1 with
      | nil =>
        cases l2 with
        | nil => simpa [join] using h
        | cons => simp at hl
      | cons a' l1 =>
        cases l2 with
        | nil => simp at hl
        | cons b' l2 =>
          simp only [join, List.append_assoc, List.cons_append, List.nil_append] at h
          obtain ⟨e, h'⟩ := split_at ',' _ _ _ _ (h1 a (by simp)) (h2 b (by simp)) h
          simp only [List.cons.injEq, true_and] at h'
          rw [e, ih (b' :: l2) (by simpa using hl) (fun s hs => h1 s (by simp [hs])) (fun s hs => h2 s (by simp [hs])) h']

theorem dec_inj (m n : Nat) (h : dec m = dec n) : m = n := by
  have := congrArg (fun l => Nat.ofDigitChars 10 l 0) h
  simpa [dec] using this

theorem dec_no_comma (n : Nat) : ',' ∉ dec n := fun h => absurd (isDigit_toDigits n _ h) (by decide)

/-- Marks after the items: dots and stars determine the number of items that follow. -/
theorem marks_inj (m n : Int) (hm : 0 ≤ m) (hn : 0 ≤ n)
    (h : times '.' (Int.fmod m 10) ++ times '*' (Int.fdiv m 10) = times '.' (Int.fmod n 10) ++ times '*' (Int.fdiv n 10)) :
    m = n := by
  have c1 := congrArg (List.count '.') h
  have c2 := congrArg (List.count '*') h
  simp only [times, List.count_append, List.count_replicate] at c1 c2
  rw [Int.fmod_eq_emod_of_nonneg _ (by omega), Int.fmod_eq_emod_of_nonneg _ (by omega),
    Int.fdiv_eq_ediv_of_nonneg _ (by omega), Int.fdiv_eq_ediv_of_nonneg _ (by omega)] at c1 c2
  simp at c1 c2
  omega

theorem listText_length (l : List Str) : (listText l).length = (", ".toList.intercalate l).length + 2 := by
  have e3 : "[".toList = ['['] ∧ "]".toList = [']'] := by simp
  rw [listText, join_eq, e3.1, e3.2, List.length_append, List.length_append, List.length_singleton, List.length_singleton]
  omega

/-- `repr` of a `Buffer`.  Before the items, `k` stars and `d` dots stand for the `10 k + d` items of the list that come
before; after the items, in the same way, dots and stars for those that come after. -/
theorem C67_buffer_form (T : Texts V) (b : Buffer V) (mem : List V) (h : b.offset + b.size ≤ mem.length) :
    ∃ (k d k' d' : Nat) (t : Str), 10 * k + d = b.offset ∧ d < 10 ∧ b.offset + b.size + (10 * k' + d') = mem.length ∧ d' < 10 ∧
      Spec.Shown ('[' :: ", ".toList.intercalate (((mem.drop b.offset).take b.size).map T.repr) ++ [']']) t ∧
      bufferRepr T b mem = "Buffer(".toList ++ Nat.toDigits 10 b.size ++ ", ".toList ++ Nat.toDigits 10 b.offset ++
        ", ".toList ++ (List.replicate k '*' ++ List.replicate d '.') ++ t ++
        (List.replicate d' '.' ++ List.replicate k' '*') ++ ", unspecified=".toList ++ T.str b.unspec ++ ")".toList := by
  have e3 : "[".toList = ['['] ∧ "]".toList = [']'] := by simp
  have e1 : listText (((mem.drop b.offset).take b.size).map T.repr) =
      '[' :: ", ".toList.intercalate (((mem.drop b.offset).take b.size).map T.repr) ++ [']'] := by
    rw [listText, join_eq, e3.1, e3.2]
    rfl
  have hd : ∀ (n : Nat) (z : Int), z = n → (Int.fdiv z 10).toNat = n / 10 ∧ (Int.fmod z 10).toNat = n % 10 := by
    intro n z hz
    subst hz
    rw [Int.fmod_eq_emod_of_nonneg _ (by omega), Int.fdiv_eq_ediv_of_nonneg _ (by omega)]
    omega
  have hd1 := hd b.offset b.offset rfl
  have hd2 := hd (mem.length - (b.offset + b.size)) ((mem.length : Int) - (b.offset + b.size)) (by omega)
  refine ⟨b.offset / 10, b.offset % 10, (mem.length - (b.offset + b.size)) / 10, (mem.length - (b.offset + b.size)) % 10,
    shorten (listText (((mem.drop b.offset).take b.size).map T.repr)), by omega, by omega, by omega, by omega, ?_, ?_⟩
  · rw [← e1]
    exact shown_shorten _
  · rw [← hd1.1, ← hd1.2, ← hd2.1, ← hd2.2]
    rfl

theorem form (w1 w2 d1 d2 p s u r : Str) (js : List Str) (a b c d e : Str) (ha : a = [',', ' ']) (hb : b = ['['])
    (hc : c = [']']) (hd : d = ',' :: w2) (he : e = [')']) :
    w1 ++ d1 ++ a ++ d2 ++ a ++ p ++ (b ++ join a js ++ c) ++ s ++ d ++ u ++ e ++ r =
      w1 ++ (d1 ++ ',' :: (' ' :: (d2 ++ ',' :: (' ' :: (p ++ '[' :: (join [',', ' '] js ++ ']' ::
        (s ++ ',' :: (w2 ++ (u ++ ')' :: r))))))))) := by
  subst ha hb hc hd he
  simp

/-- The text of a buffer in a longer text: what comes before the closing parenthesis determines the buffer. -/
theorem bufferRepr_rest (T : Texts V) (b1 b2 : Buffer V) (mem1 mem2 : List V) (r1 r2 : Str)
    (h1 : b1.offset + b1.size ≤ mem1.length)
    (h2 : b2.offset + b2.size ≤ mem2.length) (hT : ∀ v, ∀ c ∈ T.repr v, c ≠ ',' ∧ c ≠ '[' ∧ c ≠ ']')
    (hl1 : (", ".toList.intercalate (((mem1.drop b1.offset).take b1.size).map T.repr)).length + 2 ≤ 100)
    (hl2 : (", ".toList.intercalate (((mem2.drop b2.offset).take b2.size).map T.repr)).length + 2 ≤ 100)
    (h : bufferRepr T b1 mem1 ++ r1 = bufferRepr T b2 mem2 ++ r2) :
    b1.size = b2.size ∧ b1.offset = b2.offset ∧ mem1.length = mem2.length ∧
      ((mem1.drop b1.offset).take b1.size).map T.repr = ((mem2.drop b2.offset).take b2.size).map T.repr ∧
      T.str b1.unspec ++ ')' :: r1 = T.str b2.unspec ++ ')' :: r2 := by
  rw [← listText_length] at hl1 hl2
  have hnob : ∀ (l : List V), '[' ∉ join [',', ' '] (l.map T.repr) ∧ ']' ∉ join [',', ' '] (l.map T.repr) := by
    intro l
    induction l with
    | nil => simp [join]
    | cons a l ih =>
      have ha := hT a
      cases l with
      | nil => exact ⟨fun h => (ha _ h).2.1 rfl, fun h => (ha _ h).2.2 rfl⟩
      | cons b l =>
        simp only [List.map_cons, join, List.mem_append, not_or] at ih ⊢
        exact ⟨⟨⟨fun h => (ha _ h).2.1 rfl, by decide⟩, ih.1⟩, ⟨⟨fun h => (ha _ h).2.2 rfl, by decide⟩, ih.2⟩⟩
  have hform : ∀ (b : Buffer V) (mem : List V) (r : Str), (listText (((mem.drop b.offset).take b.size).map T.repr)).length ≤ 100 →
      bufferRepr T b mem ++ r = "Buffer(".toList ++ (dec b.size ++ ',' :: (' ' :: (dec b.offset ++ ',' :: (' ' ::
        ((times '*' (Int.fdiv b.offset 10) ++ times '.' (Int.fmod b.offset 10)) ++ '[' ::
          (join [',', ' '] (((mem.drop b.offset).take b.size).map T.repr) ++ ']' ::
            ((times '.' (Int.fmod ((mem.length : Int) - (b.offset + b.size)) 10) ++
              times '*' (Int.fdiv ((mem.length : Int) - (b.offset + b.size)) 10)) ++ ',' ::
              (" unspecified=".toList ++ (T.str b.unspec ++ ')' :: r))))))))) := by
    intro b mem r hl
    have e1 : ", ".toList = [',', ' '] := by simp
    have e2 : ", unspecified=".toList = ',' :: " unspecified=".toList := by decide +kernel
    have e3 : "[".toList = ['['] ∧ "]".toList = [']'] ∧ ")".toList = [')'] := by simp
    have e4 : shorten (listText (((mem.drop b.offset).take b.size).map T.repr)) =
        listText (((mem.drop b.offset).take b.size).map T.repr) := if_neg (Nat.not_lt.mpr hl)
    have e5 : bufferRepr T b mem = "Buffer(".toList ++ dec b.size ++ ", ".toList ++ dec b.offset ++ ", ".toList ++
        (times '*' (Int.fdiv b.offset 10) ++ times '.' (Int.fmod b.offset 10)) ++
        shorten (listText (((mem.drop b.offset).take b.size).map T.repr)) ++
        (times '.' (Int.fmod ((mem.length : Int) - (b.offset + b.size)) 10) ++
          times '*' (Int.fdiv ((mem.length : Int) - (b.offset + b.size)) 10)) ++
        ", unspecified=".toList ++ T.str b.unspec ++ ")".toList := rfl
    rw [e5, e4, listText]
    exact form _ _ _ _ _ _ _ _ _ _ _ _ _ _ e1 e3.1 e3.2.1 e2 e3.2.2
  rw [hform b1 mem1 r1 hl1, hform b2 mem2 r2 hl2] at h
  have h := List.append_cancel_left h
  obtain ⟨e1, h⟩ := split_at ',' _ _ _ _ (dec_no_comma _) (dec_no_comma _) h
  simp only [List.cons.injEq, true_and] at h
  obtain ⟨e2, h⟩ := split_at ',' _ _ _ _ (dec_no_comma _) (dec_no_comma _) h
  simp only [List.cons.injEq, true_and] at h
  have hmark : ∀ (c : Char) (x y : Int), c ≠ '*' → c ≠ '.' → c ∉ times '*' x ++ times '.' y ∧ c ∉ times '.' y ++ times '*' x := by
    intro c x y hc1 hc2
    simp only [List.mem_append, not_or]
    exact ⟨⟨fun h => hc1 (times_mem _ _ _ h), fun h => hc2 (times_mem _ _ _ h)⟩,
      ⟨fun h => hc2 (times_mem _ _ _ h), fun h => hc1 (times_mem _ _ _ h)⟩⟩
  obtain ⟨-, h⟩ := split_at '[' _ _ _ _ (hmark _ _ _ (by decide) (by decide)).1 (hmark _ _ _ (by decide) (by decide)).1 h
  obtain ⟨e3, h⟩ := split_at ']' _ _ _ _ (hnob _).2 (hnob _).2 h
  obtain ⟨e4, h⟩ := split_at ',' _ _ _ _ (hmark _ _ _ (by decide) (by decide)).2 (hmark _ _ _ (by decide) (by decide)).2 h
  have h := List.append_cancel_left h
  have s1 := dec_inj _ _ e1
  have s2 := dec_inj _ _ e2
  have s4 := marks_inj _ _ (by omega) (by omega) e4
  refine ⟨s1, s2, by omega, ?_, h⟩
  refine join_inj _ _ ?_ ?_ ?_ e3
  · simp only [List.length_map, List.length_take, List.length_drop]
    omega
  · intro s hs
    obtain ⟨v, _, rfl⟩ := List.mem_map.mp hs
    exact fun h => (hT v _ h).1 rfl
  · intro s hs
    obtain ⟨v, _, rfl⟩ := List.mem_map.mp hs
    exact fun h => (hT v _ h).1 rfl

/-- `repr` of a `Buffer` determines it: size, offset, number of items of the list after those of the buffer, texts of
the items and of the unspecified value; if the text of the items is not longer than 100 characters and the texts of
values have no comma and no brackets. -/
theorem C67_buffer_repr (T : Texts V) (b1 b2 : Buffer V) (mem1 mem2 : List V) (h1 : b1.offset + b1.size ≤ mem1.length)
    (h2 : b2.offset + b2.size ≤ mem2.length) (hT : ∀ v, ∀ c ∈ T.repr v, c ≠ ',' ∧ c ≠ '[' ∧ c ≠ ']')
    (hl1 : (", ".toList.intercalate (((mem1.drop b1.offset).take b1.size).map T.repr)).length + 2 ≤ 100)
    (hl2 : (", ".toList.intercalate (((mem2.drop b2.offset).take b2.size).map T.repr)).length + 2 ≤ 100)
    (h : bufferRepr T b1 mem1 = bufferRepr T b2 mem2) :
    b1.size = b2.size ∧ b1.offset = b2.offset ∧ mem1.length = mem2.length ∧
      ((mem1.drop b1.offset).take b1.size).map T.repr = ((mem2.drop b2.offset).take b2.size).map T.repr ∧
      T.str b1.unspec = T.str b2.unspec := by
  obtain ⟨e1, e2, e3, e4, e5⟩ := bufferRepr_rest T b1 b2 mem1 mem2 [] [] h1 h2 hT hl1 hl2 (by simpa using h)
  exact ⟨e1, e2, e3, e4, List.append_cancel_right e5⟩

/-! ### Strided -/

theorem join_inj' (l1 l2 : List Str) (n1 : l1 ≠ []) (n2 : l2 ≠ []) (h1 : ∀ s ∈ l1, ',' ∉ s) (h2 : ∀ s ∈ l2, ',' ∉ s)
    (h : join [',', ' '] l1 = join [',', ' '] l2) : l1 = l2 := by
  induction l1 generalizing l2 with
  | nil => exact absurd rfl n1
  | cons a l1 ih =>
    cases l2 with
    | nil => exact absurd rfl n2
    | cons b l2 =>
      cases l1 with
      | nil =>
        cases l2 with
        | nil => simpa [join] using h
        | cons b' l2 =>
          simp only [join] at h
          exact absurd (h ▸ (by simp : ',' ∈ b ++ [',', ' '] ++ join [',', ' '] (b' :: l2))) (h1 a (by simp))
      | cons a' l1 =>
        cases l2 with
        | nil =>
          simp only [join] at h
          exact absurd (h ▸ (by simp : ',' ∈ a ++ [',', ' '] ++ join [',', ' '] (a' :: l1))) (h2 b (by simp))
        | cons b' l2 =>
          simp only [join, List.append_assoc, List.cons_append, List.nil_append] at h
          obtain ⟨e, h'⟩ := split_at ',' _ _ _ _ (h1 a (by simp)) (h2 b (by simp)) h
          simp only [List.cons.injEq, true_and] at h'
          rw [e, ih (b' :: l2) (by simp) (by simp) (fun s hs => h1 s (by simp [hs])) (fun s hs => h2 s (by simp [hs])) h']

/-- What stands between the parentheses of a tuple. -/
def inner : List Str → Str
  | [s] => s ++ [',']
  | items => join [',', ' '] items

theorem tupleText_eq (l : List Str) : tupleText l = '(' :: (inner l ++ [')']) := by
  have e1 : "(".toList = ['('] ∧ ",)".toList = [',', ')'] ∧ ", ".toList = [',', ' '] ∧ ")".toList = [')'] := by simp
  match l with
  | [] => simp [tupleText, inner, join]
  | [s] => simp [tupleText, inner]
  | s :: t :: l =>
    rw [tupleText, e1.1, e1.2.2.1, e1.2.2.2, inner]
    · rfl
    · simp
    · simp

theorem inner_inj (l1 l2 : List Str) (h1 : ∀ s ∈ l1, ',' ∉ s) (h2 : ∀ s ∈ l2, ',' ∉ s) (h : inner l1 = inner l2) :
    l1 = l2 := by
  match l1, l2 with
  | [], [] => rfl
  | [], [b] => simp [inner, join] at h
  | [], b :: b' :: l2 => simp [inner, join] at h
  | [a], [] => simp [inner, join] at h
  | a :: a' :: l1, [] => simp [inner, join] at h
  | [a], [b] =>
    simp [inner] at h
    rw [h]
  | [a], b :: b' :: l2 =>
    simp only [inner, join, List.append_assoc, List.cons_append, List.nil_append] at h
    have := (split_at ',' _ _ _ _ (h1 a (by simp)) (h2 b (by simp)) h).2
    simp at this
  | a :: a' :: l1, [b] =>
    simp only [inner, join, List.append_assoc, List.cons_append, List.nil_append] at h
    have := (split_at ',' _ _ _ _ (h1 a (by simp)) (h2 b (by simp)) h).2
    simp at this
  | a :: a' :: l1, b :: b' :: l2 => exact join_inj' _ _ (by simp) (by simp) h1 h2 h

theorem inner_paren (l : List Str) (h : ∀ s ∈ l, ')' ∉ s) : ')' ∉ inner l := by
  have hj : ∀ l : List Str, (∀ s ∈ l, ')' ∉ s) → ')' ∉ join [',', ' '] l := by
    intro l
    induction l with
    | nil => intro _; simp [join]
    | cons a l ih =>
      intro h
      cases l with
      | nil => exact h a (by simp)
      | cons b l =>
        have h1 := h a (by simp)
        have h2 := ih fun s hs => h s (by simp [hs])
        simp only [join, List.mem_append, not_or]
        exact ⟨⟨h1, by decide⟩, h2⟩
  match l, h with
  | [], _ => simp [inner, join]
  | [s], h =>
    have := h s (by simp)
    simp [inner, this]
  | s :: t :: l, h => exact hj _ h

theorem dec_chars (n : Nat) : ',' ∉ dec n ∧ ')' ∉ dec n :=
  ⟨dec_no_comma n, fun h => absurd (isDigit_toDigits n _ h) (by decide)⟩

theorem intText_chars (i : Int) : ',' ∉ intText i ∧ ')' ∉ intText i := by
  have := dec_chars i.natAbs
  rw [intText]
  split
  · simp [this]
  · exact this

theorem intText_inj (i j : Int) (h : intText i = intText j) : i = j := by
  have hd : ∀ n : Nat, '-' ∉ dec n := fun n h => absurd (isDigit_toDigits n _ h) (by decide)
  rw [intText, intText] at h
  split at h <;> split at h
  · have := dec_inj _ _ (List.cons.inj h).2
    omega
  · exact absurd (h ▸ List.mem_cons_self) (hd _)
  · exact absurd (h.symm ▸ List.mem_cons_self) (hd _)
  · have := dec_inj _ _ h
    omega

theorem map_inj {α : Type} (f : α → Str) (hf : ∀ a b, f a = f b → a = b) (l1 l2 : List α) (h : l1.map f = l2.map f) :
    l1 = l2 := (List.map_inj_right (fun a b => hf a b)).mp h

theorem form3 (w c : Str) (l1 l2 : List Str) :
    w ++ tupleText [tupleText l1, tupleText l2, c] =
      w ++ ('(' :: '(' :: (inner l1 ++ ')' :: (',' :: ' ' :: '(' :: (inner l2 ++ ')' :: (',' :: ' ' :: (c ++ [')'])))))) := by
  rw [tupleText_eq, tupleText_eq, tupleText_eq]
  simp [inner, join]

/-- `repr` of a `Strided` determines its shape, its strides and the text of its buffer (which `C67_buffer_repr` is
about). -/
theorem C67_strided_repr (T : Texts V) (s1 s2 : Strided V) (mem1 mem2 : List V)
    (h : storageRepr T (.strided s1) mem1 = storageRepr T (.strided s2) mem2) :
    s1.shape = s2.shape ∧ s1.strides = s2.strides ∧
      storageRepr T (.buffer s1.data) mem1 = storageRepr T (.buffer s2.data) mem2 := by
  have hform : ∀ (s : Strided V) (mem : List V), storageRepr T (.strided s) mem = "Strided".toList ++ ('(' :: '(' ::
      (inner (s.shape.map dec) ++ ')' :: (',' :: ' ' :: '(' :: (inner (s.strides.map intText) ++ ')' ::
        (',' :: ' ' :: (bufferRepr T s.data mem ++ [')'])))))) := by
    intro s mem
    exact form3 _ _ _ _
  rw [hform, hform] at h
  have h := List.append_cancel_left h
  simp only [List.cons.injEq, true_and] at h
  have hp : ∀ s : Strided V, ')' ∉ inner (s.shape.map dec) ∧ ')' ∉ inner (s.strides.map intText) := by
    intro s
    refine ⟨inner_paren _ ?_, inner_paren _ ?_⟩
    · intro t ht
      obtain ⟨n, _, rfl⟩ := List.mem_map.mp ht
      exact (dec_chars n).2
    · intro t ht
      obtain ⟨n, _, rfl⟩ := List.mem_map.mp ht
      exact (intText_chars n).2
  obtain ⟨e1, h⟩ := split_at ')' _ _ _ _ (hp s1).1 (hp s2).1 h
  simp only [List.cons.injEq, true_and] at h
  obtain ⟨e2, h⟩ := split_at ')' _ _ _ _ (hp s1).2 (hp s2).2 h
  simp only [List.cons.injEq, true_and] at h
  refine ⟨map_inj dec dec_inj _ _ (inner_inj _ _ ?_ ?_ e1), map_inj intText intText_inj _ _ (inner_inj _ _ ?_ ?_ e2),
    List.append_cancel_right h⟩
  all_goals
    intro t ht
    obtain ⟨n, _, rfl⟩ := List.mem_map.mp ht
    first
      | exact (dec_chars n).1
      | exact (intText_chars n).1

/-! ### `show` -/

theorem foldl_max (l : List Nat) (a : Nat) : a ≤ l.foldl max a ∧ ∀ x ∈ l, x ≤ l.foldl max a := by
  induction l generalizing a with
  | nil => simp
  | cons y l ih =>
    obtain ⟨h1, h2⟩ := ih (max a y)
    refine ⟨by simp only [List.foldl_cons]; omega, ?_⟩
    intro x hx
    simp only [List.foldl_cons]
    rcases List.mem_cons.mp hx with hx | hx
    · subst hx; omega
    · exact h2 x hx

theorem foldl_max_mem (l : List Nat) (h : l ≠ []) : l.foldl max 0 ∈ l := by
  have key : ∀ (l : List Nat) (b : Nat), l.foldl max b = b ∨ l.foldl max b ∈ l := by
    intro l
    induction l with
    | nil => intro b; exact Or.inl rfl
    | cons z l ih =>
      intro b
      rw [List.foldl_cons]
      rcases ih (max b z) with h | h
      · rw [h]
        rcases Nat.le_total b z with hb | hb
        · rw [Nat.max_eq_right hb]; simp
        · rw [Nat.max_eq_left hb]; simp
      · exact Or.inr (List.mem_cons_of_mem _ h)
  cases l with
  | nil => exact absurd rfl h
  | cons y l =>
    rw [List.foldl_cons, Nat.max_eq_right (Nat.zero_le y)]
    rcases key l y with h | h
    · rw [h]; simp
    · exact List.mem_cons_of_mem _ h

theorem flatten_cell (w m : Nat) (f : Nat → Str) (hf : ∀ j, (f j).length = w) (j : Nat) (hj : j < m) :
    ((((List.range m).map f).flatten).drop (j * w)).take w = f j := by
  have key : ∀ (k : Nat) (g : Nat → Str), (∀ j, (g j).length = w) → ∀ j, j < k →
      ((((List.range k).map g).flatten).drop (j * w)).take w = g j := by
    intro k
    induction k with
    | zero => intro g _ j hj; omega
    | succ k ih =>
      intro g hg j hj
      rw [List.range_succ_eq_map, List.map_cons, List.flatten_cons, List.map_map]
      cases j with
      | zero =>
        rw [Nat.zero_mul, List.drop_zero]
        exact List.take_left' (hg 0)
      | succ j =>
        have : (j + 1) * w = (g 0).length + j * w := by rw [hg 0, Nat.succ_mul, Nat.add_comm]
        rw [this, ← List.drop_drop, List.drop_left]
        exact ih (g ∘ Nat.succ) (fun i => hg _) j (by omega)
  exact key m f hf j hj

theorem mem_of_lookup {α β : Type} [BEq α] [LawfulBEq α] (l : List (α × β)) (a : α) (b : β) (h : l.lookup a = some b) :
    (a, b) ∈ l := by
  induction l with
  | nil => simp at h
  | cons e l ih =>
    obtain ⟨a', b'⟩ := e
    rw [List.lookup_cons] at h
    by_cases e : a = a'
    · subst e
      simp at h
      simp [h]
    · have e' : (a == a') = false := by simpa using e
      rw [e'] at h
      exact List.mem_cons_of_mem _ (ih h)

/-- `show(A)` prints a matrix with a cell for each index up to the largest ones: columns of equal width, wider than any
number, numbers at the right of their cells, a hyphen where `A` has no entry. -/
theorem C67_show (A : List ((Nat × Nat) × Int)) (hA : A ≠ []) :
    ∃ (w n m : Nat) (rows : Nat → Str), showLines A = ['['] :: (List.range n).map rows ++ [[']']] ∧
      (∀ e ∈ A, e.1.1 < n ∧ e.1.2 < m ∧ (intText e.2).length < w) ∧
      (∃ e ∈ A, e.1.1 + 1 = n) ∧ (∃ e ∈ A, e.1.2 + 1 = m) ∧ (∃ e ∈ A, (intText e.2).length + 1 = w) ∧ (∀ i < n, (rows i).length = m * w) ∧
      ∀ i < n, ∀ j < m, ∃ t, ((rows i).drop (j * w)).take w = List.replicate (w - t.length) ' ' ++ t ∧ t.length ≤ w ∧
        (A.lookup (i, j) = none → t = ['-']) ∧ ∀ x, A.lookup (i, j) = some x → t = intText x := by
  have he : A.isEmpty = false := by
    cases A with
    | nil => exact absurd rfl hA
    | cons => rfl
  have hbr : "[".toList = ['['] ∧ "]".toList = [']'] ∧ "-".toList = ['-'] := by simp
  have hn := foldl_max (A.map fun e => e.1.1) 0
  have hm := foldl_max (A.map fun e => e.1.2) 0
  have hw := foldl_max (A.map fun e => (intText e.2).length) 0
  have hn' := foldl_max_mem (A.map fun e => e.1.1) (by simpa using hA)
  have hm' := foldl_max_mem (A.map fun e => e.1.2) (by simpa using hA)
  have hw' := foldl_max_mem (A.map fun e => (intText e.2).length) (by simpa using hA)
  generalize h1 : (A.map fun e => e.1.1).foldl max 0 = n at hn hn'
  generalize h2 : (A.map fun e => e.1.2).foldl max 0 = m at hm hm'
  generalize h3 : (A.map fun e => (intText e.2).length).foldl max 0 = w at hw hw'
  have hcell : ∀ i j, (((A.lookup (i, j)).map intText).getD ['-']).length ≤ w + 1 := by
    intro i j
    cases hl : A.lookup (i, j) with
    | none => simp
    | some x =>
      have : (intText x).length ≤ w := hw.2 _ (List.mem_map.mpr ⟨_, mem_of_lookup A _ _ hl, rfl⟩)
      simp only [Option.map_some, Option.getD_some]
      omega
  have hpad : ∀ i j, (padLeft (w + 1) (((A.lookup (i, j)).map intText).getD ['-'])).length = w + 1 := by
    intro i j
    have := hcell i j
    rw [padLeft, List.length_append, List.length_replicate]
    omega
  refine ⟨w + 1, n + 1, m + 1, fun i =>
    ((List.range (m + 1)).map fun j => padLeft (w + 1) (((A.lookup (i, j)).map intText).getD ['-'])).flatten, ?_, ?_, ?_, ?_, ?_, ?_, ?_⟩
  · simp only [showLines, he, h1, h2, h3, Bool.false_eq_true, if_false]
    rw [hbr.1, hbr.2.1, hbr.2.2]
    rfl
  · intro e hme
    have a1 := hn.2 _ (List.mem_map.mpr ⟨e, hme, rfl⟩)
    have a2 := hm.2 _ (List.mem_map.mpr ⟨e, hme, rfl⟩)
    have a3 := hw.2 _ (List.mem_map.mpr ⟨e, hme, rfl⟩)
    omega
  · obtain ⟨e, h, rfl⟩ := List.mem_map.mp hn'
    exact ⟨e, h, rfl⟩
  · obtain ⟨e, h, rfl⟩ := List.mem_map.mp hm'
    exact ⟨e, h, rfl⟩
  · obtain ⟨e, h, rfl⟩ := List.mem_map.mp hw'
    exact ⟨e, h, rfl⟩
  · intro i _
    have : ∀ k, (((List.range k).map fun j => padLeft (w + 1) (((A.lookup (i, j)).map intText).getD ['-'])).flatten).length =
        k * (w + 1) := by
      intro k
      induction k with
      | zero => simp
      | succ k ih => simp [List.range_succ, ih, hpad, Nat.succ_mul]
    exact this (m + 1)
  · intro i _ j hj
    refine ⟨((A.lookup (i, j)).map intText).getD ['-'], ?_, hcell i j, ?_, ?_⟩
    · rw [flatten_cell (w + 1) (m + 1) _ (hpad i) j hj]
      rfl
    · intro h; rw [h]; rfl
    · intro x h; rw [h]; rfl

/-! ### Concrete cases -/

/-- The last four of five items, in rows of two; the second column is `None` above `-4`. -/
def exStrided : Strided (Option Int) := ⟨[2, 2], [2, 1], ⟨4, 1, none⟩⟩

def exMem : List (Option Int) := [some 7, some 1, none, some 3, some (-4)]

example : exStrided.WF exMem :=
  ⟨rfl, by unfold Buffer.WF; decide, by
    intro ix h
    match ix, h with
    | [i, j], h =>
      simp only [exStrided, InBox, List.forall₂_cons] at h
      simp only [exStrided, address]
      simp [List.zipWith] at h ⊢
      omega⟩

example : (storageStr optTexts (.strided exStrided) exMem).toOption =
    some "[ [1, None]\n  [3, -4]\n]".toList := by decide +kernel

example : storageRepr optTexts (.strided exStrided) exMem =
    "Strided((2, 2), (2, 1), Buffer(4, 1, .[1, None, 3, -4], unspecified=None))".toList := by decide +kernel

/-- The texts of ints and `None` have no commas and no brackets: `C67_buffer_repr` applies to them. -/
theorem optTexts_plain (v : Option Int) : ∀ c ∈ optTexts.repr v, c ≠ ',' ∧ c ≠ '[' ∧ c ≠ ']' := by
  intro c hc
  cases v with
  | none =>
    have : ∀ c ∈ "None".toList, c ≠ ',' ∧ c ≠ '[' ∧ c ≠ ']' := by decide +kernel
    exact this c hc
  | some x =>
    have hd : ∀ n : Nat, ∀ c ∈ dec n, c ≠ ',' ∧ c ≠ '[' ∧ c ≠ ']' := fun n c hc => by
      have := isDigit_toDigits n c hc
      refine ⟨?_, ?_, ?_⟩ <;> (rintro rfl; exact absurd this (by decide))
    have h : c ∈ intText x := hc
    rw [intText] at h
    split at h
    · rcases List.mem_cons.mp h with rfl | h
      · decide
      · exact hd _ c h
    · exact hd _ c h

example : bufferRepr optTexts ⟨3, 12, some 0⟩ (List.replicate 30 (some (-1))) =
    "Buffer(3, 12, *..[-1, -1, -1].....*, unspecified=0)".toList := by decide +kernel

/-- A long buffer: an item in the middle does not show. -/
example : bufferRepr optTexts ⟨60, 0, none⟩ (List.replicate 60 (some 1)) =
    bufferRepr optTexts ⟨60, 0, none⟩ (List.replicate 30 (some 1) ++ some 2 :: List.replicate 29 (some 1)) := by
  decide +kernel

/-- An array of two rows without columns. -/
example : (match fromObject .strided (.nested (.seq [.seq [], .seq []] : Nested (Option Int))) none with
    | .ok (.fresh (.strided s) m) => some (s.shape, s.strides.length, m)
    | _ => none) = some ([2, 0], 2, []) := by decide +kernel

example : showLines [((0, 0), 2), ((0, 1), -1), ((1, 1), 10)] =
    ["[".toList, "  2 -1".toList, "  - 10".toList, "]".toList] := by decide +kernel

end Text
end Gcs
