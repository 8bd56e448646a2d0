/-
C79: objects with the same text are equal.
-/
import Verif.Props.Text
import Verif.Props.C2SR

namespace Gcs
namespace Text

open Version (Str dec split_at isDigit_toDigits)

variable {V : Type}

/-! ### Specification -/

/-- The buffer is inside its list, and the text of its items (with brackets) has no more than 100 characters, so that it is
printed in full. -/
def Spec.ShownInFull (T : Texts V) (b : Buffer V) (mem : List V) : Prop :=
  b.offset + b.size ≤ mem.length ∧ (", ".toList.intercalate (((mem.drop b.offset).take b.size).map T.repr)).length + 2 ≤ 100

/-- All buffers of the object are printed in full: those of its indices and that of its values. -/
def Spec.AllShown (T : Texts V) : Storage V → List V → Prop
  | .buffer b, mem => Spec.ShownInFull T b mem
  | .strided s, mem => Spec.ShownInFull T s.data mem
  | .coo c, mem => Spec.ShownInFull optTexts c.indices.data c.imem ∧ Spec.ShownInFull T c.data mem
  | .flatcoo f, mem => Spec.ShownInFull optTexts f.findices f.fmem ∧ Spec.ShownInFull T f.data mem
  | .csr c, mem => Spec.ShownInFull optTexts c.crow c.crowMem ∧ Spec.ShownInFull optTexts c.col c.colMem ∧
      Spec.ShownInFull T c.data mem
  | .dm _ d, mem => Spec.AllShown T d mem

/-- The texts of values: different for different values, and `repr` without commas and brackets. -/
structure Spec.Plain (T : Texts V) : Prop where
  repr_inj : ∀ v w, T.repr v = T.repr w → v = w
  str_inj : ∀ v w, T.str v = T.str w → v = w
  chars : ∀ v, ∀ c ∈ T.repr v, c ≠ ',' ∧ c ≠ '[' ∧ c ≠ ']'

/-- The text of a tuple with the given texts of its items. -/
def Spec.tuple (items : List Str) : Str :=
  if items.length = 1 then '(' :: items.flatten ++ ",)".toList else '(' :: ", ".toList.intercalate items ++ [')']

open Spec

/-! ### The form of the texts -/

theorem tuple_eq (l : List Str) : tupleText l = Spec.tuple l := by
  match l with
  | [] => simp [tupleText, Spec.tuple, join]
  | [a] => simp [tupleText, Spec.tuple]
  | a :: b :: l =>
    have e : "(".toList = ['('] ∧ ")".toList = [')'] := by simp
    rw [tupleText, Spec.tuple, if_neg (by simp), join_eq, e.1, e.2]
    · rfl
    · simp

theorem words (w w' : Str) (items : List Str) (h2 : items.length ≠ 1) (h : w' = w ++ ['(']) :
    w ++ tupleText items = w' ++ ", ".toList.intercalate items ++ [')'] := by
  subst h
  rw [tuple_eq, Spec.tuple, if_neg h2]
  simp

/-- C79: the texts of the classes are the name and the parts in parentheses, with commas between them; shapes, strides and
groups of axes are printed as tuples, ints in decimal with a minus sign where they are negative. -/
theorem C79_forms (T : Texts V) (mem : List V) :
    (∀ s : Strided V, storageRepr T (.strided s) mem = "Strided(".toList ++ ", ".toList.intercalate
      [Spec.tuple (s.shape.map (Nat.toDigits 10)), Spec.tuple (s.strides.map intText), storageRepr T (.buffer s.data) mem] ++ [')']) ∧
    (∀ c : COO V, storageRepr T (.coo c) mem = "COO(".toList ++ ", ".toList.intercalate
      [Spec.tuple (c.shape.map (Nat.toDigits 10)), storageRepr optTexts (.strided c.indices) c.imem,
        storageRepr T (.buffer c.data) mem] ++ [')']) ∧
    (∀ f : FlatCOO V, storageRepr T (.flatcoo f) mem = "FlatCOO(".toList ++ ", ".toList.intercalate
      [Spec.tuple (f.shape.map (Nat.toDigits 10)), storageRepr optTexts (.buffer f.findices) f.fmem,
        storageRepr T (.buffer f.data) mem] ++ [')']) ∧
    (∀ c : CSR V, storageRepr T (.csr c) mem = "CSR(".toList ++ ", ".toList.intercalate
      [Spec.tuple (c.shape.map (Nat.toDigits 10)), storageRepr optTexts (.buffer c.crow) c.crowMem,
        storageRepr optTexts (.buffer c.col) c.colMem, storageRepr T (.buffer c.data) mem] ++ [')']) ∧
    (∀ (m : DMMeta) (d : Storage V), storageRepr T (.dm m d) mem = "DM(".toList ++ ", ".toList.intercalate
      [Spec.tuple (m.shape.map (Nat.toDigits 10)), Spec.tuple (m.rdims.map fun g => Spec.tuple (g.map (Nat.toDigits 10))),
        Spec.tuple (m.rstrides.map fun g => Spec.tuple (g.map intText)), Spec.tuple (m.roffset.map intText),
        storageRepr T d mem] ++ [')']) ∧
    (∀ c : C2SR V, c.repr T mem = "C2SR(".toList ++ ", ".toList.intercalate
      [Spec.tuple (c.shape.map (Nat.toDigits 10)), intText c.channels, storageRepr optTexts (.buffer c.rowLengths) c.rowLengthsMem,
        storageRepr optTexts (.buffer c.rowPointers) c.rowPointersMem, storageRepr optTexts (.buffer c.col) c.colMem,
        storageRepr T (.buffer c.data) mem] ++ [')']) ∧
    (∀ n : Nat, intText n = Nat.toDigits 10 n ∧ intText (-(n + 1)) = '-' :: Nat.toDigits 10 (n + 1)) ∧
    (optTexts.str none = "None".toList ∧ optTexts.repr none = "None".toList) ∧
    ∀ x : Int, optTexts.str (some x) = intText x ∧ optTexts.repr (some x) = intText x := by
  have hd : (dec : Nat → Str) = Nat.toDigits 10 := rfl
  have hs : ∀ l : List Nat, Spec.tuple (l.map (Nat.toDigits 10)) = shapeText l := fun l => (tuple_eq _).symm
  have hi : ∀ l : List Int, Spec.tuple (l.map intText) = intsText l := fun l => (tuple_eq _).symm
  refine ⟨fun s => ?_, fun c => ?_, fun f => ?_, fun c => ?_, fun m d => ?_, fun c => ?_, fun n => ⟨?_, ?_⟩, ⟨rfl, rfl⟩, fun x => ⟨rfl, rfl⟩⟩
  · rw [hs, hi]
    exact words _ _ _ (by simp) (by decide +kernel)
  · rw [hs]
    exact words _ _ _ (by simp) (by decide +kernel)
  · rw [hs]
    exact words _ _ _ (by simp) (by decide +kernel)
  · rw [hs]
    exact words _ _ _ (by simp) (by decide +kernel)
  · simp only [hs, hi]
    rw [← tuple_eq, ← tuple_eq]
    exact words _ _ _ (by simp) (by decide +kernel)
  · rw [hs]
    exact words _ _ _ (by simp) (by decide +kernel)
  · rw [intText, if_neg (by omega), hd]
    congr 1
  · rw [intText, if_pos (by omega), hd]
    congr 2

/-! ### Ints -/

theorem optText_paren (v : Option Int) : ')' ∉ optTexts.str v := by
  cases v with
  | none => decide +kernel
  | some x => exact (intText_chars x).2

theorem optText_inj (v w : Option Int) (h : optTexts.repr v = optTexts.repr w) : v = w := by
  have hn : ∀ x : Int, "None".toList ≠ intText x := by
    intro x hx
    have hN : 'N' ∈ intText x := hx ▸ (by decide +kernel)
    have hd : ∀ n : Nat, 'N' ∉ dec n := fun n h => absurd (isDigit_toDigits n _ h) (by decide)
    rw [intText] at hN
    split at hN
    · rcases List.mem_cons.mp hN with h | h
      · exact absurd h (by decide)
      · exact hd _ h
    · exact hd _ hN
  match v, w with
  | none, none => rfl
  | none, some x => exact absurd h (hn x)
  | some x, none => exact absurd h.symm (hn x)
  | some x, some y => rw [intText_inj x y h]

/-- The texts of ints and `None` are such texts. -/
theorem optTexts_ok : Plain optTexts := ⟨optText_inj, optText_inj, optTexts_plain⟩

/-! ### Parts of texts -/

theorem buffer_rest {V : Type} [DecidableEq V] (T : Texts V) (hT : Plain T) (b1 b2 : Buffer V) (mem1 mem2 : List V)
    (r1 r2 : Str) (h1 : ShownInFull T b1 mem1) (h2 : ShownInFull T b2 mem2) (hr : (∀ v, ')' ∉ T.str v) ∨ r1 = r2)
    (h : bufferRepr T b1 mem1 ++ r1 = bufferRepr T b2 mem2 ++ r2) :
    b1.eq mem1 b2 mem2 = true ∧ r1 = r2 := by
  obtain ⟨e1, e2, e3, e4, e5⟩ := bufferRepr_rest T b1 b2 mem1 mem2 r1 r2 h1.1 h2.1 hT.chars h1.2 h2.2 h
  have e4' := map_inj T.repr hT.repr_inj _ _ e4
  have e6 : T.str b1.unspec = T.str b2.unspec ∧ r1 = r2 := by
    rcases hr with hr | rfl
    · exact split_at ')' _ _ _ _ (hr _) (hr _) e5
    · exact ⟨List.append_cancel_right e5, rfl⟩
  exact ⟨(Buffer.eq_iff _ _ _ _).2 ⟨e1, e4', hT.str_inj _ _ e6.1⟩, e6.2⟩

theorem tuple_rest {α : Type} (f : α → Str) (hf : ∀ a b, f a = f b → a = b) (hc : ∀ a, ',' ∉ f a ∧ ')' ∉ f a)
    (l1 l2 : List α) (r1 r2 : Str) (h : tupleText (l1.map f) ++ r1 = tupleText (l2.map f) ++ r2) : l1 = l2 ∧ r1 = r2 := by
  rw [tupleText_eq, tupleText_eq] at h
  simp only [List.cons_append, List.append_assoc, List.cons.injEq, true_and, List.nil_append] at h
  have hp : ∀ l : List α, ')' ∉ inner (l.map f) := fun l => inner_paren _ fun t ht => by
    obtain ⟨a, _, rfl⟩ := List.mem_map.mp ht
    exact (hc a).2
  have hk : ∀ l : List α, ∀ t ∈ l.map f, ',' ∉ t := fun l t ht => by
    obtain ⟨a, _, rfl⟩ := List.mem_map.mp ht
    exact (hc a).1
  obtain ⟨e1, e2⟩ := split_at ')' _ _ _ _ (hp l1) (hp l2) h
  exact ⟨map_inj f hf _ _ (inner_inj _ _ (hk l1) (hk l2) e1), e2⟩

theorem shape_rest (l1 l2 : List Nat) (r1 r2 : Str) (h : shapeText l1 ++ r1 = shapeText l2 ++ r2) : l1 = l2 ∧ r1 = r2 :=
  tuple_rest dec dec_inj dec_chars l1 l2 r1 r2 h

theorem ints_rest (l1 l2 : List Int) (r1 r2 : Str) (h : intsText l1 ++ r1 = intsText l2 ++ r2) : l1 = l2 ∧ r1 = r2 :=
  tuple_rest intText intText_inj intText_chars l1 l2 r1 r2 h

/-- A function giving texts that can be read off the beginning of a longer text. -/
def Readable {α : Type} (g : α → Str) : Prop :=
  (∀ a, ∃ t, g a = '(' :: t) ∧ ∀ a b r1 r2, g a ++ r1 = g b ++ r2 → a = b ∧ r1 = r2

theorem join_rest {α : Type} (g : α → Str) (hg : Readable g) (a b : α) (l1 l2 : List α) (r1 r2 : Str)
    (h : join [',', ' '] ((a :: l1).map g) ++ ')' :: r1 = join [',', ' '] ((b :: l2).map g) ++ ')' :: r2) :
    a :: l1 = b :: l2 ∧ r1 = r2 := by
  induction l1 generalizing a b l2 with
  | nil =>
    cases l2 with
    | nil =>
      simp only [List.map_cons, List.map_nil, join] at h
      obtain ⟨rfl, e⟩ := hg.2 _ _ _ _ h
      exact ⟨rfl, (List.cons.inj e).2⟩
    | cons b' l2 =>
      simp only [List.map_cons, List.map_nil, join, List.append_assoc] at h
      obtain ⟨_, e⟩ := hg.2 _ _ _ _ h
      simp at e
  | cons a' l1 ih =>
    cases l2 with
    | nil =>
      simp only [List.map_cons, List.map_nil, join, List.append_assoc] at h
      obtain ⟨_, e⟩ := hg.2 _ _ _ _ h
      simp at e
    | cons b' l2 =>
      simp only [List.map_cons, join, List.append_assoc] at h
      obtain ⟨rfl, e⟩ := hg.2 _ _ _ _ h
      obtain ⟨e1, e2⟩ := ih a' b' l2 (List.append_cancel_left e)
      exact ⟨by rw [e1], e2⟩

theorem nested_rest {α : Type} (g : α → Str) (hg : Readable g) (l1 l2 : List α) (r1 r2 : Str)
    (h : tupleText (l1.map g) ++ r1 = tupleText (l2.map g) ++ r2) : l1 = l2 ∧ r1 = r2 := by
  rw [tupleText_eq, tupleText_eq] at h
  simp only [List.cons_append, List.append_assoc, List.cons.injEq, true_and, List.nil_append] at h
  match l1, l2, h with
  | [], [], h => exact ⟨rfl, by simpa [inner, join] using h⟩
  | [], [b], h =>
    obtain ⟨t, ht⟩ := hg.1 b
    simp [inner, join, ht] at h
  | [], b :: b' :: l2, h =>
    obtain ⟨t, ht⟩ := hg.1 b
    simp [inner, join, ht] at h
  | [a], [], h =>
    obtain ⟨t, ht⟩ := hg.1 a
    simp [inner, join, ht] at h
  | a :: a' :: l1, [], h =>
    obtain ⟨t, ht⟩ := hg.1 a
    simp [inner, join, ht] at h
  | [a], [b], h =>
    simp only [inner, List.map_cons, List.map_nil, List.append_assoc] at h
    obtain ⟨rfl, e⟩ := hg.2 _ _ _ _ h
    exact ⟨rfl, by simpa using e⟩
  | [a], b :: b' :: l2, h =>
    simp only [inner, List.map_cons, List.map_nil, join, List.append_assoc] at h
    obtain ⟨_, e⟩ := hg.2 _ _ _ _ h
    simp at e
  | a :: a' :: l1, [b], h =>
    simp only [inner, List.map_cons, List.map_nil, join, List.append_assoc] at h
    obtain ⟨_, e⟩ := hg.2 _ _ _ _ h
    simp at e
  | a :: a' :: l1, b :: b' :: l2, h => exact join_rest g hg a b (a' :: l1) (b' :: l2) r1 r2 h

theorem readable_shape : Readable shapeText :=
  ⟨fun l => ⟨_, tupleText_eq _⟩, fun a b r1 r2 h => shape_rest a b r1 r2 h⟩

theorem readable_ints : Readable intsText :=
  ⟨fun l => ⟨_, tupleText_eq _⟩, fun a b r1 r2 h => ints_rest a b r1 r2 h⟩

theorem tuple3 (w a b c r : Str) : w ++ tupleText [a, b, c] ++ r =
    w ++ '(' :: (a ++ (',' :: ' ' :: (b ++ (',' :: ' ' :: (c ++ (')' :: r)))))) := by
  simp [tupleText_eq, inner, join]

theorem tuple4 (w a b c d r : Str) : w ++ tupleText [a, b, c, d] ++ r =
    w ++ '(' :: (a ++ (',' :: ' ' :: (b ++ (',' :: ' ' :: (c ++ (',' :: ' ' :: (d ++ (')' :: r)))))))) := by
  simp [tupleText_eq, inner, join]

theorem tuple5 (w a b c d e r : Str) : w ++ tupleText [a, b, c, d, e] ++ r =
    w ++ '(' :: (a ++ (',' :: ' ' :: (b ++ (',' :: ' ' :: (c ++ (',' :: ' ' :: (d ++ (',' :: ' ' :: (e ++ (')' :: r)))))))))) := by
  simp [tupleText_eq, inner, join]

theorem tuple6 (w a b c d e f r : Str) : w ++ tupleText [a, b, c, d, e, f] ++ r =
    w ++ '(' :: (a ++ (',' :: ' ' :: (b ++ (',' :: ' ' :: (c ++ (',' :: ' ' :: (d ++ (',' :: ' ' :: (e ++ (',' :: ' ' ::
      (f ++ (')' :: r)))))))))))) := by
  simp [tupleText_eq, inner, join]

theorem drop3 {a b : Str} (h : ',' :: ' ' :: a = ',' :: ' ' :: b) : a = b := by simpa using h

theorem strided_rest [DecidableEq V] (T : Texts V) (hT : Plain T) (s1 s2 : Strided V) (mem1 mem2 : List V) (r1 r2 : Str)
    (h1 : ShownInFull T s1.data mem1) (h2 : ShownInFull T s2.data mem2) (hr : (∀ v, ')' ∉ T.str v) ∨ r1 = r2)
    (h : stridedRepr T s1 mem1 ++ r1 = stridedRepr T s2 mem2 ++ r2) :
    s1.eq mem1 s2 mem2 = true ∧ r1 = r2 := by
  have h := List.append_cancel_left ((tuple3 _ _ _ _ _).symm.trans (h.trans (tuple3 _ _ _ _ _)))
  obtain ⟨e1, h⟩ := shape_rest _ _ _ _ (List.cons.inj h).2
  obtain ⟨e2, h⟩ := ints_rest _ _ _ _ (drop3 h)
  obtain ⟨e3, h⟩ := buffer_rest T hT _ _ _ _ _ _ h1 h2 (hr.imp id fun e => by rw [e]) (drop3 h)
  exact ⟨(Strided.eq_iff _ _ _ _).2 ⟨e1, e2, e3⟩, (List.cons.inj h).2⟩

/-- The names of the classes, as in the texts. -/
def clsName : Cls → Str
  | .buffer => "Buffer".toList
  | .strided => "Strided".toList
  | .coo => "COO".toList
  | .flatcoo => "FlatCOO".toList
  | .csr => "CSR".toList
  | .dm => "DM".toList

theorem name_inj (c1 c2 : Cls) (h : clsName c1 = clsName c2) : c1 = c2 := by
  cases c1 <;> cases c2 <;> first | rfl | exact absurd h (by decide +kernel)

theorem name_paren (c : Cls) : '(' ∉ clsName c := by cases c <;> decide +kernel

theorem buffer_word (w d a e p t u x y z q : Str) (hw : w = clsName .buffer ++ ['(']) :
    w ++ d ++ a ++ e ++ a ++ p ++ t ++ u ++ x ++ y ++ z ++ q =
      clsName .buffer ++ '(' :: (d ++ a ++ e ++ a ++ p ++ t ++ u ++ x ++ y ++ z ++ q) := by
  subst hw
  simp

theorem repr_name (T : Texts V) (s : Storage V) (mem : List V) : ∃ t, storageRepr T s mem = clsName s.cls ++ '(' :: t := by
  cases s with
  | buffer b =>
    refine ⟨_, (List.append_nil _).symm.trans (buffer_word _ _ _ _ _ _ _ _ _ _ [] ?_)⟩
    decide +kernel
  | strided s => exact ⟨_, (List.append_nil _).symm.trans (tuple3 _ _ _ _ _)⟩
  | coo c => exact ⟨_, (List.append_nil _).symm.trans (tuple3 _ _ _ _ _)⟩
  | flatcoo f => exact ⟨_, (List.append_nil _).symm.trans (tuple3 _ _ _ _ _)⟩
  | csr c => exact ⟨_, (List.append_nil _).symm.trans (tuple4 _ _ _ _ _ _)⟩
  | dm m d => exact ⟨_, (List.append_nil _).symm.trans (tuple5 _ _ _ _ _ _ _)⟩

theorem same_class (T : Texts V) (s1 s2 : Storage V) (mem1 mem2 : List V)
    (h : storageRepr T s1 mem1 = storageRepr T s2 mem2) : s1.cls = s2.cls := by
  obtain ⟨t1, h1⟩ := repr_name T s1 mem1
  obtain ⟨t2, h2⟩ := repr_name T s2 mem2
  rw [h1, h2] at h
  exact name_inj _ _ (split_at '(' _ _ _ _ (name_paren _) (name_paren _) h).1

/-- C79: two objects with the same `repr` are `==`, if their buffers are printed in full and the texts of the values are
different for different values and have no commas and brackets. -/
theorem C79_repr_eq [DecidableEq V] (T : Texts V) (hT : Plain T) (s1 s2 : Storage V) (mem1 mem2 : List V)
    (h1 : AllShown T s1 mem1) (h2 : AllShown T s2 mem2) (h : storageRepr T s1 mem1 = storageRepr T s2 mem2) :
    s1.eq mem1 s2 mem2 = true := by
  have hi := optTexts_ok
  have hp : (∀ v, ')' ∉ optTexts.str v) := optText_paren
  induction s1 generalizing s2 with
  | buffer b =>
    cases s2 with
    | buffer b' =>
      exact (buffer_rest T hT b b' mem1 mem2 [] [] h1 h2 (Or.inr rfl) (congrArg (· ++ []) h)).1
    | _ => exact absurd (same_class T _ _ _ _ h) (by simp [Storage.cls])
  | strided s =>
    cases s2 with
    | strided s' =>
      exact (strided_rest T hT s s' mem1 mem2 [] [] h1 h2 (Or.inr rfl) (congrArg (· ++ []) h)).1
    | _ => exact absurd (same_class T _ _ _ _ h) (by simp [Storage.cls])
  | coo c =>
    cases s2 with
    | coo c' =>
      have h := List.append_cancel_left ((tuple3 _ _ _ _ []).symm.trans ((congrArg (· ++ []) h).trans (tuple3 _ _ _ _ _)))
      obtain ⟨e1, h⟩ := shape_rest _ _ _ _ (List.cons.inj h).2
      obtain ⟨e2, h⟩ := strided_rest optTexts hi _ _ _ _ _ _ h1.1 h2.1 (Or.inl hp) (drop3 h)
      obtain ⟨e3, h⟩ := buffer_rest T hT _ _ _ _ _ _ h1.2 h2.2 (Or.inr rfl) (drop3 h)
      simp [Storage.eq, e1, e2, e3]
    | _ => exact absurd (same_class T _ _ _ _ h) (by simp [Storage.cls])
  | flatcoo f =>
    cases s2 with
    | flatcoo f' =>
      have h := List.append_cancel_left ((tuple3 _ _ _ _ []).symm.trans ((congrArg (· ++ []) h).trans (tuple3 _ _ _ _ _)))
      obtain ⟨e1, h⟩ := shape_rest _ _ _ _ (List.cons.inj h).2
      obtain ⟨e2, h⟩ := buffer_rest optTexts hi _ _ _ _ _ _ h1.1 h2.1 (Or.inl hp) (drop3 h)
      obtain ⟨e3, h⟩ := buffer_rest T hT _ _ _ _ _ _ h1.2 h2.2 (Or.inr rfl) (drop3 h)
      simp [Storage.eq, e1, e2, e3]
    | _ => exact absurd (same_class T _ _ _ _ h) (by simp [Storage.cls])
  | csr c =>
    cases s2 with
    | csr c' =>
      have h := List.append_cancel_left ((tuple4 _ _ _ _ _ []).symm.trans ((congrArg (· ++ []) h).trans (tuple4 _ _ _ _ _ _)))
      obtain ⟨e1, h⟩ := shape_rest _ _ _ _ (List.cons.inj h).2
      obtain ⟨e2, h⟩ := buffer_rest optTexts hi _ _ _ _ _ _ h1.1 h2.1 (Or.inl hp) (drop3 h)
      obtain ⟨e3, h⟩ := buffer_rest optTexts hi _ _ _ _ _ _ h1.2.1 h2.2.1 (Or.inl hp) (drop3 h)
      obtain ⟨e4, h⟩ := buffer_rest T hT _ _ _ _ _ _ h1.2.2 h2.2.2 (Or.inr rfl) (drop3 h)
      simp [Storage.eq, e1, e2, e3, e4]
    | _ => exact absurd (same_class T _ _ _ _ h) (by simp [Storage.cls])
  | dm m d ih =>
    cases s2 with
    | dm m' d' =>
      have h := List.append_cancel_left
        ((tuple5 _ _ _ _ _ _ []).symm.trans ((congrArg (· ++ []) h).trans (tuple5 _ _ _ _ _ _ _)))
      obtain ⟨e1, h⟩ := shape_rest _ _ _ _ (List.cons.inj h).2
      obtain ⟨e2, h⟩ := nested_rest _ readable_shape _ _ _ _ (drop3 h)
      obtain ⟨e3, h⟩ := nested_rest _ readable_ints _ _ _ _ (drop3 h)
      obtain ⟨e4, h⟩ := ints_rest _ _ _ _ (drop3 h)
      have e5 := ih d' h1 h2 (List.append_cancel_right (drop3 h))
      simp [Storage.eq, e1, e2, e3, e4, e5]
    | _ => exact absurd (same_class T _ _ _ _ h) (by simp [Storage.cls])

/-- C79 for `C2SR`. -/
theorem C79_c2sr [DecidableEq V] (T : Texts V) (hT : Plain T) (c d : C2SR V) (mem1 mem2 : List V)
    (hc : ShownInFull optTexts c.rowLengths c.rowLengthsMem ∧ ShownInFull optTexts c.rowPointers c.rowPointersMem ∧
      ShownInFull optTexts c.col c.colMem ∧ ShownInFull T c.data mem1)
    (hd : ShownInFull optTexts d.rowLengths d.rowLengthsMem ∧ ShownInFull optTexts d.rowPointers d.rowPointersMem ∧
      ShownInFull optTexts d.col d.colMem ∧ ShownInFull T d.data mem2)
    (h : c.repr T mem1 = d.repr T mem2) : c.eq mem1 d mem2 = true := by
  have hi := optTexts_ok
  have hp : (∀ v, ')' ∉ optTexts.str v) := optText_paren
  have h := List.append_cancel_left
    ((tuple6 _ _ _ _ _ _ _ []).symm.trans ((congrArg (· ++ []) h).trans (tuple6 _ _ _ _ _ _ _ _)))
  obtain ⟨e1, h⟩ := shape_rest _ _ _ _ (List.cons.inj h).2
  obtain ⟨e2, h⟩ := split_at ',' _ _ _ _ (intText_chars _).1 (intText_chars _).1 (drop3 h)
  obtain ⟨e3, h⟩ := buffer_rest optTexts hi _ _ _ _ _ _ hc.1 hd.1 (Or.inl hp) (List.cons.inj h).2
  obtain ⟨e4, h⟩ := buffer_rest optTexts hi _ _ _ _ _ _ hc.2.1 hd.2.1 (Or.inl hp) (drop3 h)
  obtain ⟨e5, h⟩ := buffer_rest optTexts hi _ _ _ _ _ _ hc.2.2.1 hd.2.2.1 (Or.inl hp) (drop3 h)
  obtain ⟨e6, h⟩ := buffer_rest T hT _ _ _ _ _ _ hc.2.2.2 hd.2.2.2 (Or.inr rfl) (drop3 h)
  simp [C2SR.eq, e1, intText_inj _ _ e2, e3, e4, e5, e6]

/-- A case of C79: a `COO` with its index list and value list, all of whose buffers are printed in full. -/
example :
    let c : COO (Option Int) := ⟨[2, 3], ⟨[2, 2], [2, 1], ⟨4, 0, none⟩⟩, [some 0, some 1, some 2, some 0], ⟨2, 1, none⟩⟩
    AllShown optTexts (.coo c) [some 9, some 5, some (-1)] ∧
    storageRepr optTexts (.coo c) [some 9, some 5, some (-1)] = ("COO((2, 3), Strided((2, 2), (2, 1), " ++
      "Buffer(4, 0, [0, 1, 2, 0], unspecified=None)), Buffer(2, 1, .[5, -1], unspecified=None))").toList ∧
    storageRepr optTexts (.coo c) [some 9, some 5, some (-1)] = storageRepr optTexts (.coo c) [some 7, some 5, some (-1)] ∧
    (Storage.coo c).eq [some 9, some 5, some (-1)] (.coo c) [some 7, some 5, some (-1)] = true := by
  refine ⟨⟨⟨by decide, by decide +kernel⟩, ⟨by decide, by decide +kernel⟩⟩, by decide +kernel, by decide +kernel, by decide +kernel⟩

/-- A `DM` with groups of one and of two axes. -/
example : storageRepr optTexts (.dm ⟨[2, 1, 2], [[0, 2], [1]], [[2, 2], [1]], [[2, 1], [1]], [0, -1]⟩
      (.strided ⟨[4, 1], [1, 1], ⟨4, 0, some 0⟩⟩)) [some 1, none, some 3, some 4] =
    ("DM((2, 1, 2), ((0, 2), (1,)), ((2, 1), (1,)), (0, -1), " ++
      "Strided((4, 1), (1, 1), Buffer(4, 0, [1, None, 3, 4], unspecified=0)))").toList := by
  decide +kernel

end Text
end Gcs
