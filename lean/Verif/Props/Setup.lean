import Verif.Model.Setup
import Verif.Props.VersionAgree

/-!
# C92: the installer of versioneer.py
-/

namespace Gcs
namespace Version

/-! ### Specification -/

/-- A word without white space. -/
def Spec.Solid (w : Str) : Prop := w ≠ [] ∧ ∀ c ∈ w, isSpace c = false

/-- `w` is one of the words of the text: white space or the ends of the text around it. -/
def Spec.Word (w text : Str) : Prop :=
  Spec.Solid w ∧ ∃ a b, text = a ++ (w ++ b) ∧ (a = [] ∨ ∃ a' c, a = a' ++ [c] ∧ isSpace c = true) ∧
    (b = [] ∨ ∃ c b', b = c :: b' ∧ isSpace c = true)

/-- `l` is one of the lines of the text, without its line feed. -/
def Spec.HasLine (l text : Str) : Prop :=
  '\n' ∉ l ∧ ∃ p q, text = p ++ (l ++ q) ∧ (p = [] ∨ ∃ p', p = p' ++ ['\n']) ∧ (q = [] ∨ ∃ q', q = '\n' :: q')

/-- A line of `MANIFEST.in` that includes the file of this name. -/
def Spec.Included (name : Str) (manifest : Option Str) : Prop :=
  ∃ text rest, manifest = some text ∧ Spec.HasLine ("include ".toList ++ rest) text ∧ Spec.Word name rest

/-- A line of `.gitattributes` that begins with the file and has the attribute: git puts the keywords into this file. -/
def Spec.Marked (source : Str) (attributes : Option Str) : Prop :=
  ∃ text blanks c rest, attributes = some text ∧ (∀ b ∈ blanks, isSpace b = true) ∧ isSpace c = true ∧
    Spec.HasLine (blanks ++ (source ++ c :: rest)) text ∧ Spec.Word "export-subst".toList rest

/-- No file, an empty file, or a file whose last line is complete. -/
def Spec.Complete (file : Option Str) : Prop := ∀ text, file = some text → text = [] ∨ ∃ t, text = t ++ ['\n']

/-- The text is somewhere in the other. -/
def Spec.Within (p s : Str) : Prop := ∃ a b, s = a ++ (p ++ b)

/-- A line of `.gitattributes` for another file, whose name begins with that of the version file. -/
def Spec.OtherFile (source : Str) (attributes : Option Str) : Prop :=
  ∃ text blanks more c rest, attributes = some text ∧ (∀ b ∈ blanks, isSpace b = true) ∧ Spec.Solid more ∧ isSpace c = true ∧
    Spec.HasLine (blanks ++ (source ++ (more ++ c :: rest))) text ∧ Spec.Word "export-subst".toList rest

/-- The package's file imports the version. -/
def Spec.Imports (init : Option Str) : Prop := ∀ text, init = some text → Spec.Within initSnippet text

/-- The text that a file has: none is empty. -/
def Spec.Grows (old new : Option Str) : Prop := ∃ more, new.getD [] = old.getD [] ++ more

/-- The files in the order of `git add`. -/
def Spec.get (t : Tree) : File → Option Str
  | .version => t.version
  | .init => t.init
  | .manifest => t.manifest
  | .attributes => t.attributes
  | .versioneer => none

/-- The tree after a number of runs. -/
def Spec.runs (source long : Str) : Nat → Tree → Tree
  | 0, t => t
  | n + 1, t => Spec.runs source long n (doSetup (.found source) long t).1

/-! ### Proofs -/

theorem occursIn_iff (p s : Str) : occursIn p s = true ↔ Spec.Within p s := by
  induction s with
  | nil =>
    rw [occursIn]
    constructor
    · intro h
      have : p = [] := by simpa using h
      exact ⟨[], [], by simp [this]⟩
    · rintro ⟨a, b, h⟩
      have := List.append_eq_nil_iff.1 h.symm
      have := List.append_eq_nil_iff.1 this.2
      simp [this.1]
  | cons c s ih =>
    rw [occursIn, Bool.or_eq_true, ih, List.isPrefixOf_iff_prefix]
    constructor
    · rintro (⟨b, h⟩ | ⟨a, b, h⟩)
      · exact ⟨[], b, h.symm⟩
      · exact ⟨c :: a, b, by rw [h]; rfl⟩
    · rintro ⟨a, b, h⟩
      cases a with
      | nil => exact Or.inl ⟨b, h.symm⟩
      | cons x a =>
        simp only [List.cons_append, List.cons.injEq] at h
        exact Or.inr ⟨a, b, h.2⟩

/-! Words -/

theorem wordsFrom_solid (w word s : Str) (h : ∀ c ∈ w, isSpace c = false) :
    wordsFrom word (w ++ s) = wordsFrom (word ++ w) s := by
  induction w generalizing word with
  | nil => simp
  | cons c w ih =>
    rw [List.cons_append, wordsFrom, if_neg (by simp [h c (by simp)]), ih _ fun x hx => h x (by simp [hx])]
    simp

/-- The words of a text up to a blank, and after it. -/
theorem wordsFrom_blank (word a s : Str) (c : Char) (hc : isSpace c = true) :
    wordsFrom word (a ++ c :: s) = wordsFrom word a ++ wordsFrom [] s := by
  induction a generalizing word with
  | nil =>
    rw [List.nil_append, show wordsFrom word (c :: s) = _ from rfl, wordsFrom, wordsFrom, if_pos hc]
    split <;> rfl
  | cons x a ih =>
    rw [List.cons_append, wordsFrom, wordsFrom]
    split
    · split
      · exact ih []
      · rw [ih]; rfl
    · exact ih _

theorem mem_wordsFrom (w s : Str) : ∀ word, (∀ c ∈ word, isSpace c = false) → w ∈ wordsFrom word s → Spec.Word w (word ++ s) := by
  induction s with
  | nil =>
    intro word hw h
    rw [wordsFrom] at h
    split at h
    · simp at h
    · rename_i hne
      have : w = word := by simpa using h
      subst this
      exact ⟨⟨hne, hw⟩, [], [], by simp, Or.inl rfl, Or.inl rfl⟩
  | cons c s ih =>
    intro word hw h
    rw [wordsFrom] at h
    split at h
    · rename_i hc
      have tail : w ∈ wordsFrom [] s → Spec.Word w (word ++ c :: s) := by
        intro h
        obtain ⟨h1, a, b, h2, h3, h4⟩ := ih [] (by simp) h
        rw [List.nil_append] at h2
        refine ⟨h1, word ++ c :: a, b, by rw [h2]; simp, Or.inr ?_, h4⟩
        rcases h3 with rfl | ⟨a', d, rfl, hd⟩
        · exact ⟨word, c, rfl, hc⟩
        · exact ⟨word ++ c :: a', d, by simp, hd⟩
      split at h
      · exact tail h
      · rename_i hne
        rcases List.mem_cons.1 h with rfl | h
        · exact ⟨⟨hne, hw⟩, [], c :: s, by simp, Or.inl rfl, Or.inr ⟨c, s, rfl, hc⟩⟩
        · exact tail h
    · rename_i hc
      have := ih (word ++ [c]) (by
        intro x hx
        rcases List.mem_append.1 hx with hx | hx
        · exact hw x hx
        · have : x = c := by simpa using hx
          subst this; simpa using hc) h
      rwa [List.append_assoc] at this

theorem mem_words (w s : Str) : w ∈ words s ↔ Spec.Word w s := by
  constructor
  · intro h
    exact mem_wordsFrom w s [] (by simp) h
  · rintro ⟨⟨hne, hs⟩, a, b, rfl, ha, hb⟩
    have key : w ∈ wordsFrom [] (w ++ b) := by
      rw [wordsFrom_solid w [] b hs, List.nil_append]
      rcases hb with rfl | ⟨c, b', rfl, hc⟩
      · rw [wordsFrom, if_neg hne]; simp
      · rw [wordsFrom, if_pos hc, if_neg hne]; simp
    rcases ha with rfl | ⟨a', c, rfl, hc⟩
    · exact key
    · rw [words, List.append_assoc, List.singleton_append, wordsFrom_blank _ _ _ _ hc]
      simp [key]

theorem words_blanks (blanks s : Str) (h : ∀ c ∈ blanks, isSpace c = true) : words (blanks ++ s) = words s := by
  induction blanks with
  | nil => rfl
  | cons c b ih =>
    rw [List.cons_append, words, wordsFrom, if_pos (h c (by simp)), if_pos rfl]
    exact ih fun x hx => h x (by simp [hx])

theorem words_append_blanks (blanks s : Str) (h : ∀ c ∈ blanks, isSpace c = true) : words (s ++ blanks) = words s := by
  cases blanks with
  | nil => simp
  | cons c b =>
    rw [words, wordsFrom_blank _ _ _ _ (h c (by simp))]
    have := words_blanks b [] fun x hx => h x (by simp [hx])
    simp only [List.append_nil, words] at this
    rw [this]
    simp [words, wordsFrom]

/-- What `strip` removes. -/
theorem strip_parts (s : Str) : ∃ a b, s = a ++ (strip s ++ b) ∧ (∀ c ∈ a, isSpace c = true) ∧ ∀ c ∈ b, isSpace c = true := by
  refine ⟨s.takeWhile isSpace, ((s.dropWhile isSpace).reverse.takeWhile isSpace).reverse, ?_,
    List.all_eq_true.1 List.all_takeWhile, ?_⟩
  · rw [strip, stripBy, ← List.reverse_append, List.takeWhile_append_dropWhile, List.reverse_reverse,
      List.takeWhile_append_dropWhile]
  · intro c hc
    exact List.all_eq_true.1 List.all_takeWhile c (by simpa using hc)

theorem words_strip (s : Str) : words (strip s) = words s := by
  obtain ⟨a, b, h, ha, hb⟩ := strip_parts s
  have e := congrArg words h
  rw [words_blanks a _ ha, words_append_blanks b _ hb] at e
  exact e.symm

theorem strip_of (blanks s : Str) (c : Char) (hb : ∀ x ∈ blanks, isSpace x = true) (hc : isSpace c = false) :
    ∃ s', strip (blanks ++ c :: s) = c :: s' ∧ ∃ e, s = s' ++ e ∧ ∀ x ∈ e, isSpace x = true := by
  have e : (blanks ++ c :: s).dropWhile isSpace = c :: s := by
    induction blanks with
    | nil => exact List.dropWhile_cons_of_neg (by simp [hc])
    | cons b bs ih =>
      rw [List.cons_append, List.dropWhile_cons_of_pos (hb b (by simp))]
      exact ih fun x hx => hb x (by simp [hx])
  have key : ∀ r : Str, ∃ r' e, (r ++ [c]).dropWhile isSpace = r' ++ [c] ∧ r = e ++ r' ∧ ∀ x ∈ e, isSpace x = true := by
    intro r
    induction r with
    | nil => exact ⟨[], [], List.dropWhile_cons_of_neg (by simp [hc]), rfl, by simp⟩
    | cons x r ih =>
      by_cases hx : isSpace x = true
      · rw [List.cons_append, List.dropWhile_cons_of_pos hx]
        obtain ⟨r', e, h1, h2, h3⟩ := ih
        exact ⟨r', x :: e, h1, by rw [h2]; rfl, by
          intro y hy
          rcases List.mem_cons.1 hy with rfl | hy
          · exact hx
          · exact h3 y hy⟩
      · rw [List.cons_append, List.dropWhile_cons_of_neg hx]
        exact ⟨x :: r, [], rfl, rfl, by simp⟩
  obtain ⟨r', e', h1, h2, h3⟩ := key s.reverse
  refine ⟨r'.reverse, ?_, e'.reverse, ?_, fun x hx => h3 x (by simpa using hx)⟩
  · rw [strip, stripBy, e, List.reverse_cons, h1, List.reverse_append]
    rfl
  · have := congrArg List.reverse h2
    simpa using this

/-! Lines -/

theorem readLines_last (b : Str) (h : '\n' ∉ b) (hne : b ≠ []) : readLines b = [b] := by
  induction b with
  | nil => exact absurd rfl hne
  | cons c b ih =>
    simp only [List.mem_cons, not_or] at h
    rw [readLines, if_neg fun e => h.1 e.symm]
    cases b with
    | nil => rfl
    | cons d b => rw [ih h.2 (by simp)]

/-- A text has no line feed, or a first line. -/
theorem first_line (text : Str) : '\n' ∉ text ∨ ∃ b s, text = b ++ '\n' :: s ∧ '\n' ∉ b := by
  induction text with
  | nil => exact Or.inl (by simp)
  | cons c s ih =>
    by_cases hc : c = '\n'
    · subst hc
      exact Or.inr ⟨[], s, rfl, by simp⟩
    · rcases ih with h | ⟨b, s, rfl, h⟩
      · exact Or.inl (by simp only [List.mem_cons, not_or]; exact ⟨fun e => hc e.symm, h⟩)
      · exact Or.inr ⟨c :: b, s, rfl, by simp only [List.mem_cons, not_or]; exact ⟨fun e => hc e.symm, h⟩⟩

theorem hasLine_cons (l b s : Str) (hb : '\n' ∉ b) : Spec.HasLine l (b ++ '\n' :: s) ↔ l = b ∨ Spec.HasLine l s := by
  constructor
  · rintro ⟨h1, p, q, h2, h3, h4⟩
    rcases h3 with rfl | ⟨p', rfl⟩
    · left
      rcases h4 with rfl | ⟨q', rfl⟩
      · exfalso
        rw [List.nil_append, List.append_nil] at h2
        exact h1 (h2 ▸ by simp)
      · rw [List.nil_append] at h2
        exact (newline_unique b l s q' hb h1 h2).symm
    · right
      rw [List.append_assoc, List.singleton_append] at h2
      refine ⟨h1, ?_⟩
      induction b generalizing p' with
      | nil =>
        cases p' with
        | nil =>
          simp only [List.nil_append, List.cons.injEq, true_and] at h2
          exact ⟨[], q, h2, Or.inl rfl, h4⟩
        | cons x p' =>
          simp only [List.nil_append, List.cons_append, List.cons.injEq] at h2
          exact ⟨p' ++ ['\n'], q, by rw [h2.2]; simp, Or.inr ⟨p', rfl⟩, h4⟩
      | cons x b ih =>
        cases p' with
        | nil =>
          simp only [List.nil_append, List.cons_append, List.cons.injEq] at h2
          exact absurd (by rw [h2.1]; simp) hb
        | cons y p' =>
          simp only [List.cons_append, List.cons.injEq] at h2
          exact ih (by simp only [List.mem_cons, not_or] at hb; exact hb.2) p' h2.2
  · rintro (rfl | ⟨h1, p, q, rfl, h3, h4⟩)
    · exact ⟨hb, [], '\n' :: s, rfl, Or.inl rfl, Or.inr ⟨s, rfl⟩⟩
    · refine ⟨h1, b ++ '\n' :: p, q, by simp, Or.inr ?_, h4⟩
      rcases h3 with rfl | ⟨p', rfl⟩
      · exact ⟨b, rfl⟩
      · exact ⟨b ++ '\n' :: p', by simp⟩

theorem hasLine_last (l b : Str) (hb : '\n' ∉ b) : Spec.HasLine l b ↔ l = b := by
  constructor
  · rintro ⟨h1, p, q, rfl, h3, h4⟩
    simp only [List.mem_append, not_or] at hb
    rcases h3 with rfl | ⟨p', rfl⟩
    · rcases h4 with rfl | ⟨q', rfl⟩
      · simp
      · exact absurd (by simp) hb.2.2
    · exact absurd (by simp) hb.1
  · rintro rfl
    exact ⟨hb, [], [], by simp, Or.inl rfl, Or.inl rfl⟩

/-- The lines as Python reads them. -/
theorem mem_readLines (P : Str → Prop) (hP : ∀ l, P (l ++ ['\n']) ↔ P l) (h0 : ¬ P []) (text : Str) :
    (∃ l ∈ readLines text, P l) ↔ ∃ l, Spec.HasLine l text ∧ P l := by
  generalize hn : text.length = n
  induction n using Nat.strongRecOn generalizing text with
  | ind n ih =>
    rcases first_line text with h | ⟨b, s, rfl, hb⟩
    · by_cases he : text = []
      · subst he
        constructor
        · rintro ⟨l, hl, _⟩
          simp [readLines] at hl
        · rintro ⟨l, hl, hp⟩
          rw [hasLine_last _ _ (by simp)] at hl
          subst hl
          exact absurd hp h0
      · rw [readLines_last text h he]
        constructor
        · rintro ⟨l, hl, hp⟩
          have : l = text := by simpa using hl
          exact ⟨l, (hasLine_last _ _ h).2 this, hp⟩
        · rintro ⟨l, hl, hp⟩
          exact ⟨l, by simpa using (hasLine_last _ _ h).1 hl, hp⟩
    · have ih := ih s.length (by rw [← hn]; simp; omega) s rfl
      rw [readLines_cons b hb]
      constructor
      · rintro ⟨l, hl, hp⟩
        rcases List.mem_cons.1 hl with rfl | hl
        · exact ⟨b, (hasLine_cons _ _ _ hb).2 (Or.inl rfl), (hP b).1 hp⟩
        · obtain ⟨l', h1, h2⟩ := ih.1 ⟨l, hl, hp⟩
          exact ⟨l', (hasLine_cons _ _ _ hb).2 (Or.inr h1), h2⟩
      · rintro ⟨l, hl, hp⟩
        rcases (hasLine_cons _ _ _ hb).1 hl with rfl | hl
        · exact ⟨l ++ ['\n'], by simp, (hP l).2 hp⟩
        · obtain ⟨l', h1, h2⟩ := ih.2 ⟨l, hl, hp⟩
          exact ⟨l', by simp [h1], h2⟩

/-! The lines that the installer looks for -/

theorem isSpace_newline : isSpace '\n' = true := by decide

theorem mem_simpleIncludes (name : Str) (manifest : Option Str) :
    name ∈ simpleIncludes manifest ↔ Spec.Included name manifest := by
  cases manifest with
  | none =>
    constructor
    · intro h; simp [simpleIncludes] at h
    · rintro ⟨t, r, h, _⟩; cases h
  | some text =>
    have e : ∀ l : Str, (∃ r, l = "include ".toList ++ r ∧ name ∈ words r) ↔
        "include ".toList.isPrefixOf l = true ∧ name ∈ (words l).drop 1 := by
      intro l
      have hw : ∀ r, (words ("include ".toList ++ r)).drop 1 = words r := by
        intro r
        have : "include ".toList ++ r = "include".toList ++ ' ' :: r := by
          rw [show "include ".toList = "include".toList ++ [' '] from by decide, List.append_assoc]
          rfl
        rw [this, words, wordsFrom_blank _ _ _ _ (by decide),
          show wordsFrom [] "include".toList = ["include".toList] from by decide]
        rfl
      constructor
      · rintro ⟨r, rfl, h⟩
        exact ⟨List.isPrefixOf_iff_prefix.2 (List.prefix_append _ _), by rw [hw]; exact h⟩
      · rintro ⟨h1, h2⟩
        obtain ⟨r, rfl⟩ := List.isPrefixOf_iff_prefix.1 h1
        rw [hw] at h2
        exact ⟨r, rfl, h2⟩
    have key := mem_readLines (fun l => ∃ r, l = "include ".toList ++ r ∧ name ∈ words r) (by
      intro l
      constructor
      · rintro ⟨r, h1, h2⟩
        rcases List.eq_nil_or_concat r with rfl | ⟨r', c, rfl⟩
        · simp [words, wordsFrom] at h2
        · rw [List.concat_eq_append, ← List.append_assoc] at h1
          obtain ⟨h3, h4⟩ := List.append_inj' h1 rfl
          refine ⟨r', h3, ?_⟩
          rw [List.concat_eq_append, words_append_blanks] at h2
          · exact h2
          · intro x hx
            rw [← h4] at hx
            have : x = '\n' := by simpa using hx
            rw [this]; exact isSpace_newline
      · rintro ⟨r, rfl, h2⟩
        refine ⟨r ++ ['\n'], by rw [List.append_assoc], ?_⟩
        rw [words_append_blanks]
        · exact h2
        · intro x hx
          have : x = '\n' := by simpa using hx
          rw [this]; exact isSpace_newline) (by
      rintro ⟨r, h, _⟩
      exact absurd h (by simp)) text
    have h1 : name ∈ simpleIncludes (some text) ↔ ∃ l ∈ readLines text, ∃ r, l = "include ".toList ++ r ∧ name ∈ words r := by
      simp only [simpleIncludes, List.mem_flatMap]
      constructor
      · rintro ⟨l, hl, h⟩
        refine ⟨l, hl, (e l).2 ?_⟩
        split at h
        · rename_i hp
          exact ⟨hp, h⟩
        · simp at h
      · rintro ⟨l, hl, h⟩
        obtain ⟨h1, h2⟩ := (e l).1 h
        exact ⟨l, hl, by rw [if_pos h1]; exact h2⟩
    rw [h1, key]
    constructor
    · rintro ⟨l, hl, r, rfl, hn⟩
      exact ⟨text, r, rfl, hl, (mem_words _ _).1 hn⟩
    · rintro ⟨t, r, ht, hl, hn⟩
      cases ht
      exact ⟨_, hl, r, rfl, (mem_words _ _).2 hn⟩

/-- A line of `.gitattributes` that the installer takes for the one of the version file: its first word begins with the name, and the
attribute follows. -/
def Looks (source l : Str) : Prop :=
  ∃ blanks more c rest, (∀ b ∈ blanks, isSpace b = true) ∧ (∀ c ∈ more, isSpace c = false) ∧ isSpace c = true ∧
    l = blanks ++ (source ++ (more ++ c :: rest)) ∧ "export-subst".toList ∈ words rest

theorem words_first (w : Str) (hw : Spec.Solid w) (c : Char) (hc : isSpace c = true) (rest : Str) :
    words (w ++ c :: rest) = w :: words rest := by
  rw [words, wordsFrom_solid w [] _ hw.2, List.nil_append, wordsFrom, if_pos hc, if_neg hw.1]
  rfl

theorem looks_iff (source : Str) (hs : Spec.Solid source) (line : Str) :
    (source.isPrefixOf (strip line) = true ∧ "export-subst".toList ∈ (words (strip line)).drop 1) ↔ Looks source line := by
  constructor
  · rintro ⟨h1, h2⟩
    obtain ⟨blanks, rest0, hb, rfl⟩ := strip_prefix _ _ h1
    have hm : ∀ c ∈ rest0.takeWhile (fun c => !isSpace c), isSpace c = false := by
      intro c hc
      have := List.all_eq_true.1 (List.all_takeWhile (l := rest0) (p := fun c => !isSpace c)) c hc
      simpa using this
    have hr := List.takeWhile_append_dropWhile (p := fun c => !isSpace c) (l := rest0)
    have hd : ∀ c r, rest0.dropWhile (fun c => !isSpace c) = c :: r → isSpace c = true := by
      intro c r h
      have := List.head?_dropWhile_not (fun c => !isSpace c) rest0
      rw [h] at this
      simpa using this
    generalize rest0.takeWhile (fun c => !isSpace c) = more at *
    generalize rest0.dropWhile (fun c => !isSpace c) = rest at *
    subst hr
    rw [words_strip, words_blanks _ _ hb, ← List.append_assoc source] at h2
    have hsm : Spec.Solid (source ++ more) := ⟨by simp [hs.1], by
      intro c hc
      rcases List.mem_append.1 hc with hc | hc
      · exact hs.2 c hc
      · exact hm c hc⟩
    cases rest with
    | nil =>
      exfalso
      have := wordsFrom_solid (source ++ more) [] [] hsm.2
      rw [words, this, wordsFrom, List.nil_append, if_neg hsm.1] at h2
      simp at h2
    | cons c r =>
      have hc := hd c r rfl
      rw [words_first _ hsm c hc] at h2
      exact ⟨blanks, more, c, r, hb, hm, hc, rfl, h2⟩
  · rintro ⟨blanks, more, c, rest, hb, hm, hc, rfl, h⟩
    have hsm : Spec.Solid (source ++ more) := ⟨by simp [hs.1], by
      intro c hc
      rcases List.mem_append.1 hc with hc | hc
      · exact hs.2 c hc
      · exact hm c hc⟩
    constructor
    · cases source with
      | nil => exact absurd rfl hs.1
      | cons c0 s0 =>
        obtain ⟨s', e1, e, e2, e3⟩ := strip_of blanks (s0 ++ (more ++ c :: rest)) c0 hb (hs.2 c0 (by simp))
        rw [List.cons_append, e1, List.isPrefixOf_iff_prefix]
        rcases List.append_eq_append_iff.1 e2 with ⟨t, ht, _⟩ | ⟨t, ht, ht'⟩
        · exact ⟨t, by rw [ht]; rfl⟩
        · cases t with
          | nil => exact ⟨[], by rw [ht]; simp⟩
          | cons x t =>
            have h1 := e3 x (by rw [ht']; simp)
            have h2 := hs.2 x (by rw [ht]; simp)
            rw [h1] at h2
            cases h2
    · rw [words_strip, words_blanks _ _ hb, ← List.append_assoc source, words_first _ hsm c hc]
      exact h

theorem newline_blank : ∀ x ∈ ['\n'], isSpace x = true := by decide

theorem looks_newline (source l : Str) : Looks source (l ++ ['\n']) ↔ Looks source l := by
  constructor
  · rintro ⟨blanks, more, c, rest, hb, hm, hc, h, hw⟩
    rcases List.eq_nil_or_concat rest with rfl | ⟨r, d, rfl⟩
    · simp [words, wordsFrom] at hw
    · rw [List.concat_eq_append] at h hw
      have h' : l ++ ['\n'] = (blanks ++ (source ++ (more ++ c :: r))) ++ [d] := by rw [h]; simp
      obtain ⟨h3, h4⟩ := List.append_inj' h' rfl
      rw [← h4, words_append_blanks _ _ newline_blank] at hw
      exact ⟨blanks, more, c, r, hb, hm, hc, h3, hw⟩
  · rintro ⟨blanks, more, c, rest, hb, hm, hc, rfl, hw⟩
    exact ⟨blanks, more, c, rest ++ ['\n'], hb, hm, hc, by simp, by rw [words_append_blanks _ _ newline_blank]; exact hw⟩

theorem attributePresent_iff (source : Str) (hs : Spec.Solid source) (text : Str) :
    attributePresent source (some text) = true ↔ ∃ l, Spec.HasLine l text ∧ Looks source l := by
  rw [← mem_readLines (Looks source) (looks_newline source) (by
    rintro ⟨blanks, more, c, rest, _, _, _, h, _⟩
    exact absurd h (by simp)) text]
  simp only [attributePresent, List.any_eq_true, Bool.and_eq_true, decide_eq_true_eq]
  constructor
  · rintro ⟨l, hl, h⟩
    exact ⟨l, hl, (looks_iff source hs l).1 h⟩
  · rintro ⟨l, hl, h⟩
    exact ⟨l, hl, (looks_iff source hs l).2 h⟩

theorem within_split (p b s : Str) (hp : '\n' ∉ p) (hne : p ≠ []) (h : Spec.Within p (b ++ '\n' :: s)) :
    Spec.Within p b ∨ Spec.Within p s := by
  obtain ⟨a, e, h⟩ := h
  induction b generalizing a with
  | nil =>
    cases a with
    | nil =>
      cases p with
      | nil => exact absurd rfl hne
      | cons x p =>
        simp only [List.nil_append, List.cons_append, List.cons.injEq] at h
        exact absurd (by rw [h.1]; simp) hp
    | cons x a =>
      simp only [List.nil_append, List.cons_append, List.cons.injEq] at h
      exact Or.inr ⟨a, e, h.2⟩
  | cons x b ih =>
    cases a with
    | nil =>
      rw [List.nil_append] at h
      rcases List.append_eq_append_iff.1 h with ⟨t, h1, h2⟩ | ⟨t, h1, h2⟩
      · cases t with
        | nil => exact Or.inl ⟨[], [], by rw [h1]; simp⟩
        | cons y t =>
          simp only [List.cons_append, List.cons.injEq] at h2
          exact absurd (by rw [h1, ← h2.1]; simp) hp
      · exact Or.inl ⟨[], t, h1⟩
    | cons y a =>
      simp only [List.cons_append, List.cons.injEq] at h
      rcases ih a h.2 with ⟨a', e', h'⟩ | h'
      · exact Or.inl ⟨x :: a', e', by rw [h']; rfl⟩
      · exact Or.inr h'

theorem within_line (p : Str) (hp : '\n' ∉ p) (hne : p ≠ []) (text : Str) (h : Spec.Within p text) :
    ∃ l, Spec.HasLine l text ∧ Spec.Within p l := by
  generalize hn : text.length = n
  induction n using Nat.strongRecOn generalizing text with
  | ind n ih =>
    rcases first_line text with hl | ⟨b, s, rfl, hb⟩
    · exact ⟨text, (hasLine_last _ _ hl).2 rfl, h⟩
    · rcases within_split p b s hp hne h with h | h
      · exact ⟨b, (hasLine_cons _ _ _ hb).2 (Or.inl rfl), h⟩
      · obtain ⟨l, h1, h2⟩ := ih s.length (by rw [← hn]; simp; omega) s h rfl
        exact ⟨l, (hasLine_cons _ _ _ hb).2 (Or.inr h1), h2⟩

theorem inSomeLine_iff (p text : Str) (hp : '\n' ∉ p) (hne : p ≠ []) : inSomeLine p text = true ↔ Spec.Within p text := by
  have key := mem_readLines (Spec.Within p) (by
    intro l
    constructor
    · intro h
      rcases within_split p l [] hp hne h with h | ⟨a, b, h⟩
      · exact h
      · have := List.append_eq_nil_iff.1 h.symm
        exact absurd (List.append_eq_nil_iff.1 this.2).1 hne
    · rintro ⟨a, b, rfl⟩
      exact ⟨a, b ++ ['\n'], by simp⟩) (by
    rintro ⟨a, b, h⟩
    have := List.append_eq_nil_iff.1 h.symm
    exact absurd (List.append_eq_nil_iff.1 this.2).1 hne) text
  have e : inSomeLine p text = true ↔ ∃ l ∈ readLines text, Spec.Within p l := by
    simp only [inSomeLine, List.any_eq_true, occursIn_iff]
  rw [e, key]
  constructor
  · rintro ⟨l, ⟨_, p', q, rfl, _, _⟩, a, b, rfl⟩
    exact ⟨p' ++ a, b ++ q, by simp⟩
  · exact within_line p hp hne text

theorem present_iff (source : Str) (hs : Spec.Solid source) (attributes : Option Str) :
    attributePresent source attributes = true ↔ Spec.Marked source attributes ∨ Spec.OtherFile source attributes := by
  cases attributes with
  | none =>
    constructor
    · intro h; cases h
    · rintro (⟨t, b, c, r, h, _⟩ | ⟨t, b, m, c, r, h, _⟩) <;> cases h
  | some text =>
    rw [attributePresent_iff source hs]
    constructor
    · rintro ⟨l, hl, blanks, more, c, rest, hb, hm, hc, rfl, hw⟩
      rw [mem_words] at hw
      by_cases he : more = []
      · subst he
        exact Or.inl ⟨text, blanks, c, rest, rfl, hb, hc, hl, hw⟩
      · exact Or.inr ⟨text, blanks, more, c, rest, rfl, hb, ⟨he, hm⟩, hc, hl, hw⟩
    · rintro (⟨t, b, c, r, h, hb, hc, hl, hw⟩ | ⟨t, b, m, c, r, h, hb, hm, hc, hl, hw⟩)
      · cases h
        exact ⟨_, hl, b, [], c, r, hb, by simp, hc, rfl, (mem_words _ _).2 hw⟩
      · cases h
        exact ⟨_, hl, b, m, c, r, hb, hm.2, hc, rfl, (mem_words _ _).2 hw⟩

theorem complete_append (file : Option Str) (h : Spec.Complete file) (l : Str) :
    Spec.Complete (append file (l ++ ['\n'])) := by
  intro text ht
  simp only [append, Option.some.injEq] at ht
  exact Or.inr ⟨file.getD [] ++ l, by rw [← ht]; simp⟩

/-- A line appended to a complete file is a line of the new file. -/
theorem hasLine_append (file : Option Str) (h : Spec.Complete file) (l : Str) (hl : '\n' ∉ l) (more : Str) :
    Spec.HasLine l (file.getD [] ++ (l ++ '\n' :: more)) := by
  refine ⟨hl, file.getD [], '\n' :: more, rfl, ?_, Or.inr ⟨more, rfl⟩⟩
  cases file with
  | none => exact Or.inl rfl
  | some text => exact h text rfl

/-- The lines of a complete file stay. -/
theorem hasLine_more (text : Str) (h : Spec.Complete (some text)) (l : Str) (hne : l ≠ []) (hl : Spec.HasLine l text) (more : Str) :
    Spec.HasLine l (text ++ more) := by
  obtain ⟨h1, p, q, rfl, h3, h4⟩ := hl
  refine ⟨h1, p, q ++ more, by simp, h3, ?_⟩
  rcases h4 with rfl | ⟨q', rfl⟩
  · exfalso
    rcases h _ rfl with h | ⟨t, h⟩
    · simp [hne] at h
    · rcases List.eq_nil_or_concat l with rfl | ⟨l', c, rfl⟩
      · exact hne rfl
      · rw [List.concat_eq_append, List.append_nil, ← List.append_assoc] at h
        have := (List.append_inj' h rfl).2
        rw [List.concat_eq_append, this] at h1
        simp at h1
  · exact Or.inr ⟨q' ++ more, rfl⟩

theorem included_more (name : Str) (text : Str) (h : Spec.Complete (some text)) (hi : Spec.Included name (some text)) (more : Str) :
    Spec.Included name (append (some text) more) := by
  obtain ⟨t, r, ht, hl, hw⟩ := hi
  cases ht
  exact ⟨_, r, rfl, hasLine_more text h _ (by simp) hl more, hw⟩

theorem solid_noNewline (w : Str) (h : ∀ c ∈ w, isSpace c = false) : '\n' ∉ w := by
  intro hm
  have := h _ hm
  rw [isSpace_newline] at this
  cases this

theorem word_self (w : Str) (h : Spec.Solid w) : Spec.Word w w := ⟨h, [], [], by simp, Or.inl rfl, Or.inl rfl⟩

theorem solid_versioneer : Spec.Solid "versioneer.py".toList := ⟨by decide, by decide⟩

theorem included_append (name : Str) (hn : Spec.Solid name) (file : Option Str) (h : Spec.Complete file) :
    Spec.Included name (append file ("include ".toList ++ (name ++ ['\n']))) := by
  refine ⟨_, name, rfl, ?_, word_self name hn⟩
  have := hasLine_append file h ("include ".toList ++ name) (by
    rw [List.mem_append, not_or]
    exact ⟨by decide, solid_noNewline name hn.2⟩) []
  rw [List.append_assoc] at this
  exact this

theorem versioneer_line : "include versioneer.py\n".toList = "include ".toList ++ ("versioneer.py".toList ++ ['\n']) := by
  decide

theorem setupManifest_included (source : Str) (hs : Spec.Solid source) (m : Option Str) (h : Spec.Complete m) :
    Spec.Included "versioneer.py".toList (setupManifest source m) ∧ Spec.Included source (setupManifest source m) := by
  have step : ∀ (name : Str), Spec.Solid name → ∀ m : Option Str, Spec.Complete m →
      Spec.Complete (if name ∈ simpleIncludes m then m else append m ("include ".toList ++ (name ++ ['\n']))) ∧
      Spec.Included name (if name ∈ simpleIncludes m then m else append m ("include ".toList ++ (name ++ ['\n']))) := by
    intro name hn m h
    by_cases hi : name ∈ simpleIncludes m
    · rw [if_pos hi]
      exact ⟨h, (mem_simpleIncludes _ _).1 hi⟩
    · rw [if_neg hi]
      refine ⟨?_, included_append name hn m h⟩
      have := complete_append m h ("include ".toList ++ name)
      rwa [List.append_assoc] at this
  obtain ⟨c1, i1⟩ := step _ solid_versioneer m h
  rw [setupManifest, versioneer_line]
  generalize hm1 : (if "versioneer.py".toList ∈ simpleIncludes m then m
    else append m ("include ".toList ++ ("versioneer.py".toList ++ ['\n']))) = m1 at *
  by_cases hi : source ∈ simpleIncludes m
  · rw [if_pos hi]
    refine ⟨i1, ?_⟩
    have h2 := (mem_simpleIncludes _ _).1 hi
    rw [← hm1]
    split
    · exact h2
    · cases m with
      | none => obtain ⟨t, r, ht, _⟩ := h2; cases ht
      | some text => exact included_more source text h h2 _
  · rw [if_neg hi]
    refine ⟨?_, included_append source hs m1 c1⟩
    cases m1 with
    | none => obtain ⟨t, r, ht, _⟩ := i1; cases ht
    | some text => exact included_more _ text c1 i1 _

theorem solid_export : Spec.Solid "export-subst".toList := ⟨by decide, by decide⟩

theorem marked_append (source : Str) (hs : Spec.Solid source) (file : Option Str) (h : Spec.Complete file) :
    Spec.Marked source (append file (source ++ " export-subst\n".toList)) := by
  refine ⟨_, [], ' ', "export-subst".toList, rfl, by simp, by decide, ?_, word_self _ solid_export⟩
  have := hasLine_append file h (source ++ " export-subst".toList) (by
    rw [List.mem_append, not_or]
    exact ⟨solid_noNewline source hs.2, by decide⟩) []
  rw [List.append_assoc] at this
  exact this

theorem within_append (p old : Str) : Spec.Within p (old ++ p) := ⟨old, [], by simp⟩

theorem setupInit_imports (init : Option Str) : Spec.Imports (setupInit init) := by
  intro text ht
  cases init with
  | none => cases ht
  | some old =>
    rw [setupInit] at ht
    split at ht
    · rename_i h
      cases ht
      exact (occursIn_iff _ _).1 h
    · cases ht
      exact within_append _ _

/-- C92.  A run of the installer with a configuration: afterwards `MANIFEST.in` includes the two files, the file of the package (if
there is one) imports the version and `.gitattributes` marks the version file, unless it marked a file with a longer name before.
The version file is as given; `setup.cfg` is not touched. -/
theorem C92_result (source long : Str) (t : Tree) (hs : Spec.Solid source) (hm : Spec.Complete t.manifest)
    (ha : Spec.Complete t.attributes) :
    let r := doSetup (.found source) long t
    r.2.2 = 0 ∧ Spec.Included "versioneer.py".toList r.1.manifest ∧ Spec.Included source r.1.manifest ∧
      (¬ Spec.OtherFile source t.attributes → Spec.Marked source r.1.attributes) ∧ Spec.Imports r.1.init ∧
      (r.1.init.isSome = t.init.isSome) ∧ r.1.version = some long ∧ r.1.setupCfg = t.setupCfg := by
  obtain ⟨h1, h2⟩ := setupManifest_included source hs t.manifest hm
  refine ⟨rfl, h1, h2, ?_, setupInit_imports t.init, ?_, rfl, rfl⟩
  · intro ho
    simp only [doSetup, doVcsInstall]
    by_cases hp : attributePresent source t.attributes = true
    · rw [if_pos hp]
      exact ((present_iff source hs _).1 hp).resolve_right ho
    · rw [if_neg hp]
      exact marked_append source hs _ ha
  · simp only [doSetup]
    cases t.init with
    | none => rfl
    | some old => rw [setupInit]; split <;> rfl

/-- C92.  Where everything is in place nothing but the version file is written. -/
theorem C92_unchanged (source long : Str) (t : Tree) (hs : Spec.Solid source)
    (h1 : Spec.Included "versioneer.py".toList t.manifest) (h2 : Spec.Included source t.manifest)
    (h3 : Spec.Marked source t.attributes ∨ Spec.OtherFile source t.attributes) (h4 : Spec.Imports t.init) :
    (doSetup (.found source) long t).1 = { t with version := some long } := by
  have e1 : setupManifest source t.manifest = t.manifest := by
    rw [setupManifest, if_pos ((mem_simpleIncludes _ _).2 h1), if_pos ((mem_simpleIncludes _ _).2 h2)]
  have e2 : setupInit t.init = t.init := by
    cases hi : t.init with
    | none => rfl
    | some old => rw [setupInit, if_pos ((occursIn_iff _ _).2 (h4 old hi))]
  simp only [doSetup, doVcsInstall, e1, e2]
  rw [if_pos ((present_iff source hs _).2 h3)]

/-- C92.  A second run changes nothing. -/
theorem C92_again (source long : Str) (t : Tree) (hs : Spec.Solid source) (hm : Spec.Complete t.manifest)
    (ha : Spec.Complete t.attributes) :
    (doSetup (.found source) long (doSetup (.found source) long t).1).1 = (doSetup (.found source) long t).1 := by
  obtain ⟨-, h1, h2, h3, h4, -, h6, -⟩ := C92_result source long t hs hm ha
  have h3' : Spec.Marked source (doSetup (.found source) long t).1.attributes ∨
      Spec.OtherFile source (doSetup (.found source) long t).1.attributes := by
    by_cases ho : Spec.OtherFile source t.attributes
    · right
      have hp := (present_iff source hs _).2 (Or.inr ho)
      have : (doSetup (.found source) long t).1.attributes = t.attributes := by
        simp only [doSetup, doVcsInstall]
        rw [if_pos hp]
      rw [this]; exact ho
    · exact Or.inl (h3 ho)
  rw [C92_unchanged source long _ hs h1 h2 h3' h4]
  rw [← h6]

theorem grows_append (file : Option Str) (text : Str) : Spec.Grows file (append file text) := ⟨text, rfl⟩

theorem grows_refl (file : Option Str) : Spec.Grows file file := ⟨[], by simp⟩

theorem grows_trans {a b c : Option Str} (h1 : Spec.Grows a b) (h2 : Spec.Grows b c) : Spec.Grows a c := by
  obtain ⟨x, hx⟩ := h1
  obtain ⟨y, hy⟩ := h2
  exact ⟨x ++ y, by rw [hy, hx]; simp⟩

theorem grows_ite (file : Option Str) (c : Prop) [Decidable c] (text : Str) :
    Spec.Grows file (if c then file else append file text) := by
  split
  · exact grows_refl file
  · exact grows_append file text

/-- C92, for any name of the version file and any files.  Nothing of what the files held is lost, and a file that changes is given
to `git add`. -/
theorem C92_keeps (source long : Str) (t : Tree) :
    let r := doSetup (.found source) long t
    Spec.Grows t.manifest r.1.manifest ∧ Spec.Grows t.attributes r.1.attributes ∧ Spec.Grows t.init r.1.init ∧
      ∀ f, Spec.get t f ≠ Spec.get r.1 f → f ∈ r.2.1 := by
  refine ⟨?_, ?_, ?_, ?_⟩
  · simp only [doSetup, setupManifest]
    exact grows_trans (grows_ite _ _ _) (grows_ite _ _ _)
  · simp only [doSetup, doVcsInstall]
    split
    · exact grows_refl _
    · exact grows_append _ _
  · simp only [doSetup]
    cases t.init with
    | none => exact grows_refl _
    | some old => rw [setupInit]; exact grows_ite _ _ _
  · intro f hf
    simp only [doSetup, doVcsInstall] at hf ⊢
    cases f with
    | version => split <;> simp
    | manifest => split <;> simp
    | versioneer => split <;> simp
    | init =>
      have : (setupInit t.init).isSome = true := by
        cases hi : t.init with
        | none => simp only [Spec.get, hi, setupInit] at hf; exact absurd rfl hf
        | some old => rw [setupInit]; split <;> rfl
      split <;> simp [this]
    | attributes =>
      split
      · rename_i hp
        simp only [Spec.get, hp, if_true] at hf
        exact absurd rfl hf
      · simp

/-- C92, without a configuration: only `setup.cfg` is extended (if it has no section for versioneer), and 1 is returned. -/
theorem C92_no_config (long : Str) (t : Tree) :
    doSetup .absent long t = ({ t with setupCfg := some (t.setupCfg.getD [] ++ sampleConfig) }, [], 1) ∧
      doSetup .incomplete long t = (t, [], 1) := ⟨rfl, rfl⟩

/-- C92 (defect).  If `.gitattributes` marks a file whose name begins with that of the version file, the installer does not mark the
version file. -/
theorem C92_other_file (source long : Str) (t : Tree) (hs : Spec.Solid source) (ho : Spec.OtherFile source t.attributes) :
    (doSetup (.found source) long t).1.attributes = t.attributes := by
  simp only [doSetup, doVcsInstall]
  rw [if_pos ((present_iff source hs _).2 (Or.inr ho))]

theorem hasLine_split (p s s' l : Str) (h : Spec.HasLine l (p ++ '\n' :: s)) :
    Spec.HasLine l (p ++ '\n' :: s') ∨ Spec.HasLine l s := by
  generalize hn : p.length = n
  induction n using Nat.strongRecOn generalizing p with
  | ind n ih =>
    rcases first_line p with hp | ⟨b, q, rfl, hb⟩
    · rcases (hasLine_cons _ _ _ hp).1 h with rfl | h
      · exact Or.inl ((hasLine_cons _ _ _ hp).2 (Or.inl rfl))
      · exact Or.inr h
    · rw [List.append_assoc, List.cons_append] at h ⊢
      rcases (hasLine_cons _ _ _ hb).1 h with rfl | h
      · exact Or.inl ((hasLine_cons _ _ _ hb).2 (Or.inl rfl))
      · rcases ih q.length (by rw [← hn]; simp; omega) q h rfl with h | h
        · exact Or.inl ((hasLine_cons _ _ _ hb).2 (Or.inr h))
        · exact Or.inr h

/-- A word glued to the end of a text is not the first word. -/
theorem wordsFrom_glued (source r : Str) (hs : Spec.Solid source) (l : Str) :
    ∀ word, (l = [] → word ≠ []) → (∀ x d, l = x ++ [d] → isSpace d = false) →
      (wordsFrom word (l ++ (source ++ ' ' :: r))).head? = some source → source ∈ wordsFrom word l := by
  induction l with
  | nil =>
    intro word h1 _ h
    exfalso
    rw [List.nil_append, wordsFrom_solid source word _ hs.2, wordsFrom, if_pos (by decide), if_neg (by simp [hs.1])] at h
    have h : word ++ source = source := by simpa using h
    have := congrArg List.length h
    rw [List.length_append] at this
    exact h1 rfl (List.length_eq_zero_iff.1 (by omega))
  | cons c l ih =>
    intro word h1 h2 h
    have h2' : ∀ x d, l = x ++ [d] → isSpace d = false := fun x d e => h2 (c :: x) d (by rw [e]; rfl)
    rw [List.cons_append, wordsFrom] at h
    rw [wordsFrom]
    split
    · rename_i hc
      rw [if_pos hc] at h
      have hl : l ≠ [] := by
        rintro rfl
        have := h2 [] c rfl
        rw [hc] at this
        cases this
      split
      · rename_i hw
        rw [if_pos hw] at h
        exact ih [] (fun e => absurd e hl) h2' h
      · rename_i hw
        rw [if_neg hw] at h
        have : word = source := by simpa using h
        rw [this]; simp
    · rename_i hc
      rw [if_neg hc] at h
      exact ih _ (by simp) h2' h

/-- C92 (defect).  If the last line of `.gitattributes` has no line feed, the new line is glued to it: the version file is not marked
after the run, and a second run is needed. -/
theorem C92_glued (source long : Str) (t : Tree) (hs : Spec.Solid source) (p l : Str) (d : Char)
    (ht : t.attributes = some (p ++ (l ++ [d]))) (hp : p = [] ∨ ∃ p', p = p' ++ ['\n']) (hl : '\n' ∉ l) (hd : isSpace d = false)
    (hn : ¬ Spec.Word source (l ++ [d])) (hm : ¬ Spec.Marked source t.attributes) (ho : ¬ Spec.OtherFile source t.attributes) :
    (doSetup (.found source) long t).1.attributes = some (p ++ (l ++ [d]) ++ (source ++ " export-subst\n".toList)) ∧
      ¬ Spec.Marked source (doSetup (.found source) long t).1.attributes ∧
      (Spec.Marked source (Spec.runs source long 2 t).attributes ∨ Spec.OtherFile source (Spec.runs source long 2 t).attributes) := by
  have hdn : d ≠ '\n' := by
    rintro rfl
    rw [isSpace_newline] at hd
    cases hd
  have hline : '\n' ∉ l ++ [d] := by
    simp only [List.mem_append, List.mem_singleton, not_or]
    exact ⟨hl, fun e => hdn e.symm⟩
  have e : (doSetup (.found source) long t).1.attributes = some (p ++ (l ++ [d]) ++ (source ++ " export-subst\n".toList)) := by
    simp only [doSetup, doVcsInstall]
    rw [if_neg, ht]
    · rfl
    · intro h
      rcases (present_iff source hs _).1 h with h | h
      · exact hm h
      · exact ho h
  refine ⟨e, ?_, ?_⟩
  · rw [e]
    rintro ⟨text, blanks, c, rest, h1, hb, hc, h2, hw⟩
    cases h1
    have h2' : Spec.HasLine (blanks ++ (source ++ c :: rest)) (p ++ ((l ++ [d]) ++ (source ++ " export-subst".toList) ++ '\n' :: [])) := by
      have e : p ++ (l ++ [d]) ++ (source ++ " export-subst\n".toList) =
          p ++ ((l ++ [d]) ++ (source ++ " export-subst".toList) ++ '\n' :: []) := by
        rw [show " export-subst\n".toList = " export-subst".toList ++ ['\n'] from by decide]
        simp only [List.append_assoc]
      rw [← e]; exact h2
    have hL : Spec.HasLine (blanks ++ (source ++ c :: rest)) ((l ++ [d]) ++ (source ++ " export-subst".toList) ++ '\n' :: []) := by
      rcases hp with rfl | ⟨p', rfl⟩
      · exact h2'
      · rw [List.append_assoc, List.singleton_append] at h2'
        rcases hasLine_split p' _ (l ++ [d]) _ h2' with h | h
        · exfalso
          refine hm ⟨p' ++ '\n' :: (l ++ [d]), blanks, c, rest, ?_, hb, hc, h, hw⟩
          rw [ht, List.append_assoc, List.singleton_append]
        · exact h
    rcases (hasLine_cons _ _ _ (by
      intro h
      rcases List.mem_append.1 h with h | h
      · exact hline h
      · rcases List.mem_append.1 h with h | h
        · exact solid_noNewline _ hs.2 h
        · exact absurd h (by decide))).1 hL with h | h
    · have hh : (words (blanks ++ (source ++ c :: rest))).head? = some source := by
        rw [words_blanks _ _ hb, words_first _ hs c hc]
        rfl
      rw [h] at hh
      have := wordsFrom_glued source "export-subst".toList hs (l ++ [d]) [] (fun e => absurd e (by simp)) (by
        intro x d' e
        have := (List.append_inj' e rfl).2
        simp only [List.cons.injEq, and_true] at this
        rw [← this]; exact hd) hh
      exact hn ((mem_words _ _).1 this)
    · rw [hasLine_last _ _ (by simp)] at h
      have := congrArg List.length h
      simp at this
  · have hc : Spec.Complete (doSetup (.found source) long t).1.attributes := by
      intro text h
      rw [e] at h
      cases h
      refine Or.inr ⟨p ++ (l ++ [d]) ++ (source ++ " export-subst".toList), ?_⟩
      rw [show " export-subst\n".toList = " export-subst".toList ++ ['\n'] from by decide]
      simp only [List.append_assoc]
    have hr : (Spec.runs source long 2 t) = (doSetup (.found source) long (doSetup (.found source) long t).1).1 := rfl
    rw [hr]
    generalize (doSetup (.found source) long t).1 = t1 at hc
    simp only [doSetup, doVcsInstall]
    by_cases hpr : attributePresent source t1.attributes = true
    · rw [if_pos hpr]
      exact (present_iff source hs _).1 hpr
    · rw [if_neg hpr]
      exact Or.inl (marked_append source hs _ hc)

/-- C92 (defect).  If there is white space in the name of the version file, every run appends the same line to `MANIFEST.in` again. -/
theorem C92_blanks (source long : Str) (c : Char) (hc : c ∈ source) (hs : isSpace c = true) (t : Tree) (text : Str)
    (ht : t.manifest = some text) (hm : Spec.Complete t.manifest) (hv : Spec.Included "versioneer.py".toList t.manifest) (n : Nat) :
    (Spec.runs source long n t).manifest =
      some (text ++ (List.replicate n ("include ".toList ++ (source ++ ['\n']))).flatten) := by
  induction n generalizing t text with
  | zero => simp [Spec.runs, ht]
  | succ n ih =>
    have hnot : source ∉ simpleIncludes t.manifest := by
      rw [mem_simpleIncludes]
      rintro ⟨_, _, _, _, hw⟩
      have := hw.1.2 c hc
      rw [hs] at this
      cases this
    have e : (doSetup (.found source) long t).1.manifest = append t.manifest ("include ".toList ++ (source ++ ['\n'])) := by
      simp only [doSetup, setupManifest]
      rw [if_pos ((mem_simpleIncludes _ _).2 hv), if_neg hnot]
    rw [Spec.runs, ih _ (text ++ ("include ".toList ++ (source ++ ['\n']))) (by rw [e, ht]; rfl) (by
      rw [e]
      have := complete_append t.manifest hm ("include ".toList ++ source)
      rwa [List.append_assoc] at this) (by
      rw [e, ht]
      rw [ht] at hm hv
      exact included_more _ text hm hv _)]
    simp [List.replicate_succ]

/-- C92, the blanks.  The white space that separates words is that of Python. -/
theorem C92_white (c : Char) : isSpace c = true ↔ c.toNat ∈ Spec.blanks :=
  isSpace_iff c

/-- C92: `scan_setup_py` counts what is missing and what is left over. -/
theorem C92_scan (text : Str) : ∃ a b, scanSetupPy text = a + b ∧ a ≤ 1 ∧ b ≤ 1 ∧
    (a = 0 ↔ Spec.Within "import versioneer".toList text ∧ Spec.Within "versioneer.get_cmdclass()".toList text ∧
      Spec.Within "versioneer.get_version()".toList text) ∧
    (b = 1 ↔ Spec.Within "versioneer.VCS".toList text ∨ Spec.Within "versioneer.versionfile_source".toList text) := by
  have le1 : ∀ (c : Prop) [Decidable c], (if c then 1 else 0) ≤ 1 := by
    intro c _
    split <;> omega
  refine ⟨_, _, rfl, le1 _, le1 _, ?_, ?_⟩
  · rw [← inSomeLine_iff _ text (by decide) (by decide), ← inSomeLine_iff _ text (by decide) (by decide),
      ← inSomeLine_iff _ text (by decide) (by decide)]
    cases inSomeLine "import versioneer".toList text <;> cases inSomeLine "versioneer.get_cmdclass()".toList text <;>
      cases inSomeLine "versioneer.get_version()".toList text <;> decide
  · rw [← inSomeLine_iff _ text (by decide) (by decide), ← inSomeLine_iff _ text (by decide) (by decide)]
    cases inSomeLine "versioneer.VCS".toList text <;> cases inSomeLine "versioneer.versionfile_source".toList text <;> decide

/-! ### Examples -/

/-- The tree of this package without the changes of the installer. -/
def freshTree : Tree := ⟨some "[versioneer]\nVCS = git\n".toList, none, some [], some "include LICENSE\n".toList, none⟩

-- `C92_result` and `C92_again`: the files of this package (MANIFEST.in:1-2, .gitattributes:1, gcs/__init__.py:1-4)
example : doSetup (.found "gcs/_version.py".toList) "x".toList freshTree =
    (⟨freshTree.setupCfg, some "x".toList,
      some "\nfrom ._version import get_versions\n__version__ = get_versions()['version']\ndel get_versions\n".toList,
      some "include LICENSE\ninclude versioneer.py\ninclude gcs/_version.py\n".toList,
      some "gcs/_version.py export-subst\n".toList⟩,
     [.manifest, .version, .init, .versioneer, .attributes], 0) := by
  decide +kernel

-- a file that exists already; a glued line; a file with a longer name; a name with a blank
example :
    (doSetup (.found "gcs/_version.py".toList) [] { freshTree with attributes := some "*.c text\n".toList }).1.attributes =
      some "*.c text\ngcs/_version.py export-subst\n".toList ∧
    (doSetup (.found "gcs/_version.py".toList) [] { freshTree with attributes := some "*.c text".toList }).1.attributes =
      some "*.c textgcs/_version.py export-subst\n".toList ∧
    (doSetup (.found "gcs/_version.py".toList) []
      { freshTree with attributes := some "gcs/_version.py.in export-subst\n".toList }).1.attributes =
      some "gcs/_version.py.in export-subst\n".toList ∧
    (Spec.runs "my gcs/_version.py".toList [] 3 freshTree).manifest = some ("include LICENSE\ninclude versioneer.py\n" ++
      "include my gcs/_version.py\ninclude my gcs/_version.py\ninclude my gcs/_version.py\n").toList := by
  decide +kernel

-- a part of setup.py of this package (setup.py:4, 46-47), and one with lines of an older versioneer
example : scanSetupPy "import versioneer\nversion=versioneer.get_version(),\ncmdclass=versioneer.get_cmdclass(),\n".toList = 0 ∧
    scanSetupPy "import versioneer\nversioneer.VCS = 'git'\n".toList = 2 := by
  decide +kernel

end Version
end Gcs
