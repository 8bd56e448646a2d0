import Verif.Model.Keywords
import Verif.Props.Archive

/-!
# C83: the keywords that git puts into the file

`git archive` replaces the three format texts of gcs/_version.py:26-28.  `setup.py` reads them with a regular expression, the
package by evaluating the file.
-/

namespace Gcs
namespace Version

/-! ### Specification -/

/-- The line of a keyword in the file: gcs/_version.py:26-28. -/
def Spec.keywordLine (name text : Str) : Str := "    ".toList ++ (name ++ (" = \"".toList ++ (text ++ "\"\n".toList)))

/-- One line of a file. -/
def Spec.IsLine (line : Str) : Prop := ∃ b, line = b ++ ['\n'] ∧ '\n' ∉ b

/-- A line that is not for the name: after the white space at its beginning there is something other than the name and ` =`. -/
def Spec.NotFor (name line : Str) : Prop :=
  ∀ blanks rest, (∀ c ∈ blanks, isSpace c = true) → line ≠ blanks ++ ((name ++ " =".toList) ++ rest)

/-- A line that is not for any of the three names. -/
def Spec.Other (line : Str) : Prop :=
  Spec.NotFor "git_refnames".toList line ∧ Spec.NotFor "git_full".toList line ∧ Spec.NotFor "git_date".toList line

/-- The file: the three lines, other lines before and after. -/
def Spec.file (before after : List Str) (refnames full date : Str) : Str :=
  (before ++ [Spec.keywordLine "git_refnames".toList refnames, Spec.keywordLine "git_full".toList full,
    Spec.keywordLine "git_date".toList date] ++ after).flatten

/-- A text without quotes, backslashes and line ends. -/
def Spec.Plain (text : Str) : Prop := '"' ∉ text ∧ '\\' ∉ text ∧ '\n' ∉ text

/-! ### Proofs -/

theorem readLines_cons (b : Str) (h : '\n' ∉ b) (s : Str) : readLines (b ++ '\n' :: s) = (b ++ ['\n']) :: readLines s := by
  induction b with
  | nil => simp [readLines]
  | cons c b ih =>
    simp only [List.mem_cons, not_or] at h
    rw [List.cons_append, readLines, if_neg (fun e => h.1 e.symm), ih h.2]
    rfl

theorem readLines_flatten (lines : List Str) (h : ∀ l ∈ lines, Spec.IsLine l) : readLines lines.flatten = lines := by
  induction lines with
  | nil => rfl
  | cons l lines ih =>
    obtain ⟨b, rfl, hb⟩ := h l (by simp)
    rw [List.flatten_cons, List.append_assoc, List.singleton_append, readLines_cons b hb, ih fun l hl => h l (by simp [hl])]

/-- What `strip` leaves is preceded by white space in the text. -/
theorem strip_prefix (start line : Str) (h : start.isPrefixOf (strip line) = true) :
    ∃ blanks rest, (∀ c ∈ blanks, isSpace c = true) ∧ line = blanks ++ (start ++ rest) := by
  obtain ⟨r, hr⟩ := List.isPrefixOf_iff_prefix.1 h
  refine ⟨line.takeWhile isSpace, r ++ ((line.dropWhile isSpace).reverse.takeWhile isSpace).reverse,
    List.all_eq_true.1 List.all_takeWhile, ?_⟩
  have e : line.dropWhile isSpace = strip line ++ ((line.dropWhile isSpace).reverse.takeWhile isSpace).reverse := by
    rw [strip, stripBy, ← List.reverse_append, List.takeWhile_append_dropWhile, List.reverse_reverse]
  rw [← List.append_assoc start, hr, ← e, List.takeWhile_append_dropWhile]

theorem keywordIn_other (name line : Str) (h : Spec.NotFor name line) (old : Option Str) :
    keywordIn (name ++ " =".toList) line old = old := by
  rw [keywordIn, if_neg]
  intro hp
  obtain ⟨blanks, rest, h1, h2⟩ := strip_prefix _ _ hp
  exact h blanks rest h1 h2

theorem searchAssign_skip (a s : Str) (h : '=' ∉ a) : searchAssign (a ++ s) = searchAssign s := by
  induction a with
  | nil => rfl
  | cons c a ih =>
    simp only [List.mem_cons, not_or] at h
    rw [List.cons_append, searchAssign, ih h.2]
    have : matchAssign (c :: (a ++ s)) = none := by
      rw [matchAssign]
      rintro s' he
      exact h.1 (List.cons.inj he).1.symm
    rw [this]

theorem takeWhile_line (text : Str) (h : '\n' ∉ text) (rest : Str) :
    (text ++ '\n' :: rest).takeWhile (· ≠ '\n') = text := by
  induction text with
  | nil => simp
  | cons c t ih =>
    simp only [List.mem_cons, not_or] at h
    rw [List.cons_append, List.takeWhile_cons_of_pos (by simpa using fun e => h.1 e.symm), ih h.2]

theorem matchAssign_literal (text : Str) (h : '\n' ∉ text) :
    matchAssign ('=' :: ' ' :: '"' :: (text ++ ['"', '\n'])) = some text := by
  have e : (text ++ ['"', '\n']).takeWhile (· ≠ '\n') = text ++ ['"'] := by
    have := takeWhile_line (text ++ ['"']) (by simp [h]) []
    rwa [List.append_assoc] at this
  rw [matchAssign]
  have e1 : (' ' :: '"' :: (text ++ ['"', '\n'])).dropWhile isSpace = '"' :: (text ++ ['"', '\n']) := by
    rw [List.dropWhile_cons_of_pos (by decide), List.dropWhile_cons_of_neg (by decide)]
  rw [e1]
  simp only
  rw [e]
  simp

theorem searchAssign_line (name text : Str) (hn : '=' ∉ name) (h : '\n' ∉ text) :
    searchAssign (Spec.keywordLine name text) = some text := by
  have e : Spec.keywordLine name text = ("    ".toList ++ name ++ " ".toList) ++ ('=' :: ' ' :: '"' :: (text ++ ['"', '\n'])) := by
    simp only [Spec.keywordLine, List.append_assoc]
    rfl
  rw [e, searchAssign_skip, searchAssign, matchAssign_literal text h]
  simp only [List.mem_append, not_or]
  exact ⟨⟨by decide, hn⟩, by decide⟩

theorem strip_keywordLine (c : Char) (name text : Str) (hc : isSpace c = false) :
    strip (Spec.keywordLine (c :: name) text) = (c :: name) ++ (" = \"".toList ++ (text ++ ['"'])) := by
  have h1 : (Spec.keywordLine (c :: name) text).dropWhile isSpace = (c :: name) ++ (" = \"".toList ++ (text ++ "\"\n".toList)) := by
    have : ∀ s : Str, ("    ".toList ++ (c :: s)).dropWhile isSpace = c :: s := by
      intro s
      have e : "    ".toList ++ (c :: s) = ' ' :: ' ' :: ' ' :: ' ' :: c :: s := rfl
      rw [e, List.dropWhile_cons_of_pos (by decide), List.dropWhile_cons_of_pos (by decide),
        List.dropWhile_cons_of_pos (by decide), List.dropWhile_cons_of_pos (by decide),
        List.dropWhile_cons_of_neg (by simp [hc])]
    rw [Spec.keywordLine, List.cons_append, this]
  rw [strip, stripBy, h1]
  have h2 : ((c :: name) ++ (" = \"".toList ++ (text ++ "\"\n".toList))).reverse.dropWhile isSpace =
      ((c :: name) ++ (" = \"".toList ++ (text ++ ['"']))).reverse := by
    have e : (c :: name) ++ (" = \"".toList ++ (text ++ "\"\n".toList)) =
        ((c :: name) ++ (" = \"".toList ++ (text ++ ['"']))) ++ ['\n'] := by
      simp only [List.append_assoc]
      rfl
    rw [e, List.reverse_append]
    have e2 : ((c :: name) ++ (" = \"".toList ++ (text ++ ['"']))).reverse =
        '"' :: ((c :: name) ++ (" = \"".toList ++ text)).reverse := by
      simp only [← List.append_assoc, List.reverse_append]
      rfl
    rw [e2]
    rw [show (['\n'] : Str).reverse ++ '"' :: ((c :: name) ++ (" = \"".toList ++ text)).reverse =
      '\n' :: '"' :: ((c :: name) ++ (" = \"".toList ++ text)).reverse from rfl,
      List.dropWhile_cons_of_pos (by decide), List.dropWhile_cons_of_neg (by decide)]
  rw [h2, List.reverse_reverse]

theorem keywordIn_line (c : Char) (name text : Str) (hc : isSpace c = false) (hn : '=' ∉ c :: name) (h : '\n' ∉ text)
    (old : Option Str) : keywordIn ((c :: name) ++ " =".toList) (Spec.keywordLine (c :: name) text) old = some text := by
  rw [keywordIn, if_pos, searchAssign_line _ _ hn h]
  rw [strip_keywordLine c name text hc, List.isPrefixOf_iff_prefix]
  exact ⟨" \"".toList ++ (text ++ ['"']), by simp only [List.append_assoc]; rfl⟩

/-- Another name: the two differ at some place before the `=`. -/
theorem keywordIn_another (c : Char) (name text start : Str) (hc : isSpace c = false)
    (hs : ∀ s, start.isPrefixOf ((c :: name) ++ s) = false) (old : Option Str) :
    keywordIn start (Spec.keywordLine (c :: name) text) old = old := by
  rw [keywordIn, if_neg]
  rw [strip_keywordLine c name text hc, hs]
  simp

theorem keywordsStep_other (k : FoundKeywords) (line : Str) (h : Spec.Other line) : keywordsStep k line = k := by
  have h1 := keywordIn_other _ _ h.1 k.refnames
  have h2 := keywordIn_other _ _ h.2.1 k.full
  have h3 := keywordIn_other _ _ h.2.2 k.date
  rw [keywordsStep]
  exact congr (congr (congrArg FoundKeywords.mk h1) h2) h3

theorem foldl_other (lines : List Str) (k : FoundKeywords) (h : ∀ l ∈ lines, Spec.Other l) : lines.foldl keywordsStep k = k := by
  induction lines generalizing k with
  | nil => rfl
  | cons l lines ih =>
    rw [List.foldl_cons, keywordsStep_other k l (h l (by simp)), ih _ fun l hl => h l (by simp [hl])]

theorem keywordLine_isLine (name text : Str) (hn : '\n' ∉ name) (h : '\n' ∉ text) : Spec.IsLine (Spec.keywordLine name text) := by
  refine ⟨"    ".toList ++ (name ++ (" = \"".toList ++ (text ++ ['"']))), ?_, ?_⟩
  · simp only [Spec.keywordLine, List.append_assoc]
    rfl
  · simp only [List.mem_append, not_or]
    exact ⟨by decide, hn, by decide, h, by decide⟩

theorem readLiteral_plain (text rest : Str) (h : '\\' ∉ text ∧ '\n' ∉ text) (hq : '"' ∉ text) :
    readLiteral (text ++ '"' :: rest) = some (text, rest) := by
  induction text with
  | nil => simp [readLiteral]
  | cons c t ih =>
    simp only [List.mem_cons, not_or] at h hq
    have h1 : ¬ c = '"' := fun e => hq.1 e.symm
    have h2 : ¬ (c = '\\' || c = '\n') = true := by
      simp only [Bool.or_eq_true, decide_eq_true_eq, not_or]
      exact ⟨fun e => h.1.1 e.symm, fun e => h.2.1 e.symm⟩
    rw [List.cons_append, readLiteral, if_neg h1, if_neg h2, ih ⟨h.1.2, h.2.2⟩ hq.2]

theorem readLiteral_some (s r rest : Str) (h : readLiteral s = some (r, rest)) :
    s = r ++ '"' :: rest ∧ Spec.Plain r := by
  induction s generalizing r with
  | nil => simp [readLiteral] at h
  | cons c s ih =>
    rw [readLiteral] at h
    split at h
    · next hc =>
      simp only [Option.some.injEq, Prod.mk.injEq] at h
      obtain ⟨rfl, rfl⟩ := h
      exact ⟨by rw [hc]; rfl, by simp [Spec.Plain]⟩
    · next hc =>
      split at h
      · exact absurd h (by simp)
      · next h2 =>
        simp only [Bool.or_eq_true, decide_eq_true_eq, not_or] at h2
        split at h
        · next r' rest' he =>
          simp only [Option.some.injEq, Prod.mk.injEq] at h
          obtain ⟨rfl, rfl⟩ := h
          obtain ⟨h3, h4, h5, h6⟩ := ih r' he
          refine ⟨by rw [h3]; rfl, ?_, ?_, ?_⟩ <;> simp only [List.mem_cons, not_or]
          · exact ⟨fun e => hc e.symm, h4⟩
          · exact ⟨fun e => h2.1 e.symm, h5⟩
          · exact ⟨fun e => h2.2 e.symm, h6⟩
        · exact absurd h (by simp)

theorem evalAssign_iff (text r : Str) : evalAssign text = some r ↔ r = text ∧ Spec.Plain text := by
  rw [evalAssign]
  constructor
  · intro h
    split at h
    · next r' rest he =>
      split at h
      · next hr =>
        simp only [Option.some.injEq] at h
        subst h
        obtain ⟨h1, h2⟩ := readLiteral_some _ _ _ he
        have h3 : rest = ['\n'] := by
          have hlen := congrArg List.length h1
          simp only [List.length_append, List.length_cons, List.length_nil] at hlen
          refine Classical.byContradiction fun hne => ?_
          -- the quote that follows the text would be in the rest
          have hq : '"' ∈ rest := by
            rcases Nat.lt_or_ge r'.length text.length with hlt | hge
            · have e : (text ++ ['"', '\n']).drop (r'.length + 1) = rest := by
                rw [h1, List.drop_append, List.drop_eq_nil_of_le (by omega)]
                simp
              rw [List.drop_append_of_le_length (by omega)] at e
              rw [← e]
              simp
            · exfalso
              rcases Nat.eq_or_lt_of_le hge with heq | hgt
              · have : rest.length = 1 := by omega
                have e : (text ++ ['"', '\n']).drop (r'.length + 1) = rest := by
                  rw [h1, List.drop_append, List.drop_eq_nil_of_le (by omega)]
                  simp
                rw [← heq, List.drop_append, List.drop_eq_nil_of_le (by omega)] at e
                simp at e
                exact hne e.symm
              · have e : (text ++ ['"', '\n'])[text.length]? = (r' ++ '"' :: rest)[text.length]? := by rw [h1]
                rw [List.getElem?_append_right (Nat.le_refl _), List.getElem?_append_left hgt] at e
                simp at e
                exact h2.1 (List.mem_of_getElem? e.symm)
          have := List.all_eq_true.1 hr _ hq
          exact absurd this (by decide)
        subst h3
        have : text ++ ['"', '\n'] = r' ++ ['"', '\n'] := h1
        have e := List.append_cancel_right this
        exact ⟨e.symm, e ▸ h2⟩
      · exact absurd h (by simp)
    · exact absurd h (by simp)
  · rintro ⟨rfl, h1, h2, h3⟩
    rw [readLiteral_plain r ['\n'] ⟨h2, h3⟩ h1]
    simp only
    rw [if_pos (by decide)]

/-- C83.  `git_get_keywords` reads from the file the texts that git has put in, whatever they are (one line each).  The package
reads the same if and only if none of them has a quote or a backslash. -/
theorem C83_keywords (before after : List Str) (refnames full date : Str)
    (hb : ∀ l ∈ before, Spec.IsLine l ∧ Spec.Other l) (ha : ∀ l ∈ after, Spec.IsLine l ∧ Spec.Other l)
    (h : '\n' ∉ refnames ∧ '\n' ∉ full ∧ '\n' ∉ date) :
    gitGetKeywords (some (Spec.file before after refnames full date)) = ⟨some refnames, some full, some date⟩ ∧
    ∀ k, getKeywords refnames full date = some k ↔
      k = ⟨refnames, full, some date⟩ ∧ Spec.Plain refnames ∧ Spec.Plain full ∧ Spec.Plain date := by
  constructor
  · have hg : isSpace 'g' = false := by decide
    rw [gitGetKeywords, Spec.file, readLines_flatten]
    · simp only [List.foldl_append, List.foldl_cons, List.foldl_nil]
      rw [foldl_other before _ fun l hl => (hb l hl).2, foldl_other after _ fun l hl => (ha l hl).2]
      have r1 := keywordIn_line 'g' "it_refnames".toList refnames hg (by decide) h.1
      have f1 := keywordIn_another 'g' "it_refnames".toList refnames "git_full =".toList hg (fun s => rfl)
      have d1 := keywordIn_another 'g' "it_refnames".toList refnames "git_date =".toList hg (fun s => rfl)
      have r2 := keywordIn_another 'g' "it_full".toList full "git_refnames =".toList hg (fun s => rfl)
      have f2 := keywordIn_line 'g' "it_full".toList full hg (by decide) h.2.1
      have d2 := keywordIn_another 'g' "it_full".toList full "git_date =".toList hg (fun s => rfl)
      have r3 := keywordIn_another 'g' "it_date".toList date "git_refnames =".toList hg (fun s => rfl)
      have f3 := keywordIn_another 'g' "it_date".toList date "git_full =".toList hg (fun s => rfl)
      have d3 := keywordIn_line 'g' "it_date".toList date hg (by decide) h.2.2
      have s1 : ∀ k, keywordsStep k (Spec.keywordLine "git_refnames".toList refnames) = ⟨some refnames, k.full, k.date⟩ := fun k =>
        congr (congr (congrArg FoundKeywords.mk (r1 k.refnames)) (f1 k.full)) (d1 k.date)
      have s2 : ∀ k, keywordsStep k (Spec.keywordLine "git_full".toList full) = ⟨k.refnames, some full, k.date⟩ := fun k =>
        congr (congr (congrArg FoundKeywords.mk (r2 k.refnames)) (f2 k.full)) (d2 k.date)
      have s3 : ∀ k, keywordsStep k (Spec.keywordLine "git_date".toList date) = ⟨k.refnames, k.full, some date⟩ := fun k =>
        congr (congr (congrArg FoundKeywords.mk (r3 k.refnames)) (f3 k.full)) (d3 k.date)
      rw [s1, s2, s3]
    · intro l hl
      simp only [List.mem_append, List.mem_cons, List.not_mem_nil, or_false] at hl
      rcases hl with (hl | rfl | rfl | rfl) | hl
      · exact (hb l hl).1
      · exact keywordLine_isLine _ _ (by decide) h.1
      · exact keywordLine_isLine _ _ (by decide) h.2.1
      · exact keywordLine_isLine _ _ (by decide) h.2.2
      · exact (ha l hl).1
  · intro k
    rw [getKeywords]
    constructor
    · intro hk
      split at hk
      · next r f d h1 h2 h3 =>
        obtain ⟨rfl, p1⟩ := (evalAssign_iff _ _).1 h1
        obtain ⟨rfl, p2⟩ := (evalAssign_iff _ _).1 h2
        obtain ⟨rfl, p3⟩ := (evalAssign_iff _ _).1 h3
        simp only [Option.some.injEq] at hk
        exact ⟨hk.symm, p1, p2, p3⟩
      · exact absurd hk (by simp)
    · rintro ⟨rfl, p1, p2, p3⟩
      rw [(evalAssign_iff refnames refnames).2 ⟨rfl, p1⟩, (evalAssign_iff full full).2 ⟨rfl, p2⟩,
        (evalAssign_iff date date).2 ⟨rfl, p3⟩]

/-! ### Examples -/

theorem notFor_of (c : Char) (name line : Str) (hc : isSpace c = false)
    (h : ((c :: name) ++ " =".toList).isPrefixOf (line.dropWhile isSpace) = false) : Spec.NotFor (c :: name) line := by
  rintro blanks rest hb rfl
  have e : (blanks ++ (((c :: name) ++ " =".toList) ++ rest)).dropWhile isSpace = ((c :: name) ++ " =".toList) ++ rest := by
    induction blanks with
    | nil => exact List.dropWhile_cons_of_neg (by simp [hc])
    | cons b bs ih =>
      rw [List.cons_append, List.dropWhile_cons_of_pos (hb b (by simp))]
      exact ih (fun x hx => hb x (by simp [hx])) (by
        rw [show (b :: bs) ++ (((c :: name) ++ " =".toList) ++ rest) = b :: (bs ++ (((c :: name) ++ " =".toList) ++ rest)) from rfl,
          List.dropWhile_cons_of_pos (hb b (by simp))] at h
        exact h)
  rw [e, List.isPrefixOf_iff_prefix.2 (List.prefix_append _ _)] at h
  exact absurd h (by simp)

theorem other_of (line : Str) (h : ["git_refnames =".toList, "git_full =".toList, "git_date =".toList].all
    (fun s => !s.isPrefixOf (line.dropWhile isSpace)) = true) : Spec.Other line := by
  simp only [List.all_cons, List.all_nil, Bool.and_true, Bool.and_eq_true, Bool.not_eq_true'] at h
  exact ⟨notFor_of 'g' "it_refnames".toList _ (by decide) h.1, notFor_of 'g' "it_full".toList _ (by decide) h.2.1,
    notFor_of 'g' "it_date".toList _ (by decide) h.2.2⟩

/-- Lines of the file before and after the three: gcs/_version.py:20, 29, 143, 145. -/
def exampleBefore : List Str := ["def get_keywords():\n".toList]

/-- See `exampleBefore`. -/
def exampleAfter : List Str :=
  ["    keywords = {\"refnames\": git_refnames, \"full\": git_full, \"date\": git_date}\n".toList,
   "            if line.strip().startswith(\"git_refnames =\"):\n".toList,
   "                mo = re.search(r'=\\s*\"(.*)\"', line)\n".toList]

theorem isLine_of (line : Str) (h : line.getLast? = some '\n' ∧ '\n' ∉ line.dropLast) : Spec.IsLine line := by
  refine ⟨line.dropLast, ?_, h.2⟩
  have hne : line ≠ [] := by
    rintro rfl
    simp at h
  have := List.dropLast_concat_getLast hne
  rw [List.getLast?_eq_some_getLast hne] at h
  rw [Option.some.inj h.1] at this
  exact this.symm

example : (∀ l ∈ exampleBefore, Spec.IsLine l ∧ Spec.Other l) ∧ (∀ l ∈ exampleAfter, Spec.IsLine l ∧ Spec.Other l) := by
  constructor
  · intro l hl
    simp only [exampleBefore, List.mem_cons, List.not_mem_nil, or_false] at hl
    subst hl
    exact ⟨isLine_of _ (by decide +kernel), other_of _ (by decide +kernel)⟩
  · intro l hl
    simp only [exampleAfter, List.mem_cons, List.not_mem_nil, or_false] at hl
    rcases hl with rfl | rfl | rfl <;> exact ⟨isLine_of _ (by decide +kernel), other_of _ (by decide +kernel)⟩

-- an archive of a tag: both read the same
example : gitGetKeywords (some (Spec.file exampleBefore exampleAfter " (tag: v1.0, master)".toList "1b2c".toList
      "2020-03-20 10:00:00 +0200".toList)) =
      ⟨some " (tag: v1.0, master)".toList, some "1b2c".toList, some "2020-03-20 10:00:00 +0200".toList⟩ ∧
    (getKeywords " (tag: v1.0, master)".toList "1b2c".toList "2020-03-20 10:00:00 +0200".toList).map
      (fun k => (k.refnames, k.full, k.date)) =
      some (" (tag: v1.0, master)".toList, "1b2c".toList, some "2020-03-20 10:00:00 +0200".toList) := by decide +kernel

-- a file that git has not expanded, and a branch whose name has a quote
example : gitGetKeywords (some (Spec.file exampleBefore exampleAfter "$Format:%d$".toList "$Format:%H$".toList
      "$Format:%ci$".toList)) = ⟨some "$Format:%d$".toList, some "$Format:%H$".toList, some "$Format:%ci$".toList⟩ ∧
    gitGetKeywords (some (Spec.file exampleBefore exampleAfter " (a\"b)".toList "1b2c".toList "2020".toList)) =
      ⟨some " (a\"b)".toList, some "1b2c".toList, some "2020".toList⟩ ∧
    (getKeywords " (a\"b)".toList "1b2c".toList "2020".toList).isNone ∧ gitGetKeywords none = {} := by decide +kernel

end Version
end Gcs
