/-
C65: the version string of the package.
-/
import Verif.Model.Version

namespace Gcs
namespace Version

/-! ### Specification -/

/-- Text that `git describe --long` prints for a tag, the number of commits since it, the abbreviated commit and
the state of the tree. -/
def Spec.describeText (tag : Str) (n : Nat) (hex : Str) (dirty : Bool) : Str :=
  tag ++ '-' :: Nat.toDigits 10 n ++ '-' :: 'g' :: hex ++ (if dirty then "-dirty".toList else [])

/-- The text is `TAG-NUM-gHEX`. -/
def Spec.IsDescribe (s tag num hex : Str) : Prop :=
  s = tag ++ '-' :: num ++ '-' :: 'g' :: hex ∧ tag ≠ [] ∧ '\n' ∉ tag ∧ num ≠ [] ∧ (∀ c ∈ num, c.isDigit) ∧
    hex ≠ [] ∧ ∀ c ∈ hex, c ∈ "0123456789abcdef".toList

/-- Version of a tree: the tag alone if the tree is the tagged one; otherwise the tag, the distance and the commit. -/
def Spec.versionText (tag : Str) (n : Nat) (hex : Str) (dirty : Bool) : Str :=
  if n = 0 ∧ dirty = false then tag
  else tag ++ (if '+' ∈ tag then ['.'] else ['+']) ++ Nat.toDigits 10 n ++ ['.', 'g'] ++ hex ++
    (if dirty then ".dirty".toList else [])

/-! ### Lists of characters -/

theorem takeWhile_stop {α : Type} (p : α → Bool) (l r : List α) (a : α) (hl : ∀ c ∈ l, p c = true) (ha : p a = false) :
    (l ++ a :: r).takeWhile p = l ∧ (l ++ a :: r).dropWhile p = a :: r := by
  induction l with
  | nil => simp [ha]
  | cons x l ih =>
    have h := ih fun c hc => hl c (by simp [hc])
    simp [hl x (by simp), h.1, h.2]

theorem isHex_iff (c : Char) : isHex c = true ↔ c ∈ "0123456789abcdef".toList := by
  constructor
  · intro h
    simp only [isHex, Char.isDigit, Bool.or_eq_true, Bool.and_eq_true, decide_eq_true_eq, Char.le_def, UInt32.le_iff_toNat_le] at h
    have h' : (48 ≤ c.val.toNat ∧ c.val.toNat ≤ 57) ∨ (97 ≤ c.val.toNat ∧ c.val.toNat ≤ 102) := h
    have hc : c = Char.ofNat c.val.toNat := by simp
    generalize c.val.toNat = n at h' hc
    subst hc
    have : n = 48 ∨ n = 49 ∨ n = 50 ∨ n = 51 ∨ n = 52 ∨ n = 53 ∨ n = 54 ∨ n = 55 ∨ n = 56 ∨ n = 57 ∨ n = 97 ∨ n = 98 ∨
        n = 99 ∨ n = 100 ∨ n = 101 ∨ n = 102 := by omega
    rcases this with h | h | h | h | h | h | h | h | h | h | h | h | h | h | h | h <;> subst h <;> decide
  · intro h
    have : ∀ c ∈ "0123456789abcdef".toList, isHex c = true := by decide
    exact this c h

theorem dropNewline_ne (s : Str) (h : s.getLast? ≠ some '\n') : dropNewline s = s := by
  simp [dropNewline, h]

/-- The pattern match finds exactly the texts of the form `TAG-NUM-gHEX` (a line break may follow). -/
theorem matchDescribe_iff (s tag num hex : Str) (hs : s.getLast? ≠ some '\n') :
    matchDescribe s = some (tag, num, hex) ↔ Spec.IsDescribe s tag num hex := by
  have hns := dropNewline_ne s hs
  constructor
  · intro h
    simp only [matchDescribe, hns] at h
    split at h
    · rename_i r' hr
      split at h
      · rename_i tag' ht
        split at h
        · rename_i hc
          simp only [Option.some.injEq, Prod.mk.injEq] at h
          obtain ⟨rfl, rfl, rfl⟩ := h
          obtain ⟨h1, h2, h3, h4⟩ := hc
          refine ⟨?_, by simpa using h3, by simpa using h4, by simpa using h2, ?_, by simpa using h1, ?_⟩
          · have e1 := List.takeWhile_append_dropWhile (p := isHex) (l := s.reverse)
            have e2 := List.takeWhile_append_dropWhile (p := Char.isDigit) (l := r')
            rw [hr] at e1
            rw [ht] at e2
            have e3 := congrArg List.reverse e1
            rw [List.reverse_reverse, ← e2] at e3
            refine e3.symm.trans ?_
            simp
          · intro c hc
            rw [List.mem_reverse] at hc
            exact List.all_eq_true.mp (List.all_takeWhile (p := Char.isDigit) (l := r')) c hc
          · intro c hc
            rw [List.mem_reverse] at hc
            exact (isHex_iff c).mp (List.all_eq_true.mp (List.all_takeWhile (p := isHex) (l := s.reverse)) c hc)
        · simp at h
      · simp at h
    · simp at h
  · rintro ⟨hs', h1, h2, h3, h4, h5, h6⟩
    have hr : s.reverse = hex.reverse ++ 'g' :: ('-' :: (num.reverse ++ '-' :: tag.reverse)) := by
      rw [hs']
      simp
    have a1 := takeWhile_stop isHex hex.reverse ('-' :: (num.reverse ++ '-' :: tag.reverse)) 'g'
      (fun c hc => (isHex_iff c).mpr (h6 c (by simpa using hc))) (by decide)
    have a2 := takeWhile_stop Char.isDigit num.reverse tag.reverse '-' (fun c hc => h4 c (by simpa using hc)) (by decide)
    simp only [matchDescribe, hns, hr, a1.1, a1.2, a2.1, a2.2]
    simp [h1, h2, h3, h5]

theorem stripBy_id (p : Char → Bool) (s : Str) (h1 : ∀ a, s.head? = some a → p a = false)
    (h2 : ∀ a, s.getLast? = some a → p a = false) : stripBy p s = s := by
  have key : ∀ l : Str, (∀ a, l.head? = some a → p a = false) → l.dropWhile p = l := by
    intro l hl
    cases l with
    | nil => rfl
    | cons a l => simp [hl a rfl]
  rw [stripBy, key s h1, key s.reverse (by simpa using h2), List.reverse_reverse]

/-- The white space of Python, by code point. -/
def Spec.blanks : List Nat :=
  [9, 10, 11, 12, 13, 28, 29, 30, 31, 32, 0x85, 0xa0, 0x1680, 0x2000, 0x2001, 0x2002, 0x2003, 0x2004, 0x2005, 0x2006,
    0x2007, 0x2008, 0x2009, 0x200a, 0x2028, 0x2029, 0x202f, 0x205f, 0x3000]

theorem isSpace_iff (c : Char) : isSpace c = true ↔ c.toNat ∈ Spec.blanks := by
  simp only [isSpace, Spec.blanks, Bool.or_eq_true, beq_iff_eq, Bool.and_eq_true, decide_eq_true_eq, List.mem_cons,
    List.not_mem_nil, or_false]
  omega

/-- What `run_command` does with a line that git prints. -/
theorem strip_line (s : Str) (h0 : s ≠ []) (h1 : ∀ a, s.head? = some a → isSpace a = false)
    (h2 : ∀ a, s.getLast? = some a → isSpace a = false) : strip (s ++ ['\n']) = s := by
  have h3 : (s ++ ['\n']).dropWhile isSpace = s ++ ['\n'] := by
    cases s with
    | nil => exact absurd rfl h0
    | cons a l => simp [h1 a rfl]
  have h4 : (s ++ ['\n']).reverse.dropWhile isSpace = s.reverse := by
    have h5 : isSpace '\n' = true := by decide
    have h6 : s.reverse.dropWhile isSpace = s.reverse := by
      have h7 : ∀ a, s.reverse.head? = some a → isSpace a = false := by simpa using h2
      cases hr : s.reverse with
      | nil => rfl
      | cons a l => simp [h7 a (by simp [hr])]
    simp [h5, h6]
  rw [strip, stripBy, h3, h4, List.reverse_reverse]

theorem hex_notSpace (c : Char) (h : c ∈ "0123456789abcdef".toList) : isSpace c = false := by
  have : ∀ c ∈ "0123456789abcdef".toList, isSpace c = false := by decide
  exact this c h

theorem isDigit_toDigits (n : Nat) : ∀ c ∈ Nat.toDigits 10 n, c.isDigit = true :=
  fun _ hc => Nat.isDigit_of_mem_toDigits (by decide) (by decide) hc

theorem parseInt_dec (n : Nat) : parseInt (Nat.toDigits 10 n) = .ok n := by
  have h1 : (Nat.toDigits 10 n).all Char.isDigit = true := List.all_eq_true.mpr (isDigit_toDigits n)
  simp [parseInt, h1, Nat.toDigits_ne_nil]

theorem getLast?_app {a b : Str} (hb : b ≠ []) : (a ++ b).getLast? = b.getLast? := by
  rw [List.getLast?_append]
  cases h : b.getLast? with
  | none => exact absurd (List.getLast?_eq_none_iff.mp h) hb
  | some c => rfl

/-- The last character of a text that ends in a nonempty text. -/
theorem last_append {a b : Str} (hb : b ≠ []) (c : Char) (h : (a ++ b).getLast? = some c) : c ∈ b := by
  rw [getLast?_app hb] at h
  exact List.mem_of_getLast? h

/-- Properties of the text that git prints. -/
theorem describe_props (tag : Str) (n : Nat) (hex : Str) (dirty : Bool) (hnl : '\n' ∉ tag) (hhex : hex ≠ [])
    (hh : ∀ c ∈ hex, c ∈ "0123456789abcdef".toList) (ht : tag ≠ []) (hsp : ∀ a, tag.head? = some a → isSpace a = false) :
    strip (Spec.describeText tag n hex dirty ++ ['\n']) = Spec.describeText tag n hex dirty ∧
    "-dirty".toList.isSuffixOf (Spec.describeText tag n hex dirty) = dirty ∧
    (if dirty then (Spec.describeText tag n hex dirty).take ((Spec.describeText tag n hex dirty).length - 6)
      else Spec.describeText tag n hex dirty) = Spec.describeText tag n hex false ∧
    '-' ∈ Spec.describeText tag n hex false ∧
    matchDescribe (Spec.describeText tag n hex false) = some (tag, Nat.toDigits 10 n, hex) := by
  have hdirty : Spec.describeText tag n hex true = Spec.describeText tag n hex false ++ "-dirty".toList := by
    simp [Spec.describeText]
  have hclean : Spec.describeText tag n hex false = tag ++ '-' :: Nat.toDigits 10 n ++ '-' :: 'g' :: hex := by
    simp [Spec.describeText]
  have hlast : ∀ c, (Spec.describeText tag n hex false).getLast? = some c → c ∈ "0123456789abcdef".toList := by
    intro c hc
    have e : Spec.describeText tag n hex false = (tag ++ '-' :: Nat.toDigits 10 n ++ ['-', 'g']) ++ hex := by
      rw [hclean]
      simp
    rw [e] at hc
    exact hh c (last_append hhex c hc)
  have hhead : ∀ dirty a, (Spec.describeText tag n hex dirty).head? = some a → isSpace a = false := by
    intro dirty a ha
    cases tag with
    | nil => exact absurd rfl ht
    | cons b t => exact hsp a (by simpa [Spec.describeText] using ha)
  have hne : ∀ dirty, Spec.describeText tag n hex dirty ≠ [] := by
    intro dirty
    simp [Spec.describeText]
  refine ⟨?_, ?_, ?_, ?_, ?_⟩
  · refine strip_line _ (hne dirty) (hhead dirty) ?_
    intro a ha
    cases dirty with
    | false => exact hex_notSpace a (hlast a ha)
    | true =>
      rw [hdirty] at ha
      have hm := last_append (by decide) a ha
      have : ∀ c ∈ "-dirty".toList, isSpace c = false := by decide
      exact this a hm
  · cases dirty with
    | true =>
      rw [hdirty]
      simp
    | false =>
      rw [Bool.eq_false_iff]
      intro hs
      rw [List.isSuffixOf_iff_suffix] at hs
      obtain ⟨t, ht'⟩ := hs
      have h1 : (Spec.describeText tag n hex false).getLast? = some 'y' := by
        rw [← ht', getLast?_app (by decide)]
        decide
      have h2 := hlast 'y' h1
      exact absurd h2 (by decide)
  · cases dirty with
    | false => rfl
    | true =>
      rw [if_pos rfl, hdirty]
      have : (Spec.describeText tag n hex false ++ "-dirty".toList).length - 6 =
          (Spec.describeText tag n hex false).length := by
        simp
      rw [this, List.take_left]
  · rw [hclean]
    simp
  · rw [matchDescribe_iff]
    · exact ⟨hclean, ht, hnl, Nat.toDigits_ne_nil, isDigit_toDigits n, hhex, hh⟩
    · intro hc
      exact absurd (hlast _ hc) (by decide)

/-- A field of a date that git prints. -/
def Spec.DateField (s : Str) : Prop := s ≠ [] ∧ ∀ c ∈ s, c ∈ "0123456789+-:".toList

theorem dateField_char (c : Char) (h : c ∈ "0123456789+-:".toList) : isSpace c = false ∧ c ≠ ' ' := by
  have : ∀ c ∈ "0123456789+-:".toList, isSpace c = false ∧ c ≠ ' ' := by decide
  exact this c h

theorem replaceFirst_at (c : Char) (new l r : Str) (hl : c ∉ l) : replaceFirst c new (l ++ c :: r) = l ++ new ++ r := by
  induction l with
  | nil => simp [replaceFirst]
  | cons x l ih =>
    have hx : ¬ x = c := fun h => hl (by simp [h])
    simp [replaceFirst, hx, ih fun h => hl (by simp [h])]

theorem isoDate_fields (day time zone : Str) (h1 : Spec.DateField day) (h2 : Spec.DateField time)
    (h3 : Spec.DateField zone) :
    strip (day ++ ' ' :: time ++ ' ' :: zone ++ ['\n']) = day ++ ' ' :: time ++ ' ' :: zone ∧
    isoDate (strip (day ++ ' ' :: time ++ ' ' :: zone)) = day ++ 'T' :: time ++ zone := by
  have hhead : ∀ a, (day ++ ' ' :: time ++ ' ' :: zone).head? = some a → isSpace a = false := by
    intro a ha
    obtain ⟨hd, hd'⟩ := h1
    cases day with
    | nil => exact absurd rfl hd
    | cons b t =>
      have : b = a := by simpa using ha
      exact (dateField_char a (hd' a (by simp [this]))).1
  have hlast : ∀ a, (day ++ ' ' :: time ++ ' ' :: zone).getLast? = some a → isSpace a = false := by
    intro a ha
    have e : day ++ ' ' :: time ++ ' ' :: zone = (day ++ ' ' :: time ++ [' ']) ++ zone := by simp
    rw [e] at ha
    exact (dateField_char a (h3.2 a (last_append h3.1 a ha))).1
  have hid : strip (day ++ ' ' :: time ++ ' ' :: zone) = day ++ ' ' :: time ++ ' ' :: zone := stripBy_id _ _ hhead hlast
  refine ⟨strip_line _ (by simp) hhead hlast, ?_⟩
  rw [isoDate, hid, hid]
  have e1 : day ++ ' ' :: time ++ ' ' :: zone = day ++ ' ' :: (time ++ ' ' :: zone) := by simp
  rw [e1, replaceFirst_at ' ' ['T'] day _ fun h => (dateField_char _ (h1.2 _ h)).2 rfl]
  have e2 : day ++ ['T'] ++ (time ++ ' ' :: zone) = (day ++ 'T' :: time) ++ ' ' :: zone := by simp
  rw [e2, replaceFirst_at ' ' [] _ zone ?_]
  · simp
  · simp only [List.mem_append, List.mem_cons, not_or]
    refine ⟨fun h => (dateField_char _ (h1.2 _ h)).2 rfl, by decide, fun h => (dateField_char _ (h2.2 _ h)).2 rfl⟩

theorem strip_hex (full : Str) (h : ∀ c ∈ full, c ∈ "0123456789abcdef".toList) : strip (full ++ ['\n']) = full := by
  by_cases h0 : full = []
  · subst h0
    decide
  · exact strip_line full h0 (fun a ha => hex_notSpace a (h a (List.mem_of_head? ha)))
      (fun a ha => hex_notSpace a (h a (List.mem_of_getLast? ha)))

/-- The output of git in a tree with a tag: a line for each command. -/
structure Spec.Tagged (g : Git) (tag : Str) (n : Nat) (hex : Str) (dirty : Bool) (full day time zone : Str) : Prop where
  gitDir : g.gitDir = true
  describe : g.describe = some (Spec.describeText tag n hex dirty ++ ['\n'])
  head : g.head = some (full ++ ['\n'])
  date : g.date = some (day ++ ' ' :: time ++ ' ' :: zone ++ ['\n'])
  line : '\n' ∉ tag
  hex_ne : hex ≠ []
  hex_chars : ∀ c ∈ hex, c ∈ "0123456789abcdef".toList
  full_chars : ∀ c ∈ full, c ∈ "0123456789abcdef".toList
  day : Spec.DateField day
  time : Spec.DateField time
  zone : Spec.DateField zone

theorem pieces_tagged (pre : Str) (g : Git) (tag : Str) (n : Nat) (hex : Str) (dirty : Bool) (full day time zone : Str)
    (h : Spec.Tagged g (pre ++ tag) n hex dirty full day time zone) (ht : pre ++ tag ≠ [])
    (hsp : ∀ a, (pre ++ tag).head? = some a → isSpace a = false) :
    piecesFromVcs pre g = .ok { long := full, short := hex, error := none, dirty := dirty, closestTag := some tag,
                                distance := n, date := some (day ++ 'T' :: time ++ zone) } := by
  obtain ⟨d1, d2, d3, d4, d5⟩ := describe_props (pre ++ tag) n hex dirty h.line h.hex_ne h.hex_chars ht hsp
  obtain ⟨t1, t2⟩ := isoDate_fields day time zone h.day h.time h.zone
  have hf : piecesFromVcs.finish g = .ok (day ++ 'T' :: time ++ zone) := by
    simp only [piecesFromVcs.finish, h.date, Option.map_some, t1, t2]
  have hp : pre.isPrefixOf (pre ++ tag) = true := by simp
  simp only [piecesFromVcs, h.gitDir, h.describe, h.head, Option.map_some, strip_hex full h.full_chars, d1, d2, d3, d5,
    if_pos d4, hp, if_true, parseInt_dec, hf]
  simp [bind, Except.bind, pure, Except.pure]

theorem unexpanded_stop (pre : Str) : versionsFromKeywords unexpanded pre = .error .notThisMethod := by
  have h : "$Format".toList.isPrefixOf (strip unexpanded.refnames) = true := by decide
  simp only [versionsFromKeywords, h, if_true]

theorem tag_of (p : Pieces) (tag : Str) (h : p.closestTag = some tag) (ht : tag ≠ []) : p.tag = some tag := by
  rw [Pieces.tag, h]
  cases tag with
  | nil => exact absurd rfl ht
  | cons => rfl

/-- In a tree with a tag, `get_versions` returns what it should of tag, distance, commit and state. -/
theorem C65_tagged (g : Git) (root : List Str) (tag : Str) (n : Nat) (hex : Str) (dirty : Bool)
    (full day time zone : Str) (h : Spec.Tagged g ('v' :: tag) n hex dirty full day time zone) (ht : tag ≠ []) :
    getVersions unexpanded config g (some root) =
      .ok { version := Spec.versionText tag n hex dirty, full := some full, dirty := some dirty, error := none,
            date := some (day ++ 'T' :: time ++ zone) } := by
  have hp := pieces_tagged ['v'] g tag n hex dirty full day time zone h (by simp)
    (by intro a ha; simp at ha; subst ha; decide)
  have hc : config.tagPrefix = ['v'] := rfl
  have hs : config.style = "pep440".toList := rfl
  have hr : ∀ p : Pieces, p.error = none → render p "pep440".toList =
      .ok { version := renderPep440 p, full := some p.long, dirty := some p.dirty, error := none, date := p.date } := by
    intro p he
    simp only [render, he]
    rfl
  simp only [getVersions, hc, hs, unexpanded_stop, orElse, hp, bind, Except.bind]
  rw [hr _ rfl]
  simp only [Except.ok.injEq, Info.mk.injEq, and_true, true_and]
  rw [renderPep440, tag_of _ tag rfl ht]
  simp only [Spec.versionText, plusOrDot, dec]
  by_cases hn : n = 0 <;> cases dirty <;> simp [hn]

theorem split_at (a : Char) (l1 l2 r1 r2 : Str) (h1 : a ∉ l1) (h2 : a ∉ l2) (h : l1 ++ a :: r1 = l2 ++ a :: r2) :
    l1 = l2 ∧ r1 = r2 := by
  induction l1 generalizing l2 with
  | nil =>
    cases l2 with
    | nil => simpa using h
    | cons b l2 =>
      simp only [List.nil_append, List.cons_append, List.cons.injEq] at h
      exact absurd h.1 fun e => h2 (by simp [e])
  | cons x l1 ih =>
    cases l2 with
    | nil =>
      simp only [List.nil_append, List.cons_append, List.cons.injEq] at h
      exact absurd h.1 fun e => h1 (by simp [e])
    | cons b l2 =>
      simp only [List.cons_append, List.cons.injEq] at h
      have := ih l2 (fun e => h1 (by simp [e])) (fun e => h2 (by simp [e])) h.2
      exact ⟨by rw [h.1, this.1], this.2⟩

theorem versionText_inj (t1 t2 : Str) (n1 n2 : Nat) (x1 x2 : Str) (d1 d2 : Bool) (ht1 : '+' ∉ t1) (ht2 : '+' ∉ t2)
    (hx1 : ∀ c ∈ x1, c ∈ "0123456789abcdef".toList) (hx2 : ∀ c ∈ x2, c ∈ "0123456789abcdef".toList)
    (h : Spec.versionText t1 n1 x1 d1 = Spec.versionText t2 n2 x2 d2) :
    t1 = t2 ∧ n1 = n2 ∧ d1 = d2 ∧ (n1 = 0 ∧ d1 = false ∨ x1 = x2) := by
  have full : ∀ (t : Str) (n : Nat) (x : Str) (d : Bool), '+' ∉ t → ¬ (n = 0 ∧ d = false) →
      Spec.versionText t n x d =
        t ++ '+' :: (Nat.toDigits 10 n ++ '.' :: ('g' :: (x ++ if d then ".dirty".toList else []))) := by
    intro t n x d ht hn
    simp [Spec.versionText, hn, ht]
  have bare : ∀ (t : Str) (n : Nat) (x : Str) (d : Bool), (n = 0 ∧ d = false) → Spec.versionText t n x d = t := by
    intro t n x d hn
    simp [Spec.versionText, hn]
  have hdot : ∀ n : Nat, '.' ∉ Nat.toDigits 10 n := fun n hc => absurd (isDigit_toDigits n _ hc) (by decide)
  have hxdot : ∀ x : Str, (∀ c ∈ x, c ∈ "0123456789abcdef".toList) → '.' ∉ x := fun x hx hc =>
    absurd (hx _ hc) (by decide)
  by_cases c1 : n1 = 0 ∧ d1 = false <;> by_cases c2 : n2 = 0 ∧ d2 = false
  · rw [bare _ _ _ _ c1, bare _ _ _ _ c2] at h
    exact ⟨h, by rw [c1.1, c2.1], by rw [c1.2, c2.2], Or.inl c1⟩
  · rw [bare _ _ _ _ c1, full _ _ _ _ ht2 c2] at h
    exact absurd (by rw [h]; simp) ht1
  · rw [bare _ _ _ _ c2, full _ _ _ _ ht1 c1] at h
    exact absurd (by rw [← h]; simp) ht2
  · rw [full _ _ _ _ ht1 c1, full _ _ _ _ ht2 c2] at h
    obtain ⟨e1, h⟩ := split_at '+' _ _ _ _ ht1 ht2 h
    obtain ⟨e2, h⟩ := split_at '.' _ _ _ _ (hdot n1) (hdot n2) h
    have e3 : n1 = n2 := by
      have := congrArg (fun l => Nat.ofDigitChars 10 l 0) e2
      simpa using this
    simp only [List.cons.injEq, true_and] at h
    cases d1 <;> cases d2
    · exact ⟨e1, e3, rfl, Or.inr (by simpa using h)⟩
    · refine absurd ?_ (hxdot x1 hx1)
      have h' : x1 = x2 ++ ".dirty".toList := by simpa using h
      rw [h']
      simp
    · refine absurd ?_ (hxdot x2 hx2)
      have h' : x1 ++ ".dirty".toList = x2 := by simpa using h
      rw [← h']
      simp
    · exact ⟨e1, e3, rfl, Or.inr (List.append_cancel_right h)⟩

/-- Two trees with the same version have the same tag, distance and state, and, unless both are the tagged tree,
the same commit. -/
theorem C65_distinct (g1 g2 : Git) (root1 root2 : List Str) (t1 t2 : Str) (n1 n2 : Nat) (x1 x2 : Str) (d1 d2 : Bool)
    (f1 f2 day1 day2 time1 time2 zone1 zone2 : Str)
    (h1 : Spec.Tagged g1 ('v' :: t1) n1 x1 d1 f1 day1 time1 zone1)
    (h2 : Spec.Tagged g2 ('v' :: t2) n2 x2 d2 f2 day2 time2 zone2)
    (ht1 : t1 ≠ []) (ht2 : t2 ≠ []) (hp1 : '+' ∉ t1) (hp2 : '+' ∉ t2) (i1 i2 : Info)
    (hi1 : getVersions unexpanded config g1 (some root1) = .ok i1)
    (hi2 : getVersions unexpanded config g2 (some root2) = .ok i2) (hv : i1.version = i2.version) :
    t1 = t2 ∧ n1 = n2 ∧ d1 = d2 ∧ (n1 = 0 ∧ d1 = false ∨ x1 = x2) := by
  rw [C65_tagged g1 root1 t1 n1 x1 d1 f1 day1 time1 zone1 h1 ht1, Except.ok.injEq] at hi1
  rw [C65_tagged g2 root2 t2 n2 x2 d2 f2 day2 time2 zone2 h2 ht2, Except.ok.injEq] at hi2
  subst hi1
  subst hi2
  exact versionText_inj t1 t2 n1 n2 x1 x2 d1 d2 hp1 hp2 h1.hex_chars h2.hex_chars hv

/-- The style `git-describe-long` gives back what git printed, without the prefix. -/
theorem C65_describe_long (g : Git) (root : List Str) (tag : Str) (n : Nat) (hex : Str) (dirty : Bool)
    (full day time zone : Str) (h : Spec.Tagged g ('v' :: tag) n hex dirty full day time zone) (ht : tag ≠ []) :
    ∃ info, getVersions unexpanded { config with style := "git-describe-long".toList } g (some root) = .ok info ∧
      g.describe = some ('v' :: info.version ++ ['\n']) := by
  have hp := pieces_tagged ['v'] g tag n hex dirty full day time zone h (by simp)
    (by intro a ha; simp at ha; subst ha; decide)
  have hc : config.tagPrefix = ['v'] := rfl
  have hr : ∀ p : Pieces, p.error = none → render p "git-describe-long".toList =
      .ok { version := renderGitDescribeLong p, full := some p.long, dirty := some p.dirty, error := none,
            date := p.date } := by
    intro p he
    simp only [render, he]
    rfl
  have hg : getVersions unexpanded { config with style := "git-describe-long".toList } g (some root) =
      .ok { version := renderGitDescribeLong
              { long := full, short := hex, error := none, dirty := dirty, closestTag := some tag, distance := n,
                date := some (day ++ 'T' :: time ++ zone) },
            full := some full, dirty := some dirty, error := none, date := some (day ++ 'T' :: time ++ zone) } := by
    simp only [getVersions, hc, unexpanded_stop, orElse, hp, bind, Except.bind]
    rw [hr _ rfl]
  refine ⟨_, hg, ?_⟩
  rw [h.describe, renderGitDescribeLong, tag_of _ tag rfl ht]
  simp [Spec.describeText, dec]

theorem render_pep440_ok (p : Pieces) (he : p.error = none) : render p "pep440".toList =
    .ok { version := renderPep440 p, full := some p.long, dirty := some p.dirty, error := none, date := p.date } := by
  simp only [render, he]
  rfl

/-- A tag that is the prefix alone counts as no tag, also for the tagged tree. -/
theorem C65_bare_prefix (g : Git) (root : List Str) (n : Nat) (hex : Str) (dirty : Bool)
    (full day time zone : Str) (h : Spec.Tagged g ['v'] n hex dirty full day time zone) :
    getVersions unexpanded config g (some root) =
      .ok { version := "0+untagged.".toList ++ Nat.toDigits 10 n ++ ".g".toList ++ hex ++
              (if dirty then ".dirty".toList else []),
            full := some full, dirty := some dirty, error := none, date := some (day ++ 'T' :: time ++ zone) } := by
  have hp := pieces_tagged ['v'] g [] n hex dirty full day time zone h (by simp)
    (by intro a ha; simp at ha; subst ha; decide)
  have hc : config.tagPrefix = ['v'] := rfl
  have hs : config.style = "pep440".toList := rfl
  simp only [getVersions, hc, hs, unexpanded_stop, orElse, hp, bind, Except.bind]
  rw [render_pep440_ok _ rfl]
  rfl

/-- The output of git in a tree without tags. -/
structure Spec.Untagged (g : Git) (n : Nat) (hex : Str) (dirty : Bool) (full day time zone : Str) : Prop where
  gitDir : g.gitDir = true
  describe : g.describe = some (hex ++ (if dirty then "-dirty".toList else []) ++ ['\n'])
  head : g.head = some (full ++ ['\n'])
  count : g.count = some (Nat.toDigits 10 n ++ ['\n'])
  date : g.date = some (day ++ ' ' :: time ++ ' ' :: zone ++ ['\n'])
  hex_ne : hex ≠ []
  hex_chars : ∀ c ∈ hex, c ∈ "0123456789abcdef".toList
  full_chars : ∀ c ∈ full, c ∈ "0123456789abcdef".toList
  day : Spec.DateField day
  time : Spec.DateField time
  zone : Spec.DateField zone

theorem digit_notSpace (c : Char) (h : c.isDigit = true) : isSpace c = false := by
  simp only [Char.isDigit, Bool.and_eq_true, decide_eq_true_eq, UInt32.le_iff_toNat_le] at h
  have h' : 48 ≤ c.toNat ∧ c.toNat ≤ 57 := h
  have hc : c = Char.ofNat c.toNat := by simp
  generalize c.toNat = m at h' hc
  subst hc
  have : m = 48 ∨ m = 49 ∨ m = 50 ∨ m = 51 ∨ m = 52 ∨ m = 53 ∨ m = 54 ∨ m = 55 ∨ m = 56 ∨ m = 57 := by omega
  rcases this with h | h | h | h | h | h | h | h | h | h <;> subst h <;> decide

theorem strip_dec (n : Nat) : strip (Nat.toDigits 10 n ++ ['\n']) = Nat.toDigits 10 n :=
  strip_line _ Nat.toDigits_ne_nil (fun a ha => digit_notSpace a (isDigit_toDigits n a (List.mem_of_head? ha)))
    (fun a ha => digit_notSpace a (isDigit_toDigits n a (List.mem_of_getLast? ha)))

/-- A tree without tags, with any result of counting the commits. -/
theorem pieces_untagged_count (g : Git) (n : Nat) (hex : Str) (dirty : Bool)
    (full day time zone : Str) (h : Spec.Untagged g n hex dirty full day time zone) (out : Option Str) :
    piecesFromVcs ['v'] { g with count := out } =
      (match out.map strip with
        | none => Except.error (Stop.raised .type)
        | some c => parseInt c).map fun distance =>
      { long := full, short := full.take 7, error := none, dirty := dirty, closestTag := none,
        distance := distance, date := some (day ++ 'T' :: time ++ zone) } := by
  obtain ⟨t1, t2⟩ := isoDate_fields day time zone h.day h.time h.zone
  have hf : ∀ g' : Git, g'.date = g.date → piecesFromVcs.finish g' = .ok (day ++ 'T' :: time ++ zone) := by
    intro g' hg
    simp only [piecesFromVcs.finish, hg, h.date, Option.map_some, t1, t2]
  have hnot : ∀ c, c ∉ "0123456789abcdef".toList → c ∉ hex := fun c hc hm => hc (h.hex_chars c hm)
  have d1 : strip (hex ++ (if dirty then "-dirty".toList else []) ++ ['\n']) =
      hex ++ (if dirty then "-dirty".toList else []) := by
    refine strip_line _ (by simp [h.hex_ne]) ?_ ?_
    · intro a ha
      refine hex_notSpace a (h.hex_chars a ?_)
      cases hx : hex with
      | nil => exact absurd hx h.hex_ne
      | cons b t =>
        rw [hx] at ha
        have : b = a := by simpa using ha
        simp [this]
    · intro a ha
      cases dirty with
      | false => exact hex_notSpace a (h.hex_chars a (List.mem_of_getLast? (by simpa using ha)))
      | true =>
        have hm := last_append (by decide) a ha
        have : ∀ c ∈ "-dirty".toList, isSpace c = false := by decide
        exact this a (by simpa using hm)
  have d2 : "-dirty".toList.isSuffixOf (hex ++ (if dirty then "-dirty".toList else [])) = dirty := by
    cases dirty with
    | true => simp
    | false =>
      rw [Bool.eq_false_iff]
      intro hs
      rw [List.isSuffixOf_iff_suffix] at hs
      obtain ⟨t, ht'⟩ := hs
      refine hnot '-' (by decide) ?_
      have : hex = t ++ "-dirty".toList := by simpa using ht'.symm
      rw [this]
      simp
  have d3 : (if dirty then (hex ++ (if dirty then "-dirty".toList else [])).take
        ((hex ++ (if dirty then "-dirty".toList else [])).length - 6)
      else hex ++ (if dirty then "-dirty".toList else [])) = hex := by
    cases dirty with
    | false => simp
    | true =>
      rw [if_pos rfl, if_pos rfl]
      have : (hex ++ "-dirty".toList).length - 6 = hex.length := by simp
      rw [this, List.take_left]
  have d4 : ¬ '-' ∈ hex := hnot '-' (by decide)
  simp only [piecesFromVcs, h.gitDir, h.describe, h.head, Option.map_some, strip_hex full h.full_chars, d1, d2,
    d3, if_neg d4, hf]
  cases out with
  | none => rfl
  | some c =>
    simp only [Option.map_some]
    cases parseInt (strip c) <;> rfl

theorem pieces_untagged (g : Git) (n : Nat) (hex : Str) (dirty : Bool)
    (full day time zone : Str) (h : Spec.Untagged g n hex dirty full day time zone) :
    piecesFromVcs ['v'] g = .ok
      { long := full, short := full.take 7, error := none, dirty := dirty, closestTag := none,
        distance := n, date := some (day ++ 'T' :: time ++ zone) } := by
  have e := pieces_untagged_count g n hex dirty full day time zone h g.count
  rw [h.count] at e
  simp only [Option.map_some, strip_dec, parseInt_dec] at e
  rw [← h.count] at e
  exact e

/-- In a tree without tags, the version is made of the number of commits and the commit. -/
theorem C65_untagged (g : Git) (root : List Str) (n : Nat) (hex : Str) (dirty : Bool)
    (full day time zone : Str) (h : Spec.Untagged g n hex dirty full day time zone) :
    getVersions unexpanded config g (some root) =
      .ok { version := "0+untagged.".toList ++ Nat.toDigits 10 n ++ ".g".toList ++ full.take 7 ++
              (if dirty then ".dirty".toList else []),
            full := some full, dirty := some dirty, error := none, date := some (day ++ 'T' :: time ++ zone) } := by
  have hp := pieces_untagged g n hex dirty full day time zone h
  have hc : config.tagPrefix = ['v'] := rfl
  have hs : config.style = "pep440".toList := rfl
  simp only [getVersions, hc, hs, unexpanded_stop, orElse, hp, bind, Except.bind]
  rw [render_pep440_ok _ rfl]
  rfl

theorem versionsFromKeywords_cases (k : Keywords) (pre : Str) :
    versionsFromKeywords k pre = .error .notThisMethod ∨ ∃ info, versionsFromKeywords k pre = .ok info := by
  simp only [versionsFromKeywords]
  split
  · exact Or.inl rfl
  · split <;> exact Or.inr ⟨_, rfl⟩

theorem matchDescribe_num (s tag num hex : Str) (h : matchDescribe s = some (tag, num, hex)) :
    ∃ n, parseInt num = .ok n := by
  simp only [matchDescribe] at h
  split at h
  · rename_i r' hr
    split at h
    · split at h
      · rename_i hc
        simp only [Option.some.injEq, Prod.mk.injEq] at h
        obtain ⟨-, rfl, -⟩ := h
        refine ⟨Nat.ofDigitChars 10 (r'.takeWhile Char.isDigit).reverse 0, ?_⟩
        have h1 : (r'.takeWhile Char.isDigit).all Char.isDigit = true := List.all_takeWhile
        have h2 : (r'.takeWhile Char.isDigit).reverse ≠ [] := by simpa using hc.2.1
        rw [parseInt, if_pos ⟨h2, by rw [List.all_reverse]; exact h1⟩]
      · simp at h
    · simp at h
  · simp at h

/-- If git counts the commits and shows the date, `get_versions` returns, whatever else git prints and whatever the
keywords are. -/
theorem C65_returns (k : Keywords) (g : Git) (root : Option (List Str)) (n : Nat)
    (hcount : g.count = some (Nat.toDigits 10 n ++ ['\n'])) (hdate : g.date ≠ none) :
    ∃ info, getVersions k config g root = .ok info := by
  have hs : config.style = "pep440".toList := rfl
  have hpp : config.parentdirPrefix = [] := rfl
  rcases versionsFromKeywords_cases k config.tagPrefix with h | ⟨info, h⟩
  · cases root with
    | none => exact ⟨_, by simp only [getVersions, h, orElse]; rfl⟩
    | some root =>
      have hf : ∃ d, piecesFromVcs.finish g = .ok d := by
        cases hd : g.date with
        | none => exact absurd hd hdate
        | some d => exact ⟨_, by simp only [piecesFromVcs.finish, hd, Option.map_some]; rfl⟩
      obtain ⟨d, hf⟩ := hf
      have hp : piecesFromVcs config.tagPrefix g = .error .notThisMethod ∨ ∃ p, piecesFromVcs config.tagPrefix g = .ok p := by
        simp only [piecesFromVcs, hf, hcount, Option.map_some, strip_dec, parseInt_dec]
        split
        · exact Or.inl rfl
        split
        · exact Or.inl rfl
        split
        · exact Or.inl rfl
        refine Or.inr ?_
        rename_i out _ _ _ _
        generalize (if "-dirty".toList.isSuffixOf out = true then out.take (out.length - 6) else out) = w
        split
        · split
          · exact ⟨_, rfl⟩
          · rename_i hm
            obtain ⟨m, hm⟩ := matchDescribe_num _ _ _ _ hm
            rw [hm]
            split
            · exact ⟨_, rfl⟩
            · exact ⟨_, rfl⟩
        · exact ⟨_, rfl⟩
      rcases hp with hp | ⟨p, hp⟩
      · exact ⟨_, by simp only [getVersions, h, orElse, hp, bind, Except.bind, hpp]; rfl⟩
      · have hr : ∃ info, render p config.style = .ok info := by
          cases he : p.error with
          | none => exact ⟨_, render_pep440_ok p he⟩
          | some e => exact ⟨_, by simp only [render, he]; rfl⟩
        obtain ⟨info, hr⟩ := hr
        exact ⟨info, by simp only [getVersions, h, orElse, hp, bind, Except.bind, hr]⟩
  · exact ⟨info, by simp only [getVersions, h, orElse]⟩

/-- C65, the exceptions.  If git does not show the date in a tree with a tag, `get_versions` raises `AttributeError`: the
next methods are not tried and no version is made up. -/
theorem C65_raises (g : Git) (root : List Str) (tag : Str) (n : Nat) (hex : Str) (dirty : Bool)
    (full day time zone : Str) (h : Spec.Tagged g ('v' :: tag) n hex dirty full day time zone) :
    getVersions unexpanded config { g with date := none } (some root) = .error (.raised .attribute) := by
  obtain ⟨d1, d2, d3, d4, d5⟩ := describe_props ('v' :: tag) n hex dirty h.line h.hex_ne h.hex_chars (by simp)
    (by intro a ha; simp at ha; subst ha; decide)
  have hc : config.tagPrefix = ['v'] := rfl
  have hf : piecesFromVcs.finish { g with date := none } = .error (.raised .attribute) := rfl
  have hp : List.isPrefixOf ['v'] ('v' :: tag) = true := by simp
  have : piecesFromVcs ['v'] { g with date := none } = .error (.raised .attribute) := by
    simp only [piecesFromVcs, h.gitDir, h.describe, h.head, Option.map_some, strip_hex full h.full_chars, d1, d2, d3, d5,
      if_pos d4, hp, if_true, parseInt_dec, hf]
    simp [bind, Except.bind, piecesFromVcs.finish]
  simp only [getVersions, hc, unexpanded_stop, orElse, this, bind, Except.bind]

theorem stripBy_mem (p : Char → Bool) (s : Str) (c : Char) (hc : c ∈ s) (hp : p c = false) : c ∈ stripBy p s := by
  have h : ∀ l : Str, c ∈ l → c ∈ l.dropWhile p := by
    intro l hl
    rw [← List.takeWhile_append_dropWhile (p := p) (l := l), List.mem_append] at hl
    rcases hl with hl | hl
    · have := List.all_eq_true.1 (List.all_takeWhile (p := p) (l := l)) c hl
      simp [hp] at this
    · exact hl
  simpa [stripBy] using h _ (by simpa using h _ hc)

/-- C65, the exceptions.  In a tree without tags `get_versions` raises `TypeError` if git does not count the commits, and
`ValueError` if what it prints has a letter; no version is made up. -/
theorem C65_count_raises (g : Git) (root : List Str) (n : Nat) (hex : Str) (dirty : Bool)
    (full day time zone : Str) (h : Spec.Untagged g n hex dirty full day time zone) :
    getVersions unexpanded config { g with count := none } (some root) = .error (.raised .type) ∧
    ∀ out : Str, (∃ c ∈ out, c.isAlpha) →
      getVersions unexpanded config { g with count := some out } (some root) = .error (.raised .value) := by
  have hc : config.tagPrefix = ['v'] := rfl
  constructor
  · have e := pieces_untagged_count g n hex dirty full day time zone h none
    simp only [getVersions, hc, unexpanded_stop, orElse, e, bind, Except.bind]
    rfl
  · rintro out ⟨c, hm, hl⟩
    have e := pieces_untagged_count g n hex dirty full day time zone h (some out)
    have hr : 65 ≤ c.toNat ∧ c.toNat ≤ 122 := by
      simp only [Char.isAlpha, Char.isUpper, Char.isLower, Bool.or_eq_true, Bool.and_eq_true, decide_eq_true_eq,
        UInt32.le_iff_toNat_le] at hl
      have h' : (65 ≤ c.toNat ∧ c.toNat ≤ 90) ∨ (97 ≤ c.toNat ∧ c.toNat ≤ 122) := hl
      omega
    have hs : isSpace c = false := by
      rw [Bool.eq_false_iff]
      intro hs
      simp only [isSpace, Bool.or_eq_true, beq_iff_eq, Bool.and_eq_true, decide_eq_true_eq] at hs
      omega
    have hd : c.isDigit = false := by
      rw [Bool.eq_false_iff]
      intro hd
      simp only [Char.isDigit, Bool.and_eq_true, decide_eq_true_eq, UInt32.le_iff_toNat_le] at hd
      have h' : 48 ≤ c.toNat ∧ c.toNat ≤ 57 := hd
      omega
    have hp : parseInt (strip out) = .error (.raised .value) := by
      rw [parseInt, if_neg]
      rintro ⟨_, ha⟩
      rw [List.all_eq_true] at ha
      rw [ha c (stripBy_mem _ _ _ hm hs)] at hd
      cases hd
    simp only [Option.map_some, hp] at e
    simp only [getVersions, hc, unexpanded_stop, orElse, e, bind, Except.bind]
    rfl

/-- The pattern allows a line break at the end: what git prints before `-dirty` may end with one. -/
theorem C65_line_break (pre : Str) (g : Git) (tag : Str) (n : Nat) (hex : Str) (full day time zone : Str)
    (h : Spec.Tagged g (pre ++ tag) n hex true full day time zone) (ht : pre ++ tag ≠ [])
    (hsp : ∀ a, (pre ++ tag).head? = some a → isSpace a = false) :
    piecesFromVcs pre { g with describe := some (Spec.describeText (pre ++ tag) n hex false ++ "\n-dirty\n".toList) } =
      piecesFromVcs pre g := by
  rw [pieces_tagged pre g tag n hex true full day time zone h ht hsp]
  obtain ⟨-, -, -, d4, d5⟩ := describe_props (pre ++ tag) n hex true h.line h.hex_ne h.hex_chars ht hsp
  obtain ⟨t1, t2⟩ := isoDate_fields day time zone h.day h.time h.zone
  have hclean : Spec.describeText (pre ++ tag) n hex false = (pre ++ tag) ++ '-' :: Nat.toDigits 10 n ++ '-' :: 'g' :: hex := by
    simp [Spec.describeText]
  have hhead : ∀ w a, (Spec.describeText (pre ++ tag) n hex false ++ w).head? = some a → isSpace a = false := by
    intro w a ha
    generalize hT : pre ++ tag = T at *
    cases T with
    | nil => exact absurd rfl ht
    | cons b t => exact hsp a (by simpa [Spec.describeText] using ha)
  have hlast : (Spec.describeText (pre ++ tag) n hex false).getLast? ≠ some '\n' := by
    intro hc
    have e : Spec.describeText (pre ++ tag) n hex false = ((pre ++ tag) ++ '-' :: Nat.toDigits 10 n ++ ['-', 'g']) ++ hex := by
      rw [hclean]
      simp
    rw [e] at hc
    exact absurd (h.hex_chars _ (last_append h.hex_ne _ hc)) (by decide)
  generalize Spec.describeText (pre ++ tag) n hex false = D at *
  have e0 : D ++ "\n-dirty\n".toList = (D ++ "\n-dirty".toList) ++ ['\n'] := by simp
  have d1 : strip (D ++ "\n-dirty\n".toList) = D ++ "\n-dirty".toList := by
    rw [e0]
    refine strip_line _ (by simp) (hhead _) ?_
    intro a ha
    rw [getLast?_app (by decide)] at ha
    have : a = 'y' := by simpa using ha.symm
    subst this
    decide
  have e1 : D ++ "\n-dirty".toList = (D ++ ['\n']) ++ "-dirty".toList := by simp
  have d2 : "-dirty".toList.isSuffixOf (D ++ "\n-dirty".toList) = true := by
    rw [List.isSuffixOf_iff_suffix, e1]
    exact List.suffix_append _ _
  have d3 : (D ++ "\n-dirty".toList).take ((D ++ "\n-dirty".toList).length - 6) = D ++ ['\n'] := by
    rw [e1]
    have : ((D ++ ['\n']) ++ "-dirty".toList).length - 6 = (D ++ ['\n']).length := by simp
    rw [this, List.take_left]
  have d6 : matchDescribe (D ++ ['\n']) = matchDescribe D := by
    have : dropNewline (D ++ ['\n']) = dropNewline D := by
      rw [dropNewline_ne D hlast]
      simp [dropNewline]
    simp only [matchDescribe, this]
  have d7 : '-' ∈ D ++ ['\n'] := List.mem_append_left _ d4
  have hf : ∀ g' : Git, g'.date = g.date → piecesFromVcs.finish g' = .ok (day ++ 'T' :: time ++ zone) := by
    intro g' hg
    simp only [piecesFromVcs.finish, hg, h.date, Option.map_some, t1, t2]
  have hp : pre.isPrefixOf (pre ++ tag) = true := by simp
  simp only [piecesFromVcs, h.gitDir, h.head, Option.map_some, strip_hex full h.full_chars, d1, d2, d3, d5, d6,
    if_pos d7, hp, if_true, parseInt_dec, hf]
  simp [bind, Except.bind, pure, Except.pure]

/-! ### Concrete cases -/

/-- A modified tree, 17 commits after the tag `v0.1-rc-2`. -/
def exGit : Git where
  gitDir := true
  describe := some "v0.1-rc-2-17-gabc12-dirty\n".toList
  head := some "abc12def0123\n".toList
  count := some "120\n".toList
  date := some "2020-01-02 03:04:05 +0200\n".toList

theorem exGit_tagged : Spec.Tagged exGit "v0.1-rc-2".toList 17 "abc12".toList true "abc12def0123".toList
    "2020-01-02".toList "03:04:05".toList "+0200".toList where
  gitDir := rfl
  describe := by decide +kernel
  head := by decide +kernel
  date := by decide +kernel
  line := by decide +kernel
  hex_ne := by decide +kernel
  hex_chars := by decide +kernel
  full_chars := by decide +kernel
  day := by unfold Spec.DateField; decide +kernel
  time := by unfold Spec.DateField; decide +kernel
  zone := by unfold Spec.DateField; decide +kernel

example : (getVersions unexpanded config exGit (some [])).toOption =
    some { version := "0.1-rc-2+17.gabc12.dirty".toList, full := some "abc12def0123".toList, dirty := some true,
           error := none, date := some "2020-01-02T03:04:05+0200".toList } := by decide +kernel

/-- The tag `v`, at the tagged commit. -/
example : (getVersions unexpanded config { exGit with describe := some "v-0-gabc12\n".toList } (some [])).toOption.map
    (·.version) = some "0+untagged.0.gabc12".toList := by decide +kernel

/-- No tags. -/
example : Spec.Untagged { exGit with describe := some "abc12\n".toList } 120 "abc12".toList false
    "abc12def0123".toList "2020-01-02".toList "03:04:05".toList "+0200".toList where
  gitDir := rfl
  describe := by decide +kernel
  head := by decide +kernel
  count := by decide +kernel
  date := by decide +kernel
  hex_ne := by decide +kernel
  hex_chars := by decide +kernel
  full_chars := by decide +kernel
  day := by unfold Spec.DateField; decide +kernel
  time := by unfold Spec.DateField; decide +kernel
  zone := by unfold Spec.DateField; decide +kernel

/-- With a plus sign in a tag, two different trees can have the same version. -/
example :
    (getVersions unexpanded config { exGit with describe := some "v1-1-gabc\n".toList } (some [])).toOption.map
      (·.version) = some "1+1.gabc".toList ∧
    (getVersions unexpanded config { exGit with describe := some "v1+1.gabc-0-gdef\n".toList } (some [])).toOption.map
      (·.version) = some "1+1.gabc".toList := by decide +kernel

/-- Without tags, `get_versions` (and with it `import gcs`) raises if git does not count the commits. -/
example : (match getVersions unexpanded config { exGit with describe := some "abc12\n".toList, count := none } (some []) with
    | .error e => some e
    | .ok _ => none) = some (.raised .type) := by decide +kernel

/-- It also raises if git prints something else than a number. -/
example : (match getVersions unexpanded config { exGit with describe := some "abc12\n".toList, count := some "no\n".toList }
      (some []) with
    | .error e => some e
    | .ok _ => none) = some (.raised .value) := by decide +kernel

/-- A line break before `-dirty`. -/
example : (getVersions unexpanded config { exGit with describe := some "v0.1-rc-2-17-gabc12\n-dirty\n".toList }
    (some [])).toOption.map (·.version) = some "0.1-rc-2+17.gabc12.dirty".toList := by decide +kernel

/-- With a tag it raises if git does not show the date. -/
example : (match getVersions unexpanded config { exGit with date := none } (some []) with
    | .error e => some e
    | .ok _ => none) = some (.raised .attribute) := by decide +kernel

/-- An unexpected output of git is reported. -/
example : (getVersions unexpanded config { exGit with describe := some "v1-x\n".toList } (some [])).toOption.map
    (·.version) = some "unknown".toList := by decide +kernel

end Version
end Gcs
