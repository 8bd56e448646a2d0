/-
C66: the version string of an archive.
-/
import Verif.Props.Version

namespace Gcs
namespace Version

/-! ### Archives -/

/-- A reference to the commit, as `git log --decorate` and `git archive` list it. -/
inductive Spec.Ref where
  | head (branch : Str)
  | tag (name : Str)
  | branch (name : Str)

/-- Name of a reference: without white space and without the characters that separate references. -/
def Spec.NameOk (s : Str) : Prop := s ≠ [] ∧ ∀ c ∈ s, c.toNat ∉ Spec.blanks ∧ c ≠ ',' ∧ c ≠ '(' ∧ c ≠ ')'

def Spec.Ref.name : Spec.Ref → Str
  | .head b => b
  | .tag t => t
  | .branch b => b

def Spec.Ref.text : Spec.Ref → Str
  | .head b => "HEAD -> ".toList ++ b
  | .tag t => "tag: ".toList ++ t
  | .branch b => b

/-- `a, b, c`. -/
def Spec.joinRefs : List Spec.Ref → Str
  | [] => []
  | [r] => r.text
  | r :: rs => r.text ++ ", ".toList ++ Spec.joinRefs rs

/-- `%d` of git: ` (a, b, c)`. -/
def Spec.decoration (refs : List Spec.Ref) : Str := " (".toList ++ Spec.joinRefs refs ++ ")".toList

theorem char_notSpace (c : Char) (h : c.toNat ∉ Spec.blanks) : isSpace c = false := by
  rw [Bool.eq_false_iff]
  exact fun hs => h ((isSpace_iff c).1 hs)

/-- Characters of the text of a reference, its first and its last one. -/
theorem refText (r : Spec.Ref) (h : Spec.NameOk r.name) :
    r.text ≠ [] ∧ (∀ c ∈ r.text, c ≠ ',' ∧ c ≠ '(' ∧ c ≠ ')') ∧ (∀ a, r.text.head? = some a → isSpace a = false) ∧
      ∀ a, r.text.getLast? = some a → isSpace a = false := by
  have key : ∀ pre : Str, (∀ c ∈ pre, c ≠ ',' ∧ c ≠ '(' ∧ c ≠ ')') → (∀ a, pre.head? = some a → isSpace a = false) →
      pre ++ r.name ≠ [] ∧ (∀ c ∈ pre ++ r.name, c ≠ ',' ∧ c ≠ '(' ∧ c ≠ ')') ∧
      (∀ a, (pre ++ r.name).head? = some a → isSpace a = false) ∧
      ∀ a, (pre ++ r.name).getLast? = some a → isSpace a = false := by
    intro pre h1 h2
    refine ⟨by simp [h.1], ?_, ?_, ?_⟩
    · intro c hc
      rcases List.mem_append.mp hc with hc | hc
      · exact h1 c hc
      · exact (h.2 c hc).2
    · intro a ha
      cases pre with
      | nil => exact char_notSpace a (h.2 a (List.mem_of_head? (by simpa using ha))).1
      | cons b t => exact h2 a (by simpa using ha)
    · intro a ha
      exact char_notSpace a (h.2 a (last_append h.1 a ha)).1
  cases r with
  | head b => exact key "HEAD -> ".toList (by decide) (by intro a ha; simp at ha; subst ha; decide)
  | tag b => exact key "tag: ".toList (by decide) (by intro a ha; simp at ha; subst ha; decide)
  | branch b => exact key [] (by simp) (by simp)

theorem split_none (c : Char) (s : Str) (h : c ∉ s) : split c s = [s] := by
  induction s with
  | nil => rfl
  | cons x s ih =>
    have hx : ¬ x = c := fun e => h (by simp [e])
    simp [split, hx, ih fun e => h (by simp [e])]

theorem split_append (c : Char) (s t : Str) (h : c ∉ s) : split c (s ++ c :: t) = s :: split c t := by
  induction s with
  | nil => simp [split]
  | cons x s ih =>
    have hx : ¬ x = c := fun e => h (by simp [e])
    simp [split, hx, ih fun e => h (by simp [e])]

theorem split_ne_nil (c : Char) (s : Str) : split c s ≠ [] := by
  cases s with
  | nil => simp [split]
  | cons x s =>
    simp only [split]
    split
    · simp
    · split <;> simp

theorem split_space (c : Char) (s : Str) (hc : c ≠ ' ') : (split c (' ' :: s)).map strip = (split c s).map strip := by
  have hs : ∀ t : Str, strip (' ' :: t) = strip t := by
    intro t
    have : isSpace ' ' = true := by decide
    simp [strip, stripBy, this]
  have hx : ¬ ' ' = c := fun e => hc e.symm
  simp only [split, if_neg hx]
  cases h : split c s with
  | nil => exact absurd h (split_ne_nil c s)
  | cons t ts => simp [hs]

/-- The references are found in the text. -/
theorem split_join (refs : List Spec.Ref) (h0 : refs ≠ []) (hok : ∀ r ∈ refs, Spec.NameOk r.name) :
    (split ',' (Spec.joinRefs refs)).map strip = refs.map Spec.Ref.text := by
  induction refs with
  | nil => exact absurd rfl h0
  | cons r rs ih =>
    obtain ⟨-, h2, h3, h4⟩ := refText r (hok r (by simp))
    have hcomma : ',' ∉ r.text := fun h => (h2 _ h).1 rfl
    have hst : strip r.text = r.text := stripBy_id _ _ h3 h4
    cases rs with
    | nil => simp [Spec.joinRefs, split_none ',' _ hcomma, hst]
    | cons r' rs =>
      have e : Spec.joinRefs (r :: r' :: rs) = r.text ++ ',' :: (' ' :: Spec.joinRefs (r' :: rs)) := by
        simp [Spec.joinRefs]
      rw [e, split_append ',' _ _ hcomma, List.map_cons, split_space ',' _ (by decide), hst,
        ih (by simp) fun x hx => hok x (by simp [hx])]
      simp

theorem join_ends (refs : List Spec.Ref) (h0 : refs ≠ []) (hok : ∀ r ∈ refs, Spec.NameOk r.name) :
    Spec.joinRefs refs ≠ [] ∧
    (∀ a, (Spec.joinRefs refs).head? = some a → isSpace a = false ∧ a ≠ '(' ∧ a ≠ ')') ∧
      ∀ a, (Spec.joinRefs refs).getLast? = some a → isSpace a = false ∧ a ≠ '(' ∧ a ≠ ')' := by
  induction refs with
  | nil => exact absurd rfl h0
  | cons r rs ih =>
    obtain ⟨h1, h2, h3, h4⟩ := refText r (hok r (by simp))
    cases rs with
    | nil =>
      exact ⟨h1, fun a ha => ⟨h3 a ha, (h2 a (List.mem_of_head? ha)).2⟩,
        fun a ha => ⟨h4 a ha, (h2 a (List.mem_of_getLast? ha)).2⟩⟩
    | cons r' rs =>
      obtain ⟨i1, -, i3⟩ := ih (by simp) fun x hx => hok x (by simp [hx])
      have e : Spec.joinRefs (r :: r' :: rs) = (r.text ++ ", ".toList) ++ Spec.joinRefs (r' :: rs) := by
        simp [Spec.joinRefs]
      refine ⟨by rw [e]; simp, ?_, ?_⟩
      · intro a ha
        have ha' : r.text.head? = some a := by
          rw [e, List.append_assoc, List.head?_append] at ha
          cases ht : r.text with
          | nil => exact absurd ht h1
          | cons b t => simpa [ht] using ha
        exact ⟨h3 a ha', (h2 a (List.mem_of_head? ha')).2⟩
      · intro a ha
        rw [e, getLast?_app i1] at ha
        exact i3 a ha

theorem stripBy_between (p : Char → Bool) (a b : Char) (s : Str) (ha : p a = true) (hb : p b = true) (h0 : s ≠ [])
    (h1 : ∀ a, s.head? = some a → p a = false) (h2 : ∀ a, s.getLast? = some a → p a = false) :
    stripBy p (a :: (s ++ [b])) = s := by
  have h3 : (a :: (s ++ [b])).dropWhile p = s ++ [b] := by
    cases s with
    | nil => exact absurd rfl h0
    | cons c t => simp [ha, h1 c rfl]
  have h4 : (s ++ [b]).reverse.dropWhile p = s.reverse := by
    have h7 : ∀ a, s.reverse.head? = some a → p a = false := by simpa using h2
    cases hr : s.reverse with
    | nil => exact absurd (by simpa using hr) h0
    | cons c t => simp [hb, hr, h7 c (by simp [hr])]
  rw [stripBy, h3, h4, List.reverse_reverse]

/-- Names of the tags. -/
def Spec.tagNames (refs : List Spec.Ref) : List Str :=
  refs.filterMap fun r => match r with | .tag t => some t | _ => none

theorem mem_tagNames (refs : List Spec.Ref) (t : Str) : t ∈ Spec.tagNames refs ↔ Spec.Ref.tag t ∈ refs := by
  simp only [Spec.tagNames, List.mem_filterMap]
  constructor
  · rintro ⟨r, hr, h⟩
    cases r <;> simp at h
    subst h
    exact hr
  · intro h
    exact ⟨_, h, rfl⟩

theorem tag_head (b : Str) : "tag: ".toList.isPrefixOf ("HEAD -> ".toList ++ b) = false := by
  have htag : "tag: ".toList = ['t', 'a', 'g', ':', ' '] := by simp
  have hhead : "HEAD -> ".toList = ['H', 'E', 'A', 'D', ' ', '-', '>', ' '] := by simp
  rw [htag, hhead]
  simp [List.isPrefixOf]

theorem head_ne (b t : Str) : "HEAD -> ".toList ++ b ≠ 'v' :: t := by
  have hhead : "HEAD -> ".toList = ['H', 'E', 'A', 'D', ' ', '-', '>', ' '] := by simp
  rw [hhead]
  simp

theorem tag_drop (b : Str) : ("tag: ".toList ++ b).drop 5 = b := by
  have htag : "tag: ".toList = ['t', 'a', 'g', ':', ' '] := by simp
  rw [htag]
  rfl

theorem likelyTags_decoration (refs : List Spec.Ref) (h0 : refs ≠ []) (hok : ∀ r ∈ refs, Spec.NameOk r.name) :
    "$Format".toList.isPrefixOf (strip (Spec.decoration refs)) = false ∧
    likelyTags (strip (Spec.decoration refs)) =
      if (Spec.tagNames refs).isEmpty then (refs.map Spec.Ref.text).filter fun r => r.any Char.isDigit
      else Spec.tagNames refs := by
  obtain ⟨j1, j2, j3⟩ := join_ends refs h0 hok
  have e1 : strip (Spec.decoration refs) = '(' :: (Spec.joinRefs refs ++ [')']) := by
    have e : Spec.decoration refs = ' ' :: ('(' :: (Spec.joinRefs refs ++ [')'])) := by simp [Spec.decoration]
    have hsp : isSpace ' ' = true := by decide
    have hs : strip (Spec.decoration refs) = strip ('(' :: (Spec.joinRefs refs ++ [')'])) := by
      rw [e]
      simp [strip, stripBy, hsp]
    rw [hs]
    refine stripBy_id _ _ ?_ ?_
    · intro a ha
      simp at ha
      subst ha
      decide
    · intro a ha
      have : (('(' :: Spec.joinRefs refs) ++ [')']).getLast? = some a := by simpa using ha
      rw [List.getLast?_concat] at this
      simp at this
      subst this
      decide
  have e2 : stripBy (fun c => c == '(' || c == ')') (strip (Spec.decoration refs)) = Spec.joinRefs refs := by
    rw [e1]
    refine stripBy_between _ _ _ _ (by decide) (by decide) j1 ?_ ?_
    · intro a ha
      simp [(j2 a ha).2]
    · intro a ha
      simp [(j3 a ha).2]
  have e3 : ((refs.map Spec.Ref.text).filter fun r => "tag: ".toList.isPrefixOf r).map (·.drop 5) = Spec.tagNames refs := by
    clear e1 e2 j1 j2 j3 h0
    induction refs with
    | nil => rfl
    | cons r rs ih =>
      have ih := ih fun x hx => hok x (by simp [hx])
      have hok := hok r (by simp)
      cases r with
      | head b =>
        have : "tag: ".toList.isPrefixOf (Spec.Ref.head b).text = false := tag_head b
        rw [List.map_cons, List.filter_cons, this]
        exact ih
      | tag t =>
        have : "tag: ".toList.isPrefixOf (Spec.Ref.tag t).text = true := by
          rw [List.isPrefixOf_iff_prefix]
          exact List.prefix_append _ _
        have h5 : (Spec.Ref.tag t).text.drop 5 = t := tag_drop t
        rw [List.map_cons, List.filter_cons, this, if_pos rfl, List.map_cons, h5, ih]
        rfl
      | branch b =>
        have : "tag: ".toList.isPrefixOf b = false := by
          rw [Bool.eq_false_iff]
          intro hp
          rw [List.isPrefixOf_iff_prefix] at hp
          obtain ⟨t, ht⟩ := hp
          have hm : ' ' ∈ b := by
            rw [← ht]
            simp
          have := (hok.2 ' ' hm).1
          exact absurd this (by decide)
        have ht : (Spec.Ref.branch b).text = b := rfl
        rw [List.map_cons, List.filter_cons, ht, this]
        exact ih
  refine ⟨?_, ?_⟩
  · have hf : "$Format".toList = ['$', 'F', 'o', 'r', 'm', 'a', 't'] := by decide
    rw [e1, hf]
    rfl
  · simp only [likelyTags, e2, split_join refs h0 hok, e3]

theorem strLe_iff (s t : Str) : strLe s t = true ↔ s ≤ t := by
  rw [← List.not_lt]
  induction s generalizing t with
  | nil => simp [strLe]
  | cons a s ih =>
    cases t with
    | nil => simp [strLe]
    | cons b t =>
      rw [List.cons_lt_cons_iff]
      by_cases hab : a = b
      · subst hab
        have : ¬ a < a := by simp
        simp [strLe, ih, this]
      · have hne : a.toNat ≠ b.toNat := by
          intro h
          exact hab (Char.toNat_inj.mp h)
        have hlt : b < a ↔ b.toNat < a.toNat := Iff.rfl
        have hba : ¬ b = a := fun h => hab h.symm
        simp only [strLe, if_neg hab, decide_eq_true_eq, hlt, hba, false_and, or_false]
        omega

theorem mem_insertStr (a : Str) (l : List Str) (x : Str) : x ∈ insertStr a l ↔ x = a ∨ x ∈ l := by
  induction l with
  | nil => simp [insertStr]
  | cons b l ih =>
    simp only [insertStr]
    split
    · simp
    · simp only [List.mem_cons, ih]
      constructor <;> rintro (h | h | h) <;> simp [h]

theorem mem_sortStr (l : List Str) (x : Str) : x ∈ sortStr l ↔ x ∈ l := by
  induction l with
  | nil => simp [sortStr]
  | cons a l ih =>
    have : sortStr (a :: l) = insertStr a (sortStr l) := rfl
    rw [this, mem_insertStr, ih]
    simp

theorem sorted_sortStr (l : List Str) : (sortStr l).Pairwise (· ≤ ·) := by
  induction l with
  | nil => simp [sortStr]
  | cons a l ih =>
    have hs : sortStr (a :: l) = insertStr a (sortStr l) := rfl
    rw [hs]
    generalize sortStr l = m at ih
    induction m with
    | nil => simp [insertStr]
    | cons b m ihm =>
      rw [List.pairwise_cons] at ih
      simp only [insertStr]
      split
      · rename_i hle
        rw [strLe_iff] at hle
        rw [List.pairwise_cons, List.pairwise_cons]
        refine ⟨?_, ih⟩
        intro x hx
        rcases List.mem_cons.mp hx with hx | hx
        · rw [hx]; exact hle
        · exact List.le_trans hle (ih.1 x hx)
      · rename_i hle
        rw [strLe_iff] at hle
        rw [List.pairwise_cons]
        refine ⟨?_, ihm ih.2⟩
        intro x hx
        rcases (mem_insertStr a m x).mp hx with hx | hx
        · rw [hx]
          exact (List.le_total b a).resolve_right hle
        · exact ih.1 x hx

/-- The first match in the sorted list is the smallest one. -/
theorem find_sortStr (l : List Str) (p : Str → Bool) :
    (∃ x, (sortStr l).find? p = some x ∧ x ∈ l ∧ p x = true ∧ ∀ y ∈ l, p y = true → x ≤ y) ∨
      ((sortStr l).find? p = none ∧ ∀ y ∈ l, p y = false) := by
  have hs := sorted_sortStr l
  have hm := mem_sortStr l
  generalize sortStr l = m at hs hm
  cases hf : m.find? p with
  | none =>
    refine Or.inr ⟨rfl, ?_⟩
    intro y hy
    have := List.find?_eq_none.mp hf y ((hm y).mpr hy)
    simpa using this
  | some x =>
    refine Or.inl ⟨x, rfl, ?_⟩
    obtain ⟨hp, as, bs, hab, has⟩ := List.find?_eq_some_iff_append.mp hf
    refine ⟨(hm x).mp (by rw [hab]; simp), hp, ?_⟩
    intro y hy hpy
    have hy' : y ∈ as ++ x :: bs := by rw [← hab]; exact (hm y).mpr hy
    rcases List.mem_append.mp hy' with h | h
    · have := has y h
      simp [hpy] at this
    · rcases List.mem_cons.mp h with h | h
      · rw [h]; exact List.le_refl x
      · rw [hab, List.pairwise_append, List.pairwise_cons] at hs
        exact hs.2.1.1 y h

theorem prefix_v (x : Str) : ['v'].isPrefixOf x = true ↔ ∃ t, x = 'v' :: t := by
  rw [List.isPrefixOf_iff_prefix]
  constructor
  · rintro ⟨t, ht⟩
    exact ⟨t, by simpa using ht.symm⟩
  · rintro ⟨t, rfl⟩
    exact ⟨t, rfl⟩

theorem cons_le (a : Char) (s t : Str) (h : a :: s ≤ a :: t) : s ≤ t := by
  rw [← List.not_lt] at h ⊢
  intro hlt
  exact h (List.cons_lt_cons_iff.mpr (Or.inr ⟨rfl, hlt⟩))

/-- An archive of a commit with tags: the version is the smallest tag, in the order of texts, of those that start with
the prefix. -/
theorem C66_archive_tag (k : Keywords) (g : Git) (root : Option (List Str)) (refs : List Spec.Ref) (full : Str)
    (hok : ∀ r ∈ refs, Spec.NameOk r.name) (hk : k.refnames = Spec.decoration refs)
    (hfull : k.full = full ++ ['\n']) (hhex : ∀ c ∈ full, c ∈ "0123456789abcdef".toList)
    (t0 : Str) (ht0 : Spec.Ref.tag ('v' :: t0) ∈ refs) :
    ∃ info, getVersions k config g root = .ok info ∧ Spec.Ref.tag ('v' :: info.version) ∈ refs ∧
      (∀ t, Spec.Ref.tag ('v' :: t) ∈ refs → info.version ≤ t) ∧
      info.full = some full ∧ info.dirty = some false ∧ info.error = none := by
  obtain ⟨l1, l2⟩ := likelyTags_decoration refs (List.ne_nil_of_mem ht0) hok
  have hne : (Spec.tagNames refs).isEmpty = false := by
    cases h : Spec.tagNames refs with
    | nil => exact absurd ((mem_tagNames refs _).mpr ht0) (by simp [h])
    | cons => rfl
  rw [hne] at l2
  have hc : config.tagPrefix = ['v'] := rfl
  rcases find_sortStr (Spec.tagNames refs) (fun ref => ['v'].isPrefixOf ref) with ⟨x, hx, hmem, hp, hmin⟩ | ⟨-, hnone⟩
  · obtain ⟨t, rfl⟩ := (prefix_v x).mp hp
    refine ⟨{ version := t, full := some full, dirty := some false, error := none, date := k.date.map isoDate }, ?_, ?_⟩
    · simp only [getVersions, versionsFromKeywords, hc, hk, l1, l2, Bool.false_eq_true, if_false, hx, hfull, strip_hex full hhex]
      rfl
    · refine ⟨(mem_tagNames refs _).mp hmem, ?_, rfl, rfl, rfl⟩
      intro t' ht'
      exact cons_le 'v' t t' (hmin _ ((mem_tagNames refs _).mpr ht') ((prefix_v _).mpr ⟨t', rfl⟩))
  · have := hnone _ ((mem_tagNames refs _).mpr ht0)
    rw [(prefix_v _).mpr ⟨t0, rfl⟩] at this
    simp at this

/-- If there are tags but none of them starts with the prefix, the version is unknown: branches are not looked at. -/
theorem C66_archive_other_tags (k : Keywords) (g : Git) (root : Option (List Str)) (refs : List Spec.Ref) (full : Str)
    (hok : ∀ r ∈ refs, Spec.NameOk r.name) (hk : k.refnames = Spec.decoration refs)
    (hfull : k.full = full ++ ['\n']) (hhex : ∀ c ∈ full, c ∈ "0123456789abcdef".toList)
    (t0 : Str) (ht0 : Spec.Ref.tag t0 ∈ refs) (hnone : ∀ t, Spec.Ref.tag ('v' :: t) ∉ refs) :
    getVersions k config g root =
      .ok { version := "0+unknown".toList, full := some full, dirty := some false,
            error := some "no suitable tags".toList, date := none } := by
  obtain ⟨l1, l2⟩ := likelyTags_decoration refs (List.ne_nil_of_mem ht0) hok
  have hne : (Spec.tagNames refs).isEmpty = false := by
    cases h : Spec.tagNames refs with
    | nil => exact absurd ((mem_tagNames refs _).mpr ht0) (by simp [h])
    | cons => rfl
  rw [hne] at l2
  have hc : config.tagPrefix = ['v'] := rfl
  rcases find_sortStr (Spec.tagNames refs) (fun ref => ['v'].isPrefixOf ref) with ⟨x, -, hmem, hp, -⟩ | ⟨hx, -⟩
  · obtain ⟨t, rfl⟩ := (prefix_v x).mp hp
    exact absurd ((mem_tagNames refs _).mp hmem) (hnone t)
  · simp only [getVersions, versionsFromKeywords, hc, hk, l1, l2, Bool.false_eq_true, if_false, hx, hfull, strip_hex full hhex]
    rfl

/-- If there are no tags, a branch that starts with the prefix and has a digit in its name is taken for a tag; the
smallest one. -/
theorem C66_archive_branch (k : Keywords) (g : Git) (root : Option (List Str)) (refs : List Spec.Ref) (full : Str)
    (hok : ∀ r ∈ refs, Spec.NameOk r.name) (hk : k.refnames = Spec.decoration refs)
    (hfull : k.full = full ++ ['\n']) (hhex : ∀ c ∈ full, c ∈ "0123456789abcdef".toList)
    (hnt : ∀ t, Spec.Ref.tag t ∉ refs) (b0 : Str) (hb0 : Spec.Ref.branch ('v' :: b0) ∈ refs)
    (hd0 : ∃ c ∈ b0, c.isDigit = true) :
    ∃ info, getVersions k config g root = .ok info ∧ Spec.Ref.branch ('v' :: info.version) ∈ refs ∧
      (∃ c ∈ info.version, c.isDigit = true) ∧
      (∀ b, Spec.Ref.branch ('v' :: b) ∈ refs → (∃ c ∈ b, c.isDigit = true) → info.version ≤ b) ∧
      info.full = some full ∧ info.dirty = some false ∧ info.error = none := by
  obtain ⟨l1, l2⟩ := likelyTags_decoration refs (List.ne_nil_of_mem hb0) hok
  have hne : (Spec.tagNames refs).isEmpty = true := by
    cases h : Spec.tagNames refs with
    | nil => rfl
    | cons t ts => exact absurd ((mem_tagNames refs t).mp (by simp [h])) (hnt t)
  rw [hne] at l2
  have hv : Char.isDigit 'v' = false := by decide
  have hmemf : ∀ t, 'v' :: t ∈ (refs.map Spec.Ref.text).filter (fun r => r.any Char.isDigit) ↔
      Spec.Ref.branch ('v' :: t) ∈ refs ∧ ∃ c ∈ t, c.isDigit = true := by
    intro t
    rw [List.mem_filter, List.mem_map, List.any_eq_true]
    constructor
    · rintro ⟨⟨r, hr, e⟩, c, hc, hcd⟩
      refine ⟨?_, c, ?_, hcd⟩
      · cases r with
        | head b => exact absurd e (head_ne b t)
        | tag b => exact absurd hr (hnt b)
        | branch b =>
          have : b = 'v' :: t := e
          rw [← this]
          exact hr
      · rcases List.mem_cons.mp hc with h | h
        · rw [h, hv] at hcd
          simp at hcd
        · exact h
    · rintro ⟨hr, c, hc, hcd⟩
      exact ⟨⟨_, hr, rfl⟩, c, by simp [hc], hcd⟩
  have hc : config.tagPrefix = ['v'] := rfl
  rcases find_sortStr ((refs.map Spec.Ref.text).filter fun r => r.any Char.isDigit) (fun ref => ['v'].isPrefixOf ref) with
    ⟨x, hx, hmem, hp, hmin⟩ | ⟨-, hnone⟩
  · obtain ⟨t, rfl⟩ := (prefix_v x).mp hp
    refine ⟨{ version := t, full := some full, dirty := some false, error := none, date := k.date.map isoDate }, ?_, ?_⟩
    · simp only [getVersions, versionsFromKeywords, hc, hk, l1, l2, Bool.false_eq_true, if_false, if_true, hx, hfull, strip_hex full hhex]
      rfl
    · obtain ⟨m1, m2⟩ := (hmemf t).mp hmem
      refine ⟨m1, m2, ?_, rfl, rfl, rfl⟩
      intro t' ht' hd'
      exact cons_le 'v' t t' (hmin _ ((hmemf t').mpr ⟨ht', hd'⟩) ((prefix_v _).mpr ⟨t', rfl⟩))
  · have := hnone _ ((hmemf b0).mpr ⟨hb0, hd0⟩)
    rw [(prefix_v _).mpr ⟨b0, rfl⟩] at this
    simp at this

/-- An archive with two version tags: `v0.10` comes before `v0.9`. -/
def exKeywords : Keywords where
  refnames := " (HEAD -> master, tag: v0.9, tag: v0.10, tag: old, v2-branch)".toList
  full := "abcdef0123\n".toList
  date := some "2020-01-02 03:04:05 +0200\n".toList

def exRefs : List Spec.Ref :=
  [.head "master".toList, .tag "v0.9".toList, .tag "v0.10".toList, .tag "old".toList, .branch "v2-branch".toList]

instance (s : Str) : Decidable (Spec.NameOk s) := inferInstanceAs (Decidable (_ ∧ _))

example : exKeywords.refnames = Spec.decoration exRefs ∧ (∀ r ∈ exRefs, Spec.NameOk r.name) := by decide +kernel

example : (getVersions exKeywords config ⟨false, none, none, none, none⟩ none).toOption.map (·.version) =
    some "0.10".toList := by decide +kernel

/-- Tags without the prefix: the branch `v2-branch` is not used. -/
example : (getVersions { exKeywords with refnames := " (tag: old, v2-branch)".toList } config
    ⟨false, none, none, none, none⟩ none).toOption.map (·.version) = some "0+unknown".toList := by decide +kernel

/-- No tags: the branch is taken for a tag. -/
example : (getVersions { exKeywords with refnames := " (HEAD -> master, v2-branch)".toList } config
    ⟨false, none, none, none, none⟩ none).toOption.map (·.version) = some "2-branch".toList := by decide +kernel

end Version
end Gcs
