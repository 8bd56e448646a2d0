import Verif.Props.VersionFile

/-!
# C89: `setup.py` and the package find the same version

`setup.py` calls `get_versions` of versioneer.py, the package calls `get_versions` of its own file.
-/

namespace Gcs
namespace Version

/-! ### Specification -/

/-- A line that does not begin the document of a written version file. -/
def Spec.NotJson (line : Str) : Prop :=
  (∀ a, line ≠ a ++ "version_json = '''\n".toList) ∧ ∀ a, line ≠ a ++ "version_json = '''\r\n".toList

/-- The version of a tree, as the package shows it: a dictionary. -/
def Spec.shown : VerM Info → VerM Dict
  | .ok i => .ok i.dict
  | .error e => .error e

/-- Making a distribution and unpacking it, again and again, each time with other surroundings. -/
def Spec.generations (file : Str) : List (Config × Git × List Str) → VerM Str
  | [] => .ok file
  | (cfg, g, root) :: rest =>
    match setupVersions (some file) cfg g root with
    | .ok d => Spec.generations (versionFile d) rest
    | .error e => .error e

/-- A version file where lines of the keywords may be missing. -/
def Spec.someLines (before after : List Str) (refnames full date : Option Str) : Str :=
  (before ++ (refnames.toList.map (Spec.keywordLine "git_refnames".toList) ++
    (full.toList.map (Spec.keywordLine "git_full".toList) ++ date.toList.map (Spec.keywordLine "git_date".toList))) ++
    after).flatten

/-- A text as it is in a work tree: `$Format` after blanks. -/
def Spec.Unexpanded (text : Str) : Prop :=
  ∃ blanks rest, (∀ c ∈ blanks, isSpace c = true) ∧ text = blanks ++ ("$Format".toList ++ rest)

/-! ### Proofs -/

theorem newline_unique (x v r r' : Str) (hx : '\n' ∉ x) (hv : '\n' ∉ v) (h : x ++ '\n' :: r = v ++ '\n' :: r') : x = v := by
  induction x generalizing v with
  | nil =>
    cases v with
    | nil => rfl
    | cons c v =>
      simp only [List.nil_append, List.cons_append, List.cons.injEq] at h
      exact absurd (by rw [h.1]; simp) hv
  | cons c x ih =>
    cases v with
    | nil =>
      simp only [List.nil_append, List.cons_append, List.cons.injEq] at h
      exact absurd (by rw [← h.1]; simp) hx
    | cons d v =>
      simp only [List.cons_append, List.cons.injEq] at h
      simp only [List.mem_cons, not_or] at hx hv
      rw [h.1, ih v hx.2 hv.2 h.2]

theorem afterFirst_line (x b s : Str) (hx : '\n' ∉ x) (hb : '\n' ∉ b) (h : ∀ a, b ++ ['\n'] ≠ a ++ (x ++ ['\n'])) :
    afterFirst (x ++ ['\n']) (b ++ '\n' :: s) = afterFirst (x ++ ['\n']) s := by
  have nopre : ∀ v, '\n' ∉ v → x ≠ v → (x ++ ['\n']).isPrefixOf (v ++ '\n' :: s) = false := by
    intro v hv hne
    rw [Bool.eq_false_iff, Ne, List.isPrefixOf_iff_prefix]
    rintro ⟨r, hr⟩
    rw [List.append_assoc] at hr
    exact hne (newline_unique x v r s hx hv hr)
  induction b with
  | nil =>
    rw [List.nil_append, afterFirst, ← List.nil_append ('\n' :: s), nopre [] (by simp) (fun e => h [] (by rw [e]; rfl))]
    simp
  | cons c b ih =>
    rw [List.cons_append, afterFirst, ← List.cons_append, nopre (c :: b) hb (fun e => h [] (by rw [e]; rfl))]
    simp only [Bool.false_eq_true, if_false]
    simp only [List.mem_cons, not_or] at hb
    exact ih hb.2 fun a e => h (c :: a) (by rw [List.cons_append, e]; rfl)

theorem afterFirst_lines (x : Str) (hx : '\n' ∉ x) (lines : List Str)
    (h : ∀ l ∈ lines, Spec.IsLine l ∧ ∀ a, l ≠ a ++ (x ++ ['\n'])) : afterFirst (x ++ ['\n']) lines.flatten = none := by
  induction lines with
  | nil => simp [afterFirst]
  | cons l lines ih =>
    obtain ⟨⟨b, rfl, hb⟩, hl⟩ := h l (by simp)
    rw [List.flatten_cons, List.append_assoc, List.singleton_append, afterFirst_line x b _ hx hb hl,
      ih fun l hm => h l (by simp [hm])]

theorem notJson_keywordLine (name text : Str) : Spec.NotJson (Spec.keywordLine name text) := by
  have e : Spec.keywordLine name text = ("    ".toList ++ (name ++ (" = \"".toList ++ text))) ++ ['"', '\n'] := by
    simp only [Spec.keywordLine, List.append_assoc]
    rfl
  have e1 : "version_json = '''\n".toList = "version_json = ''".toList ++ ['\'', '\n'] := by decide +kernel
  have e2 : "version_json = '''\r\n".toList = "version_json = '''".toList ++ ['\r', '\n'] := by decide +kernel
  constructor
  · intro a h
    rw [e, e1, ← List.append_assoc a] at h
    exact absurd (List.append_inj_right' h rfl) (by decide)
  · intro a h
    rw [e, e2, ← List.append_assoc a] at h
    exact absurd (List.append_inj_right' h rfl) (by decide)

theorem isLine_keywordLine (name text : Str) (hn : '\n' ∉ name) (ht : '\n' ∉ text) : Spec.IsLine (Spec.keywordLine name text) := by
  refine ⟨"    ".toList ++ (name ++ (" = \"".toList ++ (text ++ ['"']))), ?_, ?_⟩
  · simp only [Spec.keywordLine, List.append_assoc]
    rfl
  · simp only [List.mem_append, not_or]
    exact ⟨by decide, hn, by decide, ht, by decide⟩

theorem versionsFromFile_lines (lines : List Str) (h : ∀ l ∈ lines, Spec.IsLine l ∧ Spec.NotJson l) :
    versionsFromFile (some lines.flatten) = .error .notThisMethod := by
  have e1 : "version_json = '''\n".toList = "version_json = '''".toList ++ ['\n'] := by decide +kernel
  have e2 : "version_json = '''\r\n".toList = "version_json = '''\r".toList ++ ['\n'] := by decide +kernel
  have h1 : searchJson "version_json = '''\n".toList lines.flatten = none := by
    rw [searchJson, e1, afterFirst_lines _ (by decide +kernel) lines fun l hl => ⟨(h l hl).1, by rw [← e1]; exact (h l hl).2.1⟩]
  have h2 : searchJson "version_json = '''\r\n".toList lines.flatten = none := by
    rw [searchJson, e2, afterFirst_lines _ (by decide +kernel) lines fun l hl => ⟨(h l hl).1, by rw [← e2]; exact (h l hl).2.2⟩]
  rw [versionsFromFile, h1, h2]

/-- C89.  In a work tree and in an archive of one (where git has put texts in place of the keywords), `setup.py` finds the same
version as the package, or both stop with the same exception. -/
theorem C89_agree (before after : List Str) (hb : ∀ l ∈ before, Spec.IsLine l ∧ Spec.Other l ∧ Spec.NotJson l)
    (ha : ∀ l ∈ after, Spec.IsLine l ∧ Spec.Other l ∧ Spec.NotJson l) (refnames full date : Str) (k : Keywords)
    (hk : getKeywords refnames full date = some k) (cfg : Config) (g : Git) (root : List Str) :
    setupVersions (some (Spec.file before after refnames full date)) cfg g root =
      Spec.shown (getVersions k cfg g (some root)) := by
  have hkey : k = ⟨refnames, full, some date⟩ ∧ Spec.Plain refnames ∧ Spec.Plain full ∧ Spec.Plain date := by
    rw [getKeywords] at hk
    split at hk
    · rename_i r f d h1 h2 h3
      obtain ⟨rfl, p1⟩ := (evalAssign_iff _ _).1 h1
      obtain ⟨rfl, p2⟩ := (evalAssign_iff _ _).1 h2
      obtain ⟨rfl, p3⟩ := (evalAssign_iff _ _).1 h3
      exact ⟨(Option.some.inj hk).symm, p1, p2, p3⟩
    · simp at hk
  obtain ⟨rfl, p1, p2, p3⟩ := hkey
  have hfile : versionsFromFile (some (Spec.file before after refnames full date)) = .error .notThisMethod := by
    refine versionsFromFile_lines _ fun l hl => ?_
    simp only [List.mem_append, List.mem_cons, List.not_mem_nil, or_false] at hl
    rcases hl with (hl | rfl | rfl | rfl) | hl
    · exact ⟨(hb l hl).1, (hb l hl).2.2⟩
    · exact ⟨isLine_keywordLine _ _ (by decide) p1.2.2, notJson_keywordLine _ _⟩
    · exact ⟨isLine_keywordLine _ _ (by decide) p2.2.2, notJson_keywordLine _ _⟩
    · exact ⟨isLine_keywordLine _ _ (by decide) p3.2.2, notJson_keywordLine _ _⟩
    · exact ⟨(ha l hl).1, (ha l hl).2.2⟩
  have hfound := (C83_keywords before after refnames full date (fun l hl => ⟨(hb l hl).1, (hb l hl).2.1⟩)
    (fun l hl => ⟨(ha l hl).1, (ha l hl).2.1⟩) ⟨p1.2.2, p2.2.2, p3.2.2⟩).1
  rw [setupVersions, hfound, hfile, getVersions]
  simp only [versionsFromFound, reduceCtorEq, false_and, if_false]
  have shown_orElse : ∀ x y : VerM Info, Spec.shown (orElse x y) = orElse (Spec.shown x) (Spec.shown y) := by
    intro x y
    rcases x with (e | e) | i <;> rfl
  have shown_bind : ∀ x : VerM Info, (do return (← x).dict) = Spec.shown x := by
    intro x
    rcases x with e | i <;> rfl
  have shown_render : (do return (← render (← piecesFromVcs cfg.tagPrefix g) cfg.style).dict) =
      Spec.shown (do render (← piecesFromVcs cfg.tagPrefix g) cfg.style) := by
    cases piecesFromVcs cfg.tagPrefix g with
    | error e => rfl
    | ok p => exact shown_bind (render p cfg.style)
  have skip : ∀ y : VerM Dict, orElse (.error .notThisMethod) y = y := fun _ => rfl
  rw [shown_orElse, shown_orElse, shown_orElse, shown_bind, shown_render, skip]
  congr 3
  split
  · rw [shown_bind]
  · rfl

/-- C89.  A distribution keeps the version: making one, unpacking it and making the next one from it, any number of times and
whatever git says there, leaves the dictionary as it was found in the first tree. -/
theorem C89_generations (file : Str) (cfg : Config) (g : Git) (root : List Str) (d : Dict)
    (h : setupVersions (some file) cfg g root = .ok d) (steps : List (Config × Git × List Str)) :
    ∃ file' d', Spec.generations file ((cfg, g, root) :: steps) = .ok file' ∧ versionsFromFile (some file') = .ok d' ∧
      d'.Perm d ∧ ((∀ t ∈ Spec.texts d, Spec.Readable t) → moduleVersions file' = some d') := by
  have key : ∀ (steps : List (Config × Git × List Str)) (d1 : Dict), d1.Perm d →
      ∃ d2, Spec.generations (versionFile d1) steps = .ok (versionFile d2) ∧ d2.Perm d := by
    intro steps
    induction steps with
    | nil => exact fun d1 hp => ⟨d1, rfl, hp⟩
    | cons s steps ih =>
      intro d1 hp
      obtain ⟨cfg, g, root⟩ := s
      obtain ⟨d', h1, -, h3⟩ := C88_setup d1 cfg g root
      rw [Spec.generations, h1]
      exact ih d' (h3.trans hp)
  obtain ⟨d2, h1, h2⟩ := key steps d (List.Perm.refl _)
  refine ⟨versionFile d2, sortItems d2, ?_, versionsFromFile_versionFile d2, (sortItems_perm d2).trans h2, ?_⟩
  · rw [Spec.generations, h]
    exact h1
  · intro hr
    refine moduleVersions_readable d2 fun t ht => hr t ?_
    simp only [Spec.texts, List.mem_flatMap] at ht ⊢
    obtain ⟨e, he, ht⟩ := ht
    exact ⟨e, h2.mem_iff.1 he, ht⟩

/-! ### Example -/

/-- Lines around the keywords: gcs/_version.py:20-30. -/
def linesBefore : List Str := ["def get_keywords():\n".toList, "    # each be defined on a line of their own. _version.py will just call\n".toList]

def linesAfter : List Str := ["    keywords = {\"refnames\": git_refnames, \"full\": git_full, \"date\": git_date}\n".toList, "    return keywords\n".toList]

theorem notJson_of (l : Str) (h : (l.dropLast).getLast? ≠ some '\'' ∧ (l.dropLast).getLast? ≠ some '\r') : Spec.NotJson l := by
  have e1 : "version_json = '''\n".toList = "version_json = ''".toList ++ ['\'', '\n'] := by decide +kernel
  have e2 : "version_json = '''\r\n".toList = "version_json = '''".toList ++ ['\r', '\n'] := by decide +kernel
  constructor
  · rintro a rfl
    apply h.1
    rw [e1, ← List.append_assoc, show ['\'', '\n'] = ['\''] ++ ['\n'] from rfl, ← List.append_assoc, List.dropLast_concat,
      List.getLast?_concat]
  · rintro a rfl
    apply h.2
    rw [e2, ← List.append_assoc, show ['\r', '\n'] = ['\r'] ++ ['\n'] from rfl, ← List.append_assoc, List.dropLast_concat,
      List.getLast?_concat]

/-- The hypotheses of the theorem hold for these lines and the keywords of a work tree. -/
example : (∀ l ∈ linesBefore, Spec.IsLine l ∧ Spec.Other l ∧ Spec.NotJson l) ∧
    (∀ l ∈ linesAfter, Spec.IsLine l ∧ Spec.Other l ∧ Spec.NotJson l) ∧
    (getKeywords "$Format:%d$".toList "$Format:%H$".toList "$Format:%ci$".toList).isSome := by
  have hall : ∀ l ∈ linesBefore ++ linesAfter, (l.getLast? = some '\n' ∧ '\n' ∉ l.dropLast) ∧
      (l.dropWhile isSpace).head? ≠ some 'g' ∧ (l.dropLast).getLast? ≠ some '\'' ∧ (l.dropLast).getLast? ≠ some '\r' := by
    decide +kernel
  have each : ∀ l ∈ linesBefore ++ linesAfter, Spec.IsLine l ∧ Spec.Other l ∧ Spec.NotJson l := fun l hl =>
    ⟨isLine_of l (hall l hl).1, other_of_noG l (hall l hl).2.1, notJson_of l (hall l hl).2.2⟩
  exact ⟨fun l hl => each l (by simp [hl]), fun l hl => each l (by simp [hl]), by decide +kernel⟩

theorem unexpanded_iff (text : Str) : "$Format".toList.isPrefixOf (strip text) = true ↔ Spec.Unexpanded text := by
  constructor
  · intro h
    obtain ⟨blanks, rest, h1, h2⟩ := strip_prefix _ _ h
    exact ⟨blanks, rest, h1, h2⟩
  · rintro ⟨blanks, rest, hb, rfl⟩
    have e : (blanks ++ ("$Format".toList ++ rest)).dropWhile isSpace = "$Format".toList ++ rest := by
      induction blanks with
      | nil => exact List.dropWhile_cons_of_neg (by decide)
      | cons b bs ih =>
        rw [List.cons_append, List.dropWhile_cons_of_pos (hb b (by simp))]
        exact ih fun c hc => hb c (by simp [hc])
    rw [strip, stripBy, e, List.isPrefixOf_iff_prefix]
    have key : ∀ r : Str, ∃ r', (r ++ "$Format".toList.reverse).dropWhile isSpace = r' ++ "$Format".toList.reverse := by
      intro r
      induction r with
      | nil => exact ⟨[], by decide⟩
      | cons c r ih =>
        by_cases hc : isSpace c = true
        · rw [List.cons_append, List.dropWhile_cons_of_pos hc]
          exact ih
        · rw [List.cons_append, List.dropWhile_cons_of_neg hc]
          exact ⟨c :: r, rfl⟩
    obtain ⟨r', hr⟩ := key rest.reverse
    rw [List.reverse_append, hr, List.reverse_append, List.reverse_reverse]
    exact List.prefix_append _ _

theorem gitGetKeywords_someLines (before after : List Str) (hb : ∀ l ∈ before, Spec.IsLine l ∧ Spec.Other l)
    (ha : ∀ l ∈ after, Spec.IsLine l ∧ Spec.Other l) (refnames full date : Option Str)
    (h : ∀ t, refnames = some t ∨ full = some t ∨ date = some t → '\n' ∉ t) :
    gitGetKeywords (some (Spec.someLines before after refnames full date)) = ⟨refnames, full, date⟩ := by
  have hg : isSpace 'g' = false := by decide
  rw [gitGetKeywords, Spec.someLines, readLines_flatten]
  · simp only [List.foldl_append]
    rw [foldl_other before _ fun l hl => (hb l hl).2, foldl_other after _ fun l hl => (ha l hl).2]
    have s1 : ∀ (t : Str) k, '\n' ∉ t →
        keywordsStep k (Spec.keywordLine "git_refnames".toList t) = ⟨some t, k.full, k.date⟩ := fun t k ht =>
      congr (congr (congrArg FoundKeywords.mk (keywordIn_line 'g' "it_refnames".toList t hg (by decide) ht k.refnames))
        (keywordIn_another 'g' "it_refnames".toList t "git_full =".toList hg (fun s => rfl) k.full))
        (keywordIn_another 'g' "it_refnames".toList t "git_date =".toList hg (fun s => rfl) k.date)
    have s2 : ∀ (t : Str) k, '\n' ∉ t →
        keywordsStep k (Spec.keywordLine "git_full".toList t) = ⟨k.refnames, some t, k.date⟩ := fun t k ht =>
      congr (congr (congrArg FoundKeywords.mk
        (keywordIn_another 'g' "it_full".toList t "git_refnames =".toList hg (fun s => rfl) k.refnames))
        (keywordIn_line 'g' "it_full".toList t hg (by decide) ht k.full))
        (keywordIn_another 'g' "it_full".toList t "git_date =".toList hg (fun s => rfl) k.date)
    have s3 : ∀ (t : Str) k, '\n' ∉ t →
        keywordsStep k (Spec.keywordLine "git_date".toList t) = ⟨k.refnames, k.full, some t⟩ := fun t k ht =>
      congr (congr (congrArg FoundKeywords.mk
        (keywordIn_another 'g' "it_date".toList t "git_refnames =".toList hg (fun s => rfl) k.refnames))
        (keywordIn_another 'g' "it_date".toList t "git_full =".toList hg (fun s => rfl) k.full))
        (keywordIn_line 'g' "it_date".toList t hg (by decide) ht k.date)
    have o1 : (refnames.toList.map (Spec.keywordLine "git_refnames".toList)).foldl keywordsStep {} = ⟨refnames, none, none⟩ := by
      cases hr : refnames with
      | none => rfl
      | some t => exact s1 t _ (h t (Or.inl hr))
    have o2 : (full.toList.map (Spec.keywordLine "git_full".toList)).foldl keywordsStep ⟨refnames, none, none⟩ =
        ⟨refnames, full, none⟩ := by
      cases hr : full with
      | none => rfl
      | some t => exact s2 t _ (h t (Or.inr (Or.inl hr)))
    have o3 : (date.toList.map (Spec.keywordLine "git_date".toList)).foldl keywordsStep ⟨refnames, full, none⟩ =
        ⟨refnames, full, date⟩ := by
      cases hr : date with
      | none => rfl
      | some t => exact s3 t _ (h t (Or.inr (Or.inr hr)))
    rw [o1, o2, o3]
  · intro l hl
    simp only [List.mem_append, List.mem_map, Option.mem_toList, Option.mem_def] at hl
    rcases hl with (hl | ⟨t, ht, rfl⟩ | ⟨t, ht, rfl⟩ | ⟨t, ht, rfl⟩) | hl
    · exact (hb l hl).1
    · exact keywordLine_isLine _ _ (by decide) (h t (Or.inl ht))
    · exact keywordLine_isLine _ _ (by decide) (h t (Or.inr (Or.inl ht)))
    · exact keywordLine_isLine _ _ (by decide) (h t (Or.inr (Or.inr ht)))
    · exact (ha l hl).1

/-- C89, a version file where lines of the keywords are missing.  Without any of the lines, and with a line for the names of the
commit as it is in a work tree, `setup.py` goes on as if there were no file; otherwise it stops with `KeyError` if the line for
these names or the line for the commit is missing. -/
theorem C89_incomplete (before after : List Str) (hb : ∀ l ∈ before, Spec.IsLine l ∧ Spec.Other l ∧ Spec.NotJson l)
    (ha : ∀ l ∈ after, Spec.IsLine l ∧ Spec.Other l ∧ Spec.NotJson l) (refnames full date : Option Str)
    (h : ∀ t, refnames = some t ∨ full = some t ∨ date = some t → '\n' ∉ t) (cfg : Config) (g : Git) (root : List Str) :
    (refnames = none → full = none → date = none →
      setupVersions (some (Spec.someLines before after refnames full date)) cfg g root = setupVersions none cfg g root) ∧
    (∀ t, refnames = some t → Spec.Unexpanded t →
      setupVersions (some (Spec.someLines before after refnames full date)) cfg g root = setupVersions none cfg g root) ∧
    (refnames = none → full ≠ none ∨ date ≠ none →
      setupVersions (some (Spec.someLines before after refnames full date)) cfg g root = .error (.raised .key)) ∧
    (∀ t, refnames = some t → ¬ Spec.Unexpanded t → full = none →
      setupVersions (some (Spec.someLines before after refnames full date)) cfg g root = .error (.raised .key)) := by
  have hfound := gitGetKeywords_someLines before after (fun l hl => ⟨(hb l hl).1, (hb l hl).2.1⟩)
    (fun l hl => ⟨(ha l hl).1, (ha l hl).2.1⟩) refnames full date h
  have hfile : versionsFromFile (some (Spec.someLines before after refnames full date)) = .error .notThisMethod := by
    refine versionsFromFile_lines _ fun l hl => ?_
    simp only [List.mem_append, List.mem_map, Option.mem_toList, Option.mem_def] at hl
    rcases hl with (hl | ⟨t, ht, rfl⟩ | ⟨t, ht, rfl⟩ | ⟨t, ht, rfl⟩) | hl
    · exact ⟨(hb l hl).1, (hb l hl).2.2⟩
    · exact ⟨keywordLine_isLine _ _ (by decide) (h t (Or.inl ht)), notJson_keywordLine _ _⟩
    · exact ⟨keywordLine_isLine _ _ (by decide) (h t (Or.inr (Or.inl ht))), notJson_keywordLine _ _⟩
    · exact ⟨keywordLine_isLine _ _ (by decide) (h t (Or.inr (Or.inr ht))), notJson_keywordLine _ _⟩
    · exact ⟨(ha l hl).1, (ha l hl).2.2⟩
  have hgo : versionsFromFound ⟨refnames, full, date⟩ cfg.tagPrefix = .error .notThisMethod →
      setupVersions (some (Spec.someLines before after refnames full date)) cfg g root = setupVersions none cfg g root := by
    intro hn
    rw [setupVersions, hfound, hfile, hn, setupVersions]
    rfl
  have hstop : versionsFromFound ⟨refnames, full, date⟩ cfg.tagPrefix = .error (.raised .key) →
      setupVersions (some (Spec.someLines before after refnames full date)) cfg g root = .error (.raised .key) := by
    intro hn
    rw [setupVersions, hfound, hn]
    rfl
  refine ⟨?_, ?_, ?_, ?_⟩
  · rintro rfl rfl rfl
    exact hgo rfl
  · rintro t rfl hu
    apply hgo
    have hp := (unexpanded_iff t).2 hu
    cases full with
    | none => simp only [versionsFromFound, reduceCtorEq, false_and, if_false, hp, if_true]
    | some f => simp only [versionsFromFound, reduceCtorEq, false_and, if_false, versionsFromKeywords, hp, if_true]
  · rintro rfl hne
    apply hstop
    rw [versionsFromFound, if_neg]
    rintro ⟨-, h1, h2⟩
    rcases hne with hne | hne
    · exact hne h1
    · exact hne h2
  · rintro t rfl hu rfl
    apply hstop
    have hp : ¬ "$Format".toList.isPrefixOf (strip t) = true := fun hp => hu ((unexpanded_iff t).1 hp)
    simp only [versionsFromFound, reduceCtorEq, false_and, if_false, hp]

/-- Cases of `C89_incomplete`: no line for the commit. -/
example : Spec.someLines linesBefore [] (some " (tag: v1.0)".toList) none none =
      "def get_keywords():\n    # each be defined on a line of their own. _version.py will just call\n    git_refnames = \" (tag: v1.0)\"\n".toList ∧
    (¬ "$Format".toList.isPrefixOf (strip " (tag: v1.0)".toList)) ∧
    gitGetKeywords (some (Spec.someLines linesBefore [] (some " (tag: v1.0)".toList) none none)) =
      ⟨some " (tag: v1.0)".toList, none, none⟩ := by
  decide +kernel

end Version
end Gcs
