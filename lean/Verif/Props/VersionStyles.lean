import Verif.Props.Version

/-!
# C77: the other styles of version, the directory names, the order of the methods
-/

namespace Gcs
namespace Version

/-- The styles of gcs/_version.py other than `pep440` and `git-describe-long` (C65). -/
inductive Spec.Style where
  | pre | post | old | describe | default | none

/-- The name of the style in the configuration. -/
def Spec.Style.name : Spec.Style → Str
  | .pre => "pep440-pre".toList
  | .post => "pep440-post".toList
  | .old => "pep440-old".toList
  | .describe => "git-describe".toList
  | .default => "default".toList
  | .none => []

/-- `TAG[.post.devN]`, `TAG[.postN[.dev0]+gHEX]`, `TAG[.postN[.dev0]]`, `TAG[-N-gHEX][-dirty]`; without a style it is
that of C65.  The first bracket is left out for `N = 0` (in the second and third style: for `N = 0` and a clean tree). -/
def Spec.Style.text (tag : Str) (n : Nat) (hex : Str) (dirty : Bool) : Spec.Style → Str
  | .pre => if n = 0 then tag else tag ++ ".post.dev".toList ++ Nat.toDigits 10 n
  | .post =>
    if n = 0 ∧ dirty = false then tag
    else tag ++ ".post".toList ++ Nat.toDigits 10 n ++ (if dirty then ".dev0".toList else []) ++
      (if '+' ∈ tag then ".g".toList else "+g".toList) ++ hex
  | .old =>
    if n = 0 ∧ dirty = false then tag
    else tag ++ ".post".toList ++ Nat.toDigits 10 n ++ (if dirty then ".dev0".toList else [])
  | .describe =>
    (if n = 0 then tag else tag ++ "-".toList ++ Nat.toDigits 10 n ++ "-g".toList ++ hex) ++
      (if dirty then "-dirty".toList else [])
  | .default | .none => Spec.versionText tag n hex dirty

/-- The function of the model for a style. -/
def rendered (p : Pieces) : Spec.Style → Str
  | .pre => renderPep440Pre p
  | .post => renderPep440Post p
  | .old => renderPep440Old p
  | .describe => renderGitDescribe p
  | .default | .none => renderPep440 p

theorem render_style (p : Pieces) (he : p.error = none) (st : Spec.Style) : render p st.name =
    .ok { version := rendered p st, full := some p.long, dirty := some p.dirty, error := none, date := p.date } := by
  cases st with
  | pre => simp only [render, he]; rfl
  | post => simp only [render, he]; rfl
  | old => simp only [render, he]; rfl
  | describe => simp only [render, he]; rfl
  | default => simp only [render, he]; rfl
  | none => simp only [render, he]; rfl

theorem style_text (st : Spec.Style) (p : Pieces) (tag : Str) (ht : p.tag = some tag) :
    rendered p st = st.text tag p.distance p.short p.dirty := by
  obtain ⟨long, hex, err, dirty, ct, n, date⟩ := p
  have pep : renderPep440 ⟨long, hex, err, dirty, ct, n, date⟩ = Spec.versionText tag n hex dirty := by
    simp only [renderPep440, ht, Spec.versionText, plusOrDot, dec]
    by_cases hn : n = 0 <;> cases dirty <;> simp [hn]
  cases st with
  | pre =>
    simp only [rendered, renderPep440Pre, ht, Spec.Style.text, dec]
    by_cases hn : n = 0 <;> simp [hn]
  | post =>
    simp only [rendered, renderPep440Post, ht, Spec.Style.text, dec, plusOrDot]
    by_cases hn : n = 0 <;> by_cases hq : '+' ∈ tag <;> cases dirty <;> simp [hn, hq]
  | old =>
    simp only [rendered, renderPep440Old, ht, Spec.Style.text, dec]
    by_cases hn : n = 0 <;> cases dirty <;> simp [hn]
  | describe =>
    simp only [rendered, renderGitDescribe, ht, Spec.Style.text, dec]
    by_cases hn : n = 0 <;> simp [hn]
  | default => exact pep
  | none => exact pep

/-- C77.  The version of a tree with a tag, in the other styles; the name of the directory is not looked at. -/
theorem C77_styles (st : Spec.Style) (dir : Str) (g : Git) (root : List Str) (tag : Str) (n : Nat) (hex : Str)
    (dirty : Bool) (full day time zone : Str) (h : Spec.Tagged g ('v' :: tag) n hex dirty full day time zone)
    (ht : tag ≠ []) :
    getVersions unexpanded { config with style := st.name, parentdirPrefix := dir } g (some root) =
      .ok { version := st.text tag n hex dirty, full := some full, dirty := some dirty, error := none,
            date := some (day ++ 'T' :: time ++ zone) } := by
  have hp := pieces_tagged ['v'] g tag n hex dirty full day time zone h (by simp)
    (by intro a ha; simp at ha; subst ha; decide)
  have hc : config.tagPrefix = ['v'] := rfl
  simp only [getVersions, hc, unexpanded_stop, orElse, hp, bind, Except.bind]
  rw [render_style _ rfl, style_text st _ tag (tag_of _ tag rfl ht)]

/-- The version of a tree without tags. -/
def Spec.Style.untagged (n : Nat) (short : Str) (dirty : Bool) : Spec.Style → Str
  | .pre => "0.post.dev".toList ++ Nat.toDigits 10 n
  | .post => "0.post".toList ++ Nat.toDigits 10 n ++ (if dirty then ".dev0".toList else []) ++ "+g".toList ++ short
  | .old => "0.post".toList ++ Nat.toDigits 10 n ++ (if dirty then ".dev0".toList else [])
  | .describe => short ++ (if dirty then "-dirty".toList else [])
  | .default | .none =>
    "0+untagged.".toList ++ Nat.toDigits 10 n ++ ".g".toList ++ short ++ (if dirty then ".dirty".toList else [])

/-- C77 for the bare tag `v`, which counts as no tag. -/
theorem C77_bare_prefix (st : Spec.Style) (dir : Str) (g : Git) (root : List Str) (n : Nat) (hex : Str) (dirty : Bool)
    (full day time zone : Str) (h : Spec.Tagged g ['v'] n hex dirty full day time zone) :
    getVersions unexpanded { config with style := st.name, parentdirPrefix := dir } g (some root) =
      .ok { version := st.untagged n hex dirty, full := some full, dirty := some dirty, error := none,
            date := some (day ++ 'T' :: time ++ zone) } := by
  have hp := pieces_tagged ['v'] g [] n hex dirty full day time zone h (by simp)
    (by intro a ha; simp at ha; subst ha; decide)
  have hc : config.tagPrefix = ['v'] := rfl
  simp only [getVersions, hc, unexpanded_stop, orElse, hp, bind, Except.bind]
  rw [render_style _ rfl]
  cases st <;> rfl

/-- C77 for a tree without tags: the commit is shown by seven digits of the full name. -/
theorem C77_untagged (st : Spec.Style) (dir : Str) (g : Git) (root : List Str) (n : Nat) (hex : Str) (dirty : Bool)
    (full day time zone : Str) (h : Spec.Untagged g n hex dirty full day time zone) :
    getVersions unexpanded { config with style := st.name, parentdirPrefix := dir } g (some root) =
      .ok { version := st.untagged n (full.take 7) dirty, full := some full, dirty := some dirty, error := none,
            date := some (day ++ 'T' :: time ++ zone) } := by
  have hp := pieces_untagged g n hex dirty full day time zone h
  have hc : config.tagPrefix = ['v'] := rfl
  simp only [getVersions, hc, unexpanded_stop, orElse, hp, bind, Except.bind]
  rw [render_style _ rfl]
  cases st <;> rfl

theorem digits_span (n : Nat) (c : Char) (hc : c.isDigit = false) (r : Str) :
    ((Nat.toDigits 10 n).reverse ++ c :: r).takeWhile Char.isDigit = (Nat.toDigits 10 n).reverse ∧
    ((Nat.toDigits 10 n).reverse ++ c :: r).dropWhile Char.isDigit = c :: r := by
  have h : ∀ x ∈ (Nat.toDigits 10 n).reverse, x.isDigit = true := by
    intro x hx
    exact isDigit_toDigits n x (by simpa using hx)
  constructor
  · rw [List.takeWhile_append_of_pos h]
    simp [hc]
  · rw [List.dropWhile_append_of_pos h]
    simp [hc]

theorem post_inj (t1 t2 : Str) (n1 n2 : Nat) (d1 d2 : Bool)
    (h : t1 ++ ".post".toList ++ Nat.toDigits 10 n1 ++ (if d1 then ".dev0".toList else []) =
      t2 ++ ".post".toList ++ Nat.toDigits 10 n2 ++ (if d2 then ".dev0".toList else [])) : t1 = t2 ∧ n1 = n2 ∧ d1 = d2 := by
  have rev : ∀ (t : Str) (n : Nat), (t ++ ".post".toList ++ Nat.toDigits 10 n).reverse =
      (Nat.toDigits 10 n).reverse ++ 't' :: ('s' :: 'o' :: 'p' :: '.' :: t.reverse) := by
    intro t n
    simp
  have key : ∀ (t1 t2 : Str) (n1 n2 : Nat), t1 ++ ".post".toList ++ Nat.toDigits 10 n1 ≠
      t2 ++ ".post".toList ++ Nat.toDigits 10 n2 ++ ".dev0".toList := by
    intro t1 t2 n1 n2 h
    have h := congrArg List.reverse h
    rw [rev, List.reverse_append, rev] at h
    have h := congrArg (List.dropWhile Char.isDigit) h
    rw [(digits_span n1 't' (by decide) _).2] at h
    have : List.dropWhile Char.isDigit (".dev0".toList.reverse ++ ((Nat.toDigits 10 n2).reverse ++
        't' :: 's' :: 'o' :: 'p' :: '.' :: t2.reverse)) = 'v' :: ('e' :: 'd' :: '.' :: ((Nat.toDigits 10 n2).reverse ++
        't' :: 's' :: 'o' :: 'p' :: '.' :: t2.reverse)) := rfl
    rw [this] at h
    simp at h
  have same : ∀ (t1 t2 : Str) (n1 n2 : Nat), t1 ++ ".post".toList ++ Nat.toDigits 10 n1 =
      t2 ++ ".post".toList ++ Nat.toDigits 10 n2 → t1 = t2 ∧ n1 = n2 := by
    intro t1 t2 n1 n2 h
    have h := congrArg List.reverse h
    rw [rev, rev] at h
    have e1 := congrArg (List.takeWhile Char.isDigit) h
    have e2 := congrArg (List.dropWhile Char.isDigit) h
    rw [(digits_span n1 't' (by decide) _).1, (digits_span n2 't' (by decide) _).1, List.reverse_inj] at e1
    rw [(digits_span n1 't' (by decide) _).2, (digits_span n2 't' (by decide) _).2] at e2
    have := congrArg (fun l => Nat.ofDigitChars 10 l 0) e1
    exact ⟨by simpa using e2, by simpa using this⟩
  cases d1 <;> cases d2
  · obtain ⟨a, b⟩ := same t1 t2 n1 n2 (by simpa using h)
    exact ⟨a, b, rfl⟩
  · exact absurd (by simpa using h) (key t1 t2 n1 n2)
  · exact absurd (by simpa using h.symm) (key t2 t1 n2 n1)
  · obtain ⟨a, b⟩ := same t1 t2 n1 n2 (List.append_cancel_right h)
    exact ⟨a, b, rfl⟩

/-- C77: in the style `pep440-post`, as in the style of C65, trees with the same version are the same tree. -/
theorem C77_post_distinct (dir : Str) (g1 g2 : Git) (root1 root2 : List Str) (t1 t2 : Str) (n1 n2 : Nat) (x1 x2 : Str)
    (d1 d2 : Bool) (f1 f2 day1 day2 time1 time2 zone1 zone2 : Str)
    (h1 : Spec.Tagged g1 ('v' :: t1) n1 x1 d1 f1 day1 time1 zone1)
    (h2 : Spec.Tagged g2 ('v' :: t2) n2 x2 d2 f2 day2 time2 zone2)
    (ht1 : t1 ≠ []) (ht2 : t2 ≠ []) (hp1 : '+' ∉ t1) (hp2 : '+' ∉ t2) (i1 i2 : Info)
    (hi1 : getVersions unexpanded { config with style := Spec.Style.post.name, parentdirPrefix := dir } g1 (some root1) =
      .ok i1)
    (hi2 : getVersions unexpanded { config with style := Spec.Style.post.name, parentdirPrefix := dir } g2 (some root2) =
      .ok i2)
    (hv : i1.version = i2.version) :
    t1 = t2 ∧ n1 = n2 ∧ d1 = d2 ∧ (n1 = 0 ∧ d1 = false ∨ x1 = x2) := by
  have e1 := C77_styles .post dir g1 root1 t1 n1 x1 d1 f1 day1 time1 zone1 h1 ht1
  have e2 := C77_styles .post dir g2 root2 t2 n2 x2 d2 f2 day2 time2 zone2 h2 ht2
  rw [e1, Except.ok.injEq] at hi1
  rw [e2, Except.ok.injEq] at hi2
  subst hi1
  subst hi2
  simp only at hv
  have full : ∀ (t : Str) (n : Nat) (x : Str) (d : Bool), '+' ∉ t → ¬ (n = 0 ∧ d = false) →
      Spec.Style.post.text t n x d =
        (t ++ ".post".toList ++ Nat.toDigits 10 n ++ (if d then ".dev0".toList else [])) ++ '+' :: ('g' :: x) := by
    intro t n x d ht hn
    simp [Spec.Style.text, hn, ht]
  have bare : ∀ (t : Str) (n : Nat) (x : Str) (d : Bool), (n = 0 ∧ d = false) → Spec.Style.post.text t n x d = t := by
    intro t n x d hn
    simp [Spec.Style.text, hn]
  have noplus : ∀ (t : Str) (n : Nat) (d : Bool), '+' ∉ t →
      '+' ∉ t ++ ".post".toList ++ Nat.toDigits 10 n ++ (if d then ".dev0".toList else []) := by
    intro t n d ht hm
    simp only [List.mem_append] at hm
    rcases hm with ((hm | hm) | hm) | hm
    · exact ht hm
    · revert hm; decide
    · exact absurd (isDigit_toDigits n _ hm) (by decide)
    · cases d <;> revert hm <;> decide
  by_cases c1 : n1 = 0 ∧ d1 = false <;> by_cases c2 : n2 = 0 ∧ d2 = false
  · rw [bare _ _ _ _ c1, bare _ _ _ _ c2] at hv
    exact ⟨hv, by rw [c1.1, c2.1], by rw [c1.2, c2.2], Or.inl c1⟩
  · rw [bare _ _ _ _ c1, full _ _ _ _ hp2 c2] at hv
    exact absurd (by rw [hv]; simp) hp1
  · rw [bare _ _ _ _ c2, full _ _ _ _ hp1 c1] at hv
    exact absurd (by rw [← hv]; simp) hp2
  · rw [full _ _ _ _ hp1 c1, full _ _ _ _ hp2 c2] at hv
    obtain ⟨a, b⟩ := split_at '+' _ _ _ _ (noplus t1 n1 d1 hp1) (noplus t2 n2 d2 hp2) hv
    obtain ⟨a1, a2, a3⟩ := post_inj t1 t2 n1 n2 d1 d2 a
    exact ⟨a1, a2, a3, Or.inr (by simpa using b)⟩

/-- C77: the style `pep440-pre` does not show changes nor the commit, `pep440-old` not the commit. -/
theorem C77_same_version (st : Spec.Style) (dir : Str) (g1 g2 : Git) (root1 root2 : List Str) (tag : Str) (n : Nat)
    (x1 x2 : Str) (d1 d2 : Bool) (f1 f2 day1 day2 time1 time2 zone1 zone2 : Str)
    (h1 : Spec.Tagged g1 ('v' :: tag) n x1 d1 f1 day1 time1 zone1)
    (h2 : Spec.Tagged g2 ('v' :: tag) n x2 d2 f2 day2 time2 zone2) (ht : tag ≠ [])
    (hst : st = .pre ∨ st = .old ∧ d1 = d2) :
    ∃ i1 i2, getVersions unexpanded { config with style := st.name, parentdirPrefix := dir } g1 (some root1) = .ok i1 ∧
      getVersions unexpanded { config with style := st.name, parentdirPrefix := dir } g2 (some root2) = .ok i2 ∧
      i1.version = i2.version := by
  refine ⟨_, _, C77_styles st dir g1 root1 tag n x1 d1 f1 day1 time1 zone1 h1 ht,
    C77_styles st dir g2 root2 tag n x2 d2 f2 day2 time2 zone2 h2 ht, ?_⟩
  rcases hst with rfl | ⟨rfl, rfl⟩ <;> rfl

/-- C77: a tag that does not start with `v` (nor with white space) makes the version `unknown`, in every style, also in one
that does not exist. -/
theorem C77_other_prefix (style dir : Str) (g : Git) (root : List Str) (c : Char) (tag : Str) (n : Nat) (hex : Str)
    (dirty : Bool) (full day time zone : Str) (h : Spec.Tagged g (c :: tag) n hex dirty full day time zone) (hc : c ≠ 'v')
    (hsp : isSpace c = false) :
    getVersions unexpanded { config with style := style, parentdirPrefix := dir } g (some root) =
      .ok { version := "unknown".toList, full := some full, dirty := none,
            error := some ("tag '".toList ++ c :: tag ++ "' doesn't start with prefix 'v'".toList), date := none } := by
  obtain ⟨d1, d2, d3, d4, d5⟩ := describe_props (c :: tag) n hex dirty h.line h.hex_ne h.hex_chars (by simp)
    (by intro a ha; simp at ha; subst ha; exact hsp)
  have hp : List.isPrefixOf ['v'] (c :: tag) = false := by
    simp [List.isPrefixOf, Ne.symm hc]
  have htp : config.tagPrefix = ['v'] := rfl
  have : piecesFromVcs ['v'] g = .ok
      { long := full, short := full.take 7,
        error := some ("tag '".toList ++ (c :: tag) ++ "' doesn't start with prefix '".toList ++ ['v'] ++ "'".toList),
        dirty := dirty, closestTag := none, distance := 0, date := none } := by
    simp only [piecesFromVcs, h.gitDir, h.describe, h.head, Option.map_some, strip_hex full h.full_chars, d1, d2, d3, d5,
      if_pos d4, hp]
    rfl
  simp only [getVersions, htp, unexpanded_stop, orElse, this, bind, Except.bind, render]
  simp

/-- C77: any other style is a `ValueError` in a tree with a tag. -/
theorem C77_unknown_style (style : Str) (g : Git) (root : List Str) (tag : Str) (n : Nat) (hex : Str) (dirty : Bool)
    (full day time zone : Str) (h : Spec.Tagged g ('v' :: tag) n hex dirty full day time zone)
    (hs : ∀ st : Spec.Style, style ≠ st.name) (h1 : style ≠ "pep440".toList) (h2 : style ≠ "git-describe-long".toList) :
    getVersions unexpanded { config with style := style } g (some root) = .error (.raised .value) := by
  have hp := pieces_tagged ['v'] g tag n hex dirty full day time zone h (by simp)
    (by intro a ha; simp at ha; subst ha; decide)
  have hc : config.tagPrefix = ['v'] := rfl
  have s1 : style ≠ "pep440-pre".toList := hs .pre
  have s2 : style ≠ "pep440-post".toList := hs .post
  have s3 : style ≠ "pep440-old".toList := hs .old
  have s4 : style ≠ "git-describe".toList := hs .describe
  have s5 : style ≠ "default".toList := hs .default
  have s6 : style ≠ [] := hs .none
  simp only [getVersions, hc, unexpanded_stop, orElse, hp, bind, Except.bind, render, s1, s2, s3, s4, s5, s6, h1, h2,
    or_self, if_false]

/-! ### Directories and the order of the methods -/

/-- The name of the directory, of its parent, or of the parent of that, whichever comes first, is the prefix followed by
the version. -/
def Spec.Named (pre : Str) (root : List Str) (version : Str) : Prop :=
  ∃ i, i < 3 ∧ root.getD i [] = pre ++ version ∧ ∀ j, j < i → ¬ pre <+: root.getD j []

theorem go_spec (pre : Str) (k : Nat) (root : List Str) :
    (∃ i, i < k ∧ (∃ version, root.getD i [] = pre ++ version ∧ versionsFromParentdir.go pre k root =
        .ok { version := version, full := none, dirty := some false, error := none, date := none }) ∧
        ∀ j, j < i → ¬ pre <+: root.getD j []) ∨
      (∀ i, i < k → ¬ pre <+: root.getD i []) ∧ versionsFromParentdir.go pre k root = .error .notThisMethod := by
  induction k generalizing root with
  | zero => exact .inr ⟨fun i hi => absurd hi (by omega), rfl⟩
  | succ k ih =>
    have h0 : root.headD [] = root.getD 0 [] := by cases root <;> rfl
    have hs : ∀ i, root.tail.getD i [] = root.getD (i + 1) [] := by cases root <;> simp
    simp only [versionsFromParentdir.go, h0]
    by_cases hp : pre <+: root.getD 0 []
    · left
      refine ⟨0, by omega, ?_, fun j hj => absurd hj (by omega)⟩
      obtain ⟨v, hv⟩ := hp
      refine ⟨v, hv.symm, ?_⟩
      rw [← hv]
      simp
    · have hp' : pre.isPrefixOf (root.getD 0 []) = false := by
        rw [← Bool.not_eq_true, List.isPrefixOf_iff_prefix]
        exact hp
      rw [hp']
      simp only [Bool.false_eq_true, if_false]
      rcases ih root.tail with ⟨i, hi, ⟨v, hv, hg⟩, hj⟩ | ⟨hn, hg⟩
      · left
        refine ⟨i + 1, by omega, ⟨v, by rw [← hs]; exact hv, hg⟩, fun j hjl => ?_⟩
        cases j with
        | zero => exact hp
        | succ j => rw [← hs]; exact hj j (by omega)
      · right
        refine ⟨fun i hi => ?_, hg⟩
        cases i with
        | zero => exact hp
        | succ i => rw [← hs]; exact hn i (by omega)

/-- C77: without `__file__` and with keywords not expanded, nothing else is tried. -/
theorem C77_no_file (cfg : Config) (g : Git) :
    getVersions unexpanded cfg g none =
      .ok { version := "0+unknown".toList, full := none, dirty := none,
            error := some "unable to find root of source tree".toList, date := none } := by
  have : versionsFromKeywords unexpanded cfg.tagPrefix = .error .notThisMethod := rfl
  rw [getVersions, this]
  rfl

/-- C77: where there is no work tree of git and the keywords are not expanded, the version is in the name of the directory,
of its parent or of the parent of that; otherwise it is `0+unknown`.  The style does not matter.  (The configuration of this
package has no prefix, so that the names are not looked at.) -/
theorem C77_directory (cfg : Config) (g : Git) (root : List Str)
    (hg : g.gitDir = false ∨ g.describe = none ∨ g.head = none) :
    (∀ v, cfg.parentdirPrefix ≠ [] → Spec.Named cfg.parentdirPrefix root v → getVersions unexpanded cfg g (some root) =
        .ok { version := v, full := none, dirty := some false, error := none, date := none }) ∧
    (cfg.parentdirPrefix = [] ∨ (∀ i, i < 3 → ¬ cfg.parentdirPrefix <+: root.getD i []) →
      getVersions unexpanded cfg g (some root) =
        .ok { version := "0+unknown".toList, full := none, dirty := none,
              error := some "unable to compute version".toList, date := none }) := by
  have hp : piecesFromVcs cfg.tagPrefix g = .error .notThisMethod := by
    simp only [piecesFromVcs]
    split
    · rfl
    · split
      · rfl
      · split
        · rfl
        · rename_i h1 _ _ h2 _ _ h3
          rcases hg with hg | hg | hg
          · exact absurd hg h1
          · simp [hg] at h2
          · simp [hg] at h3
  constructor
  · intro v hpre ⟨i, hi, hv, hj⟩
    have := go_spec cfg.parentdirPrefix 3 root
    rcases this with ⟨i', hi', ⟨v', hv', hgo⟩, hj'⟩ | ⟨hn, _⟩
    · obtain rfl : i = i' := by
        rcases Nat.lt_trichotomy i i' with h | h | h
        · exact absurd ⟨v, hv.symm⟩ (hj' i h)
        · exact h
        · exact absurd ⟨v', hv'.symm⟩ (hj i' h)
      rw [hv] at hv'
      obtain rfl := List.append_cancel_left hv'
      simp only [getVersions, unexpanded_stop, orElse, hp, bind, Except.bind, hpre, ne_eq, not_false_eq_true, if_true,
        versionsFromParentdir, hgo]
    · exact absurd ⟨v, hv.symm⟩ (hn i hi)
  · intro h
    by_cases hpre : cfg.parentdirPrefix = []
    · simp only [getVersions, unexpanded_stop, orElse, hp, bind, Except.bind, hpre, ne_eq, not_true_eq_false, if_false]
    · have hn := h.resolve_left hpre
      have := go_spec cfg.parentdirPrefix 3 root
      rcases this with ⟨i', hi', ⟨v', hv', _⟩, _⟩ | ⟨_, hgo⟩
      · exact absurd ⟨v', hv'.symm⟩ (hn i' hi')
      · simp only [getVersions, unexpanded_stop, orElse, hp, bind, Except.bind, hpre, ne_eq, not_false_eq_true, if_true,
          versionsFromParentdir, hgo]

/-! ### Concrete cases -/

/-- The tree of `exGit`, 17 commits after the tag `v0.1-rc-2` and modified, in four styles. -/
example : (getVersions unexpanded { config with style := "pep440-pre".toList } exGit (some [])).toOption.map (·.version) =
      some "0.1-rc-2.post.dev17".toList ∧
    (getVersions unexpanded { config with style := "pep440-post".toList } exGit (some [])).toOption.map (·.version) =
      some "0.1-rc-2.post17.dev0+gabc12".toList ∧
    (getVersions unexpanded { config with style := "pep440-old".toList } exGit (some [])).toOption.map (·.version) =
      some "0.1-rc-2.post17.dev0".toList ∧
    (getVersions unexpanded { config with style := "git-describe".toList } exGit (some [])).toOption.map (·.version) =
      some "0.1-rc-2-17-gabc12-dirty".toList := by decide +kernel

/-- A tag without the prefix. -/
example : (getVersions unexpanded { config with style := "pep441".toList }
      { exGit with describe := some "rel-1-3-gabc12\n".toList } (some [])).toOption.map (fun i => (i.version, i.error)) =
    some ("unknown".toList, some "tag 'rel-1' doesn't start with prefix 'v'".toList) := by decide +kernel

/-- Two trees, one of them modified, with the same version in the style `pep440-pre`, and without tags. -/
example : (getVersions unexpanded { config with style := "pep440-pre".toList }
      { exGit with describe := some "v0.1-rc-2-17-gdef45\n".toList } (some [])).toOption.map (·.version) =
      some "0.1-rc-2.post.dev17".toList ∧
    (getVersions unexpanded { config with style := "pep440-post".toList }
      { exGit with describe := some "abc12\n".toList } (some [])).toOption.map (·.version) =
      some "0.post120+gabc12de".toList := by decide +kernel

/-- An unknown style. -/
example : (match getVersions unexpanded { config with style := "pep441".toList } exGit (some []) with
    | .error e => some e
    | .ok _ => none) = some (.raised .value) := by decide +kernel

/-- The directory `gcs-1.2/src`. -/
example : Spec.Named "gcs-".toList ["src".toList, "gcs-1.2".toList] "1.2".toList :=
  ⟨1, by omega, rfl, fun j hj => by
    obtain rfl : j = 0 := by omega
    decide⟩

example : (getVersions unexpanded { config with parentdirPrefix := "gcs-".toList } { exGit with gitDir := false }
    (some ["src".toList, "gcs-1.2".toList])).toOption.map (·.version) = some "1.2".toList := by decide +kernel

end Version
end Gcs
