import Verif.Model.SetupScript
import Verif.Props.Commands
import Verif.Props.Version

/-!
# C103: the script setup.py
-/

namespace Gcs
namespace Version

/-- The files without the file `MANIFEST` of the directory. -/
def Spec.withoutManifest (fs : FS) (dir : Dir) : FS :=
  ⟨fun d n => if d = dir ∧ n = "MANIFEST".toList then none else fs.entry d n, fs.texts⟩

/-- Python 3.4 or later. -/
def Spec.NewPython (s : Script) : Prop := 3 < s.python.1 ∨ s.python.1 = 3 ∧ 4 ≤ s.python.2

/-- The environment variable means this number; without it, 0. -/
def Spec.CondaIs (s : Script) (n : Int) : Prop := (s.conda = none ∧ n = 0) ∨ ∃ t, s.conda = some t ∧ pyInt t = some n

/-- The characters that end lines: line feed, vertical tab, form feed, carriage return, the separators of files, groups and records, next
line, and the separators of lines and paragraphs. -/
def Spec.EndsLine (c : Char) : Prop := c.toNat ∈ [0x0a, 0x0b, 0x0c, 0x0d, 0x1c, 0x1d, 0x1e, 0x85, 0x2028, 0x2029]

/-- The lines of a text: each one is followed by a character that ends a line, but for the last, which is then not empty. -/
inductive Spec.LinesOf : Str → List Str → Prop
  | nil : LinesOf [] []
  | last (l : Str) : l ≠ [] → (∀ c ∈ l, ¬ EndsLine c) → LinesOf l [l]
  | cons (l : Str) (c : Char) (t : Str) (ls : List Str) : (∀ c ∈ l, ¬ EndsLine c) → EndsLine c → LinesOf t ls →
      LinesOf (l ++ c :: t) (l :: ls)

/-- The lists of requirements: none for conda, else the lines of requirements.txt and two fixed ones. -/
def Spec.Requirements (fs : FS) (dir : Dir) (conda : Int) (m : Metadata) : Prop :=
  (conda ≠ 0 ∧ m.installRequires = [] ∧ m.setupRequires = [] ∧ m.testsRequire = []) ∨
  (conda = 0 ∧ ∃ text, fs.read dir "requirements.txt".toList = some text ∧ LinesOf text m.installRequires ∧
    m.setupRequires = ["pytest-runner".toList] ∧ m.testsRequire = ["pytest".toList])

open Spec

/-! ### Texts -/

theorem isLineEnd_iff (c : Char) : isLineEnd c = true ↔ EndsLine c := by
  simp only [isLineEnd, EndsLine, Bool.or_eq_true, Bool.and_eq_true, decide_eq_true_eq, beq_iff_eq, List.mem_cons, List.not_mem_nil, or_false]
  constructor <;> (intro h; omega)

theorem isLineEnd_not {c : Char} : isLineEnd c = false ↔ ¬ EndsLine c := by
  rw [← isLineEnd_iff, Bool.not_eq_true]

theorem splitLines_step (l : Str) (c : Char) (t : Str) (hl : ∀ c ∈ l, isLineEnd c = false) (hc : isLineEnd c = true) :
    splitLines (l ++ c :: t) = l :: splitLines t := by
  induction l with
  | nil => simp [splitLines, hc]
  | cons a l ih =>
    have ha := hl a (by simp)
    simp only [List.cons_append, splitLines, ha, ih fun c h => hl c (by simp [h])]
    rfl

theorem splitLines_last (l : Str) (h : l ≠ []) (hl : ∀ c ∈ l, isLineEnd c = false) : splitLines l = [l] := by
  induction l with
  | nil => exact absurd rfl h
  | cons a l ih =>
    have ha := hl a (by simp)
    by_cases hn : l = []
    · subst hn
      simp [splitLines, ha]
    · simp only [splitLines, ha, ih hn fun c h => hl c (by simp [h])]
      rfl

/-- C103, `splitlines()` gives the lines of the text, and a text has only one list of lines. -/
theorem C103_lines (text : Str) : LinesOf text (splitLines text) ∧ ∀ ls, LinesOf text ls → ls = splitLines text := by
  constructor
  · generalize hn : text.length = n
    induction n using Nat.strongRecOn generalizing text with
    | _ n ih =>
      by_cases h : ∃ c ∈ text, isLineEnd c = true
      · have key : ∀ s : Str, (∃ c ∈ s, isLineEnd c = true) → ∃ l c t, s = l ++ c :: t ∧ (∀ c ∈ l, isLineEnd c = false) ∧
            isLineEnd c = true := by
          intro s
          induction s with
          | nil => rintro ⟨c, hc, -⟩; cases hc
          | cons a s ihs =>
            rintro ⟨c, hc, hce⟩
            by_cases ha : isLineEnd a = true
            · exact ⟨[], a, s, rfl, by simp, ha⟩
            · rcases List.mem_cons.1 hc with rfl | hc
              · exact absurd hce ha
              · obtain ⟨l, c', t, rfl, h2, h3⟩ := ihs ⟨c, hc, hce⟩
                refine ⟨a :: l, c', t, rfl, ?_, h3⟩
                intro d hd
                rcases List.mem_cons.1 hd with rfl | hd
                · simpa using ha
                · exact h2 d hd
        obtain ⟨l, c, t, rfl, h2, h3⟩ := key text h
        rw [splitLines_step l c t h2 h3]
        refine .cons l c t _ (fun c hc => isLineEnd_not.1 (h2 c hc)) ((isLineEnd_iff c).1 h3) (ih t.length ?_ t rfl)
        simp only [List.length_append, List.length_cons] at hn
        omega
      · have hl : ∀ c ∈ text, isLineEnd c = false := fun c hc => by
          cases he : isLineEnd c with
          | false => rfl
          | true => exact absurd ⟨c, hc, he⟩ h
        by_cases h0 : text = []
        · subst h0
          exact .nil
        · rw [splitLines_last text h0 hl]
          exact .last text h0 fun c hc => isLineEnd_not.1 (hl c hc)
  · intro ls h
    induction h with
    | nil => rfl
    | last l h1 h2 => rw [splitLines_last l h1 fun c hc => isLineEnd_not.2 (h2 c hc)]
    | cons l c t ls h1 h2 _ ih => rw [splitLines_step l c t (fun c hc => isLineEnd_not.2 (h1 c hc)) ((isLineEnd_iff c).2 h2), ih]

theorem strip_pad (a s b : Str) (ha : ∀ c ∈ a, isSpace c = true) (hb : ∀ c ∈ b, isSpace c = true)
    (h1 : ∀ c, s.head? = some c → isSpace c = false) (h2 : ∀ c, s.getLast? = some c → isSpace c = false) :
    strip (a ++ s ++ b) = s := by
  by_cases h0 : s = []
  · subst h0
    have e : (a ++ [] ++ b).dropWhile isSpace = [] := by
      rw [← List.append_nil (a ++ [] ++ b), List.dropWhile_append_of_pos]
      · rfl
      · intro c hc
        simp only [List.append_nil, List.mem_append] at hc
        exact hc.elim (ha c) (hb c)
    rw [strip, stripBy, e]
    rfl
  · have e1 : (a ++ s ++ b).dropWhile isSpace = s ++ b := by
      rw [List.append_assoc, List.dropWhile_append_of_pos ha]
      cases s with
      | nil => exact absurd rfl h0
      | cons c s => simp [h1 c rfl]
    have e2 : (s ++ b).reverse.dropWhile isSpace = s.reverse := by
      rw [List.reverse_append, List.dropWhile_append_of_pos fun c hc => hb c (List.mem_reverse.1 hc)]
      cases hr : s.reverse with
      | nil => rfl
      | cons c l =>
        have : s.getLast? = some c := by rw [← List.head?_reverse, hr]; rfl
        simp [h2 c this]
    rw [strip, stripBy, e1, e2, List.reverse_reverse]

theorem digit_not_space {c : Char} (h : c.isDigit = true) : isSpace c = false := by
  have h2 : 48 ≤ c.toNat ∧ c.toNat ≤ 57 := by
    simp only [Char.isDigit, Bool.and_eq_true, decide_eq_true_eq, UInt32.le_iff_toNat_le] at h
    exact h
  simp only [isSpace, Bool.or_eq_false_iff, Bool.and_eq_false_iff, decide_eq_false_iff_not, beq_eq_false_iff_ne]
  omega

theorem mem_strip {c : Char} {s : Str} (hc : c ∈ s) (hs : isSpace c = false) : c ∈ strip s := by
  have key : ∀ l : Str, c ∈ l → c ∈ l.dropWhile isSpace := by
    intro l hl
    have := List.takeWhile_append_dropWhile (p := isSpace) (l := l)
    rw [← this, List.mem_append] at hl
    refine hl.resolve_left fun h => ?_
    rw [List.all_eq_true.1 List.all_takeWhile c h] at hs
    cases hs
  rw [strip, stripBy, List.mem_reverse]
  exact key _ (List.mem_reverse.2 (key _ hc))

theorem pyInt_none {t : Str} (ht : ∃ c ∈ t, isSpace c = false ∧ c.isDigit = false ∧ c ≠ '-' ∧ c ≠ '+') : pyInt t = none := by
  obtain ⟨c, h1, h2, h3, h4, h5⟩ := ht
  have hm := mem_strip h1 h2
  have key : ∀ l : Str, c ∈ l → ¬ (l ≠ [] ∧ l.all Char.isDigit = true) := by
    rintro l hl ⟨-, ha⟩
    rw [List.all_eq_true.1 ha c hl] at h3
    cases h3
  unfold pyInt
  generalize strip t = u at hm
  simp only
  split
  · rw [if_neg (key _ ((List.mem_cons.1 hm).resolve_left h4))]; rfl
  · rw [if_neg (key _ ((List.mem_cons.1 hm).resolve_left h5))]; rfl
  · rw [if_neg (key _ hm)]; rfl

/-! ### The script -/

theorem unlink_manifest (fs : FS) (dir : Dir) : (fs.unlink dir "MANIFEST".toList).1 = withoutManifest fs dir := by
  unfold FS.unlink
  cases he : fs.entry dir "MANIFEST".toList with
  | some i => rfl
  | none =>
    simp only [withoutManifest]
    rcases fs with ⟨entry, texts⟩
    simp only [FS.mk.injEq, and_true]
    funext d n
    by_cases h : d = dir ∧ n = "MANIFEST".toList
    · rw [if_pos h, h.1, h.2]
      exact he
    · rw [if_neg h]

/-- The state when `setup_package` is called. -/
def Proc.started (p : Proc) : Proc := ⟨withoutManifest p.fs p.cwd, p.cwd, p.path, true⟩

/-- The state when `setup` is called. -/
def Proc.entered (p : Proc) (s : Script) : Proc := ⟨withoutManifest p.fs p.cwd, s.dir, s.dir :: p.path, true⟩

theorem script_eq (s : Script) (hs : NewPython s) (setup : Metadata → Proc → Proc × Option ScriptFail) (p : Proc) :
    setupScript s setup p =
      match pyInt (s.conda.getD "0".toList) with
      | none => (p.started, some (.fail (.stop (.raised .value))))
      | some conda =>
        match setupPackage s conda setup p.started with
        | (p, some e) => (p, some e)
        | (p, none) => if p.flag then ({ p with flag := false }, none) else (p, some (.fail (.stop (.raised .attribute)))) := by
  have h : ¬ (s.python.1 < 3 ∨ s.python.1 = 3 ∧ s.python.2 < 4) := by
    rcases hs with hs | hs <;> omega
  unfold setupScript
  rw [if_neg h]
  simp only [unlink_manifest]
  rfl

theorem conda_eq {s : Script} {n : Int} (h : CondaIs s n) : pyInt (s.conda.getD "0".toList) = some n := by
  rcases h with ⟨h1, rfl⟩ | ⟨t, h1, h2⟩
  · rw [h1]
    decide +kernel
  · rw [h1]
    exact h2

/-- C103, before Python 3.4 the script is a RuntimeError and changes nothing. -/
theorem C103_old_python (s : Script) (hs : ¬ NewPython s) (setup : Metadata → Proc → Proc × Option ScriptFail) (p : Proc) :
    setupScript s setup p = (p, some .oldPython) := by
  unfold setupScript
  rw [if_pos]
  unfold NewPython at hs
  omega

/-- C103.  With a number in CONDA_BUILD (or without that variable), the lists of requirements and a version, `setup` is called with
them, in the directory of the script, with that directory first in `sys.path`, and with the `MANIFEST` of the old current directory
removed (defect: not that of the directory of the script).  Afterwards the first item of `sys.path` is removed and the current
directory is the old one, whether or not `setup` raises; the mark in `builtins` is removed only if it does not. -/
theorem C103_runs (s : Script) (hs : NewPython s) (p : Proc) (conda : Int) (hc : CondaIs s conda)
    (hsp : ((withoutManifest p.fs p.cwd).entry s.dir "setup.py".toList).isSome = true) (v : Dict)
    (hv : commandVersions ⟨s.parse, s.git, s.dir, s.dir⟩ (withoutManifest p.fs p.cwd) = .ok v) (x : JVal)
    (hx : v.get "version".toList = some x) (m : Metadata) (hm : m.version = x) (hmc : m.cmdclass = (getCmdclass s.modules).1)
    (hmp : m.packages = s.packages (withoutManifest p.fs p.cwd) s.dir)
    (hr : Requirements (withoutManifest p.fs p.cwd) s.dir conda m) (setup : Metadata → Proc → Proc × Option ScriptFail)
    (r : Proc) (e : Option ScriptFail)
    (h : setup m ⟨withoutManifest p.fs p.cwd, s.dir, s.dir :: p.path, true⟩ = (r, e)) (first : Dir) (rest : List Dir)
    (hp : r.path = first :: rest) :
    (∀ e', e = some e' → setupScript s setup p = (⟨r.fs, p.cwd, rest, r.flag⟩, some e')) ∧
    (e = none → r.flag = true → setupScript s setup p = (⟨r.fs, p.cwd, rest, false⟩, none)) := by
  have hver : setupPackageVersions ((withoutManifest p.fs p.cwd).disk s.parse) s.git s.dir s.later = .ok v := by
    rw [C101_setup_py _ _ _ _ hsp]
    exact hv
  have hpk : setupPackage s conda setup p.started = (⟨r.fs, p.cwd, rest, r.flag⟩, e) := by
    rcases m with ⟨mv, mc, mp, mi, ms, mt⟩
    simp only at hm hmc hmp
    subst hm hmc hmp
    rcases hr with ⟨h0, h1, h2, h3⟩ | ⟨h0, text, ht, h1, h2, h3⟩
    · simp only at h1 h2 h3
      subst h1 h2 h3
      simp only [setupPackage, if_pos h0, Proc.started, hver, hx, h, restore, hp]
    · simp only at h1 h2 h3
      have h1 := (C103_lines text).2 _ h1
      subst h1 h2 h3
      simp only [setupPackage, h0, ne_eq, not_true_eq_false, if_false, Proc.started, ht, hver, hx, h, restore, hp]
  rw [script_eq s hs, conda_eq hc]
  simp only [hpk]
  constructor
  · rintro e' rfl
    rfl
  · rintro rfl hf
    simp only [hf, if_true]

/-- C103, defect: what raises before `setup` is called leaves the directory of the script as current directory and in `sys.path`, and
the mark in `builtins`.  So it is with a missing requirements.txt (as in this repository, unless CONDA_BUILD is set), with a tree
that has no version, and with one whose version has no name (a KeyError). -/
theorem C103_left (s : Script) (hs : NewPython s) (p : Proc) (conda : Int) (hc : CondaIs s conda)
    (setup : Metadata → Proc → Proc × Option ScriptFail) :
    (conda = 0 → (withoutManifest p.fs p.cwd).read s.dir "requirements.txt".toList = none →
      setupScript s setup p = (⟨withoutManifest p.fs p.cwd, s.dir, s.dir :: p.path, true⟩, some (.fail .noFile))) ∧
    (conda ≠ 0 ∨ ((withoutManifest p.fs p.cwd).read s.dir "requirements.txt".toList).isSome = true →
      ((withoutManifest p.fs p.cwd).entry s.dir "setup.py".toList).isSome = true →
      ∀ e, commandVersions ⟨s.parse, s.git, s.dir, s.dir⟩ (withoutManifest p.fs p.cwd) = .error e →
        setupScript s setup p = (⟨withoutManifest p.fs p.cwd, s.dir, s.dir :: p.path, true⟩, some (.fail e))) ∧
    (conda ≠ 0 ∨ ((withoutManifest p.fs p.cwd).read s.dir "requirements.txt".toList).isSome = true →
      ((withoutManifest p.fs p.cwd).entry s.dir "setup.py".toList).isSome = true →
      ∀ v, commandVersions ⟨s.parse, s.git, s.dir, s.dir⟩ (withoutManifest p.fs p.cwd) = .ok v → v.get "version".toList = none →
        setupScript s setup p =
          (⟨withoutManifest p.fs p.cwd, s.dir, s.dir :: p.path, true⟩, some (.fail (.stop (.raised .key))))) := by
  rw [script_eq s hs, conda_eq hc]
  refine ⟨?_, ?_, ?_⟩
  · rintro rfl hr
    simp only [setupPackage, Proc.started, ne_eq, not_true_eq_false, if_false, hr]
  · intro h hsp e hv
    have hver : setupPackageVersions ((withoutManifest p.fs p.cwd).disk s.parse) s.git s.dir s.later = .error e := by
      rw [C101_setup_py _ _ _ _ hsp]
      exact hv
    by_cases h0 : conda = 0
    · subst h0
      rcases h with h | h
      · exact absurd rfl h
      · obtain ⟨t, ht⟩ := Option.isSome_iff_exists.1 h
        simp only [setupPackage, Proc.started, ne_eq, not_true_eq_false, if_false, ht, hver]
    · simp only [setupPackage, Proc.started, ne_eq, h0, not_false_eq_true, if_true, hver]
  · intro h hsp v hv hx
    have hver : setupPackageVersions ((withoutManifest p.fs p.cwd).disk s.parse) s.git s.dir s.later = .ok v := by
      rw [C101_setup_py _ _ _ _ hsp]
      exact hv
    by_cases h0 : conda = 0
    · subst h0
      rcases h with h | h
      · exact absurd rfl h
      · obtain ⟨t, ht⟩ := Option.isSome_iff_exists.1 h
        simp only [setupPackage, Proc.started, ne_eq, not_true_eq_false, if_false, ht, hver, hx]
    · simp only [setupPackage, Proc.started, ne_eq, h0, not_false_eq_true, if_true, hver, hx]

/-- C103, defect: a CONDA_BUILD that is not a number is a ValueError, after `MANIFEST` has been removed. -/
theorem C103_conda (s : Script) (hs : NewPython s) (p : Proc) (t : Str) (hc : s.conda = some t)
    (ht : ∃ c ∈ t, isSpace c = false ∧ c.isDigit = false ∧ c ≠ '-' ∧ c ≠ '+')
    (setup : Metadata → Proc → Proc × Option ScriptFail) :
    setupScript s setup p = (⟨withoutManifest p.fs p.cwd, p.cwd, p.path, true⟩, some (.fail (.stop (.raised .value)))) := by
  rw [script_eq s hs, hc, Option.getD_some, pyInt_none ht]
  rfl

/-- C103, what `int` makes of the decimal digits of a number, with white space around it and a sign. -/
theorem C103_int (n : Nat) (a b : Str) (ha : ∀ c ∈ a, isSpace c = true) (hb : ∀ c ∈ b, isSpace c = true) :
    pyInt (a ++ Nat.toDigits 10 n ++ b) = some (n : Int) ∧ pyInt (a ++ '+' :: Nat.toDigits 10 n ++ b) = some (n : Int) ∧
      pyInt (a ++ '-' :: Nat.toDigits 10 n ++ b) = some (-(n : Int)) := by
  have hd := isDigit_toDigits n
  have h1 : (Nat.toDigits 10 n).all Char.isDigit = true := List.all_eq_true.mpr hd
  have h0 : Nat.toDigits 10 n ≠ [] := Nat.toDigits_ne_nil
  have hns : ∀ c ∈ Nat.toDigits 10 n, isSpace c = false := fun c hc => digit_not_space (hd c hc)
  have hlast : ∀ c, (Nat.toDigits 10 n).getLast? = some c → isSpace c = false := fun c hc => hns c (List.mem_of_getLast? hc)
  refine ⟨?_, ?_, ?_⟩
  · have e := strip_pad a (Nat.toDigits 10 n) b ha hb (fun c hc => hns c (List.mem_of_head? hc)) hlast
    cases hl : Nat.toDigits 10 n with
    | nil => exact absurd hl h0
    | cons d l =>
      rw [hl] at e h1
      have hdd := hd d (by rw [hl]; simp)
      have hm : d ≠ '-' := by rintro rfl; exact absurd hdd (by decide)
      have hp : d ≠ '+' := by rintro rfl; exact absurd hdd (by decide)
      unfold pyInt
      simp only [e]
      split
      · rename_i h; cases h; exact absurd rfl hm
      · rename_i h; cases h; exact absurd rfl hp
      · rw [if_pos ⟨by simp, h1⟩, ← hl, Nat.ofDigitChars_toDigits (by omega) (by omega)]; rfl
  · have e := strip_pad a ('+' :: Nat.toDigits 10 n) b ha hb (by rintro c hc; cases hc; decide) (by
      intro c hc
      rw [show ('+' :: Nat.toDigits 10 n) = ['+'] ++ Nat.toDigits 10 n from rfl, getLast?_app h0] at hc
      exact hlast c hc)
    unfold pyInt
    simp only [e, if_pos (show Nat.toDigits 10 n ≠ [] ∧ _ from ⟨h0, h1⟩)]
    rw [Nat.ofDigitChars_toDigits (by omega) (by omega)]; rfl
  · have e := strip_pad a ('-' :: Nat.toDigits 10 n) b ha hb (by rintro c hc; cases hc; decide) (by
      intro c hc
      rw [show ('-' :: Nat.toDigits 10 n) = ['-'] ++ Nat.toDigits 10 n from rfl, getLast?_app h0] at hc
      exact hlast c hc)
    unfold pyInt
    simp only [e, if_pos (show Nat.toDigits 10 n ≠ [] ∧ _ from ⟨h0, h1⟩)]
    rw [Nat.ofDigitChars_toDigits (by omega) (by omega)]; rfl

/-- A script for the examples, in the tree of `exFS` (Props/Commands.lean), which has no requirements.txt, as this repository. -/
def exScript (conda : Option Str) (git : Dir → Git) : Script :=
  ⟨(3, 8), conda, ["gcs".toList], [], fun _ => some exOptions, git, fun _ _ => ["gcs".toList], ["setuptools"]⟩

theorem exFS_manifest (t : Str) (dir : Dir) : withoutManifest (exFS t) dir = exFS t := by
  simp only [withoutManifest, exFS, FS.mk.injEq, and_true]
  funext d n
  split
  · rename_i h
    rw [h.2]
    unfold exEntry
    split
    · rw [if_neg (by decide +kernel), if_neg (by decide +kernel), if_neg (by decide +kernel)]
    · rfl
  · rfl

/-- A case of C103_left: without CONDA_BUILD the script always fails in such a tree. -/
example (t : Str) (git : Dir → Git) (cwd : Dir) (path : List Dir) (setup : Metadata → Proc → Proc × Option ScriptFail) :
    setupScript (exScript none git) setup ⟨exFS t, cwd, path, false⟩ =
      (⟨exFS t, ["gcs".toList], ["gcs".toList] :: path, true⟩, some (.fail .noFile)) := by
  have h := (C103_left (exScript none git) (.inr ⟨rfl, (by decide : 4 ≤ 8)⟩) ⟨exFS t, cwd, path, false⟩ 0 (.inl ⟨rfl, rfl⟩) setup).1 rfl
  have he : exEntry ["gcs".toList] "requirements.txt".toList = none := by decide +kernel
  simp only [exFS_manifest] at h
  exact h (by simp only [FS.read, exFS, exScript, he])

/-- A case of C103_runs: with CONDA_BUILD=1 it calls `setup`, and leaves the directory, the path and `builtins` as they were. -/
example (v : Dict) (x : Str) (hv : ("version".toList, JVal.str x) ∈ v) (git : Dir → Git) (cwd : Dir) (path : List Dir) :
    setupScript (exScript (some "1".toList) git) (fun _ q => (q, none)) ⟨exFS (versionFile v), cwd, path, false⟩ =
      (⟨exFS (versionFile v), cwd, path, false⟩, none) := by
  generalize ht : versionFile v = t
  have hr : (exFS t).read ["gcs".toList] "gcs/_version.py".toList = some (versionFile v) := by rw [ht]; exact exFS_read t
  obtain ⟨d, h1, h2⟩ := written_versions (exFS_configured t) hr git ["gcs".toList]
  obtain ⟨y, hy⟩ := Option.isSome_iff_exists.1 (get_isSome ⟨_, h2.mem_iff.2 hv⟩)
  have h := C103_runs (exScript (some "1".toList) git) (.inr ⟨rfl, (by decide : 4 ≤ 8)⟩) ⟨exFS t, cwd, path, false⟩ 1
    (.inr ⟨_, rfl, by decide +kernel⟩) (by rw [exFS_manifest]; exact (exFS_configured t).setup) d (by rw [exFS_manifest]; exact h1) y hy
    ⟨y, _, _, [], [], []⟩ rfl rfl rfl (.inl ⟨by decide, rfl, rfl, rfl⟩) (fun _ q => (q, none)) _ none rfl ["gcs".toList] path rfl
  simp only [exFS_manifest] at h
  exact h.2 trivial trivial

end Version
end Gcs
