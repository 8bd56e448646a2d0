import Verif.Model.RunCommand
import Verif.Props.Version

/-!
# C100: running git
-/

namespace Gcs
namespace Version

/-- The first of the commands that is found does `l`: those before it are not found. -/
def Spec.Decides (sys : System) (commands args : List Str) (l : Launch) : Prop :=
  ∃ pre c post, commands = pre ++ c :: post ∧ (∀ x ∈ pre, sys.launch (x :: args) = .noEntry) ∧ sys.launch (c :: args) = l ∧
    l ≠ .noEntry

/-- `core` is `out` without the white space (tab, line breaks, space) around it. -/
def Spec.Core (out core : Bytes) : Prop :=
  ∃ a b, out = a ++ core ++ b ∧ (∀ x ∈ a ++ b, x ∈ ([9, 10, 11, 12, 13, 32] : List UInt8)) ∧
    (∀ x, core.head? = some x ∨ core.getLast? = some x → x ∉ ([9, 10, 11, 12, 13, 32] : List UInt8))

/-- The command is found, ends with the code 0 and prints `text`. -/
def Spec.Prints (sys : System) (commands args : List Str) (text : Str) : Prop :=
  ∃ out core, Decides sys commands args (.process out 0) ∧ Core out core ∧ sys.decode core = some text

/-- The output of the command, if it is found, is text. -/
def Spec.IsText (sys : System) (commands args : List Str) : Prop :=
  ∀ out rc core, Decides sys commands args (.process out rc) → Core out core → sys.decode core ≠ none

/-- `g` is what the commands of `git_pieces_from_vcs` print. -/
structure Spec.Summary (sys : System) (gits : List Str) (tagPrefix : Str) (g : Git) : Prop where
  gitDir : g.gitDir = true ↔ ∃ t, Prints sys gits ["rev-parse".toList, "--git-dir".toList] t
  describe : ∀ t, g.describe = some t ↔ Prints sys gits ["describe".toList, "--tags".toList, "--dirty".toList, "--always".toList,
    "--long".toList, "--match".toList, tagPrefix ++ ['*']] t
  head : ∀ t, g.head = some t ↔ Prints sys gits ["rev-parse".toList, "HEAD".toList] t
  count : ∀ t, g.count = some t ↔ Prints sys gits ["rev-list".toList, "HEAD".toList, "--count".toList] t
  date : ∀ t, g.date = some t ↔ Prints sys gits ["show".toList, "-s".toList, "--format=%ci".toList, "HEAD".toList] t

open Spec

theorem isSpaceByte_iff (b : UInt8) : isSpaceByte b = true ↔ b ∈ ([9, 10, 11, 12, 13, 32] : List UInt8) := by
  revert b
  have : ∀ n : Fin 256, isSpaceByte ⟨⟨n⟩⟩ = true ↔ (⟨⟨n⟩⟩ : UInt8) ∈ ([9, 10, 11, 12, 13, 32] : List UInt8) := by decide +kernel
  intro b
  exact this b.toBitVec.toFin

theorem dropWhile_space (p : UInt8 → Bool) (a s : Bytes) (ha : ∀ x ∈ a, p x = true) (hs : ∀ x, s.head? = some x → p x = false) :
    (a ++ s).dropWhile p = s := by
  induction a with
  | nil =>
    cases s with
    | nil => rfl
    | cons x s => simp [hs x rfl]
  | cons y a ih =>
    simp only [List.cons_append, List.dropWhile_cons, ha y (by simp), if_true]
    exact ih fun x hx => ha x (by simp [hx])

theorem stripBytes_core {out core : Bytes} (h : Core out core) : stripBytes out = core := by
  obtain ⟨a, b, rfl, hw, hc⟩ := h
  have sp : ∀ x ∈ a ++ b, isSpaceByte x = true := fun x hx => (isSpaceByte_iff x).2 (hw x hx)
  have ns : ∀ x, core.head? = some x ∨ core.getLast? = some x → isSpaceByte x = false := fun x hx => by
    have := hc x hx
    rw [← isSpaceByte_iff] at this
    simpa using this
  unfold stripBytes
  by_cases he : core = []
  · subst he
    have : ((a ++ [] ++ b).dropWhile isSpaceByte) = [] := by
      have := dropWhile_space isSpaceByte (a ++ b) [] sp (by simp)
      simpa using this
    rw [this]
    rfl
  · rw [List.append_assoc, dropWhile_space _ a (core ++ b) (fun x hx => sp x (by simp [hx])), List.reverse_append,
      dropWhile_space _ b.reverse core.reverse (fun x hx => sp x (by simp at hx; simp [hx])), List.reverse_reverse]
    · intro x hx
      exact ns x (.inr (by simpa using hx))
    · intro x hx
      refine ns x (.inl ?_)
      cases core with
      | nil => exact absurd rfl he
      | cons y l => simpa using hx

theorem core_exists (out : Bytes) : Core out (stripBytes out) := by
  refine ⟨out.takeWhile isSpaceByte, ((out.dropWhile isSpaceByte).reverse.takeWhile isSpaceByte).reverse, ?_, ?_, ?_⟩
  · unfold stripBytes
    rw [List.append_assoc, ← List.reverse_append, List.takeWhile_append_dropWhile, List.reverse_reverse,
      List.takeWhile_append_dropWhile]
  · intro x hx
    rw [← isSpaceByte_iff]
    simp only [List.mem_append, List.mem_reverse] at hx
    have all : ∀ l : Bytes, x ∈ l.takeWhile isSpaceByte → isSpaceByte x = true := fun l h =>
      (List.all_eq_true.1 List.all_takeWhile) x h
    rcases hx with hx | hx
    · exact all _ hx
    · exact all _ hx
  · intro x hx
    rw [← isSpaceByte_iff]
    have last : ∀ (l : Bytes) y, (l.dropWhile isSpaceByte).head? = some y → isSpaceByte y ≠ true := by
      intro l y hy
      induction l with
      | nil => simp at hy
      | cons z l ih =>
        rw [List.dropWhile_cons] at hy
        split at hy
        · exact ih hy
        · simp at hy
          subst hy
          assumption
    rcases hx with hx | hx
    · unfold stripBytes at hx
      rw [List.head?_reverse] at hx
      have hsuf : (out.dropWhile isSpaceByte).reverse.dropWhile isSpaceByte <:+ (out.dropWhile isSpaceByte).reverse :=
        List.dropWhile_suffix _
      obtain ⟨t, ht⟩ := hsuf
      refine last out x ?_
      rw [← List.getLast?_reverse, ← ht, List.getLast?_append, hx]
      rfl
    · unfold stripBytes at hx
      rw [List.getLast?_reverse] at hx
      exact last _ x hx

/-- C100, the command that is run is the first that is found; the others after it are not tried. -/
theorem C100_run (sys : System) (commands args : List Str) :
    ((∀ c ∈ commands, sys.launch (c :: args) = .noEntry) → runCommand sys commands args = .ok (none, none)) ∧
    (Decides sys commands args .otherError → runCommand sys commands args = .ok (none, none)) ∧
    (∀ out rc core, Decides sys commands args (.process out rc) → Core out core →
      (sys.decode core = none → runCommand sys commands args = .error (.raised .value)) ∧
      (∀ text, sys.decode core = some text → rc ≠ 0 → runCommand sys commands args = .ok (none, some rc)) ∧
      (∀ text, sys.decode core = some text → rc = 0 → runCommand sys commands args = .ok (some text, some 0))) := by
  have skip : ∀ (pre post : List Str), (∀ x ∈ pre, sys.launch (x :: args) = .noEntry) →
      runCommand sys (pre ++ post) args = runCommand sys post args := by
    intro pre post hp
    induction pre with
    | nil => rfl
    | cons x pre ih =>
      simp only [List.cons_append, runCommand, hp x (by simp)]
      exact ih fun y hy => hp y (by simp [hy])
  refine ⟨fun h => ?_, ?_, ?_⟩
  · have := skip commands [] h
    rwa [List.append_nil] at this
  · rintro ⟨pre, c, post, rfl, hp, hc, -⟩
    rw [skip pre _ hp]
    simp only [runCommand, hc]
  · rintro out rc core ⟨pre, c, post, rfl, hp, hc, -⟩ hcore
    rw [skip pre _ hp]
    refine ⟨fun h => ?_, fun text h h0 => ?_, fun text h h0 => ?_⟩
    · simp [runCommand, hc, stripBytes_core hcore, h]
    · simp [runCommand, hc, stripBytes_core hcore, h, h0]
    · simp [runCommand, hc, stripBytes_core hcore, h, h0]

theorem decides_cases (sys : System) (commands args : List Str) :
    (∀ c ∈ commands, sys.launch (c :: args) = .noEntry) ∨ ∃ l, Decides sys commands args l := by
  induction commands with
  | nil => exact .inl (by simp)
  | cons c commands ih =>
    by_cases hc : sys.launch (c :: args) = .noEntry
    · rcases ih with h | ⟨l, pre, c', post, rfl, hp, h1, h2⟩
      · exact .inl (by simpa [hc] using h)
      · exact .inr ⟨l, c :: pre, c', post, rfl, by simpa [hc] using hp, h1, h2⟩
    · exact .inr ⟨_, [], c, commands, rfl, by simp, rfl, hc⟩

/-- C100, the result is a text exactly if the command prints it and ends with the code 0. -/
theorem C100_prints (sys : System) (commands args : List Str) (text : Str) :
    (∃ rc, runCommand sys commands args = .ok (some text, rc)) ↔ Prints sys commands args text := by
  obtain ⟨h1, h2, h3⟩ := C100_run sys commands args
  constructor
  · rintro ⟨rc, h⟩
    rcases decides_cases sys commands args with hn | ⟨l, hl⟩
    · rw [h1 hn] at h; cases h
    · cases l with
      | noEntry => exact absurd rfl hl.choose_spec.choose_spec.choose_spec.2.2.2
      | otherError => rw [h2 hl] at h; cases h
      | process out rc' =>
        obtain ⟨k1, k2, k3⟩ := h3 out rc' _ hl (core_exists out)
        cases hd : sys.decode (stripBytes out) with
        | none => rw [k1 hd] at h; cases h
        | some t =>
          by_cases h0 : rc' = 0
          · rw [k3 t hd h0] at h
            cases h
            exact ⟨out, _, h0 ▸ hl, core_exists out, hd⟩
          · rw [k2 t hd h0] at h; cases h
  · rintro ⟨out, core, hl, hc, hd⟩
    exact ⟨_, (h3 out 0 core hl hc).2.2 text hd rfl⟩

theorem run_of_text {sys : System} {commands args : List Str} (ht : IsText sys commands args) :
    ∃ o rc, runCommand sys commands args = .ok (o, rc) ∧ (rc = some 0 ↔ o.isSome) ∧ ∀ t, o = some t ↔ Prints sys commands args t := by
  have key : ∃ o rc, runCommand sys commands args = .ok (o, rc) ∧ (rc = some 0 ↔ o.isSome) := by
    obtain ⟨h1, h2, h3⟩ := C100_run sys commands args
    rcases decides_cases sys commands args with hn | ⟨l, hl⟩
    · exact ⟨_, _, h1 hn, by simp⟩
    · cases l with
      | noEntry => exact absurd rfl hl.choose_spec.choose_spec.choose_spec.2.2.2
      | otherError => exact ⟨_, _, h2 hl, by simp⟩
      | process out rc' =>
        obtain ⟨k1, k2, k3⟩ := h3 out rc' _ hl (core_exists out)
        cases hd : sys.decode (stripBytes out) with
        | none => exact absurd hd (ht out rc' _ hl (core_exists out))
        | some t =>
          by_cases h0 : rc' = 0
          · exact ⟨_, _, k3 t hd h0, by simp⟩
          · exact ⟨_, _, k2 t hd h0, by simp [h0]⟩
  obtain ⟨o, rc, h, hs⟩ := key
  refine ⟨o, rc, h, hs, fun t => ?_⟩
  rw [← C100_prints, h]
  constructor
  · rintro rfl
    exact ⟨rc, rfl⟩
  · rintro ⟨rc', e⟩
    cases e
    rfl

/-- C100.  If what the commands print is text, `git_pieces_from_vcs` is that of Model/Version.lean, for what they print. -/
theorem C100_pieces (sys : System) (win32 : Bool) (tagPrefix : Str) (g : Git)
    (hg : Summary sys (if win32 then ["git.cmd".toList, "git.exe".toList] else ["git".toList]) tagPrefix g)
    (ht : ∀ args, IsText sys (if win32 then ["git.cmd".toList, "git.exe".toList] else ["git".toList]) args) :
    piecesRun sys win32 tagPrefix = piecesFromVcs tagPrefix g := by
  have out : ∀ (args : List Str) (o' : Option Str), (∀ t, o' = some t ↔ Prints sys (gits win32) args t) →
      ∃ rc, runCommand sys (gits win32) args = .ok (o', rc) := by
    intro args o' ho
    obtain ⟨o, rc, h1, -, h3⟩ := run_of_text (ht args)
    refine ⟨rc, ?_⟩
    have : o = o' := Option.ext fun t => (h3 t).trans (ho t).symm
    rw [← this]
    exact h1
  obtain ⟨o1, rc1, e1, hs, hp⟩ := run_of_text (ht argsGitDir)
  have e1 : runCommand sys (gits win32) argsGitDir = .ok (o1, rc1) := e1
  have hdir : rc1 = some 0 ↔ g.gitDir = true := by
    rw [hs, hg.gitDir, Option.isSome_iff_exists]
    exact exists_congr hp
  obtain ⟨rc2, e2⟩ := out (argsDescribe tagPrefix) g.describe hg.describe
  obtain ⟨rc3, e3⟩ := out argsHead g.head hg.head
  obtain ⟨rc4, e4⟩ := out argsCount g.count hg.count
  obtain ⟨rc5, e5⟩ := out argsDate g.date hg.date
  have ed : piecesRun.commitDate sys win32 = piecesFromVcs.finish g := by
    simp only [piecesRun.commitDate, piecesFromVcs.finish, e5, bind, Except.bind]
    cases g.date <;> rfl
  unfold piecesRun piecesFromVcs
  simp only [e1, e2, e3, e4, ed, bind, Except.bind]
  by_cases hd : g.gitDir = true
  · have h0 := hdir.2 hd
    cases h2 : g.describe with
    | none => simp [h0, hd]
    | some d =>
      cases h3 : g.head with
      | none => simp [h0, hd]
      | some f =>
        cases h4 : g.count <;> simp [h0, hd] <;> rfl
  · have h0 : rc1 ≠ some 0 := fun h => hd (hdir.1 h)
    simp [h0, hd]

/-- C100, there is a summary of what the commands print. -/
theorem C100_summary (sys : System) (win32 : Bool) (tagPrefix : Str)
    (ht : ∀ args, IsText sys (if win32 then ["git.cmd".toList, "git.exe".toList] else ["git".toList]) args) :
    ∃ g, Summary sys (if win32 then ["git.cmd".toList, "git.exe".toList] else ["git".toList]) tagPrefix g := by
  obtain ⟨o1, _, -, -, h1⟩ := run_of_text (ht argsGitDir)
  obtain ⟨o2, _, -, -, h2⟩ := run_of_text (ht (argsDescribe tagPrefix))
  obtain ⟨o3, _, -, -, h3⟩ := run_of_text (ht argsHead)
  obtain ⟨o4, _, -, -, h4⟩ := run_of_text (ht argsCount)
  obtain ⟨o5, _, -, -, h5⟩ := run_of_text (ht argsDate)
  refine ⟨⟨o1.isSome, o2, o3, o4, o5⟩, ?_, h2, h3, h4, h5⟩
  rw [Option.isSome_iff_exists]
  exact exists_congr h1

/-- C100, no git: if no command is found, or the first that is found cannot be started (also where the next one can), or
`git rev-parse --git-dir` fails, this is not the method. -/
theorem C100_no_git (sys : System) (win32 : Bool) (tagPrefix : Str) :
    let gits := if win32 then ["git.cmd".toList, "git.exe".toList] else ["git".toList]
    let args := ["rev-parse".toList, "--git-dir".toList]
    ((∀ c ∈ gits, sys.launch (c :: args) = .noEntry) → piecesRun sys win32 tagPrefix = .error .notThisMethod) ∧
    (Decides sys gits args .otherError → piecesRun sys win32 tagPrefix = .error .notThisMethod) ∧
    (∀ out rc core text, Decides sys gits args (.process out rc) → Core out core → sys.decode core = some text → rc ≠ 0 →
      piecesRun sys win32 tagPrefix = .error .notThisMethod) := by
  intro gs args
  obtain ⟨h1, h2, h3⟩ := C100_run sys gs args
  have key : ∀ o rc, runCommand sys gs args = .ok (o, rc) → rc ≠ some 0 → piecesRun sys win32 tagPrefix = .error .notThisMethod := by
    intro o rc h h0
    have h : runCommand sys (gits win32) argsGitDir = .ok (o, rc) := h
    simp [piecesRun, h, h0, bind, Except.bind]
  refine ⟨fun h => key _ _ (h1 h) (by simp), fun h => key _ _ (h2 h) (by simp), fun out rc core text h hc hd h0 => ?_⟩
  exact key _ _ ((h3 out rc core h hc).2.1 text hd h0) (by simpa using h0)

/-- C100, defect: output of `git describe` that is not text (a tag in another encoding) raises `UnicodeDecodeError`, a `ValueError`,
even if the command fails. -/
theorem C100_not_text (sys : System) (win32 : Bool) (tagPrefix t : Str) (out core : Bytes) (rc : Int) :
    let gits := if win32 then ["git.cmd".toList, "git.exe".toList] else ["git".toList]
    Prints sys gits ["rev-parse".toList, "--git-dir".toList] t →
    Decides sys gits ["describe".toList, "--tags".toList, "--dirty".toList, "--always".toList, "--long".toList, "--match".toList,
      tagPrefix ++ ['*']] (.process out rc) → Core out core → sys.decode core = none →
    piecesRun sys win32 tagPrefix = .error (.raised .value) := by
  intro gs hp hd hc hn
  obtain ⟨o, c, k1, k2, k3⟩ := hp
  have e1 : runCommand sys (gits win32) argsGitDir = .ok (some t, some 0) := ((C100_run sys gs _).2.2 o 0 c k1 k2).2.2 t k3 rfl
  have e2 : runCommand sys (gits win32) (argsDescribe tagPrefix) = .error (.raised .value) :=
    ((C100_run sys gs _).2.2 out rc core hd hc).1 hn
  simp [piecesRun, e1, e2, bind, Except.bind]

/-- A system for the examples: ASCII text, `git.cmd` cannot be started, `git.exe` and `git` print the line `.git`. -/
def exSystem : System where
  launch w := if w.head? = some "git.cmd".toList then .otherError else .process [46, 103, 105, 116, 10] 0
  decode b := if b.all (· < 128) then some (b.map fun x => Char.ofNat x.toNat) else none

/-- A case of C100: `git` prints `.git`, on Windows it is not tried after `git.cmd`. -/
example : Prints exSystem ["git".toList] ["rev-parse".toList, "--git-dir".toList] ".git".toList ∧
    Decides exSystem ["git.cmd".toList, "git.exe".toList] ["rev-parse".toList, "--git-dir".toList] .otherError ∧
    (∃ o, exSystem.launch ["git.exe".toList, "rev-parse".toList, "--git-dir".toList] = .process o 0) ∧
    piecesRun exSystem true "v".toList = .error .notThisMethod := by
  refine ⟨⟨[46, 103, 105, 116, 10], [46, 103, 105, 116], ⟨[], _, [], rfl, by simp, by decide +kernel, by simp⟩,
    ⟨[], [10], rfl, by simp, by rintro x (h | h) <;> cases h <;> decide⟩, by decide +kernel⟩, ⟨[], _, _, rfl, by simp, by decide +kernel, by simp⟩,
    ⟨[46, 103, 105, 116, 10], by decide +kernel⟩, ?_⟩
  exact (C100_no_git exSystem true _).2.1 ⟨[], _, _, rfl, by simp, by decide +kernel, by simp⟩

/-- The conditions of C100_pieces hold for it: all that `git` prints is text. -/
example : ∀ args, IsText exSystem ["git".toList] args := by
  rintro args out rc core ⟨pre, c, post, h, -, hl, -⟩ hc
  have hcg : c = "git".toList := by
    cases pre with
    | nil => simpa using (List.cons.inj h).1.symm
    | cons x pre => simp at h
  subst hcg
  have : exSystem.launch ("git".toList :: args) = .process [46, 103, 105, 116, 10] 0 := by
    show (if (some "git".toList : Option Str) = some "git.cmd".toList then Launch.otherError else _) = _
    exact if_neg (by decide)
  rw [this] at hl
  cases hl
  rw [← stripBytes_core hc]
  decide +kernel

end Version
end Gcs
