import Verif.Model.SetupConfig

/-!
# C101: the root, the configuration and the handlers
-/

namespace Gcs
namespace Version

/-- A directory with `setup.py` or `versioneer.py`. -/
def Spec.Project (d : Disk) (dir : Dir) : Prop := d.has dir "setup.py".toList = true ∨ d.has dir "versioneer.py".toList = true

/-- The section `versioneer` of `setup.cfg` in `dir` has the option `name` with this value. -/
def Spec.HasOption (d : Disk) (dir : Dir) (name value : String) : Prop :=
  ∃ get, d.cfg dir = some (some get) ∧ get name.toList = some value.toList

/-- There is a section `versioneer`, without the option `name`. -/
def Spec.LacksOption (d : Disk) (dir : Dir) (name : String) : Prop :=
  ∃ get, d.cfg dir = some (some get) ∧ get name.toList = none

/-- The value that a prefix in quotes stands for. -/
def Spec.unquoted (value : String) : String := if value = "''" ∨ value = "\"\"" then "" else value

/-- The value of an option, or the empty text without it. -/
def Spec.OptionOrEmpty (d : Disk) (dir : Dir) (name value : String) : Prop :=
  HasOption d dir name value ∨ LacksOption d dir name ∧ value = ""

open Spec

/-- C101, the root is the current directory if it has one of the files, else the directory of the script if that has one, else there
is none. -/
theorem C101_root (d : Disk) (cwd script : Dir) :
    (Project d cwd → getRoot d cwd script = .ok cwd) ∧
    (¬ Project d cwd → Project d script → getRoot d cwd script = .ok script) ∧
    (¬ Project d cwd → ¬ Project d script → getRoot d cwd script = .error .badRoot) := by
  simp only [Project, getRoot, ← Bool.or_eq_true]
  refine ⟨fun h => if_pos h, fun h h' => ?_, fun h h' => ?_⟩
  · rw [if_neg h, if_pos h']
  · rw [if_neg h, if_neg h']

/-- C101, the function registered last for a system and a method is the one that is there; nothing else changes. -/
theorem C101_register {F : Type} (h : Handlers F) (vcs method : Str) (f : F) :
    (∃ t, register h vcs method f vcs = some t ∧ t method = some f ∧
      ∀ m, m ≠ method → t m = (h vcs).bind fun t' => t' m) ∧
    (∀ v, v ≠ vcs → register h vcs method f v = h v) := by
  refine ⟨⟨fun m => if m = method then some f else ((h vcs).getD fun _ => none) m, by simp [register], by simp, ?_⟩,
    fun v hv => by simp [register, hv]⟩
  intro m hm
  simp only [if_neg hm]
  cases h vcs <;> rfl

/-- C101, git is the only system with handlers, and it has three. -/
theorem C101_handlers (vcs : Str) :
    (vcs ≠ "git".toList → handlers vcs = none) ∧
    (∃ t, handlers "git".toList = some t ∧ t "get_keywords".toList = some .getKeywords ∧
      t "keywords".toList = some .fromKeywords ∧ t "pieces_from_vcs".toList = some .piecesFromVcs ∧
      ∀ m, m ∉ ["get_keywords".toList, "keywords".toList, "pieces_from_vcs".toList] → t m = none) := by
  refine ⟨fun h => ?_, ?_⟩
  · unfold handlers
    rw [(C101_register _ _ _ _).2 vcs h, (C101_register _ _ _ _).2 vcs h, (C101_register _ _ _ _).2 vcs h]
  · refine ⟨_, by simp only [handlers, register]; rfl, by decide +kernel, by decide +kernel, by decide +kernel, ?_⟩
    intro m hm
    simp only [List.mem_cons, List.not_mem_nil, or_false, not_or] at hm
    simp only [if_neg hm.1, if_neg hm.2.1, if_neg hm.2.2, if_true, Option.getD_some, Option.getD_none]

theorem toList_inj {a b : String} (h : a.toList = b.toList) : a = b := String.toList_inj.1 h

theorem config_ok {d : Disk} {root : Dir} {get : Options} (hc : d.cfg root = some (some get)) {vcs : Str}
    (hv : get "vcs".toList = some vcs) : ∃ c, getConfigFromRoot d root = .ok c ∧ c.vcs = vcs ∧ c.style = (get "style".toList).getD [] ∧
      c.source = get "versionfile_source".toList ∧ c.parentdirPrefix = get "parentdir_prefix".toList ∧
      c.tagPrefix = if get "tag_prefix".toList = some "''".toList ∨ get "tag_prefix".toList = some "\"\"".toList then some []
        else get "tag_prefix".toList := by
  simp only [getConfigFromRoot, hc, hv]
  exact ⟨_, rfl, rfl, rfl, rfl, rfl, rfl⟩

/-- C101, versionfile_build, which the commands for setuptools look at, is the value of the option, or `None` without it. -/
theorem C101_build (d : Disk) (root : Dir) (vcs : String) (hv : HasOption d root "vcs" vcs) :
    ∃ c, getConfigFromRoot d root = .ok c ∧ (∀ build, HasOption d root "versionfile_build" build → c.build = some build.toList) ∧
      (LacksOption d root "versionfile_build" → c.build = none) := by
  obtain ⟨get, hc, hv⟩ := hv
  refine ⟨_, by simp only [getConfigFromRoot, hc, hv]; rfl, ?_, ?_⟩
  · rintro build ⟨get', h1, h2⟩
    rw [hc] at h1
    cases h1
    exact h2
  · rintro ⟨get', h1, h2⟩
    rw [hc] at h1
    cases h1
    exact h2

/-- C101.  With a root and the options VCS (git), versionfile_source and tag_prefix, `get_versions` is that of
Model/VersionFile.lean, for the version file and what git prints in the root; a prefix in quotes is the empty one, and style and
parentdir_prefix may be missing. -/
theorem C101_versions (d : Disk) (git : Dir → Git) (cwd script root : Dir) (hr : getRoot d cwd script = .ok root)
    (source tag style parent : String) (hv : HasOption d root "vcs" "git") (hs : HasOption d root "versionfile_source" source)
    (ht : HasOption d root "tag_prefix" tag) (hst : OptionOrEmpty d root "style" style)
    (hp : OptionOrEmpty d root "parentdir_prefix" parent) :
    getVersionsSetup d git cwd script =
      match setupVersions (d.text root source.toList) ⟨style.toList, (unquoted tag).toList, parent.toList⟩ (git root) root with
      | .error s => .error (.stop s)
      | .ok v => .ok v := by
  obtain ⟨get, hc, hv⟩ := hv
  have same : ∀ get', d.cfg root = some (some get') → get' = get := fun get' h => by
    rw [hc] at h
    cases h
    rfl
  have opt : ∀ name value, HasOption d root name value → get name.toList = some value.toList := by
    rintro name value ⟨get', h1, h2⟩
    rwa [same get' h1] at h2
  have optE : ∀ name value, OptionOrEmpty d root name value → (get name.toList).getD [] = value.toList := by
    rintro name value (h | ⟨⟨get', h1, h2⟩, rfl⟩)
    · rw [opt _ _ h]
      rfl
    · rw [same get' h1] at h2
      rw [h2]
      rfl
  obtain ⟨c, e, k1, k2, k3, k4, k5⟩ := config_ok hc hv
  obtain ⟨t, ht', -⟩ := (C101_handlers []).2
  have htag : c.tagPrefix = some (unquoted tag).toList := by
    rw [k5, opt _ _ ht]
    unfold unquoted
    by_cases hq : tag = "''" ∨ tag = "\"\""
    · rw [if_pos hq, if_pos (hq.imp (fun h => by rw [h]) (fun h => by rw [h]))]
      rfl
    · rw [if_neg hq, if_neg]
      exact fun h => hq (h.imp (fun h => toList_inj (Option.some.inj h)) (fun h => toList_inj (Option.some.inj h)))
  simp only [getVersionsSetup, hr, e, bind, Except.bind, k1, ht', k3, opt _ _ hs, htag, k2, optE _ _ hst, k4, optE _ _ hp]
  rfl

/-- C101, what is missing: no root, no `setup.cfg`, no section, no VCS; and `AssertionError` for a VCS other than `git` (also
`Git`), without versionfile_source or without tag_prefix. -/
theorem C101_missing (d : Disk) (git : Dir → Git) (cwd script : Dir) :
    (¬ Project d cwd → ¬ Project d script → getVersionsSetup d git cwd script = .error .badRoot) ∧
    ∀ root, getRoot d cwd script = .ok root →
      (d.cfg root = none → getVersionsSetup d git cwd script = .error .noFile) ∧
      (d.cfg root = some none → getVersionsSetup d git cwd script = .error .noSection) ∧
      (LacksOption d root "vcs" → getVersionsSetup d git cwd script = .error .noOption) ∧
      (∀ vcs, HasOption d root "vcs" vcs →
        (vcs ≠ "git" ∨ LacksOption d root "versionfile_source" ∨ LacksOption d root "tag_prefix") →
        getVersionsSetup d git cwd script = .error (.stop (.raised .assertion))) := by
  refine ⟨fun h h' => ?_, fun root hr => ⟨fun h => ?_, fun h => ?_, ?_, ?_⟩⟩
  · simp only [getVersionsSetup, (C101_root d cwd script).2.2 h h', bind, Except.bind]
  · simp only [getVersionsSetup, hr, getConfigFromRoot, h, bind, Except.bind]
  · simp only [getVersionsSetup, hr, getConfigFromRoot, h, bind, Except.bind]
  · rintro ⟨get, h1, h2⟩
    simp only [getVersionsSetup, hr, getConfigFromRoot, h1, h2, bind, Except.bind]
  · rintro vcs ⟨get, hc, hv⟩ h
    obtain ⟨c, e, k1, k2, k3, k4, k5⟩ := config_ok hc hv
    simp only [getVersionsSetup, hr, e, bind, Except.bind]
    have lacks : ∀ name, LacksOption d root name → get name.toList = none := by
      rintro name ⟨get', h1, h2⟩
      rw [hc] at h1
      cases h1
      exact h2
    rcases h with h | h | h
    · rw [k1, (C101_handlers _).1 fun h' => h (toList_inj h')]
    · rw [k3, lacks _ h]
      cases handlers c.vcs <;> rfl
    · have : c.tagPrefix = none := by
        rw [k5, lacks _ h]
        simp
      rw [this]
      cases handlers c.vcs with
      | none => rfl
      | some _ => cases c.source <;> rfl

/-- C101, `setup.py` reads the configuration of its own directory, whatever a relative `sys.argv[0]` means after it has gone there. -/
theorem C101_setup_py (d : Disk) (git : Dir → Git) (script later : Dir) (h : d.has script "setup.py".toList = true) :
    setupPackageVersions d git script later = getVersionsSetup d git script script := by
  have e : ∀ x, getRoot d script x = .ok script := fun x => (C101_root d script x).1 (.inl h)
  simp only [setupPackageVersions, getVersionsSetup, e]

/-- C101, defect: called from the directory of another project, `get_versions` takes the configuration of that project, not that of
the script. -/
theorem C101_other_project (d : Disk) (git : Dir → Git) (cwd script script' : Dir) (h : Project d cwd) :
    getVersionsSetup d git cwd script = getVersionsSetup d git cwd script' := by
  simp only [getVersionsSetup, (C101_root d cwd _).1 h]

/-- The files for the example: `setup.py` and the options of this repository in one directory. -/
def exDisk : Disk where
  has dir name := dir = ["gcs".toList] && name = "setup.py".toList
  cfg dir := if dir = ["gcs".toList] then some (some fun n =>
    if n = "vcs".toList then some "git".toList else if n = "style".toList then some "pep440".toList
    else if n = "versionfile_source".toList then some "gcs/_version.py".toList
    else if n = "tag_prefix".toList then some "v".toList else none) else none
  text _ _ := none

/-- A case of C101 that meets the conditions of C101_versions. -/
example : getRoot exDisk [] ["gcs".toList] = .ok ["gcs".toList] ∧ HasOption exDisk ["gcs".toList] "vcs" "git" ∧
    HasOption exDisk ["gcs".toList] "versionfile_source" "gcs/_version.py" ∧ HasOption exDisk ["gcs".toList] "tag_prefix" "v" ∧
    OptionOrEmpty exDisk ["gcs".toList] "style" "pep440" ∧ OptionOrEmpty exDisk ["gcs".toList] "parentdir_prefix" "" := by
  refine ⟨(C101_root _ _ _).2.1 ?_ (.inl (by decide +kernel)), ⟨_, rfl, by decide +kernel⟩, ⟨_, rfl, by decide +kernel⟩,
    ⟨_, rfl, by decide +kernel⟩, .inl ⟨_, rfl, by decide +kernel⟩, .inr ⟨⟨_, rfl, by decide +kernel⟩, rfl⟩⟩
  rintro (h | h) <;> revert h <;> decide +kernel

end Version
end Gcs
