import Verif.Model.VersionFile

/-!
# The root, the configuration and the handlers

What `get_versions` of versioneer.py does before it looks for a version: `get_root`, `get_config_from_root`,
`register_vcs_handler`, and the assertions.

Simplifications: paths are real ones, given by their components, the last one first; the module configparser is not modelled: a
`setup.cfg` is the options of its section `versioneer` (their names in lower case, as the parser has them).
`configparser.SafeConfigParser` and `readfp` are taken to exist (Python 3.12 has removed them).  Printing is left out.
-/

namespace Gcs
namespace Version

/-- How the functions of this file can fail: versioneer.py:1398, the exceptions named in lines 337-340, and those of
Model/Version.lean. -/
inductive Fail where
  | badRoot
  | noFile
  | noSection
  | noOption
  | stop (s : Stop)
  deriving DecidableEq, Repr

/-- A directory. -/
abbrev Dir := List Str

/-- The options of the section `versioneer`. -/
abbrev Options := Str → Option Str

/-- The files. -/
structure Disk where
  /-- `os.path.exists(os.path.join(dir, name))`. -/
  has : Dir → Str → Bool
  /-- `setup.cfg` of a directory: not there, without the section, or with these options. -/
  cfg : Dir → Option (Option Options)
  /-- The text of the file of that name below a directory. -/
  text : Dir → Str → Option Str

/-- `get_root()`: versioneer.py:296-332.  `cwd` is the current directory, `script` that of `sys.argv[0]`. -/
def getRoot (d : Disk) (cwd script : Dir) : Except Fail Dir :=
  if d.has cwd "setup.py".toList || d.has cwd "versioneer.py".toList then .ok cwd
  else if d.has script "setup.py".toList || d.has script "versioneer.py".toList then .ok script
  else .error .badRoot

/-- `VersioneerConfig` as filled in by `get_config_from_root`: versioneer.py:292-293, 351-361.  `verbose` is left out. -/
structure RootConfig where
  vcs : Str
  style : Str
  source : Option Str
  build : Option Str
  tagPrefix : Option Str
  parentdirPrefix : Option Str

/-- `get_config_from_root(root)`: versioneer.py:335-361. -/
def getConfigFromRoot (d : Disk) (root : Dir) : Except Fail RootConfig :=
  match d.cfg root with
  | none => .error .noFile
  | some none => .error .noSection
  | some (some get) =>
    match get "vcs".toList with
    | none => .error .noOption
    | some vcs =>
      let tagPrefix := get "tag_prefix".toList
      .ok { vcs := vcs
            style := (get "style".toList).getD []
            source := get "versionfile_source".toList
            build := get "versionfile_build".toList
            tagPrefix := if tagPrefix = some "''".toList ∨ tagPrefix = some "\"\"".toList then some [] else tagPrefix
            parentdirPrefix := get "parentdir_prefix".toList }

/-- `HANDLERS`, a dictionary of dictionaries: versioneer.py:370. -/
abbrev Handlers (F : Type) := Str → Option (Str → Option F)

/-- `register_vcs_handler(vcs, method)(f)`: versioneer.py:373-381. -/
def register {F : Type} (h : Handlers F) (vcs method : Str) (f : F) : Handlers F :=
  let methods : Str → Option F := (h vcs).getD fun _ => none
  fun v => if v = vcs then some fun m => if m = method then some f else methods m else h v

/-- The functions that versioneer.py registers: versioneer.py:945, 974, 1029. -/
inductive Handler where
  | getKeywords | fromKeywords | piecesFromVcs
  deriving DecidableEq, Repr

/-- `HANDLERS` after the module has been loaded: versioneer.py:370, 944, 973, 1028. -/
def handlers : Handlers Handler :=
  register (register (register (fun _ => none) "git".toList "get_keywords".toList .getKeywords)
    "git".toList "keywords".toList .fromKeywords) "git".toList "pieces_from_vcs".toList .piecesFromVcs

/-- `get_versions()`: versioneer.py:1402-1475, with `get_root` and `get_config_from_root`; the part after the assertions is
`setupVersions` (Model/VersionFile.lean), which has the three handlers of git.  `git root` is what git prints in that directory. -/
def getVersionsSetup (d : Disk) (git : Dir → Git) (cwd script : Dir) : Except Fail Dict := do
  let root ← getRoot d cwd script
  let cfg ← getConfigFromRoot d root
  match handlers cfg.vcs with
  | none => .error (.stop (.raised .assertion))
  | some _ =>
    match cfg.source with
    | none => .error (.stop (.raised .assertion))
    | some source =>
      match cfg.tagPrefix with
      | none => .error (.stop (.raised .assertion))
      | some tagPrefix =>
        match setupVersions (d.text root source) ⟨cfg.style, tagPrefix, cfg.parentdirPrefix.getD []⟩ (git root) root with
        | .error s => .error (.stop s)
        | .ok v => .ok v

/-- The version for `setup.py`: setup.py:26-28, 46.  `setup_package` goes to `script`, the directory of `sys.argv[0]`, first;
after that a relative `sys.argv[0]` means another directory, `later`. -/
def setupPackageVersions (d : Disk) (git : Dir → Git) (script later : Dir) : Except Fail Dict := getVersionsSetup d git script later

end Version
end Gcs
