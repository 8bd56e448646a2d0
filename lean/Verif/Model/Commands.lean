import Verif.Model.SetupConfig

/-!
# The commands for setuptools

`get_cmdclass` of versioneer.py, the commands it defines, and `write_to_version_file` on a file system with hard links.

Simplifications: a command of setuptools, distutils, cx_Freeze or py2exe is any change of the files, which may fail; `_sdist.run` is a
preparation, one call of `make_release_tree` for the directory named after the version, and packing what is there then; different
pairs of a directory and a name are different files; the module configparser is an input (`parse`), as are the output of git and
the filled-in template of the version file (`long`).  Printing is left out except for the command `version`.
-/

namespace Gcs
namespace Version

/-- Files: names lead to numbers, several names may lead to the same one (hard links), and a number to a text. -/
structure FS where
  entry : Dir → Str → Option Nat
  texts : List Str

/-- The text of the file with this name. -/
def FS.read (fs : FS) (dir : Dir) (name : Str) : Option Str :=
  match fs.entry dir name with
  | none => none
  | some i => fs.texts[i]?

/-- The same names, but for one. -/
def FS.relink (fs : FS) (dir : Dir) (name : Str) (x : Option Nat) : Dir → Str → Option Nat :=
  fun d n => if d = dir ∧ n = name then x else fs.entry d n

/-- `os.unlink(name)`. -/
def FS.unlink (fs : FS) (dir : Dir) (name : Str) : FS × Option Fail :=
  match fs.entry dir name with
  | none => (fs, some .noFile)
  | some _ => (⟨fs.relink dir name none, fs.texts⟩, none)

/-- `with open(name, "w") as f: f.write(text)`: the text of an existing file is replaced, for all its names. -/
def FS.write (fs : FS) (dir : Dir) (name text : Str) : FS :=
  match fs.entry dir name with
  | some i => ⟨fs.entry, fs.texts.set i text⟩
  | none => ⟨fs.relink dir name (some fs.texts.length), fs.texts ++ [text]⟩

/-- What Model/SetupConfig.lean asks about the files; `parse` gives the options of the section `versioneer` of a text. -/
def FS.disk (fs : FS) (parse : Str → Option Options) : Disk where
  has dir name := (fs.entry dir name).isSome
  cfg dir := (fs.read dir "setup.cfg".toList).map parse
  text := fs.read

/-- `write_to_version_file(filename, versions)`: versioneer.py:1218-1226.  The line that prints the version is a KeyError if there is
none, after the file has been written. -/
def writeToVersionFile (fs : FS) (dir : Dir) (name : Str) (versions : Dict) : FS × Option Fail :=
  match fs.unlink dir name with
  | (fs, some e) => (fs, some e)
  | (fs, none) =>
    (fs.write dir name (versionFile versions),
      match versions.get "version".toList with
      | some _ => none
      | none => some (.stop (.raised .key)))

/-- What surrounds a command: the parser of `setup.cfg`, git, the current directory and the directory of `sys.argv[0]`. -/
structure Around where
  parse : Str → Option Options
  git : Dir → Git
  cwd : Dir
  script : Dir

/-- `get_root()`, then `get_config_from_root(root)`: versioneer.py:1549-1550, 1573-1574, 1602-1603, 1638-1639. -/
def rootAndConfig (a : Around) (fs : FS) : Except Fail RootConfig := do
  let root ← getRoot (fs.disk a.parse) a.cwd a.script
  getConfigFromRoot (fs.disk a.parse) root

/-- `get_versions()` of a command. -/
def commandVersions (a : Around) (fs : FS) : Except Fail Dict := getVersionsSetup (fs.disk a.parse) a.git a.cwd a.script

/-- A command of another module. -/
abbrev Base := FS → FS × Option Fail

/-- `cmd_build_py.run(self)`: versioneer.py:1548-1559. -/
def buildPyRun (a : Around) (buildLib : Dir) (base : Base) (fs : FS) : FS × Option Fail :=
  match rootAndConfig a fs with
  | .error e => (fs, some e)
  | .ok cfg =>
    match commandVersions a fs with
    | .error e => (fs, some e)
    | .ok versions =>
      match base fs with
      | (fs, some e) => (fs, some e)
      | (fs, none) =>
        match cfg.build with
        | none => (fs, none)
        | some build => if build = [] then (fs, none) else writeToVersionFile fs buildLib build versions

/-- `cmd_build_exe.run(self)` and `cmd_py2exe.run(self)`: versioneer.py:1572-1590, 1601-1619.  The file is looked for in the current
directory. -/
def freezeRun (a : Around) (long : RootConfig → Str) (base : Base) (fs : FS) : FS × Option Fail :=
  match rootAndConfig a fs with
  | .error e => (fs, some e)
  | .ok cfg =>
    match commandVersions a fs with
    | .error e => (fs, some e)
    | .ok versions =>
      match cfg.source with
      | none => (fs, some (.stop (.raised .type)))
      | some source =>
        match writeToVersionFile fs a.cwd source versions with
        | (fs, some e) => (fs, some e)
        | (fs, none) =>
          match base fs with
          | (fs, some e) => (fs, some e)
          | (fs, none) =>
            match fs.unlink a.cwd source with
            | (fs, some e) => (fs, some e)
            | (fs, none) => (fs.write a.cwd source (long cfg), none)

/-- `cmd_sdist.make_release_tree(self, base_dir, files)`, with `generated` for `self._versioneer_generated_versions`:
versioneer.py:1637-1647. -/
def makeReleaseTree (a : Around) (generated : Dict) (baseDir : Dir) (base : Base) (fs : FS) : FS × Option Fail :=
  match rootAndConfig a fs with
  | .error e => (fs, some e)
  | .ok cfg =>
    match base fs with
    | (fs, some e) => (fs, some e)
    | (fs, none) =>
      match cfg.source with
      | none => (fs, some (.stop (.raised .type)))
      | some source => writeToVersionFile fs baseDir source generated

/-- What `sdist` leaves: the files when they are packed, and the version in the metadata. -/
structure Sdist where
  fs : FS
  version : Option JVal
  err : Option Fail

/-- `cmd_sdist.run(self)`: versioneer.py:1629-1635.  `prepare` is what `_sdist.run` does before it calls `make_release_tree` for the
directory `fullname version`, where `tree` makes the copies or links. -/
def sdistRun (a : Around) (fullname : JVal → Dir) (prepare : Base) (tree : Dir → Base) (fs : FS) : Sdist :=
  match commandVersions a fs with
  | .error e => ⟨fs, none, some e⟩
  | .ok versions =>
    match versions.get "version".toList with
    | none => ⟨fs, none, some (.stop (.raised .key))⟩
    | some version =>
      match prepare fs with
      | (fs, some e) => ⟨fs, some version, some e⟩
      | (fs, none) =>
        let r := makeReleaseTree a versions (fullname version) (tree (fullname version)) fs
        ⟨r.1, some version, r.2⟩

/-- `"%s" % value`. -/
def showVal : Option JVal → Str
  | some (.str s) => s
  | some .null => "None".toList
  | some (.bool true) => "True".toList
  | some (.bool false) => "False".toList
  | none => "None".toList

/-- A value that counts as true. -/
def truthy : JVal → Bool
  | .str s => s ≠ []
  | .null => false
  | .bool b => b

/-- `cmd_version.run(self)` after `get_versions`, the lines printed: versioneer.py:1516-1523. -/
def versionRun (vers : Dict) : List Str × Option Fail :=
  match vers.get "version".toList with
  | none => ([], some (.stop (.raised .key)))
  | some v =>
    let lines := ["Version: ".toList ++ showVal (some v),
      " full-revisionid: ".toList ++ showVal (vers.get "full-revisionid".toList),
      " dirty: ".toList ++ showVal (vers.get "dirty".toList), " date: ".toList ++ showVal (vers.get "date".toList)]
    match vers.get "error".toList with
    | none => (lines, some (.stop (.raised .key)))
    | some e => (if truthy e then lines ++ [" error: ".toList ++ showVal (some e)] else lines, none)

/-- The commands, and the module of the class that is extended: versioneer.py:1505, 1547, 1571, 1600, 1628. -/
inductive Command where
  | version
  | buildPy (setuptools : Bool)
  | buildExe
  | py2exe
  | sdist (setuptools : Bool)
  deriving DecidableEq, Repr

/-- `get_cmdclass()`: the dictionary, in the order of insertion, and `sys.modules` afterwards: versioneer.py:1483-1651.  (The modules
that it imports itself are left out.) -/
def getCmdclass (modules : List String) : List (String × Command) × List String :=
  let modules := modules.filter (· ≠ "versioneer")
  let cmds := [("version", .version), ("build_py", .buildPy (decide ("setuptools" ∈ modules)))]
  let cmds := if "cx_Freeze" ∈ modules then (cmds ++ [("build_exe", Command.buildExe)]).filter (·.1 ≠ "build_py") else cmds
  let cmds := if "py2exe" ∈ modules then cmds ++ [("py2exe", .py2exe)] else cmds
  (cmds ++ [("sdist", .sdist (decide ("setuptools" ∈ modules)))], modules)

end Version
end Gcs
