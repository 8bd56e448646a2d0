import Verif.Model.Commands

/-!
# The script setup.py

The whole of `setup.py`: what it does to the files, the current directory, `sys.path` and `builtins`, and what it passes to `setup`.

Simplifications: `setup` is any change of the state, which may raise; `import` and `os.chdir` do not fail; a directory name is the
directory; `int(text)` knows ASCII digits only, and no underscores; text files have line feeds only.
-/

namespace Gcs
namespace Version

/-- How the script can fail: setup.py:7, what the functions it calls raise, and any exception of `setup`. -/
inductive ScriptFail where
  | oldPython
  | fail (f : Fail)
  | raised (n : Nat)
  deriving DecidableEq, Repr

/-- What the script changes. -/
structure Proc where
  fs : FS
  cwd : Dir
  /-- `sys.path`. -/
  path : List Dir
  /-- Whether `builtins.__GCS_SETUP__` is there. -/
  flag : Bool

/-- What surrounds the script. -/
structure Script where
  /-- `sys.version_info[:2]`. -/
  python : Nat × Nat
  /-- The environment variable `CONDA_BUILD`. -/
  conda : Option Str
  /-- The directory of `sys.argv[0]`, seen from the current directory when the script starts. -/
  dir : Dir
  /-- The directory that `sys.argv[0]` means when the current directory is `dir`. -/
  later : Dir
  parse : Str → Option Options
  git : Dir → Git
  /-- `find_packages()` in a directory. -/
  packages : FS → Dir → List Str
  /-- `sys.modules`. -/
  modules : List String

/-- What differs in the metadata: setup.py:31-67. -/
structure Metadata where
  version : JVal
  cmdclass : List (String × Command)
  packages : List Str
  installRequires : List Str
  setupRequires : List Str
  testsRequire : List Str

/-- The characters at which `str.splitlines()` splits (but for the pair `\r\n`, which text files do not give). -/
def isLineEnd (c : Char) : Bool :=
  (10 ≤ c.toNat && c.toNat ≤ 13) || (28 ≤ c.toNat && c.toNat ≤ 30) || c.toNat == 0x85 || c.toNat == 0x2028 || c.toNat == 0x2029

/-- `text.splitlines()`. -/
def splitLines : Str → List Str
  | [] => []
  | c :: s =>
    if isLineEnd c then [] :: splitLines s
    else
      match splitLines s with
      | [] => [[c]]
      | l :: ls => (c :: l) :: ls

/-- `int(text)`. -/
def pyInt (s : Str) : Option Int :=
  let s := strip s
  let digits (t : Str) : Option Nat := if t ≠ [] ∧ t.all Char.isDigit then some (Nat.ofDigitChars 10 t 0) else none
  match s with
  | '-' :: t => (digits t).map fun n => -(n : Int)
  | '+' :: t => (digits t).map fun n => (n : Int)
  | t => (digits t).map fun n => (n : Int)

/-- The `finally` of `setup_package`: setup.py:71-73. -/
def restore (old : Dir) (p : Proc) (e : Option ScriptFail) : Proc × Option ScriptFail :=
  match p.path with
  | [] => (p, some (.fail (.stop (.raised .index))))
  | _ :: path => ({ p with path := path, cwd := old }, e)

/-- `setup_package()`: setup.py:25-74. -/
def setupPackage (s : Script) (conda : Int) (setup : Metadata → Proc → Proc × Option ScriptFail) (p : Proc) :
    Proc × Option ScriptFail :=
  let old := p.cwd
  let p := { p with cwd := s.dir, path := s.dir :: p.path }
  let go (install setupReq tests : List Str) : Proc × Option ScriptFail :=
    match setupPackageVersions (p.fs.disk s.parse) s.git s.dir s.later with
    | .error e => (p, some (.fail e))
    | .ok versions =>
      match versions.get "version".toList with
      | none => (p, some (.fail (.stop (.raised .key))))
      | some version =>
        let r := setup ⟨version, (getCmdclass s.modules).1, s.packages p.fs p.cwd, install, setupReq, tests⟩ p
        restore old r.1 r.2
  if conda ≠ 0 then go [] [] []
  else
    match p.fs.read p.cwd "requirements.txt".toList with
    | none => (p, some (.fail .noFile))
    | some text => go (splitLines text) ["pytest-runner".toList] ["pytest".toList]

/-- The script, run as the main program: setup.py:6-16, 77-79. -/
def setupScript (s : Script) (setup : Metadata → Proc → Proc × Option ScriptFail) (p : Proc) : Proc × Option ScriptFail :=
  if s.python.1 < 3 ∨ s.python.1 = 3 ∧ s.python.2 < 4 then (p, some .oldPython)
  else
    let p := { p with flag := true }
    let p := { p with fs := (p.fs.unlink p.cwd "MANIFEST".toList).1 }
    match pyInt (s.conda.getD "0".toList) with
    | none => (p, some (.fail (.stop (.raised .value))))
    | some conda =>
      match setupPackage s conda setup p with
      | (p, some e) => (p, some e)
      | (p, none) => if p.flag then ({ p with flag := false }, none) else (p, some (.fail (.stop (.raised .attribute))))

end Version
end Gcs
