import Verif.Model.Version

/-!
# Running git

`run_command` of gcs/_version.py and `git_pieces_from_vcs` with the commands it runs.  In Model/Version.lean what git prints is an
input (`Git`); here the operating system is.  The same words are taken to do the same each time they are run; printing under
`verbose` is left out.
-/

namespace Gcs
namespace Version

/-- Bytes that a process writes. -/
abbrev Bytes := List UInt8

/-- What `subprocess.Popen` and `communicate` do: an `EnvironmentError`, whose `errno` is `ENOENT` or another, or a process with its
output and its `returncode` (negative if a signal ended it). -/
inductive Launch where
  | noEntry
  | otherError
  | process (stdout : Bytes) (returncode : Int)
  deriving DecidableEq, Repr

/-- The operating system: what the words `[c] + args` do when they are run, and `bytes.decode()`, which is `none` where it raises
`UnicodeDecodeError` (a `ValueError`). -/
structure System where
  launch : List Str → Launch
  decode : Bytes → Option Str

/-- The white space that `bytes.strip()` removes. -/
def isSpaceByte (b : UInt8) : Bool := (9 ≤ b && b ≤ 13) || b == 32

/-- `stdout.strip()`. -/
def stripBytes (s : Bytes) : Bytes := ((s.dropWhile isSpaceByte).reverse.dropWhile isSpaceByte).reverse

/-- `run_command(commands, args)`: gcs/_version.py:70-104; `none` is `None`. -/
def runCommand (sys : System) : List Str → List Str → VerM (Option Str × Option Int)
  | [], _ => .ok (none, none)
  | c :: commands, args =>
    match sys.launch (c :: args) with
    | .noEntry => runCommand sys commands args
    | .otherError => .ok (none, none)
    | .process out rc =>
      match sys.decode (stripBytes out) with
      | none => .error (.raised .value)
      | some text => if rc ≠ 0 then .ok (none, some rc) else .ok (some text, some rc)

/-- `GITS`: gcs/_version.py:224-226. -/
def gits (win32 : Bool) : List Str := if win32 then ["git.cmd".toList, "git.exe".toList] else ["git".toList]

/-- The words after `git` that ask for the directory of the repository: gcs/_version.py:228. -/
def argsGitDir : List Str := ["rev-parse".toList, "--git-dir".toList]

/-- Those that ask for the nearest tag: gcs/_version.py:237-239. -/
def argsDescribe (tagPrefix : Str) : List Str :=
  ["describe".toList, "--tags".toList, "--dirty".toList, "--always".toList, "--long".toList, "--match".toList,
    tagPrefix ++ "*".toList]

/-- Those that ask for the commit: gcs/_version.py:245. -/
def argsHead : List Str := ["rev-parse".toList, "HEAD".toList]

/-- Those that ask for the number of commits: gcs/_version.py:296-297. -/
def argsCount : List Str := ["rev-list".toList, "HEAD".toList, "--count".toList]

/-- Those that ask for the date of the commit: gcs/_version.py:301-302. -/
def argsDate : List Str := ["show".toList, "-s".toList, "--format=%ci".toList, "HEAD".toList]

/-- `git_pieces_from_vcs(tag_prefix, root, verbose)` with its commands: gcs/_version.py:217-305. -/
def piecesRun (sys : System) (win32 : Bool) (tagPrefix : Str) : VerM Pieces := do
  let r ← runCommand sys (gits win32) argsGitDir
  if r.2 ≠ some 0 then .error .notThisMethod
  else
    match (← runCommand sys (gits win32) (argsDescribe tagPrefix)).1 with
    | none => .error .notThisMethod
    | some out =>
      let describeOut := strip out
      match (← runCommand sys (gits win32) argsHead).1 with
      | none => .error .notThisMethod
      | some out =>
        let fullOut := strip out
        let dirty := "-dirty".toList.isSuffixOf describeOut
        let d := if dirty then describeOut.take (describeOut.length - 6) else describeOut
        let pieces : Pieces :=
          { long := fullOut, short := fullOut.take 7, error := none, dirty := dirty, closestTag := none, distance := 0,
            date := none }
        if '-' ∈ d then
          match matchDescribe d with
          | none =>
            return { pieces with
              error := some ("unable to parse git-describe output: '".toList ++ describeOut ++ "'".toList) }
          | some (fullTag, num, hex) =>
            if tagPrefix.isPrefixOf fullTag then
              let distance ← parseInt num
              let date ← commitDate
              return { pieces with closestTag := some (fullTag.drop tagPrefix.length), distance := distance,
                                   short := hex, date := some date }
            else
              return { pieces with
                error := some ("tag '".toList ++ fullTag ++ "' doesn't start with prefix '".toList ++ tagPrefix ++
                  "'".toList) }
        else
          -- `int(None)` is a TypeError; `int` takes white space around the digits
          let distance ← match (← runCommand sys (gits win32) argsCount).1 with
            | none => .error (.raised .type)
            | some c => parseInt (strip c)
          let date ← commitDate
          return { pieces with distance := distance, date := some date }
where
  /-- gcs/_version.py:301-303.  `None.strip()` is an AttributeError. -/
  commitDate : VerM Str := do
    match (← runCommand sys (gits win32) argsDate).1 with
    | none => .error (.raised .attribute)
    | some d => .ok (isoDate (strip (strip d)))

end Version
end Gcs
