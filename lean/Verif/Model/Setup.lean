/-
Model of the installer of versioneer.py: `do_setup`, `do_vcs_install` and `scan_setup_py`.  Text is a list of characters.

Simplifications: a file is its text, or `none` if it does not exist (a file that exists can be read and written); the files are
different ones; the current directory is the root; the configuration is an input (the module configparser is not modelled), as is the
filled-in template of the version file; white space as in Model/Version.lean; files have line feeds only; printing is left out.
-/
import Verif.Model.Keywords

namespace Gcs
namespace Version

/-- The files that `do_setup` reads and writes: versioneer.py:1697-1776. -/
structure Tree where
  setupCfg : Option Str
  version : Option Str
  init : Option Str
  manifest : Option Str
  attributes : Option Str
  deriving DecidableEq, Repr

/-- The files, as named in the call of git: versioneer.py:1129-1139, 1154. -/
inductive File where
  | version | init | manifest | attributes | versioneer
  deriving DecidableEq, Repr

/-- What reading the configuration gives: versioneer.py:1700-1710.  `absent`: no file or no section; `incomplete`: no VCS. -/
inductive ConfigRead where
  | absent
  | incomplete
  | found (source : Str)
  deriving DecidableEq, Repr

/-- `SAMPLE_CONFIG`: versioneer.py:1675-1688. -/
def sampleConfig : Str :=
  ("\n# See the docstring in versioneer.py for instructions. Note that you must\n" ++
   "# re-run 'versioneer.py setup' after changing this section, and commit the\n" ++
   "# resulting files.\n\n[versioneer]\n#VCS = git\n#style = pep440\n#versionfile_source =\n" ++
   "#versionfile_build =\n#tag_prefix =\n#parentdir_prefix =\n\n").toList

/-- `INIT_PY_SNIPPET`: versioneer.py:1690-1694. -/
def initSnippet : Str :=
  "\nfrom ._version import get_versions\n__version__ = get_versions()['version']\ndel get_versions\n".toList

/-- `p in s` for texts. -/
def occursIn (p : Str) : Str → Bool
  | [] => p.isEmpty
  | c :: s => p.isPrefixOf (c :: s) || occursIn p s

/-- `s.split()`, after the characters `word` of a word that has begun. -/
def wordsFrom (word : Str) : Str → List Str
  | [] => if word = [] then [] else [word]
  | c :: s =>
    if isSpace c then
      if word = [] then wordsFrom [] s else word :: wordsFrom [] s
    else wordsFrom (word ++ [c]) s

/-- `s.split()`. -/
def words (s : Str) : List Str := wordsFrom [] s

/-- Opening a file for appending and writing a text. -/
def append (file : Option Str) (text : Str) : Option Str := some (file.getD [] ++ text)

/-- The step for `__init__.py`: versioneer.py:1722-1738. -/
def setupInit : Option Str → Option Str
  | none => none
  | some old => if occursIn initSnippet old then some old else append (some old) initSnippet

/-- `simple_includes`: versioneer.py:1745-1753. -/
def simpleIncludes (manifest : Option Str) : List Str :=
  match manifest with
  | none => []
  | some text => (readLines text).flatMap fun line => if "include ".toList.isPrefixOf line then (words line).drop 1 else []

/-- The step for `MANIFEST.in`: versioneer.py:1744-1770. -/
def setupManifest (source : Str) (manifest : Option Str) : Option Str :=
  let includes := simpleIncludes manifest
  let m := if "versioneer.py".toList ∈ includes then manifest else append manifest "include versioneer.py\n".toList
  if source ∈ includes then m else append m ("include ".toList ++ (source ++ ['\n']))

/-- `present`: versioneer.py:1140-1149. -/
def attributePresent (source : Str) (attributes : Option Str) : Bool :=
  match attributes with
  | none => false
  | some text => (readLines text).any fun line =>
      source.isPrefixOf (strip line) && decide ("export-subst".toList ∈ (words (strip line)).drop 1)

/-- `do_vcs_install(manifest_in, versionfile_source, ipy)`: the new `.gitattributes` and the files given to `git add`:
versioneer.py:1120-1155. -/
def doVcsInstall (source : Str) (attributes : Option Str) (ipy : Bool) : Option Str × List File :=
  let files := [.manifest, .version] ++ (if ipy then [.init] else []) ++ [.versioneer]
  if attributePresent source attributes then (attributes, files)
  else (append attributes (source ++ " export-subst\n".toList), files ++ [.attributes])

/-- `do_setup()`: the tree, the files given to `git add` and the returned number; `long` is the text of the new version file.
versioneer.py:1697-1776. -/
def doSetup (cfg : ConfigRead) (long : Str) (t : Tree) : Tree × List File × Nat :=
  match cfg with
  | .absent => ({ t with setupCfg := append t.setupCfg sampleConfig }, [], 1)
  | .incomplete => (t, [], 1)
  | .found source =>
    let init := setupInit t.init
    let (attributes, files) := doVcsInstall source t.attributes init.isSome
    ({ t with version := some long, init := init, manifest := setupManifest source t.manifest, attributes := attributes }, files, 0)

/-- The loop of `scan_setup_py`: is the text in one of the lines?  versioneer.py:1784-1795. -/
def inSomeLine (p text : Str) : Bool := (readLines text).any fun line => occursIn p line

/-- `scan_setup_py()`: versioneer.py:1779-1813. -/
def scanSetupPy (text : Str) : Nat :=
  let found := (if inSomeLine "import versioneer".toList text then 1 else 0) +
    (if inSomeLine "versioneer.get_cmdclass()".toList text then 1 else 0) +
    (if inSomeLine "versioneer.get_version()".toList text then 1 else 0)
  let setters := inSomeLine "versioneer.VCS".toList text || inSomeLine "versioneer.versionfile_source".toList text
  (if found ≠ 3 then 1 else 0) + (if setters then 1 else 0)

end Version
end Gcs
