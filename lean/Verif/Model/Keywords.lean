/-
Model of how the expanded keywords are read: by `git_get_keywords` of gcs/_version.py (the function `setup.py` uses, through its
copy in versioneer.py), and by Python when it evaluates `get_keywords`.  Text is a list of characters.

Simplifications: white space as in Model/Version.lean; the file has line feeds only (Python translates other line ends).
-/
import Verif.Model.Version

namespace Gcs
namespace Version

/-- The dictionary that `git_get_keywords` fills: a key may be missing.  gcs/_version.py:139. -/
structure FoundKeywords where
  refnames : Option Str := none
  full : Option Str := none
  date : Option Str := none
  deriving DecidableEq, Repr

/-- `f.readlines()`: the lines with their line feeds.  gcs/_version.py:142. -/
def readLines : Str → List Str
  | [] => []
  | c :: s =>
    if c = '\n' then ['\n'] :: readLines s
    else
      match readLines s with
      | [] => [[c]]
      | l :: ls => (c :: l) :: ls

/-- The group of `=\s*"(.*)"` at the beginning of the text: from the first quote to the last one of the line. -/
def matchAssign : Str → Option Str
  | '=' :: s =>
    match s.dropWhile isSpace with
    | '"' :: t =>
      match (t.takeWhile (· ≠ '\n')).reverse.dropWhile (· ≠ '"') with
      | _ :: r => some r.reverse
      | [] => none
    | _ => none
  | _ => none

/-- `re.search(r'=\s*"(.*)"', line)`, the group: gcs/_version.py:144, 148, 152. -/
def searchAssign : Str → Option Str
  | [] => none
  | c :: s =>
    match matchAssign (c :: s) with
    | some r => some r
    | none => searchAssign s

/-- `if line.strip().startswith(start)` and the assignment below it: gcs/_version.py:143-154. -/
def keywordIn (start line : Str) (old : Option Str) : Option Str :=
  if start.isPrefixOf (strip line) then
    match searchAssign line with
    | some r => some r
    | none => old
  else old

/-- The body of the loop: gcs/_version.py:142-154. -/
def keywordsStep (k : FoundKeywords) (line : Str) : FoundKeywords :=
  ⟨keywordIn "git_refnames =".toList line k.refnames, keywordIn "git_full =".toList line k.full,
    keywordIn "git_date =".toList line k.date⟩

/-- `git_get_keywords(versionfile_abs)`: gcs/_version.py:133-158.  `none` is a file that cannot be read. -/
def gitGetKeywords (file : Option Str) : FoundKeywords :=
  match file with
  | none => {}
  | some text => (readLines text).foldl keywordsStep {}

/-- Python reads a text literal after its opening quote: the literal and what follows its closing quote.  `none`: a line end or a
backslash comes first (an error, or an escape, which is not modelled). -/
def readLiteral : Str → Option (Str × Str)
  | [] => none
  | c :: s =>
    if c = '"' then some ([], s)
    else if c = '\\' || c = '\n' then none
    else
      match readLiteral s with
      | some (r, rest) => some (c :: r, rest)
      | none => none

/-- The value of `name = "text"` where git has put `text` in: gcs/_version.py:26-28.  `none`: something other than white space
follows the literal, which Python reads as code (not modelled), or the text has a line end or a backslash. -/
def evalAssign (text : Str) : Option Str :=
  match readLiteral (text ++ ['"', '\n']) with
  | some (r, rest) => if rest.all isSpace then some r else none
  | none => none

/-- `get_keywords()` in a file where git has put in the three texts: gcs/_version.py:20-30. -/
def getKeywords (refnames full date : Str) : Option Keywords :=
  match evalAssign refnames, evalAssign full, evalAssign date with
  | some r, some f, some d => some ⟨r, f, some d⟩
  | _, _, _ => none

end Version
end Gcs
