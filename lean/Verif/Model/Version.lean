/-
Model of gcs/_version.py: the version string of the package.  Text is a list of characters.  What git
prints is an input (`Git`); everything the module does with it is modelled.

Simplifications: digits and hexadecimal digits are the ASCII ones (`\d` and `int()` know other digits as well);
`int(text)` accepts decimal digits only (no sign, no underscore); printing under `verbose` is left out.
-/
import Verif.Model.Py

namespace Gcs
namespace Version

/-- Python text. -/
abbrev Str := List Char

/-- What stops a function of the module: its own `NotThisMethod` (gcs/_version.py:51-52), or an exception
of Python. -/
inductive Stop where
  | notThisMethod
  | raised (e : PyErr)
  deriving DecidableEq, Repr

/-- A computation of the module. -/
abbrev VerM (α : Type) := Except Stop α

/-- White space, as `str.strip()` removes it and `str.split()` splits at it (the characters for which `str.isspace()`
is true). -/
def isSpace (c : Char) : Bool :=
  (9 ≤ c.toNat && c.toNat ≤ 13) || (28 ≤ c.toNat && c.toNat ≤ 32) || c.toNat == 0x85 || c.toNat == 0xa0 ||
    c.toNat == 0x1680 || (0x2000 ≤ c.toNat && c.toNat ≤ 0x200a) || c.toNat == 0x2028 || c.toNat == 0x2029 ||
    c.toNat == 0x202f || c.toNat == 0x205f || c.toNat == 0x3000

/-- `[0-9a-f]`. -/
def isHex (c : Char) : Bool := c.isDigit || ('a' ≤ c && c ≤ 'f')

/-- `s.strip(chars)`: what satisfies `p` is removed from both ends. -/
def stripBy (p : Char → Bool) (s : Str) : Str := ((s.dropWhile p).reverse.dropWhile p).reverse

/-- `s.strip()`. -/
def strip (s : Str) : Str := stripBy isSpace s

/-- `s.split(c)`. -/
def split (c : Char) : Str → List Str
  | [] => [[]]
  | x :: s =>
    if x = c then [] :: split c s
    else
      match split c s with
      | [] => [[x]]
      | t :: ts => (x :: t) :: ts

/-- `s.replace(c, new, 1)`: the first occurrence. -/
def replaceFirst (c : Char) (new : Str) : Str → Str
  | [] => []
  | x :: s => if x = c then new ++ s else x :: replaceFirst c new s

/-- Order of texts: by code points, lexicographic. -/
def strLe : Str → Str → Bool
  | [], _ => true
  | _ :: _, [] => false
  | a :: s, b :: t => if a = b then strLe s t else a.toNat < b.toNat

/-- One step of sorting. -/
def insertStr (a : Str) : List Str → List Str
  | [] => [a]
  | b :: l => if strLe a b then a :: b :: l else b :: insertStr a l

/-- `sorted(list of texts)`. -/
def sortStr (l : List Str) : List Str := l.foldr insertStr []

/-- `"%d" % n`. -/
def dec (n : Nat) : Str := Nat.toDigits 10 n

/-- `int(text)`. -/
def parseInt (s : Str) : VerM Nat :=
  if s ≠ [] ∧ s.all Char.isDigit then .ok (Nat.ofDigitChars 10 s 0) else .error (.raised .value)

/-- `date.strip().replace(" ", "T", 1).replace(" ", "", 1)`: gcs/_version.py:174, 303. -/
def isoDate (date : Str) : Str := replaceFirst ' ' [] (replaceFirst ' ' ['T'] (strip date))

/-- The dictionary of keywords that git-archive expands: gcs/_version.py:20-30. -/
structure Keywords where
  refnames : Str
  full : Str
  date : Option Str

/-- The keywords of a file that git-archive has not touched: gcs/_version.py:26-28. -/
def unexpanded : Keywords where
  refnames := "$Format:%d$".toList
  full := "$Format:%H$".toList
  date := some "$Format:%ci$".toList

/-- The configuration: gcs/_version.py:37-48. -/
structure Config where
  style : Str
  tagPrefix : Str
  parentdirPrefix : Str

/-- `get_config()`: gcs/_version.py:37-48. -/
def config : Config where
  style := "pep440".toList
  tagPrefix := "v".toList
  parentdirPrefix := []

/-- The dictionary that `get_versions` returns. -/
structure Info where
  version : Str
  full : Option Str
  dirty : Option Bool
  error : Option Str
  date : Option Str
  deriving DecidableEq, Repr

/-- `versions_from_parentdir(parentdir_prefix, root, verbose)`: gcs/_version.py:107-129.  The path is given by
its components, the last one first; above the root of the file system there is the root again. -/
def versionsFromParentdir (pre : Str) (root : List Str) : VerM Info :=
  go 3 root
where
  go : Nat → List Str → VerM Info
    | 0, _ => .error .notThisMethod
    | n + 1, root =>
      let dirname := root.headD []
      if pre.isPrefixOf dirname then
        .ok { version := dirname.drop pre.length, full := none, dirty := some false, error := none, date := none }
      else go n root.tail

/-- The tags among the references: gcs/_version.py:180-193. -/
def likelyTags (refnames : Str) : List Str :=
  let refs := (split ',' (stripBy (fun c => c == '(' || c == ')') refnames)).map strip
  let tags := (refs.filter fun r => "tag: ".toList.isPrefixOf r).map (·.drop 5)
  if tags.isEmpty then refs.filter fun r => r.any Char.isDigit else tags

/-- `git_versions_from_keywords(keywords, tag_prefix, verbose)`: gcs/_version.py:162-213.  The sets of
references are lists here: a repeated reference changes nothing for the first match in the sorted list. -/
def versionsFromKeywords (k : Keywords) (tagPrefix : Str) : VerM Info :=
  let date := k.date.map isoDate
  let refnames := strip k.refnames
  if "$Format".toList.isPrefixOf refnames then .error .notThisMethod
  else
    match (sortStr (likelyTags refnames)).find? fun ref => tagPrefix.isPrefixOf ref with
    | some ref =>
      .ok { version := ref.drop tagPrefix.length, full := some (strip k.full), dirty := some false, error := none,
            date := date }
    | none =>
      .ok { version := "0+unknown".toList, full := some (strip k.full), dirty := some false,
            error := some "no suitable tags".toList, date := none }

/-- What the git commands print: `none` if the command fails (or there is no git).
gcs/_version.py:70-104 (`run_command`), 228, 237, 245, 296, 301. -/
structure Git where
  /-- `git rev-parse --git-dir` succeeds. -/
  gitDir : Bool
  /-- `git describe --tags --dirty --always --long --match v*`. -/
  describe : Option Str
  /-- `git rev-parse HEAD`. -/
  head : Option Str
  /-- `git rev-list HEAD --count`. -/
  count : Option Str
  /-- `git show -s --format=%ci HEAD`. -/
  date : Option Str

/-- The dictionary `pieces`.  The three last items are missing from the dictionary if `error` is set; no one
looks at them then. -/
structure Pieces where
  long : Str
  short : Str
  error : Option Str
  dirty : Bool
  closestTag : Option Str
  distance : Nat
  date : Option Str
  deriving DecidableEq, Repr

/-- `$` of a pattern also matches before a line break at the end. -/
def dropNewline (s : Str) : Str := if s.getLast? = some '\n' then s.dropLast else s

/-- `re.search(r'^(.+)-(\d+)-g([0-9a-f]+)$', s)`: gcs/_version.py:269.  Read from the end: neither of the two
last groups can contain a hyphen, `g` is not hexadecimal and the hyphen is not a digit, so each of them is the
longest run of its characters. -/
def matchDescribe (s : Str) : Option (Str × Str × Str) :=
  let r := (dropNewline s).reverse
  let hex := r.takeWhile isHex
  match r.dropWhile isHex with
  | 'g' :: '-' :: r' =>
    let num := r'.takeWhile Char.isDigit
    match r'.dropWhile Char.isDigit with
    | '-' :: tag =>
      if hex ≠ [] ∧ num ≠ [] ∧ tag ≠ [] ∧ '\n' ∉ tag then some (tag.reverse, num.reverse, hex.reverse) else none
    | _ => none
  | _ => none

/-- `git_pieces_from_vcs(tag_prefix, root, verbose)`: gcs/_version.py:217-305. -/
def piecesFromVcs (tagPrefix : Str) (g : Git) : VerM Pieces :=
  if g.gitDir = false then .error .notThisMethod
  else
    match g.describe.map strip with
    | none => .error .notThisMethod
    | some describeOut =>
      match g.head.map strip with
      | none => .error .notThisMethod
      | some fullOut => do
        let dirty := "-dirty".toList.isSuffixOf describeOut
        -- `rindex` finds the occurrence at the end
        let d := if dirty then describeOut.take (describeOut.length - 6) else describeOut
        let pieces : Pieces :=
          { long := fullOut, short := fullOut.take 7, error := none, dirty := dirty, closestTag := none, distance := 0,
            date := none }
        if '-' ∈ d then
          match matchDescribe d with
          | none =>
            return { pieces with
              error := some ("unable to parse git-describe output: '".toList ++ describeOut ++ "'".toList) }
          | some (fullTag, num, hex) =>
            if tagPrefix.isPrefixOf fullTag then
              let distance ← parseInt num
              let date ← finish g
              return { pieces with closestTag := some (fullTag.drop tagPrefix.length), distance := distance,
                                   short := hex, date := some date }
            else
              return { pieces with
                error := some ("tag '".toList ++ fullTag ++ "' doesn't start with prefix '".toList ++ tagPrefix ++
                  "'".toList) }
        else
          -- `int(None)` is a TypeError
          let distance ← match g.count.map strip with
            | none => .error (.raised .type)
            | some c => parseInt c
          let date ← finish g
          return { pieces with distance := distance, date := some date }
where
  /-- gcs/_version.py:301-303.  `None.strip()` is an AttributeError. -/
  finish (g : Git) : VerM Str :=
    match g.date.map strip with
    | none => .error (.raised .attribute)
    | some d => .ok (isoDate (strip d))

/-- A tag that counts as true in Python: not `None`, not empty. -/
def Pieces.tag (p : Pieces) : Option Str :=
  match p.closestTag with
  | some [] => none
  | t => t

/-- `plus_or_dot(pieces)`: gcs/_version.py:308-312, called for a tag that is there. -/
def plusOrDot (tag : Str) : Str := if '+' ∈ tag then ".".toList else "+".toList

/-- `render_pep440(pieces)`: gcs/_version.py:315-337. -/
def renderPep440 (p : Pieces) : Str :=
  match p.tag with
  | some tag =>
    if p.distance ≠ 0 ∨ p.dirty then
      tag ++ plusOrDot tag ++ dec p.distance ++ ".g".toList ++ p.short ++ (if p.dirty then ".dirty".toList else [])
    else tag
  | none =>
    "0+untagged.".toList ++ dec p.distance ++ ".g".toList ++ p.short ++ (if p.dirty then ".dirty".toList else [])

/-- `render_pep440_pre(pieces)`: gcs/_version.py:340-353. -/
def renderPep440Pre (p : Pieces) : Str :=
  match p.tag with
  | some tag => if p.distance ≠ 0 then tag ++ ".post.dev".toList ++ dec p.distance else tag
  | none => "0.post.dev".toList ++ dec p.distance

/-- `render_pep440_post(pieces)`: gcs/_version.py:356-380. -/
def renderPep440Post (p : Pieces) : Str :=
  match p.tag with
  | some tag =>
    if p.distance ≠ 0 ∨ p.dirty then
      tag ++ ".post".toList ++ dec p.distance ++ (if p.dirty then ".dev0".toList else []) ++ plusOrDot tag ++
        "g".toList ++ p.short
    else tag
  | none =>
    "0.post".toList ++ dec p.distance ++ (if p.dirty then ".dev0".toList else []) ++ "+g".toList ++ p.short

/-- `render_pep440_old(pieces)`: gcs/_version.py:383-402. -/
def renderPep440Old (p : Pieces) : Str :=
  match p.tag with
  | some tag =>
    if p.distance ≠ 0 ∨ p.dirty then
      tag ++ ".post".toList ++ dec p.distance ++ (if p.dirty then ".dev0".toList else [])
    else tag
  | none => "0.post".toList ++ dec p.distance ++ (if p.dirty then ".dev0".toList else [])

/-- `render_git_describe(pieces)`: gcs/_version.py:405-422. -/
def renderGitDescribe (p : Pieces) : Str :=
  (match p.tag with
   | some tag => if p.distance ≠ 0 then tag ++ "-".toList ++ dec p.distance ++ "-g".toList ++ p.short else tag
   | none => p.short) ++ (if p.dirty then "-dirty".toList else [])

/-- `render_git_describe_long(pieces)`: gcs/_version.py:425-442. -/
def renderGitDescribeLong (p : Pieces) : Str :=
  (match p.tag with
   | some tag => tag ++ "-".toList ++ dec p.distance ++ "-g".toList ++ p.short
   | none => p.short) ++ (if p.dirty then "-dirty".toList else [])

/-- `render(pieces, style)`: gcs/_version.py:445-474. -/
def render (p : Pieces) (style : Str) : VerM Info :=
  match p.error with
  | some e => .ok { version := "unknown".toList, full := some p.long, dirty := none, error := some e, date := none }
  | none => do
    let style := if style = [] ∨ style = "default".toList then "pep440".toList else style
    let rendered ←
      if style = "pep440".toList then .ok (renderPep440 p)
      else if style = "pep440-pre".toList then .ok (renderPep440Pre p)
      else if style = "pep440-post".toList then .ok (renderPep440Post p)
      else if style = "pep440-old".toList then .ok (renderPep440Old p)
      else if style = "git-describe".toList then .ok (renderGitDescribe p)
      else if style = "git-describe-long".toList then .ok (renderGitDescribeLong p)
      else .error (.raised .value)
    return { version := rendered, full := some p.long, dirty := some p.dirty, error := none, date := p.date }

/-- `except NotThisMethod: pass`. -/
def orElse {α : Type} (x y : VerM α) : VerM α :=
  match x with
  | .error .notThisMethod => y
  | x => x

/-- `get_versions()`: gcs/_version.py:477-520, for given keywords, configuration, output of git and path of the
root of the tree (`none` if `__file__` is not defined). -/
def getVersions (k : Keywords) (cfg : Config) (g : Git) (root : Option (List Str)) : VerM Info :=
  orElse (versionsFromKeywords k cfg.tagPrefix)
    (match root with
     | none =>
       .ok { version := "0+unknown".toList, full := none, dirty := none,
             error := some "unable to find root of source tree".toList, date := none }
     | some root =>
       orElse (do render (← piecesFromVcs cfg.tagPrefix g) cfg.style)
         (orElse
           (if cfg.parentdirPrefix ≠ [] then versionsFromParentdir cfg.parentdirPrefix root else .error .notThisMethod)
           (.ok { version := "0+unknown".toList, full := none, dirty := none,
                  error := some "unable to compute version".toList, date := none })))

end Version
end Gcs
