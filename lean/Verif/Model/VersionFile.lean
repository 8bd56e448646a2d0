/-
Model of the version file of a distribution: versioneer.py writes it (`write_to_version_file`), `setup.py` of the unpacked
distribution reads it with a regular expression (`versions_from_file`), and the installed package by running it.  Included are the
parts of the module `json` and of Python's text literals that are involved.  Text is a list of characters.

Simplifications: the values of the dictionary are texts, `None` and booleans; `json.loads` is modelled for objects of such values
(other documents count as errors); files have line feeds only (Python translates other line ends); a result that would hold half
of a surrogate pair counts as an error (no list of characters has it).
-/
import Verif.Model.Keywords

namespace Gcs
namespace Version

/-- The values in the dictionary of a version: gcs/_version.py:471-474, for example. -/
inductive JVal where
  | str (s : Str)
  | null
  | bool (b : Bool)
  deriving DecidableEq, Repr

/-- A dictionary with texts as keys, in the order of insertion.  A later pair with the same key counts. -/
abbrev Dict := List (Str × JVal)

/-- `d.get(key)`. -/
def Dict.get (d : Dict) (key : Str) : Option JVal := (d.reverse.find? fun e => e.1 == key).map (·.2)

/-- A text or `None`. -/
def optStr : Option Str → JVal
  | some s => .str s
  | none => .null

/-- The dictionary of a version, with its keys: gcs/_version.py:471-474. -/
def Info.dict (i : Info) : Dict :=
  [("version".toList, .str i.version), ("full-revisionid".toList, optStr i.full),
    ("dirty".toList, match i.dirty with | some b => .bool b | none => .null), ("error".toList, optStr i.error),
    ("date".toList, optStr i.date)]

/-! ### `json.dumps` -/

/-- `'\\u{0:04x}'.format(n)`: module json, encoder.py. -/
def jsonU (n : Nat) : Str :=
  ['\\', 'u', Nat.digitChar (n / 4096), Nat.digitChar (n / 256 % 16), Nat.digitChar (n / 16 % 16), Nat.digitChar (n % 16)]

/-- How `json.dumps` writes a character: module json, encoder.py, `py_encode_basestring_ascii`. -/
def jsonChar (c : Char) : Str :=
  if c = '"' then ['\\', '"']
  else if c = '\\' then ['\\', '\\']
  else if c = '\n' then ['\\', 'n']
  else if c = '\r' then ['\\', 'r']
  else if c = '\t' then ['\\', 't']
  else if c = '\x0c' then ['\\', 'f']
  else if c = '\x08' then ['\\', 'b']
  else if 32 ≤ c.toNat ∧ c.toNat ≤ 126 then [c]
  else if c.toNat < 0x10000 then jsonU c.toNat
  else jsonU (0xd800 + (c.toNat - 0x10000) / 1024) ++ jsonU (0xdc00 + (c.toNat - 0x10000) % 1024)

/-- A text in the document: module json, encoder.py. -/
def jsonStr (s : Str) : Str := '"' :: (s.flatMap jsonChar ++ ['"'])

/-- A value in the document: module json, encoder.py. -/
def jsonVal : JVal → Str
  | .str s => jsonStr s
  | .null => "null".toList
  | .bool true => "true".toList
  | .bool false => "false".toList

/-- The items of a dictionary, for `indent=1, separators=(",", ": ")`: module json, encoder.py, `_iterencode_dict`. -/
def jsonItems : Dict → Str
  | [] => []
  | [(k, v)] => jsonStr k ++ (':' :: ' ' :: jsonVal v)
  | (k, v) :: e :: d => jsonStr k ++ (':' :: ' ' :: (jsonVal v ++ (',' :: '\n' :: ' ' :: jsonItems (e :: d))))

/-- One step of sorting. -/
def insertItem (a : Str × JVal) : Dict → Dict
  | [] => [a]
  | b :: l => if strLe a.1 b.1 then a :: b :: l else b :: insertItem a l

/-- `sorted(dct.items())`. -/
def sortItems (d : Dict) : Dict := d.foldr insertItem []

/-- `json.dumps(versions, sort_keys=True, indent=1, separators=(",", ": "))`: versioneer.py:1221-1222. -/
def dumps (d : Dict) : Str :=
  match sortItems d with
  | [] => ['{', '}']
  | d => '{' :: '\n' :: ' ' :: (jsonItems d ++ ['\n', '}'])

/-! ### `json.loads` -/

/-- A hexadecimal digit. -/
def hexVal (c : Char) : Option Nat :=
  if c.isDigit then some (c.toNat - 48)
  else if 'a' ≤ c ∧ c ≤ 'f' then some (c.toNat - 87)
  else if 'A' ≤ c ∧ c ≤ 'F' then some (c.toNat - 55)
  else none

/-- Four hexadecimal digits, and what follows. -/
def scanHex : Str → Option (Nat × Str)
  | a :: b :: c :: d :: s =>
    match hexVal a, hexVal b, hexVal c, hexVal d with
    | some x, some y, some z, some w => some (x * 4096 + y * 256 + z * 16 + w, s)
    | _, _, _, _ => none
  | _ => none

/-- The character with the code point; a surrogate is none. -/
def charOf (n : Nat) : Option Char := if n < 0xd800 ∨ 0xdfff < n ∧ n < 0x110000 then some (Char.ofNat n) else none

/-- After `\u` in a document: a character of one or, if the first is a high surrogate and a low one follows, of two `\uXXXX`:
module json, decoder.py, `py_scanstring`. -/
def scanU (s : Str) : Option (Char × Str) :=
  match scanHex s with
  | none => none
  | some (n, '\\' :: 'u' :: t) =>
    if 0xd800 ≤ n ∧ n ≤ 0xdbff then
      match scanHex t with
      | none => none
      | some (m, t) =>
        if 0xdc00 ≤ m ∧ m ≤ 0xdfff then some (Char.ofNat (0x10000 + ((n - 0xd800) * 1024 + (m - 0xdc00))), t) else none
    else (charOf n).map (·, '\\' :: 'u' :: t)
  | some (n, t) => (charOf n).map (·, t)

/-- The escapes of one character: module json, decoder.py, `BACKSLASH`. -/
def jsonEscape (c : Char) : Option Char :=
  if c = '"' then some '"'
  else if c = '\\' then some '\\'
  else if c = '/' then some '/'
  else if c = 'b' then some '\x08'
  else if c = 'f' then some '\x0c'
  else if c = 'n' then some '\n'
  else if c = 'r' then some '\r'
  else if c = 't' then some '\t'
  else none

/-- One character of a text of a document, which is not its closing quote.  Characters below the blank are refused. -/
def scanChar : Str → Option (Char × Str)
  | [] => none
  | c :: s =>
    if c = '\\' then
      match s with
      | [] => none
      | e :: s => if e = 'u' then scanU s else (jsonEscape e).map (·, s)
    else if c.toNat < 32 then none
    else some (c, s)

/-- A text of a document, after its opening quote, and what follows its closing quote; at most `n` steps: module json,
decoder.py, `py_scanstring`. -/
def scanString : Nat → Str → Option (Str × Str)
  | 0, _ => none
  | _ + 1, [] => none
  | n + 1, c :: s =>
    if c = '"' then some ([], s)
    else
      match scanChar (c :: s) with
      | none => none
      | some (x, s) =>
        match scanString n s with
        | none => none
        | some (r, s) => some (x :: r, s)

/-- White space of a document is skipped: module json, decoder.py, `WHITESPACE`. -/
def skipWs (s : Str) : Str := s.dropWhile fun c => c == ' ' || c == '\t' || c == '\n' || c == '\r'

/-- A character that has to come next. -/
def expect (c : Char) : Str → Option Str
  | [] => none
  | x :: s => if x = c then some s else none

/-- A value: module json, scanner.py. -/
def scanValue (s : Str) : Option (JVal × Str) :=
  match expect '"' s with
  | some t => (scanString (t.length + 1) t).map fun r => (.str r.1, r.2)
  | none =>
    if "null".toList.isPrefixOf s then some (.null, s.drop 4)
    else if "true".toList.isPrefixOf s then some (.bool true, s.drop 4)
    else if "false".toList.isPrefixOf s then some (.bool false, s.drop 5)
    else none

/-- The pairs of an object, after the opening quote of the first key, to the closing brace; at most `n` pairs: module json,
decoder.py, `JSONObject`. -/
def scanPairs : Nat → Str → Option (Dict × Str)
  | 0, _ => none
  | n + 1, s =>
    match scanString (s.length + 1) s with
    | none => none
    | some (k, s) =>
      match expect ':' (skipWs s) with
      | none => none
      | some s =>
        match scanValue (skipWs s) with
        | none => none
        | some (v, s) =>
          match expect '}' (skipWs s) with
          | some s => some ([(k, v)], s)
          | none =>
            match expect ',' (skipWs s) with
            | none => none
            | some s =>
              match expect '"' (skipWs s) with
              | none => none
              | some s =>
                match scanPairs n s with
                | none => none
                | some (d, s) => some ((k, v) :: d, s)

/-- An object, and what follows: module json, decoder.py, `JSONObject`. -/
def scanObject (s : Str) : Option (Dict × Str) :=
  match expect '{' s with
  | none => none
  | some s =>
    match expect '}' (skipWs s) with
    | some s => some ([], s)
    | none =>
      match expect '"' (skipWs s) with
      | none => none
      | some s => scanPairs (s.length + 1) s

/-- `json.loads(s)`: module json, decoder.py, `decode`.  `none` is a ValueError. -/
def loads (s : Str) : Option Dict :=
  match scanObject (skipWs s) with
  | none => none
  | some (d, s) => if skipWs s = [] then some d else none

/-! ### The file -/

/-- `SHORT_VERSION_PY`, the comments and the import: versioneer.py:1183-1189. -/
def fileComments : Str :=
  "\n# This file was generated by 'versioneer.py' (0.18) from\n# revision-control system data, or from the parent directory name of an\n# unpacked source archive. Distribution tarballs contain a pre-generated copy\n# of this file.\n\nimport json\n\n".toList

/-- `SHORT_VERSION_PY` before the text that is put in: versioneer.py:1183-1190. -/
def fileHead : Str := fileComments ++ "version_json = '''\n".toList

/-- `SHORT_VERSION_PY` after the literal: versioneer.py:1192-1198. -/
def fileRest : Str := "  # END VERSION_JSON\n\n\ndef get_versions():\n    return json.loads(version_json)\n".toList

/-- `write_to_version_file(filename, versions)`, the contents of the file: versioneer.py:1218-1226. -/
def versionFile (versions : Dict) : Str := fileHead ++ (dumps versions ++ ('\n' :: '\'' :: '\'' :: '\'' :: fileRest))

/-- What follows the first occurrence of `p`. -/
def afterFirst (p : Str) : Str → Option Str
  | [] => if p = [] then some [] else none
  | c :: s => if p.isPrefixOf (c :: s) then some ((c :: s).drop p.length) else afterFirst p s

/-- What is before the last occurrence of `p`: the group of `(.*)p`. -/
def beforeLast (p : Str) : Str → Option Str
  | [] => if p = [] then some [] else none
  | c :: s =>
    match beforeLast p s with
    | some r => some (c :: r)
    | none => if p.isPrefixOf (c :: s) then some [] else none

/-- `re.search(start + r"(.*)'''  # END VERSION_JSON", contents, re.M | re.S)`, the group: versioneer.py:1208-1212.  If there is
a match then there is one from the first occurrence of `start`. -/
def searchJson (start contents : Str) : Option Str :=
  match afterFirst start contents with
  | some s => beforeLast "'''  # END VERSION_JSON".toList s
  | none => none

/-- `versions_from_file(filename)`: versioneer.py:1201-1215.  `none` is a file that cannot be read. -/
def versionsFromFile (file : Option Str) : VerM Dict :=
  match file with
  | none => .error .notThisMethod
  | some contents =>
    match (match searchJson "version_json = '''\n".toList contents with
      | some t => some t
      | none => searchJson "version_json = '''\r\n".toList contents) with
    | none => .error .notThisMethod
    | some t =>
      match loads t with
      | some d => .ok d
      | none => .error (.raised .value)

/-! ### The file as a Python module -/

/-- The escapes of one character in a Python literal (`\x`, `\N`, `\U` and octal ones are not modelled). -/
def pyEscape (c : Char) : Option Str :=
  if c = '\n' then some []
  else if c = '\\' ∨ c = '\'' ∨ c = '"' then some [c]
  else if c = 'a' then some ['\x07']
  else if c = 'b' then some ['\x08']
  else if c = 'f' then some ['\x0c']
  else if c = 'n' then some ['\n']
  else if c = 'r' then some ['\r']
  else if c = 't' then some ['\t']
  else if c = 'v' then some ['\x0b']
  else if c = 'x' ∨ c = 'N' ∨ c = 'U' ∨ c.isDigit then none
  else some ['\\', c]

/-- One character or escape of a Python literal. -/
def pyChar : Str → Option (Str × Str)
  | [] => none
  | c :: s =>
    if c = '\\' then
      match s with
      | [] => none
      | e :: s =>
        if e = 'u' then
          match scanHex s with
          | some (n, s) => (charOf n).map fun c => ([c], s)
          | none => none
        else (pyEscape e).map (·, s)
    else some ([c], s)

/-- A literal in three single quotes, after the opening ones: its value and what follows the closing ones; at most `n` steps. -/
def pyLiteral : Nat → Str → Option (Str × Str)
  | 0, _ => none
  | n + 1, s =>
    if ['\'', '\'', '\''].isPrefixOf s then some ([], s.drop 3)
    else
      match pyChar s with
      | none => none
      | some (x, s) =>
        match pyLiteral n s with
        | none => none
        | some (r, s) => some (x ++ r, s)

/-- `get_versions()` of the module in the written file: versioneer.py:1183-1198.  `none`: an error, or something else follows the
literal, which Python takes for code (not modelled). -/
def moduleVersions (contents : Str) : Option Dict :=
  match afterFirst "version_json = '''".toList contents with
  | none => none
  | some s =>
    match pyLiteral (s.length + 1) s with
    | some (text, rest) => if rest = fileRest then loads text else none
    | none => none

/-! ### `get_versions` of versioneer.py -/

/-- `git_versions_from_keywords(keywords, tag_prefix, verbose)` for keywords that may be missing: versioneer.py:974-1025. -/
def versionsFromFound (k : FoundKeywords) (tagPrefix : Str) : VerM Info :=
  if k.refnames = none ∧ k.full = none ∧ k.date = none then .error .notThisMethod
  else
    match k.refnames with
    | none => .error (.raised .key)
    | some refnames =>
      match k.full with
      | none => if "$Format".toList.isPrefixOf (strip refnames) then .error .notThisMethod else .error (.raised .key)
      | some full => versionsFromKeywords ⟨refnames, full, k.date⟩ tagPrefix

/-- `get_versions()` as `setup.py` calls it: versioneer.py:1402-1475, for a given version file, configuration (of setup.cfg, where
nothing is missing), output of git and path of the root of the tree. -/
def setupVersions (file : Option Str) (cfg : Config) (g : Git) (root : List Str) : VerM Dict :=
  orElse (do return (← versionsFromFound (gitGetKeywords file) cfg.tagPrefix).dict)
    (orElse (versionsFromFile file)
      (orElse (do return (← render (← piecesFromVcs cfg.tagPrefix g) cfg.style).dict)
        (orElse
          (if cfg.parentdirPrefix ≠ [] then do return (← versionsFromParentdir cfg.parentdirPrefix root).dict
           else .error .notThisMethod)
          (.ok (Info.dict { version := "0+unknown".toList, full := none, dirty := none,
                            error := some "unable to compute version".toList, date := none })))))

end Version
end Gcs
