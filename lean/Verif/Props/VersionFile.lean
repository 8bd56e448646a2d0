import Verif.Model.VersionFile
import Verif.Props.Keywords

/-!
# C88: the version file of a distribution

`setup.py sdist` and `build` replace the version file by a short one that holds the version as a JSON document inside a text
literal.  `setup.py` of the distribution finds the document with a regular expression in the text of the file; the installed
package evaluates the literal first.
-/

namespace Gcs
namespace Version

/-! ### Specification -/

/-- Characters that need no escape in a JSON document and that Python writes with one `\uXXXX`: no quote, no backslash, nothing
below the blank, nothing outside the basic plane. -/
def Spec.Tame (t : Str) : Prop := ∀ c ∈ t, c ≠ '"' ∧ c ≠ '\\' ∧ 32 ≤ c.toNat ∧ c.toNat < 0x10000

/-- Three single quotes in a row. -/
def Spec.HasQuotes (t : Str) : Prop := ∃ a b, t = a ++ '\'' :: '\'' :: '\'' :: b

/-- A text that the package reads back. -/
def Spec.Readable (t : Str) : Prop := Spec.Tame t ∧ ¬ Spec.HasQuotes t

/-- The texts of a dictionary. -/
def Spec.texts (d : Dict) : List Str := d.flatMap fun e => e.1 :: (match e.2 with | .str s => [s] | _ => [])

/-! ### One character -/

theorem hexVal_digitChar (k : Nat) (h : k < 16) : hexVal (Nat.digitChar k) = some k := by
  have : ∀ k : Fin 16, hexVal (Nat.digitChar k.1) = some k.1 := by decide
  exact this ⟨k, h⟩

theorem jsonU_append (n : Nat) (s : Str) : jsonU n ++ s =
    '\\' :: 'u' :: Nat.digitChar (n / 4096) :: Nat.digitChar (n / 256 % 16) :: Nat.digitChar (n / 16 % 16) ::
      Nat.digitChar (n % 16) :: s := rfl

theorem scanHex_jsonU (n : Nat) (h : n < 65536) (s : Str) :
    scanHex (Nat.digitChar (n / 4096) :: Nat.digitChar (n / 256 % 16) :: Nat.digitChar (n / 16 % 16) ::
      Nat.digitChar (n % 16) :: s) = some (n, s) := by
  rw [scanHex, hexVal_digitChar _ (by omega), hexVal_digitChar _ (by omega), hexVal_digitChar _ (by omega),
    hexVal_digitChar _ (by omega)]
  simp only [Option.some.injEq, Prod.mk.injEq, and_true]
  omega

theorem toNat_valid (c : Char) : c.toNat < 0xd800 ∨ 0xdfff < c.toNat ∧ c.toNat < 0x110000 := c.valid

theorem charOf_toNat (c : Char) : charOf c.toNat = some c := by
  rw [charOf, if_pos (toNat_valid c), Char.ofNat_toNat]

theorem toNat_inj {a b : Char} (h : a.toNat = b.toNat) : a = b := by
  rw [← Char.ofNat_toNat a, h, Char.ofNat_toNat]

theorem scanU_bmp (c : Char) (h : c.toNat < 0x10000) (s : Str) :
    scanU (Nat.digitChar (c.toNat / 4096) :: Nat.digitChar (c.toNat / 256 % 16) :: Nat.digitChar (c.toNat / 16 % 16) ::
      Nat.digitChar (c.toNat % 16) :: s) = some (c, s) := by
  rw [scanU, scanHex_jsonU _ h]
  have hv := toNat_valid c
  split
  · rename_i heq; simp at heq
  · rename_i heq
    simp only [Option.some.injEq, Prod.mk.injEq] at heq
    obtain ⟨rfl, rfl⟩ := heq
    rw [if_neg (by omega), charOf_toNat]
    rfl
  · rename_i heq
    simp only [Option.some.injEq, Prod.mk.injEq] at heq
    obtain ⟨rfl, rfl⟩ := heq
    rw [charOf_toNat]
    rfl

theorem scanChar_jsonChar (c : Char) (s : Str) : scanChar (jsonChar c ++ s) = some (c, s) := by
  unfold jsonChar
  split
  · subst c; rfl
  split
  · subst c; rfl
  split
  · subst c; rfl
  split
  · subst c; rfl
  split
  · subst c; rfl
  split
  · subst c; rfl
  split
  · subst c; rfl
  rename_i h1 h2 h3 h4 h5 h6 h7
  split
  · rename_i h
    simp only [List.cons_append, List.nil_append, scanChar]
    rw [if_neg h2, if_neg (by omega)]
  split
  · rename_i h
    rw [jsonU_append]
    simp only [scanChar, if_true]
    exact scanU_bmp c h s
  · rename_i h
    have hv := toNat_valid c
    rw [List.append_assoc, jsonU_append, jsonU_append]
    simp only [scanChar, if_true]
    rw [scanU, scanHex_jsonU _ (by omega)]
    simp only
    rw [if_pos (by omega), scanHex_jsonU _ (by omega)]
    simp only
    rw [if_pos (by omega)]
    simp only [Option.some.injEq, Prod.mk.injEq, and_true]
    rw [show 0x10000 + ((0xd800 + (c.toNat - 0x10000) / 1024 - 0xd800) * 1024 +
      (0xdc00 + (c.toNat - 0x10000) % 1024 - 0xdc00)) = c.toNat by omega, Char.ofNat_toNat]

theorem digitChar_range (k : Nat) (h : k < 16) : 32 ≤ (Nat.digitChar k).toNat ∧ (Nat.digitChar k).toNat ≤ 126 := by
  have : ∀ k : Fin 16, 32 ≤ (Nat.digitChar k.1).toNat ∧ (Nat.digitChar k.1).toNat ≤ 126 := by decide
  exact this ⟨k, h⟩

theorem jsonU_range (n : Nat) (h : n < 65536) : ∀ c ∈ jsonU n, 32 ≤ c.toNat ∧ c.toNat ≤ 126 := by
  intro c hc
  simp only [jsonU, List.mem_cons, List.not_mem_nil, or_false] at hc
  rcases hc with rfl | rfl | rfl | rfl | rfl | rfl
  · decide
  · decide
  all_goals exact digitChar_range _ (by omega)

theorem jsonChar_range (c : Char) : ∀ x ∈ jsonChar c, 32 ≤ x.toNat ∧ x.toNat ≤ 126 := by
  have hv := toNat_valid c
  unfold jsonChar
  split
  · decide
  split
  · decide
  split
  · decide
  split
  · decide
  split
  · decide
  split
  · decide
  split
  · decide
  split
  · rename_i h
    intro x hx
    obtain rfl := List.mem_singleton.1 hx
    exact h
  split
  · rename_i h
    exact jsonU_range _ h
  · rename_i h
    intro x hx
    rcases List.mem_append.1 hx with hx | hx
    · exact jsonU_range _ (by omega) x hx
    · exact jsonU_range _ (by omega) x hx

/-- The first character of an encoded character: no quote. -/
theorem jsonChar_head (c : Char) : ∃ x w, jsonChar c = x :: w ∧ x ≠ '"' ∧ (x = '\'' → c = '\'' ∧ w = []) := by
  unfold jsonChar
  split
  · exact ⟨_, _, rfl, by decide, fun h => absurd h (by decide)⟩
  split
  · exact ⟨_, _, rfl, by decide, fun h => absurd h (by decide)⟩
  split
  · exact ⟨_, _, rfl, by decide, fun h => absurd h (by decide)⟩
  split
  · exact ⟨_, _, rfl, by decide, fun h => absurd h (by decide)⟩
  split
  · exact ⟨_, _, rfl, by decide, fun h => absurd h (by decide)⟩
  split
  · exact ⟨_, _, rfl, by decide, fun h => absurd h (by decide)⟩
  split
  · exact ⟨_, _, rfl, by decide, fun h => absurd h (by decide)⟩
  rename_i h1 h2 h3 h4 h5 h6 h7
  split
  · exact ⟨_, _, rfl, h1, fun h => ⟨h, rfl⟩⟩
  split
  · exact ⟨_, _, rfl, by decide, fun h => absurd h (by decide)⟩
  · exact ⟨_, _, rfl, by decide, fun h => absurd h (by decide)⟩

/-! ### Texts of a document -/

/-- `enc` is a way to write the text `t` between quotes. -/
def Good (enc : Str → Str) (t : Str) : Prop :=
  ∀ n s, (enc t).length < n → scanString n (enc t ++ '"' :: s) = some (t, s)

theorem good_json (t : Str) : Good (·.flatMap jsonChar) t := by
  induction t with
  | nil =>
    intro n s h
    obtain ⟨n, rfl⟩ : ∃ m, n = m + 1 := ⟨n - 1, by simp at h; omega⟩
    simp [scanString]
  | cons c t ih =>
    intro n s h
    simp only [List.flatMap_cons, List.length_append] at h
    obtain ⟨x, w, hx, hq, -⟩ := jsonChar_head c
    rw [hx, List.length_cons] at h
    obtain ⟨n, rfl⟩ : ∃ m, n = m + 1 := ⟨n - 1, by omega⟩
    have h2 := scanChar_jsonChar c (t.flatMap jsonChar ++ '"' :: s)
    simp only [List.flatMap_cons, List.append_assoc]
    rw [hx] at h2 ⊢
    rw [List.cons_append, scanString, if_neg hq]
    rw [List.cons_append] at h2
    rw [h2]
    simp only
    rw [ih n s (by simp only; omega)]

theorem good_raw (t : Str) (h : ∀ c ∈ t, c ≠ '"' ∧ c ≠ '\\' ∧ 32 ≤ c.toNat) : Good id t := by
  induction t with
  | nil =>
    intro n s h
    obtain ⟨n, rfl⟩ : ∃ m, n = m + 1 := ⟨n - 1, by simp at h; omega⟩
    simp [scanString]
  | cons c t ih =>
    intro n s hn
    simp only [id, List.length_cons] at hn
    obtain ⟨n, rfl⟩ : ∃ m, n = m + 1 := ⟨n - 1, by omega⟩
    have hc := h c (by simp)
    rw [id, List.cons_append, scanString, if_neg hc.1]
    simp only [scanChar]
    rw [if_neg hc.2.1, if_neg (by omega)]
    simp only
    have := ih (fun x hx => h x (by simp [hx])) n s (by simp only [id]; omega)
    rw [id] at this
    rw [this]

/-! ### Documents -/

/-- A value, with texts written by `enc`. -/
def genVal (enc : Str → Str) : JVal → Str
  | .str s => '"' :: (enc s ++ ['"'])
  | .null => "null".toList
  | .bool true => "true".toList
  | .bool false => "false".toList

/-- The items of a dictionary after the first quote, with texts written by `enc`. -/
def genItems (enc : Str → Str) : Dict → Str
  | [] => []
  | [(k, v)] => enc k ++ ('"' :: ':' :: ' ' :: genVal enc v)
  | (k, v) :: e :: d => enc k ++ ('"' :: ':' :: ' ' :: (genVal enc v ++ (',' :: '\n' :: ' ' :: '"' :: genItems enc (e :: d))))

theorem jsonVal_eq (v : JVal) : jsonVal v = genVal (·.flatMap jsonChar) v := by
  cases v with
  | str s => rfl
  | null => rfl
  | bool b => cases b <;> rfl

theorem jsonItems_eq (d : Dict) (h : d ≠ []) : jsonItems d = '"' :: genItems (·.flatMap jsonChar) d := by
  match d with
  | [] => exact absurd rfl h
  | [(k, v)] =>
    rw [jsonItems, genItems, jsonStr, jsonVal_eq]
    simp
  | (k, v) :: e :: d =>
    rw [jsonItems, genItems, jsonStr, jsonVal_eq, jsonItems_eq (e :: d) (by simp)]
    simp

/-- All texts can be read back. -/
def GoodDict (enc : Str → Str) (d : Dict) : Prop := ∀ t ∈ Spec.texts d, Good enc t

theorem expect_self (c : Char) (s : Str) : expect c (c :: s) = some s := by simp [expect]

theorem expect_ne (c x : Char) (s : Str) (h : x ≠ c) : expect c (x :: s) = none := by simp [expect, h]

theorem scanValue_gen (enc : Str → Str) (v : JVal) (h : ∀ t, v = .str t → Good enc t) (s : Str) :
    scanValue (genVal enc v ++ s) = some (v, s) := by
  cases v with
  | str t =>
    have : genVal enc (.str t) ++ s = '"' :: (enc t ++ '"' :: s) := by simp [genVal]
    rw [this, scanValue, expect_self]
    simp only
    rw [h t rfl _ _ (by simp only [List.length_append, List.length_cons]; omega)]
    rfl
  | null => rfl
  | bool b => cases b <;> rfl

theorem skipWs_gen (enc : Str → Str) (v : JVal) (s : Str) : skipWs (genVal enc v ++ s) = genVal enc v ++ s := by
  cases v with
  | str t => rfl
  | null => rfl
  | bool b => cases b <;> rfl

/-- The head of a pair, as `scanPairs` reads it. -/
theorem scanPairs_head (enc : Str → Str) (k : Str) (v : JVal) (hk : Good enc k) (hv : ∀ t, v = .str t → Good enc t) (n : Nat)
    (s : Str) :
    scanPairs (n + 1) (enc k ++ ('"' :: ':' :: ' ' :: (genVal enc v ++ s))) =
      match expect '}' (skipWs s) with
      | some s => some ([(k, v)], s)
      | none =>
        match expect ',' (skipWs s) with
        | none => none
        | some s =>
          match expect '"' (skipWs s) with
          | none => none
          | some s =>
            match scanPairs n s with
            | none => none
            | some (d, s) => some ((k, v) :: d, s) := by
  rw [scanPairs, hk _ _ (by simp only [List.length_append, List.length_cons]; omega)]
  simp only
  rw [show skipWs (':' :: ' ' :: (genVal enc v ++ s)) = ':' :: ' ' :: (genVal enc v ++ s) from rfl, expect_self]
  simp only
  rw [show skipWs (' ' :: (genVal enc v ++ s)) = skipWs (genVal enc v ++ s) from rfl, skipWs_gen, scanValue_gen enc v hv]
  rfl

theorem scanPairs_gen (enc : Str → Str) (d : Dict) (hne : d ≠ []) (h : GoodDict enc d) (n : Nat) (hn : d.length ≤ n) (s : Str) :
    scanPairs n (genItems enc d ++ '\n' :: '}' :: s) = some (d, s) := by
  match d with
  | [] => exact absurd rfl hne
  | [(k, v)] =>
    obtain ⟨n, rfl⟩ : ∃ m, n = m + 1 := ⟨n - 1, by simp at hn; omega⟩
    have e : genItems enc [(k, v)] ++ '\n' :: '}' :: s = enc k ++ ('"' :: ':' :: ' ' :: (genVal enc v ++ '\n' :: '}' :: s)) := by
      simp [genItems]
    rw [e, scanPairs_head enc k v (h k (by simp [Spec.texts])) (by rintro t rfl; exact h t (by simp [Spec.texts]))]
    rfl
  | (k, v) :: e :: d =>
    obtain ⟨n, rfl⟩ : ∃ m, n = m + 1 := ⟨n - 1, by simp at hn; omega⟩
    have e1 : genItems enc ((k, v) :: e :: d) ++ '\n' :: '}' :: s =
        enc k ++ ('"' :: ':' :: ' ' :: (genVal enc v ++ ',' :: '\n' :: ' ' :: '"' :: (genItems enc (e :: d) ++ '\n' :: '}' :: s))) := by
      simp [genItems]
    rw [e1, scanPairs_head enc k v (h k (by simp [Spec.texts])) (by rintro t rfl; exact h t (by simp [Spec.texts]))]
    have ih := scanPairs_gen enc (e :: d) (by simp) (fun t ht => h t (by
      rw [Spec.texts, List.flatMap_cons]; exact List.mem_append_right _ ht)) n (by simp at hn ⊢; omega) s
    rw [show skipWs (',' :: '\n' :: ' ' :: '"' :: (genItems enc (e :: d) ++ '\n' :: '}' :: s)) =
      ',' :: '\n' :: ' ' :: '"' :: (genItems enc (e :: d) ++ '\n' :: '}' :: s) from rfl, expect_ne _ _ _ (by decide), expect_self]
    simp only
    rw [show skipWs ('\n' :: ' ' :: '"' :: (genItems enc (e :: d) ++ '\n' :: '}' :: s)) =
      '"' :: (genItems enc (e :: d) ++ '\n' :: '}' :: s) from rfl, expect_self]
    simp only
    rw [ih]

theorem genItems_length (enc : Str → Str) (d : Dict) : d.length ≤ (genItems enc d).length := by
  match d with
  | [] => simp
  | [(k, v)] => simp only [genItems, List.length_append, List.length_cons, List.length_nil]; omega
  | (k, v) :: e :: d =>
    have := genItems_length enc (e :: d)
    simp only [genItems, List.length_append, List.length_cons] at this ⊢
    omega

/-- The document, with texts written by `enc`. -/
def genDoc (enc : Str → Str) (d : Dict) : Str :=
  match d with
  | [] => ['{', '}']
  | e :: d => '{' :: '\n' :: ' ' :: '"' :: (genItems enc (e :: d) ++ ['\n', '}'])

theorem dumps_eq (d : Dict) : dumps d = genDoc (·.flatMap jsonChar) (sortItems d) := by
  rw [dumps]
  cases h : sortItems d with
  | nil => rfl
  | cons e d => simp only [genDoc]; rw [jsonItems_eq _ (by simp)]; rfl

theorem loads_genDoc (enc : Str → Str) (d : Dict) (h : GoodDict enc d) : loads (genDoc enc d ++ ['\n']) = some d := by
  cases d with
  | nil => rfl
  | cons e d =>
    have e1 : genDoc enc (e :: d) ++ ['\n'] = '{' :: '\n' :: ' ' :: '"' :: (genItems enc (e :: d) ++ '\n' :: '}' :: ['\n']) := by
      simp [genDoc]
    rw [e1, loads, show ∀ s, skipWs ('{' :: s) = '{' :: s from fun s => rfl, scanObject, expect_self]
    simp only
    rw [show ∀ s, skipWs ('\n' :: ' ' :: '"' :: s) = '"' :: s from fun s => rfl, expect_ne _ _ _ (by decide), expect_self]
    simp only
    rw [scanPairs_gen enc (e :: d) (by simp) h]
    · rfl
    · have := genItems_length enc (e :: d)
      rw [List.length_append]
      omega

theorem loads_newline (s : Str) : loads ('\n' :: s) = loads s := rfl

theorem insertItem_perm (a : Str × JVal) (d : Dict) : (insertItem a d).Perm (a :: d) := by
  induction d with
  | nil => exact List.Perm.refl _
  | cons b d ih =>
    rw [insertItem]
    split
    · exact List.Perm.refl _
    · exact (List.Perm.cons b ih).trans (List.Perm.swap a b d)

theorem sortItems_perm (d : Dict) : (sortItems d).Perm d := by
  induction d with
  | nil => exact List.Perm.refl _
  | cons a d ih => exact (insertItem_perm a _).trans (List.Perm.cons a ih)

/-! ### The regular expression -/

theorem isPrefixOf_append_left (p a s : Str) (h : p.length ≤ a.length) : p.isPrefixOf (a ++ s) = p.isPrefixOf a := by
  rw [Bool.eq_iff_iff, List.isPrefixOf_iff_prefix, List.isPrefixOf_iff_prefix]
  exact ⟨fun hp => List.prefix_of_prefix_length_le hp (List.prefix_append a s) h, fun hp => hp.trans (List.prefix_append a s)⟩

/-- `p` is found at the end of `a`, not before. -/
theorem afterFirst_append (p a s : Str) (hp : p ≠ [])
    (h : ∀ k, k < a.length → p.isPrefixOf ((a ++ p).drop k) = false) : afterFirst p (a ++ (p ++ s)) = some s := by
  induction a with
  | nil =>
    cases p with
    | nil => exact absurd rfl hp
    | cons c p =>
      rw [List.nil_append, List.cons_append, afterFirst, ← List.cons_append,
        if_pos (List.isPrefixOf_iff_prefix.2 (List.prefix_append _ _)), List.drop_left]
  | cons c a ih =>
    have h0 := h 0 (by simp)
    rw [List.drop_zero] at h0
    have : p.isPrefixOf (c :: (a ++ (p ++ s))) = false := by
      rw [show c :: (a ++ (p ++ s)) = (c :: a ++ p) ++ s by simp, isPrefixOf_append_left _ _ _ (by simp; omega)]
      exact h0
    rw [List.cons_append, afterFirst, this]
    simp only [Bool.false_eq_true, if_false]
    refine ih fun k hk => ?_
    have := h (k + 1) (by simpa using hk)
    simpa using this

theorem beforeLast_append (p a s : Str) (hp : p ≠ []) (h : beforeLast p (p.tail ++ s) = none) :
    beforeLast p (a ++ (p ++ s)) = some a := by
  induction a with
  | nil =>
    cases p with
    | nil => exact absurd rfl hp
    | cons c p =>
      rw [List.tail_cons] at h
      rw [List.nil_append, List.cons_append, beforeLast, h, ← List.cons_append]
      simp only
      rw [if_pos (List.isPrefixOf_iff_prefix.2 (List.prefix_append _ _))]
  | cons c a ih => rw [List.cons_append, beforeLast, ih]

theorem versionFile_eq (d : Dict) : versionFile d = fileComments ++ ("version_json = '''\n".toList ++
    ((dumps d ++ ['\n']) ++ ("'''  # END VERSION_JSON".toList ++ "\n\n\ndef get_versions():\n    return json.loads(version_json)\n".toList))) := by
  have e : "'''  # END VERSION_JSON".toList ++ "\n\n\ndef get_versions():\n    return json.loads(version_json)\n".toList =
      '\'' :: '\'' :: '\'' :: fileRest := by decide +kernel
  rw [e, versionFile, fileHead]
  simp only [List.append_assoc, List.cons_append, List.nil_append]

theorem searchJson_versionFile (d : Dict) :
    searchJson "version_json = '''\n".toList (versionFile d) = some (dumps d ++ ['\n']) := by
  rw [versionFile_eq, searchJson, afterFirst_append _ _ _ (by decide +kernel) (by decide +kernel)]
  simp only
  rw [beforeLast_append _ _ _ (by decide +kernel) (by decide +kernel)]

theorem versionsFromFile_versionFile (d : Dict) : versionsFromFile (some (versionFile d)) = .ok (sortItems d) := by
  rw [versionsFromFile, searchJson_versionFile, dumps_eq]
  simp only
  rw [loads_genDoc _ _ fun t _ => good_json t]

/-! ### No keywords in the file -/

/-- The line does not begin with `g`. -/
def NoG (line : Str) : Prop := (line.dropWhile isSpace).head? ≠ some 'g'

theorem notFor_of_noG (name line : Str) (h : NoG line) : Spec.NotFor ('g' :: name) line := by
  intro blanks rest hb e
  apply h
  rw [e]
  clear e h
  induction blanks with
  | nil =>
    rw [List.nil_append, List.cons_append, List.cons_append, List.dropWhile_cons_of_neg (by decide)]
    rfl
  | cons c b ih =>
    rw [List.cons_append, List.dropWhile_cons_of_pos (hb c (by simp))]
    exact ih fun c hc => hb c (by simp [hc])

theorem other_of_noG (line : Str) (h : NoG line) : Spec.Other line :=
  ⟨notFor_of_noG "it_refnames".toList line h, notFor_of_noG "it_full".toList line h, notFor_of_noG "it_date".toList line h⟩

theorem flatMap_json_range (t : Str) : ∀ x ∈ t.flatMap jsonChar, 32 ≤ x.toNat ∧ x.toNat ≤ 126 := by
  intro x hx
  obtain ⟨c, -, hx⟩ := List.mem_flatMap.1 hx
  exact jsonChar_range c x hx

theorem genVal_range (v : JVal) : ∀ x ∈ genVal (·.flatMap jsonChar) v, 32 ≤ x.toNat ∧ x.toNat ≤ 126 := by
  cases v with
  | str t =>
    intro x hx
    simp only [genVal, List.mem_cons, List.mem_append, List.not_mem_nil, or_false] at hx
    rcases hx with rfl | hx | rfl
    · decide
    · exact flatMap_json_range t x hx
    · decide
  | null => decide
  | bool b => cases b <;> decide

/-- The lines of the items, after the blank of the first one. -/
def itemLines : Dict → List Str
  | [] => []
  | [(k, v)] => [('"' :: (k.flatMap jsonChar ++ ('"' :: ':' :: ' ' :: genVal (·.flatMap jsonChar) v))) ++ ['\n']]
  | (k, v) :: e :: d =>
    (('"' :: (k.flatMap jsonChar ++ ('"' :: ':' :: ' ' :: (genVal (·.flatMap jsonChar) v ++ [','])))) ++ ['\n']) ::
      (match itemLines (e :: d) with
      | [] => []
      | l :: ls => (' ' :: l) :: ls)

theorem itemLines_flatten (d : Dict) (h : d ≠ []) :
    (itemLines d).flatten = '"' :: (genItems (·.flatMap jsonChar) d ++ ['\n']) := by
  match d with
  | [] => exact absurd rfl h
  | [(k, v)] => simp [itemLines, genItems]
  | (k, v) :: e :: d =>
    have ih := itemLines_flatten (e :: d) (by simp)
    rw [itemLines, genItems]
    cases hl : itemLines (e :: d) with
    | nil => rw [hl] at ih; simp at ih
    | cons l ls =>
      rw [hl, List.flatten_cons] at ih
      simp only [List.flatten_cons, List.cons_append, List.append_assoc, List.nil_append]
      rw [ih]

theorem not_newline_of_range {s : Str} (h : ∀ x ∈ s, 32 ≤ x.toNat ∧ x.toNat ≤ 126) : '\n' ∉ s := fun hn =>
  absurd (h _ hn).1 (by decide)

theorem itemLines_ok (d : Dict) : ∀ l ∈ itemLines d, Spec.IsLine l ∧ l.head? = some '"' ∨ (∃ l', l = ' ' :: l' ∧ l'.head? = some '"') ∧ Spec.IsLine l := by
  match d with
  | [] => simp [itemLines]
  | [(k, v)] =>
    intro l hl
    simp only [itemLines, List.mem_singleton] at hl
    subst l
    refine Or.inl ⟨⟨_, rfl, ?_⟩, rfl⟩
    have h1 := not_newline_of_range (flatMap_json_range k)
    have h2 := not_newline_of_range (genVal_range v)
    simp only [List.mem_cons, List.mem_append, not_or]
    exact ⟨by decide, h1, by decide, by decide, by decide, h2⟩
  | (k, v) :: e :: d =>
    have ih := itemLines_ok (e :: d)
    intro l hl
    rw [itemLines] at hl
    have h1 := not_newline_of_range (flatMap_json_range k)
    have h2 := not_newline_of_range (genVal_range v)
    rcases List.mem_cons.1 hl with rfl | hl
    · refine Or.inl ⟨⟨_, rfl, ?_⟩, rfl⟩
      simp only [List.mem_cons, List.mem_append, not_or, List.not_mem_nil, not_false_eq_true, and_true]
      exact ⟨by decide, h1, by decide, by decide, by decide, h2, by decide⟩
    · cases hs : itemLines (e :: d) with
      | nil => rw [hs] at hl; simp at hl
      | cons x xs =>
        rw [hs] at hl ih
        rcases List.mem_cons.1 hl with rfl | hl
        · rcases ih x (by simp) with ⟨⟨b, rfl, hb⟩, hh⟩ | ⟨⟨l', rfl, hh⟩, ⟨b, hb, hn⟩⟩
          · refine Or.inr ⟨⟨_, rfl, hh⟩, ⟨' ' :: b, rfl, ?_⟩⟩
            simp only [List.mem_cons, not_or]
            exact ⟨by decide, hb⟩
          · exfalso
            -- the first line has no blank
            match d with
            | [] =>
              obtain ⟨k', v'⟩ := e
              simp [itemLines] at hs
            | f :: d =>
              obtain ⟨k', v'⟩ := e
              simp [itemLines] at hs
        · exact ih l (by simp [hl])

theorem noG_itemLines (d : Dict) (l : Str) (h : l ∈ itemLines d) : Spec.IsLine l ∧ NoG l := by
  rcases itemLines_ok d l h with ⟨h1, h2⟩ | ⟨⟨l', rfl, h2⟩, h1⟩
  · refine ⟨h1, ?_⟩
    cases l with
    | nil => simp at h2
    | cons c l =>
      simp only [List.head?_cons, Option.some.injEq] at h2
      subst c
      rw [NoG, List.dropWhile_cons_of_neg (by decide)]
      simp
  · refine ⟨h1, ?_⟩
    cases l' with
    | nil => simp at h2
    | cons c l =>
      simp only [List.head?_cons, Option.some.injEq] at h2
      subst c
      rw [NoG, List.dropWhile_cons_of_pos (by decide), List.dropWhile_cons_of_neg (by decide)]
      simp

theorem readLines_comments : (∀ l ∈ readLines fileHead, Spec.IsLine l ∧ NoG l) ∧ (readLines fileHead).flatten = fileHead := by
  constructor
  · have h : ∀ l ∈ readLines fileHead, (l.getLast? = some '\n' ∧ '\n' ∉ l.dropLast) ∧
        (l.dropWhile isSpace).head? ≠ some 'g' := by decide +kernel
    exact fun l hl => ⟨isLine_of l (h l hl).1, (h l hl).2⟩
  · decide +kernel

theorem readLines_rest : (∀ l ∈ readLines ('\'' :: '\'' :: '\'' :: fileRest), Spec.IsLine l ∧ NoG l) ∧
    (readLines ('\'' :: '\'' :: '\'' :: fileRest)).flatten = '\'' :: '\'' :: '\'' :: fileRest := by
  constructor
  · have h : ∀ l ∈ readLines ('\'' :: '\'' :: '\'' :: fileRest), (l.getLast? = some '\n' ∧ '\n' ∉ l.dropLast) ∧
        (l.dropWhile isSpace).head? ≠ some 'g' := by decide +kernel
    exact fun l hl => ⟨isLine_of l (h l hl).1, (h l hl).2⟩
  · decide +kernel

/-- The lines of the document. -/
theorem dumps_lines (d : Dict) : ∃ lines : List Str, dumps d ++ ['\n'] = lines.flatten ∧ ∀ l ∈ lines, Spec.IsLine l ∧ NoG l := by
  rw [dumps_eq]
  cases hs : sortItems d with
  | nil => exact ⟨[['{', '}', '\n']], rfl, fun l hl => by
      obtain rfl := List.mem_singleton.1 hl
      exact ⟨isLine_of _ (by decide), by unfold NoG; decide⟩⟩
  | cons e d =>
    have hf := itemLines_flatten (e :: d) (by simp)
    have ho := noG_itemLines (e :: d)
    cases hl : itemLines (e :: d) with
    | nil => rw [hl] at hf; simp at hf
    | cons x xs =>
      rw [hl] at hf ho
      refine ⟨[['{', '\n']] ++ ((' ' :: x) :: xs) ++ [['}', '\n']], ?_, ?_⟩
      · rw [List.flatten_cons] at hf
        simp only [genDoc, List.flatten_append, List.flatten_cons, List.flatten_nil, List.append_nil, List.cons_append, List.nil_append,
          List.append_assoc]
        rw [← List.append_assoc x, hf]
        simp
      · intro l hm
        simp only [List.mem_append, List.mem_cons, List.not_mem_nil, or_false] at hm
        rcases hm with (rfl | rfl | hm) | rfl
        · exact ⟨isLine_of _ (by decide), by unfold NoG; decide⟩
        · obtain ⟨⟨b, rfl, hb⟩, hg⟩ := ho x (by simp)
          refine ⟨⟨' ' :: b, rfl, ?_⟩, ?_⟩
          · simp only [List.mem_cons, not_or]
            exact ⟨by decide, hb⟩
          · rw [NoG, List.dropWhile_cons_of_pos (by decide)]
            exact hg
        · exact ho l (by simp [hm])
        · exact ⟨isLine_of _ (by decide), by unfold NoG; decide⟩

theorem gitGetKeywords_versionFile (d : Dict) : gitGetKeywords (some (versionFile d)) = {} := by
  obtain ⟨lines, hl, ho⟩ := dumps_lines d
  have e : versionFile d = (readLines fileHead ++ lines ++ readLines ('\'' :: '\'' :: '\'' :: fileRest)).flatten := by
    rw [List.flatten_append, List.flatten_append, readLines_comments.2, readLines_rest.2, ← hl, versionFile]
    simp only [List.append_assoc, List.cons_append, List.nil_append]
  have h : ∀ l ∈ readLines fileHead ++ lines ++ readLines ('\'' :: '\'' :: '\'' :: fileRest), Spec.IsLine l ∧ NoG l := by
    intro l hm
    simp only [List.mem_append] at hm
    rcases hm with (hm | hm) | hm
    · exact readLines_comments.1 l hm
    · exact ho l hm
    · exact readLines_rest.1 l hm
  rw [gitGetKeywords, e, readLines_flatten _ fun l hm => (h l hm).1, foldl_other _ _ fun l hm => other_of_noG l (h l hm).2]

theorem genItems_range (d : Dict) : ∀ x ∈ genItems (·.flatMap jsonChar) d, x = '\n' ∨ 32 ≤ x.toNat ∧ x.toNat ≤ 126 := by
  match d with
  | [] => simp [genItems]
  | [(k, v)] =>
    intro x hx
    simp only [genItems, List.mem_append, List.mem_cons] at hx
    rcases hx with hx | rfl | rfl | rfl | hx
    · exact Or.inr (flatMap_json_range k x hx)
    · exact Or.inr (by decide)
    · exact Or.inr (by decide)
    · exact Or.inr (by decide)
    · exact Or.inr (genVal_range v x hx)
  | (k, v) :: e :: d =>
    have ih := genItems_range (e :: d)
    intro x hx
    simp only [genItems, List.mem_append, List.mem_cons] at hx
    rcases hx with hx | rfl | rfl | rfl | hx | rfl | rfl | rfl | rfl | hx
    · exact Or.inr (flatMap_json_range k x hx)
    · exact Or.inr (by decide)
    · exact Or.inr (by decide)
    · exact Or.inr (by decide)
    · exact Or.inr (genVal_range v x hx)
    · exact Or.inr (by decide)
    · exact Or.inl rfl
    · exact Or.inr (by decide)
    · exact Or.inr (by decide)
    · exact ih x hx

/-! ### The literal -/

theorem scanHex_length {s r : Str} {n : Nat} (h : scanHex s = some (n, r)) : r.length < s.length := by
  unfold scanHex at h
  split at h
  · split at h
    · simp only [Option.some.injEq, Prod.mk.injEq] at h
      obtain ⟨-, rfl⟩ := h
      simp only [List.length_cons]; omega
    · simp at h
  · simp at h

theorem pyChar_length {s r x : Str} (h : pyChar s = some (x, r)) : r.length < s.length := by
  cases s with
  | nil => simp [pyChar] at h
  | cons c s =>
    simp only [pyChar] at h
    split at h
    · cases s with
      | nil => simp at h
      | cons e s =>
        simp only at h
        split at h
        · split at h
          · rename_i n t ht
            simp only [Option.map_eq_some_iff, Prod.mk.injEq] at h
            obtain ⟨_, _, _, rfl⟩ := h
            have := scanHex_length ht
            simp only [List.length_cons]; omega
          · simp at h
        · simp only [Option.map_eq_some_iff, Prod.mk.injEq] at h
          obtain ⟨_, _, _, rfl⟩ := h
          simp only [List.length_cons]; omega
    · simp only [Option.some.injEq, Prod.mk.injEq] at h
      obtain ⟨_, rfl⟩ := h
      simp

/-- More steps than characters make no difference. -/
theorem pyLiteral_fuel (n m : Nat) (s : Str) (hn : s.length < n) (hm : s.length < m) : pyLiteral n s = pyLiteral m s := by
  induction n generalizing m s with
  | zero => omega
  | succ n ih =>
    obtain ⟨m, rfl⟩ : ∃ k, m = k + 1 := ⟨m - 1, by omega⟩
    rw [pyLiteral, pyLiteral]
    split
    · rfl
    · cases hc : pyChar s with
      | none => rfl
      | some p =>
        obtain ⟨x, r⟩ := p
        have := pyChar_length hc
        simp only
        rw [ih m r (by omega) (by omega)]

/-- A literal, with enough steps. -/
def lit (s : Str) : Option (Str × Str) := pyLiteral (s.length + 1) s

theorem lit_end (s : Str) : lit ('\'' :: '\'' :: '\'' :: s) = some ([], s) := by
  rw [lit, pyLiteral, if_pos (by simp [List.isPrefixOf])]
  rfl

theorem lit_step (s x r : Str) (hq : ['\'', '\'', '\''].isPrefixOf s = false) (h : pyChar s = some (x, r)) :
    lit s = (lit r).map fun p => (x ++ p.1, p.2) := by
  have := pyChar_length h
  rw [lit, pyLiteral, hq, h]
  simp only [Bool.false_eq_true, if_false]
  rw [pyLiteral_fuel s.length (r.length + 1) r (by omega) (by omega), ← lit]
  cases lit r with
  | none => rfl
  | some p => rfl

theorem lit_stuck (s : Str) (hq : ['\'', '\'', '\''].isPrefixOf s = false) (h : pyChar s = none) : lit s = none := by
  rw [lit, pyLiteral, hq, h]
  rfl

theorem prefix_quote_ne (x : Char) (s : Str) (h : x ≠ '\'') : ['\'', '\'', '\''].isPrefixOf (x :: s) = false := by
  simp only [List.isPrefixOf, Bool.and_eq_false_imp, beq_iff_eq]
  exact fun e => absurd e.symm h

/-- Characters without a special meaning. -/
theorem lit_plain (w s : Str) (h : ∀ c ∈ w, c ≠ '\\' ∧ c ≠ '\'') :
    lit (w ++ s) = (lit s).map fun p => (w ++ p.1, p.2) := by
  induction w with
  | nil => cases hs : lit s <;> simp [hs]
  | cons c w ih =>
    have hc := h c (by simp)
    rw [List.cons_append, lit_step _ [c] (w ++ s) (prefix_quote_ne _ _ hc.2) (by simp [pyChar, hc.1]),
      ih fun c hm => h c (by simp [hm])]
    cases lit s <;> rfl

theorem pyChar_jsonChar (c : Char) (s : Str) :
    pyChar (jsonChar c ++ s) = if c.toNat < 0x10000 then some ([c], s) else none := by
  have hv := toNat_valid c
  unfold jsonChar
  split
  · subst c; rfl
  split
  · subst c; rfl
  split
  · subst c; rfl
  split
  · subst c; rfl
  split
  · subst c; rfl
  split
  · subst c; rfl
  split
  · subst c; rfl
  rename_i h1 h2 h3 h4 h5 h6 h7
  split
  · rename_i h
    simp only [List.cons_append, List.nil_append, pyChar]
    rw [if_neg h2, if_pos (by omega)]
  split
  · rename_i h
    rw [jsonU_append]
    simp only [pyChar, if_true]
    rw [scanHex_jsonU _ h]
    simp only
    rw [charOf_toNat]
    rfl
  · rename_i h
    rw [List.append_assoc, jsonU_append]
    simp only [pyChar, if_true]
    rw [scanHex_jsonU _ (by omega)]
    simp only
    rw [charOf, if_neg (by omega)]
    rfl

theorem hasQuotes_cons (c : Char) (t : Str) (h : Spec.HasQuotes t) : Spec.HasQuotes (c :: t) := by
  obtain ⟨a, b, rfl⟩ := h
  exact ⟨c :: a, b, rfl⟩

/-- Where the written text begins with three quotes the text does. -/
theorem prefix_quotes_json (t s : Str) : ['\'', '\'', '\''].isPrefixOf (t.flatMap jsonChar ++ '"' :: s) = true ↔
    ∃ b, t = '\'' :: '\'' :: '\'' :: b := by
  have hj : jsonChar '\'' = ['\''] := by decide
  constructor
  · intro h
    have key : ∀ (p t : Str), (∀ c ∈ p, c = '\'') → p.isPrefixOf (t.flatMap jsonChar ++ '"' :: s) = true → ∃ b, t = p ++ b := by
      intro p
      induction p with
      | nil => exact fun t _ _ => ⟨t, rfl⟩
      | cons c p ih =>
        intro t hp h
        obtain rfl := hp c (by simp)
        cases t with
        | nil => simp [List.isPrefixOf] at h
        | cons x t =>
          obtain ⟨y, w, hy, hy2, hy3⟩ := jsonChar_head x
          rw [List.flatMap_cons, hy] at h
          simp only [List.cons_append, List.isPrefixOf, Bool.and_eq_true, beq_iff_eq] at h
          obtain ⟨rfl, rfl⟩ := hy3 h.1.symm
          obtain ⟨b, rfl⟩ := ih t (fun c hc => hp c (by simp [hc])) (by simpa using h.2)
          exact ⟨b, rfl⟩
    exact key _ t (by simp) h
  · rintro ⟨b, rfl⟩
    simp [List.flatMap_cons, hj, List.isPrefixOf]

/-- A text without three quotes in a row, to its closing quote: Python finds the characters of the text. -/
theorem lit_text (t s : Str) (h : ¬ Spec.HasQuotes t) :
    lit (t.flatMap jsonChar ++ '"' :: s) =
      if ∀ c ∈ t, c.toNat < 0x10000 then (lit ('"' :: s)).map fun p => (t ++ p.1, p.2) else none := by
  induction t with
  | nil =>
    simp only [List.flatMap_nil, List.nil_append, List.not_mem_nil, false_imp_iff, implies_true, if_true]
    cases lit ('"' :: s) <;> rfl
  | cons c t ih =>
    have hq : ['\'', '\'', '\''].isPrefixOf ((c :: t).flatMap jsonChar ++ '"' :: s) = false := by
      rw [Bool.eq_false_iff]
      intro hp
      obtain ⟨b, hb⟩ := (prefix_quotes_json _ _).1 hp
      exact h ⟨[], b, hb⟩
    have ih := ih fun hh => h (hasQuotes_cons c t hh)
    have hp := pyChar_jsonChar c (t.flatMap jsonChar ++ '"' :: s)
    rw [← List.append_assoc, ← List.flatMap_cons] at hp
    by_cases hc : c.toNat < 0x10000
    · rw [if_pos hc] at hp
      rw [lit_step _ _ _ hq hp, ih]
      by_cases ht : ∀ c ∈ t, c.toNat < 0x10000
      · rw [if_pos ht, if_pos (by simpa using ⟨hc, ht⟩)]
        cases lit ('"' :: s) <;> rfl
      · rw [if_neg ht, if_neg (by simp only [List.mem_cons, forall_eq_or_imp]; exact fun hh => ht hh.2)]
        rfl
    · rw [if_neg hc] at hp
      rw [lit_stuck _ hq hp, if_neg (fun hh => hc (hh c (by simp)))]

/-- A text with three quotes in a row: what Python takes for the literal ends before the end of the text. -/
theorem lit_quotes (t s x r : Str) (h : Spec.HasQuotes t) (he : lit (t.flatMap jsonChar ++ '"' :: s) = some (x, r)) :
    s.length < r.length := by
  induction t generalizing x with
  | nil => obtain ⟨a, b, hab⟩ := h; simp at hab
  | cons c t ih =>
    by_cases hq : ['\'', '\'', '\''].isPrefixOf ((c :: t).flatMap jsonChar ++ '"' :: s) = true
    · obtain ⟨b, hb⟩ := (prefix_quotes_json _ _).1 hq
      rw [hb] at he
      have hj : jsonChar '\'' = ['\''] := by decide
      simp only [List.flatMap_cons, hj, List.cons_append, List.nil_append] at he
      rw [lit_end, Option.some.injEq, Prod.mk.injEq] at he
      rw [← he.2]
      simp only [List.length_append, List.length_cons]
      omega
    · have h' : Spec.HasQuotes t := by
        obtain ⟨a, b, hab⟩ := h
        cases a with
        | nil => exact absurd ((prefix_quotes_json _ _).2 ⟨b, hab⟩) hq
        | cons d a =>
          rw [List.cons_append, List.cons.injEq] at hab
          exact ⟨a, b, hab.2⟩
      rw [Bool.not_eq_true] at hq
      have hp := pyChar_jsonChar c (t.flatMap jsonChar ++ '"' :: s)
      rw [← List.append_assoc, ← List.flatMap_cons] at hp
      by_cases hc : c.toNat < 0x10000
      · rw [if_pos hc] at hp
        rw [lit_step _ _ _ hq hp] at he
        simp only [Option.map_eq_some_iff, Prod.mk.injEq] at he
        obtain ⟨p, hp, -, rfl⟩ := he
        exact ih p.1 h' hp
      · rw [if_neg hc] at hp
        rw [lit_stuck _ hq hp] at he
        cases he

/-! ### The document inside the literal -/

theorem genVal_plain (v : JVal) (h : ∀ t, v ≠ .str t) (enc : Str → Str) : ∀ c ∈ genVal enc v, c ≠ '\\' ∧ c ≠ '\'' := by
  cases v with
  | str t => exact absurd rfl (h t)
  | null => exact (by decide : ∀ c ∈ "null".toList, c ≠ '\\' ∧ c ≠ '\'')
  | bool b =>
    cases b
    · exact (by decide : ∀ c ∈ "false".toList, c ≠ '\\' ∧ c ≠ '\'')
    · exact (by decide : ∀ c ∈ "true".toList, c ≠ '\\' ∧ c ≠ '\'')

theorem genVal_const (v : JVal) (h : ∀ t, v ≠ .str t) (enc enc' : Str → Str) : genVal enc v = genVal enc' v := by
  cases v with
  | str t => exact absurd rfl (h t)
  | null => rfl
  | bool b => cases b <;> rfl

theorem map_map_lit (o : Option (Str × Str)) (a b : Str) :
    (o.map fun p => (b ++ p.1, p.2)).map (fun p => (a ++ p.1, p.2)) = o.map fun p => ((a ++ b) ++ p.1, p.2) := by
  cases o <;> simp

theorem Readable.bmp {t : Str} (h : Spec.Readable t) : ∀ c ∈ t, c.toNat < 0x10000 := fun c hc => (h.1 c hc).2.2.2

theorem lit_readable (t s : Str) (h : Spec.Readable t) :
    lit (t.flatMap jsonChar ++ '"' :: s) = (lit s).map fun p => ((t ++ ['"']) ++ p.1, p.2) := by
  rw [lit_text t s h.2, if_pos (Readable.bmp h), show '"' :: s = ['"'] ++ s from rfl, lit_plain ['"'] s (by decide), map_map_lit]

theorem lit_val (v : JVal) (s : Str) (h : ∀ t, v = .str t → Spec.Readable t) :
    lit (genVal (·.flatMap jsonChar) v ++ s) = (lit s).map fun p => (genVal id v ++ p.1, p.2) := by
  by_cases hv : ∃ t, v = .str t
  · obtain ⟨t, rfl⟩ := hv
    have e : genVal (·.flatMap jsonChar) (.str t) ++ s = ['"'] ++ (t.flatMap jsonChar ++ '"' :: s) := by simp [genVal]
    rw [e, lit_plain ['"'] _ (by decide), lit_readable t s (h t rfl), map_map_lit]
    rfl
  · have hv : ∀ t, v ≠ .str t := fun t ht => hv ⟨t, ht⟩
    rw [lit_plain _ _ (genVal_plain v hv _), genVal_const v hv (·.flatMap jsonChar) id]

/-- The key and what follows it. -/
theorem lit_key (k s : Str) (h : Spec.Readable k) :
    lit (k.flatMap jsonChar ++ ('"' :: ':' :: ' ' :: s)) = (lit s).map fun p => ((k ++ ['"', ':', ' ']) ++ p.1, p.2) := by
  rw [lit_readable k _ h, show ':' :: ' ' :: s = [':', ' '] ++ s from rfl, lit_plain [':', ' '] s (by decide), map_map_lit]
  simp

theorem lit_items (d : Dict) (s : Str) (h : ∀ t ∈ Spec.texts d, Spec.Readable t) :
    lit (genItems (·.flatMap jsonChar) d ++ s) = (lit s).map fun p => (genItems id d ++ p.1, p.2) := by
  match d with
  | [] => cases hs : lit s <;> simp [genItems, hs]
  | [(k, v)] =>
    have hk := h k (by simp [Spec.texts])
    have hv : ∀ t, v = .str t → Spec.Readable t := by rintro t rfl; exact h t (by simp [Spec.texts])
    have e : genItems (·.flatMap jsonChar) [(k, v)] ++ s =
        k.flatMap jsonChar ++ ('"' :: ':' :: ' ' :: (genVal (·.flatMap jsonChar) v ++ s)) := by simp [genItems]
    rw [e, lit_key k _ hk, lit_val v _ hv, map_map_lit]
    simp [genItems]
  | (k, v) :: e :: d =>
    have hk := h k (by simp [Spec.texts])
    have hv : ∀ t, v = .str t → Spec.Readable t := by rintro t rfl; exact h t (by simp [Spec.texts])
    have ih := lit_items (e :: d) s fun t ht => h t (by rw [Spec.texts, List.flatMap_cons]; exact List.mem_append_right _ ht)
    have e1 : genItems (·.flatMap jsonChar) ((k, v) :: e :: d) ++ s = k.flatMap jsonChar ++ ('"' :: ':' :: ' ' ::
        (genVal (·.flatMap jsonChar) v ++ ([',', '\n', ' ', '"'] ++ (genItems (·.flatMap jsonChar) (e :: d) ++ s)))) := by
      simp [genItems]
    rw [e1, lit_key k _ hk, lit_val v _ hv, lit_plain [',', '\n', ' ', '"'] _ (by decide), ih, map_map_lit, map_map_lit, map_map_lit]
    simp [genItems]

theorem moduleVersions_eq (d : Dict) : moduleVersions (versionFile d) =
    match lit ('\n' :: (dumps d ++ ('\n' :: '\'' :: '\'' :: '\'' :: fileRest))) with
    | some (text, rest) => if rest = fileRest then loads text else none
    | none => none := by
  have e : versionFile d = fileComments ++ ("version_json = '''".toList ++
      ('\n' :: (dumps d ++ ('\n' :: '\'' :: '\'' :: '\'' :: fileRest)))) := by
    have e1 : "version_json = '''\n".toList = "version_json = '''".toList ++ ['\n'] := by decide +kernel
    rw [versionFile, fileHead, e1]
    simp only [List.append_assoc, List.cons_append, List.nil_append]
  rw [moduleVersions, e, afterFirst_append _ _ _ (by decide +kernel) (by decide +kernel)]
  rfl

theorem moduleVersions_readable (d : Dict) (h : ∀ t ∈ Spec.texts d, Spec.Readable t) :
    moduleVersions (versionFile d) = some (sortItems d) := by
  have h' : ∀ t ∈ Spec.texts (sortItems d), Spec.Readable t := by
    intro t ht
    refine h t ?_
    simp only [Spec.texts, List.mem_flatMap] at ht ⊢
    obtain ⟨e, he, ht⟩ := ht
    exact ⟨e, (sortItems_perm d).mem_iff.1 he, ht⟩
  rw [moduleVersions_eq, dumps_eq]
  have key : lit ('\n' :: (genDoc (·.flatMap jsonChar) (sortItems d) ++ ('\n' :: '\'' :: '\'' :: '\'' :: fileRest))) =
      some ('\n' :: (genDoc id (sortItems d) ++ ['\n']), fileRest) := by
    cases hs : sortItems d with
    | nil =>
      rw [show '\n' :: (genDoc (·.flatMap jsonChar) [] ++ ('\n' :: '\'' :: '\'' :: '\'' :: fileRest)) =
        ['\n', '{', '}', '\n'] ++ ('\'' :: '\'' :: '\'' :: fileRest) from rfl, lit_plain _ _ (by decide), lit_end]
      rfl
    | cons e d' =>
      rw [hs] at h'
      have e1 : '\n' :: (genDoc (·.flatMap jsonChar) (e :: d') ++ ('\n' :: '\'' :: '\'' :: '\'' :: fileRest)) =
          ['\n', '{', '\n', ' ', '"'] ++ (genItems (·.flatMap jsonChar) (e :: d') ++ (['\n', '}', '\n'] ++
            ('\'' :: '\'' :: '\'' :: fileRest))) := by simp [genDoc]
      rw [e1, lit_plain _ _ (by decide), lit_items _ _ h', lit_plain ['\n', '}', '\n'] _ (by decide), lit_end]
      simp [genDoc]
  rw [key]
  simp only [if_true]
  rw [loads_newline, loads_genDoc]
  intro t ht
  exact good_raw t fun c hc => ⟨((h' t ht).1 c hc).1, ((h' t ht).1 c hc).2.1, ((h' t ht).1 c hc).2.2.1⟩

/-! ### What a document cannot hold -/

theorem scanHex_split {s r : Str} {n : Nat} (h : scanHex s = some (n, r)) : ∃ w, s = w ++ r ∧ '"' ∉ w := by
  unfold scanHex at h
  split at h
  · rename_i a b c d s'
    split at h
    · rename_i x y z u ha hb hc hd
      simp only [Option.some.injEq, Prod.mk.injEq] at h
      obtain ⟨-, rfl⟩ := h
      refine ⟨[a, b, c, d], rfl, ?_⟩
      have hq : hexVal '"' = none := by decide
      simp only [List.mem_cons, List.not_mem_nil, or_false, not_or]
      refine ⟨?_, ?_, ?_, ?_⟩ <;> rintro rfl <;> simp_all
    · simp at h
  · simp at h

theorem scanU_split {s r : Str} {x : Char} (h : scanU s = some (x, r)) : ∃ w, s = w ++ r ∧ '"' ∉ w := by
  unfold scanU at h
  split at h
  · simp at h
  · rename_i n t ht
    obtain ⟨w, rfl, hw⟩ := scanHex_split ht
    split at h
    · split at h
      · simp at h
      · rename_i m t' ht'
        obtain ⟨w', rfl, hw'⟩ := scanHex_split ht'
        split at h
        · simp only [Option.some.injEq, Prod.mk.injEq] at h
          obtain ⟨-, rfl⟩ := h
          refine ⟨w ++ ('\\' :: 'u' :: w'), by simp, ?_⟩
          simp only [List.mem_append, List.mem_cons, not_or]
          exact ⟨hw, by decide, by decide, hw'⟩
        · simp at h
    · simp only [Option.map_eq_some_iff, Prod.mk.injEq] at h
      obtain ⟨_, _, _, rfl⟩ := h
      exact ⟨w, rfl, hw⟩
  · rename_i n t _ ht
    obtain ⟨w, rfl, hw⟩ := scanHex_split ht
    simp only [Option.map_eq_some_iff, Prod.mk.injEq] at h
    obtain ⟨_, _, _, rfl⟩ := h
    exact ⟨w, rfl, hw⟩

theorem scanChar_split {s r : Str} {x : Char} (h : scanChar s = some (x, r)) :
    ∃ w, s = w ++ r ∧ (w = [x] ∧ x ≠ '\\' ∧ 32 ≤ x.toNat ∨ 2 ≤ w.length ∧ ('"' ∉ w ∨ w = ['\\', '"'])) := by
  cases s with
  | nil => simp [scanChar] at h
  | cons c s =>
    simp only [scanChar] at h
    split at h
    · rename_i hc
      subst c
      cases s with
      | nil => simp at h
      | cons e s =>
        simp only at h
        split at h
        · rename_i he
          subst e
          obtain ⟨w, rfl, hw⟩ := scanU_split h
          refine ⟨'\\' :: 'u' :: w, rfl, Or.inr ⟨by simp, Or.inl ?_⟩⟩
          simp only [List.mem_cons, not_or]
          exact ⟨by decide, by decide, hw⟩
        · simp only [Option.map_eq_some_iff, Prod.mk.injEq] at h
          obtain ⟨_, _, _, rfl⟩ := h
          refine ⟨['\\', e], rfl, Or.inr ⟨by simp, ?_⟩⟩
          by_cases he : e = '"'
          · exact Or.inr (by rw [he])
          · left
            simp only [List.mem_cons, List.not_mem_nil, or_false, not_or]
            exact ⟨by decide, fun hh => he hh.symm⟩
    · split at h
      · simp at h
      · rename_i h1 h2
        simp only [Option.some.injEq, Prod.mk.injEq] at h
        obtain ⟨rfl, rfl⟩ := h
        exact ⟨[c], rfl, Or.inl ⟨rfl, h1, by omega⟩⟩

/-- A text without quotes, backslashes and characters below the blank. -/
def Clean (t : Str) : Prop := ∀ c ∈ t, c ≠ '"' ∧ c ≠ '\\' ∧ 32 ≤ c.toNat

/-- Reading a text that was not escaped: it is clean, or what is read is shorter. -/
theorem scanString_raw (n : Nat) (t s r s' : Str) (h : scanString n (t ++ '"' :: '\n' :: s) = some (r, s')) :
    (r = t ∧ s' = '\n' :: s ∧ Clean t) ∨ (r.length < t.length ∧ s'.length ≤ t.length + s.length + 1) := by
  induction n generalizing t r with
  | zero => simp [scanString] at h
  | succ n ih =>
    cases t with
    | nil =>
      simp only [List.nil_append, scanString, if_true, Option.some.injEq, Prod.mk.injEq] at h
      obtain ⟨rfl, rfl⟩ := h
      exact Or.inl ⟨rfl, rfl, by simp [Clean]⟩
    | cons c t =>
      rw [List.cons_append, scanString] at h
      split at h
      · simp only [Option.some.injEq, Prod.mk.injEq] at h
        obtain ⟨rfl, rfl⟩ := h
        right
        simp only [List.length_nil, List.length_cons, List.length_append]
        omega
      · rename_i hcq
        split at h
        · simp at h
        · rename_i x s1 hx
          split at h
          · simp at h
          · rename_i r1 s2 hr
            simp only [Option.some.injEq, Prod.mk.injEq] at h
            obtain ⟨rfl, rfl⟩ := h
            obtain ⟨w, hw, h1 | ⟨h2, h3⟩⟩ := scanChar_split hx
            · obtain ⟨rfl, hb, h32⟩ := h1
              rw [List.cons_append, List.nil_append, List.cons.injEq] at hw
              obtain ⟨rfl, rfl⟩ := hw
              rcases ih t r1 hr with ⟨rfl, rfl, hc⟩ | ⟨i1, i2⟩
              · refine Or.inl ⟨rfl, rfl, ?_⟩
                intro y hy
                rcases List.mem_cons.1 hy with rfl | hy
                · exact ⟨hcq, hb, h32⟩
                · exact hc y hy
              · right
                simp only [List.length_cons]
                omega
            · have hsub : ∃ t2, c :: t = w ++ t2 ∧ s1 = t2 ++ '"' :: '\n' :: s := by
                rcases h3 with h3 | rfl
                · rw [← List.cons_append] at hw
                  rcases List.append_eq_append_iff.1 hw with ⟨z, hz1, hz2⟩ | ⟨z, hz1, hz2⟩
                  · cases z with
                    | nil => exact ⟨[], by simpa using hz1.symm, by simpa using hz2.symm⟩
                    | cons y z =>
                      rw [List.cons_append, List.cons.injEq] at hz2
                      exact absurd (by rw [hz1, ← hz2.1]; simp) h3
                  · exact ⟨z, hz1, hz2⟩
                · simp only [List.cons_append, List.nil_append, List.cons.injEq] at hw
                  obtain ⟨rfl, hw⟩ := hw
                  cases t with
                  | nil =>
                    simp only [List.nil_append, List.cons.injEq, true_and] at hw
                    subst s1
                    exfalso
                    cases n with
                    | zero => simp [scanString] at hr
                    | succ n => simp [scanString, scanChar] at hr
                  | cons y t =>
                    rw [List.cons_append, List.cons.injEq] at hw
                    obtain ⟨rfl, rfl⟩ := hw
                    exact ⟨t, rfl, rfl⟩
              obtain ⟨t2, ht2, rfl⟩ := hsub
              have hl : (c :: t).length = w.length + t2.length := by rw [ht2, List.length_append]
              right
              rcases ih t2 r1 hr with ⟨rfl, rfl, -⟩ | ⟨i1, i2⟩
              · simp only [List.length_cons] at hl ⊢
                omega
              · simp only [List.length_cons] at hl ⊢
                omega

theorem scanString_length (n : Nat) (s r s' : Str) (h : scanString n s = some (r, s')) : r.length + 1 + s'.length ≤ s.length := by
  induction n generalizing s r with
  | zero => simp [scanString] at h
  | succ n ih =>
    cases s with
    | nil => simp [scanString] at h
    | cons c s =>
      rw [scanString] at h
      split at h
      · simp only [Option.some.injEq, Prod.mk.injEq] at h
        obtain ⟨rfl, rfl⟩ := h
        simp only [List.length_nil, List.length_cons]; omega
      · split at h
        · simp at h
        · rename_i x s1 hx
          split at h
          · simp at h
          · rename_i r1 s2 hr
            simp only [Option.some.injEq, Prod.mk.injEq] at h
            obtain ⟨rfl, rfl⟩ := h
            have := ih _ _ hr
            obtain ⟨w, hw, h1⟩ := scanChar_split hx
            have hl : (c :: s).length = w.length + s1.length := by rw [hw, List.length_append]
            have hw1 : 1 ≤ w.length := by
              rcases h1 with ⟨rfl, -⟩ | ⟨h2, -⟩
              · simp
              · omega
            simp only [List.length_cons] at hl ⊢
            omega

theorem expect_some {c : Char} {s r : Str} (h : expect c s = some r) : s = c :: r := by
  cases s with
  | nil => simp [expect] at h
  | cons x s =>
    simp only [expect] at h
    split at h
    · rename_i hx
      simp only [Option.some.injEq] at h
      rw [hx, h]
    · simp at h

theorem skipWs_length (s : Str) : (skipWs s).length ≤ s.length := by
  rw [skipWs]
  exact (List.dropWhile_suffix _).length_le

theorem scanPairs_inv {n : Nat} {s s' : Str} {d : Dict} (h : scanPairs (n + 1) s = some (d, s')) :
    ∃ k s1 s2 v s3, scanString (s.length + 1) s = some (k, s1) ∧ expect ':' (skipWs s1) = some s2 ∧
      scanValue (skipWs s2) = some (v, s3) ∧
      (d = [(k, v)] ∨ ∃ s4 s5 d', expect ',' (skipWs s3) = some s4 ∧ expect '"' (skipWs s4) = some s5 ∧
        scanPairs n s5 = some (d', s') ∧ d = (k, v) :: d') := by
  rw [scanPairs] at h
  split at h
  · simp at h
  rename_i k s1 h1
  split at h
  · simp at h
  rename_i s2 h2
  split at h
  · simp at h
  rename_i v s3 h3
  refine ⟨k, s1, s2, v, s3, h1, h2, h3, ?_⟩
  split at h
  · simp only [Option.some.injEq, Prod.mk.injEq] at h
    exact Or.inl h.1.symm
  · split at h
    · simp at h
    rename_i s4 h4
    split at h
    · simp at h
    rename_i s5 h5
    split at h
    · simp at h
    rename_i d' s6 h6
    simp only [Option.some.injEq, Prod.mk.injEq] at h
    obtain ⟨rfl, rfl⟩ := h
    exact Or.inr ⟨s4, s5, d', h4, h5, h6, rfl⟩

theorem scanValue_str {s s' t : Str} (h : scanValue s = some (.str t, s')) : t.length + 2 + s'.length ≤ s.length := by
  rw [scanValue] at h
  split at h
  · rename_i r hr
    rw [expect_some hr]
    simp only [Option.map_eq_some_iff, Prod.mk.injEq, JVal.str.injEq] at h
    obtain ⟨p, hp, rfl, rfl⟩ := h
    have := scanString_length _ _ _ _ hp
    simp only [List.length_cons]
    omega
  · split at h
    · simp at h
    split at h
    · simp at h
    split at h
    · simp at h
    · simp at h

theorem scanValue_length {s s' : Str} {v : JVal} (h : scanValue s = some (v, s')) : s'.length ≤ s.length := by
  cases v with
  | str t => have := scanValue_str h; omega
  | null =>
    rw [scanValue] at h
    split at h
    · simp only [Option.map_eq_some_iff, Prod.mk.injEq] at h
      obtain ⟨_, _, hh, _⟩ := h
      simp at hh
    · split at h
      · simp only [Option.some.injEq, Prod.mk.injEq] at h
        rw [← h.2, List.length_drop]; omega
      split at h
      · simp at h
      split at h
      · simp at h
      · simp at h
  | bool b =>
    rw [scanValue] at h
    split at h
    · simp only [Option.map_eq_some_iff, Prod.mk.injEq] at h
      obtain ⟨_, _, hh, _⟩ := h
      simp at hh
    · split at h
      · simp at h
      split at h
      · simp only [Option.some.injEq, Prod.mk.injEq] at h
        rw [← h.2, List.length_drop]; omega
      split at h
      · simp only [Option.some.injEq, Prod.mk.injEq] at h
        rw [← h.2, List.length_drop]; omega
      · simp at h

/-- No value is longer than the document. -/
theorem scanPairs_values (n : Nat) (s s' : Str) (d : Dict) (h : scanPairs n s = some (d, s')) (k t : Str)
    (hm : (k, JVal.str t) ∈ d) : t.length + 4 ≤ s.length := by
  induction n generalizing s d with
  | zero => simp [scanPairs] at h
  | succ n ih =>
    obtain ⟨k1, s1, s2, v, s3, h1, h2, h3, h4⟩ := scanPairs_inv h
    have l1 := scanString_length _ _ _ _ h1
    have l2 := skipWs_length s1
    have l3 := congrArg List.length (expect_some h2)
    have l4 := skipWs_length s2
    simp only [List.length_cons] at l3
    have own : ∀ k', (k', JVal.str t) = (k1, v) → t.length + 4 ≤ s.length := by
      intro k' he
      obtain ⟨-, rfl⟩ := Prod.mk.inj he
      have := scanValue_str h3
      omega
    rcases h4 with rfl | ⟨s4, s5, d', h5, h6, h7, rfl⟩
    · exact own k (List.mem_singleton.1 hm)
    · rcases List.mem_cons.1 hm with hm | hm
      · exact own k hm
      · have := ih s5 d' h7 hm
        have l5 := scanValue_length h3
        have l6 := skipWs_length s3
        have l7 := congrArg List.length (expect_some h5)
        have l8 := skipWs_length s4
        have l9 := congrArg List.length (expect_some h6)
        simp only [List.length_cons] at l7 l9
        omega

/-- The pairs before a part of the document that may be anything. -/
theorem scanPairs_front (enc : Str → Str) (d : Dict) (hne : d ≠ []) (h : GoodDict enc d) (n : Nat) (s : Str) :
    scanPairs (d.length + n) (genItems enc d ++ ',' :: '\n' :: ' ' :: '"' :: s) =
      (scanPairs n s).map fun p => (d ++ p.1, p.2) := by
  match d with
  | [] => exact absurd rfl hne
  | [(k, v)] =>
    have e : genItems enc [(k, v)] ++ ',' :: '\n' :: ' ' :: '"' :: s =
        enc k ++ ('"' :: ':' :: ' ' :: (genVal enc v ++ ',' :: '\n' :: ' ' :: '"' :: s)) := by
      simp [genItems]
    rw [e, List.length_singleton, Nat.add_comm, scanPairs_head enc k v (h k (by simp [Spec.texts]))
      (by rintro t rfl; exact h t (by simp [Spec.texts]))]
    rw [show skipWs (',' :: '\n' :: ' ' :: '"' :: s) = ',' :: '\n' :: ' ' :: '"' :: s from rfl, expect_ne _ _ _ (by decide),
      expect_self]
    simp only
    rw [show skipWs ('\n' :: ' ' :: '"' :: s) = '"' :: s from rfl, expect_self]
    simp only
    cases scanPairs n s <;> rfl
  | (k, v) :: e :: d =>
    have e1 : genItems enc ((k, v) :: e :: d) ++ ',' :: '\n' :: ' ' :: '"' :: s =
        enc k ++ ('"' :: ':' :: ' ' :: (genVal enc v ++ ',' :: '\n' :: ' ' :: '"' ::
          (genItems enc (e :: d) ++ ',' :: '\n' :: ' ' :: '"' :: s))) := by
      simp [genItems]
    have ih := scanPairs_front enc (e :: d) (by simp) (fun t ht => h t (by
      rw [Spec.texts, List.flatMap_cons]; exact List.mem_append_right _ ht)) n s
    rw [e1, show ((k, v) :: e :: d).length + n = ((e :: d).length + n) + 1 by simp only [List.length_cons]; omega,
      scanPairs_head enc k v (h k (by simp [Spec.texts])) (by rintro t rfl; exact h t (by simp [Spec.texts]))]
    rw [show ∀ r, skipWs (',' :: '\n' :: ' ' :: '"' :: r) = ',' :: '\n' :: ' ' :: '"' :: r from fun r => rfl,
      expect_ne _ _ _ (by decide), expect_self]
    simp only
    rw [show ∀ r, skipWs ('\n' :: ' ' :: '"' :: r) = '"' :: r from fun r => rfl, expect_self]
    simp only
    rw [ih]
    cases scanPairs n s <;> rfl

theorem genItems_snoc (enc : Str → Str) (d : Dict) (hne : d ≠ []) (k : Str) (v : JVal) :
    genItems enc (d ++ [(k, v)]) =
      genItems enc d ++ ',' :: '\n' :: ' ' :: '"' :: (enc k ++ ('"' :: ':' :: ' ' :: genVal enc v)) := by
  match d with
  | [] => exact absurd rfl hne
  | [(k', v')] => simp [genItems]
  | (k', v') :: e :: d =>
    have ih := genItems_snoc enc (e :: d) (by simp) k v
    rw [List.cons_append] at ih
    rw [List.cons_append, List.cons_append, genItems, ih, genItems]
    simp

theorem genDoc_snoc (enc : Str → Str) (d : Dict) (hne : d ≠ []) (k : Str) (v : JVal) :
    genDoc enc (d ++ [(k, v)]) = '{' :: '\n' :: ' ' :: '"' :: (genItems enc d ++ (',' :: '\n' :: ' ' :: '"' ::
      (enc k ++ ('"' :: ':' :: ' ' :: (genVal enc v ++ ['\n', '}']))))) := by
  have : genDoc enc (d ++ [(k, v)]) = '{' :: '\n' :: ' ' :: '"' :: (genItems enc (d ++ [(k, v)]) ++ ['\n', '}']) := by
    cases d with
    | nil => exact absurd rfl hne
    | cons e d => rfl
  rw [this, genItems_snoc enc d hne]
  simp

theorem mem_of_get {d : Dict} {k : Str} {v : JVal} (h : d.get k = some v) : (k, v) ∈ d := by
  simp only [Dict.get, Option.map_eq_some_iff] at h
  obtain ⟨e, he, rfl⟩ := h
  have h1 := List.mem_of_find?_eq_some he
  have h2 := List.find?_some he
  simp only [beq_iff_eq] at h2
  rw [← h2]
  exact List.mem_reverse.1 h1

/-- Reading a document with one text, the last one, that was not escaped. -/
theorem loads_last (d : Dict) (hne : d ≠ []) (h : ∀ t ∈ Spec.texts d, Clean t) (k t : Str) (hk : Clean k)
    (hkd : ∀ v, (k, v) ∉ d) (d' : Dict) (hl : loads (genDoc id (d ++ [(k, .str t)]) ++ ['\n']) = some d')
    (hg : d'.get k = some (.str t)) : Clean t := by
  have hgood : GoodDict id d := fun t ht => good_raw t (h t ht)
  have e0 : genDoc id (d ++ [(k, .str t)]) ++ ['\n'] = '{' :: '\n' :: ' ' :: '"' :: (genItems id d ++ ',' :: '\n' :: ' ' :: '"' ::
      (k ++ '"' :: (':' :: ' ' :: '"' :: (t ++ '"' :: '\n' :: ['}', '\n'])))) := by
    rw [genDoc_snoc id d hne]
    simp [genVal]
  rw [e0, loads, show ∀ s, skipWs ('{' :: s) = '{' :: s from fun s => rfl, scanObject, expect_self] at hl
  simp only at hl
  rw [show ∀ s, skipWs ('\n' :: ' ' :: '"' :: s) = '"' :: s from fun s => rfl, expect_ne _ _ _ (by decide), expect_self] at hl
  simp only at hl
  have hlen := genItems_length id d
  obtain ⟨m, hm⟩ : ∃ m, (genItems id d ++ ',' :: '\n' :: ' ' :: '"' :: (k ++ '"' :: (':' :: ' ' :: '"' ::
      (t ++ '"' :: '\n' :: ['}', '\n'])))).length + 1 = d.length + (m + 1) :=
    ⟨_ - (d.length + 1), by rw [List.length_append]; exact (Nat.add_sub_of_le (show d.length + 1 ≤ _ by omega)).symm.trans (Nat.add_right_comm _ _ _)⟩
  rw [hm, scanPairs_front id d hne hgood] at hl
  cases hp : scanPairs (m + 1) (k ++ '"' :: (':' :: ' ' :: '"' :: (t ++ '"' :: '\n' :: ['}', '\n']))) with
  | none => rw [hp] at hl; simp at hl
  | some p =>
    obtain ⟨d2, s'⟩ := p
    rw [hp] at hl
    simp only [Option.map_some] at hl
    split at hl
    · simp only [Option.some.injEq] at hl
      subst d'
      have hmem := mem_of_get hg
      rcases List.mem_append.1 hmem with hmem | hmem
      · exact absurd hmem (hkd _)
      obtain ⟨k1, s1, s2, v, s3, h1, h2, h3, h4⟩ := scanPairs_inv hp
      have h1' := good_raw k hk _ (':' :: ' ' :: '"' :: (t ++ '"' :: '\n' :: ['}', '\n'])) (Nat.lt_succ_self _ : _ < (id k).length + 1)
      have h1'' := good_raw k hk ((k ++ '"' :: (':' :: ' ' :: '"' :: (t ++ '"' :: '\n' :: ['}', '\n']))).length + 1)
        (':' :: ' ' :: '"' :: (t ++ '"' :: '\n' :: ['}', '\n'])) (by rw [List.length_append, id]; omega)
      rw [id] at h1''
      rw [h1''] at h1
      simp only [Option.some.injEq, Prod.mk.injEq] at h1
      obtain ⟨rfl, rfl⟩ := h1
      rw [show ∀ s, skipWs (':' :: s) = ':' :: s from fun s => rfl, expect_self] at h2
      simp only [Option.some.injEq] at h2
      subst s2
      rw [show ∀ s, skipWs (' ' :: '"' :: s) = '"' :: s from fun s => rfl, scanValue, expect_self] at h3
      simp only [Option.map_eq_some_iff, Prod.mk.injEq] at h3
      obtain ⟨⟨r, s4⟩, hr, rfl, rfl⟩ := h3
      rcases scanString_raw _ _ _ _ _ hr with ⟨-, -, hc⟩ | ⟨i1, i2⟩
      · exact hc
      · exfalso
        rcases h4 with rfl | ⟨s5, s6, d3, h5, h6, h7, rfl⟩
        · simp only [List.mem_singleton, Prod.mk.injEq, JVal.str.injEq, true_and] at hmem
          rw [hmem] at i1
          omega
        · rcases List.mem_cons.1 hmem with hmem | hmem
          · simp only [Prod.mk.injEq, JVal.str.injEq, true_and] at hmem
            rw [hmem] at i1
            omega
          · have := scanPairs_values _ _ _ _ h7 _ _ hmem
            have l6 := skipWs_length s4
            have l7 := congrArg List.length (expect_some h5)
            have l8 := skipWs_length s5
            have l9 := congrArg List.length (expect_some h6)
            simp only [List.length_cons, List.length_nil] at l7 l9 i2
            omega
    · simp at hl

/-- A file whose last text may be anything: the package finds this text only if it can be read. -/
theorem module_last (d0 : Dict) (hne : d0 ≠ []) (hfront : ∀ t ∈ Spec.texts d0, Spec.Readable t) (k t : Str) (hk : Spec.Readable k)
    (hkd : ∀ v, (k, v) ∉ d0) (d : Dict)
    (hm : (match lit ('\n' :: (genDoc (·.flatMap jsonChar) (d0 ++ [(k, .str t)]) ++ ('\n' :: '\'' :: '\'' :: '\'' :: fileRest))) with
      | some (text, rest) => if rest = fileRest then loads text else none
      | none => none) = some d) (hg : d.get k = some (.str t)) : Spec.Readable t := by
  have e1 : '\n' :: (genDoc (·.flatMap jsonChar) (d0 ++ [(k, .str t)]) ++ ('\n' :: '\'' :: '\'' :: '\'' :: fileRest)) =
      ['\n', '{', '\n', ' ', '"'] ++ (genItems (·.flatMap jsonChar) d0 ++ ([',', '\n', ' ', '"'] ++ (k.flatMap jsonChar ++
        ('"' :: ':' :: ' ' :: (['"'] ++ (t.flatMap jsonChar ++ '"' :: ('\n' :: '}' :: '\n' ::
          ('\'' :: '\'' :: '\'' :: fileRest)))))))) := by
    rw [genDoc_snoc _ _ hne]
    simp [genVal]
  rw [e1, lit_plain _ _ (by decide), lit_items _ _ hfront, lit_plain [',', '\n', ' ', '"'] _ (by decide), lit_key _ _ hk,
    lit_plain ['"'] _ (by decide)] at hm
  by_cases hq : Spec.HasQuotes t
  · exfalso
    cases hlit : lit (t.flatMap jsonChar ++ '"' :: ('\n' :: '}' :: '\n' :: ('\'' :: '\'' :: '\'' :: fileRest))) with
    | none => rw [hlit] at hm; simp at hm
    | some p =>
      obtain ⟨x, r⟩ := p
      have hlen := lit_quotes _ _ _ _ hq hlit
      rw [hlit] at hm
      simp only [Option.map_some] at hm
      split at hm
      · rename_i hr
        subst r
        simp only [List.length_cons] at hlen
        omega
      · simp at hm
  · rw [lit_text _ _ hq] at hm
    by_cases hb : ∀ c ∈ t, c.toNat < 0x10000
    · rw [if_pos hb, show '"' :: '\n' :: '}' :: '\n' :: ('\'' :: '\'' :: '\'' :: fileRest) =
        ['"', '\n', '}', '\n'] ++ ('\'' :: '\'' :: '\'' :: fileRest) from rfl, lit_plain _ _ (by decide), lit_end] at hm
      simp only [Option.map_some, if_true] at hm
      have hdoc : ['\n', '{', '\n', ' ', '"'] ++ (genItems id d0 ++ ([',', '\n', ' ', '"'] ++ ((k ++ ['"', ':', ' ']) ++
          (['"'] ++ (t ++ (['"', '\n', '}', '\n'] ++ [])))))) =
          '\n' :: (genDoc id (d0 ++ [(k, .str t)]) ++ ['\n']) := by
        rw [genDoc_snoc _ _ hne]
        simp [genVal]
      rw [hdoc, loads_newline] at hm
      have hc := loads_last _ hne (fun t ht c hc => ⟨((hfront t ht).1 c hc).1, ((hfront t ht).1 c hc).2.1,
        ((hfront t ht).1 c hc).2.2.1⟩) _ _ (fun c hc => ⟨(hk.1 c hc).1, (hk.1 c hc).2.1, (hk.1 c hc).2.2.1⟩) hkd d hm hg
      exact ⟨fun c hm => ⟨(hc c hm).1, (hc c hm).2.1, (hc c hm).2.2, hb c hm⟩, hq⟩
    · rw [if_neg hb] at hm
      simp at hm

/-! ### The dictionary of a version -/

theorem sortItems_dict (i : Info) : sortItems i.dict =
    [("date".toList, optStr i.date), ("dirty".toList, match i.dirty with | some b => .bool b | none => .null),
      ("error".toList, optStr i.error), ("full-revisionid".toList, optStr i.full)] ++ [("version".toList, .str i.version)] := by
  rfl

theorem readable_key (k : Str) (h : k.all fun c => c ≠ '"' && c ≠ '\\' && 32 ≤ c.toNat && c.toNat < 0x10000 && c ≠ '\'') :
    Spec.Readable k := by
  rw [List.all_eq_true] at h
  simp only [Bool.and_eq_true, decide_eq_true_eq] at h
  refine ⟨fun c hc => ⟨(h c hc).1.1.1.1, (h c hc).1.1.1.2, (h c hc).1.1.2, (h c hc).1.2⟩, ?_⟩
  rintro ⟨a, b, rfl⟩
  exact (h '\'' (by simp)).2 rfl

theorem texts_front (i : Info) (hd : ∀ t, i.date = some t → Spec.Readable t) (he : ∀ t, i.error = some t → Spec.Readable t)
    (hf : ∀ t, i.full = some t → Spec.Readable t) :
    ∀ t ∈ Spec.texts [("date".toList, optStr i.date), ("dirty".toList, match i.dirty with | some b => .bool b | none => .null),
      ("error".toList, optStr i.error), ("full-revisionid".toList, optStr i.full)], Spec.Readable t := by
  intro t ht
  have opt : ∀ o : Option Str, (∀ t, o = some t → Spec.Readable t) →
      t ∈ (match optStr o with | .str s => [s] | _ => []) → Spec.Readable t := by
    intro o ho hm
    cases o with
    | none => simp [optStr] at hm
    | some s => simp only [optStr, List.mem_singleton] at hm; exact ho t (by rw [hm])
  simp only [Spec.texts, List.flatMap_cons, List.flatMap_nil, List.append_nil, List.cons_append, List.mem_cons, List.mem_append] at ht
  rcases ht with rfl | ht | rfl | ht | rfl | ht | rfl | ht
  · exact readable_key _ (by decide)
  · exact opt _ hd ht
  · exact readable_key _ (by decide)
  · exfalso
    cases hb : i.dirty <;> simp [hb] at ht
  · exact readable_key _ (by decide)
  · exact opt _ he ht
  · exact readable_key _ (by decide)
  · exact opt _ hf ht

/-! ### Theorems -/

/-- C88.  `setup.py` of an unpacked distribution finds exactly the dictionary that was written when the distribution was made,
whatever the texts in it are, and whatever git and the names of the directories are there. -/
theorem C88_setup (d : Dict) (cfg : Config) (g : Git) (root : List Str) :
    ∃ d', setupVersions (some (versionFile d)) cfg g root = .ok d' ∧ versionsFromFile (some (versionFile d)) = .ok d' ∧
      d'.Perm d := by
  refine ⟨sortItems d, ?_, versionsFromFile_versionFile d, sortItems_perm d⟩
  rw [setupVersions, gitGetKeywords_versionFile, versionsFromFile_versionFile]
  rfl

/-- C88.  The written file has ASCII characters only, so it does not depend on the encoding of files. -/
theorem C88_ascii (d : Dict) : ∀ c ∈ versionFile d, c = '\n' ∨ 32 ≤ c.toNat ∧ c.toNat ≤ 126 := by
  have h1 : ∀ c ∈ fileHead, c = '\n' ∨ 32 ≤ c.toNat ∧ c.toNat ≤ 126 := by decide +kernel
  have h2 : ∀ c ∈ '\n' :: '\'' :: '\'' :: '\'' :: fileRest, c = '\n' ∨ 32 ≤ c.toNat ∧ c.toNat ≤ 126 := by decide +kernel
  intro c hc
  rw [versionFile, dumps_eq, List.mem_append, List.mem_append] at hc
  rcases hc with hc | hc | hc
  · exact h1 c hc
  · cases hs : sortItems d with
    | nil =>
      rw [hs] at hc
      exact (show ∀ c ∈ ['{', '}'], c = '\n' ∨ 32 ≤ c.toNat ∧ c.toNat ≤ 126 by decide) c hc
    | cons e d =>
      rw [hs] at hc
      simp only [genDoc, List.mem_cons, List.mem_append, List.not_mem_nil, or_false] at hc
      rcases hc with rfl | rfl | rfl | rfl | hc | rfl | rfl
      · exact Or.inr (by decide)
      · exact Or.inl rfl
      · exact Or.inr (by decide)
      · exact Or.inr (by decide)
      · exact genItems_range _ c hc
      · exact Or.inl rfl
      · exact Or.inr (by decide)
  · exact h2 c hc

/-- C88.  The installed package finds the dictionary too, if its texts can be read. -/
theorem C88_package (d : Dict) (h : ∀ t ∈ Spec.texts d, Spec.Readable t) :
    ∃ d', moduleVersions (versionFile d) = some d' ∧ d'.Perm d :=
  ⟨sortItems d, moduleVersions_readable d h, sortItems_perm d⟩

/-- C88, a defect.  Python evaluates the escapes of the literal before the JSON document is read.  So the installed package does
not find the version if it holds a double quote, a backslash, a character below the blank, one outside the basic plane, or three
single quotes in a row. -/
theorem C88_package_version (i : Info) (hd : ∀ t, i.date = some t → Spec.Readable t)
    (he : ∀ t, i.error = some t → Spec.Readable t) (hf : ∀ t, i.full = some t → Spec.Readable t) :
    (∃ d, moduleVersions (versionFile i.dict) = some d ∧ d.get "version".toList = some (.str i.version)) ↔
      Spec.Readable i.version := by
  have hfront := texts_front i hd he hf
  have hver : Spec.Readable "version".toList := readable_key _ (by decide)
  constructor
  · rintro ⟨d, hm, hg⟩
    rw [moduleVersions_eq, dumps_eq, sortItems_dict] at hm
    exact module_last _ (by simp) hfront _ _ hver (fun v hv => by simp at hv) d hm hg
  · intro hv
    refine ⟨sortItems i.dict, moduleVersions_readable _ ?_, ?_⟩
    · intro t ht
      have : t ∈ Spec.texts (sortItems i.dict) := by
        simp only [Spec.texts, List.mem_flatMap] at ht ⊢
        obtain ⟨e, he, ht⟩ := ht
        exact ⟨e, (sortItems_perm _).mem_iff.2 he, ht⟩
      rw [sortItems_dict, Spec.texts, List.flatMap_append] at this
      rcases List.mem_append.1 this with hm | hm
      · exact hfront t hm
      · simp only [List.flatMap_cons, List.flatMap_nil, List.append_nil, List.mem_cons, List.not_mem_nil, or_false] at hm
        rcases hm with rfl | rfl
        · exact hver
        · exact hv
    · rw [sortItems_dict]
      simp [Dict.get]

/-! ### Examples -/

/-- A version with a double quote, as the tag `v1"0` gives it (git allows such tags). -/
def exampleQuote : Info :=
  { version := "1\"0".toList, full := some "0a1b2c".toList, dirty := some false, error := none, date := some "2020-04-18".toList }

/-- `setup.py` reads it back, the package does not. -/
example : (versionsFromFile (some (versionFile exampleQuote.dict))).toOption =
      some [("date".toList, .str "2020-04-18".toList), ("dirty".toList, .bool false), ("error".toList, .null),
        ("full-revisionid".toList, .str "0a1b2c".toList), ("version".toList, .str "1\"0".toList)] ∧
    moduleVersions (versionFile exampleQuote.dict) = none := by decide +kernel

/-- A version that changes another entry of the dictionary. -/
example : (moduleVersions (versionFile { exampleQuote with version := "1.0\", \"date\": \"today".toList }.dict)).map (·.get "date".toList) =
    some (some (.str "today".toList)) := by decide +kernel

/-- A version that can be read, with a letter that is not ASCII and two single quotes. -/
example : (moduleVersions (versionFile { exampleQuote with version := "1.0é''".toList }.dict)).map (·.get "version".toList) =
    some (some (.str "1.0é''".toList)) := by decide +kernel

example : Spec.Readable "1.0é''".toList := by
  refine ⟨by unfold Spec.Tame; decide +kernel, ?_⟩
  rintro ⟨a, b, h⟩
  have h := congrArg (List.count '\'') h
  simp only [List.count_append, List.count_cons_self] at h
  have : List.count '\'' "1.0é''".toList = 2 := by decide +kernel
  omega

end Version
end Gcs
