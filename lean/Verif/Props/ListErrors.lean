import Verif.Props.Objects
import Verif.Props.Setting

/-!
# C85: which exception a list with missing items raises
-/

namespace Gcs

open Spec

variable {V : Type}

/-- Why there is nothing at the index `ix` of a list: at some item of the index, the list found so far is too short
(`IndexError`), or what is found so far is not a list: `TypeError`, or `AssertionError` if it is the object itself. -/
def Spec.Misses (n : Nested V) (ix : List Int) (e : PyErr) : Prop :=
  ∃ before i after, ix = before ++ i :: after ∧
    ((∃ items, place n before = some (.seq items) ∧ (items.length : Int) ≤ i ∧ e = .index) ∨
      ∃ v, place n before = some (.leaf v) ∧ ((before = [] ∧ e = .assertion) ∨ (before ≠ [] ∧ e = .type)))

/-! ### Proofs -/

theorem place_append (n : Nested V) (p q : List Int) (x : Nested V) (h : place n p = some x) : place n (p ++ q) = place x q := by
  induction p generalizing n with
  | nil =>
    simp only [place, Option.some.injEq] at h
    rw [List.nil_append, h]
  | cons i p ih =>
    cases n with
    | leaf v => cases h
    | seq items =>
      simp only [place] at h
      split at h
      · next h0 =>
        cases hx : items[i.toNat]? with
        | none => rw [hx] at h; cases h
        | some y =>
          rw [hx] at h
          simp only [List.cons_append, place, if_pos h0, hx, Option.bind_some]
          exact ih y h
      · cases h

/-- Something that is missed is not there. -/
theorem misses_place (n : Nested V) (ix : List Int) (e : PyErr) (h : Spec.Misses n ix e) : place n ix = none := by
  obtain ⟨p, i, r, rfl, ⟨items, h1, h2, _⟩ | ⟨v, h1, _⟩⟩ := h
  · rw [place_append n p _ _ h1]
    simp only [place]
    split
    · rw [List.getElem?_eq_none (by omega)]
      rfl
    · rfl
  · rw [place_append n p _ _ h1]
    rfl

/-- Inside of a list. -/
theorem walk_misses (O : Objects V) (n : Nested V) (ix : List Int) (h0 : ∀ i ∈ ix, 0 ≤ i) (hm : place n ix = none) :
    ∃ before i after, ix = before ++ i :: after ∧
    ((∃ items, place n before = some (.seq items) ∧ (items.length : Int) ≤ i ∧ n.walkObj O ix = .error .index ∧
        n.walk ix = .error .index) ∨
      ∃ v, place n before = some (.leaf v) ∧ n.walkObj O ix = .error .type ∧ n.walk ix = .error .type) := by
  induction ix generalizing n with
  | nil => simp [place] at hm
  | cons i ix ih =>
    cases n with
    | leaf v => exact ⟨[], i, ix, rfl, .inr ⟨v, rfl, rfl, rfl⟩⟩
    | seq items =>
      have hi : 0 ≤ i := h0 i (by simp)
      simp only [place, if_pos hi] at hm
      cases hx : items[i.toNat]? with
      | none =>
        refine ⟨[], i, ix, rfl, .inl ⟨items, rfl, ?_, ?_, ?_⟩⟩
        · have := List.getElem?_eq_none_iff.1 hx
          omega
        · simp only [Nested.walkObj, pyGet, if_pos hi, hx, bind, Except.bind]
        · simp only [Nested.walk, pyGet, if_pos hi, hx, bind, Except.bind]
      | some x =>
        rw [hx] at hm
        have e1 : (Nested.seq items).walkObj O (i :: ix) = x.walkObj O ix := by
          simp only [Nested.walkObj, pyGet, if_pos hi, hx, bind, Except.bind]
        have e2 : (Nested.seq items).walk (i :: ix) = x.walk ix := by
          simp only [Nested.walk, pyGet, if_pos hi, hx, bind, Except.bind]
        obtain ⟨p, j, r, rfl, h⟩ := ih x (fun k hk => h0 k (by simp [hk])) hm
        have e3 : place (Nested.seq items) (i :: p) = place x p := by
          simp only [place, if_pos hi, hx, Option.bind_some]
        refine ⟨i :: p, j, r, rfl, ?_⟩
        rw [e1, e2, e3]
        exact h

theorem getValue_misses (O : Objects V) (n : Nested V) (ix : List Int) (h0 : ∀ i ∈ ix, 0 ≤ i) (hm : place n ix = none) :
    ∃ e, Spec.Misses n ix e ∧ n.getValueObj O ix = .error e ∧ n.getValue ix = .error e := by
  cases ix with
  | nil => simp [place] at hm
  | cons i ix =>
    cases n with
    | leaf v => exact ⟨.assertion, ⟨[], i, ix, rfl, .inr ⟨v, rfl, .inl ⟨rfl, rfl⟩⟩⟩, rfl, rfl⟩
    | seq items =>
      obtain ⟨p, j, r, he, ⟨its, h1, h2, h3, h4⟩ | ⟨v, h1, h3, h4⟩⟩ := walk_misses O (.seq items) (i :: ix) h0 hm
      · exact ⟨.index, ⟨p, j, r, he, .inl ⟨its, h1, h2, rfl⟩⟩, h3, h4⟩
      · refine ⟨.type, ⟨p, j, r, he, .inr ⟨v, h1, .inr ⟨?_, rfl⟩⟩⟩, h3, h4⟩
        rintro rfl
        cases h1

/-- The reason is unique. -/
theorem misses_unique (n : Nested V) (ix : List Int) (e e' : PyErr) (h0 : ∀ i ∈ ix, 0 ≤ i) (h : Spec.Misses n ix e)
    (h' : Spec.Misses n ix e') : e = e' := by
  obtain ⟨p, i, r, he, hx⟩ := h
  obtain ⟨p', i', r', he', hx'⟩ := h'
  -- the two places are the same: beyond the shorter one there is nothing
  have key : ∀ (p q : List Int) (i : Int) (r : List Int), ix = p ++ i :: r →
      (∃ items, place n p = some (.seq items) ∧ (items.length : Int) ≤ i) ∨ (∃ v, place n p = some (.leaf v)) →
      (∃ x, place n q = some x) → (∃ j s, ix = q ++ j :: s) → q.length ≤ p.length := by
    intro p q i r h1 h2 h3 h4
    obtain ⟨j, s, h4⟩ := h4
    refine Classical.byContradiction fun hlt => ?_
    obtain ⟨r', hq⟩ : ∃ r', q = p ++ i :: r' := by
      have g1 : p ++ [i] <+: ix := ⟨r, by rw [h1]; simp⟩
      have g2 : q <+: ix := ⟨j :: s, h4.symm⟩
      obtain ⟨r', hr'⟩ := List.prefix_of_prefix_length_le g1 g2 (by simp; omega)
      exact ⟨r', by rw [← hr']; simp⟩
    obtain ⟨x, hx⟩ := h3
    have : place n q = none := by
      rw [hq]
      apply misses_place n _ .index
      rcases h2 with ⟨items, h2, h5⟩ | ⟨v, h2⟩
      · exact ⟨p, i, _, rfl, .inl ⟨items, h2, h5, rfl⟩⟩
      · rw [← hq]
        exfalso
        rw [hq, place_append n p _ _ h2] at hx
        cases hx
    rw [this] at hx
    cases hx
  have w1 : (∃ items, place n p = some (.seq items) ∧ (items.length : Int) ≤ i) ∨ (∃ v, place n p = some (.leaf v)) := by
    rcases hx with ⟨items, h1, h2, _⟩ | ⟨v, h1, _⟩
    · exact .inl ⟨items, h1, h2⟩
    · exact .inr ⟨v, h1⟩
  have w2 : (∃ items, place n p' = some (.seq items) ∧ (items.length : Int) ≤ i') ∨ (∃ v, place n p' = some (.leaf v)) := by
    rcases hx' with ⟨items, h1, h2, _⟩ | ⟨v, h1, _⟩
    · exact .inl ⟨items, h1, h2⟩
    · exact .inr ⟨v, h1⟩
  have v1 : ∃ x, place n p = some x := by rcases w1 with ⟨x, h, _⟩ | ⟨x, h⟩ <;> exact ⟨_, h⟩
  have v2 : ∃ x, place n p' = some x := by rcases w2 with ⟨x, h, _⟩ | ⟨x, h⟩ <;> exact ⟨_, h⟩
  have l1 := key p p' i r he w1 v2 ⟨i', r', he'⟩
  have l2 := key p' p i' r' he' w2 v1 ⟨i, r, he⟩
  have hpp : p = p' := by
    have e1 : ix.take p.length = p := by rw [he]; simp
    have e2 : ix.take p'.length = p' := by rw [he']; simp
    rw [← e1, ← e2, show p.length = p'.length by omega]
  subst hpp
  rcases hx with ⟨items, h1, h2, rfl⟩ | ⟨v, h1, hx⟩ <;> rcases hx' with ⟨items', h1', h2', rfl⟩ | ⟨v', h1', hx'⟩
  · rfl
  · rw [h1] at h1'; cases h1'
  · rw [h1] at h1'; cases h1'
  · rcases hx with ⟨a, rfl⟩ | ⟨a, rfl⟩ <;> rcases hx' with ⟨b, rfl⟩ | ⟨b, rfl⟩ <;> first | rfl | exact absurd a b | exact absurd b a

/-- C85.  `get_value(n, ix)` of a list and an index counted from zero raises exactly if there is nothing at the index, and
the exception is the one of the first item of the index that cannot be followed. -/
theorem C85_get_value (O : Objects V) (n : Nested V) (ix : List Int) (h0 : ∀ i ∈ ix, 0 ≤ i) (e : PyErr) :
    n.getValueObj O ix = .error e ↔ Spec.Misses n ix e := by
  constructor
  · intro h
    cases hm : place n ix with
    | some x =>
      rw [getValueObj_of_place O n ix x hm] at h
      cases h
    | none =>
      obtain ⟨e', h1, h2, _⟩ := getValue_misses O n ix h0 hm
      rw [h2] at h
      cases h
      exact h1
  · intro h
    obtain ⟨e', h1, h2, _⟩ := getValue_misses O n ix h0 (misses_place n ix e h)
    rw [h2, misses_unique n ix e' e h0 h1 h]

/-- C85.  The model without lists as values (`Model/Storage.lean`) raises the same where there is nothing. -/
theorem C85_agrees (O : Objects V) (n : Nested V) (ix : List Int) (h0 : ∀ i ∈ ix, 0 ≤ i) (h : place n ix = none) :
    n.getValue ix = n.getValueObj O ix := by
  obtain ⟨e, _, h1, h2⟩ := getValue_misses O n ix h0 h
  rw [h1, h2]

theorem mapM_first {α β : Type} (f : α → PyM β) (l1 l2 : List α) (x : α) (h1 : ∀ y ∈ l1, ∃ r, f y = .ok r) (e : PyErr)
    (he : f x = .error e) : (l1 ++ x :: l2).mapM f = .error e := by
  induction l1 with
  | nil => rw [List.nil_append, List.mapM_cons, he]; rfl
  | cons a l1 ih =>
    obtain ⟨r, hr⟩ := h1 a (by simp)
    rw [List.cons_append, List.mapM_cons, hr, ih fun y hy => h1 y (by simp [hy])]
    rfl

/-- The indices of a box before one of them. -/
theorem box_split (shape : List Nat) (ix : List Int) (hi : InBox ix shape) :
    ∃ l1 l2, indexProduct shape = l1 ++ ix :: l2 ∧ ∀ iy ∈ l1, InBox iy shape ∧ lexLt iy ix := by
  obtain ⟨l1, l2, h⟩ := List.append_of_mem ((mem_indexProduct _ _).2 hi)
  refine ⟨l1, l2, h, fun iy hy => ⟨?_, ?_⟩⟩
  · rw [← mem_indexProduct, h]
    simp [hy]
  · have hs := indexProduct_sorted shape
    rw [h] at hs
    exact (List.pairwise_append.1 hs).2.2 iy hy ix (by simp)

theorem buildFlat_first [DecidableEq V] (cls : Cls) (hc : cls ≠ .dm) (shape : List Nat) (value : List Int → PyM V) (su u : V)
    (ix : List Int) (hi : InBox ix shape) (hpre : ∀ iy, InBox iy shape → lexLt iy ix → ∃ v, value iy = .ok v) (e : PyErr)
    (he : value ix = .error e) : buildFlat cls shape value su u = .error e := by
  obtain ⟨l1, l2, hs, hl⟩ := box_split shape ix hi
  have h1 := mapM_first (fun ix => do
    let v ← value ix
    return if v = su then u else v) l1 l2 ix (fun y hy => by
      obtain ⟨v, hv⟩ := hpre y (hl y hy).1 (hl y hy).2
      exact ⟨_, by simp only [hv, bind, Except.bind]; rfl⟩) e (by simp only [he, bind, Except.bind])
  have h2 := mapM_first (fun ix => do
    let v ← value ix
    return (ix, if v = su then u else v)) l1 l2 ix (fun y hy => by
      obtain ⟨v, hv⟩ := hpre y (hl y hy).1 (hl y hy).2
      exact ⟨_, by simp only [hv, bind, Except.bind]; rfl⟩) e (by simp only [he, bind, Except.bind])
  rw [← hs] at h1 h2
  simp only [bind, Except.bind] at h1 h2
  cases cls with
  | buffer => simp only [buildFlat, bufferBuild, h1, bind, Except.bind]
  | strided => simp only [buildFlat, stridedBuild, bufferBuild, h1, bind, Except.bind]
  | coo => simp only [buildFlat, cooBuild, h2, bind, Except.bind]
  | flatcoo => simp only [buildFlat, flatBuild, h2, bind, Except.bind]
  | csr => simp only [buildFlat, csrBuild, cooBuild, h2, bind, Except.bind]
  | dm => exact absurd rfl hc

/-- C85.  `cls.fromobject(n)` raises the exception of the first index, in lexicographic order, of the shape of the first items
at which the list has nothing. -/
theorem C85_fromobject [DecidableEq V] [HasNone V] (O : Objects V) (cls : Cls) (hc : cls ≠ .dm) (n : Nested V) (shape : List Nat)
    (h : FirstShape n shape) (ix : List Int) (hi : InBox ix shape)
    (hpre : ∀ iy, InBox iy shape → lexLt iy ix → ∃ x, place n iy = some x) (e : PyErr) (he : Spec.Misses n ix e) (u : Option V) :
    fromObjectObj O cls (.nested n) u = .error e := by
  have hs : (Src.nested n).shape = shape := firstShape_eq h
  have hf := buildFlat_first cls hc shape ((Src.nested n).getValueObj O) pyNone (u.getD pyNone) ix hi
    (fun iy hy hlt => by
      obtain ⟨x, hx⟩ := hpre iy hy hlt
      exact ⟨_, getValueObj_of_place O n iy x hx⟩) e ((C85_get_value O n ix (inBox_nonneg hi) e).2 he)
  cases u <;> (
    simp only [fromObjectObj, hs]
    simp only [Src.unspec, bind, Except.bind]
    cases cls with
    | dm => exact absurd rfl hc
    | _ => simp only [hf])

/-- C85.  `s[index] = n` on a `Strided` raises the exception of the first index, in lexicographic order, of the selection at
which the list has nothing.  (C48 says what has been written by then.) -/
theorem C85_assign [DecidableEq V] (O : Objects V) (s : Strided V) (mem : List V) (h : s.WF mem) (hp : ∀ n ∈ s.shape, 0 < n)
    (index : Index) (hv : ValidItems (items index) s.shape) (n : Nested V) (j : List Int)
    (hj : InBox j (selShape (items index) s.shape))
    (hpre : ∀ k, InBox k (selShape (items index) s.shape) → lexLt k j → ∃ x, place n k = some x) (e : PyErr)
    (he : Spec.Misses n j e) : ((Storage.strided s).assignObj O mem index n).err = some e := by
  obtain ⟨l1, l2, hs, hl⟩ := box_split _ j hj
  have hset := Strided.setItem_stop h hp index hv (fun _ vi => n.getValueObj O vi)
    (fun k => ((place n k).map (itself O)).getD s.data.unspec) l1 l2 j e hs (by
      intro m _ k hk
      obtain ⟨x, hx⟩ := hpre k (hl k hk).1 (hl k hk).2
      simp only [getValueObj_of_place O n k x hx, hx, Option.map_some, Option.getD_some])
      (fun _ _ => (C85_get_value O n j (inBox_nonneg hj) e).2 he)
  simp only [Storage.assignObj, Storage.setItem, hset]

/-! ### Examples -/

/-- `[[1, 2], [3], 4]`. -/
def raggedList : Nested (Option Int) :=
  .seq [.seq [.leaf (some 1), .leaf (some 2)], .seq [.leaf (some 3)], .leaf (some 4)]

example : Spec.Misses raggedList [1, 1] .index ∧ Spec.Misses raggedList [2, 0] .type ∧
    Spec.Misses (.leaf (some 5) : Nested (Option Int)) [0] .assertion := by
  refine ⟨⟨[1], 1, [], rfl, .inl ⟨_, rfl, by decide, rfl⟩⟩, ⟨[2], 0, [], rfl, .inr ⟨_, rfl, .inr ⟨by simp, rfl⟩⟩⟩,
    ⟨[], 0, [], rfl, .inr ⟨_, rfl, .inl ⟨rfl, rfl⟩⟩⟩⟩

-- the shape of the first items is `(3, 2)`; the first index with nothing is `(1, 1)`
example (O : Objects (Option Int)) : fromObjectObj O .coo (.nested raggedList) none = .error .index :=
  C85_fromobject O .coo (by simp) raggedList [3, 2] (.seq _ _ _ (.seq _ _ _ (.leaf _))) [1, 1] (by simp [InBox]) (by
    intro iy hy hlt
    match iy, hy, hlt with
    | [a, b], ⟨h1, h2, _⟩, hlt =>
      have : (a = 0 ∧ b = 0) ∨ (a = 0 ∧ b = 1) ∨ (a = 1 ∧ b = 0) := by
        simp [lexLt] at hlt
        omega
      rcases this with ⟨rfl, rfl⟩ | ⟨rfl, rfl⟩ | ⟨rfl, rfl⟩ <;> exact ⟨_, rfl⟩) .index
    ⟨[1], 1, [], rfl, .inl ⟨_, rfl, by decide, rfl⟩⟩ none

end Gcs
