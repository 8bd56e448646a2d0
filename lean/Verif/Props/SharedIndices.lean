import Verif.Model.SharedIndices
import Verif.Props.Direct
import Verif.Props.AnyBuffer
import Verif.Lemmas.Keep

/-!
# C99: copies share the index arrays
-/

namespace Gcs

open Spec

variable {V : Type} [DecidableEq V]

/-- C99, `copy` of Model/Storage.lean is this one. -/
theorem C99_copy (h : IHeap) (s : SharedObj V) (mem : List V) (u : Option V) :
    (s.load h).copy mem u = (s.copy h mem u).map fun r => (r.1.load h, r.2) := by
  induction s generalizing mem with
  | dense s =>
    simp only [SharedObj.load, SharedObj.copy, bind, Except.bind, pure, Except.pure]
    cases s.copy mem u <;> rfl
  | coo shape indices a data =>
    simp only [SharedObj.load, SharedObj.copy, Storage.copy, COO.new, pyAssert, bind, Except.bind, pure, Except.pure]
    cases pyGet indices.shape 1 with
    | error e => rfl
    | ok n => by_cases hn : n = (data.copy mem u).1.size <;> simp [hn, Except.map, SharedObj.load]
  | flatcoo shape findices a data =>
    simp only [SharedObj.load, SharedObj.copy, Storage.copy, FlatCOO.new, pyAssert, bind, Except.bind, pure, Except.pure]
    by_cases hn : findices.size = (data.copy mem u).1.size <;> simp [hn, Except.map, SharedObj.load]
  | csr shape crow a col a' data =>
    simp only [SharedObj.load, SharedObj.copy, Storage.copy, CSR.new, pyAssert, bind, Except.bind, pure, Except.pure]
    by_cases h1 : shape.length = 2
    · cases h2 : pyGet shape 0 with
      | error e => simp [h1, Except.map]
      | ok n =>
        by_cases h3 : crow.size = n + 1 <;> by_cases h4 : col.size = (data.copy mem u).1.size <;>
          simp [h1, h3, h4, Except.map, SharedObj.load]
    · simp [h1, Except.map]
  | dm m d ih =>
    simp only [SharedObj.load, SharedObj.copy, Storage.copy, ih, bind, Except.bind, pure, Except.pure]
    cases d.copy h mem u with
    | error e => rfl
    | ok r =>
      simp only [Except.map]
      cases DMMeta.new m.shape m.rdims m.rstrides m.roffset <;> rfl

/-- C99.  An assignment to an index array of a copy is the same assignment to that of the original: the same lists are changed in
the same way, and it raises the same. -/
theorem C99_through_copy (h : IHeap) (s r : SharedObj V) (mem m : List V) (u : Option V) (hc : s.copy h mem u = .ok (r, m))
    (h' : IHeap) (st : IxStmt) : r.run h' st = s.run h' st := by
  induction s generalizing r mem m with
  | dense s =>
    simp only [SharedObj.copy, bind_eq_ok, pure_eq_ok] at hc
    obtain ⟨x, -, e⟩ := hc
    cases e
    rfl
  | coo shape indices a data =>
    simp only [SharedObj.copy, bind_eq_ok, pure_eq_ok] at hc
    obtain ⟨x, -, e⟩ := hc
    cases e
    cases st <;> rfl
  | flatcoo shape findices a data =>
    simp only [SharedObj.copy, bind_eq_ok, pure_eq_ok] at hc
    obtain ⟨x, -, e⟩ := hc
    cases e
    cases st <;> rfl
  | csr shape crow a col a' data =>
    simp only [SharedObj.copy, bind_eq_ok, pure_eq_ok] at hc
    obtain ⟨x, -, e⟩ := hc
    cases e
    cases st <;> rfl
  | dm mm d ih =>
    simp only [SharedObj.copy, bind_eq_ok, pure_eq_ok] at hc
    obtain ⟨x, h1, m', -, e⟩ := hc
    cases e
    have := ih x.1 mem x.2 h1
    cases st <;> simpa only [SharedObj.run] using this

/-- C99, the copy and the original have places for the same indices, whatever has been assigned to index arrays since. -/
theorem C99_same_places (h : IHeap) (s r : SharedObj V) (mem m : List V) (u : Option V) (hc : s.copy h mem u = .ok (r, m))
    (hd : ∀ d, s ≠ .dense d) (h' : IHeap) (ix : List Int) : HasPlace (r.load h') ix ↔ HasPlace (s.load h') ix := by
  cases s with
  | dense s => exact absurd rfl (hd s)
  | coo shape indices a data =>
    simp only [SharedObj.copy, bind_eq_ok, pure_eq_ok] at hc
    obtain ⟨x, -, e⟩ := hc
    cases e
    rfl
  | flatcoo shape findices a data =>
    simp only [SharedObj.copy, bind_eq_ok, pure_eq_ok] at hc
    obtain ⟨x, -, e⟩ := hc
    cases e
    rfl
  | csr shape crow a col a' data =>
    simp only [SharedObj.copy, bind_eq_ok, pure_eq_ok] at hc
    obtain ⟨x, -, e⟩ := hc
    cases e
    rfl
  | dm mm d =>
    simp only [SharedObj.copy, bind_eq_ok, pure_eq_ok] at hc
    obtain ⟨x, -, m', h2, e⟩ := hc
    cases e
    have : m'.shape = mm.shape := by rw [(DMMeta.new_inv h2).2.2]
    simp only [SharedObj.load, HasPlace, Storage.shape, this]

omit [DecidableEq V] in
theorem mapM_keys {P : Type} (f : List Int × P → PyM V) : ∀ (es : List (List Int × P)) (rs : List (Storage.Key × V)),
    (es.mapM fun e => do return (Storage.Key.tuple e.1, ← f e)) = .ok rs → rs.map Prod.fst = es.map fun e => .tuple e.1
  | [], rs, h => by
    simp only [List.mapM_nil, pure_eq_ok] at h
    subst h
    rfl
  | e :: es, rs, h => by
    simp only [List.mapM_cons, bind_eq_ok, pure_eq_ok] at h
    obtain ⟨x, ⟨v, -, rfl⟩, l, h2, rfl⟩ := h
    simp only [List.map_cons, mapM_keys f es l h2]

theorem entries_keys {m : DMMeta} {l : List (List Int × List Int)} (h : m.entries = .ok l) :
    l.map Prod.fst = indexProduct m.shape := by
  unfold DMMeta.entries at h
  generalize indexProduct m.shape = is at h
  induction is generalizing l with
  | nil =>
    simp only [List.mapM_nil, pure_eq_ok] at h
    subst h
    rfl
  | cons i is ih =>
    simp only [List.mapM_cons, bind_eq_ok, pure_eq_ok] at h
    obtain ⟨x, ⟨v, -, rfl⟩, t, h2, rfl⟩ := h
    simp only [List.map_cons, ih h2]

/-- C99, `elements()` of the copy and of the original of class `COO`, `FlatCOO`, `CSR` or `DM` give the same indices in the same
order, whatever has been assigned to index arrays and to elements since (the lists of the elements hold `ms` and `mr` now). -/
theorem C99_elements (h : IHeap) (s r : SharedObj V) (mem m : List V) (u : Option V) (hc : s.copy h mem u = .ok (r, m))
    (hd : ∀ d, s ≠ .dense d) (h' : IHeap) (ms mr : List V) (es er : List (Storage.Key × V))
    (e1 : (s.load h').elements ms = .ok es) (e2 : (r.load h').elements mr = .ok er) :
    es.map Prod.fst = er.map Prod.fst := by
  cases s with
  | dense s => exact absurd rfl (hd s)
  | coo shape indices a data =>
    simp only [SharedObj.copy, bind_eq_ok, pure_eq_ok] at hc
    obtain ⟨x, -, e⟩ := hc
    cases e
    simp only [SharedObj.load, Storage.elements, bind_eq_ok] at e1 e2
    obtain ⟨l, h1, h2⟩ := e1
    obtain ⟨l', h3, h4⟩ := e2
    have : l = l' := Except.ok.inj (h1.symm.trans h3)
    rw [mapM_keys _ _ _ h2, mapM_keys _ _ _ h4, this]
  | flatcoo shape findices a data =>
    simp only [SharedObj.copy, bind_eq_ok, pure_eq_ok] at hc
    obtain ⟨x, -, e⟩ := hc
    cases e
    simp only [SharedObj.load, Storage.elements, bind_eq_ok] at e1 e2
    obtain ⟨l, h1, h2⟩ := e1
    obtain ⟨l', h3, h4⟩ := e2
    have : l = l' := Except.ok.inj (h1.symm.trans h3)
    rw [mapM_keys _ _ _ h2, mapM_keys _ _ _ h4, this]
  | csr shape crow a col a' data =>
    simp only [SharedObj.copy, bind_eq_ok, pure_eq_ok] at hc
    obtain ⟨x, -, e⟩ := hc
    cases e
    simp only [SharedObj.load, Storage.elements, bind_eq_ok] at e1 e2
    obtain ⟨l, h1, h2⟩ := e1
    obtain ⟨l', h3, h4⟩ := e2
    have : l = l' := Except.ok.inj (h1.symm.trans h3)
    rw [mapM_keys _ _ _ h2, mapM_keys _ _ _ h4, this]
  | dm mm d =>
    simp only [SharedObj.copy, bind_eq_ok, pure_eq_ok] at hc
    obtain ⟨x, -, m', h2, e⟩ := hc
    cases e
    have hs : m'.shape = mm.shape := by rw [(DMMeta.new_inv h2).2.2]
    simp only [SharedObj.load, Storage.elements, bind_eq_ok] at e1 e2
    obtain ⟨l, h1, h2⟩ := e1
    obtain ⟨l', h3, h4⟩ := e2
    have k1 := entries_keys h1
    have k2 := entries_keys h3
    rw [hs, ← k1] at k2
    have := congrArg (List.map Storage.Key.tuple) k2
    simp only [List.map_map, Function.comp_def] at this
    rw [mapM_keys _ _ _ h2, mapM_keys _ _ _ h4, this]

/-- The addresses of the index arrays. -/
def Spec.indexLists : SharedObj V → List Nat
  | .dense _ => []
  | .coo _ _ a _ => [a]
  | .flatcoo _ _ a _ => [a]
  | .csr _ _ a _ a' _ => [a, a']
  | .dm _ d => indexLists d

omit [DecidableEq V] in
/-- C99, an object with other index arrays is not changed by an assignment to an index array. -/
theorem C99_others (h : IHeap) (s t : SharedObj V) (st : IxStmt) (hd : ∀ a ∈ indexLists s, a ∉ indexLists t) :
    t.load (s.run h st).1 = t.load h := by
  have key : ∀ (h' : IHeap), (∀ a ∈ indexLists t, h' a = h a) → t.load h' = t.load h := by
    intro h' he
    clear hd
    induction t with
    | dense s => rfl
    | coo shape indices a data => simp [SharedObj.load, he a (by simp [indexLists])]
    | flatcoo shape findices a data => simp [SharedObj.load, he a (by simp [indexLists])]
    | csr shape crow a col a' data => simp [SharedObj.load, he a (by simp [indexLists]), he a' (by simp [indexLists])]
    | dm m d ih => simp only [SharedObj.load, ih he]
  refine key _ fun b hb => ?_
  induction s with
  | dense s => rfl
  | coo shape indices a data =>
    have : b ≠ a := fun e => hd a (by simp [indexLists]) (e ▸ hb)
    cases st <;> simp [SharedObj.run, this]
  | flatcoo shape findices a data =>
    have : b ≠ a := fun e => hd a (by simp [indexLists]) (e ▸ hb)
    cases st <;> simp [SharedObj.run, this]
  | csr shape crow a col a' data =>
    have h1 : b ≠ a := fun e => hd a (by simp [indexLists]) (e ▸ hb)
    have h2 : b ≠ a' := fun e => hd a' (by simp [indexLists]) (e ▸ hb)
    cases st <;> simp [SharedObj.run, h1, h2]
  | dm m d ih => simpa only [SharedObj.run] using ih hd

/-- The names of the index arrays that are `Buffer` objects. -/
inductive Spec.ArrayName where
  | findices
  | crow
  | col

/-- `s.findices`, `s.crow_indices` or `s.col_indices` (for a `DM`, that of what it wraps) is the buffer `b` with the list at `a`. -/
inductive Spec.HasArray : SharedObj V → ArrayName → Buffer (Option Int) → Nat → Prop
  | findices {shape f a d} : HasArray (.flatcoo shape f a d) .findices f a
  | crow {shape b a c a' d} : HasArray (.csr shape b a c a' d) .crow b a
  | col {shape b a c a' d} : HasArray (.csr shape b a c a' d) .col c a'
  | dm {m d n b a} : HasArray d n b a → HasArray (.dm m d) n b a

/-- `s.indices` (for a `DM`, that of what it wraps) is the `Strided` object `x` with the list at `a`. -/
inductive Spec.HasIndices : SharedObj V → Strided (Option Int) → Nat → Prop
  | coo {shape x a d} : HasIndices (.coo shape x a d) x a
  | dm {m d x a} : HasIndices d x a → HasIndices (.dm m d) x a

/-- The index array of that name of an object of Model/Storage.lean, and what its list holds. -/
def Spec.arrayOf : Storage V → ArrayName → Option (Buffer (Option Int) × List (Option Int))
  | .flatcoo c, .findices => some (c.findices, c.fmem)
  | .csr c, .crow => some (c.crow, c.crowMem)
  | .csr c, .col => some (c.col, c.colMem)
  | .dm _ d, n => arrayOf d n
  | _, _ => none

/-- `s.indices` of an object of Model/Storage.lean, and what its list holds. -/
def Spec.cooIndices : Storage V → Option (Strided (Option Int) × List (Option Int))
  | .coo c => some (c.indices, c.imem)
  | .dm _ d => cooIndices d
  | _ => none

/-- The statement that assigns `v` to item `i` of the array of that name. -/
def Spec.ArrayName.assign (i : Int) (v : Option Int) : ArrayName → IxStmt
  | .findices => .findices i v
  | .crow => .crow i v
  | .col => .col i v

omit [DecidableEq V] in
/-- C99, an object sees in its index array what the list of that array holds. -/
theorem C99_sees (h : IHeap) (s : SharedObj V) :
    (∀ n b a, HasArray s n b a → arrayOf (s.load h) n = some (b, h a)) ∧
    (∀ x a, HasIndices s x a → cooIndices (s.load h) = some (x, h a)) := by
  constructor
  · intro n b a hs
    induction hs with
    | dm _ ih => simpa only [SharedObj.load, arrayOf] using ih
    | _ => rfl
  · intro x a hs
    induction hs with
    | dm _ ih => simpa only [SharedObj.load, cooIndices] using ih
    | _ => rfl

omit [DecidableEq V] in
/-- C99, `s.findices[i] = v` (or `crow_indices`, `col_indices`): the cell that Python means by `offset + i` of the list of that
array gets `v` and nothing else changes; if there is no such cell it is an `IndexError` and nothing changes. -/
theorem C99_assign (h : IHeap) (s : SharedObj V) (n : ArrayName) (b : Buffer (Option Int)) (a : Nat) (hs : HasArray s n b a)
    (i : Int) (v : Option Int) :
    (∀ c, cell (h a).length (b.offset + i) = some c →
      ∃ h', s.run h (n.assign i v) = (h', none) ∧ h' a = (h a).set c v ∧ (∀ a', a' ≠ a → h' a' = h a') ∧
        arrayOf (s.load h') n = some (b, (h a).set c v)) ∧
    (cell (h a).length (b.offset + i) = none → s.run h (n.assign i v) = (h, some .index)) := by
  have key : s.run h (n.assign i v) =
      (Function.update h a (b.write1 (h a) i v).mem, (b.write1 (h a) i v).err) := by
    induction hs with
    | @dm m d n b a _ ih => cases n <;> simpa only [SharedObj.run, ArrayName.assign] using ih
    | _ => rfl
  refine ⟨fun c hc => ⟨Function.update h a ((h a).set c v), ?_, by simp, fun a' ha => by simp [ha], ?_⟩, fun hc => ?_⟩
  · rw [key]
    simp only [Buffer.write1, Buffer.setInt, (pySet_cell _ _ v).1 c hc, Wr.ofPyM]
  · rw [(C99_sees _ s).1 n b a hs]
    simp
  · rw [key]
    simp only [Buffer.write1, Buffer.setInt, (pySet_cell _ _ v).2 hc, Wr.ofPyM, Function.update_eq_self]

omit [DecidableEq V] in
/-- C99, `s.indices[j, p] = v`: the cell of `s.indices` at `(j, p)` gets `v` and nothing else changes. -/
theorem C99_assign_indices (h : IHeap) (s : SharedObj V) (x : Strided (Option Int)) (a : Nat) (hs : HasIndices s x a)
    (hw : x.WF (h a)) (ix : List Int) (hi : InBox ix x.shape) (v : Option Int) :
    ∃ h', s.run h (.indices (.tuple (ix.map .int)) fun _ _ => .ok v) = (h', none) ∧
      h' a = (h a).set ((x.data.offset : Int) + address ix x.strides).toNat v ∧ (∀ a', a' ≠ a → h' a' = h a') ∧
      cooIndices (s.load h') = some (x, h' a) := by
  have key : s.run h (.indices (.tuple (ix.map .int)) fun _ _ => .ok v) =
      (Function.update h a ((h a).set (x.cell ix) v), none) := by
    induction hs with
    | coo => simp only [SharedObj.run, Strided.setItem_elem hw ix hi v]
    | dm _ ih => simpa only [SharedObj.run] using ih hw hi
  exact ⟨_, key, by simp [Strided.cell], fun a' ha => by simp [ha], (C99_sees _ s).2 x a hs⟩

omit [DecidableEq V] in
/-- C99, an assignment to `s.indices` raises what the assignment to that `Strided` object raises, and leaves what that leaves. -/
theorem C99_assign_raises (h : IHeap) (s : SharedObj V) (x : Strided (Option Int)) (a : Nat) (hs : HasIndices s x a)
    (index : Index) (valueAt : List (Option Int) → List Int → PyM (Option Int)) :
    (s.run h (.indices index valueAt)).2 = ((Storage.strided x).setItem (h a) index valueAt).err ∧
    (s.run h (.indices index valueAt)).1 a = ((Storage.strided x).setItem (h a) index valueAt).mem := by
  induction hs with
  | coo => simp [SharedObj.run, Storage.setItem]
  | dm _ ih => simpa only [SharedObj.run] using ih

omit [DecidableEq V] in
/-- C99, an object without the array raises `AttributeError`, and nothing changes. -/
theorem C99_missing (h : IHeap) (s : SharedObj V) :
    (∀ n, (∀ b a, ¬ HasArray s n b a) → ∀ i v, s.run h (n.assign i v) = (h, some .attribute)) ∧
    ((∀ x a, ¬ HasIndices s x a) → ∀ index valueAt, s.run h (.indices index valueAt) = (h, some .attribute)) := by
  induction s with
  | dense s => exact ⟨fun n _ i v => by cases n <;> rfl, fun _ _ _ => rfl⟩
  | coo => exact ⟨fun n _ i v => by cases n <;> rfl, fun hn => absurd .coo (hn _ _)⟩
  | flatcoo => exact ⟨fun n hn i v => by cases n <;> first | rfl | exact absurd .findices (hn _ _), fun _ _ _ => rfl⟩
  | csr =>
    exact ⟨fun n hn i v => by cases n <;> first | rfl | exact absurd .crow (hn _ _) | exact absurd .col (hn _ _), fun _ _ _ => rfl⟩
  | dm m d ih =>
    refine ⟨fun n hn i v => ?_, fun hn index valueAt => ?_⟩
    · have := ih.1 n (fun b a hb => hn b a (.dm hb)) i v
      cases n <;> simpa only [SharedObj.run, ArrayName.assign] using this
    · simpa only [SharedObj.run] using ih.2 (fun x a hx => hn x a (.dm hx)) index valueAt

/-- A case of C99_assign: a `CSR` with two lists; the assignment to `col_indices` changes the second one only. -/
example :
    let s : SharedObj (Option Int) := .csr [1, 3] ⟨2, 0, none⟩ 0 ⟨1, 0, none⟩ 1 ⟨1, 0, none⟩
    let h : IHeap := fun a => if a = 0 then [some 0, some 1] else [some 2]
    HasArray s .col ⟨1, 0, none⟩ 1 ∧ cell (h 1).length (0 + -1) = some 0 ∧
    ((s.run h (.col (-1) (some 0))).1 1 = [some 0]) ∧ ((s.run h (.col (-1) (some 0))).1 0 = [some 0, some 1]) ∧
    (s.run h (.col 1 (some 0))).2 = some .index ∧ (s.run h (.findices 0 none)).2 = some .attribute :=
  ⟨.col, by decide, by decide +kernel, by decide +kernel, by decide +kernel, by decide +kernel⟩

/-- C99, defect: `t = s.copy()` and `t.findices[p] = q` move an element of `s`.  `s` is a `FlatCOO` with the values `vals` at the
indices `ixs`; afterwards it has them at the changed indices, as the copy has. -/
theorem C99_moved (shape : List Nat) (ixs : List (List Int)) (hsort : ixs.Pairwise lexLt) (hbox : ∀ ix ∈ ixs, InBox ix shape)
    (vals : List V) (hl : vals.length = ixs.length) (u : V) (h : IHeap) (a : Nat)
    (ha : h a = ixs.map fun ix => some (rowMajor ix shape 0)) (p : Nat) (ix : List Int) (hp : p < ixs.length)
    (hsort' : (ixs.set p ix).Pairwise lexLt) (hbox' : InBox ix shape) :
    let s : SharedObj V := .flatcoo shape ⟨ixs.length, 0, none⟩ a ⟨vals.length, 0, u⟩
    HasEntries (s.load h) vals shape ixs vals u ∧
    ∃ t h', s.copy h vals none = .ok (t, vals) ∧ t.run h (.findices p (some (rowMajor ix shape 0))) = (h', none) ∧
      HasEntries (s.load h') vals shape (ixs.set p ix) vals u ∧ HasEntries (t.load h') vals shape (ixs.set p ix) vals u := by
  have pos : ∀ ix, InBox ix shape → rowMajor ix shape 0 = address ix (makeStrides shape) := by
    intro ix hi
    have := rowMajor_eq ix shape 0 hi.length_eq
    rwa [zero_mul, zero_add] at this
  have hm : ∀ l : List (List Int), (∀ ix ∈ l, InBox ix shape) → (l.map fun ix => some (rowMajor ix shape 0)) = fmemOf shape l :=
    fun l hb => List.map_congr_left fun ix hi => by rw [pos ix (hb ix hi)]
  have hb2 : ∀ jx ∈ ixs.set p ix, InBox jx shape := by
    intro jx hj
    rcases List.mem_or_eq_of_mem_set hj with hj | rfl
    · exact hbox jx hj
    · exact hbox'
  have entries : ∀ l : List (List Int), l.Pairwise lexLt → (∀ ix ∈ l, InBox ix shape) → l.length = ixs.length → ∀ h' : IHeap,
      h' a = (l.map fun ix => some (rowMajor ix shape 0)) →
      HasEntries (SharedObj.load h' (.flatcoo shape ⟨ixs.length, 0, none⟩ a ⟨vals.length, 0, u⟩)) vals shape l vals u := by
    intro l h1 h2 h3 h' h4
    have hrep := flatOf_rep shape l ⟨h1, h2⟩ ⟨vals.length, 0, u⟩ (hl.trans h3.symm)
    have e : SharedObj.load h' (.flatcoo shape ⟨ixs.length, 0, none⟩ a ⟨vals.length, 0, u⟩)
        = .flatcoo (flatOf shape l ⟨vals.length, 0, u⟩) := by
      simp only [SharedObj.load, h4, hm l h2, flatOf, h3]
    rw [e]
    exact hasEntries_of (.flatcoo hrep) rfl (hl.trans h3.symm)
  refine ⟨entries ixs hsort hbox rfl h ha, .flatcoo shape ⟨ixs.length, 0, none⟩ a ⟨vals.length, 0, u⟩,
    Function.update h a ((h a).set p (some (rowMajor ix shape 0))), ?_, ?_, ?_⟩
  · have hw : Buffer.window ⟨vals.length, 0, u⟩ vals = vals := by simp [Buffer.window]
    simp only [SharedObj.copy, Buffer.copy, hw, FlatCOO.new, pyAssert, bind, Except.bind, pure, Except.pure, Option.getD_none, if_true]
    simp [hl]
  · have : p < (h a).length := by rw [ha]; simpa using hp
    simp [SharedObj.run, Buffer.write1, Buffer.setInt, pySet, Wr.ofPyM, this]
  · have := entries (ixs.set p ix) hsort' hb2 (by simp) (Function.update h a ((h a).set p (some (rowMajor ix shape 0))))
      (by simp [ha, List.map_set])
    exact ⟨this, this⟩

/-- A case of C99 that meets the conditions of C99_moved: two elements of a matrix, the second is moved. -/
example : ([[0, 1], [1, 0]] : List (List Int)).Pairwise lexLt ∧ (∀ ix ∈ ([[0, 1], [1, 0]] : List (List Int)), InBox ix [2, 2]) ∧
    (([[0, 1], [1, 0]] : List (List Int)).set 1 [1, 1]).Pairwise lexLt ∧ InBox [1, 1] [2, 2] ∧
    ([[0, 1], [1, 0]] : List (List Int)).map (fun ix => some (rowMajor ix [2, 2] 0)) = [some 1, some 2] := by
  refine ⟨by simp [lexLt], by simp [InBox], by simp [lexLt], by simp [InBox], by decide⟩

/-- The index array `x` holds the indices `ixs` in the list `l`: coordinate `j` of the index number `p` at `[j, p]`. -/
structure Spec.HoldsIndices (x : Strided (Option Int)) (l : List (Option Int)) (d : Nat) (ixs : List (List Int)) : Prop where
  shape : x.shape = [d, ixs.length]
  wf : x.WF l
  unspec : x.data.unspec = none
  value : ∀ p (hp : p < ixs.length) j, j < d →
    l[((x.data.offset : Int) + address [(j : Int), (p : Int)] x.strides).toNat]? = some (some (ixs[p].getD j 0))

/-- C99, the same defect with a `COO`: `t = s.copy()` and `t.indices[j, p] = q` change a coordinate of an index of `s`, as of the copy. -/
theorem C99_moved_coo (shape : List Nat) (hne : shape ≠ []) (ixs : List (List Int)) (hsort : ixs.Pairwise lexLt)
    (hbox : ∀ ix ∈ ixs, InBox ix shape) (vals : List V) (hl : vals.length = ixs.length) (u : V) (h : IHeap) (a : Nat)
    (x : Strided (Option Int)) (hx : HoldsIndices x (h a) shape.length ixs) (hd : DistinctAddresses x.shape x.strides) (p j : Nat)
    (q : Int) (hp : p < ixs.length) (hj : j < shape.length) (hsort' : (ixs.set p (ixs[p].set j q)).Pairwise lexLt)
    (hbox' : InBox (ixs[p].set j q) shape) :
    let s : SharedObj V := .coo shape x a ⟨vals.length, 0, u⟩
    HasEntries (s.load h) vals shape ixs vals u ∧
    ∃ t h', s.copy h vals none = .ok (t, vals) ∧
      t.run h (.indices (.tuple [.int j, .int p]) fun _ _ => .ok (some q)) = (h', none) ∧
      HasEntries (s.load h') vals shape (ixs.set p (ixs[p].set j q)) vals u ∧
      HasEntries (t.load h') vals shape (ixs.set p (ixs[p].set j q)) vals u := by
  have hb2 : ∀ jx ∈ ixs.set p (ixs[p].set j q), InBox jx shape := by
    intro jx hj
    rcases List.mem_or_eq_of_mem_set hj with hj | rfl
    · exact hbox jx hj
    · exact hbox'
  have entries : ∀ l : List (List Int), l.Pairwise lexLt → (∀ ix ∈ l, InBox ix shape) → l.length = ixs.length → ∀ h' : IHeap,
      x.WF (h' a) → (∀ p (hp : p < l.length) j, j < shape.length → x.val (h' a) [(j : Int), (p : Int)] = some (l[p].getD j 0)) →
      HasEntries (SharedObj.load h' (.coo shape x a ⟨vals.length, 0, u⟩)) vals shape l vals u := by
    intro l h1 h2 h3 h' h4 h5
    have hrep : COO.Rep ⟨shape, x, h' a, ⟨vals.length, 0, u⟩⟩ l :=
      ⟨⟨h1, h2⟩, hne, by rw [hx.shape, h3], h4, hx.unspec, h5, hl.trans h3.symm⟩
    exact hasEntries_of (.coo hrep) rfl (hl.trans h3.symm)
  have hv : ∀ p (hp : p < ixs.length) j, j < shape.length → x.val (h a) [(j : Int), (p : Int)] = some (ixs[p].getD j 0) := by
    intro p hp j hj
    rw [Strided.val, Strided.cell, List.getD_eq_getElem?_getD, hx.value p hp j hj]
    rfl
  have box : ∀ p, p < ixs.length → ∀ j, j < shape.length → InBox [(j : Int), (p : Int)] x.shape := by
    intro p hp j hj
    rw [hx.shape]
    exact ⟨⟨by omega, by omega⟩, ⟨by omega, by omega⟩, trivial⟩
  have hset := Strided.setItem_elem hx.wf [(j : Int), (p : Int)] (box p hp j hj) (some q)
  refine ⟨entries ixs hsort hbox rfl h hx.wf hv, .coo shape x a ⟨vals.length, 0, u⟩,
    Function.update h a ((h a).set (x.cell [(j : Int), (p : Int)]) (some q)), ?_, ?_, ?_⟩
  · have hw : Buffer.window ⟨vals.length, 0, u⟩ vals = vals := by simp [Buffer.window]
    have h1 : pyGet x.shape 1 = .ok ixs.length := by rw [hx.shape]; rfl
    simp only [SharedObj.copy, Buffer.copy, hw, COO.new, h1, pyAssert, bind, Except.bind, pure, Except.pure, Option.getD_none, if_true]
    simp [hl]
  · simp only [List.map_cons, List.map_nil] at hset
    simp only [SharedObj.run, hset]
  · have hwf : x.WF ((h a).set (x.cell [(j : Int), (p : Int)]) (some q)) :=
      ⟨hx.wf.len, by simpa [Buffer.WF] using hx.wf.buf, hx.wf.addr⟩
    have := entries (ixs.set p (ixs[p].set j q)) hsort' hb2 (by simp)
      (Function.update h a ((h a).set (x.cell [(j : Int), (p : Int)]) (some q))) (by simpa using hwf) (by
        intro p' hp' j' hj'
        have hp2 : p' < ixs.length := by simpa using hp'
        have hold := hv p' hp2 j' hj'
        simp only [Function.update_self, Strided.val, List.getD_eq_getElem?_getD] at hold ⊢
        by_cases he : p' = p ∧ j' = j
        · obtain ⟨rfl, rfl⟩ := he
          have hc : x.cell [(j' : Int), (p' : Int)] < (h a).length := by
            have := hx.value p' hp2 j' hj'
            exact (List.getElem?_eq_some_iff.1 this).1
          have hjl : j' < ixs[p'].length := by rw [(hbox _ (List.getElem_mem hp2)).length_eq]; exact hj
          rw [List.getElem?_set_self hc, List.getElem_set_self, List.getElem?_set_self hjl]
          rfl
        · have hc : x.cell [(j : Int), (p : Int)] ≠ x.cell [(j' : Int), (p' : Int)] := by
            intro hc
            have := Strided.cell_inj hx.wf hd (box p hp j hj) (box p' hp2 j' hj') hc
            simp only [List.cons.injEq, Int.natCast_inj, and_true] at this
            exact he ⟨this.2.symm, this.1.symm⟩
          rw [List.getElem?_set_ne hc, hold]
          by_cases hpp : p = p'
          · subst hpp
            have hjj : j ≠ j' := fun e => he ⟨rfl, e.symm⟩
            rw [List.getElem_set_self, List.getElem?_set_ne hjj]
          · rw [List.getElem_set_ne hpp])
    exact ⟨this, this⟩

/-- A case of C99_moved_coo: `s.indices` is `Strided.fromobject([[0, 1], [1, 0]])`, the elements at `[0, 1]` and `[1, 0]`; the second
is moved to `[1, 1]`. -/
example : HoldsIndices ⟨[2, 2], [2, 1], ⟨4, 0, none⟩⟩ [some 0, some 1, some 1, some 0] 2 [[0, 1], [1, 0]] ∧
    DistinctAddresses [2, 2] [2, 1] ∧ ([[0, 1], [1, 0]] : List (List Int)).Pairwise lexLt ∧
    (([[0, 1], [1, 0]] : List (List Int)).set 1 (([1, 0] : List Int).set 1 1)).Pairwise lexLt ∧ InBox [1, 1] [2, 2] := by
  refine ⟨⟨rfl, ⟨rfl, by simp [Buffer.WF], ?_⟩, rfl, ?_⟩, ?_, by simp [lexLt], by simp [lexLt], by simp [InBox]⟩
  · intro ix hi
    obtain ⟨j, p, rfl, hj, hp⟩ := two_inBox hi
    simp only [address]
    omega
  · intro p hp j hj
    have h1 : p = 0 ∨ p = 1 := by simp at hp; omega
    have h2 : j = 0 ∨ j = 1 := by omega
    rcases h1 with rfl | rfl <;> rcases h2 with rfl | rfl <;> rfl
  · intro ix jx hi hj he
    obtain ⟨j, p, rfl, h1, h2⟩ := two_inBox hi
    obtain ⟨j', p', rfl, h3, h4⟩ := two_inBox hj
    simp only [address] at he
    have e1 : j = j' := by omega
    have e2 : p = p' := by omega
    rw [e1, e2]

/-- C99, the same defect with a `CSR`: `t = s.copy()` and `t.col_indices[p] = q` move an element of `s` in its row, as of the copy. -/
theorem C99_moved_csr (n m : Nat) (ixs : List (List Int)) (hsort : ixs.Pairwise lexLt) (hbox : ∀ ix ∈ ixs, InBox ix [n, m])
    (vals : List V) (hl : vals.length = ixs.length) (u : V) (h : IHeap) (a a' : Nat) (hne : a ≠ a')
    (ha : h a = (List.range (n + 1)).map fun (r : Nat) => some (((ixs.countP fun ix => ix.getD 0 0 < (r : Int)) : Nat) : Int))
    (ha' : h a' = ixs.map fun ix => some (ix.getD 1 0)) (p : Nat) (q : Int) (hp : p < ixs.length)
    (hsort' : (ixs.set p [ixs[p].getD 0 0, q]).Pairwise lexLt) (hq : 0 ≤ q ∧ q < m) :
    let s : SharedObj V := .csr [n, m] ⟨n + 1, 0, none⟩ a ⟨ixs.length, 0, none⟩ a' ⟨vals.length, 0, u⟩
    HasEntries (s.load h) vals [n, m] ixs vals u ∧
    ∃ t h', s.copy h vals none = .ok (t, vals) ∧ t.run h (.col p (some q)) = (h', none) ∧
      HasEntries (s.load h') vals [n, m] (ixs.set p [ixs[p].getD 0 0, q]) vals u ∧
      HasEntries (t.load h') vals [n, m] (ixs.set p [ixs[p].getD 0 0, q]) vals u := by
  have hb2 : ∀ jx ∈ ixs.set p [ixs[p].getD 0 0, q], InBox jx [n, m] := by
    intro jx hj
    rcases List.mem_or_eq_of_mem_set hj with hj | rfl
    · exact hbox jx hj
    · obtain ⟨r, k, e, hr, -⟩ := two_inBox (hbox _ (List.getElem_mem hp))
      rw [e]
      exact ⟨⟨by simp, by simpa using hr⟩, hq, trivial⟩
  have below_eq : ∀ (l : List (List Int)) (r : Nat), below (firsts l) r = l.countP fun ix => decide (ix.getD 0 0 < (r : Int)) := by
    intro l r
    simp only [below, firsts, List.countP_eq_length_filter, List.filter_map, List.length_map]
    rfl
  have hfirst : firsts (ixs.set p [ixs[p].getD 0 0, q]) = firsts ixs := by
    simp only [firsts, List.map_set]
    apply List.ext_getElem (by simp)
    intro i h1 h2
    by_cases hi : p = i
    · subst hi
      simp
    · simp [List.getElem_set_ne hi]
  have entries : ∀ l : List (List Int), l.Pairwise lexLt → (∀ ix ∈ l, InBox ix [n, m]) → l.length = ixs.length →
      firsts l = firsts ixs → ∀ h' : IHeap, h' a = h a → h' a' = (l.map fun ix => some (ix.getD 1 0)) →
      HasEntries (SharedObj.load h' (.csr [n, m] ⟨n + 1, 0, none⟩ a ⟨ixs.length, 0, none⟩ a' ⟨vals.length, 0, u⟩)) vals [n, m] l vals
        u := by
    intro l h1 h2 h3 hf h' h4 h5
    have hrep := csrOf_rep [n, m] rfl l ⟨h1, h2⟩ ⟨vals.length, 0, u⟩ (hl.trans h3.symm)
    have e : SharedObj.load h' (.csr [n, m] ⟨n + 1, 0, none⟩ a ⟨ixs.length, 0, none⟩ a' ⟨vals.length, 0, u⟩)
        = .csr (csrOf [n, m] l ⟨vals.length, 0, u⟩) := by
      simp only [SharedObj.load, h4, h5, ha, csrOf, h3, hf, below_eq]
      rfl
    rw [e]
    exact hasEntries_of (.csr hrep) rfl (hl.trans h3.symm)
  refine ⟨entries ixs hsort hbox rfl rfl h rfl ha', .csr [n, m] ⟨n + 1, 0, none⟩ a ⟨ixs.length, 0, none⟩ a' ⟨vals.length, 0, u⟩,
    Function.update h a' ((h a').set p (some q)), ?_, ?_, ?_⟩
  · have hw : Buffer.window ⟨vals.length, 0, u⟩ vals = vals := by simp [Buffer.window]
    have hn : CSR.new [n, m] ⟨n + 1, 0, none⟩ (h a) ⟨ixs.length, 0, none⟩ (h a') (⟨vals.length, 0, u⟩ : Buffer V) =
        .ok ⟨[n, m], ⟨n + 1, 0, none⟩, h a, ⟨ixs.length, 0, none⟩, h a', ⟨vals.length, 0, u⟩⟩ :=
      CSR.new_ok _ _ _ _ _ _ n m rfl rfl hl.symm
    simp only [SharedObj.copy, Buffer.copy, hw, Option.getD_none, if_true, hn, bind, Except.bind, pure, Except.pure]
  · have : p < (h a').length := by rw [ha']; simpa using hp
    simp [SharedObj.run, Buffer.write1, Buffer.setInt, pySet, Wr.ofPyM, this]
  · have := entries (ixs.set p [ixs[p].getD 0 0, q]) hsort' hb2 (by simp) hfirst (Function.update h a' ((h a').set p (some q)))
      (by simp [hne]) (by simp [ha', List.map_set])
    exact ⟨this, this⟩

/-- A case of C99_moved_csr: two elements of a matrix, the second is moved in its row. -/
example : ([[0, 1], [1, 0]] : List (List Int)).Pairwise lexLt ∧ (∀ ix ∈ ([[0, 1], [1, 0]] : List (List Int)), InBox ix [2, 2]) ∧
    (([[0, 1], [1, 0]] : List (List Int)).set 1 [([1, 0] : List Int).getD 0 0, 1]).Pairwise lexLt ∧
    ((List.range 3).map fun (r : Nat) => ([[0, 1], [1, 0]] : List (List Int)).countP fun ix => ix.getD 0 0 < (r : Int)) = [0, 1, 2] :=
  ⟨by simp [lexLt], by simp [InBox], by simp [lexLt], by decide +kernel⟩

/-- A case of C99: a `COO` with one element, at index 0; `t = s.copy()` and `t.indices[0, 0] = 2`.  Then `s[0]` is the
unspecified value and `s[2]` is the element.  The slice `s[:]` made before is as it was. -/
example :
    let s : SharedObj (Option Int) := .coo [3] ⟨[1, 1], [1, 1], ⟨1, 0, none⟩⟩ 0 ⟨1, 0, none⟩
    let h : IHeap := fun _ => [some 0]
    let mem := [some 5]
    let h' := (s.run h (.indices (.tuple [.int 0, .int 0]) fun _ _ => .ok (some 2))).1
    s.copy h mem none = .ok (s, mem) ∧
    (s.load h).getVal mem [0] = .ok (some 5) ∧ (s.load h).getVal mem [2] = .ok none ∧
    (s.load h').getVal mem [0] = .ok none ∧ (s.load h').getVal mem [2] = .ok (some 5) ∧
    ∃ c, (s.load h).getItem mem (.one (.slice ⟨none, none, none⟩)) = .ok (.fresh (.coo c) mem) ∧ c.imem = [some 0] := by
  refine ⟨rfl, by decide +kernel, by decide +kernel, by decide +kernel, by decide +kernel,
    ⟨[3], ⟨[1, 1], [1, 1], ⟨1, 0, none⟩⟩, [some 0], ⟨1, 0, none⟩⟩, by decide +kernel, rfl⟩

end Gcs
