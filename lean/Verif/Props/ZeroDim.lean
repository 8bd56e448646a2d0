import Verif.Props.Objects
import Verif.Props.Getting
import Verif.Props.Observing

/-!
# C69: arrays without axes

`Strided.fromobject(v)` of a scalar `v`, its indexing and assignment.
-/

namespace Gcs

open Spec

variable {V : Type} [DecidableEq V] [HasNone V]

omit [DecidableEq V] in
theorem leaf_value (v : V) : ∀ ix, InBox ix [] → (Nested.leaf v).getValue ix = .ok v := by
  intro ix hi
  cases ix with
  | nil => rfl
  | cons i ix => cases hi

omit [HasNone V] in
theorem strided_scalar (v su u : V) :
    buildFlat .strided [] (Nested.leaf v).getValue su u = .ok (.strided ⟨[], [], ⟨1, 0, u⟩⟩, [subst su u v]) := rfl

omit [HasNone V] in
theorem flat_scalar (v su u : V) :
    buildFlat .flatcoo [] (Nested.leaf v).getValue su u = .ok (if subst su u v = u
      then (.flatcoo ⟨[], ⟨0, 0, none⟩, [], ⟨0, 0, u⟩⟩, [])
      else (.flatcoo ⟨[], ⟨1, 0, none⟩, [some 0], ⟨1, 0, u⟩⟩, [subst su u v])) := by
  have e : (indexProduct []).mapM (fun ix => do
      let w ← (Nested.leaf v).getValue ix
      return (ix, if w = su then u else w)) = .ok [(([] : List Int), subst su u v)] := rfl
  simp only [buildFlat, flatBuild]
  rw [e]
  by_cases hx : subst su u v = u
  · rw [if_pos hx]
    simp [hx, bind, Except.bind, pure, Except.pure, Buffer.new, rawIntBuffer, FlatCOO.new, pyAssert]
  · rw [if_neg hx]
    simp [hx, bind, Except.bind, pure, Except.pure, Buffer.new, rawIntBuffer, FlatCOO.new, pyAssert, getPosition, makeStrides]

/-- C69, first part.  `Strided.fromobject(v, unspecified=u)` and `FlatCOO.fromobject(v, unspecified=u)` of a scalar: an
array with the empty shape that reads `v` (or `u` for `None`) at the empty index.  The `Strided` is full; the `FlatCOO`
has an element only when it is not the unspecified value. -/
theorem C69_scalar (cls : Cls) (hc : cls = .strided ∨ cls = .flatcoo) (v : V) (u : Option V) :
    ∃ s mem, fromObject cls (.nested (.leaf v)) u = .ok (.fresh s mem) ∧ s.WF mem ∧ s.cls = cls ∧ s.shape = [] ∧
      s.unspec = u.getD pyNone ∧ Reads s mem [] (stored u v) ∧
      s.elements mem = .ok (if cls = .strided ∨ stored u v ≠ u.getD pyNone then [(.tuple [], stored u v)] else []) ∧
      (s.isFull = true ↔ cls = .strided ∨ stored u v ≠ u.getD pyNone) := by
  obtain ⟨s, mem, g1, g2, g3, g4, g5⟩ := buildFlat_ok cls [] (Nested.leaf v).getValue pyNone (u.getD pyNone) (fun _ => v)
    (leaf_value v) (by rcases hc with rfl | rfl <;> simp)
  have hr : Reads s mem [] (stored u v) := by
    have := g4.wf.reads [] (by rw [g4.shape_eq]; trivial)
    rwa [g4.reads [] trivial] at this
  refine ⟨s, mem, ?_, g4.wf, g2, g4.shape_eq, g3, hr, ?_⟩
  · rcases hc with rfl | rfl <;> cases u <;>
      (simp only [fromObject, Src.shape, Nested.shape, Src.unspec]
       have e : (Src.nested (Nested.leaf v)).getValue = (Nested.leaf v).getValue := rfl
       rw [e, g1]
       rfl)
  · rw [stored_eq]
    rcases hc with rfl | rfl
    · rw [strided_scalar] at g1
      cases g1
      refine ⟨?_, by simp [Storage.isFull, Storage.size, Storage.shape, product]⟩
      simp only [true_or, if_true]
      rfl
    · rw [flat_scalar] at g1
      by_cases hx : subst pyNone (u.getD pyNone) v = u.getD pyNone
      · rw [if_pos hx] at g1
        cases g1
        refine ⟨?_, by simp [hx, Storage.isFull, Storage.size, Storage.shape, product]⟩
        rw [if_neg (by simp [hx])]
        rfl
      · rw [if_neg hx] at g1
        cases g1
        refine ⟨?_, by simp [hx, Storage.isFull, Storage.size, Storage.shape, product]⟩
        simp only [ne_eq, hx, not_false_eq_true, or_true, if_true]
        rfl

/-- C69, second part.  `Buffer.fromobject(v)` of a scalar has one axis of size one. -/
theorem C69_buffer (v : V) (u : Option V) :
    ∃ s mem, fromObject .buffer (.nested (.leaf v)) u = .ok (.fresh s mem) ∧ s.WF mem ∧ s.shape = [1] ∧
      Reads s mem [0] (stored u v) := by
  refine ⟨.buffer ⟨1, 0, u.getD pyNone⟩, [stored u v], ?_, ?_, rfl, ?_⟩
  · cases u <;> rfl
  · show Buffer.WF _ _
    simp [Buffer.WF]
  · rfl

omit [DecidableEq V] [HasNone V] in
theorem assert_skip {α : Type} (c : Bool) (f : Unit → PyM α) (h : f () = .error .assertion) :
    (pyAssert c >>= f) = .error .assertion := by
  cases c
  · rfl
  · exact h

/-- C69, third part.  `COO.fromobject(v)` and `CSR.fromobject(v)` of a scalar raise an `IndexError`, and `DM.fromobject`
of a scalar an `AssertionError`, whatever the other arguments. -/
theorem C69_no_others (v : V) (u : Option V) :
    fromObject .coo (.nested (.leaf v)) u = .error .index ∧ fromObject .csr (.nested (.leaf v)) u = .error .index ∧
    fromObject .dm (.nested (.leaf v)) u = .error .assertion ∧
    ∀ dims part cls, fromObjectDM (.nested (.leaf v)) dims part cls u = .error .assertion := by
  have hcoo : ∀ su w, cooBuild [] (Nested.leaf v).getValue su w = .error .index := by
    intro su w
    have e : (indexProduct []).mapM (fun ix => do
        let x ← (Nested.leaf v).getValue ix
        return (ix, if x = su then w else x)) = .ok [(([] : List Int), subst su w v)] := rfl
    simp only [cooBuild]
    rw [e]
    by_cases hx : subst su w v = w
    · simp only [bind, Except.bind, ne_eq, hx, decide_not, decide_true, Bool.not_true, List.filter_cons, List.filter_nil]
      rfl
    · simp only [bind, Except.bind, ne_eq, hx, decide_not, decide_false, Bool.not_false, List.filter_cons, List.filter_nil]
      rfl
  have hdm : ∀ dims part b, dmPrepare [] dims part b = .error .assertion := by
    intro dims part b
    simp only [dmPrepare, List.length_nil]
    generalize dmPartitioning 0 b part = l
    cases l with
    | nil => rfl
    | cons p l =>
      apply assert_skip
      apply assert_skip
      have : ((p :: l).all fun p => decide (p < 0)) = false := by simp
      rw [this]
      rfl
  have hd : ∀ dims part cls su w, dmBuild cls [] dims part (Nested.leaf v).getValue su w = .error .assertion := by
    intro dims part cls su w
    cases cls <;> simp only [dmBuild, dmBuildWith, hdm, bind, Except.bind]
  refine ⟨?_, ?_, ?_, fun dims part cls => hd dims part cls _ _⟩
  · cases u <;> (
      simp only [fromObject, Src.shape, Nested.shape, Src.unspec, buildFlat]
      have e : (Src.nested (Nested.leaf v)).getValue = (Nested.leaf v).getValue := rfl
      rw [e, hcoo]
      rfl)
  · cases u <;> (
      simp only [fromObject, Src.shape, Nested.shape, Src.unspec, buildFlat, csrBuild]
      have e : (Src.nested (Nested.leaf v)).getValue = (Nested.leaf v).getValue := rfl
      rw [e, hcoo]
      rfl)
  · cases u <;> (
      simp only [fromObject, Src.shape, Nested.shape, Src.unspec]
      have e : (Src.nested (Nested.leaf v)).getValue = (Nested.leaf v).getValue := rfl
      rw [e, hd]
      rfl)

omit [HasNone V] in
/-- C69, fourth part.  Indexing an array without axes: `s[()]`, `s[None]` and `s[None, ..., None]` are the element; an
int or a slice raises an `IndexError`, alone or in a tuple after any number of `None`. -/
theorem C69_index (s : Storage V) (mem : List V) (hs : s.shape = []) :
    (∀ k, s.getItem mem (.tuple (List.replicate k .none)) = s.getItem mem (.tuple [])) ∧
    s.getItem mem (.one .none) = s.getItem mem (.tuple []) ∧
    (∀ i, s.getItem mem (.one (.int i)) = .error .index) ∧ (∀ sl, s.getItem mem (.one (.slice sl)) = .error .index) ∧
    (∀ k i is, s.getItem mem (.tuple (List.replicate k .none ++ .int i :: is)) = .error .index) ∧
    ∀ k sl is, s.getItem mem (.tuple (List.replicate k .none ++ .slice sl :: is)) = .error .index := by
  have n1 : ∀ k, normalizeIndex (.tuple (List.replicate k .none)) [] = normalizeIndex (.tuple []) [] := by
    intro k
    induction k with
    | zero => rfl
    | succ k ih => exact ih
  have n2 : ∀ k i is, normalizeIndex (.tuple (List.replicate k .none ++ .int i :: is)) [] = .error .index := by
    intro k i is
    induction k with
    | zero => rfl
    | succ k ih => exact ih
  have n3 : ∀ k sl is, normalizeIndex (.tuple (List.replicate k .none ++ .slice sl :: is)) [] = .error .index := by
    intro k i is
    induction k with
    | zero => rfl
    | succ k ih => exact ih
  have n4 : normalizeIndex (.one .none) [] = normalizeIndex (.tuple []) [] := rfl
  have n5 : ∀ i, normalizeIndex (.one (.int i)) [] = .error .index := fun _ => rfl
  have n6 : ∀ i, normalizeIndex (.one (.slice i)) [] = .error .index := fun _ => rfl
  cases s with
  | buffer b => cases hs
  | _ =>
    simp only [Storage.shape] at hs
    simp only [Storage.getItem, Strided.getItem, hs, n1, n2, n3, n4, n5, n6, bind, Except.bind, implies_true, and_self]

omit [HasNone V] in
/-- C69, fifth part.  `s[()] = w` on a `Strided` without axes, and on a `FlatCOO` without axes that has an element; a
`FlatCOO` without an element is not changed. -/
theorem C69_assign (s : Storage V) (mem : List V) (h : s.WF mem) (hs : s.shape = []) (w : V) :
    (s.cls = .strided → ∃ mem', s.assign mem (.tuple []) (.leaf w) = ⟨mem', none⟩ ∧ Reads s mem' [] w) ∧
    (s.cls = .flatcoo → (∃ v, s.elements mem = .ok [(.tuple [], v)]) →
      ∃ mem', s.assign mem (.tuple []) (.leaf w) = ⟨mem', none⟩ ∧ Reads s mem' [] w) ∧
    (s.cls = .flatcoo → s.elements mem = .ok [] → ∃ mem', s.assign mem (.tuple []) (.leaf w) = ⟨mem', none⟩ ∧
      Reads s mem' [] s.unspec) := by
  refine ⟨fun hc => ?_, fun hc he => ?_, fun hc he => ?_⟩
  · cases s with
    | strided s =>
      obtain ⟨mem', h1, _, ⟨h2, _⟩, _⟩ := C37_strided_assign s mem h (by
        intro ix jx hi hj _
        simp only [Storage.shape] at hs
        rw [hs] at hi hj
        cases ix <;> cases jx <;> simp_all [InBox]) (by simp only [Storage.shape] at hs; simp [hs]) (.tuple [])
        trivial (.leaf w) (by
          intro j hj
          simp only [Storage.shape] at hs
          simp only [items, selShape, hs] at hj
          cases j with
          | nil => exact ⟨w, rfl⟩
          | cons a j => cases hj)
      exact ⟨mem', h1, h2 [] w (by simp only [items, selShape, hs]; trivial) rfl⟩
    | _ => simp [Storage.cls] at hc
  · obtain ⟨v, he⟩ := he
    obtain ⟨mem', h1, _, _, h2, _⟩ := C39_sparse_element_assign s mem h (.inr (.inl hc)) (by simp [hs]) (.tuple [])
      trivial (by simp [items, selShape, hs]) w
    exact ⟨mem', h1, h2 [] ⟨_, v, he, by simp⟩⟩
  · obtain ⟨mem', h1, _, _, _, h2, _⟩ := C39_sparse_element_assign s mem h (.inr (.inl hc)) (by simp [hs]) (.tuple [])
      trivial (by simp [items, selShape, hs]) w
    refine ⟨mem', h1, h2 [] (by rw [hs]; trivial) ?_⟩
    rintro ⟨es, v, h3, h4⟩
    rw [he] at h3
    cases h3
    cases h4

/-- Cases of C69: `5` and `None` with `unspecified=0`. -/
example :
    fromObject .strided (.nested (.leaf (some (5 : Int)))) (some (some 0))
      = .ok (.fresh (.strided ⟨[], [], ⟨1, 0, some 0⟩⟩) [some 5]) ∧
    fromObject .flatcoo (.nested (.leaf (none : Option Int))) (some (some 0))
      = .ok (.fresh (.flatcoo ⟨[], ⟨0, 0, none⟩, [], ⟨0, 0, some 0⟩⟩) []) ∧
    fromObject .coo (.nested (.leaf (some (5 : Int)))) none = .error .index ∧
    (let s : Storage (Option Int) := .strided ⟨[], [], ⟨1, 0, some 0⟩⟩
    s.WF [some 5] ∧ (s.getItem [some 5] (.tuple [])).toOption = some (.val (some 5)) ∧
    (s.getItem [some 5] (.one .none)).toOption = some (.val (some 5)) ∧
    s.assign [some 5] (.tuple []) (.leaf (some 7)) = ⟨[some 7], none⟩) ∧
    (let s : Storage (Option Int) := .flatcoo ⟨[], ⟨0, 0, none⟩, [], ⟨0, 0, some 0⟩⟩
    (s.getItem [] (.tuple [])).toOption = some (.val (some 0)) ∧ s.assign [] (.tuple []) (.leaf (some 7)) = ⟨[], none⟩) := by
  refine ⟨by decide +kernel, by decide +kernel, by decide +kernel, ⟨⟨rfl, ?_, ?_⟩, ?_⟩, by decide +kernel⟩
  · simp [Buffer.WF]
  · intro ix hi
    cases ix with
    | nil => simp [address]
    | cons i ix => cases hi
  · decide +kernel

end Gcs
