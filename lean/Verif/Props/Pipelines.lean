import Verif.Props.Getting
import Verif.Props.Observing
import Verif.Lemmas.Keep

/-!
# C70: pipelines of operations

An array is indexed, converted and copied any number of times, e.g. `s[1:].as_COO(unspecified=0)[:, ::-1].copy().as_DM()`.
The specification is about plain arrays (a shape and an element for each index) and does not know the classes.
-/

namespace Gcs

open Spec

variable {V : Type} [DecidableEq V]

/-- One operation that makes an array from an array. -/
inductive Spec.Act (V : Type) where
  /-- `s[i]` -/
  | index (i : Index)
  /-- `s.as_X(unspecified=u)`; `none` is the default -/
  | as (cls : Cls) (u : Option V)
  /-- `s.copy(unspecified=u)` -/
  | copy (u : Option V)

/-- A plain array: its shape, its unspecified value and its elements. -/
structure Spec.Plain (V : Type) where
  shape : List Nat
  unspec : V
  elem : List Int → V

/-- The array with `u` for the unspecified value. -/
def Spec.Plain.respecify (a : Plain V) (u : Option V) : Plain V :=
  ⟨a.shape, u.getD a.unspec, fun ix => if a.elem ix = a.unspec then u.getD a.unspec else a.elem ix⟩

/-- The effect of an operation on a plain array. -/
def Spec.Act.apply : Act V → Plain V → Plain V
  | .index i, a => ⟨selShape (items i) a.shape, a.unspec, fun j => a.elem (selSource (items i) a.shape j)⟩
  | .as _ u, a => a.respecify u
  | .copy u, a => a.respecify u

/-- What is known about the class of the object: no `DM`, a `DM` that is not a slice, a `DM` that may be a slice. -/
inductive Spec.Mode where
  | flat | whole | cut
  deriving DecidableEq

/-- The conditions of an operation.  Indexing: a valid index that keeps an axis; for a slice of a `DM` without ints (see C36).
Conversions to `CSR`: two axes and an element that is not the new unspecified value (see C28).  The conversion to `Buffer`
is left out, since indexing means something else there (see C47). -/
def Spec.Act.Ok : Act V → Plain V → Mode → Prop
  | .index i, a, mode => ValidItems (items i) a.shape ∧ selShape (items i) a.shape ≠ [] ∧ (mode = .cut → ∀ k, Ix.int k ∉ items i)
  | .as cls u, a, _ => cls ≠ .buffer ∧ (cls = .csr → a.shape.length = 2 ∧
      ∃ ix, InBox ix a.shape ∧ (a.respecify u).elem ix ≠ u.getD a.unspec)
  | .copy _, _, _ => True

/-- The mode after the operation. -/
def Spec.Act.next : Act V → Mode → Mode
  | .index _, .flat => .flat
  | .index _, _ => .cut
  | .as cls _, _ => if cls = .dm then .whole else .flat
  | .copy _, mode => mode

/-- All operations have their conditions, and no array on the way has an empty axis. -/
def Spec.PipeOk : List (Act V) → Plain V → Mode → Prop
  | [], _, _ => True
  | o :: os, a, mode => (∀ n ∈ a.shape, 0 < n) ∧ o.Ok a mode ∧ PipeOk os (o.apply a) (o.next mode)

/-- The array at the end. -/
def Spec.pipeArray : List (Act V) → Plain V → Plain V
  | [], a => a
  | o :: os, a => pipeArray os (o.apply a)

/-- The objects that the operations make. -/
inductive Spec.PipeGives [HasNone V] : List (Act V) → Storage V → List V → Storage V → List V → Prop
  | nil (s : Storage V) (mem : List V) : PipeGives [] s mem s mem
  | index (i : Index) (os : List (Act V)) (s t r : Storage V) (mem mt m : List V) (h : Gives s mem i t mt)
      (h' : PipeGives os t mt r m) : PipeGives (.index i :: os) s mem r m
  | as (cls : Cls) (u : Option V) (os : List (Act V)) (s t r : Storage V) (mem mt m : List V)
      (h : s.convert mem cls u = .ok (t, mt)) (h' : PipeGives os t mt r m) : PipeGives (.as cls u :: os) s mem r m
  | copy (u : Option V) (os : List (Act V)) (s t r : Storage V) (mem mt m : List V)
      (h : s.copy mem u = .ok (t, mt)) (h' : PipeGives os t mt r m) : PipeGives (.copy u :: os) s mem r m

/-- The object is the plain array. -/
def Spec.Is (s : Storage V) (mem : List V) (a : Plain V) : Prop :=
  s.shape = a.shape ∧ s.unspec = a.unspec ∧ ∀ ix, InBox ix a.shape → Reads s mem ix (a.elem ix)

/-- The offsets of a `DM` are `0`, also those of a `DM` in a `DM`. -/
def Spec.NoOffsets : Storage V → Prop
  | .dm m d => (∀ o ∈ m.roffset, o = 0) ∧ NoOffsets d
  | _ => True

/-- The groups of axes of a `DM` are not empty, also those of a `DM` in a `DM`.  Every slice of a `DM` is so. -/
def Spec.NoEmptyGroups : Storage V → Prop
  | .dm m d => (∀ g ∈ m.rdims, g ≠ []) ∧ NoEmptyGroups d
  | _ => True

/-- What `mode` says about an object. -/
def Spec.Mode.Holds : Mode → Storage V → Prop
  | .flat, s => s.cls ≠ .dm ∧ s.cls ≠ .buffer
  | .whole, s => s.cls = .dm ∧ NoOffsets s
  | .cut, s => s.cls = .dm ∧ NoEmptyGroups s

omit [DecidableEq V] in
theorem noOffsets_iff (s : Storage V) : NoOffsets s ↔ ZeroOff s := by
  induction s with
  | dm m d ih => simp only [NoOffsets, ZeroOff, ih]
  | _ => exact Iff.rfl

omit [DecidableEq V] in
theorem noEmptyGroups_iff (s : Storage V) : NoEmptyGroups s ↔ Grouped s := by
  induction s with
  | dm m d ih => simp only [NoEmptyGroups, Grouped, ih]
  | _ => exact Iff.rfl

theorem DMMeta.new_rdims {shape : List Nat} {rdims : List (List Nat)} {rstrides : List (List Int)} {roffset : List Int}
    {m : DMMeta} (h : DMMeta.new shape rdims rstrides roffset = .ok m) : m.rdims = rdims ∧ m.roffset = roffset := by
  simp only [DMMeta.new] at h
  split at h
  · cases h
  · simp only [bind_eq_ok, pure_eq_ok] at h
    obtain ⟨_, _, _, _, _, _, rfl⟩ := h
    exact ⟨rfl, rfl⟩

theorem grouped_of_cls {s : Storage V} (h : s.cls ≠ .dm) : Grouped s := by
  cases s <;> first | trivial | exact absurd rfl h

/-- The groups of a slice have axes. -/
theorem getItem_grouped {s : Storage V} {mem : List V} (hw : s.WF mem) {index : Index} {r : Storage V}
    (h : s.getItem mem index = .ok (.view r) ∨ ∃ m, s.getItem mem index = .ok (.fresh r m)) : Grouped r := by
  have h' : ∃ res, s.getItem mem index = .ok res ∧ (res = .view r ∨ ∃ m, res = .fresh r m) := by
    rcases h with h | ⟨m, h⟩
    · exact ⟨_, h, .inl rfl⟩
    · exact ⟨_, h, .inr ⟨m, rfl⟩⟩
  clear h
  obtain ⟨res, hr, hres⟩ := h'
  induction s generalizing index res r with
  | buffer b =>
    simp only [Storage.getItem] at hr
    obtain ⟨i, h1, hr⟩ := bufferGetItem_inv hr
    simp only [Storage.bufferGetItem, bind_eq_ok, pure_eq_ok] at hr
    obtain ⟨_, rfl, hr⟩ := hr
    cases i with
    | none => cases hr; rcases hres with h | ⟨_, h⟩ <;> cases h; trivial
    | other => simp at hr
    | slice s =>
      simp only [bind_eq_ok, pure_eq_ok] at hr
      obtain ⟨_, _, rfl⟩ := hr
      rcases hres with h | ⟨_, h⟩ <;> cases h
      trivial
    | int s =>
      simp only [bind_eq_ok, pure_eq_ok] at hr
      obtain ⟨_, _, rfl⟩ := hr
      rcases hres with h | ⟨_, h⟩ <;> cases h
  | strided s =>
    simp only [Storage.getItem, bind_eq_ok] at hr
    obtain ⟨a, _, hr⟩ := hr
    cases a <;> simp only [pure_eq_ok] at hr <;> subst hr <;> rcases hres with h | ⟨_, h⟩ <;> cases h
    trivial
  | coo c | flatcoo c =>
    simp only [Storage.getItem, bind_eq_ok] at hr
    obtain ⟨nix, _, hr⟩ := hr
    split at hr
    · simp only [bind_eq_ok, pure_eq_ok] at hr
      obtain ⟨_, _, _, _, rfl⟩ := hr
      rcases hres with h | ⟨_, h⟩ <;> cases h
    · simp only [bind_eq_ok, pure_eq_ok] at hr
      obtain ⟨_, _, _, _, rfl⟩ := hr
      rcases hres with h | ⟨_, h⟩ <;> cases h
      trivial
  | csr c =>
    simp only [Storage.getItem, bind_eq_ok] at hr
    obtain ⟨nix, _, hr⟩ := hr
    split at hr
    · simp only [bind_eq_ok, pure_eq_ok] at hr
      obtain ⟨_, _, _, _, rfl⟩ := hr
      rcases hres with h | ⟨_, h⟩ <;> cases h
    · simp only [bind_eq_ok] at hr
      obtain ⟨_, _, hr⟩ := hr
      split at hr <;> simp only [bind_eq_ok, pure_eq_ok] at hr <;> obtain ⟨_, _, rfl⟩ := hr <;>
        rcases hres with h | ⟨_, h⟩ <;> cases h <;> trivial
  | dm m d ih =>
    obtain ⟨hm, hd⟩ := hw
    simp only [Storage.getItem, bind_eq_ok] at hr
    obtain ⟨nix, h1, hr⟩ := hr
    split at hr
    · simp only [bind_eq_ok] at hr
      obtain ⟨_, _, hr⟩ := hr
      exact ih hd res hr hres
    · simp only [bind_eq_ok] at hr
      obtain ⟨gsh, h2, ⟨rd, rst, roff, dix⟩, h3, hr⟩ := hr
      have hne : dix ≠ [] := by
        rintro rfl
        obtain ⟨g, gs, hg⟩ := List.exists_cons_of_ne_nil hm.ne
        rw [hg] at h3
        revert h3
        generalize m.rshapes = a, m.rstrides = b, m.roffset = c
        intro h3
        match a, b, c, h3 with
        | _ :: _, _ :: _, _ :: _, h3 =>
          simp only [dmSliceLoop, bind_eq_ok] at h3
          obtain ⟨_, _, _, _, _, _, h3⟩ := h3
          split at h3 <;> simp [pure_eq_ok] at h3
        | [], _, _, h3 => simp [dmSliceLoop] at h3
        | _ :: _, [], _, h3 => simp [dmSliceLoop] at h3
        | _ :: _, _ :: _, [], h3 => simp [dmSliceLoop] at h3
      have hdne : dix.isEmpty = false := by cases dix <;> simp_all
      simp only [hdne, Bool.false_eq_true, if_false, bind_eq_ok] at hr
      obtain ⟨r1, h4, m', h5, hr⟩ := hr
      have hg : ∀ g ∈ m'.rdims, g ≠ [] := by
        rw [(DMMeta.new_rdims h5).1]
        exact (dmSliceLoop_groups nix _ _ _ _ h3).1
      cases r1 with
      | val v => simp at hr
      | view s' =>
        simp only [pure_eq_ok] at hr
        subst hr
        rcases hres with h | ⟨_, h⟩ <;> cases h
        exact ⟨hg, ih hd _ h4 (.inl rfl)⟩
      | fresh s' mm =>
        simp only [pure_eq_ok] at hr
        subst hr
        rcases hres with h | ⟨_, h⟩ <;> cases h
        exact ⟨hg, ih hd _ h4 (.inr ⟨_, rfl⟩)⟩

theorem copy_grouped {s r : Storage V} {mem m : List V} {u : Option V} (h : s.copy mem u = .ok (r, m)) (hz : Grouped s) :
    Grouped r := by
  induction s generalizing r m with
  | dm q d ih =>
    simp only [Storage.copy, bind_eq_ok, pure_eq_ok] at h
    obtain ⟨x, h1, m', h2, h3⟩ := h
    cases h3
    refine ⟨?_, ih h1 hz.2⟩
    rw [(DMMeta.new_rdims h2).1]
    exact hz.1
  | buffer b => cases h; trivial
  | strided b | coo b | flatcoo b | csr b =>
    simp only [Storage.copy, bind_eq_ok, pure_eq_ok] at h
    obtain ⟨x, _, h3⟩ := h
    cases h3; trivial

theorem copy_zeroOff {s r : Storage V} {mem m : List V} {u : Option V} (h : s.copy mem u = .ok (r, m)) (hz : ZeroOff s) :
    ZeroOff r := by
  induction s generalizing r m with
  | dm q d ih =>
    simp only [Storage.copy, bind_eq_ok, pure_eq_ok] at h
    obtain ⟨x, h1, m', h2, h3⟩ := h
    cases h3
    refine ⟨?_, ih h1 hz.2⟩
    have : m'.roffset = q.roffset := by
      simp only [DMMeta.new] at h2
      split at h2
      · cases h2
      · simp only [bind_eq_ok, pure_eq_ok] at h2
        obtain ⟨_, _, _, _, _, _, rfl⟩ := h2
        rfl
    rw [this]
    exact hz.1
  | buffer b => cases h; trivial
  | strided b =>
    simp only [Storage.copy, bind_eq_ok, pure_eq_ok] at h
    obtain ⟨x, _, h3⟩ := h
    cases h3; trivial
  | coo b =>
    simp only [Storage.copy, bind_eq_ok, pure_eq_ok] at h
    obtain ⟨x, _, h3⟩ := h
    cases h3; trivial
  | flatcoo b =>
    simp only [Storage.copy, bind_eq_ok, pure_eq_ok] at h
    obtain ⟨x, _, h3⟩ := h
    cases h3; trivial
  | csr b =>
    simp only [Storage.copy, bind_eq_ok, pure_eq_ok] at h
    obtain ⟨x, _, h3⟩ := h
    cases h3; trivial

/-- C70.  Every valid pipeline on an object that is the plain array `a` succeeds, and its result is what the same
operations make of `a`. -/
theorem C70_pipeline [HasNone V] (os : List (Act V)) (s : Storage V) (mem : List V) (h : s.WF mem) (hne : s.shape ≠ [])
    (a : Plain V) (ha : Is s mem a) (mode : Mode) (hm : mode.Holds s) (hok : PipeOk os a mode) :
    ∃ r m, PipeGives os s mem r m ∧ r.WF m ∧ Is r m (pipeArray os a) := by
  induction os generalizing s mem a mode with
  | nil => exact ⟨s, mem, .nil s mem, h, ha⟩
  | cons o os ih =>
    obtain ⟨hp, ho, hrest⟩ := hok
    obtain ⟨a1, a2, a3⟩ := ha
    have hb : s.cls ≠ .buffer := by
      cases mode with
      | flat => exact hm.2
      | whole => rw [hm.1]; simp
      | cut => rw [hm.1]; simp
    have hp' : PosShape s.shape := by rw [a1]; exact hp
    have hat : ∀ ix, InBox ix s.shape → s.at mem ix = a.elem ix := by
      intro ix hi
      exact (a3 ix (by rwa [← a1])).at_eq
    cases o with
    | index i =>
      obtain ⟨hv, hk, hcut⟩ := ho
      rw [← a1] at hv hk
      have hz : SafeIndex s i := by
        cases s with
        | dm m d =>
          cases mode with
          | flat => exact absurd rfl hm.1
          | whole =>
            have := (noOffsets_iff _).1 hm.2
            exact ZeroOff.safe this i
          | cut => exact Grouped.safe ((noEmptyGroups_iff _).1 hm.2) i (hcut rfl)
        | _ => trivial
      have hbi : BufferIndex s i := by
        cases s with
        | buffer b => exact absurd rfl hb
        | _ => trivial
      rcases h.getItem_ok hp' i hv hbi hz with ⟨g, _⟩ | ⟨_, t, mt, g1, ⟨g2, g3⟩, g4⟩
      · exact absurd g hk
      · obtain ⟨r, m, r1, r2, r3⟩ := ih t mt g4.wf (by rw [g4.shape_eq]; exact hk) ((Act.index i : Act V).apply a) (by
          refine ⟨by rw [g4.shape_eq, a1]; rfl, by rw [g2, a2]; rfl, fun j hj => ?_⟩
          have hj' : InBox j (selShape (items i) s.shape) := by rw [a1]; exact hj
          have := g4.wf.reads j (by rw [g4.shape_eq]; exact hj')
          rw [g4.reads j hj', hat _ (source_inBox hp' hv hj')] at this
          simpa only [Act.apply, a1] using this) _ (by
          cases mode with
          | flat =>
            rcases g3 with g3 | ⟨_, g3⟩
            · exact ⟨by rw [g3]; exact hm.1, by rw [g3]; exact hm.2⟩
            · exact ⟨by rw [g3]; simp, by rw [g3]; simp⟩
          | whole =>
            rcases g3 with g3 | ⟨g3, _⟩
            · exact ⟨by rw [g3, hm.1], (noEmptyGroups_iff _).2 (getItem_grouped h (g1.imp And.left fun h => ⟨_, h⟩))⟩
            · rw [hm.1] at g3; simp at g3
          | cut =>
            rcases g3 with g3 | ⟨g3, _⟩
            · exact ⟨by rw [g3, hm.1], (noEmptyGroups_iff _).2 (getItem_grouped h (g1.imp And.left fun h => ⟨_, h⟩))⟩
            · rw [hm.1] at g3; simp at g3) hrest
        exact ⟨r, m, .index i os s t r mem mt m g1 r1, r2, r3⟩
    | as cls u =>
      obtain ⟨hcb, hcsr⟩ := ho
      obtain ⟨t, mt, g1, g2, g3, g4, g5⟩ := convert_ok h hne cls u ⟨fun hc => absurd hc hcb, fun hc => by
        obtain ⟨e1, ix, e2, e3⟩ := hcsr hc
        refine ⟨by rw [a1]; exact e1, ix, by rw [a1]; exact e2, ?_⟩
        simp only [hat ix (by rw [a1]; exact e2), a2]
        exact e3⟩ (fun _ _ _ => hp')
      obtain ⟨r, m, r1, r2, r3⟩ := ih t mt g5.wf (by rw [g5.shape_eq]; exact hne) ((Act.as cls u : Act V).apply a) (by
        refine ⟨by rw [g5.shape_eq, a1]; rfl, by rw [g3, a2]; rfl, fun j hj => ?_⟩
        have hj' : InBox j s.shape := by rw [a1]; exact hj
        have := g5.wf.reads j (by rw [g5.shape_eq]; exact hj')
        rw [g5.reads j hj', hat _ hj', a2] at this
        exact this) _ (by
        simp only [Act.next]
        by_cases hd : cls = .dm
        · rw [if_pos hd]
          exact ⟨by rw [g2, hd], (noOffsets_iff _).2 g4⟩
        · rw [if_neg hd]
          exact ⟨by rw [g2]; exact hd, by rw [g2]; exact hcb⟩) hrest
      exact ⟨r, m, .as cls u os s t r mem mt m g1 r1, r2, r3⟩
    | copy u =>
      obtain ⟨t, mt, g1, g2, g3, g5⟩ := h.copyOf u
      obtain ⟨r, m, r1, r2, r3⟩ := ih t mt g5.wf (by rw [g5.shape_eq]; exact hne) ((Act.copy u : Act V).apply a) (by
        refine ⟨by rw [g5.shape_eq, a1]; rfl, by rw [g3, a2]; rfl, fun j hj => ?_⟩
        have hj' : InBox j s.shape := by rw [a1]; exact hj
        have := g5.wf.reads j (by rw [g5.shape_eq]; exact hj')
        rw [g5.reads j hj', hat _ hj', a2] at this
        exact this) mode (by
        cases mode with
        | flat => exact ⟨by rw [g2]; exact hm.1, by rw [g2]; exact hm.2⟩
        | whole => exact ⟨by rw [g2]; exact hm.1, (noOffsets_iff _).2 (copy_zeroOff g1 ((noOffsets_iff _).1 hm.2))⟩
        | cut => exact ⟨by rw [g2]; exact hm.1, (noEmptyGroups_iff _).2 (copy_grouped g1 ((noEmptyGroups_iff _).1 hm.2))⟩) hrest
      exact ⟨r, m, .copy u os s t r mem mt m g1 r1, r2, r3⟩

theorem PipeGives.unique [HasNone V] {os : List (Act V)} {s r r' : Storage V} {mem m m' : List V}
    (h : PipeGives os s mem r m) (h' : PipeGives os s mem r' m') : r = r' ∧ m = m' := by
  induction h with
  | nil s mem => cases h'; exact ⟨rfl, rfl⟩
  | index i os s t r mem mt m h _ ih =>
    cases h' with
    | index _ _ _ t' _ _ mt' _ g g' =>
      have : t' = t ∧ mt' = mt := by
        rcases h with ⟨h1, h2⟩ | h1 <;> rcases g with ⟨g1, g2⟩ | g1 <;> rw [h1] at g1 <;> cases g1
        · exact ⟨rfl, by rw [g2, h2]⟩
        · exact ⟨rfl, rfl⟩
      obtain ⟨rfl, rfl⟩ := this
      exact ih g'
  | as cls u os s t r mem mt m h _ ih =>
    cases h' with
    | as _ _ _ _ t' _ _ mt' _ g g' =>
      rw [h] at g
      cases g
      exact ih g'
  | copy u os s t r mem mt m h _ ih =>
    cases h' with
    | copy _ _ _ t' _ _ mt' _ g g' =>
      rw [h] at g
      cases g
      exact ih g'

/-- C70, second part: independence of the class.  Two objects, of any classes, with the same shape, the same unspecified
value and the same element at each index: whatever a valid pipeline makes of the one, it makes of the other, and the two
results have the same shape, the same unspecified value and the same elements. -/
theorem C70_independent [HasNone V] (os : List (Act V)) (s t : Storage V) (mem mem' : List V) (h : s.WF mem) (h' : t.WF mem')
    (hne : s.shape ≠ []) (a : Plain V) (hs : Is s mem a) (ht : Is t mem' a) (mode mode' : Mode) (hm : mode.Holds s)
    (hm' : mode'.Holds t) (hok : PipeOk os a mode) (hok' : PipeOk os a mode') :
    ∃ r m r' m', PipeGives os s mem r m ∧ PipeGives os t mem' r' m' ∧ r.shape = r'.shape ∧ r.unspec = r'.unspec ∧
      ∀ ix, InBox ix r.shape → ∃ v, Reads r m ix v ∧ Reads r' m' ix v := by
  obtain ⟨r, m, r1, _, r3, r4, r5⟩ := C70_pipeline os s mem h hne a hs mode hm hok
  obtain ⟨r', m', q1, _, q3, q4, q5⟩ := C70_pipeline os t mem' h' (by rw [ht.1, ← hs.1]; exact hne) a ht mode' hm' hok'
  refine ⟨r, m, r', m', r1, q1, by rw [r3, q3], by rw [r4, q4], fun ix hi => ⟨_, r5 ix ?_, q5 ix ?_⟩⟩ <;>
    rwa [← r3]

/-- The operations `s[::-1, 1:].as_COO(unspecified=0).copy().as_DM()[1]` of the case below. -/
def samplePipe : List (Act (Option Int)) :=
  [.index turned, .as .coo (some (some 0)), .copy none, .as .dm none, .index (.one (.int 1))]

/-- A case of C70: the array `sample` as a `Strided` and as a `CSR`. -/
example :
    let a : Plain (Option Int) := ⟨[2, 3], none, fun ix => (item sample ix).getD none⟩
    let r : Storage (Option Int) := .dm ⟨[2], [[0]], [[2]], [[1]], [0]⟩ (.strided ⟨[2], [1], ⟨2, 2, some 0⟩⟩)
    PipeOk samplePipe a .flat ∧ Mode.flat.Holds (.strided sampleStrided) ∧ Mode.flat.Holds (.csr sampleCSR) ∧
    (∀ ix ∈ [[0, 0], [0, 1], [0, 2], [1, 0], [1, 1], [1, 2]],
      Reads (.strided sampleStrided) sampleCells ix (a.elem ix) ∧ Reads (.csr sampleCSR) sampleItems ix (a.elem ix)) ∧
    PipeGives samplePipe (.strided sampleStrided) sampleCells r [some 5, some 0, some 0, some 3] ∧
    PipeGives samplePipe (.csr sampleCSR) sampleItems r [some 5, some 0, some 0, some 3] ∧
    (pipeArray samplePipe a).shape = [2] ∧ (pipeArray samplePipe a).elem [0] = some 0 ∧
    (pipeArray samplePipe a).elem [1] = some 3 := by
  intro a r
  refine ⟨?_, by simp [Mode.Holds, Storage.cls], by simp [Mode.Holds, Storage.cls], ?_, ?_, ?_, by decide +kernel,
    by decide +kernel, by decide +kernel⟩
  · have e : selShape (items turned) [2, 3] = [2, 2] := by decide +kernel
    simp only [samplePipe, PipeOk, Act.apply, Act.Ok, Act.next, Plain.respecify, a, e, and_true]
    refine ⟨by decide, ⟨by simp [turned, items, ValidItems], by simp, by simp⟩, by decide, ⟨by simp, by simp⟩, by decide,
      by decide, by simp, by simp, by decide, by simp [items, ValidItems], ?_, by simp⟩
    exact fun h => absurd h (by decide +kernel)
  · unfold Reads
    decide +kernel
  · refine .index _ _ _ (.strided ⟨[2, 2], [-3, 1], ⟨2, 4, none⟩⟩) _ _ _ _ (.inl ⟨by decide +kernel, rfl⟩) ?_
    refine .as _ _ _ _ (.coo ⟨[2, 2], ⟨[2, 2], [2, 1], ⟨4, 0, none⟩⟩, [some 0, some 1, some 0, some 1], ⟨2, 0, some 0⟩⟩) _ _
      [some 5, some 3] _ (by decide +kernel) ?_
    refine .copy _ _ _ (.coo ⟨[2, 2], ⟨[2, 2], [2, 1], ⟨4, 0, none⟩⟩, [some 0, some 1, some 0, some 1], ⟨2, 0, some 0⟩⟩) _ _
      [some 5, some 3] _ (by decide +kernel) ?_
    refine .as _ _ _ _ (.dm ⟨[2, 2], [[0], [1]], [[2], [2]], [[1], [1]], [0, 0]⟩ (.strided ⟨[2, 2], [2, 1], ⟨4, 0, some 0⟩⟩)) _ _
      [some 5, some 0, some 0, some 3] _ (by decide +kernel) ?_
    exact .index _ _ _ r _ _ _ _ (.inl ⟨by decide +kernel, rfl⟩) (.nil _ _)
  · refine .index _ _ _ (.csr ⟨[2, 2], ⟨3, 0, none⟩, [some 0, some 1, some 2], ⟨2, 0, none⟩, [some 0, some 1], ⟨2, 0, none⟩⟩) _ _
      [some 5, some 3] _ (.inr (by decide +kernel)) ?_
    refine .as _ _ _ _ (.coo ⟨[2, 2], ⟨[2, 2], [2, 1], ⟨4, 0, none⟩⟩, [some 0, some 1, some 0, some 1], ⟨2, 0, some 0⟩⟩) _ _
      [some 5, some 3] _ (by decide +kernel) ?_
    refine .copy _ _ _ (.coo ⟨[2, 2], ⟨[2, 2], [2, 1], ⟨4, 0, none⟩⟩, [some 0, some 1, some 0, some 1], ⟨2, 0, some 0⟩⟩) _ _
      [some 5, some 3] _ (by decide +kernel) ?_
    refine .as _ _ _ _ (.dm ⟨[2, 2], [[0], [1]], [[2], [2]], [[1], [1]], [0, 0]⟩ (.strided ⟨[2, 2], [2, 1], ⟨4, 0, some 0⟩⟩)) _ _
      [some 5, some 0, some 0, some 3] _ (by decide +kernel) ?_
    exact .index _ _ _ r _ _ _ _ (.inl ⟨by decide +kernel, rfl⟩) (.nil _ _)

/-- A case of C70 with a slice of a slice of a `DM`: `s.as_DM()[:, 1:][::-1]`. -/
example :
    let a : Plain (Option Int) := ⟨[2, 3], none, fun ix => (item sample ix).getD none⟩
    let p : List (Act (Option Int)) := [.as .dm none, .index (.tuple [.none, .slice ⟨some 1, none, none⟩]),
      .index (.one (.slice ⟨none, none, some (-1)⟩))]
    PipeOk p a .flat ∧ (pipeArray p a).shape = [2, 2] ∧
    [[0, 0], [0, 1], [1, 0], [1, 1]].map (pipeArray p a).elem = [some 5, none, none, some 3] := by
  intro a p
  refine ⟨?_, by decide +kernel, by decide +kernel⟩
  have e : selShape (items (.tuple [.none, .slice ⟨some 1, none, none⟩])) [2, 3] = [2, 2] := by decide +kernel
  simp only [p, PipeOk, Act.apply, Act.Ok, Act.next, Plain.respecify, a, e, and_true]
  refine ⟨by decide, ⟨by simp, by simp⟩, by decide, ⟨by simp [items, ValidItems], by simp, by simp⟩, by decide,
    by simp [items, ValidItems], ?_, by simp [items]⟩
  exact fun h => absurd h (by decide +kernel)

end Gcs
