import Verif.Props.Assigning

/-!
# C59: lists that are not rectangular

`get_shape` looks at the first item of every list only (gcs/storage.py:71-80).
-/

namespace Gcs

open Spec

variable {V : Type} [DecidableEq V] [HasNone V]

/-- The sizes of the list, of its first item, of the first item of that, and so on. -/
inductive Spec.FirstShape : Nested V → List Nat → Prop
  | leaf (v : V) : FirstShape (.leaf v) []
  | empty : FirstShape (.seq []) [0]
  | seq (x : Nested V) (xs : List (Nested V)) (shape : List Nat) (h : FirstShape x shape) :
    FirstShape (.seq (x :: xs)) ((xs.length + 1) :: shape)

omit [DecidableEq V] [HasNone V] in
theorem firstShape_eq {n : Nested V} {shape : List Nat} (h : FirstShape n shape) : n.shape = shape := by
  induction h with
  | leaf v => rfl
  | empty => rfl
  | seq x xs shape h ih => simp [Nested.shape, ih]

/-- C59, first part.  `cls.fromobject(n, unspecified=u)` of a list that has an item wherever its first items promise
one: the object has the shape of the first items and reads the items of that box; items outside the box are dropped
without a notice. -/
theorem C59_extra_dropped (cls : Cls) (n : Nested V) (shape : List Nat) (h : FirstShape n shape) (hne : shape ≠ [])
    (hfull : ∀ ix, InBox ix shape → ∃ v, item n ix = some v) (u : Option V)
    (hbuffer : cls = .buffer → shape.length = 1)
    (hcsr : cls = .csr → shape.length = 2 ∧ ∃ ix v, InBox ix shape ∧ item n ix = some v ∧ stored u v ≠ u.getD pyNone) :
    ∃ s mem, fromObject cls (.nested n) u = .ok (.fresh s mem) ∧ s.cls = cls ∧ s.shape = shape ∧
      s.unspec = u.getD pyNone ∧
      ∀ ix v, InBox ix shape → item n ix = some v → Reads s mem ix (stored u v) := by
  have hv : ∀ ix, InBox ix shape → (Src.nested n).getValue ix = .ok (itemD n ix) := by
    intro ix hi
    obtain ⟨v, hv⟩ := hfull ix hi
    rw [Src.getValue, getValue_of_item n ix v hv, itemD, hv]
    rfl
  obtain ⟨s, mem, h1, h2, h3, _, h4, _⟩ := general_ok cls shape hne _ pyNone (u.getD pyNone) (itemD n) hv
    ⟨hbuffer, fun hc => by
      obtain ⟨e1, ix, v, e2, e3, e4⟩ := hcsr hc
      exact ⟨e1, ix, e2, by simp only [itemD, e3]; exact e4⟩⟩
  refine ⟨s, mem, ?_, h2, h4.shape_eq, h3, fun ix v hi hx => ?_⟩
  · have hs : (Src.nested n).shape = shape := firstShape_eq h
    cases u <;> (simp only [fromObject, hs]; simp only [Src.unspec, bind, Except.bind]
                 cases cls <;> (simp only at h1 ⊢; rw [h1]; rfl))
  · have := h4.wf.reads ix (by rw [h4.shape_eq]; exact hi)
    rwa [h4.reads ix hi, itemD, hx] at this

omit [DecidableEq V] [HasNone V] in
theorem mapM_fail {α β : Type} (f : α → PyM β) (l : List α) (x : α) (hx : x ∈ l) (e : PyErr) (he : f x = .error e) :
    ∃ e', l.mapM f = .error e' := by
  cases h : l.mapM f with
  | error e' => exact ⟨e', rfl⟩
  | ok r =>
    obtain ⟨y, hy⟩ := mapM_inv f l r h x hx
    rw [he] at hy
    cases hy

omit [HasNone V] in
theorem buildFlat_fail (cls : Cls) (shape : List Nat) (value : List Int → PyM V) (su u : V) (ix : List Int)
    (hi : InBox ix shape) (e : PyErr) (he : value ix = .error e) : ∃ e', buildFlat cls shape value su u = .error e' := by
  have hm := (mem_indexProduct shape ix).2 hi
  obtain ⟨e1, h1⟩ := mapM_fail (fun ix => do
    let v ← value ix
    return if v = su then u else v) _ ix hm e (by simp only [he, bind, Except.bind])
  obtain ⟨e2, h2⟩ := mapM_fail (fun ix => do
    let v ← value ix
    return (ix, if v = su then u else v)) _ ix hm e (by simp only [he, bind, Except.bind])
  simp only [bind, Except.bind] at h1 h2
  cases cls with
  | buffer => exact ⟨e1, by simp only [buildFlat, bufferBuild, h1, bind, Except.bind]⟩
  | strided => exact ⟨e1, by simp only [buildFlat, stridedBuild, bufferBuild, h1, bind, Except.bind]⟩
  | coo => exact ⟨e2, by simp only [buildFlat, cooBuild, h2, bind, Except.bind]⟩
  | flatcoo => exact ⟨e2, by simp only [buildFlat, flatBuild, h2, bind, Except.bind]⟩
  | csr => exact ⟨e2, by simp only [buildFlat, csrBuild, cooBuild, h2, bind, Except.bind]⟩
  | dm => exact ⟨_, rfl⟩

omit [HasNone V] in
theorem dmBuild_fail (shape : List Nat) (value : List Int → PyM V) (su u : V) (ix : List Int) (hne : shape ≠ [])
    (hi : InBox ix shape) (e : PyErr) (he : value ix = .error e) :
    ∃ e', dmBuild .strided shape none none value su u = .error e' := by
  have hs := goodSplit_default shape.length false (List.length_pos_of_ne_nil hne)
  have hprep := dmPrepare_ok shape none none false hs
  have hflat := hs.flatten
  have hlen := dmGroups_length (List.range shape.length) shape.length (dmPartitioning shape.length false none)
  simp only [Option.getD_none] at hprep
  generalize hG : dmGroups (List.range shape.length) shape.length (dmPartitioning shape.length false none) 0 = G at *
  rw [← hlen] at hprep
  have hperm : G.flatten.Perm (List.range shape.length) := by rw [hflat]
  have hax : ∀ d, d ∈ G.flatten ↔ d < shape.length := fun d => by rw [hperm.mem_iff, List.mem_range]
  obtain ⟨rshape, rshapes, rstrides, e1, e2, e3, e4⟩ := C20_reduce_promote shape G (List.replicate G.length 0) hperm (by simp)
  rw [makeReduction_ok shape G fun g' hg' d hd => (hax d).1 (List.mem_flatten.2 ⟨g', hg', hd⟩)] at e1
  simp only [Except.ok.injEq, Prod.mk.injEq] at e1
  obtain ⟨rfl, rfl, rfl⟩ := e1
  obtain ⟨r, r1, r2, r3, r4⟩ := e3 ix hi
  have hz : List.zipWith (· - ·) r (List.replicate G.length 0) = r := by
    have hr : r.length = G.length := by rw [r2]; simp
    apply List.ext_getElem (by simp [hr])
    intro i h1 h2
    simp
  rw [hz] at r3
  obtain ⟨e', h'⟩ := buildFlat_fail .strided _ (fun rindex => do
      let ix ← promoteIndex (groupShapes shape G) G ((groupShapes shape G).map makeStrides) (List.replicate G.length 0) rindex
      value ix) su u r r3 e (by simp only [r4, bind, Except.bind, he])
  refine ⟨e', ?_⟩
  have hd : (decide (Cls.strided = Cls.buffer)) = false := rfl
  simp only [dmBuild, dmBuildWith, hd, hprep, bind, Except.bind] at h' ⊢
  simp only [h']

/-- C59, second part.  When the list has nothing at an index of the box of the first items, the constructors of all
classes raise. -/
theorem C59_missing (cls : Cls) (n : Nested V) (shape : List Nat) (h : FirstShape n shape) (hne : shape ≠ [])
    (ix : List Int) (hi : InBox ix shape) (hmiss : place n ix = none) (u : Option V) :
    ∃ e, fromObject cls (.nested n) u = .error e := by
  obtain ⟨e, he⟩ := getValue_of_no_place n ix (inBox_nonneg hi) hmiss
  have hs : (Src.nested n).shape = shape := firstShape_eq h
  have hd := dmBuild_fail shape (Src.nested n).getValue pyNone (u.getD pyNone) ix hne hi e he
  have hf := fun c => buildFlat_fail c shape (Src.nested n).getValue pyNone (u.getD pyNone) ix hi e he
  cases u <;> (
    simp only [fromObject, hs]
    simp only [Src.unspec, bind, Except.bind]
    cases cls with
    | dm => obtain ⟨e', h'⟩ := hd; exact ⟨e', by simp only [h']⟩
    | buffer => obtain ⟨e', h'⟩ := hf .buffer; exact ⟨e', by simp only [h']⟩
    | strided => obtain ⟨e', h'⟩ := hf .strided; exact ⟨e', by simp only [h']⟩
    | coo => obtain ⟨e', h'⟩ := hf .coo; exact ⟨e', by simp only [h']⟩
    | flatcoo => obtain ⟨e', h'⟩ := hf .flatcoo; exact ⟨e', by simp only [h']⟩
    | csr => obtain ⟨e', h'⟩ := hf .csr; exact ⟨e', by simp only [h']⟩)

/-- Cases of C59: `[[1, 2], [3, 4, 5]]` loses the `5`; `[[1, 2], [3]]` raises. -/
example :
    (let n : Nested (Option Int) :=
      .seq [.seq [.leaf (some 1), .leaf (some 2)], .seq [.leaf (some 3), .leaf (some 4), .leaf (some 5)]]
    FirstShape n [2, 2] ∧ place n [1, 2] = some (.leaf (some 5)) ∧
    fromObject .strided (.nested n) none
      = .ok (.fresh (.strided ⟨[2, 2], [2, 1], ⟨4, 0, none⟩⟩) [some 1, some 2, some 3, some 4])) ∧
    (let n : Nested (Option Int) := .seq [.seq [.leaf (some 1), .leaf (some 2)], .seq [.leaf (some 3)]]
    FirstShape n [2, 2] ∧ place n [1, 1] = none ∧ fromObject .csr (.nested n) none = .error .index) := by
  refine ⟨⟨.seq _ _ _ (.seq _ _ _ (.leaf _)), rfl, by decide +kernel⟩, .seq _ _ _ (.seq _ _ _ (.leaf _)), rfl, by decide +kernel⟩

end Gcs
