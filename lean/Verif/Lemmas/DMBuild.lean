import Verif.SpecArray
import Verif.Lemmas.GetItem
import Verif.Props.Reduction

/-! Building a `DM`. -/

namespace Gcs

open Spec

variable {V : Type}

theorem dmGroups_eq (dims : List Nat) (n : Nat) (ps : List Nat) (lo : Nat) :
    dmGroups dims n ps lo = Basics.splitDims dims n ps lo := by
  induction ps generalizing lo with
  | nil => rfl
  | cons p ps ih => simp only [dmGroups, Basics.splitDims, ih]

theorem dmGroups_flatten (dims : List Nat) (n : Nat) (hl : dims.length = n) (ps : List Nat)
    (hs : ps.Pairwise (· ≤ ·)) (hle : ∀ p ∈ ps, p ≤ n) : (dmGroups dims n ps 0).flatten = dims := by
  rw [dmGroups_eq, splitDims_flatten dims n ps 0 (by simpa using hs) (by simpa using hle)]
  simp [← hl]

theorem dmGroups_length (dims : List Nat) (n : Nat) (ps : List Nat) : (dmGroups dims n ps 0).length = ps.length + 1 := by
  rw [dmGroups_eq, splitDims_length]

theorem dmGroups_cut (dims : List Nat) (ps : List Nat) (lo : Nat) :
    dmGroups dims dims.length ps lo = cutAt dims lo ps := by
  induction ps generalizing lo with
  | nil =>
    simp only [dmGroups, cutAt]
    rw [List.take_of_length_le (by simp)]
  | cons p ps ih => simp only [dmGroups, cutAt, ih, List.drop_take]

theorem groupSizes_eq (shape : List Nat) (gs : List (List Nat)) : groupSizes shape gs = (groupShapes shape gs).map product := by
  simp only [groupSizes, groupShapes, List.map_map]
  apply List.map_congr_left
  intro g _
  simp only [Function.comp]
  generalize (g.map fun d => shape.getD d 0) = l
  induction l with
  | nil => rfl
  | cons a l ih => simp [count, product_cons, ih]

theorem dmGroups_ne (dims : List Nat) (n : Nat) (hl : dims.length = n) (ps : List Nat) (lo : Nat)
    (hs : (lo :: ps).Pairwise (· < ·)) (hle : ∀ p ∈ lo :: ps, p < n) : ∀ g ∈ dmGroups dims n ps lo, g ≠ [] := by
  induction ps generalizing lo with
  | nil =>
    intro g hg
    have := hle lo (by simp)
    simp only [dmGroups, List.mem_singleton] at hg
    subst hg
    intro he
    have := congrArg List.length he
    simp at this
    omega
  | cons p ps ih =>
    intro g hg
    simp only [dmGroups, List.mem_cons] at hg
    rcases hg with rfl | hg
    · have h1 := (List.pairwise_cons.1 hs).1 p (by simp)
      have h2 := hle p (by simp)
      intro he
      have := congrArg List.length he
      simp at this
      omega
    · exact ih p (List.pairwise_cons.1 hs).2 (fun q hq => hle q (by simp at hq ⊢; tauto)) g hg

theorem groups_nodup {gs : List (List Nat)} (hn : gs.flatten.Nodup) (hne : ∀ g ∈ gs, g ≠ []) : gs.Nodup := by
  rw [List.nodup_flatten] at hn
  refine List.Pairwise.imp_of_mem ?_ hn.2
  intro a b ha hb hd he
  subst he
  cases a with
  | nil => exact hne _ ha rfl
  | cons x a => exact hd (a := x) (by simp) (by simp)

/-- The arguments of `DM.fromobject` describe a permutation of the axes cut at strictly increasing positions. -/
structure GoodSplit (n : Nat) (dims part : List Nat) : Prop where
  perm : dims.Perm (List.range n)
  sorted : part.Pairwise (· < ·)
  pos : ∀ p ∈ part, 0 < p
  lt : ∀ p ∈ part, p < n
  ne : 0 < n

theorem GoodSplit.length_lt {n : Nat} {dims part : List Nat} (h : GoodSplit n dims part) : part.length < n := by
  have hn : part.Nodup := h.sorted.imp fun hab => Nat.ne_of_lt hab
  have hsub : part ⊆ (List.range n).tail := by
    intro p hp
    have h1 := h.pos p hp
    have h2 := h.lt p hp
    obtain ⟨m, rfl⟩ : ∃ m, n = m + 1 := ⟨n - 1, by have := h.ne; omega⟩
    rw [List.range_succ_eq_map, List.tail_cons, List.mem_map]
    exact ⟨p - 1, by simp; omega, by simp; omega⟩
  have := (List.subperm_of_subset hn hsub).length_le
  have h0 := h.ne
  simp at this
  omega

theorem GoodSplit.nodup {n : Nat} {dims part : List Nat} (h : GoodSplit n dims part) :
    (dmGroups dims n part 0).Nodup := by
  have hl : dims.length = n := by simpa using h.perm.length_eq
  apply groups_nodup
  · rw [dmGroups_flatten dims n hl part (h.sorted.imp Nat.le_of_lt) fun p hp => (h.lt p hp).le]
    exact h.perm.nodup_iff.2 List.nodup_range
  · apply dmGroups_ne dims n hl part 0
    · rw [List.pairwise_cons]
      exact ⟨h.pos, h.sorted⟩
    · intro p hp
      rcases List.mem_cons.1 hp with rfl | hp
      · exact h.ne
      · exact h.lt p hp

theorem GoodSplit.flatten {n : Nat} {dims part : List Nat} (h : GoodSplit n dims part) :
    (dmGroups dims n part 0).flatten = dims :=
  dmGroups_flatten dims n (by simpa using h.perm.length_eq) part (h.sorted.imp Nat.le_of_lt) fun p hp => (h.lt p hp).le

theorem dmPrepare_ok (shape : List Nat) (dimensions partitioning : Option (List Nat)) (isBuffer : Bool)
    (h : GoodSplit shape.length (dimensions.getD (List.range shape.length)) (dmPartitioning shape.length isBuffer partitioning)) :
    dmPrepare shape dimensions partitioning isBuffer
      = .ok (dmGroups (dimensions.getD (List.range shape.length)) shape.length (dmPartitioning shape.length isBuffer partitioning) 0,
        (groupShapes shape (dmGroups (dimensions.getD (List.range shape.length)) shape.length
          (dmPartitioning shape.length isBuffer partitioning) 0)).map product,
        groupShapes shape (dmGroups (dimensions.getD (List.range shape.length)) shape.length
          (dmPartitioning shape.length isBuffer partitioning) 0),
        (groupShapes shape (dmGroups (dimensions.getD (List.range shape.length)) shape.length
          (dmPartitioning shape.length isBuffer partitioning) 0)).map makeStrides,
        List.replicate ((dmPartitioning shape.length isBuffer partitioning).length + 1) 0) := by
  have hn := h.nodup
  have hl := h.length_lt
  have hf := h.flatten
  set part := dmPartitioning shape.length isBuffer partitioning with hpd
  set dims := dimensions.getD (List.range shape.length) with hdd
  have h1 : part = part.insertionSort (· ≤ ·) := by
    symm
    apply List.Pairwise.insertionSort_eq
    exact h.sorted.imp fun hab => Nat.le_of_lt hab
  have h2 : (part.all fun p => decide (0 < p)) = true := by
    rw [List.all_eq_true]; intro p hp; simpa using h.pos p hp
  have h3 : (part.all fun p => decide (p < shape.length)) = true := by
    rw [List.all_eq_true]; intro p hp; simpa using h.lt p hp
  have hr := makeReduction_ok shape (dmGroups dims shape.length part 0) (by
    intro g hg d hd
    have : d ∈ (dmGroups dims shape.length part 0).flatten := List.mem_flatten.2 ⟨g, hg, hd⟩
    rw [hf] at this
    simpa using h.perm.mem_iff.1 this)
  unfold dmPrepare
  simp only [← hpd, ← hdd]
  rw [show decide (part = part.insertionSort (· ≤ ·)) = true from decide_eq_true h1, h2, h3,
    show decide (part.length + 1 ≤ shape.length) = true from decide_eq_true hl,
    show decide (dmGroups dims shape.length part 0).Nodup = true from decide_eq_true hn]
  simp only [pyAssert, bind, Except.bind, pure, Except.pure, if_true, hr]

/-- `DM.fromobject`: the storage that `inner` builds holds the elements in the reduced order, and the `DM` reads
the array. -/
theorem dmBuildWith_ok [DecidableEq V] (inner : List Nat → (List Int → PyM V) → PyM (Storage V × List V)) (isBuffer : Bool)
    (shape : List Nat) (dimensions partitioning : Option (List Nat)) (value : List Int → PyM V) (a : List Int → V)
    (g : V → V) (Q : Storage V → Prop)
    (hs : GoodSplit shape.length (dimensions.getD (List.range shape.length)) (dmPartitioning shape.length isBuffer partitioning))
    (ha : ∀ ix, InBox ix shape → value ix = .ok (a ix))
    (hin : ∀ (value' : List Int → PyM V) (a' : List Int → V), (∀ r, InBox r ((groupShapes shape (dmGroups (dimensions.getD (List.range shape.length)) shape.length
          (dmPartitioning shape.length isBuffer partitioning) 0)).map product) → value' r = .ok (a' r)) →
      (∀ ix, InBox ix shape → ∃ r, InBox r ((groupShapes shape (dmGroups (dimensions.getD (List.range shape.length))
        shape.length (dmPartitioning shape.length isBuffer partitioning) 0)).map product) ∧ a' r = a ix) →
      ∃ st mem, inner ((groupShapes shape (dmGroups (dimensions.getD (List.range shape.length)) shape.length
          (dmPartitioning shape.length isBuffer partitioning) 0)).map product) value' = .ok (st, mem) ∧ Q st ∧ ZeroOff st ∧
        Stands st mem ((groupShapes shape (dmGroups (dimensions.getD (List.range shape.length)) shape.length
          (dmPartitioning shape.length isBuffer partitioning) 0)).map product) fun r => g (a' r)) :
    ∃ m st mem, dmBuildWith inner isBuffer shape dimensions partitioning value = .ok (.dm m st, mem) ∧
      (Q st ∧ m.rdims = dmGroups (dimensions.getD (List.range shape.length)) shape.length
          (dmPartitioning shape.length isBuffer partitioning) 0 ∧ st.shape = groupSizes shape m.rdims) ∧
      ZeroOff (.dm m st) ∧ Stands (.dm m st) mem shape fun ix => g (a ix) := by
  have hprep := dmPrepare_ok shape dimensions partitioning isBuffer hs
  have hflat := hs.flatten
  have hlen := dmGroups_length (dimensions.getD (List.range shape.length)) shape.length
    (dmPartitioning shape.length isBuffer partitioning)
  generalize hG : dmGroups (dimensions.getD (List.range shape.length)) shape.length
    (dmPartitioning shape.length isBuffer partitioning) 0 = G at *
  rw [← hlen] at hprep
  generalize dmPartitioning shape.length isBuffer partitioning = part at *
  have hperm : G.flatten.Perm (List.range shape.length) := by rw [hflat]; exact hs.perm
  have hGne : G ≠ [] := by intro he; rw [he] at hlen; simp at hlen
  have hax : ∀ d, d ∈ G.flatten ↔ d < shape.length := fun d => by rw [hperm.mem_iff, List.mem_range]
  obtain ⟨rshape, rshapes, rstrides, e1, e2, e3, e4⟩ := C20_reduce_promote shape G (List.replicate G.length 0) hperm (by simp)
  rw [makeReduction_ok shape G fun g' hg' d hd => (hax d).1 (List.mem_flatten.2 ⟨g', hg', hd⟩)] at e1
  simp only [Except.ok.injEq, Prod.mk.injEq] at e1
  obtain ⟨rfl, rfl, rfl⟩ := e1
  have hgs : GroupStrides G ((groupShapes shape G).map makeStrides) := by
    clear hperm hGne hax e2 e3 e4 hin hprep hG hflat hlen
    induction G with
    | nil => trivial
    | cons dims G ih => exact ⟨by simp [makeStrides_length], ih⟩
  have hz : ∀ r : List Int, r.length = G.length → List.zipWith (· - ·) r (List.replicate G.length 0) = r := by
    intro r hr
    apply List.ext_getElem (by simp [hr])
    intro i h1 h2
    simp
  have htgt : ∀ ix, InBox ix shape → InBox (target G ((groupShapes shape G).map makeStrides) (List.replicate G.length 0) ix)
      ((groupShapes shape G).map product) ∧
      promoteIndex (groupShapes shape G) G ((groupShapes shape G).map makeStrides) (List.replicate G.length 0)
        (target G ((groupShapes shape G).map makeStrides) (List.replicate G.length 0) ix) = .ok ix := by
    intro ix hi
    obtain ⟨r, r1, r2, r3, r4⟩ := e3 ix hi
    rw [target_ok shape G _ _ ix hgs (by simp) (by intro d hd; rw [hi.length_eq]; exact (hax d).1 hd)] at r1
    simp only [Except.ok.injEq] at r1
    rw [r1]
    rw [hz r (by rw [r2]; simp)] at r3
    exact ⟨r3, r4⟩
  have hpro : ∀ r, InBox r ((groupShapes shape G).map product) → ∃ ix, InBox ix shape ∧
      promoteIndex (groupShapes shape G) G ((groupShapes shape G).map makeStrides) (List.replicate G.length 0) r = .ok ix := by
    intro r hr
    have hrl : r.length = G.length := by rw [hr.length_eq]; simp [groupShapes]
    obtain ⟨ix, i1, i2, _⟩ := e4 r hrl (by rw [hz r hrl]; exact hr)
    exact ⟨ix, i1, i2⟩
  let P : List Int → List Int := fun r =>
    match promoteIndex (groupShapes shape G) G ((groupShapes shape G).map makeStrides) (List.replicate G.length 0) r with
    | .ok ix => ix
    | .error _ => []
  have hP : ∀ r ix, promoteIndex (groupShapes shape G) G ((groupShapes shape G).map makeStrides)
      (List.replicate G.length 0) r = .ok ix → P r = ix := by
    intro r ix h; simp only [P, h]
  obtain ⟨st, mem, s1, s2, s3, s4⟩ := hin
    (fun rindex => do
      let ix ← promoteIndex (groupShapes shape G) G ((groupShapes shape G).map makeStrides) (List.replicate G.length 0) rindex
      value ix) (fun r => a (P r))
    (by
      intro r hr
      obtain ⟨ix, i1, i2⟩ := hpro r hr
      simp only [i2, bind, Except.bind, ha ix i1, hP r ix i2])
    (by
      intro ix hi
      obtain ⟨t1, t2⟩ := htgt ix hi
      exact ⟨_, t1, by rw [hP _ _ t2]⟩)
  have hm : DMMeta.WF ⟨shape, G, groupShapes shape G, (groupShapes shape G).map makeStrides, List.replicate G.length 0⟩
      st.shape := by
    refine ⟨hGne, hax, rfl, hgs, by simp, ?_, ?_⟩
    · rw [s4.shape_eq]; simp [groupShapes]
    · intro ix hi
      rw [s4.shape_eq]
      exact (htgt ix hi).1
  refine ⟨_, st, mem, ?_, ⟨s2, rfl, by rw [groupSizes_eq, s4.shape_eq]⟩, ⟨?_, s3⟩, ⟨hm, s4.wf⟩, rfl, ?_⟩
  · simp only [dmBuildWith, hprep, bind, Except.bind]
    have hshl : st.shape.length = G.length := by rw [s4.shape_eq]; simp [groupShapes]
    have s1' := s1
    simp only [bind, Except.bind] at s1'
    simp only [s1', hshl, pyAssert, decide_true, if_true, DMMeta.new_ok _ _ _ _ hGne hax, pure, Except.pure]
  · intro o ho
    exact (List.mem_replicate.1 ho).2
  · intro ix hi
    obtain ⟨t1, t2⟩ := htgt ix hi
    rw [at_dm hm s4.wf ix hi, s4.reads _ t1, hP _ _ t2]

theorem goodSplit_default (n : Nat) (b : Bool) (h : 0 < n) : GoodSplit n (List.range n) (dmPartitioning n b none) := by
  refine ⟨List.Perm.refl _, ?_, ?_, ?_, h⟩ <;> simp only [dmPartitioning] <;> split <;> simp_all <;> omega

/-- `DM.fromobject` over the storage classes. -/
theorem dmBuild_ok [DecidableEq V] (cls : Cls) (shape : List Nat) (dimensions partitioning : Option (List Nat))
    (value : List Int → PyM V) (su u : V) (a : List Int → V)
    (hs : GoodSplit shape.length (dimensions.getD (List.range shape.length))
      (dmPartitioning shape.length (cls = .buffer) partitioning))
    (ha : ∀ ix, InBox ix shape → value ix = .ok (a ix))
    (hb : cls = .buffer → dmPartitioning shape.length true partitioning = [])
    (hc : cls = .csr → (dmPartitioning shape.length false partitioning).length = 1 ∧
      ∃ ix, InBox ix shape ∧ subst su u (a ix) ≠ u) :
    ∃ m st mem, dmBuild cls shape dimensions partitioning value su u = .ok (.dm m st, mem) ∧
      ((st.cls = cls ∧ st.unspec = u) ∧ m.rdims = dmGroups (dimensions.getD (List.range shape.length)) shape.length
          (dmPartitioning shape.length (cls = .buffer) partitioning) 0 ∧ st.shape = groupSizes shape m.rdims) ∧
      ZeroOff (.dm m st) ∧ Stands (.dm m st) mem shape fun ix => subst su u (a ix) := by
  have hlen := dmGroups_length (dimensions.getD (List.range shape.length)) shape.length
    (dmPartitioning shape.length (cls = .buffer) partitioning)
  have flat : ∀ c : Cls, c ≠ .dm → cls = c →
      ∃ m st mem, dmBuildWith (fun rshape value' => buildFlat c rshape value' su u) (c = .buffer) shape dimensions
        partitioning value = .ok (.dm m st, mem) ∧
      ((st.cls = c ∧ st.unspec = u) ∧ m.rdims = dmGroups (dimensions.getD (List.range shape.length)) shape.length
          (dmPartitioning shape.length (c = .buffer) partitioning) 0 ∧ st.shape = groupSizes shape m.rdims) ∧
      ZeroOff (.dm m st) ∧ Stands (.dm m st) mem shape fun ix => subst su u (a ix) := by
    rintro c hdm rfl
    apply dmBuildWith_ok _ _ _ _ _ _ a (fun v => subst su u v) (fun st => st.cls = cls ∧ st.unspec = u) hs ha
    intro value' a' h1 h2
    obtain ⟨st, mem, b1, b2, b3, b4, _⟩ := buildFlat_ok cls _ value' su u a' h1 (by
      cases cls with
      | buffer =>
        left
        refine ⟨rfl, ?_⟩
        have := hb rfl
        simp only [decide_true] at hlen ⊢
        rw [this] at hlen ⊢
        simp [groupShapes]
        exact hlen
      | strided => exact .inr (.inl rfl)
      | coo =>
        right; right; left
        refine ⟨rfl, ?_⟩
        intro he
        have := congrArg List.length he
        rw [List.length_map, groupShapes, List.length_map, hlen] at this
        simp at this
      | flatcoo => exact .inr (.inr (.inr (.inl rfl)))
      | csr =>
        right; right; right; right
        obtain ⟨c1, ix, c2, c3⟩ := hc rfl
        obtain ⟨r, d1, d2⟩ := h2 ix c2
        refine ⟨rfl, ?_, r, d1, by rw [d2]; exact c3⟩
        have e : decide (Cls.csr = Cls.buffer) = false := rfl
        rw [e, c1] at hlen
        simp [groupShapes, e, hlen]
      | dm => exact absurd rfl hdm)
    refine ⟨st, mem, b1, ⟨b2, b3⟩, ?_, b4⟩
    cases st with
    | dm m d => exact absurd b2.symm hdm
    | _ => trivial
  cases cls with
  | buffer => exact flat .buffer (by simp) rfl
  | strided => exact flat .strided (by simp) rfl
  | coo => exact flat .coo (by simp) rfl
  | flatcoo => exact flat .flatcoo (by simp) rfl
  | csr => exact flat .csr (by simp) rfl
  | dm =>
    simp only [dmBuild]
    refine dmBuildWith_ok _ false _ _ _ _ a (fun v => subst su u v) (fun st => st.cls = .dm ∧ st.unspec = u) hs ha ?_
    intro value' a' h1 h2
    set rshape := (groupShapes shape (dmGroups (dimensions.getD (List.range shape.length)) shape.length
        (dmPartitioning shape.length false partitioning) 0)).map product with hrs
    have hrl : 0 < rshape.length := by
      rw [hrs]
      have e : decide (Cls.dm = Cls.buffer) = false := rfl
      rw [e] at hlen
      simp [groupShapes, hlen]
    obtain ⟨m, st, mem, b1, ⟨b2, _⟩, b3, b4⟩ := dmBuildWith_ok
      (fun rshape' value'' => buildFlat .strided rshape' value'' su u) false rshape none none value' a'
      (fun v => subst su u v) (fun st => st.unspec = u) (goodSplit_default _ _ hrl) h1 (by
        intro value'' a'' h3 _
        obtain ⟨st, mem, b1, b2, b3, b4, _⟩ := buildFlat_ok .strided _ value'' su u a'' h3 (.inr (.inl rfl))
        refine ⟨st, mem, b1, b3, ?_, b4⟩
        cases st with
        | dm m d => simp [Storage.cls] at b2
        | _ => trivial)
    exact ⟨.dm m st, mem, b1, ⟨rfl, b2⟩, b3, b4⟩

end Gcs
