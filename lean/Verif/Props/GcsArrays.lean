import Verif.Model.GcsArrays
import Verif.Props.Contents
import Verif.Props.Reduction
import Verif.Props.Compress

/-!
# C90: the lists of the GCS format that `gcs_basics.py` makes
-/

namespace Gcs

open Spec Basics

variable {V : Type}

/-! ### Specification -/

/-- The value that was given last for the index. -/
def Spec.lastValue (sample : List (List Int × V)) (ix : List Int) : Option V :=
  (sample.reverse.find? fun e => e.1 = ix).map Prod.snd

/-- Row `r` of the compressed rows `crow` with columns `cols` has the value `v` in column `c`. -/
def Spec.RowHas (crow cols : List Int) (values : List V) (r c : Int) (v : V) : Prop :=
  ∃ (lo hi : Int) (i : Nat), 0 ≤ r ∧ crow[r.toNat]? = some lo ∧ crow[r.toNat + 1]? = some hi ∧ lo ≤ i ∧ i < hi ∧
    cols[i]? = some c ∧ values[i]? = some v

/-! ### Dictionaries -/

theorem lastValue_nil (ix : List Int) : Spec.lastValue ([] : List (List Int × V)) ix = none := rfl

theorem lastValue_concat (s : List (List Int × V)) (k : List Int) (v : V) (ix : List Int) :
    Spec.lastValue (s ++ [(k, v)]) ix = if k = ix then some v else Spec.lastValue s ix := by
  simp only [Spec.lastValue, List.reverse_append, List.reverse_cons, List.reverse_nil, List.nil_append,
    List.singleton_append, List.find?_cons]
  split <;> rename_i h <;> simp_all

/-- `d` is a dictionary with the values that were given last. -/
def IsDict (d s : List (List Int × V)) : Prop :=
  (d.map Prod.fst).Nodup ∧ ∀ k v, (k, v) ∈ d ↔ Spec.lastValue s k = some v

theorem dictSet_keys (k : List Int) (v : V) (d : List (List Int × V)) (x : List Int) :
    x ∈ (dictSet k v d).map Prod.fst ↔ x = k ∨ x ∈ d.map Prod.fst := by
  induction d with
  | nil => simp [dictSet]
  | cons e d ih =>
    simp only [dictSet]
    split
    · rename_i h; subst h; simp
    · simp only [List.map_cons, List.mem_cons, ih]; tauto

theorem dictSet_nodup (k : List Int) (v : V) (d : List (List Int × V)) (h : (d.map Prod.fst).Nodup) :
    ((dictSet k v d).map Prod.fst).Nodup := by
  induction d with
  | nil => simp [dictSet]
  | cons e d ih =>
    have h' := List.nodup_cons.1 (by simpa using h : (e.1 :: d.map Prod.fst).Nodup)
    simp only [dictSet]
    split
    · rename_i hk; subst hk; simpa using h
    · rename_i hk
      rw [List.map_cons, List.nodup_cons, dictSet_keys]
      exact ⟨fun hx => hx.elim hk h'.1, ih h'.2⟩

theorem dictSet_mem (k : List Int) (v : V) (d : List (List Int × V)) (h : (d.map Prod.fst).Nodup) (x : List Int) (y : V) :
    (x, y) ∈ dictSet k v d ↔ (if k = x then y = v else (x, y) ∈ d) := by
  induction d with
  | nil => simp only [dictSet, List.mem_singleton, Prod.mk.injEq, List.not_mem_nil]; split <;> simp_all [eq_comm]
  | cons e d ih =>
    have h' := List.nodup_cons.1 (by simpa using h : (e.1 :: d.map Prod.fst).Nodup)
    simp only [dictSet]
    split
    · rename_i hk
      subst hk
      simp only [List.mem_cons, Prod.mk.injEq]
      split
      · rename_i hx
        subst hx
        have : (e.1, y) ∉ d := fun hm => h'.1 (List.mem_map.2 ⟨_, hm, rfl⟩)
        simp [this]
      · rename_i hx
        have e1 : ¬ x = e.1 := fun hh => hx hh.symm
        have e2 : ¬ (x, y) = e := fun hh => e1 (by rw [← hh])
        simp [e1, e2]
    · rename_i hk
      rw [List.mem_cons, ih h'.2]
      split
      · rename_i hx
        subst hx
        have : ¬ (k, y) = e := fun hh => hk (by rw [← hh])
        simp [this]
      · rw [List.mem_cons]

theorem IsDict.set {d s : List (List Int × V)} (h : IsDict d s) (k : List Int) (v : V) :
    IsDict (dictSet k v d) (s ++ [(k, v)]) := by
  refine ⟨dictSet_nodup k v d h.1, fun x y => ?_⟩
  rw [dictSet_mem k v d h.1, lastValue_concat]
  split
  · simp [eq_comm]
  · exact h.2 x y

theorem dictGet_ok {d : List (List Int × V)} (h : (d.map Prod.fst).Nodup) {k : List Int} {v : V} (hm : (k, v) ∈ d) :
    dictGet k d = .ok v := by
  induction d with
  | nil => cases hm
  | cons e d ih =>
    have h' := List.nodup_cons.1 (by simpa using h : (e.1 :: d.map Prod.fst).Nodup)
    simp only [dictGet]
    rcases List.mem_cons.1 hm with rfl | hm
    · simp
    · have hk : k ∈ d.map Prod.fst := List.mem_map.2 ⟨_, hm, rfl⟩
      rw [if_neg fun he : e.1 = k => h'.1 (by rw [he]; exact hk)]
      exact ih h'.2 hm

theorem reducedDict_ok (md : Metadata) (red : List Int → List Int) (sample : List (List Int × V))
    (hr : ∀ e ∈ sample, reduction md e.1 = .ok (red e.1)) (d s : List (List Int × V)) (h : IsDict d s) :
    ∃ d', reducedDict md sample d = .ok d' ∧ IsDict d' (s ++ sample.map fun e => (red e.1, e.2)) := by
  induction sample generalizing d s with
  | nil => exact ⟨d, rfl, by simpa using h⟩
  | cons e sample ih =>
    obtain ⟨d', h1, h2⟩ := ih (fun e he => hr e (List.mem_cons_of_mem _ he)) _ _ (h.set (red e.1) e.2)
    refine ⟨d', ?_, by simpa using h2⟩
    simp only [reducedDict, hr e (by simp), bind, Except.bind]
    exact h1

/-! ### Sorting -/

theorem tupleLe_iff (x y : List Int) : tupleLe x y = true ↔ lexLt x y ∨ x = y := by
  induction x generalizing y with
  | nil => cases y <;> simp [tupleLe, lexLt]
  | cons a x ih =>
    cases y with
    | nil => simp [tupleLe, lexLt]
    | cons b y =>
      simp only [tupleLe, lexLt, List.cons.injEq]
      split
      · rename_i h; subst h; simp [ih]
      · rename_i h; simp [h]

instance : Std.Total (fun x y : List Int => tupleLe x y = true) :=
  ⟨fun x y => by
    rw [tupleLe_iff, tupleLe_iff]
    rcases lexLt_trichotomy x y with h | h | h
    · exact .inl (.inl h)
    · exact .inl (.inr h)
    · exact .inr (.inl h)⟩

instance : IsTrans (List Int) (fun x y => tupleLe x y = true) :=
  ⟨fun x y z h1 h2 => by
    rw [tupleLe_iff] at *
    rcases h1 with h1 | rfl
    · rcases h2 with h2 | rfl
      · exact .inl (lexLt_trans h1 h2)
      · exact .inl h1
    · exact h2⟩

theorem sortedKeys (l : List (List Int)) (h : l.Nodup) :
    (l.insertionSort (tupleLe · ·)).Pairwise lexLt ∧ ∀ x, x ∈ l.insertionSort (tupleLe · ·) ↔ x ∈ l := by
  have hp := List.perm_insertionSort (fun x y : List Int => tupleLe x y = true) l
  refine ⟨?_, fun x => hp.mem_iff⟩
  have h1 := List.pairwise_insertionSort (fun x y : List Int => tupleLe x y = true) l
  have h2 : (l.insertionSort (tupleLe · ·)).Nodup := hp.nodup_iff.2 h
  exact (h1.and h2).imp fun {a b} hab => ((tupleLe_iff a b).1 hab.1).resolve_right hab.2

/-! ### The lists -/

theorem gcsLoop_ok {d : List (List Int × V)} (h : (d.map Prod.fst).Nodup) (keys : List (List Int))
    (hk : ∀ k ∈ keys, k.length = 2) (hm : ∀ k ∈ keys, k ∈ d.map Prod.fst) :
    ∃ values, gcsLoop d keys = .ok (keys.map fun k => k.getD 0 0, keys.map fun k => k.getD 1 0, values) ∧
      values.length = keys.length ∧ ∀ (i : Nat) k v, keys[i]? = some k → values[i]? = some v → (k, v) ∈ d := by
  induction keys with
  | nil => exact ⟨[], rfl, rfl, by simp⟩
  | cons k keys ih =>
    obtain ⟨values, h1, h2, h3⟩ := ih (fun k hx => hk k (List.mem_cons_of_mem _ hx))
      fun k hx => hm k (List.mem_cons_of_mem _ hx)
    obtain ⟨⟨k', v⟩, hv, rfl⟩ := List.mem_map.1 (hm k (by simp))
    obtain ⟨a, b, rfl⟩ : ∃ a b, k' = [a, b] := by
      match k', hk k' (by simp) with
      | [a, b], _ => exact ⟨a, b, rfl⟩
    refine ⟨v :: values, ?_, by simp [h2], fun i k x hi hx => ?_⟩
    · simp only [gcsLoop, dictGet_ok h hv, h1, bind, Except.bind]
      rfl
    · cases i with
      | zero => simp at hi hx; subst hi; subst hx; exact hv
      | succ i => exact h3 i k x (by simpa using hi) (by simpa using hx)

/-! ### Metadata -/

theorem splitDims_eq (dims : List Nat) (n : Nat) (ps : List Nat) (lo : Nat) : splitDims dims n ps lo = dmGroups dims n ps lo := by
  induction ps generalizing lo with
  | nil => rfl
  | cons p ps ih => simp only [splitDims, dmGroups, ih]

/-- `create_reduction_metadata` in closed form. -/
def closedMetadata (shape : List Nat) (groups : List (List Nat)) : Metadata :=
  ⟨shape.length, shape, groups.length, (groupShapes shape groups).map product, groups, groupShapes shape groups,
    (groupShapes shape groups).map makeStrides⟩

theorem createReductionMetadata_closed (shape axes cuts : List Nat) (hlen : cuts.length < shape.length)
    (hd : ∀ g ∈ dmGroups axes shape.length cuts 0, ∀ d ∈ g, d < shape.length) :
    createReductionMetadata shape axes cuts = .ok (closedMetadata shape (dmGroups axes shape.length cuts 0)) := by
  have hmap : ((dmGroups axes shape.length cuts 0).mapM fun g => g.mapM fun (d : Nat) => pyGet shape d) =
      .ok (groupShapes shape (dmGroups axes shape.length cuts 0)) :=
    mapM_ok _ _ _ fun g hgm => groupShape_mapM shape g (hd g hgm)
  have hc : decide (cuts.length + 1 ≤ shape.length) = true := decide_eq_true hlen
  simp only [createReductionMetadata, hc, pyAssert, if_true, bind, Except.bind, splitDims_eq, hmap, pure, Except.pure,
    closedMetadata, dmGroups_length]
  rfl

theorem reduction_closed (shape : List Nat) (groups : List (List Nat)) (hd : ∀ g ∈ groups, ∀ d ∈ g, d < shape.length)
    (ix : List Int) (hi : ix.length = shape.length) : reduction (closedMetadata shape groups) ix = .ok (Spec.grouped shape groups ix) := by
  rw [reduction, closedMetadata, reductionLoop_ok ix shape groups (by rw [hi]; exact hd)]
  congr 1
  apply List.map_congr_left
  intro g _
  rw [rowMajor_eq _ _ _ (by simp)]
  simp

variable [DecidableEq V] [HasNone V]

theorem dmBuildWith_fields {inner : List Nat → (List Int → PyM V) → PyM (Storage V × List V)}
    {isBuffer : Bool} {shape axes cuts : List Nat} {value : List Int → PyM V}
    (hin : ∀ rshape value' st mem, inner rshape value' = .ok (st, mem) → st.shape = rshape ∨ st.shape = [product rshape])
    {m : DMMeta} {st : Storage V} {mem : List V}
    (h : dmBuildWith inner isBuffer shape (some axes) (some cuts) value = .ok (.dm m st, mem)) :
    cuts.length < shape.length ∧ (∀ d, d ∈ (dmGroups axes shape.length cuts 0).flatten ↔ d < shape.length) ∧
    (dmGroups axes shape.length cuts 0).flatten.Perm (List.range shape.length) ∧
    m = ⟨shape, dmGroups axes shape.length cuts 0, groupShapes shape (dmGroups axes shape.length cuts 0),
      (groupShapes shape (dmGroups axes shape.length cuts 0)).map makeStrides, List.replicate (cuts.length + 1) 0⟩ ∧
    st.shape = (groupShapes shape (dmGroups axes shape.length cuts 0)).map product := by
  obtain ⟨_, _, _, _, i1, i2, i3, i4, i5, i6, _⟩ := dmBuildWith_inv h
  rw [i1] at i4 i5 i6
  simp only [dmPartitioning] at i4 i5 i6
  simp only [dmBuildWith, bind_eq_ok, pyAssert_eq_ok, pure_eq_ok, Prod.mk.injEq, Storage.dm.injEq] at h
  obtain ⟨⟨rdims, rshape, rshapes, rstrides, roffset⟩, h1, ⟨st', mm⟩, h2, _, h3, m', h4, ⟨rfl, rfl⟩, rfl⟩ := h
  obtain ⟨q1, q2, rfl⟩ := DMMeta.new_inv h4
  have g2 := hin _ _ _ _ h2
  have hd : ∀ d ∈ rdims.flatten, d < shape.length := fun d hd => (q2 d).1 hd
  simp only [dmPrepare, dmPartitioning, Option.getD_some, bind_eq_ok, pure_eq_ok, Prod.mk.injEq] at h1
  obtain ⟨_, _, _, _, _, _, _, _, _, _, ⟨a, b, c⟩, h5, rfl, rfl, rfl, rfl, rfl⟩ := h1
  rw [makeReduction_ok shape _ fun g hg d hd' => hd d (List.mem_flatten.2 ⟨g, hg, hd'⟩)] at h5
  simp only [Except.ok.injEq, Prod.mk.injEq] at h5
  obtain ⟨rfl, rfl, rfl⟩ := h5
  have hf : (dmGroups axes shape.length cuts 0).flatten = axes.take shape.length := by
    rw [dmGroups_eq, splitDims_flatten]
    · simp
    · rw [List.pairwise_cons]
      exact ⟨fun _ _ => Nat.zero_le _, i4⟩
    · intro p hp
      rcases List.mem_cons.1 hp with rfl | hp
      · exact Nat.zero_le _
      · exact (i5 p hp).2.le
  refine ⟨i6, q2, ?_, rfl, ?_⟩
  · refine (List.Subperm.perm_of_length_le (List.subperm_of_subset List.nodup_range fun d hd' => ?_) ?_).symm
    · exact (q2 d).2 (by simpa using hd')
    · rw [hf]
      simp
  · rcases g2 with g2 | g2
    · exact g2
    · rw [g2] at h3
      obtain ⟨dims, he⟩ := List.length_eq_one_iff.1 (show (dmGroups axes shape.length cuts 0).length = 1 from h3.symm)
      rw [g2, he]
      simp [groupShapes, product]

/-! ### The theorems -/

/-- C90, the layout.  If `DM.fromobject` with the dimensions `axes`, the partitioning `cuts` and any storage class returns an
object, then `create_reduction_metadata` of `gcs_basics.py` describes it: the same groups of axes, shapes and strides, and the
shape of the wrapped storage.  `reduction` maps each index (also an index outside of the shape) to the index of the wrapped
storage, and `promotion` is `promote_index`. -/
theorem C90_layout (src : Src V) (axes cuts : List Nat) (cls : Cls) (unspec : Option V) (m : DMMeta) (st : Storage V)
    (mem : List V) (h : fromObjectDM src (some axes) (some cuts) cls unspec = .ok (.dm m st, mem)) :
    ∃ md, createReductionMetadata src.shape axes cuts = .ok md ∧ md.shape = m.shape ∧ md.dimensionality = m.shape.length ∧
      md.reductionDimensionality = st.shape.length ∧ md.reductionDimensions = m.rdims ∧ md.reductionShapes = m.rshapes ∧
      md.reductionStrides = m.rstrides ∧ md.reductionShape = st.shape ∧
      (∀ ix : List Int, ix.length = m.shape.length → ∃ r, reduction md ix = .ok r ∧ m.getDataPosition ix = .ok r) ∧
      ∀ r : List Int, r.length = st.shape.length → (∀ n ∈ m.shape, 0 < n) →
        ∃ ix, promotion md r = .ok (ix.map some) ∧ promoteIndex m.rshapes m.rdims m.rstrides m.roffset r = .ok ix := by
  have main : ∀ (inner : List Nat → (List Int → PyM V) → PyM (Storage V × List V)) (isBuffer : Bool),
      (∀ rshape value' st mem, inner rshape value' = .ok (st, mem) → st.shape = rshape ∨ st.shape = [product rshape]) →
      dmBuildWith inner isBuffer src.shape (some axes) (some cuts) src.getValue = .ok (.dm m st, mem) →
      ∃ md, createReductionMetadata src.shape axes cuts = .ok md ∧ md.shape = m.shape ∧ md.dimensionality = m.shape.length ∧
        md.reductionDimensionality = st.shape.length ∧ md.reductionDimensions = m.rdims ∧ md.reductionShapes = m.rshapes ∧
        md.reductionStrides = m.rstrides ∧ md.reductionShape = st.shape ∧
        (∀ ix : List Int, ix.length = m.shape.length → ∃ r, reduction md ix = .ok r ∧ m.getDataPosition ix = .ok r) ∧
        ∀ r : List Int, r.length = st.shape.length → (∀ n ∈ m.shape, 0 < n) →
          ∃ ix, promotion md r = .ok (ix.map some) ∧ promoteIndex m.rshapes m.rdims m.rstrides m.roffset r = .ok ix := by
    intro inner isBuffer hin h
    obtain ⟨h1, h2, h3, rfl, h4⟩ := dmBuildWith_fields hin h
    have hd : ∀ g ∈ dmGroups axes src.shape.length cuts 0, ∀ d ∈ g, d < src.shape.length := fun g hg d hd =>
      (h2 d).1 (List.mem_flatten.2 ⟨g, hg, hd⟩)
    have hgl : (dmGroups axes src.shape.length cuts 0).length = cuts.length + 1 := dmGroups_length _ _ _
    have hsl : st.shape.length = (dmGroups axes src.shape.length cuts 0).length := by rw [h4]; simp [groupShapes]
    refine ⟨_, createReductionMetadata_closed src.shape axes cuts h1 hd, rfl, rfl, hsl.symm, rfl, rfl, rfl, h4.symm,
      fun ix hi => ⟨_, reductionLoop_ok ix src.shape _ (by rw [hi]; exact hd), ?_⟩, fun r hr hp => ?_⟩
    · rw [DMMeta.getDataPosition, reduceIndex_ok ix src.shape _ _ (by simp [hgl]) (by rw [hi]; exact hd)]
      congr 1
      apply List.ext_getElem (by simp [hgl])
      intro i _ _
      simp
    · obtain ⟨ix, _, e2, e3, _⟩ := promoteIndex_ok src.shape hp _ (List.replicate (cuts.length + 1) 0) r h3 (by simp [hgl])
        (by rw [hr, hsl])
      refine ⟨ix, ?_, e2⟩
      rw [promotion, closedMetadata, promotionLoop_eq _ _ _ _ _ (by simp [groupShapes]) (by simp [groupShapes]) (by rw [hr, hsl]), hgl]
      exact e3
  have hflat : ∀ cls rshape value' (st : Storage V) mem,
      buildFlat cls rshape value' src.unspec (unspec.getD src.unspec) = .ok (st, mem) →
      st.shape = rshape ∨ st.shape = [product rshape] := fun cls rshape value' st mem h => (buildFlat_wf h).2
  rw [fromObjectDM] at h
  cases cls with
  | dm =>
    simp only [dmBuild] at h
    refine main _ _ (fun rshape value' st mem h => ?_) h
    exact .inl (dmBuildWith_wf (fun _ _ _ _ h => buildFlat_wf h) h).2
  | buffer => exact main _ _ (hflat .buffer) h
  | strided => exact main _ _ (hflat .strided) h
  | coo => exact main _ _ (hflat .coo) h
  | flatcoo => exact main _ _ (hflat .flatcoo) h
  | csr => exact main _ _ (hflat .csr) h

omit [DecidableEq V] [HasNone V] in
theorem lastValue_map (red : List Int → List Int) (P : List Int → Prop) (hinj : ∀ ix iy, P ix → P iy → red ix = red iy → ix = iy)
    (sample : List (List Int × V)) (hs : ∀ e ∈ sample, P e.1) (ix : List Int) (hi : P ix) :
    Spec.lastValue (sample.map fun e => (red e.1, e.2)) (red ix) = Spec.lastValue sample ix := by
  induction sample using List.reverseRecOn with
  | nil => rfl
  | append_singleton s e ih =>
    rw [List.map_append, List.map_cons, List.map_nil, lastValue_concat, lastValue_concat,
      ih fun e he => hs e (List.mem_append_left _ he)]
    by_cases h : e.1 = ix
    · simp [h]
    · rw [if_neg h, if_neg fun he => h (hinj _ _ (hs e (by simp)) hi he)]

omit [DecidableEq V] [HasNone V] in
theorem lastValue_mem {sample : List (List Int × V)} {ix : List Int} {v : V} (h : Spec.lastValue sample ix = some v) :
    (ix, v) ∈ sample := by
  induction sample using List.reverseRecOn with
  | nil => cases h
  | append_singleton s e ih =>
    rw [lastValue_concat] at h
    split at h
    · rename_i he
      cases h
      subst he
      simp
    · exact List.mem_append_left _ (ih h)

/-- Two groups of axes, and what `reduction` does with them. -/
theorem reduction_two (shape axes : List Nat) (p : Nat) (hperm : axes.Perm (List.range shape.length)) (hp : 0 < p ∧ p < shape.length) :
    ∃ n k, createReductionMetadata shape axes [p] = .ok (closedMetadata shape (cutAt axes 0 [p])) ∧
      groupSizes shape (cutAt axes 0 [p]) = [n, k] ∧ (closedMetadata shape (cutAt axes 0 [p])).reductionShape = [n, k] ∧
      (∀ ix, InBox ix shape → reduction (closedMetadata shape (cutAt axes 0 [p])) ix = .ok (Spec.grouped shape (cutAt axes 0 [p]) ix) ∧
        InBox (Spec.grouped shape (cutAt axes 0 [p]) ix) [n, k]) ∧
      (∀ ix iy, InBox ix shape → InBox iy shape → Spec.grouped shape (cutAt axes 0 [p]) ix = Spec.grouped shape (cutAt axes 0 [p]) iy →
        ix = iy) ∧
      ∀ r, InBox r [n, k] → ∃ ix, InBox ix shape ∧ Spec.grouped shape (cutAt axes 0 [p]) ix = r := by
  have hlen : axes.length = shape.length := by rw [hperm.length_eq]; simp
  have hsp : GoodSplit shape.length axes [p] := ⟨hperm, by simp, by simpa using hp.1, by simpa using hp.2, by omega⟩
  have hgr : cutAt axes 0 [p] = dmGroups axes shape.length [p] 0 := by rw [← hlen, dmGroups_cut]
  have hd : ∀ g ∈ dmGroups axes shape.length [p] 0, ∀ d ∈ g, d < shape.length := fun g hg d hd => by
    have : d ∈ (dmGroups axes shape.length [p] 0).flatten := List.mem_flatten.2 ⟨g, hg, hd⟩
    rw [hsp.flatten] at this
    simpa using hperm.mem_iff.1 this
  have hmd := createReductionMetadata_closed shape axes [p] hsp.length_lt hd
  obtain ⟨md, groups, c1, c2, c3, _, c5, c6, c7⟩ := C19_reduction_promotion shape axes [p] hperm (by simp) (by simpa using hp.2.le)
    hsp.length_lt
  rw [← hgr] at hmd hd
  rw [hmd, Except.ok.injEq] at c1
  subst c1
  have hs : ∃ n k, groupSizes shape (cutAt axes 0 [p]) = [n, k] := ⟨_, _, rfl⟩
  obtain ⟨n, k, hnk⟩ := hs
  have hrs : (closedMetadata shape (cutAt axes 0 [p])).reductionShape = [n, k] := by
    rw [closedMetadata, ← groupSizes_eq, hnk]
  have hred : ∀ ix, InBox ix shape →
      reduction (closedMetadata shape (cutAt axes 0 [p])) ix = .ok (Spec.grouped shape (cutAt axes 0 [p]) ix) := fun ix hi =>
    reduction_closed shape _ hd ix hi.length_eq
  refine ⟨n, k, hmd, hnk, hrs, fun ix hi => ⟨hred ix hi, ?_⟩, fun ix iy hx hy he => ?_, fun r hr => ?_⟩
  · obtain ⟨r, r1, _, r3, _⟩ := c6 ix hi
    rw [hred ix hi, Except.ok.injEq] at r1
    rw [r1, ← hrs]
    exact r3
  · obtain ⟨r, r1, _, _, r4⟩ := c6 ix hx
    obtain ⟨r', s1, _, _, s4⟩ := c6 iy hy
    rw [hred ix hx, Except.ok.injEq] at r1
    rw [hred iy hy, Except.ok.injEq, ← he, r1] at s1
    rw [← s1, r4, Except.ok.injEq] at s4
    exact List.map_injective_iff.2 (Option.some_injective _) s4
  · obtain ⟨ix, x1, _, x3⟩ := c7 r (by rw [hrs]; exact hr)
    refine ⟨ix, x1, ?_⟩
    rw [hred ix x1, Except.ok.injEq] at x3
    exact x3

omit [DecidableEq V] [HasNone V] in
/-- The lists, in terms of the sorted keys. -/
theorem gcsArrays_ok (shape axes : List Nat) (p : Nat) (hperm : axes.Perm (List.range shape.length))
    (hp : 0 < p ∧ p < shape.length) (sample : List (List Int × V)) (hs : ∀ e ∈ sample, InBox e.1 shape) :
    ∃ (l : List (List Int)) (values : List V),
      gcsArrays (closedMetadata shape (cutAt axes 0 [p])) sample = .ok (l.map fun k => k.getD 0 0, l.map fun k => k.getD 1 0, values) ∧
      l.Pairwise lexLt ∧ values.length = l.length ∧
      (∀ ix v, InBox ix shape → (Spec.lastValue sample ix = some v ↔
        ∃ i : Nat, l[i]? = some (Spec.grouped shape (cutAt axes 0 [p]) ix) ∧ values[i]? = some v)) ∧
      ∀ r ∈ l, ∃ ix, InBox ix shape ∧ r = Spec.grouped shape (cutAt axes 0 [p]) ix := by
  obtain ⟨n, k, -, -, -, hred, hinj, hsurj⟩ := reduction_two shape axes p hperm hp
  set red := Spec.grouped shape (cutAt axes 0 [p]) with hrd
  obtain ⟨d, d1, d2⟩ := reducedDict_ok (closedMetadata shape (cutAt axes 0 [p])) red sample
    (fun e he => (hred e.1 (hs e he)).1) [] [] ⟨by simp, by simp [lastValue_nil]⟩
  rw [List.nil_append] at d2
  obtain ⟨s1, s2⟩ := sortedKeys (d.map Prod.fst) d2.1
  set l := (d.map Prod.fst).insertionSort (tupleLe · ·) with hl
  have hkey : ∀ r ∈ l, ∃ ix, InBox ix shape ∧ r = red ix := by
    intro r hr
    rw [s2] at hr
    obtain ⟨⟨r', v⟩, hm, rfl⟩ := List.mem_map.1 hr
    obtain ⟨e, he, hh⟩ := List.mem_map.1 (lastValue_mem ((d2.2 r' v).1 hm))
    cases hh
    exact ⟨e.1, hs e he, rfl⟩
  obtain ⟨values, g1, g2, g3⟩ := gcsLoop_ok d2.1 l (fun r hr => by
    obtain ⟨ix, hi, rfl⟩ := hkey r hr
    exact (hred ix hi).2.length_eq) fun r hr => (s2 r).1 hr
  refine ⟨l, values, ?_, s1, g2, fun ix v hi => ?_, hkey⟩
  · simp only [gcsArrays, d1, bind, Except.bind]
    exact g1
  · rw [← lastValue_map red (fun ix => InBox ix shape) hinj sample hs ix hi, ← d2.2]
    constructor
    · intro hm
      obtain ⟨i, hi', he⟩ := List.mem_iff_getElem.1 ((s2 _).2 (List.mem_map.2 ⟨_, hm, rfl⟩ : red ix ∈ d.map Prod.fst))
      have hk : l[i]? = some (red ix) := by rw [List.getElem?_eq_getElem hi', he]
      have hv : values[i]? = some values[i] := List.getElem?_eq_getElem (by omega)
      have h1 := (d2.2 _ _).1 (g3 i _ _ hk hv)
      rw [(d2.2 _ _).1 hm] at h1
      exact ⟨i, hk, by rw [hv, h1]⟩
    · rintro ⟨i, h1, h2⟩
      exact g3 i _ _ h1 h2

omit [DecidableEq V] [HasNone V] in
/-- C90, the lists.  The examples of `test_gcs_basics.py` make row indices, column indices and values from any list of
elements (`sample`), with one entry for each index that has a value, strictly increasing by row and column; with
`compress_indices` of the row indices, the entry of an index is in the row and column that `reduction` gives, and holds the
value that was given last. -/
theorem C90_lists (shape axes : List Nat) (p : Nat) (hperm : axes.Perm (List.range shape.length))
    (hp : 0 < p ∧ p < shape.length) (sample : List (List Int × V)) (hs : ∀ e ∈ sample, InBox e.1 shape) :
    ∃ md n k rows cols values crow, createReductionMetadata shape axes [p] = .ok md ∧ md.reductionShape = [n, k] ∧
      gcsArrays md sample = .ok (rows, cols, values) ∧ rows.length = values.length ∧ cols.length = values.length ∧
      (rows.zip cols).Pairwise (fun a b => a.1 < b.1 ∨ a.1 = b.1 ∧ a.2 < b.2) ∧
      (∀ r ∈ rows, 0 ≤ r ∧ r < n) ∧ (∀ c ∈ cols, 0 ≤ c ∧ c < k) ∧
      compressIndices rows n = .ok crow ∧ crow.length = n + 1 ∧
      ∀ ix, InBox ix shape → ∃ r c, reduction md ix = .ok [r, c] ∧
        ∀ v, Spec.lastValue sample ix = some v ↔ Spec.RowHas crow cols values r c v := by
  obtain ⟨n, k, hmd, -, hrs, hred, hinj, hsurj⟩ := reduction_two shape axes p hperm hp
  obtain ⟨l, values, g1, g2, g3, g4, g5⟩ := gcsArrays_ok shape axes p hperm hp sample hs
  have hbox : ∀ r ∈ l, InBox r [n, k] := by
    intro r hr
    obtain ⟨ix, hi, rfl⟩ := g5 r hr
    exact (hred ix hi).2
  have hform : ∀ r ∈ l, r = [r.getD 0 0, r.getD 1 0] := by
    intro r hr
    match r, (hbox r hr).length_eq with
    | [a, b], _ => rfl
  have hrow : ∀ x ∈ l.map fun k => k.getD 0 0, 0 ≤ x ∧ x < (n : Int) := by
    intro x hx
    obtain ⟨r, hr, rfl⟩ := List.mem_map.1 hx
    have h1 := hbox r hr
    rw [hform r hr] at h1
    exact ⟨h1.1.1, h1.1.2⟩
  have hcol : ∀ x ∈ l.map fun k => k.getD 1 0, 0 ≤ x ∧ x < (k : Int) := by
    intro x hx
    obtain ⟨r, hr, rfl⟩ := List.mem_map.1 hx
    have h1 := hbox r hr
    rw [hform r hr] at h1
    exact ⟨h1.2.1.1, h1.2.1.2⟩
  have hlt : l.Pairwise fun a b => a.getD 0 0 < b.getD 0 0 ∨ a.getD 0 0 = b.getD 0 0 ∧ a.getD 1 0 < b.getD 1 0 := by
    refine g2.imp_of_mem fun {a b} ha hb hab => ?_
    rw [hform a ha, hform b hb] at hab
    simpa [lexLt] using hab
  obtain ⟨crow, c1, c2, c3, c4⟩ := C18_compress_counts (l.map fun k => k.getD 0 0) n
    (List.pairwise_map.2 (hlt.imp fun hab => by rcases hab with h | h <;> omega)) hrow
  refine ⟨_, n, k, _, _, values, crow, hmd, hrs, g1, by simp [g3], by simp [g3], ?_, hrow, hcol, c1, c2, fun ix hi => ?_⟩
  · rw [List.zip_map', List.pairwise_map]
    exact hlt
  · obtain ⟨h1, h2⟩ := hred ix hi
    obtain ⟨r, c, hrc⟩ : ∃ r c, Spec.grouped shape (cutAt axes 0 [p]) ix = [r, c] := ⟨_, _, rfl⟩
    rw [hrc] at h1 h2
    refine ⟨r, c, h1, fun v => ?_⟩
    rw [g4 ix v hi, hrc]
    have hr0 : 0 ≤ r ∧ r < n := h2.1
    obtain ⟨t, rfl⟩ := Int.eq_ofNat_of_zero_le hr0.1
    have ht : t < n := by omega
    have key := c4 t _ _ ht (List.getElem?_eq_getElem (by omega)) (List.getElem?_eq_getElem (by omega))
    constructor
    · rintro ⟨i, i1, i2⟩
      obtain ⟨hil, he⟩ := List.getElem?_eq_some_iff.1 i1
      have hk := (key i (by simpa using hil)).2 (by simp [he])
      refine ⟨_, _, i, hr0.1, List.getElem?_eq_getElem (by simp; omega), List.getElem?_eq_getElem (by simp; omega), ?_, ?_, ?_, i2⟩
      · simpa using hk.1
      · simpa using hk.2
      · simp [i1]
    · rintro ⟨lo, hi', i, _, r1, r2, r3, r4, r5, r6⟩
      simp only [Int.toNat_natCast] at r1 r2
      have hil : i < l.length := by
        obtain ⟨hv, _⟩ := List.getElem?_eq_some_iff.1 r6
        omega
      obtain ⟨_, rfl⟩ := List.getElem?_eq_some_iff.1 r1
      obtain ⟨_, rfl⟩ := List.getElem?_eq_some_iff.1 r2
      have hk := (key i (by simpa using hil)).1 ⟨r3, r4⟩
      refine ⟨i, ?_, r6⟩
      rw [List.getElem?_eq_getElem hil, hform _ (List.getElem_mem hil)]
      rw [List.getElem?_map, List.getElem?_eq_getElem hil] at r5
      simp only [List.getElem_map] at hk
      simp only [Option.map_some, Option.some.injEq] at r5
      rw [hk, r5]

omit [DecidableEq V] [HasNone V] in
theorem gcsLoop_other (d : List (List Int × V)) (keys : List (List Int)) (hk : ∀ k ∈ keys, k.length ≠ 2) (hne : keys ≠ []) :
    gcsLoop d keys = .error .value := by
  match keys, hne with
  | [] :: _, _ => rfl
  | [_] :: _, _ => rfl
  | [a, b] :: _, _ => exact absurd rfl (hk [a, b] (by simp))
  | (_ :: _ :: _ :: _) :: _, _ => rfl

theorem dmGroups_subset (axes : List Nat) (n : Nat) (cuts : List Nat) (lo : Nat) :
    ∀ g ∈ dmGroups axes n cuts lo, ∀ d ∈ g, d ∈ axes := by
  induction cuts generalizing lo with
  | nil =>
    intro g hg d hd
    simp only [dmGroups, List.mem_singleton] at hg
    subst hg
    exact List.mem_of_mem_drop (List.mem_of_mem_take hd)
  | cons p cuts ih =>
    intro g hg d hd
    simp only [dmGroups, List.mem_cons] at hg
    rcases hg with rfl | hg
    · exact List.mem_of_mem_drop (List.mem_of_mem_take hd)
    · exact ih p g hg d hd

omit [DecidableEq V] [HasNone V] in
/-- C90, other numbers of cuts.  Unless there is exactly one cut, the loop of the examples over the sorted keys stops with
`ValueError` at the first key. -/
theorem C90_other_cuts (shape axes cuts : List Nat) (hperm : axes.Perm (List.range shape.length))
    (hlen : cuts.length < shape.length) (h1 : cuts.length ≠ 1) (sample : List (List Int × V)) (hne : sample ≠ [])
    (hs : ∀ e ∈ sample, InBox e.1 shape) :
    ∃ md, createReductionMetadata shape axes cuts = .ok md ∧ gcsArrays md sample = .error .value := by
  have hd : ∀ g ∈ dmGroups axes shape.length cuts 0, ∀ d ∈ g, d < shape.length := fun g hg d hd => by
    have := hperm.mem_iff.1 (dmGroups_subset axes _ cuts 0 g hg d hd)
    simpa using this
  refine ⟨_, createReductionMetadata_closed shape axes cuts hlen hd, ?_⟩
  obtain ⟨d, d1, d2⟩ := reducedDict_ok (closedMetadata shape (dmGroups axes shape.length cuts 0))
    (Spec.grouped shape (dmGroups axes shape.length cuts 0)) sample
    (fun e he => reduction_closed shape _ hd e.1 (hs e he).length_eq) [] [] ⟨by simp, by simp [lastValue_nil]⟩
  rw [List.nil_append] at d2
  obtain ⟨s1, s2⟩ := sortedKeys (d.map Prod.fst) d2.1
  simp only [gcsArrays, d1, bind, Except.bind]
  refine gcsLoop_other d _ (fun k hk => ?_) ?_
  · rw [s2] at hk
    obtain ⟨⟨r', v⟩, hm, rfl⟩ := List.mem_map.1 hk
    obtain ⟨e, he, hh⟩ := List.mem_map.1 (lastValue_mem ((d2.2 r' v).1 hm))
    cases hh
    simp only [Spec.grouped, List.length_map, dmGroups_length]
    omega
  · intro hn
    have hemp : d = [] := by
      cases d with
      | nil => rfl
      | cons x d => exact absurd ((s2 x.1).2 (by simp)) (by rw [hn]; simp)
    subst hemp
    obtain ⟨sample', ⟨k, v⟩, rfl⟩ : ∃ l e, sample = l ++ [e] := ⟨_, _, (List.dropLast_append_getLast hne).symm⟩
    have := (d2.2 (Spec.grouped shape (dmGroups axes shape.length cuts 0) k) v).2 (by
      rw [List.map_append, List.map_cons, List.map_nil, lastValue_concat, if_pos rfl])
    simp at this

/-- C90, `gcs_basics.py` and `storage.py`.  If the elements given are those of an array that are not the unspecified value
`u`, then `DM.fromobject` with `CSR` as the storage class holds exactly the compressed rows, the columns and the values that the
examples make. -/
theorem C90_dm (src : Src V) (shape : List Nat) (a : List Int → V) (h : Spec.IsArray src shape a)
    (unspec : Option V) (u : V) (hu : u = unspec.getD src.unspec) (axes : List Nat) (p : Nat)
    (hperm : axes.Perm (List.range shape.length)) (hp : 0 < p ∧ p < shape.length)
    (sample : List (List Int × V)) (hs : ∀ e ∈ sample, InBox e.1 shape) (hne : sample ≠ [])
    (hval : ∀ ix, InBox ix shape → ∀ v, Spec.lastValue sample ix = some v ↔
      v = (if a ix = src.unspec then u else a ix) ∧ v ≠ u) :
    ∃ md n k rows cols values crow m, createReductionMetadata shape axes [p] = .ok md ∧ md.reductionShape = [n, k] ∧
      gcsArrays md sample = .ok (rows, cols, values) ∧ compressIndices rows n = .ok crow ∧
      fromObjectDM src (some axes) (some [p]) .csr unspec =
        .ok (.dm m (.csr ⟨[n, k], ⟨crow.length, 0, none⟩, crow.map some, ⟨cols.length, 0, none⟩, cols.map some,
          ⟨values.length, 0, u⟩⟩), values) := by
  obtain ⟨n, k, hmd, hnk, hrs, hred, hinj, hsurj⟩ := reduction_two shape axes p hperm hp
  obtain ⟨l, values, g1, g2, g3, g4, g5⟩ := gcsArrays_ok shape axes p hperm hp sample hs
  have hbox : ∀ r ∈ l, InBox r [n, k] := by
    intro r hr
    obtain ⟨ix, hi, rfl⟩ := g5 r hr
    exact (hred ix hi).2
  set red := Spec.grouped shape (cutAt axes 0 [p]) with hrd
  set b : List Int → V := fun ix => if a ix = src.unspec then u else a ix with hb
  obtain ⟨w, hw⟩ : ∃ w : List Int → V, ∀ ix, InBox ix shape → w (red ix) = b ix := by
    classical
    refine ⟨fun r => if h : ∃ ix, InBox ix shape ∧ red ix = r then b h.choose else u, fun ix hi => ?_⟩
    have hex : ∃ iy, InBox iy shape ∧ red iy = red ix := ⟨ix, hi, rfl⟩
    simp only [hex, dif_pos]
    rw [hinj _ _ hex.choose_spec.1 hi hex.choose_spec.2]
  have hlists : Spec.Lists l (groupSizes shape (cutAt axes 0 [p])) w u := by
    refine ⟨g2, fun r => ?_⟩
    rw [hnk]
    constructor
    · intro hr
      obtain ⟨ix, hi, rfl⟩ := g5 r hr
      obtain ⟨i, hil, he⟩ := List.mem_iff_getElem.1 hr
      have hv : values[i]? = some values[i] := List.getElem?_eq_getElem (by omega)
      have := (hval ix hi values[i]).1 ((g4 ix values[i] hi).2 ⟨i, by rw [List.getElem?_eq_getElem hil, he], hv⟩)
      have e : values[i] = b ix := this.1
      exact ⟨hbox _ hr, by rw [hw ix hi, ← e]; exact this.2⟩
    · rintro ⟨hr, hwr⟩
      obtain ⟨ix, hi, rfl⟩ := hsurj r hr
      rw [hw ix hi] at hwr
      obtain ⟨i, h1, _⟩ := (g4 ix (b ix) hi).1 ((hval ix hi (b ix)).2 ⟨rfl, hwr⟩)
      exact List.mem_of_getElem? h1
  have hvalues : values = l.map w := by
    apply List.ext_getElem (by simp [g3])
    intro i h1 h2
    have hil : i < l.length := by omega
    obtain ⟨ix, hi, he⟩ := g5 l[i] (List.getElem_mem hil)
    have := (hval ix hi values[i]).1 ((g4 ix values[i] hi).2
      ⟨i, by rw [List.getElem?_eq_getElem hil, he], List.getElem?_eq_getElem h1⟩)
    rw [List.getElem_map, he, hw ix hi]
    exact this.1
  have hlne : l ≠ [] := by
    intro hl0
    obtain ⟨e, s', rfl⟩ := List.exists_cons_of_ne_nil hne
    have hi := hs e (by simp)
    have hsome : ∃ v, Spec.lastValue (e :: s') e.1 = some v := by
      have : ((e :: s').reverse.find? fun x => x.1 = e.1).isSome := by
        rw [List.find?_isSome]
        exact ⟨e, by simp, by simp⟩
      obtain ⟨x, hx⟩ := Option.isSome_iff_exists.1 this
      exact ⟨x.2, by rw [Spec.lastValue, hx]; rfl⟩
    obtain ⟨v, hv⟩ := hsome
    obtain ⟨i, h1, _⟩ := (g4 e.1 v hi).1 hv
    rw [hl0] at h1
    cases h1
  have hform : ∀ r ∈ l, r = [r.getD 0 0, r.getD 1 0] := by
    intro r hr
    match r, (hbox r hr).length_eq with
    | [a, b], _ => rfl
  have hrow : ∀ x ∈ l.map fun k => k.getD 0 0, 0 ≤ x ∧ x < (n : Int) := by
    intro x hx
    obtain ⟨r, hr, rfl⟩ := List.mem_map.1 hx
    have h1 := hbox r hr
    rw [hform r hr] at h1
    exact ⟨h1.1.1, h1.1.2⟩
  have hle : (l.map fun k => k.getD 0 0).Pairwise (· ≤ ·) := by
    refine List.pairwise_map.2 (g2.imp_of_mem fun {a b} ha hb hab => ?_)
    rw [hform a ha, hform b hb] at hab
    simp only [lexLt] at hab
    rcases hab with h | h <;> omega
  obtain ⟨crow, c1, c2, c3, -⟩ := C18_compress_counts (l.map fun k => k.getD 0 0) n hle hrow
  have hcrow : crow.map some = (List.range (n + 1)).map fun (i : Nat) =>
      some ((l.countP fun ix => decide (ix.getD 0 0 < (i : Int)) : Nat) : Int) := by
    apply List.ext_getElem?
    intro i
    by_cases hi : i ≤ n
    · rw [List.getElem?_map, c3 i hi, List.getElem?_map, List.getElem?_range (by omega)]
      simp [List.countP_map, Function.comp_def]
    · rw [List.getElem?_eq_none (by simp; omega), List.getElem?_eq_none (by simp; omega)]
  have key := (C81_dm src shape a h (by intro h0; rw [h0] at hp; simp at hp) unspec u hu (some axes) (some [p]) axes [p] rfl hperm rfl
    ⟨by simp, by simpa using hp⟩ _ rfl w (fun ix hi => hw ix hi) l hlists).2.2.1 n k hnk hlne
  refine ⟨_, n, k, _, _, values, crow, Spec.metadata shape (cutAt axes 0 [p]), hmd, hrs, g1, c1, ?_⟩
  rw [key, hcrow, hvalues]
  simp [Spec.asCSR, c2, Function.comp_def]

/-- Cases of C90: the array of GentleIntroductionToGCS.md:403-416 by columns (test_gcs_basics.py:94-149), with one element given
twice. -/
example : (do
    let md ← createReductionMetadata [2, 3, 4] [2, 1, 0] [1]
    let (rows, cols, values) ← gcsArrays md [([0, 0, 1], 7), ([0, 0, 2], 2), ([0, 0, 3], 3), ([0, 2, 1], 4), ([1, 0, 0], 5),
      ([1, 0, 3], 6), ([1, 2, 0], 7), ([1, 2, 2], 8), ([1, 2, 3], 9), ([0, 0, 1], 1)]
    return (md.reductionShape, rows, cols, values, ← compressIndices rows 4)) =
      (.ok ([4, 6], [0, 0, 1, 1, 2, 2, 3, 3, 3], [1, 5, 0, 4, 0, 5, 0, 1, 5], [5, 7, 1, 4, 2, 8, 3, 6, 9], [0, 2, 4, 6, 9]) :
        PyM (List Nat × List Int × List Int × List Nat × List Int)) := by
  decide +kernel

/-- `DM.fromobject` of this array makes the same lists, and the layout of C90. -/
example : (do
    let (dm, mem) ← fromObjectDM (.nested introArray) (some [2, 1, 0]) (some [1]) .csr none
    let md ← createReductionMetadata [2, 3, 4] [2, 1, 0] [1]
    match dm with
    | .dm m (.csr c) => return ((c.crowMem, c.colMem, mem), decide (m.rstrides = md.reductionStrides), ← m.getDataPosition [1, 2, 0],
        ← reduction md [1, 2, 0])
    | _ => .error .type) =
      (.ok (([0, 2, 4, 6, 9].map some, [1, 5, 0, 4, 0, 5, 0, 1, 5].map some, [5, 7, 1, 4, 2, 8, 3, 6, 9].map some), true, [0, 5], [0, 5]) :
        PyM ((List (Option Int) × List (Option Int) × List (Option Int)) × Bool × List Int × List Int)) := by
  decide +kernel

/-- A case of `C90_other_cuts`: three groups of axes. -/
example : (do gcsArrays (← createReductionMetadata [2, 3, 4] [2, 1, 0] [1, 2]) [([0, 0, 1], 7)]) =
    (.error .value : PyM (List Int × List Int × List Nat)) := by
  decide +kernel

end Gcs
