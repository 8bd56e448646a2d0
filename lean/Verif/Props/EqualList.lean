import Verif.Props.Observing
import Verif.Props.Construct
import Verif.Props.Setting

/-!
# C54: `equal` with a list
-/

namespace Gcs

open Spec

variable {V : Type} [DecidableEq V] [HasNone V]

theorem equalNested_eq {s t : Storage V} {mem m : List V} {n : Nested V} {cls : Cls}
    (hc : (s.cls = .buffer ∧ cls = .buffer) ∨ (s.cls ≠ .buffer ∧ cls = .strided))
    (h : fromObject cls (.nested n) (some s.unspec) = .ok (.fresh t m)) :
    s.equalNested mem n = s.equal mem t m := by
  cases s <;> simp [Storage.cls] at hc <;> subst hc <;>
    simp only [Storage.equalNested, Storage.equal, bind, Except.bind, h]

/-- C54.  `s.equal(list)` for a list of lists of any rectangular shape: `s` has places exactly for the indices of the
list, and the items there, with the unspecified value of `s` for `None`. -/
theorem C54_equal_list (s : Storage V) (mem : List V) (h : s.WF mem) (hb : s.cls ≠ .buffer)
    (hp : s.cls = .flatcoo → ∀ n ∈ s.shape, 0 < n) (n : Nested V) (shape : List Nat) (hn : HasShape n shape)
    (hne : shape ≠ []) :
    ∃ b, s.equalNested mem n = .ok b ∧
      (b = true ↔ (∀ ix, HasPlace s ix ↔ ∃ v, item n ix = some v) ∧
        ∀ ix v, item n ix = some v → Reads s mem ix (if v = pyNone then s.unspec else v)) := by
  obtain ⟨t, m, h1, h2, h3, _, h4, _⟩ := fromObject_nested .strided n shape hne hn (some s.unspec) ⟨by simp, by simp⟩
  rw [equalNested_eq (.inr ⟨hb, rfl⟩) h1]
  obtain ⟨b, g1, g2⟩ := C45_equal_places s t mem m h h4.wf ⟨hb, by rw [h2]; simp⟩ hp (by rw [h2]; simp)
  refine ⟨b, g1, g2.trans ?_⟩
  have hpl : ∀ ix, HasPlace t ix ↔ ∃ v, item n ix = some v := by
    intro ix
    rw [hn.item_iff]
    cases t with
    | strided t => rw [← h4.shape_eq]; rfl
    | _ => simp [Storage.cls] at h2
  have hrd : ∀ ix v, item n ix = some v → Reads t m ix (if v = pyNone then s.unspec else v) := by
    intro ix v hv
    obtain ⟨e1, e2⟩ := item_box hn hv
    have := h4.wf.reads ix (by rw [h4.shape_eq]; exact e1)
    rwa [h4.reads ix e1, e2] at this
  constructor
  · rintro ⟨a, b⟩
    refine ⟨fun ix => (a ix).trans (hpl ix), fun ix v hv => ?_⟩
    exact (b ix _ ((a ix).2 ((hpl ix).2 ⟨v, hv⟩))).2 (hrd ix v hv)
  · rintro ⟨a, b⟩
    refine ⟨fun ix => (a ix).trans (hpl ix).symm, fun ix v hx => ?_⟩
    obtain ⟨w, hw⟩ := (a ix).1 hx
    have r1 := b ix w hw
    have r2 := hrd ix w hw
    constructor
    · intro hr
      rwa [← r1.at_eq, hr.at_eq] at r2
    · intro hr
      rwa [← r2.at_eq, hr.at_eq] at r1

/-- C54 for a `Strided` or a `DM` and a list of the same shape. -/
theorem C54_equal_list_dense (s : Storage V) (mem : List V) (h : s.WF mem) (hc : s.cls = .strided ∨ s.cls = .dm)
    (n : Nested V) (hn : HasShape n s.shape) (hne : s.shape ≠ []) :
    ∃ b, s.equalNested mem n = .ok b ∧
      (b = true ↔ ∀ ix v, item n ix = some v → Reads s mem ix (if v = pyNone then s.unspec else v)) := by
  obtain ⟨b, g1, g2⟩ := C54_equal_list s mem h (by rcases hc with hc | hc <;> rw [hc] <;> simp)
    (by rcases hc with hc | hc <;> rw [hc] <;> simp) n s.shape hn hne
  refine ⟨b, g1, g2.trans ⟨fun h => h.2, fun h => ⟨fun ix => ?_, h⟩⟩⟩
  rw [hn.item_iff]
  cases s <;> simp [Storage.cls] at hc <;> rfl

/-- C54, a defect.  A sparse storage with an element that is not stored is equal to no list of its shape, not even to
the list of its elements. -/
theorem C54_equal_list_sparse (s : Storage V) (mem : List V) (h : s.WF mem)
    (hc : s.cls = .coo ∨ s.cls = .flatcoo ∨ s.cls = .csr) (hp : ∀ n ∈ s.shape, 0 < n) (n : Nested V)
    (hn : HasShape n s.shape) (hne : s.shape ≠ []) (ix : List Int) (hi : InBox ix s.shape) (hno : ¬ Stored s mem ix) :
    s.equalNested mem n = .ok false := by
  obtain ⟨b, g1, g2⟩ := C54_equal_list s mem h (by rcases hc with hc | hc | hc <;> rw [hc] <;> simp) (fun _ => hp) n s.shape
    hn hne
  rw [g1]
  congr 1
  by_contra hb
  rw [Bool.not_eq_false, g2] at hb
  obtain ⟨rows, b', hs, hm⟩ := sparse_of_wf h hc
  apply hno
  rw [sparse_stored hs hm fun _ => hp, ← hs.hasPlace, hb.1, hn.item_iff]
  exact hi

omit [DecidableEq V] [HasNone V] in
theorem lastValue_mapIdx (l : List V) (k : Storage.Key) (v : V) :
    LastValue (l.mapIdx fun i v => (Storage.Key.int i, v)) k v ↔ ∃ i : Nat, k = .int i ∧ l[i]? = some v := by
  constructor
  · rintro ⟨pre, post, e, _⟩
    have : (k, v) ∈ l.mapIdx fun i v => (Storage.Key.int i, v) := by rw [e]; simp
    obtain ⟨i, hi, e⟩ := List.mem_mapIdx.1 this
    simp only [Prod.mk.injEq] at e
    exact ⟨i, e.1.symm, by rw [← e.2]; exact List.getElem?_eq_getElem hi⟩
  · rintro ⟨i, rfl, h⟩
    obtain ⟨hi, rfl⟩ := List.getElem?_eq_some_iff.1 h
    refine ⟨(l.mapIdx fun i v => (Storage.Key.int i, v)).take i, (l.mapIdx fun i v => (Storage.Key.int i, v)).drop (i + 1),
      ?_, ?_⟩
    · have hi' : i < (l.mapIdx fun i v => (Storage.Key.int i, v)).length := by simpa using hi
      have := List.drop_eq_getElem_cons hi'
      rw [List.getElem_mapIdx] at this
      rw [← this, List.take_append_drop]
    · intro w hw
      obtain ⟨j, hj, e⟩ := List.getElem_of_mem hw
      simp only [List.getElem_drop, List.getElem_mapIdx, Prod.mk.injEq, Storage.Key.int.injEq] at e
      omega

/-- C54 for a `Buffer`: the items of the list, of any shape, in row-major order.  The shape of the list does not
matter. -/
theorem C54_equal_list_buffer (b : Buffer V) (mem : List V) (h : b.WF mem) (n : Nested V) (shape : List Nat)
    (hn : HasShape n shape) :
    ∃ r, (Storage.buffer b).equalNested mem n = .ok r ∧
      (r = true ↔ b.size = count shape ∧ ∀ ix v, item n ix = some v →
        Reads (.buffer b) mem [rowMajor ix shape 0] (if v = pyNone then b.unspec else v)) := by
  have hshape : (Src.nested n).shape = shape := (SrcOk.nested hn).shape_eq
  have hval := (SrcOk.nested hn).value
  have hfrom : fromObject .buffer (.nested n) (some b.unspec) = .ok (.fresh (.buffer ⟨product shape, 0, b.unspec⟩)
      ((indexProduct shape).map fun ix => subst pyNone b.unspec (itemD n ix))) := by
    simp only [fromObject, hshape, buildFlat, Src.unspec, Option.getD_some]
    rw [bufferBuild_ok shape _ pyNone b.unspec (itemD n) hval]
    rfl
  rw [equalNested_eq (s := .buffer b) (.inl ⟨rfl, rfl⟩) hfrom]
  have hwf : Buffer.WF (⟨product shape, 0, b.unspec⟩ : Buffer V)
      ((indexProduct shape).map fun ix => subst pyNone b.unspec (itemD n ix)) := by
    simp [Buffer.WF, indexProduct_length]
  obtain ⟨v1, l1, e1, r1⟩ := C44_buffer_elements b mem h
  obtain ⟨v2, l2, e2, r2⟩ := C44_buffer_elements _ _ hwf
  obtain ⟨r, g1, g2⟩ := C45_equal_iff _ _ mem _ _ _ e1 e2
  refine ⟨r, g1, g2.trans ?_⟩
  have hv : (∀ k v, LastValue (v1.mapIdx fun i v => (Storage.Key.int i, v)) k v ↔
      LastValue (v2.mapIdx fun i v => (Storage.Key.int i, v)) k v) ↔ v1 = v2 := by
    constructor
    · intro hk
      apply List.ext_getElem?
      intro i
      apply Option.ext
      intro v
      have := hk (.int i) v
      rw [lastValue_mapIdx, lastValue_mapIdx] at this
      constructor
      · intro hi
        obtain ⟨j, e, hj⟩ := this.1 ⟨i, rfl, hi⟩
        simp only [Storage.Key.int.injEq] at e
        rwa [show j = i by omega] at hj
      · intro hi
        obtain ⟨j, e, hj⟩ := this.2 ⟨i, rfl, hi⟩
        simp only [Storage.Key.int.injEq] at e
        rwa [show j = i by omega] at hj
    · rintro rfl k v
      rfl
  have hm2 : v2 = (indexProduct shape).map fun ix => subst pyNone b.unspec (itemD n ix) := by
    apply List.ext_getElem (by simp [l2, indexProduct_length])
    intro i h1 h2
    have a := r2 i h1
    have hw : Storage.WF (.buffer ⟨product shape, 0, b.unspec⟩)
        ((indexProduct shape).map fun ix => subst pyNone b.unspec (itemD n ix)) := hwf
    have c := hw.at_cell [(i : Int)] (by
      simp only [Storage.shape, InBox, and_true]
      simp only at l2
      omega)
    rw [← a.at_eq, c]
    simp only [Storage.cellAt, cellVal, List.getD_eq_getElem?_getD, Int.natCast_zero, Int.zero_add, Int.toNat_natCast,
      List.getElem?_eq_getElem h2, Option.getD_some]
  rw [hv, hm2]
  have hrow : ∀ ix, InBox ix shape → rowMajor ix shape 0 = address ix (makeStrides shape) := by
    intro ix hi
    rw [rowMajor_eq ix shape 0 hi.length_eq]
    simp
  constructor
  · intro e
    have hsz : b.size = product shape := by
      rw [← l1, e]
      simp [indexProduct_length]
    refine ⟨by rw [hsz]; exact (count_eq shape).symm, fun ix v hx => ?_⟩
    obtain ⟨f1, f2⟩ := item_box hn hx
    have hb := address_bound f1
    rw [hrow ix f1]
    have hlt : (address ix (makeStrides shape)).toNat < v1.length := by omega
    have a := r1 _ hlt
    have hk := indexProduct_at shape ix f1
    have hk2 : v1[(address ix (makeStrides shape)).toNat]? = some (subst pyNone b.unspec (itemD n ix)) := by
      rw [e, List.getElem?_map, hk]
      rfl
    rw [List.getElem?_eq_getElem hlt, Option.some.injEq] at hk2
    rw [hk2, f2, Int.toNat_of_nonneg hb.1] at a
    exact a
  · rintro ⟨hs, hr⟩
    rw [count_eq] at hs
    apply List.ext_getElem (by simp [l1, hs, indexProduct_length])
    intro i h1 h2
    obtain ⟨ix, k1, k2, k3⟩ := indexProduct_getElem? shape i (by omega)
    obtain ⟨v, hx⟩ := (hn.item_iff ix).2 k2
    have a := hr ix v hx
    rw [hrow ix k2, k3] at a
    have c := r1 i h1
    rw [← c.at_eq, a.at_eq]
    obtain ⟨hl, k1⟩ := List.getElem?_eq_some_iff.1 k1
    simp only [List.getElem_map, k1, (item_box hn hx).2]
    rfl

/-- Cases of C54.  The `COO` of `sample` is not equal to `sample`. -/
example : HasShape sample [2, 3] ∧ (Storage.strided sampleStrided).WF sampleCells ∧
    (Storage.strided sampleStrided).equalNested sampleCells sample = .ok true ∧
    (Storage.strided sampleStrided).equalNested sampleCells
      (.seq [.seq [.leaf (some 1), .leaf none, .leaf (some 3)], .seq [.leaf none, .leaf (some 5), .leaf (some 0)]])
      = .ok false ∧
    (Storage.coo sampleCOO).WF sampleItems ∧ (Storage.coo sampleCOO).equalNested sampleItems sample = .ok false ∧
    Buffer.WF (⟨6, 0, none⟩ : Buffer (Option Int)) sampleCells ∧
    (Storage.buffer ⟨6, 0, none⟩).equalNested sampleCells sample = .ok true :=
  ⟨sample_shape, sampleStrided_wf, by decide +kernel, by decide +kernel, sampleCOO_wf, by decide +kernel,
    by simp [Buffer.WF, sampleCells], by decide +kernel⟩

end Gcs
