import Verif.Model.Mapped
import Verif.SpecMachine
import Verif.Lemmas.MachineOps
import Verif.Props.Construct
import Verif.Props.Assigning

/-!
# C76: `fromobject` with `shape` and `get_seq_index`
-/

namespace Gcs

open Spec

variable {V : Type} [DecidableEq V] [HasNone V]

/-- The list or storage object has the value `v` at the index `j`. -/
def Spec.SourceReads : Src V → List Int → V → Prop
  | .nested n, j, v => item n j = some v
  | .store s mem, j, v => j ≠ [] ∧ Reads s mem j v

/-- `get_seq_index(ix)` is `j`; without `get_seq_index` it is `ix`. -/
def Spec.MapsTo (g : Option (List Int → PyM (List Int))) (ix j : List Int) : Prop :=
  match g with
  | none => j = ix
  | some g => g ix = .ok j

/-- The object `s` with the list `mem` has the class, the shape, the unspecified value and the elements given, and, if
it is a `COO`, `FlatCOO` or `CSR`, a place for exactly the elements different from the unspecified value. -/
structure Spec.Holds (s : Storage V) (mem : List V) (cls : Cls) (shape : List Nat) (u : V) (a : List Int → V) : Prop where
  cls_eq : s.cls = cls
  shape_eq : s.shape = shape
  unspec_eq : s.unspec = u
  reads : ∀ ix, InBox ix shape → Reads s mem ix (a ix)
  stored : (Kind.ofCls cls).sparse = true → (∀ n ∈ shape, 0 < n) → Enumerates s mem fun _ v => v ≠ u

theorem reads_getVal {s : Storage V} {mem : List V} {j : List Int} {v : V} (h : Reads s mem j v) : s.getVal mem j = .ok v := by
  unfold Reads at h
  simp only [Storage.getVal, h, bind, Except.bind, pure, Except.pure]

theorem sourceReads_getValue {src : Src V} {j : List Int} {v : V} (h : SourceReads src j v) : src.getValue j = .ok v := by
  cases src with
  | nested n => exact getValue_of_item n j v h
  | store s mem =>
    obtain ⟨hne, h⟩ := h
    cases j with
    | nil => exact absurd rfl hne
    | cons i j => exact reads_getVal h

theorem getMapped_ok {src : Src V} {g : Option (List Int → PyM (List Int))} {shape : List Nat} {a : List Int → V}
    (h : ∀ ix, InBox ix shape → ∃ j, MapsTo g ix j ∧ SourceReads src j (a ix)) :
    ∀ ix, InBox ix shape → src.getMapped g ix = .ok (a ix) := by
  intro ix hi
  obtain ⟨j, h1, h2⟩ := h ix hi
  cases g with
  | none =>
    simp only [MapsTo] at h1
    subst h1
    exact sourceReads_getValue h2
  | some g =>
    simp only [MapsTo] at h1
    simp only [Src.getMapped, h1, bind, Except.bind]
    exact sourceReads_getValue h2

theorem holds_of {s : Storage V} {mem : List V} {cls : Cls} {shape : List Nat} {u : V} {a : List Int → V} (h1 : s.cls = cls)
    (h2 : s.unspec = u) (h3 : Stands s mem shape a) (h4 : Kept s mem a u) : Holds s mem cls shape u a := by
  refine ⟨h1, h3.shape_eq, h2, fun ix hi => ?_, fun hk hp => ?_⟩
  · have := h3.wf.reads ix (by rw [h3.shape_eq]; exact hi)
    rwa [h3.reads ix hi] at this
  · have hk' : ∃ b, Sparse s (keptRows s.shape a u) b ∧ b.WF mem := by
      simp only [Kept, h1] at h4
      cases cls <;> simp [Kind.ofCls, Kind.sparse] at hk <;> exact h4
    obtain ⟨b, hb, hm⟩ := hk'
    refine enumerates_of h3.wf _ _ (hb.elements_ok mem hm fun _ => by rw [h3.shape_eq]; exact hp) hb.rows_ok.sorted ?_
    intro ix
    rw [mem_keptRows]
    refine and_congr_right fun hi => ?_
    rw [h3.reads ix (by rw [← h3.shape_eq]; exact hi)]

/-- C76.  `cls.fromobject(src, shape=shape, get_seq_index=g, unspecified=u)` makes a new object of the class (also of an
object of the class itself) whose element at `ix` is `src[g(ix)]`, with `u` in place of the unspecified value of `src`.
The shape need not be that of `src`. -/
theorem C76_mapped (cls : Cls) (src : Src V) (shape : Option (List Nat)) (g : Option (List Int → PyM (List Int)))
    (u : Option V) (a : List Int → V) (hsg : shape ≠ none ∨ g ≠ none) (hne : shape.getD src.shape ≠ [])
    (h : ∀ ix, InBox ix (shape.getD src.shape) →
      ∃ j, MapsTo g ix j ∧ SourceReads src j (a ix))
    (hc : ClassFits cls (shape.getD src.shape) (u.getD src.unspec) fun ix => replaced src.unspec (u.getD src.unspec) (a ix)) :
    ∃ s mem, fromObjectWith cls src shape g u = .ok (.fresh s mem) ∧
      Holds s mem cls (shape.getD src.shape) (u.getD src.unspec) fun ix => replaced src.unspec (u.getD src.unspec) (a ix) := by
  obtain ⟨s, mem, h1, h2, h3, _, h4, h5⟩ := general_ok cls (shape.getD src.shape) hne _ src.unspec (u.getD src.unspec) a
    (getMapped_ok h) ⟨fun e => absurd e hc.1, hc.2⟩
  refine ⟨s, mem, ?_, holds_of h2 h3 h4 h5⟩
  have gen : fromObjectWith cls src shape g u = do
      let (s, mem) ← match cls with
        | .dm => dmBuild .strided (shape.getD src.shape) none none (src.getMapped g) src.unspec (u.getD src.unspec)
        | c => buildFlat c (shape.getD src.shape) (src.getMapped g) src.unspec (u.getD src.unspec)
      return .fresh s mem := by
    cases shape with
    | some shape => rfl
    | none =>
      cases g with
      | some g => rfl
      | none => simp at hsg
  rw [gen]
  cases cls <;> (simp only at h1 ⊢; rw [h1]; rfl)

/-- A case of C76, the transposed list: `COO.fromobject(sample, shape=(3, 2), get_seq_index=lambda ix: ix[::-1])`. -/
example : fromObjectWith .coo (.nested sample) (some [3, 2]) (some fun ix => .ok ix.reverse) none
    = .ok (.fresh (.coo ⟨[3, 2], ⟨[2, 3], [3, 1], ⟨6, 0, none⟩⟩, [some 0, some 1, some 2, some 0, some 1, some 0],
        ⟨3, 0, none⟩⟩) [some 1, some 5, some 3]) := by
  decide +kernel

/-- C76 for `DM` with its other arguments. -/
theorem C76_dm (src : Src V) (shape : Option (List Nat)) (dims part : Option (List Nat)) (cls : Cls)
    (g : Option (List Int → PyM (List Int))) (u : Option V) (a : List Int → V) (hne : shape.getD src.shape ≠ [])
    (h : ∀ ix, InBox ix (shape.getD src.shape) → ∃ j, MapsTo g ix j ∧ SourceReads src j (a ix))
    (hs : SplitFits (shape.getD src.shape).length dims part cls) :
    ∃ s mem, fromObjectDMWith src shape dims part cls g u = .ok (s, mem) ∧
      Holds s mem .dm (shape.getD src.shape) (u.getD src.unspec) fun ix => replaced src.unspec (u.getD src.unspec) (a ix) := by
  obtain ⟨s, mem, h1, h2⟩ := dm_fresh cls (shape.getD src.shape) hne dims part _ src.unspec (u.getD src.unspec) a
    (getMapped_ok h) hs
  refine ⟨s, mem, h1, ?_, h2.shape_eq, h2.unspec, fun ix hi => ?_, by simp [Kind.ofCls, Kind.sparse]⟩
  · obtain ⟨m, d, e, _⟩ := h2.kind_ok
    rw [e]
    rfl
  · have hx : InBox ix s.shape := by rw [h2.shape_eq]; exact hi
    have hr := h2.wf.reads ix hx
    have hc := h2.cell ix hi
    rw [made_dense rfl] at hc
    cases hk : s.cellAt ix with
    | none => simp [hk] at hc
    | some c =>
      rw [hk, Option.bind_some, h2.wf.place_at ix hx c hk, Option.some.injEq] at hc
      rw [hc]
      exact hr

/-- C76, the part of an array.  Without `get_seq_index`, a smaller `shape` takes the first elements along each axis. -/
theorem C76_part (cls : Cls) (n : Nested V) (full shape : List Nat) (hn : HasShape n full) (hle : List.Forall₂ (· ≤ ·) shape full)
    (hne : shape ≠ []) (u : Option V)
    (hc : ClassFits cls shape (u.getD pyNone) fun ix => replaced pyNone (u.getD pyNone) ((item n ix).getD pyNone)) :
    ∃ s mem, fromObjectWith cls (.nested n) (some shape) none u = .ok (.fresh s mem) ∧
      Holds s mem cls shape (u.getD pyNone) fun ix => replaced pyNone (u.getD pyNone) ((item n ix).getD pyNone) := by
  refine C76_mapped cls (.nested n) (some shape) none u (fun ix => (item n ix).getD pyNone) (by simp) hne (fun ix hi => ?_) hc
  have hi' : InBox ix full := by
    clear hc hne hn
    simp only [Option.getD_some] at hi
    induction hle generalizing ix with
    | nil => exact hi
    | cons hab _ ih =>
      cases ix with
      | nil => exact hi
      | cons i ix => exact ⟨⟨hi.1.1, by have := hi.1.2; omega⟩, ih ix hi.2⟩
  obtain ⟨v, hv⟩ := (hn.item_iff ix).2 hi'
  refine ⟨ix, rfl, ?_⟩
  simp only [SourceReads, hv, Option.getD_some]

/-- C76, beyond the end, for a storage object: any `shape` with as many axes is accepted, and the elements are
repeated along each axis. -/
theorem C76_repeated (cls : Cls) (t : Storage V) (tmem : List V) (ht : t.WF tmem) (hb : t.cls ≠ .buffer)
    (hp : ∀ n ∈ t.shape, 0 < n) (shape : List Nat) (hl : shape.length = t.shape.length) (hne : shape ≠ []) (u : Option V)
    (a : List Int → V) (ha : ∀ ix, InBox ix t.shape → Reads t tmem ix (a ix))
    (hc : ClassFits cls shape (u.getD t.unspec) fun ix => replaced t.unspec (u.getD t.unspec) (a (wrapped ix t.shape))) :
    ∃ s mem, fromObjectWith cls (.store t tmem) (some shape) none u = .ok (.fresh s mem) ∧
      Holds s mem cls shape (u.getD t.unspec) fun ix => replaced t.unspec (u.getD t.unspec) (a (wrapped ix t.shape)) := by
  obtain ⟨s, mem, h1, h2, h3, _, h4, h5⟩ := general_ok cls shape hne ((Src.store t tmem).getMapped none) t.unspec
    (u.getD t.unspec) (fun ix => a (wrapped ix t.shape)) (by
      intro ix hi
      have hil : ix.length = t.shape.length := by rw [← hl]; exact hi.length_eq
      have := getVal_wrapped ht hb hp ix hil
      rw [(ha _ (wrapped_inBox ix t.shape hp hil)).at_eq] at this
      cases ix with
      | nil =>
        rw [← List.length_pos_iff, ← hi.length_eq] at hne
        simp at hne
      | cons i ix => exact this) ⟨fun e => absurd e hc.1, hc.2⟩
  refine ⟨s, mem, ?_, holds_of h2 h3 h4 h5⟩
  simp only [fromObjectWith, Option.getD_some, Src.unspec]
  cases cls <;> (simp only at h1 ⊢; rw [h1]; rfl)

omit [DecidableEq V] [HasNone V] in
theorem walk_beyond {n : Nested V} {full : List Nat} (hn : HasShape n full) (ix : List Int) (h0 : ∀ i ∈ ix, 0 ≤ i)
    (hl : ix.length = full.length) (hb : ¬ InBox ix full) : n.walk ix = .error .index := by
  induction hn generalizing ix with
  | leaf v =>
    cases ix with
    | nil => simp [InBox] at hb
    | cons => simp at hl
  | empty =>
    match ix, hl with
    | [i], _ =>
      have : pyGet ([] : List (Nested V)) i = .error .index := by simp [pyGet]
      simp only [Nested.walk, this, bind, Except.bind]
  | seq items shape hne h ih =>
    match ix, hl with
    | i :: ix, hl =>
      have hi0 := h0 i (by simp)
      simp only [Nested.walk]
      by_cases hi : i < items.length
      · have hlt : i.toNat < items.length := by omega
        have hg : pyGet items i = .ok items[i.toNat] := by simp [pyGet, hi0, hlt]
        simp only [hg, bind, Except.bind]
        refine ih _ (List.getElem_mem hlt) ix (fun j hj => h0 j (by simp [hj])) (by simpa using hl) fun hb' => hb ⟨⟨hi0, hi⟩, hb'⟩
      · have hg : pyGet items i = .error .index := by
          have : items[i.toNat]? = none := List.getElem?_eq_none (by omega)
          simp [pyGet, hi0, this]
        simp only [hg, bind, Except.bind]

omit [DecidableEq V] [HasNone V] in
theorem getValue_beyond {n : Nested V} {full : List Nat} (hn : HasShape n full) (ix : List Int) (h0 : ∀ i ∈ ix, 0 ≤ i)
    (hl : ix.length = full.length) (hb : ¬ InBox ix full) : n.getValue ix = .error .index := by
  cases n with
  | seq items => exact walk_beyond hn ix h0 hl hb
  | leaf v =>
    cases hn
    cases ix with
    | nil => simp [InBox] at hb
    | cons => simp at hl

theorem mapM_index_fail {α β : Type} (f : α → PyM β) (e : PyErr) (l : List α) (h : ∀ x ∈ l, (∃ y, f x = .ok y) ∨ f x = .error e)
    (h1 : ∃ x ∈ l, f x = .error e) : l.mapM f = .error e := by
  induction l with
  | nil => simp at h1
  | cons x l ih =>
    rw [List.mapM_cons]
    rcases h x (by simp) with ⟨y, hy⟩ | he
    · rw [hy]
      simp only [bind, Except.bind]
      rw [ih (fun z hz => h z (by simp [hz])) (by
        obtain ⟨z, hz, hz'⟩ := h1
        rcases List.mem_cons.1 hz with rfl | hz
        · rw [hy] at hz'
          simp at hz'
        · exact ⟨z, hz, hz'⟩)]
    · rw [he]
      rfl

theorem buildFlat_index_fail (cls : Cls) (shape : List Nat) (value : List Int → PyM V) (su u : V) (e : PyErr)
    (h : ∀ ix, InBox ix shape → (∃ v, value ix = .ok v) ∨ value ix = .error e) (h1 : ∃ ix, InBox ix shape ∧ value ix = .error e)
    (hdm : cls ≠ .dm) : buildFlat cls shape value su u = .error e := by
  have key : ∀ {β : Type} (k : List Int → V → β), ((indexProduct shape).mapM fun ix => do
      let v ← value ix
      return k ix v) = .error e := by
    intro β k
    refine mapM_index_fail _ e _ (fun ix hi => ?_) ?_
    · rcases h ix ((mem_indexProduct _ _).1 hi) with ⟨v, hv⟩ | hv
      · exact .inl ⟨k ix v, by rw [hv]; rfl⟩
      · exact .inr (by rw [hv]; rfl)
    · obtain ⟨ix, hi, hv⟩ := h1
      exact ⟨ix, (mem_indexProduct _ _).2 hi, by rw [hv]; rfl⟩
  cases cls with
  | dm => exact absurd rfl hdm
  | buffer =>
    simp only [buildFlat, bufferBuild]
    rw [key fun _ v => if v = su then u else v]
    rfl
  | strided =>
    simp only [buildFlat, stridedBuild, bufferBuild]
    rw [key fun _ v => if v = su then u else v]
    rfl
  | coo =>
    simp only [buildFlat, cooBuild]
    rw [key fun ix v => (ix, if v = su then u else v)]
    rfl
  | flatcoo =>
    simp only [buildFlat, flatBuild]
    rw [key fun ix v => (ix, if v = su then u else v)]
    rfl
  | csr =>
    simp only [buildFlat, csrBuild, cooBuild]
    rw [key fun ix v => (ix, if v = su then u else v)]
    rfl

/-- C76, beyond the end, for a list: `IndexError`. -/
theorem C76_beyond (cls : Cls) (n : Nested V) (full shape : List Nat) (hn : HasShape n full) (hl : shape.length = full.length)
    (hp : ∀ k ∈ shape, 0 < k) (hgt : ¬ List.Forall₂ (· ≤ ·) shape full) (hdm : cls ≠ .dm) (u : Option V) :
    fromObjectWith cls (.nested n) (some shape) none u = .error .index := by
  have hneg : ∀ ix, InBox ix shape → ∀ i ∈ ix, 0 ≤ i := by
    clear hl hp hgt
    induction shape with
    | nil =>
      intro ix hi
      cases ix with
      | nil => simp
      | cons => exact hi.elim
    | cons m shape ih =>
      intro ix hi
      cases ix with
      | nil => exact hi.elim
      | cons j ix =>
        intro i hm
        rcases List.mem_cons.1 hm with rfl | hm
        · exact hi.1.1
        · exact ih ix hi.2 i hm
  have hlast : InBox (shape.map fun k => ((k - 1 : Nat) : Int)) shape := by
    clear hl hgt hneg
    induction shape with
    | nil => trivial
    | cons m shape ih =>
      have := hp m (by simp)
      exact ⟨⟨by show (0 : Int) ≤ ((m - 1 : Nat) : Int); omega, by show ((m - 1 : Nat) : Int) < m; omega⟩, ih fun k hk => hp k (by simp [hk])⟩
  have hout : ¬ InBox (shape.map fun k => ((k - 1 : Nat) : Int)) full := by
    intro hb
    apply hgt
    clear hneg hlast hgt hn
    induction shape generalizing full with
    | nil =>
      cases full with
      | nil => exact .nil
      | cons => simp at hl
    | cons m shape ih =>
      cases full with
      | nil => simp at hl
      | cons f full =>
        have := hp m (by simp)
        refine .cons (by have h2 : ((m - 1 : Nat) : Int) < f := hb.1.2; omega) (ih full (by simpa using hl) (fun k hk => hp k (by simp [hk])) hb.2)
  have := buildFlat_index_fail cls shape ((Src.nested n).getMapped none) pyNone (u.getD pyNone) .index (fun ix hi => ?_)
    ⟨_, hlast, getValue_beyond hn _ (hneg _ hlast) (by simp [hl]) hout⟩ hdm
  · simp only [fromObjectWith, Option.getD_some, Src.unspec]
    cases cls with
    | dm => exact absurd rfl hdm
    | buffer => simp only [this]; rfl
    | strided => simp only [this]; rfl
    | coo => simp only [this]; rfl
    | flatcoo => simp only [this]; rfl
    | csr => simp only [this]; rfl
  · by_cases hb : InBox ix full
    · obtain ⟨v, hv⟩ := (hn.item_iff ix).2 hb
      exact .inl ⟨v, getValue_of_item n ix v hv⟩
    · exact .inr (getValue_beyond hn ix (hneg ix hi) (by rw [hi.length_eq, hl]) hb)

/-- C76, another shape with as many elements.  If `get_seq_index` runs through the indices of `src` in order, the
elements of the new object are those of `src` in the same order. -/
theorem C76_reshape (cls : Cls) (src : Src V) (shape : List Nat) (g : List Int → List Int) (u : Option V)
    (a : List Int → V) (hne : shape ≠ []) (ha : ∀ ix, InBox ix src.shape → SourceReads src ix (a ix))
    (hg : (boxList shape).map g = boxList src.shape)
    (hc : ClassFits cls shape (u.getD src.unspec) fun ix => replaced src.unspec (u.getD src.unspec) (a (g ix))) :
    ∃ s mem, fromObjectWith cls src (some shape) (some fun ix => .ok (g ix)) u = .ok (.fresh s mem) ∧ s.cls = cls ∧
      s.shape = shape ∧
      List.Forall₂ (Reads s mem) (boxList shape) ((boxList src.shape).map fun j => replaced src.unspec (u.getD src.unspec) (a j)) := by
  have hin : ∀ ix, InBox ix shape → InBox (g ix) src.shape := by
    intro ix hi
    have : g ix ∈ boxList src.shape := by
      rw [← hg]
      exact List.mem_map_of_mem (by rw [boxList_eq]; exact (mem_indexProduct _ _).2 hi)
    rw [boxList_eq] at this
    exact (mem_indexProduct _ _).1 this
  obtain ⟨s, mem, h1, h2⟩ := C76_mapped cls src (some shape) (some fun ix => .ok (g ix)) u (fun ix => a (g ix)) (by simp) hne
    (fun ix hi => ⟨g ix, rfl, ha _ (hin ix hi)⟩) hc
  refine ⟨s, mem, h1, h2.cls_eq, h2.shape_eq, ?_⟩
  rw [← hg, List.map_map, List.forall₂_map_right_iff, List.forall₂_same]
  intro ix hi
  rw [boxList_eq] at hi
  exact h2.reads ix ((mem_indexProduct _ _).1 hi)

/-- The other cases of C76: the first columns, `[[1, None], [None, 5]]`. -/
example : fromObjectWith .csr (.nested sample) (some [2, 2]) none none
    = .ok (.fresh (.csr ⟨[2, 2], ⟨3, 0, none⟩, [some 0, some 1, some 2], ⟨2, 0, none⟩, [some 0, some 1], ⟨2, 0, none⟩⟩)
        [some 1, some 5]) := by
  decide +kernel

/-- A fourth column of a list with three. -/
example : fromObjectWith .csr (.nested sample) (some [2, 4]) none none = .error .index := by
  decide +kernel

/-- A fourth and a fifth column of an object with three: the first and the second again. -/
example : fromObjectWith .flatcoo (.store (.coo sampleCOO) sampleItems) (some [1, 5]) none none
    = .ok (.fresh (.flatcoo ⟨[1, 5], ⟨3, 0, none⟩, [some 0, some 2, some 3], ⟨3, 0, none⟩⟩) [some 1, some 3, some 1]) := by
  decide +kernel

/-- The six elements in one row. -/
example : fromObjectWith .strided (.nested sample) (some [6]) (some fun ix => .ok [ix.headD 0 / 3, ix.headD 0 % 3]) none
    = .ok (.fresh (.strided ⟨[6], [1], ⟨6, 0, none⟩⟩) [some 1, none, some 3, none, some 5, none]) := by
  decide +kernel

/-- The index map of this example runs through the indices of the list. -/
example : (boxList [6]).map (fun ix => [ix.headD 0 / 3, ix.headD 0 % 3]) = boxList [2, 3] := by decide +kernel

/-- A `DM` of the transposed list. -/
example : fromObjectDMWith (.nested sample) (some [3, 2]) (some [1, 0]) (some [1]) .coo (some fun ix => .ok ix.reverse) none
    = .ok (.dm ⟨[3, 2], [[1], [0]], [[2], [3]], [[1], [1]], [0, 0]⟩
        (.coo ⟨[2, 3], ⟨[2, 3], [3, 1], ⟨6, 0, none⟩⟩, [some 0, some 0, some 1, some 0, some 2, some 1], ⟨3, 0, none⟩⟩),
        [some 1, some 3, some 5]) := by
  decide +kernel

end Gcs
