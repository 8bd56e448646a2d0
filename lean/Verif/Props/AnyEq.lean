import Verif.Model.PyEq
import Verif.Props.Contents
import Verif.Props.Observing
import Verif.Props.Equality

/-!
# C93: values whose `==` is not equality

What the storages do with values like NaN, which is not `==` to itself, or `0`, `0.0` and `False`, which are `==` but
different.  `E` is any relation in the place of `==`.
-/

namespace Gcs

open Spec

variable {V : Type}

/-! ### Specification -/

/-- What takes the place of the value `v` of a source with the unspecified value `su`. -/
def Spec.put (E : V → V → Bool) (su u v : V) : V := if E v su = true then u else v

/-- What is read for the value `v`, after a class that does not store what is `==` to `u`. -/
def Spec.shown (E : V → V → Bool) (su u v : V) : V :=
  if E (Spec.put E su u v) u = true then u else Spec.put E su u v

/-- The classes that keep specified elements only. -/
def Spec.SparseCls : Cls → Prop
  | .coo | .flatcoo | .csr => True
  | _ => False

instance (cls : Cls) : Decidable (Spec.SparseCls cls) := by cases cls <;> simp only [Spec.SparseCls] <;> infer_instance

/-- What the class shows for the value `v`. -/
def Spec.result (E : V → V → Bool) (cls : Cls) (su u v : V) : V :=
  if Spec.SparseCls cls then Spec.shown E su u v else Spec.put E su u v

/-- The class can hold the array: `Buffer` is for one axis, `CSR` for two axes and at least one element that is stored. -/
def Spec.Fits (E : V → V → Bool) (cls : Cls) (shape : List Nat) (su u : V) (a : List Int → V) : Prop :=
  (cls = .buffer → shape.length = 1) ∧
  (cls = .csr → shape.length = 2 ∧ ∃ ix, InBox ix shape ∧ E (Spec.put E su u (a ix)) u = false)

variable [DecidableEq V]

/-! ### Elements are read without comparing values -/

private theorem Except.ok_bind' {α β : Type} (a : α) (f : α → PyM β) : ((.ok a : PyM α) >>= f) = f a := rfl

theorem getItemE_val (E : V → V → Bool) (s : Storage V) (mem : List V) (index : Index) (v : V) :
    s.getItemE E mem index = .ok (.val v) ↔ s.getItem mem index = .ok (.val v) := by
  induction s generalizing index with
  | csr c =>
    simp only [Storage.getItemE, Storage.getItem]
    cases normalizeIndex index c.shape with
    | error e => simp [bind, Except.bind]
    | ok nix =>
      simp only [bind, Except.bind]
      cases elementIndex nix with
      | some ix => rfl
      | none =>
        cases indexStrided nix c.shape (makeStrides c.shape) with
        | error e => simp
        | ok r =>
          simp only
          split
          · cases c.getSlice1E E mem r.1 r.2.1 r.2.2 <;> cases c.getSlice1 mem r.1 r.2.1 r.2.2 <;>
              simp [pure, Except.pure]
          · rfl
  | dm m d ih =>
    simp only [Storage.getItemE, Storage.getItem]
    cases normalizeIndex index m.shape with
    | error e => simp [bind, Except.bind]
    | ok nix =>
      rw [Except.ok_bind', Except.ok_bind']
      cases elementIndex nix with
      | some ix => simp only [bind_eq_ok, ih]
      | none =>
        simp only [bind_eq_ok]
        constructor
        · rintro ⟨g, -, r, -, h⟩
          split at h <;> simp only [bind_eq_ok] at h <;> obtain ⟨x, -, m', -, hx⟩ := h <;>
            cases x <;> simp [pure, Except.pure] at hx
        · rintro ⟨g, -, r, -, h⟩
          split at h <;> simp only [bind_eq_ok] at h <;> obtain ⟨x, -, m', -, hx⟩ := h <;>
            cases x <;> simp [pure, Except.pure] at hx
  | _ => rfl

theorem getValE_ok (E : V → V → Bool) (s : Storage V) (mem : List V) (ix : List Int) (v : V) :
    s.getValE E mem ix = .ok v ↔ s.getVal mem ix = .ok v := by
  have h1 : s.getValE E mem ix = .ok v ↔ s.getItemE E mem (.tuple (ix.map .int)) = .ok (.val v) := by
    simp only [Storage.getValE, bind, Except.bind]
    cases s.getItemE E mem (.tuple (ix.map .int)) with
    | error e => simp
    | ok r => cases r <;> simp [pure, Except.pure]
  have h2 : s.getVal mem ix = .ok v ↔ s.getItem mem (.tuple (ix.map .int)) = .ok (.val v) := by
    simp only [Storage.getVal, bind, Except.bind]
    cases s.getItem mem (.tuple (ix.map .int)) with
    | error e => simp
    | ok r => cases r <;> simp [pure, Except.pure]
  rw [h1, h2, getItemE_val]

theorem getValueE_ok (E : V → V → Bool) (src : Src V) (ix : List Int) (v : V) :
    src.getValueE E ix = .ok v ↔ src.getValue ix = .ok v := by
  cases src with
  | nested n => rfl
  | store s mem =>
    cases ix with
    | nil => simp [Src.getValueE, Src.getValue]
    | cons i ix => exact getValE_ok E s mem (i :: ix) v

/-! ### The builders -/

/-- The indices of the elements that are kept. -/
def keptE (E : V → V → Bool) (shape : List Nat) (f : List Int → V) (u : V) : List (List Int) :=
  (indexProduct shape).filter fun ix => !E (f ix) u

omit [DecidableEq V] in
theorem keptE_sorted (E : V → V → Bool) (shape : List Nat) (f : List Int → V) (u : V) :
    SortedRows shape (keptE E shape f u) :=
  ⟨(indexProduct_sorted shape).filter _, fun _ hr => (mem_indexProduct _ _).1 (List.mem_filter.1 hr).1⟩

omit [DecidableEq V] in
theorem mem_keptE (E : V → V → Bool) (shape : List Nat) (f : List Int → V) (u : V) (ix : List Int) :
    ix ∈ keptE E shape f u ↔ InBox ix shape ∧ E (f ix) u = false := by
  simp [keptE, mem_indexProduct]

omit [DecidableEq V] in
theorem found_keptE (E : V → V → Bool) (shape : List Nat) (value : List Int → PyM V) (su u : V) (a : List Int → V)
    (h : ∀ ix, InBox ix shape → value ix = .ok (a ix)) :
    ((indexProduct shape).mapM fun ix => do
      let v ← value ix
      return (ix, if E v su = true then u else v) : PyM (List (List Int × V)))
      = .ok ((indexProduct shape).map fun ix => (ix, Spec.put E su u (a ix))) ∧
    (((indexProduct shape).map fun ix => (ix, Spec.put E su u (a ix))).filter fun e => !E e.2 u)
      = (keptE E shape (fun ix => Spec.put E su u (a ix)) u).map fun ix => (ix, Spec.put E su u (a ix)) := by
  constructor
  · apply mapM_ok
    intro ix hix
    simp only [h ix ((mem_indexProduct _ _).1 hix), bind, Except.bind, pure, Except.pure, Spec.put]
  · rw [List.filter_map]
    rfl

omit [DecidableEq V] in
theorem bufferBuildE_ok (E : V → V → Bool) (shape : List Nat) (value : List Int → PyM V) (su u : V) (a : List Int → V)
    (h : ∀ ix, InBox ix shape → value ix = .ok (a ix)) :
    bufferBuildE E shape value su u
      = .ok (⟨product shape, 0, u⟩, (indexProduct shape).map fun ix => Spec.put E su u (a ix)) := by
  have e : ((indexProduct shape).mapM fun ix => do
      let v ← value ix
      return if E v su = true then u else v : PyM (List V)) = .ok ((indexProduct shape).map fun ix => Spec.put E su u (a ix)) := by
    apply mapM_ok
    intro ix hix
    simp only [h ix ((mem_indexProduct _ _).1 hix), bind, Except.bind, pure, Except.pure, Spec.put]
  unfold bufferBuildE
  rw [e]
  simp only [bind, Except.bind]
  rw [Buffer.new_ok _ _ _ _ (by simp)]
  simp only [List.length_map, indexProduct_length, pure, Except.pure]

omit [DecidableEq V] in
theorem stridedBuildE_ok (E : V → V → Bool) (shape : List Nat) (value : List Int → PyM V) (su u : V) (a : List Int → V)
    (h : ∀ ix, InBox ix shape → value ix = .ok (a ix)) :
    stridedBuildE E shape value su u = .ok (⟨shape, makeStrides shape, ⟨product shape, 0, u⟩⟩,
      (indexProduct shape).map fun ix => Spec.put E su u (a ix)) := by
  simp only [stridedBuildE, bufferBuildE_ok E shape value su u a h, bind, Except.bind, Strided.new, pyAssert,
    makeStrides_length, decide_true, if_true, pure, Except.pure]

omit [DecidableEq V] in
theorem cooBuildE_ok (E : V → V → Bool) (shape : List Nat) (hne : shape ≠ []) (value : List Int → PyM V) (su u : V)
    (a : List Int → V) (h : ∀ ix, InBox ix shape → value ix = .ok (a ix)) :
    cooBuildE E shape value su u
      = .ok (cooOf shape (keptE E shape (fun ix => Spec.put E su u (a ix)) u)
          ⟨(keptE E shape (fun ix => Spec.put E su u (a ix)) u).length, 0, u⟩,
        (keptE E shape (fun ix => Spec.put E su u (a ix)) u).map fun ix => Spec.put E su u (a ix)) := by
  obtain ⟨h1, h2⟩ := found_keptE E shape value su u a h
  unfold cooBuildE
  rw [h1]
  simp only [bind, Except.bind, h2]
  rw [Buffer.new_ok _ _ _ _ (by simp)]
  simp only [List.map_map]
  have e1 : ((fun e : List Int × V => e.1) ∘ fun ix => (ix, Spec.put E su u (a ix))) = id := rfl
  have e2 : ((fun e : List Int × V => e.2) ∘ fun ix => (ix, Spec.put E su u (a ix))) = fun ix => Spec.put E su u (a ix) := rfl
  rw [e1, e2, List.map_id, ofNested_columns _ (List.length_pos_of_ne_nil hne)]
  simp only [List.length_map]
  rw [COO.new_ok _ _ _ _ shape.length _ rfl rfl]
  rfl

omit [DecidableEq V] in
theorem flatBuildE_ok (E : V → V → Bool) (shape : List Nat) (value : List Int → PyM V) (su u : V)
    (a : List Int → V) (h : ∀ ix, InBox ix shape → value ix = .ok (a ix)) :
    flatBuildE E shape value su u
      = .ok (flatOf shape (keptE E shape (fun ix => Spec.put E su u (a ix)) u)
          ⟨(keptE E shape (fun ix => Spec.put E su u (a ix)) u).length, 0, u⟩,
        (keptE E shape (fun ix => Spec.put E su u (a ix)) u).map fun ix => Spec.put E su u (a ix)) := by
  obtain ⟨h1, h2⟩ := found_keptE E shape value su u a h
  unfold flatBuildE
  rw [h1]
  simp only [bind, Except.bind, h2]
  rw [positions_ok _ _ (by
    intro e he
    obtain ⟨ix, hix, rfl⟩ := List.mem_map.1 he
    exact (keptE_sorted _ _ _ _).inbox ix hix)]
  simp only
  rw [Buffer.new_ok _ _ _ _ (by simp)]
  simp only [List.map_map, rawIntBuffer_ok]
  rw [FlatCOO.new_ok _ _ _ _ (by simp)]
  simp [pure, Except.pure, flatOf, fmemOf, Function.comp_def]

/-- What `Buffer.copy()` makes of a value. -/
def recopied (E : V → V → Bool) (u v : V) : V := if E u u = true then v else if E v u = true then u else v

theorem copyE_none (E : V → V → Bool) (b : Buffer V) (mem : List V) :
    b.copyE E mem none = ((b.copy mem none).1, (b.copy mem none).2.map (recopied E b.unspec)) := by
  simp only [Buffer.copyE, Buffer.copy, Option.getD_none, if_true]
  split
  · next h =>
    have : recopied E b.unspec = id := by funext v; simp [recopied, h]
    rw [this, List.map_id]
  · next h =>
    have : recopied E b.unspec = fun v => if E v b.unspec = true then b.unspec else v := by funext v; simp [recopied, h]
    rw [this, List.length_map]

theorem cooToCsrE_eq (E : V → V → Bool) (c : COO V) (mem : List V) :
    cooToCsrE E c mem = (fun r => (r.1, r.2.map (recopied E c.data.unspec))) <$> cooToCsr c mem := by
  simp only [cooToCsrE, cooToCsr, copyE_none, map_bind, map_pure]

theorem flatToCooE_eq (E : V → V → Bool) (f : FlatCOO V) (mem : List V) :
    flatToCooE E f mem = (fun r => (r.1, r.2.map (recopied E f.data.unspec))) <$> flatToCoo f mem := by
  simp only [flatToCooE, flatToCoo, copyE_none, map_bind, map_pure]
  rfl

theorem cooToFlatE_eq (E : V → V → Bool) (c : COO V) (mem : List V) :
    cooToFlatE E c mem = (fun r => (r.1, r.2.map (recopied E c.data.unspec))) <$> cooToFlat c mem := by
  simp only [cooToFlatE, cooToFlat, copyE_none, map_bind, map_pure]

/-! ### With equality, nothing new -/

/-- `==` taken as equality. -/
def Spec.same (a b : V) : Bool := decide (a = b)

theorem listEqE_same (l l' : List V) : listEqE Spec.same l l' = decide (l = l') := by
  induction l generalizing l' with
  | nil => cases l' <;> simp [listEqE]
  | cons x l ih => cases l' <;> simp [listEqE, Spec.same, ih]

theorem Buffer.copyE_same (b : Buffer V) (mem : List V) (u : Option V) : b.copyE Spec.same mem u = b.copy mem u := by
  simp only [Buffer.copyE, Buffer.copy, Spec.same, decide_eq_true_eq]

theorem Buffer.eqE_same (b : Buffer V) (mem : List V) (b' : Buffer V) (mem' : List V) :
    b.eqE Spec.same mem b' mem' = b.eq mem b' mem' := by
  simp only [Buffer.eqE, Buffer.eq, listEqE_same, Spec.same]

theorem Strided.copyLoopE_same (r : Strided V) (old u : V) (es : List (List Int × V)) (mem : List V) :
    Strided.copyLoopE Spec.same r old u es mem = Strided.copyLoop r old u es mem := by
  induction es generalizing mem with
  | nil => rfl
  | cons e es ih =>
    simp only [Strided.copyLoopE, Strided.copyLoop, Spec.same, decide_eq_true_eq]
    simp only [ih]
    rfl

theorem Strided.copyE_same (s : Strided V) (mem : List V) (u : Option V) : s.copyE Spec.same mem u = s.copy mem u := by
  simp only [Strided.copyE, Strided.copy, Strided.copyLoopE_same]

theorem bufferBuildE_same (shape : List Nat) (value : List Int → PyM V) (su u : V) :
    bufferBuildE Spec.same shape value su u = bufferBuild shape value su u := by
  simp only [bufferBuildE, bufferBuild, Spec.same, decide_eq_true_eq]

theorem stridedBuildE_same (shape : List Nat) (value : List Int → PyM V) (su u : V) :
    stridedBuildE Spec.same shape value su u = stridedBuild shape value su u := by
  simp only [stridedBuildE, stridedBuild, bufferBuildE_same]

theorem cooBuildE_same (shape : List Nat) (value : List Int → PyM V) (su u : V) :
    cooBuildE Spec.same shape value su u = cooBuild shape value su u := by
  simp only [cooBuildE, cooBuild, Spec.same, decide_eq_true_eq, decide_not]

theorem flatBuildE_same (shape : List Nat) (value : List Int → PyM V) (su u : V) :
    flatBuildE Spec.same shape value su u = flatBuild shape value su u := by
  simp only [flatBuildE, flatBuild, Spec.same, decide_eq_true_eq, decide_not]

theorem cooToCsrE_same (c : COO V) (mem : List V) : cooToCsrE Spec.same c mem = cooToCsr c mem := by
  simp only [cooToCsrE, cooToCsr, Buffer.copyE_same]

theorem flatToCooE_same (f : FlatCOO V) (mem : List V) : flatToCooE Spec.same f mem = flatToCoo f mem := by
  simp only [flatToCooE, flatToCoo, Buffer.copyE_same]
  rfl

theorem cooToFlatE_same (c : COO V) (mem : List V) : cooToFlatE Spec.same c mem = cooToFlat c mem := by
  simp only [cooToFlatE, cooToFlat, Buffer.copyE_same]

theorem getItemE_same (s : Storage V) (mem : List V) (index : Index) : s.getItemE Spec.same mem index = s.getItem mem index := by
  induction s generalizing index with
  | csr c => simp only [Storage.getItemE, Storage.getItem, CSR.getSlice1E, CSR.getSlice1, cooBuildE_same]; rfl
  | dm m d ih => simp only [Storage.getItemE, Storage.getItem, ih]; rfl
  | _ => rfl

theorem getValE_same (s : Storage V) (mem : List V) (ix : List Int) : s.getValE Spec.same mem ix = s.getVal mem ix := by
  simp only [Storage.getValE, Storage.getVal, getItemE_same]
  rfl

theorem elementsE_same (s : Storage V) (mem : List V) : s.elementsE Spec.same mem = s.elements mem := by
  cases s with
  | dm m d => simp only [Storage.elementsE, Storage.elements, getValE_same]
  | _ => rfl

theorem copyE_same (s : Storage V) (mem : List V) (u : Option V) : s.copyE Spec.same mem u = s.copy mem u := by
  induction s with
  | dm m d ih => simp only [Storage.copyE, Storage.copy, ih]
  | _ => simp only [Storage.copyE, Storage.copy, Buffer.copyE_same, Strided.copyE_same]

theorem eqE_same (s : Storage V) (mem : List V) (t : Storage V) (mem' : List V) :
    s.eqE Spec.same mem t mem' = s.eq mem t mem' := by
  induction s generalizing t with
  | dm m d ih => cases t <;> simp only [Storage.eqE, Storage.eq, ih]
  | _ => cases t <;> simp only [Storage.eqE, Storage.eq, Buffer.eqE_same, Strided.eq]

theorem dictEqE_iff {K : Type} [DecidableEq K] (E : V → V → Bool) (d1 d2 : List (K × V)) :
    Storage.dictEqE E d1 d2 = true ↔
      (∀ k v, LastValue d1 k v → ∃ w, LastValue d2 k w ∧ (v = w ∨ E v w = true)) ∧
      ∀ k w, LastValue d2 k w → ∃ v, LastValue d1 k v := by
  have hmem : ∀ (d : List (K × V)) k v, LastValue d k v → (k, v) ∈ d := by
    rintro d k v ⟨pre, post, rfl, _⟩
    simp
  have hget : ∀ (d : List (K × V)) k v, (k, v) ∈ d → ∃ w, Storage.dictGet d k = some w := by
    intro d
    induction d with
    | nil => simp
    | cons e d ih =>
      intro k v h
      simp only [Storage.dictGet]
      rcases List.mem_cons.1 h with rfl | h
      · cases Storage.dictGet d k <;> simp
      · obtain ⟨w, hw⟩ := ih k v h
        exact ⟨w, by rw [hw]⟩
  simp only [Storage.dictEqE, Bool.and_eq_true, List.all_eq_true, ← dictGet_iff]
  constructor
  · rintro ⟨h1, h2⟩
    refine ⟨fun k v hv => ?_, fun k w hw => ?_⟩
    · have := h1 _ (hmem _ _ _ ((dictGet_iff _ _ _).1 hv))
      simp only [hv] at this
      cases hw : Storage.dictGet d2 k with
      | none => rw [hw] at this; simp [Storage.itemEqE] at this
      | some w => rw [hw] at this; exact ⟨w, rfl, by simpa [Storage.itemEqE] using this⟩
    · have := h2 _ (hmem _ _ _ ((dictGet_iff _ _ _).1 hw))
      exact Option.isSome_iff_exists.1 this
  · rintro ⟨h1, h2⟩
    refine ⟨fun e he => ?_, fun e he => ?_⟩
    · obtain ⟨v, hv⟩ := hget d1 e.1 e.2 he
      obtain ⟨w, hw, h⟩ := h1 _ _ hv
      simpa [hv, hw, Storage.itemEqE] using h
    · obtain ⟨w, hw⟩ := hget d2 e.1 e.2 he
      obtain ⟨v, hv⟩ := h2 _ _ hw
      simp [hv]

theorem equalE_same (s : Storage V) (mem : List V) (t : Storage V) (mem' : List V) :
    s.equalE Spec.same mem t mem' = s.equal mem t mem' := by
  have h : ∀ l1 l2 : List (Storage.Key × V), Storage.dictEqE Spec.same l1 l2 = Storage.dictEq l1 l2 := by
    intro l1 l2
    have hu : ∀ (d : List (Storage.Key × V)) k v w, LastValue d k v → LastValue d k w → v = w := by
      intro d k v w h1 h2
      simpa [(dictGet_iff _ _ _).2 h1] using (dictGet_iff _ _ _).2 h2
    rw [Bool.eq_iff_iff, dictEqE_iff, dictEq_iff]
    constructor
    · rintro ⟨h1, h2⟩ k v
      constructor
      · intro h
        obtain ⟨w, hw, hvw⟩ := h1 k v h
        have : v = w := by simpa [Spec.same] using hvw
        exact this ▸ hw
      · intro h
        obtain ⟨x, hx⟩ := h2 k v h
        obtain ⟨w, hw, hxw⟩ := h1 k x hx
        have : x = w := by simpa [Spec.same] using hxw
        rw [hu _ _ _ _ h hw, ← this]
        exact hx
    · intro h
      exact ⟨fun k v hv => ⟨v, (h k v).1 hv, .inl rfl⟩, fun k w hw => ⟨w, (h k w).2 hw⟩⟩
  simp only [Storage.equalE, Storage.equal, elementsE_same, h]

theorem getValueE_same (src : Src V) : src.getValueE Spec.same = src.getValue := by
  funext ix
  cases src with
  | nested n => rfl
  | store s mem => cases ix <;> simp only [Src.getValueE, Src.getValue, getValE_same]

theorem buildFlatE_same (cls : Cls) (shape : List Nat) (value : List Int → PyM V) (su u : V) :
    buildFlatE Spec.same cls shape value su u = buildFlat cls shape value su u := by
  cases cls <;> simp only [buildFlatE, buildFlat, bufferBuildE_same, stridedBuildE_same, cooBuildE_same, flatBuildE_same,
    csrBuildE, csrBuild, cooToCsrE_same]

theorem dmBuildE_same (cls : Cls) (shape : List Nat) (d p : Option (List Nat)) (value : List Int → PyM V) (su u : V) :
    dmBuildE Spec.same cls shape d p value su u = dmBuild cls shape d p value su u := by
  cases cls <;> simp only [dmBuildE, dmBuild, buildFlatE_same]

theorem fromObjectE_same [HasNone V] (cls : Cls) (seq : Src V) (u : Option V) :
    fromObjectE Spec.same cls seq u = fromObject cls seq u := by
  cases u <;> cases cls <;> cases seq with
  | nested n => simp only [fromObjectE, fromObject, getValueE_same, dmBuildE_same, buildFlatE_same]
  | store s mem => 
    cases s <;> simp only [fromObjectE, fromObject, getValueE_same, dmBuildE_same, buildFlatE_same, flatToCooE_same, cooToFlatE_same, cooToCsrE_same]

/-! ### `fromobject` -/

theorem stands_keptE (E : V → V → Bool) {s : Storage V} {shape : List Nat} {su u : V} {a : List Int → V}
    (h : Sparse s (keptE E shape (fun ix => Spec.put E su u (a ix)) u)
      ⟨(keptE E shape (fun ix => Spec.put E su u (a ix)) u).length, 0, u⟩) (hs : s.shape = shape) :
    Stands s ((keptE E shape (fun ix => Spec.put E su u (a ix)) u).map fun ix => Spec.put E su u (a ix)) shape
      fun ix => Spec.shown E su u (a ix) := by
  have hb : Buffer.WF ⟨(keptE E shape (fun ix => Spec.put E su u (a ix)) u).length, 0, u⟩
      ((keptE E shape (fun ix => Spec.put E su u (a ix)) u).map fun ix => Spec.put E su u (a ix)) := by simp [Buffer.WF]
  refine ⟨h.wf _ hb, hs, fun ix hi => ?_⟩
  rw [h.at _ hb ix (by rw [hs]; exact hi), buffer_window_map _ _ _ (by simp), lookup_map (keptE_sorted _ _ _ _).nodup]
  simp only [mem_keptE, hi, true_and, Spec.shown]
  cases E (Spec.put E su u (a ix)) u <;> simp

/-- The general branch of `fromobject` for the classes other than `DM`. -/
theorem buildFlatE_ok (E : V → V → Bool) (cls : Cls) (hd : cls ≠ .dm) (shape : List Nat) (hne : shape ≠ [])
    (value : List Int → PyM V) (su u : V) (a : List Int → V) (h : ∀ ix, InBox ix shape → value ix = .ok (a ix))
    (hc : Spec.Fits E cls shape su u a) :
    ∃ s mem, buildFlatE E cls shape value su u = .ok (s, mem) ∧ s.cls = cls ∧ s.unspec = u ∧
      Stands s mem shape (fun ix => Spec.result E cls su u (a ix)) ∧
      (Spec.SparseCls cls → ∃ b, Sparse s (keptE E shape (fun ix => Spec.put E su u (a ix)) u) b) := by
  have hk := keptE_sorted E shape (fun ix => Spec.put E su u (a ix)) u
  cases cls with
  | dm => exact absurd rfl hd
  | buffer =>
    obtain ⟨n, rfl⟩ := List.length_eq_one_iff.1 (hc.1 rfl)
    refine ⟨.buffer ⟨product [n], 0, u⟩, (indexProduct [n]).map fun ix => Spec.put E su u (a ix), ?_, rfl, rfl,
      ⟨?_, ?_, ?_⟩, fun h => h.elim⟩
    · simp only [buildFlatE, bufferBuildE_ok E _ value su u a h, bind, Except.bind, pure, Except.pure]
    · simp [Storage.WF, Buffer.WF, indexProduct_length]
    · simp [Storage.shape, product]
    · intro ix hi
      have hat := indexProduct_at [n] ix hi
      cases ix with
      | nil => exact hi.elim
      | cons i ix => cases ix with
        | cons => exact hi.2.elim
        | nil =>
          have hb : Buffer.WF ⟨product [n], 0, u⟩ ((indexProduct [n]).map fun ix => Spec.put E su u (a ix)) := by
            simp [Buffer.WF, indexProduct_length]
          rw [at_of_getVal (buffer_getVal hb i hi.1.1 (by simpa [product] using hi.1.2)),
            buffer_window_map _ _ _ (by simp [indexProduct_length]), List.getD_eq_getElem?_getD, List.getElem?_map]
          have : address [i] (makeStrides [n]) = i := by simp [address, makeStrides, product]
          rw [this] at hat
          rw [hat]
          rfl
  | strided =>
    refine ⟨.strided _, _, ?_, rfl, ?_, strided_stands shape (fun ix => Spec.put E su u (a ix)) u, fun h => h.elim⟩
    · simp only [buildFlatE, stridedBuildE_ok E _ value su u a h, bind, Except.bind, pure, Except.pure]
    · rfl
  | coo =>
    have hr := Sparse.coo (cooOf_rep shape hne _ hk ⟨_, 0, u⟩ rfl)
    refine ⟨_, _, ?_, rfl, ?_, stands_keptE E hr rfl, fun _ => ⟨_, hr⟩⟩
    · simp only [buildFlatE, cooBuildE_ok E _ hne value su u a h, bind, Except.bind, pure, Except.pure]
    · rfl
  | flatcoo =>
    have hr := Sparse.flatcoo (flatOf_rep shape _ hk ⟨_, 0, u⟩ rfl)
    refine ⟨_, _, ?_, rfl, ?_, stands_keptE E hr rfl, fun _ => ⟨_, hr⟩⟩
    · simp only [buildFlatE, flatBuildE_ok E _ value su u a h, bind, Except.bind, pure, Except.pure]
    · rfl
  | csr =>
    obtain ⟨hs, ix0, hi0, hx0⟩ := hc.2 rfl
    have hr := Sparse.csr (csrOf_rep shape hs _ hk ⟨_, 0, u⟩ rfl)
    refine ⟨_, _, ?_, rfl, ?_, stands_keptE E hr rfl, fun _ => ⟨_, hr⟩⟩
    · have hn : keptE E shape (fun ix => Spec.put E su u (a ix)) u ≠ [] := by
        intro he
        have := (mem_keptE E shape (fun ix => Spec.put E su u (a ix)) u ix0).2 ⟨hi0, hx0⟩
        rw [he] at this
        simp at this
      have hrep := cooOf_rep shape hne _ hk
        (⟨(keptE E shape (fun ix => Spec.put E su u (a ix)) u).length, 0, u⟩ : Buffer V) rfl
      simp only [buildFlatE, csrBuildE, cooBuildE_ok E _ hne value su u a h, bind, Except.bind, cooToCsrE_eq]
      rw [cooToCsr_ok hrep hn hs _ (by simp [cooOf, Buffer.WF])]
      simp only [pure, Except.pure, cooOf, Functor.map, Except.map]
      rw [buffer_window_map _ _ _ (by simp), List.map_map]
      congr 2
      apply List.map_congr_left
      intro ix hx
      have := ((mem_keptE _ _ _ _ _).1 hx).2
      simp [recopied, this]
    · rfl

/-- `DM.fromobject` over the storage classes other than `DM`. -/
theorem dmBuildE_ok (E : V → V → Bool) (cls : Cls) (hd : cls ≠ .dm) (shape : List Nat)
    (dimensions partitioning : Option (List Nat)) (value : List Int → PyM V) (su u : V) (a : List Int → V)
    (hs : GoodSplit shape.length (dimensions.getD (List.range shape.length))
      (dmPartitioning shape.length (cls = .buffer) partitioning))
    (ha : ∀ ix, InBox ix shape → value ix = .ok (a ix))
    (hb : cls = .buffer → dmPartitioning shape.length true partitioning = [])
    (hc : cls = .csr → (dmPartitioning shape.length false partitioning).length = 1 ∧
      ∃ ix, InBox ix shape ∧ E (Spec.put E su u (a ix)) u = false) :
    ∃ m st mem, dmBuildE E cls shape dimensions partitioning value su u = .ok (.dm m st, mem) ∧
      st.cls = cls ∧ st.unspec = u ∧ Stands (.dm m st) mem shape fun ix => Spec.result E cls su u (a ix) := by
  have hlen := dmGroups_length (dimensions.getD (List.range shape.length)) shape.length
    (dmPartitioning shape.length (cls = .buffer) partitioning)
  have e : dmBuildE E cls shape dimensions partitioning value su u
      = dmBuildWith (fun rshape value' => buildFlatE E cls rshape value' su u) (cls = .buffer) shape dimensions
        partitioning value := by
    cases cls with
    | dm => exact absurd rfl hd
    | _ => rfl
  rw [e]
  obtain ⟨m, st, mem, h1, ⟨⟨h2, h3⟩, _⟩, _, h4⟩ := dmBuildWith_ok (fun rshape value' => buildFlatE E cls rshape value' su u)
    (cls = .buffer) shape dimensions partitioning value a (fun v => Spec.result E cls su u v)
    (fun st => st.cls = cls ∧ st.unspec = u) hs ha (by
      intro value' a' h1 h2
      have hpos : ((groupShapes shape (dmGroups (dimensions.getD (List.range shape.length)) shape.length
          (dmPartitioning shape.length (cls = .buffer) partitioning) 0)).map product) ≠ [] := by
        intro he
        have := congrArg List.length he
        rw [List.length_map, groupShapes, List.length_map, hlen] at this
        simp at this
      obtain ⟨st, mem, b1, b2, b3, b4, _⟩ := buildFlatE_ok E cls hd _ hpos value' su u a' h1 (by
        refine ⟨fun hcls => ?_, fun hcls => ?_⟩
        · subst hcls
          have := hb rfl
          simp only [decide_true] at hlen ⊢
          rw [this] at hlen ⊢
          simp [groupShapes]
          exact hlen
        · subst hcls
          obtain ⟨c1, ix, c2, c3⟩ := hc rfl
          obtain ⟨r, d1, d2⟩ := h2 ix c2
          refine ⟨?_, r, d1, by rw [d2]; exact c3⟩
          have e : decide (Cls.csr = Cls.buffer) = false := rfl
          rw [e, c1] at hlen
          simp [groupShapes, e, hlen])
      refine ⟨st, mem, b1, ⟨b2, b3⟩, ?_, b4⟩
      cases st with
      | dm m d => exact absurd b2.symm hd
      | _ => trivial)
  exact ⟨m, st, mem, h1, h2, h3, h4⟩

variable [HasNone V]

theorem fromObjectE_general (E : V → V → Bool) {cls : Cls} {src : Src V} {unspec : Option V}
    (h : ¬ Spec.Shortcut cls src unspec) : fromObjectE E cls src unspec = (do
      let r ← (match cls with
        | .dm => dmBuildE E .strided src.shape none none (src.getValueE E) src.unspec (unspec.getD src.unspec)
        | c => buildFlatE E c src.shape (src.getValueE E) src.unspec (unspec.getD src.unspec))
      return .fresh r.1 r.2) := by
  cases unspec with
  | some u => cases cls <;> rfl
  | none =>
    cases src with
    | nested n => cases cls <;> rfl
    | store s mem => cases s <;> cases cls <;> first | rfl | exact absurd ⟨rfl, trivial⟩ h

/-- C93.  With any relation in the place of `==`, `fromobject` (other than the shortcuts) makes an object of the class with
the unspecified value `u`.  An element `==` to the unspecified value of the source is replaced by `u`; the sparse classes then
leave out the elements `==` to `u`, and show `u` there. -/
theorem C93_fromobject (E : V → V → Bool) (cls : Cls) (src : Src V) (shape : List Nat) (a : List Int → V)
    (h : Spec.IsArray src shape a) (hne : shape ≠ []) (unspec : Option V) (u : V) (hu : u = unspec.getD src.unspec)
    (hs : ¬ Spec.Shortcut cls src unspec) (hc : Spec.Fits E cls shape src.unspec u a) :
    ∃ r m, fromObjectE E cls src unspec = .ok (.fresh r m) ∧ r.WF m ∧ r.cls = cls ∧ r.shape = shape ∧ r.unspec = u ∧
      (∀ ix, InBox ix shape → Reads r m ix (Spec.result E cls src.unspec u (a ix))) ∧
      (Spec.SparseCls cls → ∀ ix, HasPlace r ix ↔ InBox ix shape ∧ E (Spec.put E src.unspec u (a ix)) u = false) := by
  obtain ⟨b, ⟨h1, h2⟩, h3⟩ := h.srcOk hne
  have hv : ∀ ix, InBox ix shape → src.getValueE E ix = .ok (a ix) := fun ix hi => by
    rw [getValueE_ok, ← h3 ix hi]
    exact h2 ix hi
  have fin : ∀ r m, Stands r m shape (fun ix => Spec.result E cls src.unspec u (a ix)) →
      ∀ ix, InBox ix shape → Reads r m ix (Spec.result E cls src.unspec u (a ix)) := by
    intro r m hst ix hi
    have := hst.wf.reads ix (by rw [hst.shape_eq]; exact hi)
    rwa [hst.reads ix hi] at this
  rw [fromObjectE_general E hs, h1, ← hu]
  by_cases hd : cls = .dm
  · subst hd
    obtain ⟨m, st, mem, k1, k2, k3, k4⟩ := dmBuildE_ok E .strided (by simp) shape none none (src.getValueE E) src.unspec u a
      (goodSplit_default _ _ (List.length_pos_of_ne_nil hne)) hv (by simp) (by simp)
    refine ⟨.dm m st, mem, ?_, k4.wf, rfl, k4.shape_eq, k3, fin _ _ k4, fun h => h.elim⟩
    simp only [k1, bind, Except.bind, pure, Except.pure]
  · obtain ⟨r, mem, k1, k2, k3, k4, k5⟩ := buildFlatE_ok E cls hd shape hne (src.getValueE E) src.unspec u a hv hc
    refine ⟨r, mem, ?_, k4.wf, k2, k4.shape_eq, k3, fin _ _ k4, fun hsp ix => ?_⟩
    · cases cls with
      | dm => exact absurd rfl hd
      | _ => simp only [k1, bind, Except.bind, pure, Except.pure]
    · obtain ⟨b', hb'⟩ := k5 hsp
      rw [hb'.hasPlace, mem_keptE]

/-- C93, `as_DM`.  The same through a `DM` over any of the other classes, for any order and partitioning of the axes. -/
theorem C93_as_DM (E : V → V → Bool) (cls : Cls) (hd : cls ≠ .dm) (src : Src V) (shape : List Nat) (a : List Int → V)
    (h : Spec.IsArray src shape a) (hne : shape ≠ []) (dimensions partitioning : Option (List Nat))
    (unspec : Option V) (u : V) (hu : u = unspec.getD src.unspec)
    (hs : GoodSplit shape.length (dimensions.getD (List.range shape.length))
      (dmPartitioning shape.length (cls = .buffer) partitioning))
    (hb : cls = .buffer → dmPartitioning shape.length true partitioning = [])
    (hc : cls = .csr → (dmPartitioning shape.length false partitioning).length = 1 ∧
      ∃ ix, InBox ix shape ∧ E (Spec.put E src.unspec u (a ix)) u = false) :
    ∃ m d mem, fromObjectDME E src dimensions partitioning cls unspec = .ok (.dm m d, mem) ∧ (Storage.dm m d).WF mem ∧
      d.cls = cls ∧ m.shape = shape ∧ d.unspec = u ∧
      ∀ ix, InBox ix shape → Reads (.dm m d) mem ix (Spec.result E cls src.unspec u (a ix)) := by
  obtain ⟨b, ⟨h1, h2⟩, h3⟩ := h.srcOk hne
  have hv : ∀ ix, InBox ix shape → src.getValueE E ix = .ok (a ix) := fun ix hi => by
    rw [getValueE_ok, ← h3 ix hi]
    exact h2 ix hi
  obtain ⟨m, st, mem, k1, k2, k3, k4⟩ := dmBuildE_ok E cls hd shape dimensions partitioning (src.getValueE E) src.unspec u a
    hs hv hb hc
  refine ⟨m, st, mem, ?_, k4.wf, k2, k4.shape_eq, k3, fun ix hi => ?_⟩
  · rw [fromObjectDME, h1, ← hu, k1]
  · have := k4.wf.reads ix (by rw [k4.shape_eq]; exact hi)
    rwa [k4.reads ix hi] at this

/-! ### Copies of stored indices -/

omit [DecidableEq V] [HasNone V] in
theorem recopied_unspec (E : V → V → Bool) (u : V) : recopied E u u = u := by
  unfold recopied
  simp

omit [DecidableEq V] [HasNone V] in
theorem recopied_twice (E : V → V → Bool) (u v : V) : recopied E u (recopied E u v) = recopied E u v := by
  unfold recopied
  by_cases h1 : E u u = true
  · simp [h1]
  · by_cases h2 : E v u = true <;> simp [h1, h2]

omit [DecidableEq V] [HasNone V] in
theorem lookup_fix (rows : List (List Int)) (vals : List V) (u u' : V) (g : V → V) (h : g u = u') (ix : List Int) :
    lookup rows (vals.map g) u' ix = g (lookup rows vals u ix) := by
  unfold lookup
  cases rows.idxOf? ix with
  | none => simp [h]
  | some p =>
    simp only [List.getD_eq_getElem?_getD, List.getElem?_map]
    cases vals[p]? with
    | none => simp [h]
    | some v => rfl

/-- C93, the shortcuts of `fromobject` between `COO`, `FlatCOO` and `CSR`: places for the same indices.  The values are
copied, but with an unspecified value not `==` to itself, values `==` to it are replaced by it. -/
theorem C93_shortcuts (E : V → V → Bool) (s : Storage V) (mem : List V) (h : s.WF mem) (hne : s.shape ≠ [])
    (hs : s.cls = .coo ∨ s.cls = .flatcoo) (hp : s.cls = .flatcoo → ∀ n ∈ s.shape, 0 < n) (cls : Cls) (hcl : cls ≠ s.cls)
    (hc : cls = .coo ∨ cls = .flatcoo ∨ (cls = .csr ∧ s.shape.length = 2 ∧ ∃ ix, HasPlace s ix)) :
    ∃ r m, fromObjectE E cls (.store s mem) none = .ok (.fresh r m) ∧ r.WF m ∧ r.cls = cls ∧ r.shape = s.shape ∧
      r.unspec = s.unspec ∧ (∀ ix, HasPlace r ix ↔ HasPlace s ix) ∧
      ∀ ix v, InBox ix s.shape → Reads s mem ix v →
        Reads r m ix (if E s.unspec s.unspec = true then v else if E v s.unspec = true then s.unspec else v) := by
  have fin : ∀ {s r : Storage V} {rows b mem}, Sparse s rows b → b.WF mem → Sparse r rows ⟨rows.length, 0, b.unspec⟩ →
      r.shape = s.shape →
      r.WF ((b.window mem).map (recopied E b.unspec)) ∧ r.unspec = s.unspec ∧ (∀ ix, HasPlace r ix ↔ HasPlace s ix) ∧
      ∀ ix v, InBox ix s.shape → Reads s mem ix v →
        Reads r ((b.window mem).map (recopied E b.unspec)) ix
          (if E s.unspec s.unspec = true then v else if E v s.unspec = true then s.unspec else v) := by
    intro s r rows b mem h1 h2 h3 h4
    have hl : ((b.window mem).map (recopied E b.unspec)).length = rows.length := by
      simp [b.window_length mem h2, h1.size]
    have hb : Buffer.WF ⟨rows.length, 0, b.unspec⟩ ((b.window mem).map (recopied E b.unspec)) := by
      simp only [Buffer.WF, hl]; omega
    refine ⟨h3.wf _ hb, by rw [h3.unspec, h1.unspec], fun ix => by rw [h3.hasPlace, h1.hasPlace], fun ix v hi hv => ?_⟩
    have := (h3.wf _ hb).reads ix (by rw [h4]; exact hi)
    rw [h3.at _ hb ix (by rw [h4]; exact hi), buffer_window_map _ _ _ hl,
      lookup_fix _ _ b.unspec b.unspec _ (recopied_unspec E _), ← h1.at mem h2 ix hi, hv.at_eq] at this
    rw [h1.unspec]
    exact this
  cases s with
  | coo c =>
    obtain ⟨⟨rows, hr⟩, hm⟩ := h
    rcases hc with rfl | rfl | ⟨rfl, h2, ix0, hx0⟩
    · exact absurd rfl hcl
    · have hrep : Sparse (.flatcoo (flatOf c.shape rows (⟨rows.length, 0, c.data.unspec⟩ : Buffer V))) rows _ :=
        .flatcoo (flatOf_rep c.shape rows hr.rows_ok _ rfl)
      obtain ⟨k1, k2, k3, k4⟩ := fin (Sparse.coo hr) hm hrep rfl
      refine ⟨_, _, ?_, k1, rfl, rfl, k2, k3, k4⟩
      simp only [fromObjectE, cooToFlatE_eq, cooToFlat_ok hr mem hm, bind, Except.bind, pure, Except.pure, Functor.map,
        Except.map]
    · have hrn : rows ≠ [] := by
        rintro rfl
        rw [(Sparse.coo hr).hasPlace] at hx0
        simp at hx0
      have hrep : Sparse (.csr (csrOf c.shape rows (⟨rows.length, 0, c.data.unspec⟩ : Buffer V))) rows _ :=
        .csr (csrOf_rep c.shape h2 rows hr.rows_ok _ rfl)
      obtain ⟨k1, k2, k3, k4⟩ := fin (Sparse.coo hr) hm hrep rfl
      refine ⟨_, _, ?_, k1, rfl, rfl, k2, k3, k4⟩
      simp only [fromObjectE, cooToCsrE_eq, cooToCsr_ok hr hrn h2 mem hm, bind, Except.bind, pure, Except.pure, Functor.map,
        Except.map]
  | flatcoo f =>
    obtain ⟨⟨rows, hr⟩, hm⟩ := h
    have hp := hp rfl
    rcases hc with rfl | rfl | ⟨rfl, h2, ix0, hx0⟩
    · have hrep : Sparse (.coo (cooOf f.shape rows (⟨rows.length, 0, f.data.unspec⟩ : Buffer V))) rows _ :=
        .coo (cooOf_rep f.shape hne rows hr.rows_ok _ rfl)
      obtain ⟨k1, k2, k3, k4⟩ := fin (Sparse.flatcoo hr) hm hrep rfl
      refine ⟨_, _, ?_, k1, rfl, rfl, k2, k3, k4⟩
      simp only [fromObjectE, flatToCooE_eq, flatToCoo_ok hr hp hne mem hm, bind, Except.bind, pure, Except.pure, Functor.map,
        Except.map]
    · exact absurd rfl hcl
    · have hrn : rows ≠ [] := by
        rintro rfl
        rw [(Sparse.flatcoo hr).hasPlace] at hx0
        simp at hx0
      have hrep : Sparse (.csr (csrOf f.shape rows (⟨rows.length, 0, f.data.unspec⟩ : Buffer V))) rows _ :=
        .csr (csrOf_rep f.shape h2 rows hr.rows_ok _ rfl)
      obtain ⟨k1, k2, k3, k4⟩ := fin (Sparse.flatcoo hr) hm hrep rfl
      refine ⟨_, _, ?_, k1, rfl, rfl, k2, k3, k4⟩
      have hwl : ((f.data.window mem).map (recopied E f.data.unspec)).length = rows.length := by
        simp [f.data.window_length mem hm, hr.size]
      have hb : Buffer.WF ⟨rows.length, 0, f.data.unspec⟩ ((f.data.window mem).map (recopied E f.data.unspec)) := by
        simp only [Buffer.WF, hwl]; omega
      have hc' := cooToCsr_ok (cooOf_rep f.shape hne rows hr.rows_ok (⟨rows.length, 0, f.data.unspec⟩ : Buffer V) rfl)
        hrn h2 _ hb
      simp only [fromObjectE, flatToCooE_eq, cooToCsrE_eq, flatToCoo_ok hr hp hne mem hm, bind, Except.bind, pure, Except.pure,
        Functor.map, Except.map, hc']
      simp only [cooOf, buffer_window_map _ _ _ hwl, List.map_map, Function.comp_def, recopied_twice]
  | _ => simp [Storage.cls] at hs

/-! ### `copy` -/

omit [HasNone V] in
theorem Buffer.copyE_ok (E : V → V → Bool) (b : Buffer V) (mem : List V) (h : b.WF mem) (u : Option V) :
    b.copyE E mem u = (⟨b.size, 0, u.getD b.unspec⟩, (b.window mem).map fun v =>
      if E (u.getD b.unspec) b.unspec = true then v else if E v b.unspec = true then u.getD b.unspec else v) := by
  have hl := b.window_length mem h
  simp only [Buffer.copyE]
  split
  · simp only [hl, List.map_id']
  · simp only [List.length_map, hl]

omit [HasNone V] in
theorem Strided.copyLoopE_ok (E : V → V → Bool) (r : Strided V) (old u : V) (es : List (List Int × V)) (mem : List V) :
    Strided.copyLoopE E r old u es mem = Strided.copyLoop r u u (es.map fun e => (e.1, Spec.put E old u e.2)) mem := by
  induction es generalizing mem with
  | nil => rfl
  | cons e es ih =>
    have e1 : ∀ w : V, (if w = u then u else w) = w := by intro w; split <;> simp_all
    simp only [Strided.copyLoopE, List.map_cons, Strided.copyLoop, e1, ih]
    rfl

omit [HasNone V] in
theorem Strided.copyE_ok (E : V → V → Bool) {s : Strided V} {mem : List V} (h : s.WF mem) (u : Option V) :
    s.copyE E mem u = .ok (⟨s.shape, makeStrides s.shape, ⟨product s.shape, 0, u.getD s.data.unspec⟩⟩,
      (indexProduct s.shape).map fun ix => Spec.put E s.data.unspec (u.getD s.data.unspec) (s.val mem ix)) := by
  simp only [Strided.copyE, Buffer.new_ok (product s.shape) 0 (List.replicate (product s.shape) (u.getD s.data.unspec)) _
      (by simp), bind, Except.bind, Strided.new, pyAssert, makeStrides_length, decide_true, if_true, pure, Except.pure,
    Strided.elements_ok h, Strided.copyLoopE_ok, List.map_map, Function.comp_def]
  rw [Strided.copyLoop_ok _ _ _ (fun ix => Spec.put E s.data.unspec (u.getD s.data.unspec) (s.val mem ix))]
  · simp only
    rw [setCells_box]
    · simp [subst_self]
    simp
  · intro m hm
    exact contiguous_WF' _ _ _ (by simpa using hm)
  · intro ix hix
    exact (mem_indexProduct _ _).1 hix

omit [HasNone V] in
theorem Sparse.copyE_ok (E : V → V → Bool) {s : Storage V} {rows : List (List Int)} {b : Buffer V} (h : Sparse s rows b)
    (mem : List V) (hm : b.WF mem) (u : Option V) :
    ∃ r, s.copyE E mem u = .ok (r, (b.copyE E mem u).2) ∧
      Sparse r rows ⟨b.size, 0, u.getD b.unspec⟩ ∧ r.cls = s.cls ∧ r.shape = s.shape := by
  cases h with
  | @coo c _ h =>
    refine ⟨.coo ⟨c.shape, c.indices, c.imem, ⟨c.data.size, 0, u.getD c.data.unspec⟩⟩, ?_, ?_, rfl, rfl⟩
    · simp only [Storage.copyE, Buffer.copyE_ok _ _ _ hm, bind, Except.bind, pure, Except.pure]
      rw [COO.new_ok _ _ _ ⟨c.data.size, 0, u.getD c.data.unspec⟩ _ _ h.ishape h.size]
    · exact .coo (c := ⟨c.shape, c.indices, c.imem, ⟨c.data.size, 0, u.getD c.data.unspec⟩⟩)
        ⟨h.rows_ok, h.ne, h.ishape, h.iwf, h.iun, h.ival, h.size⟩
  | @flatcoo f _ h =>
    refine ⟨.flatcoo ⟨f.shape, f.findices, f.fmem, ⟨f.data.size, 0, u.getD f.data.unspec⟩⟩, ?_, ?_, rfl, rfl⟩
    · simp only [Storage.copyE, Buffer.copyE_ok _ _ _ hm, bind, Except.bind, pure, Except.pure]
      rw [FlatCOO.new_ok]
      rw [h.fsize, ← h.size]
    · exact .flatcoo (f := ⟨f.shape, f.findices, f.fmem, ⟨f.data.size, 0, u.getD f.data.unspec⟩⟩)
        ⟨h.rows_ok, h.fwf, h.fval, h.size⟩
  | @csr c _ h =>
    refine ⟨.csr ⟨c.shape, c.crow, c.crowMem, c.col, c.colMem, ⟨c.data.size, 0, u.getD c.data.unspec⟩⟩, ?_, ?_, rfl, rfl⟩
    · obtain ⟨n, m, hs⟩ := List.length_eq_two.1 h.two
      have h1 : c.crow.size = n + 1 := by
        rw [← c.crow.window_length _ h.cwf, h.cval]
        simp [hs]
      have h2 : c.col.size = c.data.size := by
        rw [← c.col.window_length _ h.kwf, h.kval, h.size]
        simp
      simp only [Storage.copyE, Buffer.copyE_ok _ _ _ hm, bind, Except.bind, pure, Except.pure]
      rw [CSR.new_ok _ _ _ _ _ ⟨c.data.size, 0, u.getD c.data.unspec⟩ n m hs h1 h2]
    · exact .csr (c := ⟨c.shape, c.crow, c.crowMem, c.col, c.colMem, ⟨c.data.size, 0, u.getD c.data.unspec⟩⟩)
        ⟨h.rows_ok, h.two, h.cwf, h.cval, h.kwf, h.kval, h.size⟩

/-- What `copy` with the unspecified value `u` shows where an object with the unspecified value `old` reads `v`; `dense`: a
`Strided` object; `stored`: the index has a place. -/
def Spec.copied (E : V → V → Bool) (dense : Bool) (stored : Prop) [Decidable stored] (old u v : V) : V :=
  if dense = true then (if E v old = true then u else v)
  else if stored then (if E u old = true then v else if E v old = true then u else v) else u

open Classical in
/-- C93, `copy`.  `Strided` replaces every value `==` to its unspecified value.  The other classes do so in the stored values
only, and only if the new unspecified value is not `==` to the old one; where nothing is stored the new one is read. -/
theorem C93_copy (E : V → V → Bool) (s : Storage V) (mem : List V) (h : s.WF mem) (hd : s.cls ≠ .dm) (unspec : Option V)
    (u : V) (hu : u = unspec.getD s.unspec) :
    ∃ r m, s.copyE E mem unspec = .ok (r, m) ∧ r.WF m ∧ r.cls = s.cls ∧ r.shape = s.shape ∧ r.unspec = u ∧
      (∀ ix, HasPlace r ix ↔ HasPlace s ix) ∧
      ∀ ix v, InBox ix s.shape → Reads s mem ix v →
        Reads r m ix (Spec.copied E (s.cls = .strided) (HasPlace s ix) s.unspec u v) := by
  subst hu
  have sparse : ∀ {rows b}, Sparse s rows b → b.WF mem → s.cls ≠ .strided →
      ∃ r m, s.copyE E mem unspec = .ok (r, m) ∧ r.WF m ∧ r.cls = s.cls ∧ r.shape = s.shape ∧
      r.unspec = unspec.getD s.unspec ∧ (∀ ix, HasPlace r ix ↔ HasPlace s ix) ∧
      ∀ ix v, InBox ix s.shape → Reads s mem ix v →
        Reads r m ix (Spec.copied E (s.cls = .strided) (HasPlace s ix) s.unspec (unspec.getD s.unspec) v) := by
    intro rows b hsp hm hcl
    obtain ⟨r, k1, k2, k3, k4⟩ := hsp.copyE_ok E mem hm unspec
    rw [Buffer.copyE_ok E b mem hm] at k1
    generalize hg : (fun v => if E (unspec.getD b.unspec) b.unspec = true then v
      else if E v b.unspec = true then unspec.getD b.unspec else v) = g at k1
    have hl : ((b.window mem).map g).length = b.size := by simp [b.window_length mem hm]
    have hb : Buffer.WF ⟨b.size, 0, unspec.getD b.unspec⟩ ((b.window mem).map g) := by
      simp only [Buffer.WF, hl]; omega
    refine ⟨r, _, k1, k2.wf _ hb, k3, k4, by rw [k2.unspec, hsp.unspec], fun ix => by rw [k2.hasPlace, hsp.hasPlace],
      fun ix v hi hv => ?_⟩
    have hrd := (k2.wf _ hb).reads ix (by rw [k4]; exact hi)
    rw [k2.at _ hb ix (by rw [k4]; exact hi), buffer_window_map _ _ _ hl] at hrd
    have hv := hv.at_eq
    rw [hsp.at mem hm ix hi] at hv
    have e : lookup rows ((b.window mem).map g) (unspec.getD b.unspec) ix
        = Spec.copied E (s.cls = .strided) (HasPlace s ix) s.unspec (unspec.getD s.unspec) v := by
      simp only [Spec.copied, hcl, decide_false, Bool.false_eq_true, if_false, hsp.hasPlace, hsp.unspec]
      by_cases hx : ix ∈ rows
      · rw [if_pos hx]
        obtain ⟨p, hp, rfl⟩ := List.getElem_of_mem hx
        have hpw : p < (b.window mem).length := by rw [b.window_length mem hm, hsp.size]; exact hp
        rw [lookup_at hsp.rows_ok.nodup _ _ p hp] at hv ⊢
        rw [List.getD_eq_getElem?_getD, List.getElem?_eq_getElem hpw, Option.getD_some] at hv
        rw [List.getD_eq_getElem?_getD, List.getElem?_map, List.getElem?_eq_getElem hpw, Option.map_some, Option.getD_some, hv, ← hg]
      · rw [if_neg hx, lookup_none _ _ hx]
    rw [e] at hrd
    exact hrd
  cases s with
  | dm m d => exact absurd rfl hd
  | coo c =>
    obtain ⟨⟨rows, hr⟩, hm⟩ := h
    exact sparse (.coo hr) hm (by simp [Storage.cls])
  | flatcoo c =>
    obtain ⟨⟨rows, hr⟩, hm⟩ := h
    exact sparse (.flatcoo hr) hm (by simp [Storage.cls])
  | csr c =>
    obtain ⟨⟨rows, hr⟩, hm⟩ := h
    exact sparse (.csr hr) hm (by simp [Storage.cls])
  | strided s =>
    have h : s.WF mem := h
    have hst := strided_stands s.shape (fun ix => Spec.put E s.data.unspec (unspec.getD s.data.unspec) (s.val mem ix))
      (unspec.getD s.data.unspec)
    refine ⟨.strided ⟨s.shape, makeStrides s.shape, ⟨product s.shape, 0, unspec.getD s.data.unspec⟩⟩,
      (indexProduct s.shape).map fun ix => Spec.put E s.data.unspec (unspec.getD s.data.unspec) (s.val mem ix), ?_, hst.wf,
      rfl, rfl, rfl, fun ix => Iff.rfl, fun ix v hi hv => ?_⟩
    · simp only [Storage.copyE, Strided.copyE_ok E h, bind, Except.bind, pure, Except.pure]
    · have hrd := hst.wf.reads ix hi
      rw [hst.reads ix hi, ← at_strided h ix hi, hv.at_eq] at hrd
      exact hrd
  | buffer b =>
    have h : b.WF mem := h
    generalize hg : (fun v => if E (unspec.getD b.unspec) b.unspec = true then v
      else if E v b.unspec = true then unspec.getD b.unspec else v) = g
    have hl : ((b.window mem).map g).length = b.size := by simp [b.window_length mem h]
    have hb : Buffer.WF ⟨b.size, 0, unspec.getD b.unspec⟩ ((b.window mem).map g) := by
      simp only [Buffer.WF, hl]; omega
    refine ⟨.buffer ⟨b.size, 0, unspec.getD b.unspec⟩, (b.window mem).map g, ?_, hb, rfl, rfl, rfl, fun ix => Iff.rfl,
      fun ix v hi hv => ?_⟩
    · simp only [Storage.copyE, Buffer.copyE_ok E b mem h, pure, Except.pure, hg]
    · match ix, hi with
      | [i], hi =>
        have hi' := hi
        simp only [Storage.shape, InBox, and_true] at hi
        have hrd := getItem_of_getVal (buffer_getVal hb i hi.1 hi.2)
        have hv := hv.at_eq
        rw [at_of_getVal (buffer_getVal h i hi.1 hi.2)] at hv
        have hlt : i.toNat < (b.window mem).length := by rw [b.window_length mem h]; omega
        rw [List.getD_eq_getElem?_getD, List.getElem?_eq_getElem hlt, Option.getD_some] at hv
        rw [buffer_window_map _ _ _ hl, List.getD_eq_getElem?_getD, List.getElem?_map, List.getElem?_eq_getElem hlt,
          Option.map_some, Option.getD_some, hv] at hrd
        have e2 : g v = if E (unspec.getD b.unspec) b.unspec = true then v
            else if E v b.unspec = true then unspec.getD b.unspec else v := by rw [← hg]
        rw [e2] at hrd
        have e : HasPlace (Storage.buffer b) [i] := hi'
        simp only [Spec.copied, Storage.cls, reduceCtorEq, decide_false, Bool.false_eq_true, if_false, if_pos e, Storage.unspec]
        exact hrd
      | [], hi => exact hi.elim
      | _ :: _ :: _, hi => exact hi.2.elim

omit [HasNone V] in
/-- C93, `copy` of a `DM` copies its storage. -/
theorem C93_copy_dm (E : V → V → Bool) (m : DMMeta) (d : Storage V) (mem : List V) (h : (Storage.dm m d).WF mem)
    (unspec : Option V) (r : Storage V) (mem' : List V) (hr : d.copyE E mem unspec = .ok (r, mem')) :
    (Storage.dm m d).copyE E mem unspec = .ok (.dm m r, mem') := by
  have e : (⟨m.shape, m.rdims, groupShapes m.shape m.rdims, m.rstrides, m.roffset⟩ : DMMeta) = m := by rw [← h.1.rshapes]
  simp only [Storage.copyE, hr, DMMeta.new_ok _ _ _ _ h.1.ne h.1.axes, bind, Except.bind, pure, Except.pure, e]

/-! ### `==` and `equal` -/

omit [HasNone V] in
theorem listEqE_iff (E : V → V → Bool) (l l' : List V) :
    listEqE E l l' = true ↔ l.length = l'.length ∧
      ∀ p, p < l.length → ∀ d d', l.getD p d = l'.getD p d' ∨ E (l.getD p d) (l'.getD p d') = true := by
  induction l generalizing l' with
  | nil => cases l' <;> simp [listEqE]
  | cons x l ih =>
    cases l' with
    | nil => simp [listEqE]
    | cons y l' =>
      simp only [listEqE, Bool.and_eq_true, Bool.or_eq_true, decide_eq_true_eq, ih, List.length_cons, Nat.add_right_cancel_iff]
      constructor
      · rintro ⟨h1, h2, h3⟩
        refine ⟨h2, fun p hp d d' => ?_⟩
        cases p with
        | zero => simpa using h1
        | succ p => simpa using h3 p (by omega) d d'
      · rintro ⟨h2, h3⟩
        refine ⟨by simpa using h3 0 (by omega) x y, h2, fun p hp d d' => ?_⟩
        simpa using h3 (p + 1) (by omega) d d'

omit [HasNone V] in
theorem Buffer.eqE_iff (E : V → V → Bool) (b b' : Buffer V) (mem mem' : List V) :
    b.eqE E mem b' mem' = true ↔ b.size = b'.size ∧ listEqE E (b.window mem) (b'.window mem') = true ∧
      E b.unspec b'.unspec = true := by
  simp [Buffer.eqE, and_assoc]

omit [HasNone V] in
/-- C93, `==`.  Objects without elements before their windows that are `==` have the same class and shape, places for the same
indices, unspecified values that are `==`, and elements that are the same or `==`. -/
theorem C93_eq (E : V → V → Bool) (s t : Storage V) (mem mem' : List V) (hs : s.WF mem) (ht : t.WF mem') (hn : NoneBefore s)
    (h : s.eqE E mem t mem' = true) :
    s.cls = t.cls ∧ s.shape = t.shape ∧ E s.unspec t.unspec = true ∧ (∀ ix, HasPlace s ix ↔ HasPlace t ix) ∧
      ∀ ix v w, InBox ix s.shape → Reads s mem ix v → Reads t mem' ix w → v = w ∨ E v w = true := by
  suffices hat : s.cls = t.cls ∧ s.shape = t.shape ∧ E s.unspec t.unspec = true ∧ (∀ ix, HasPlace s ix ↔ HasPlace t ix) ∧
      ∀ ix, InBox ix s.shape → s.at mem ix = t.at mem' ix ∨ E (s.at mem ix) (t.at mem' ix) = true by
    obtain ⟨h1, h2, h3, h4, h5⟩ := hat
    refine ⟨h1, h2, h3, h4, fun ix v w hi hv hw => ?_⟩
    rw [← hv.at_eq, ← hw.at_eq]
    exact h5 ix hi
  have sparse : ∀ {s t : Storage V} {rows b b'}, Sparse s rows b → Sparse t rows b' → b.WF mem → b'.WF mem' →
      s.shape = t.shape → b.eqE E mem b' mem' = true → E s.unspec t.unspec = true ∧
      (∀ ix, HasPlace s ix ↔ HasPlace t ix) ∧
      ∀ ix, InBox ix s.shape → s.at mem ix = t.at mem' ix ∨ E (s.at mem ix) (t.at mem' ix) = true := by
    intro s t rows b b' h1 h2 h3 h4 h5 h6
    rw [Buffer.eqE_iff, listEqE_iff] at h6
    refine ⟨by rw [h1.unspec, h2.unspec]; exact h6.2.2, fun ix => by rw [h1.hasPlace, h2.hasPlace], fun ix hi => ?_⟩
    rw [h1.at mem h3 ix hi, h2.at mem' h4 ix (by rw [← h5]; exact hi)]
    by_cases hx : ix ∈ rows
    · obtain ⟨p, hp, rfl⟩ := List.getElem_of_mem hx
      rw [lookup_at h1.rows_ok.nodup _ _ p hp, lookup_at h1.rows_ok.nodup _ _ p hp]
      exact h6.2.1.2 p (by rw [b.window_length mem h3, h1.size]; exact hp) _ _
    · rw [lookup_none _ _ hx, lookup_none _ _ hx]
      exact .inr h6.2.2
  induction s generalizing t with
  | buffer b =>
    cases t <;> simp only [Storage.eqE, Bool.false_eq_true] at h
    next b' =>
      rw [Buffer.eqE_iff, listEqE_iff] at h
      have hsh : (Storage.buffer b).shape = (Storage.buffer b').shape := by simp [Storage.shape, h.1]
      refine ⟨rfl, hsh, h.2.2, fun ix => by simp only [HasPlace, hsh], fun ix hi => ?_⟩
      match ix, hi with
      | [i], hi =>
        have hi' : InBox [i] (Storage.buffer b').shape := by rw [← hsh]; exact hi
        rw [at_of_getVal (buffer_getVal hs i hi.1.1 hi.1.2), at_of_getVal (buffer_getVal ht i hi'.1.1 hi'.1.2)]
        have h1 := hi.1.1
        have h2 := hi.1.2
        exact h.2.1.2 i.toNat (by rw [b.window_length mem hs]; omega) _ _
      | [], hi => exact hi.elim
      | _ :: _ :: _, hi => exact hi.2.elim
  | strided s =>
    cases t <;> simp only [Storage.eqE, Bool.false_eq_true, Bool.and_eq_true, decide_eq_true_eq] at h
    next t =>
      obtain ⟨⟨h1, h2⟩, h3⟩ := h
      rw [Buffer.eqE_iff, listEqE_iff] at h3
      refine ⟨rfl, h1, h3.2.2, fun ix => by simp only [HasPlace, Storage.shape, h1], fun ix hi => ?_⟩
      have hs : s.WF mem := hs
      have ht : t.WF mem' := ht
      have hi : InBox ix s.shape := hi
      have hi' : InBox ix t.shape := by rw [← h1]; exact hi
      rw [at_strided hs ix hi, at_strided ht ix hi']
      have a := hs.addr ix hi
      have b := ht.addr ix hi'
      have c := hn ix hi
      have e1 := s.data.window_getD mem hs.buf (address ix s.strides).toNat (by omega) s.data.unspec
      have e2 := t.data.window_getD mem' ht.buf (address ix t.strides).toNat (by rw [← h2]; omega) t.data.unspec
      have := h3.2.1.2 (address ix s.strides).toNat (by rw [s.data.window_length mem hs.buf]; omega) s.data.unspec t.data.unspec
      rw [h2] at c
      rw [e1, h2, e2] at this
      simp only [Strided.val, Strided.cell]
      rw [show ((s.data.offset : Int) + address ix s.strides).toNat = s.data.offset + (address ix t.strides).toNat by
          rw [h2]; omega,
        show ((t.data.offset : Int) + address ix t.strides).toNat = t.data.offset + (address ix t.strides).toNat by omega]
      exact this
  | coo c =>
    cases t <;> simp only [Storage.eqE, Bool.false_eq_true, Bool.and_eq_true, decide_eq_true_eq] at h
    next c' =>
      obtain ⟨⟨rows, hr⟩, hm⟩ := hs
      obtain ⟨⟨rows', hr'⟩, hm'⟩ := ht
      obtain ⟨⟨h1, h2⟩, h3⟩ := h
      have := hr.rows_eq hr' h1 h2 hn
      subst this
      exact ⟨rfl, h1, sparse (.coo hr) (.coo hr') hm hm' h1 h3⟩
  | flatcoo f =>
    cases t <;> simp only [Storage.eqE, Bool.false_eq_true, Bool.and_eq_true, decide_eq_true_eq] at h
    next f' =>
      obtain ⟨⟨rows, hr⟩, hm⟩ := hs
      obtain ⟨⟨rows', hr'⟩, hm'⟩ := ht
      obtain ⟨⟨h1, h2⟩, h3⟩ := h
      have := hr.rows_eq hr' h1 h2
      subst this
      exact ⟨rfl, h1, sparse (.flatcoo hr) (.flatcoo hr') hm hm' h1 h3⟩
  | csr c =>
    cases t <;> simp only [Storage.eqE, Bool.false_eq_true, Bool.and_eq_true, decide_eq_true_eq] at h
    next c' =>
      obtain ⟨⟨rows, hr⟩, hm⟩ := hs
      obtain ⟨⟨rows', hr'⟩, hm'⟩ := ht
      obtain ⟨⟨⟨h1, h2⟩, h3⟩, h4⟩ := h
      have := hr.rows_eq hr' h1 h2 h3
      subst this
      exact ⟨rfl, h1, sparse (.csr hr) (.csr hr') hm hm' h1 h4⟩
  | dm m d ih =>
    cases t <;> simp only [Storage.eqE, Bool.false_eq_true, Bool.and_eq_true, decide_eq_true_eq] at h
    next m' d' =>
      obtain ⟨⟨⟨⟨h1, h2⟩, h3⟩, h4⟩, h5⟩ := h
      obtain ⟨_, i2, i3, _, i5⟩ := ih d' hs.2 ht.2 hn h5
      refine ⟨rfl, h1, i3, fun ix => by simp only [HasPlace, Storage.shape, h1], fun ix hi => ?_⟩
      rw [at_dm hs.1 hs.2 ix hi, at_dm ht.1 ht.2 ix (by rw [← h1]; exact hi), h2, h3, h4]
      rw [← h2, ← h3, ← h4]
      exact i5 _ (hs.1.into ix hi)

omit [HasNone V] in
/-- C93, `s == s.copy()`.  For a `Buffer`, `COO`, `FlatCOO` or `CSR` it says whether the unspecified value is `==` to
itself. -/
theorem C93_eq_copy (E : V → V → Bool) (s : Storage V) (mem : List V) (h : s.WF mem)
    (hc : s.cls ≠ .strided ∧ s.cls ≠ .dm) :
    ∃ r m, s.copyE E mem none = .ok (r, m) ∧ (s.eqE E mem r m = true ↔ E s.unspec s.unspec = true) := by
  have buf : ∀ (b : Buffer V), b.WF mem → (b.eqE E mem (b.copyE E mem none).1 (b.copyE E mem none).2 = true ↔
      E b.unspec b.unspec = true) := by
    intro b hb
    have hl := b.window_length mem hb
    rw [Buffer.copyE_ok E b mem hb, Buffer.eqE_iff, listEqE_iff, buffer_window_map _ _ _ (by simp [hl])]
    simp only [Option.getD_none, List.length_map, true_and, and_iff_right_iff_imp]
    intro hu p hp d d'
    simp only [List.getD_eq_getElem?_getD, List.getElem?_map, List.getElem?_eq_getElem hp, Option.map_some, Option.getD_some]
    rw [if_pos hu]
    exact .inl rfl
  have sparse : ∀ {rows b}, Sparse s rows b → b.WF mem → (∀ r m, s.copyE E mem none = .ok (r, m) →
      s.eqE E mem r m = b.eqE E mem (b.copyE E mem none).1 (b.copyE E mem none).2) →
      ∃ r m, s.copyE E mem none = .ok (r, m) ∧ (s.eqE E mem r m = true ↔ E s.unspec s.unspec = true) := by
    intro rows b hsp hb he
    obtain ⟨r, k1, _⟩ := hsp.copyE_ok E mem hb none
    exact ⟨r, _, k1, by rw [he _ _ k1, buf b hb, hsp.unspec]⟩
  have brefl : ∀ (b : Buffer (Option Int)) (m : List (Option Int)), b.eq m b m = true := by
    intro b m; rw [Buffer.eq_iff]; exact ⟨rfl, rfl, rfl⟩
  have srefl : ∀ (b : Strided (Option Int)) (m : List (Option Int)), b.eq m b m = true := by
    intro b m; rw [Strided.eq_iff]; exact ⟨rfl, rfl, brefl _ _⟩
  cases s with
  | strided s => exact absurd rfl hc.1
  | dm m d => exact absurd rfl hc.2
  | buffer b => exact ⟨_, _, rfl, buf b h⟩
  | coo c =>
    obtain ⟨⟨rows, hr⟩, hm⟩ := h
    refine sparse (.coo hr) hm fun r m hrm => ?_
    simp only [Storage.copyE, bind_eq_ok, pure_eq_ok, Prod.mk.injEq] at hrm
    obtain ⟨c', h1, rfl, rfl⟩ := hrm
    rw [Buffer.copyE_ok E _ mem hm] at h1
    simp only [COO.new_ok _ _ _ ⟨c.data.size, 0, _⟩ _ _ hr.ishape hr.size, Except.ok.injEq] at h1
    subst h1
    rw [Buffer.copyE_ok E _ mem hm]
    simp [Storage.eqE, srefl]
  | flatcoo f =>
    obtain ⟨⟨rows, hr⟩, hm⟩ := h
    refine sparse (.flatcoo hr) hm fun r m hrm => ?_
    simp only [Storage.copyE, bind_eq_ok, pure_eq_ok, Prod.mk.injEq] at hrm
    obtain ⟨c', h1, rfl, rfl⟩ := hrm
    rw [Buffer.copyE_ok E _ mem hm] at h1
    rw [FlatCOO.new_ok _ _ _ _ (by rw [hr.fsize, ← hr.size])] at h1
    simp only [Except.ok.injEq] at h1
    subst h1
    rw [Buffer.copyE_ok E _ mem hm]
    simp [Storage.eqE, brefl]
  | csr c =>
    obtain ⟨⟨rows, hr⟩, hm⟩ := h
    refine sparse (.csr hr) hm fun r m hrm => ?_
    simp only [Storage.copyE, bind_eq_ok, pure_eq_ok, Prod.mk.injEq] at hrm
    obtain ⟨c', h1, rfl, rfl⟩ := hrm
    rw [Buffer.copyE_ok E _ mem hm] at h1
    obtain ⟨n, k, hs⟩ := List.length_eq_two.1 hr.two
    have g1 : c.crow.size = n + 1 := by
      rw [← c.crow.window_length _ hr.cwf, hr.cval]
      simp [hs]
    have g2 : c.col.size = c.data.size := by
      rw [← c.col.window_length _ hr.kwf, hr.kval, hr.size]
      simp
    rw [CSR.new_ok _ _ _ _ _ ⟨c.data.size, 0, _⟩ n k hs g1 g2] at h1
    simp only [Except.ok.injEq] at h1
    subst h1
    rw [Buffer.copyE_ok E _ mem hm]
    simp [Storage.eqE, brefl]

omit [HasNone V] in
theorem elementsE_ok (E : V → V → Bool) (s : Storage V) (mem : List V) (d : List (Storage.Key × V))
    (h : s.elements mem = .ok d) : s.elementsE E mem = .ok d := by
  cases s with
  | dm m st =>
    simp only [Storage.elements, Storage.elementsE, bind_eq_ok] at h ⊢
    obtain ⟨es, h1, h2⟩ := h
    refine ⟨es, h1, ?_⟩
    clear h1
    induction es generalizing d with
    | nil => exact h2
    | cons e es ih =>
      simp only [List.mapM_cons, bind_eq_ok, pure_eq_ok] at h2 ⊢
      obtain ⟨x, ⟨v, hv, rfl⟩, xs, hxs, rfl⟩ := h2
      exact ⟨_, ⟨v, (getValE_ok E st mem e.2 v).2 hv, rfl⟩, xs, ih xs hxs, rfl⟩
  | _ => exact h

omit [HasNone V] in
/-- C93, `equal`.  The unspecified values do not matter: two storages are equal iff they have places for the same indices, with
values that are the same or `==`. -/
theorem C93_equal (E : V → V → Bool) (s t : Storage V) (mem mem' : List V) (hs : s.WF mem) (ht : t.WF mem')
    (hb : s.cls ≠ .buffer ∧ t.cls ≠ .buffer) (hp : s.cls = .flatcoo → ∀ n ∈ s.shape, 0 < n)
    (hp' : t.cls = .flatcoo → ∀ n ∈ t.shape, 0 < n) :
    ∃ b, s.equalE E mem t mem' = .ok b ∧
      (b = true ↔ (∀ ix, HasPlace s ix ↔ HasPlace t ix) ∧
        ∀ ix v w, HasPlace s ix → Reads s mem ix v → Reads t mem' ix w → v = w ∨ E v w = true) := by
  obtain ⟨es, e1, e2, e3⟩ := C44_elements s mem hs hb.1 hp
  obtain ⟨et, f1, f2, f3⟩ := C44_elements t mem' ht hb.2 hp'
  have hbox : ∀ (s : Storage V) (mem : List V), s.WF mem → ∀ ix, HasPlace s ix → InBox ix s.shape := by
    intro s mem hs ix hx
    cases s with
    | buffer b => exact hx
    | strided s => exact hx
    | dm m d => exact hx
    | coo c => obtain ⟨⟨rows, hr⟩, hm⟩ := hs; exact hr.rows_ok.inbox ix (((Sparse.coo hr).hasPlace ix).1 hx)
    | flatcoo c => exact hx.1
    | csr c => exact hx.1
  have inj : ∀ (s : Storage V) (mem : List V) ix v w, Reads s mem ix v → Reads s mem ix w → v = w := by
    intro s mem ix v w h1 h2
    rw [← h1.at_eq, h2.at_eq]
  refine ⟨_, ?_, (dictEqE_iff E (es.map fun e => (Storage.Key.tuple e.1, e.2)) (et.map fun e => (Storage.Key.tuple e.1, e.2))).trans ?_⟩
  · simp only [Storage.equalE, elementsE_ok E _ _ _ e1, elementsE_ok E _ _ _ f1, bind, Except.bind, pure, Except.pure]
  simp only [lastValue_sorted e2, lastValue_sorted f2, e3, f3]
  constructor
  · rintro ⟨h1, h2⟩
    refine ⟨fun ix => ⟨fun hx => ?_, fun hx => ?_⟩, fun ix v w hx hv hw => ?_⟩
    · have hi := hbox s mem hs ix hx
      obtain ⟨w, ⟨jx, e, hw⟩, _⟩ := h1 (.tuple ix) _ ⟨ix, rfl, hi, hs.reads ix hi, hx⟩
      cases e
      exact hw.2.2
    · have hi := hbox t mem' ht ix hx
      obtain ⟨w, jx, e, hw⟩ := h2 (.tuple ix) _ ⟨ix, rfl, hi, ht.reads ix hi, hx⟩
      cases e
      exact hw.2.2
    · have hi := hbox s mem hs ix hx
      obtain ⟨w', ⟨jx, e, hw'⟩, h⟩ := h1 (.tuple ix) v ⟨ix, rfl, hi, hv, hx⟩
      cases e
      rw [inj _ _ _ _ _ hw hw'.2.1]
      exact h
  · rintro ⟨h1, h2⟩
    refine ⟨?_, ?_⟩
    · rintro k v ⟨ix, rfl, hi, hv, hx⟩
      have hx' := (h1 ix).1 hx
      have hi' := hbox t mem' ht ix hx'
      exact ⟨_, ⟨ix, rfl, hi', ht.reads ix hi', hx'⟩, h2 ix _ _ hx hv (ht.reads ix hi')⟩
    · rintro k v ⟨ix, rfl, hi, hv, hx⟩
      have hx' := (h1 ix).2 hx
      have hi' := hbox s mem hs ix hx'
      exact ⟨_, ix, rfl, hi', hs.reads ix hi', hx'⟩

/-! ### A row or column of a `CSR` -/

omit [HasNone V] in
/-- C93, slices of a `CSR` with one axis.  They are built with `COO.fromobject`, so stored values `==` to the unspecified value
are left out. -/
theorem C93_row (E : V → V → Bool) (c : CSR V) (mem : List V) (h : (Storage.csr c).WF mem) (hp : ∀ n ∈ c.shape, 0 < n)
    (index : Index) (hv : ValidItems (items index) c.shape) (hl : (selShape (items index) c.shape).length = 1) :
    ∃ r m, (Storage.csr c).getItemE E mem index = .ok (.fresh (.coo r) m) ∧ (Storage.coo r).WF m ∧
      r.shape = selShape (items index) c.shape ∧ r.data.unspec = c.data.unspec ∧
      ∀ j v, InBox j r.shape → Reads (.csr c) mem (selSource (items index) c.shape j) v →
        Reads (.coo r) m j (Spec.put E c.data.unspec c.data.unspec v) ∧
        (HasPlace (.coo r) j ↔ E (Spec.put E c.data.unspec c.data.unspec v) c.data.unspec = false) := by
  obtain ⟨⟨rows, h⟩, hm⟩ := h
  have hne : selShape (items index) c.shape ≠ [] := by intro he; rw [he] at hl; simp at hl
  have hcne : c.shape ≠ [] := by
    intro he
    rw [he] at hl
    simp [selShape_nil] at hl
  set u := c.data.unspec with hu
  set f := fun ix => lookup rows (c.data.window mem) u ix with hf
  set K := keptE E c.shape (fun ix => Spec.put E u u (f ix)) u with hK
  have hb := cooBuildE_ok E c.shape hcne (c.getElem mem) u u f (fun ix hi => csr_getElem h mem hm ix hi)
  have hKs : SortedRows c.shape K := keptE_sorted _ _ _ _
  have hrep : (cooOf c.shape K (⟨K.length, 0, u⟩ : Buffer V)).Rep K := cooOf_rep _ hcne _ hKs _ rfl
  have hKm : Buffer.WF ⟨K.length, 0, u⟩ (K.map fun ix => Spec.put E u u (f ix)) := by simp [Buffer.WF]
  obtain ⟨nix, st, off, L, es, vals, h1, h2, h3, h4, rfl, h6, h7, h8, h9, h10, h11⟩ :=
    slice_core hKs hp ⟨K.length, 0, u⟩ (K.map fun ix => Spec.put E u u (f ix)) hKm rfl index hv hne
  have hs : ∀ j, InBox j (selShape (items index) c.shape) → InBox (selSource (items index) c.shape j) c.shape := by
    intro j hj
    obtain ⟨_, _, _, _, _, _, _, g⟩ := index_ok index c.shape (makeStrides c.shape) hp hv (makeStrides_length _)
    exact (g j hj).1
  have hsp : Sparse (.coo (cooOf (selShape (items index) c.shape) _ (⟨vals.length, 0, u⟩ : Buffer V))) _ _ :=
    .coo (cooOf_rep _ hne _ h8 _ (by simpa using h7))
  have hbw : Buffer.WF ⟨vals.length, 0, u⟩ vals := by simp [Buffer.WF]
  refine ⟨_, vals, ?_, hsp.wf _ hbw, rfl, rfl, fun j v hj hr => ?_⟩
  · have hg := hrep.getSlice_ok (K.map fun ix => Spec.put E u u (f ix)) _ st off L vals hne h4 h6 h7
    simp only [Storage.getItemE, h1, h2, h3, bind, Except.bind, hl, CSR.getSlice1E, ← hu, hb]
    simp only [← hK, hg, pure, Except.pure]
    rfl
  · have hj : InBox j (selShape (items index) c.shape) := hj
    have hrv : f (selSource (items index) c.shape j) = v := by
      rw [← hr.at_eq, (Sparse.csr h).at mem hm _ (hs j hj)]
    constructor
    · have hrd := (hsp.wf _ hbw).reads j hj
      rw [hsp.at _ hbw j hj] at hrd
      simp only [cooOf] at hrd
      rw [buffer_window_map _ _ _ rfl, h10 j hj, buffer_window_map _ _ _ (by simp), lookup_map hKs.nodup] at hrd
      have e : (if selSource (items index) c.shape j ∈ K then Spec.put E u u (f (selSource (items index) c.shape j)) else u)
          = Spec.put E u u v := by
        rw [hrv]
        simp only [hK, mem_keptE, hrv, hs j hj, true_and]
        by_cases hx : E (Spec.put E u u v) u = false
        · rw [if_pos hx]
        · rw [if_neg hx]
          by_cases hy : E v u = true
          · simp [Spec.put, hy]
          · simp [Spec.put, hy] at hx
      rw [e] at hrd
      exact hrd
    · rw [hsp.hasPlace, h9 j hj, hK, mem_keptE, hrv]
      simp only [hs j hj, true_and]

/-- C93.  With equality in the place of `==` the functions of Model/PyEq.lean are those of Model/Storage.lean. -/
theorem C93_same :
    (∀ (s : Storage V) mem u, s.copyE Spec.same mem u = s.copy mem u) ∧
    (∀ (s : Storage V) mem t mem', s.eqE Spec.same mem t mem' = s.eq mem t mem') ∧
    (∀ (s : Storage V) mem t mem', s.equalE Spec.same mem t mem' = s.equal mem t mem') ∧
    (∀ (s : Storage V) mem index, s.getItemE Spec.same mem index = s.getItem mem index) ∧
    (∀ (s : Storage V) mem, s.elementsE Spec.same mem = s.elements mem) ∧
    (∀ cls (src : Src V) u, fromObjectE Spec.same cls src u = fromObject cls src u) ∧
    ∀ (src : Src V) d p cls u, fromObjectDME Spec.same src d p cls u = fromObjectDM src d p cls u :=
  ⟨copyE_same, eqE_same, equalE_same, getItemE_same, elementsE_same, fromObjectE_same, fun src d p cls u => by
    simp only [fromObjectDME, fromObjectDM, getValueE_same, dmBuildE_same]⟩

omit [HasNone V] in
/-- C93.  Elements are read without `==`: the readings (`Reads`) in these theorems are those with any relation. -/
theorem C93_reads (E : V → V → Bool) (s : Storage V) (mem : List V) (ix : List Int) (v : V) :
    Reads s mem ix v ↔ s.getItemE E mem (.tuple (ix.map .int)) = .ok (.val v) :=
  (getItemE_val E s mem _ v).symm

/-! ### NaN -/

/-- C93, an unspecified value that no element is `==` to, as NaN.  Every element of the array becomes a stored element of a
`COO`, `FlatCOO` or `CSR`; those `==` to the unspecified value of the source have been replaced. -/
theorem C93_nan_stored (E : V → V → Bool) (cls : Cls) (hcl : Spec.SparseCls cls) (src : Src V) (shape : List Nat)
    (a : List Int → V) (h : Spec.IsArray src shape a) (hne : shape ≠ []) (hpos : ∀ n ∈ shape, 0 < n)
    (unspec : Option V) (u : V) (hu : u = unspec.getD src.unspec) (hnan : ∀ v, E v u = false)
    (hs : ¬ Spec.Shortcut cls src unspec) (h2 : cls = .csr → shape.length = 2) :
    ∃ r m, fromObjectE E cls src unspec = .ok (.fresh r m) ∧ r.WF m ∧ r.cls = cls ∧ r.shape = shape ∧ r.unspec = u ∧
      (∀ ix, InBox ix shape → Reads r m ix (if E (a ix) src.unspec = true then u else a ix)) ∧
      ∀ ix, HasPlace r ix ↔ InBox ix shape := by
  obtain ⟨ix0, hi0⟩ := exists_inBox hpos
  obtain ⟨r, m, k1, k2, k3, k4, k5, k6, k7⟩ := C93_fromobject E cls src shape a h hne unspec u hu hs
    ⟨by rintro rfl; exact hcl.elim, fun hc => ⟨h2 hc, ix0, hi0, hnan _⟩⟩
  refine ⟨r, m, k1, k2, k3, k4, k5, fun ix hi => ?_, fun ix => ?_⟩
  · have := k6 ix hi
    rw [Spec.result, if_pos hcl, Spec.shown, hnan] at this
    simpa [Spec.put] using this
  · rw [k7 hcl, hnan]
    simp

/-- C93, a sparse object whose unspecified value is not `==` to itself, as NaN.  `copy(unspecified=u)` reads `u` where nothing
is stored; `as_COO(unspecified=u)`, and so on, read the old unspecified value there and store it. -/
theorem C93_nan_kept (E : V → V → Bool) (s : Storage V) (mem : List V) (h : s.WF mem) (hsp : Spec.SparseCls s.cls)
    (hne : s.shape ≠ []) (hnan : ∀ v, E v s.unspec = false ∧ E s.unspec v = false) (u : V) (ix : List Int)
    (hi : InBox ix s.shape) (hx : ¬ HasPlace s ix) (cls : Cls) (hcl : Spec.SparseCls cls) (h2 : cls = .csr → s.shape.length = 2) :
    (∃ r m, s.copyE E mem (some u) = .ok (r, m) ∧ Reads r m ix u) ∧
    ∃ r m, fromObjectE E cls (.store s mem) (some u) = .ok (.fresh r m) ∧ r.unspec = u ∧ HasPlace r ix ∧
      Reads r m ix s.unspec := by
  obtain ⟨rows, b, hrs, hm⟩ := sparse_of_wf h (by cases s <;> simp_all [Spec.SparseCls, Storage.cls])
  have hun : s.at mem ix = s.unspec := by
    rw [hrs.at mem hm ix hi, lookup_none _ _ (fun hy => hx ((hrs.hasPlace ix).2 hy)), hrs.unspec]
  have hrd := h.reads ix hi
  rw [hun] at hrd
  constructor
  · obtain ⟨r, m, k1, _, _, _, _, _, k7⟩ := C93_copy E s mem h (by intro e; rw [e] at hsp; exact hsp) (some u) u rfl
    refine ⟨r, m, k1, ?_⟩
    have hst : s.cls ≠ .strided := by intro e; rw [e] at hsp; exact hsp
    simpa [Spec.copied, hst, hx] using k7 ix _ hi hrd
  · obtain ⟨r, m, k1, _, _, _, k5, k6, k7⟩ := C93_fromobject E cls (.store s mem) s.shape (s.at mem)
      ⟨h, rfl, fun ix hi => h.reads ix hi⟩ hne (some u) u rfl (fun hs => by simp [Spec.Shortcut] at hs)
      ⟨by rintro rfl; exact hcl.elim, fun hc => ⟨h2 hc, ix, hi, by
        simp [Spec.put, Src.unspec, hun, (hnan s.unspec).1, (hnan u).2]⟩⟩
    have hp : Spec.put E (Src.store s mem).unspec u (s.at mem ix) = s.unspec := by
      simp [Spec.put, Src.unspec, hun, (hnan s.unspec).1]
    refine ⟨r, m, k1, k5, (k7 hcl ix).2 ⟨hi, by rw [hp]; exact (hnan u).2⟩, ?_⟩
    have := k6 ix hi
    rw [Spec.result, if_pos hcl, Spec.shown, hp, (hnan u).2] at this
    simpa using this

/-! ### Cases -/

/-- The values of the cases: the items `0` and `100` are `==` (as `0` and `0.0`), `7` is NaN. -/
def Spec.sampleE (a b : Option Int) : Bool :=
  a ≠ some 7 && b ≠ some 7 && (a = b || (a = some 0 && b = some 100) || (a = some 100 && b = some 0))

/-- Cases of C93 with the list `[[0, 1], [100, 7]]`. -/
example :
    fromObjectE Spec.sampleE .coo (.nested (.seq [.seq [.leaf (some 0), .leaf (some 1)], .seq [.leaf (some 100), .leaf (some 7)]]))
      (some (some 0)) = .ok (.fresh (.coo ⟨[2, 2], ⟨[2, 2], [2, 1], ⟨4, 0, none⟩⟩, [some 0, some 1, some 1, some 1], ⟨2, 0, some 0⟩⟩)
        [some 1, some 7]) ∧
    (∃ c, fromObjectE Spec.sampleE .coo
        (.nested (.seq [.seq [.leaf (some 0), .leaf (some 1)], .seq [.leaf (some 100), .leaf (some 7)]]))
      (some (some 7)) = .ok (.fresh (.coo c) [some 0, some 1, some 100, some 7])) ∧
    Spec.Fits Spec.sampleE .csr [2, 2] none (some 0) (fun ix => if ix = [1, 1] then some 7 else some 0) := by
  refine ⟨by decide +kernel, ?_, by simp, fun _ => ⟨rfl, [1, 1], by simp [InBox], by decide⟩⟩
  exact ⟨⟨[2, 2], ⟨[2, 4], [4, 1], ⟨8, 0, none⟩⟩, [some 0, some 0, some 1, some 1, some 0, some 1, some 0, some 1],
    ⟨4, 0, some 7⟩⟩, by decide +kernel⟩

/-- A case of C93: a `COO` with one stored element, `1`, and NaN as the unspecified value.  Its copy is not `==` to it, but
`equal`.  `copy` replaces NaN, `as_COO` keeps it. -/
example :
    let s : Storage (Option Int) := .coo ⟨[2], ⟨[1, 1], [1, 1], ⟨1, 0, none⟩⟩, [some 0], ⟨1, 0, some 7⟩⟩
    s.copyE Spec.sampleE [some 1] none = .ok (s, [some 1]) ∧ s.eqE Spec.sampleE [some 1] s [some 1] = false ∧
    s.equalE Spec.sampleE [some 1] s [some 1] = .ok true ∧
    (∃ r m, s.copyE Spec.sampleE [some 1] (some (some 0)) = .ok (r, m) ∧ r.getVal m [1] = .ok (some 0)) ∧
    ∃ r m, fromObjectE Spec.sampleE .coo (.store s [some 1]) (some (some 0)) = .ok (.fresh r m) ∧
      r.getVal m [1] = .ok (some 7) := by
  refine ⟨by decide +kernel, by decide +kernel, by decide +kernel, ?_, ?_⟩
  · exact ⟨.coo ⟨[2], ⟨[1, 1], [1, 1], ⟨1, 0, none⟩⟩, [some 0], ⟨1, 0, some 0⟩⟩, [some 1], by decide +kernel, by decide +kernel⟩
  · exact ⟨.coo ⟨[2], ⟨[1, 2], [2, 1], ⟨2, 0, none⟩⟩, [some 0, some 1], ⟨2, 0, some 0⟩⟩, [some 1, some 7], by decide +kernel,
      by decide +kernel⟩

/-- A case of C93: a row of a `CSR` leaves out a stored value that is `==` to the unspecified value. -/
example :
    let s : Storage (Option Int) :=
      .csr ⟨[1, 3], ⟨2, 0, none⟩, [some 0, some 2], ⟨2, 0, none⟩, [some 0, some 2], ⟨2, 0, some 0⟩⟩
    s.getVal [some 100, some 5] [0, 0] = .ok (some 100) ∧
    ∃ c, s.getItemE Spec.sampleE [some 100, some 5] (.tuple [.int 0, .slice ⟨none, none, none⟩]) = .ok (.fresh (.coo c) [some 5]) := by
  refine ⟨by decide +kernel, ⟨[3], ⟨[1, 1], [1, 1], ⟨1, 0, none⟩⟩, [some 2], ⟨1, 0, some 0⟩⟩, by decide +kernel⟩

end Gcs
