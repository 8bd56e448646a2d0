import Verif.Model.Objects
import Verif.Props.Ragged
import Verif.Props.Diophantine

/-!
# C68: lists and storage objects as elements

`get_value(seq, ())` is `seq` itself, whatever it is (gcs/storage.py:86-87), and a list that is nested deeper than its
first items is found as an item.  So lists and storage objects become elements of arrays.
-/

namespace Gcs

open Spec

variable {V : Type}

/-- What a scalar or a list is as an element: itself. -/
def Spec.itself (O : Objects V) : Nested V → V
  | .leaf v => v
  | .seq items => O.list items

theorem asValue_itself (O : Objects V) (n : Nested V) : n.asValue O = Spec.itself O n := by
  cases n <;> rfl

/-! ### Agreement with the model without such values -/

theorem mapM_mono {α β : Type} (f g : α → PyM β) (l : List α) (r : List β) (hfg : ∀ x ∈ l, ∀ y, f x = .ok y → g x = .ok y)
    (h : l.mapM f = .ok r) : l.mapM g = .ok r := by
  induction l generalizing r with
  | nil => exact h
  | cons a l ih =>
    rw [List.mapM_cons] at h ⊢
    simp only [bind_eq_ok, pure_eq_ok] at h
    obtain ⟨y, h1, ys, h2, h3⟩ := h
    rw [hfg a (by simp) y h1]
    simp only [bind, Except.bind]
    rw [ih ys (fun x hx => hfg x (by simp [hx])) h2]
    simp only [pure, Except.pure, ← h3]

theorem walk_mono (O : Objects V) (n : Nested V) (ix : List Int) (v : V) (h : n.walk ix = .ok v) : n.walkObj O ix = .ok v := by
  induction ix generalizing n with
  | nil =>
    cases n with
    | leaf w => exact h
    | seq items => cases h
  | cons i ix ih =>
    cases n with
    | leaf w => cases h
    | seq items =>
      simp only [Nested.walk, bind_eq_ok] at h
      obtain ⟨x, h1, h2⟩ := h
      simp only [Nested.walkObj, h1, bind, Except.bind]
      exact ih x h2

theorem getValue_mono (O : Objects V) (n : Nested V) (ix : List Int) (v : V) (h : n.getValue ix = .ok v) :
    n.getValueObj O ix = .ok v := by
  cases n with
  | leaf w =>
    cases ix with
    | nil => exact h
    | cons i ix => cases h
  | seq items =>
    cases ix with
    | nil => cases h
    | cons i ix => exact walk_mono O _ _ v h

section

variable [DecidableEq V]

theorem getVal_mono (O : Objects V) (s : Storage V) (mem : List V) (ix : List Int) (hne : ix ≠ []) (v : V)
    (h : s.getVal mem ix = .ok v) : s.getValueObj O mem ix = .ok v := by
  cases ix with
  | nil => exact absurd rfl hne
  | cons i ix =>
    simp only [Storage.getVal, bind_eq_ok] at h
    obtain ⟨r, h1, h2⟩ := h
    simp only [Storage.getValueObj, h1, bind, Except.bind]
    cases r with
    | val w => exact h2
    | view s => cases h2
    | fresh s m => cases h2

theorem src_mono (O : Objects V) (seq : Src V) (ix : List Int) (v : V) (h : seq.getValue ix = .ok v) :
    seq.getValueObj O ix = .ok v := by
  cases seq with
  | nested n => exact getValue_mono O n ix v h
  | store s mem =>
    cases ix with
    | nil => cases h
    | cons i ix => exact getVal_mono O s mem _ (by simp) v h

theorem buildFlat_mono (cls : Cls) (shape : List Nat) (f g : List Int → PyM V) (su u : V)
    (hfg : ∀ ix v, f ix = .ok v → g ix = .ok v) (r : Storage V × List V) (h : buildFlat cls shape f su u = .ok r) :
    buildFlat cls shape g su u = .ok r := by
  have m1 : ∀ vs, ((indexProduct shape).mapM fun ix => do
      let v ← f ix
      return if v = su then u else v) = .ok vs → ((indexProduct shape).mapM fun ix => do
      let v ← g ix
      return if v = su then u else v) = .ok vs := by
    intro vs
    apply mapM_mono
    intro ix _ y hy
    simp only [bind_eq_ok] at hy
    obtain ⟨v, h1, h2⟩ := hy
    simp only [hfg ix v h1, bind, Except.bind]
    exact h2
  have m2 : ∀ vs, ((indexProduct shape).mapM fun ix => do
      let v ← f ix
      return (ix, if v = su then u else v)) = .ok vs → ((indexProduct shape).mapM fun ix => do
      let v ← g ix
      return (ix, if v = su then u else v)) = .ok vs := by
    intro vs
    apply mapM_mono
    intro ix _ y hy
    simp only [bind_eq_ok] at hy
    obtain ⟨v, h1, h2⟩ := hy
    simp only [hfg ix v h1, bind, Except.bind]
    exact h2
  have b1 : ∀ x, bufferBuild shape f su u = .ok x → bufferBuild shape g su u = .ok x := by
    intro x hx
    rw [bufferBuild, bind_eq_ok] at hx
    obtain ⟨vs, h1, h2⟩ := hx
    rw [bufferBuild, m1 vs h1]
    exact h2
  have b2 : ∀ x, cooBuild shape f su u = .ok x → cooBuild shape g su u = .ok x := by
    intro x hx
    rw [cooBuild, bind_eq_ok] at hx
    obtain ⟨vs, h1, h2⟩ := hx
    rw [cooBuild, m2 vs h1]
    exact h2
  have b3 : ∀ x, flatBuild shape f su u = .ok x → flatBuild shape g su u = .ok x := by
    intro x hx
    rw [flatBuild, bind_eq_ok] at hx
    obtain ⟨vs, h1, h2⟩ := hx
    rw [flatBuild, m2 vs h1]
    exact h2
  cases cls with
  | dm => exact h
  | buffer =>
    simp only [buildFlat, bind_eq_ok] at h
    obtain ⟨x, h1, h2⟩ := h
    simp only [buildFlat, b1 x h1, bind, Except.bind]
    exact h2
  | strided =>
    rw [buildFlat, stridedBuild, bind_eq_ok] at h
    obtain ⟨x, h1, h2⟩ := h
    rw [bind_eq_ok] at h1
    obtain ⟨y, h3, h4⟩ := h1
    simp only [buildFlat, stridedBuild, b1 y h3]
    rw [bind_eq_ok]
    exact ⟨x, h4, h2⟩
  | coo =>
    simp only [buildFlat, bind_eq_ok] at h
    obtain ⟨x, h1, h2⟩ := h
    simp only [buildFlat, b2 x h1, bind, Except.bind]
    exact h2
  | flatcoo =>
    simp only [buildFlat, bind_eq_ok] at h
    obtain ⟨x, h1, h2⟩ := h
    simp only [buildFlat, b3 x h1, bind, Except.bind]
    exact h2
  | csr =>
    simp only [buildFlat, csrBuild, bind_eq_ok] at h
    obtain ⟨x, ⟨y, h1, h2⟩, h3⟩ := h
    simp only [buildFlat, csrBuild, b2 y h1, bind, Except.bind]
    rw [h2]
    exact h3

theorem dmBuildWith_mono (f g : List Int → PyM V)
    (hfg : ∀ ix v, f ix = .ok v → g ix = .ok v) (inner : List Nat → (List Int → PyM V) → PyM (Storage V × List V))
    (hin : ∀ sh f g, (∀ ix v, f ix = .ok v → g ix = .ok v) → ∀ r, inner sh f = .ok r → inner sh g = .ok r)
    (isBuffer : Bool) (shape : List Nat) (dims part : Option (List Nat)) (r : Storage V × List V)
    (h : dmBuildWith inner isBuffer shape dims part f = .ok r) : dmBuildWith inner isBuffer shape dims part g = .ok r := by
  rw [dmBuildWith, bind_eq_ok] at h
  obtain ⟨p, h1, h2⟩ := h
  rw [dmBuildWith, h1]
  simp only [bind_eq_ok] at h2
  obtain ⟨x, h3, h4⟩ := h2
  have := hin _ _ (fun rindex => do
    let ix ← promoteIndex p.2.2.1 p.1 p.2.2.2.1 p.2.2.2.2 rindex
    g ix) (by
      intro ix v hv
      simp only [bind_eq_ok] at hv ⊢
      obtain ⟨y, hy, hv⟩ := hv
      exact ⟨y, hy, hfg _ _ hv⟩) x h3
  simp only [bind_eq_ok]
  exact ⟨p, rfl, x, this, h4⟩

theorem dmBuild_mono (cls : Cls) (shape : List Nat) (dims part : Option (List Nat)) (f g : List Int → PyM V) (su u : V)
    (hfg : ∀ ix v, f ix = .ok v → g ix = .ok v) (r : Storage V × List V) (h : dmBuild cls shape dims part f su u = .ok r) :
    dmBuild cls shape dims part g su u = .ok r := by
  have flat : ∀ c sh (f g : List Int → PyM V), (∀ ix v, f ix = .ok v → g ix = .ok v) → ∀ r,
      buildFlat c sh f su u = .ok r → buildFlat c sh g su u = .ok r :=
    fun c sh f g hfg r h => buildFlat_mono c sh f g su u hfg r h
  cases cls with
  | dm =>
    refine dmBuildWith_mono f g hfg (fun rshape value' =>
      dmBuildWith (fun rshape' value'' => buildFlat .strided rshape' value'' su u) false rshape none none value')
      (fun sh f g hfg r h => ?_) _ _ _ _ r h
    exact dmBuildWith_mono f g hfg _ (flat .strided) _ _ _ _ r h
  | buffer => exact dmBuildWith_mono f g hfg _ (flat .buffer) _ _ _ _ r h
  | strided => exact dmBuildWith_mono f g hfg _ (flat .strided) _ _ _ _ r h
  | coo => exact dmBuildWith_mono f g hfg _ (flat .coo) _ _ _ _ r h
  | flatcoo => exact dmBuildWith_mono f g hfg _ (flat .flatcoo) _ _ _ _ r h
  | csr => exact dmBuildWith_mono f g hfg _ (flat .csr) _ _ _ _ r h

/-- C68, first part.  Where no list and no storage object becomes an element, `fromobject` is as in the other claims. -/
theorem C68_agrees [HasNone V] (O : Objects V) (cls : Cls) (seq : Src V) (u : Option V) (r : Made V)
    (h : fromObject cls seq u = .ok r) : fromObjectObj O cls seq u = .ok r := by
  have hb : ∀ c su w x, buildFlat c seq.shape seq.getValue su w = .ok x →
      buildFlat c seq.shape (seq.getValueObj O) su w = .ok x :=
    fun c su w x => buildFlat_mono c seq.shape _ _ su w (src_mono O seq) x
  have hd : ∀ su w x, dmBuild .strided seq.shape none none seq.getValue su w = .ok x →
      dmBuild .strided seq.shape none none (seq.getValueObj O) su w = .ok x :=
    fun su w x => dmBuild_mono .strided seq.shape none none _ _ su w (src_mono O seq) x
  cases u with
  | some w =>
    cases cls <;> simp only [fromObject] at h <;> simp only [fromObjectObj] <;> rw [bind_eq_ok] at h ⊢ <;>
      obtain ⟨y, h1, h2⟩ := h <;> first | exact ⟨y, hb _ _ _ y h1, h2⟩ | exact ⟨y, hd _ _ y h1, h2⟩
  | none =>
    cases seq with
    | nested n =>
      cases cls <;> simp only [fromObject] at h <;> simp only [fromObjectObj] <;> rw [bind_eq_ok] at h ⊢ <;>
        obtain ⟨y, h1, h2⟩ := h <;> first | exact ⟨y, hb _ _ _ y h1, h2⟩ | exact ⟨y, hd _ _ y h1, h2⟩
    | store s mem =>
      cases cls <;> cases s <;> simp only [fromObject] at h <;> simp only [fromObjectObj] <;> first
        | exact h
        | (rw [bind_eq_ok] at h ⊢
           obtain ⟨y, h1, h2⟩ := h
           first | exact ⟨y, hb _ _ _ y h1, h2⟩ | exact ⟨y, hd _ _ y h1, h2⟩)

theorem C68_agrees_dm [HasNone V] (O : Objects V) (seq : Src V) (dims part : Option (List Nat)) (cls : Cls) (u : Option V)
    (r : Storage V × List V) (h : fromObjectDM seq dims part cls u = .ok r) :
    fromObjectDMObj O seq dims part cls u = .ok r :=
  dmBuild_mono cls _ dims part _ _ _ _ (src_mono O seq) r h

end

/-! ### Assignments -/

theorem writeAll_mono {P : Type} (w1 : List V → P → V → Wr V) (f g : List V → List Int → PyM V)
    (hfg : ∀ m vi v, f m vi = .ok v → g m vi = .ok v) (es : List (List Int × P)) (mem : List V)
    (h : (writeAll w1 f es mem).err = none) : writeAll w1 g es mem = writeAll w1 f es mem := by
  induction es generalizing mem with
  | nil => rfl
  | cons e es ih =>
    obtain ⟨vi, p⟩ := e
    simp only [writeAll] at h ⊢
    cases hf : f mem vi with
    | error x => rw [hf] at h; cases h
    | ok v =>
      rw [hf] at h
      rw [hfg mem vi v hf]
      simp only at h ⊢
      cases hw : (w1 mem p v).err with
      | some x => rfl
      | none =>
        rw [hw] at h
        exact ih _ h

theorem setItem_mono (s : Storage V) (mem : List V) (index : Index) (f g : List V → List Int → PyM V)
    (hfg : ∀ m vi v, f m vi = .ok v → g m vi = .ok v) (h : (s.setItem mem index f).err = none) :
    s.setItem mem index g = s.setItem mem index f := by
  cases s with
  | buffer b =>
    simp only [Storage.setItem] at h ⊢
    split
    · rfl
    · next i hi =>
      rw [hi] at h
      simp only at h
      cases hf : f mem [] with
      | error x => rw [hf] at h; cases h
      | ok v => rw [hfg mem [] v hf]
  | strided s =>
    simp only [Storage.setItem, Strided.setItem] at h ⊢
    split
    · rfl
    · next es he => rw [he] at h; exact writeAll_mono _ f g hfg es mem h
  | coo c =>
    simp only [Storage.setItem] at h ⊢
    split
    · rfl
    · next es he => rw [he] at h; exact writeAll_mono _ f g hfg es mem h
  | flatcoo c =>
    simp only [Storage.setItem] at h ⊢
    split
    · rfl
    · next es he => rw [he] at h; exact writeAll_mono _ f g hfg es mem h
  | csr c =>
    simp only [Storage.setItem] at h ⊢
    split
    · rfl
    · next es he => rw [he] at h; exact writeAll_mono _ f g hfg es mem h
  | dm m data =>
    simp only [Storage.setItem] at h ⊢
    split
    · rfl
    · next es he => rw [he] at h; exact writeAll_mono _ f g hfg es mem h

/-- C68, second part.  An assignment that needs no list and no storage object as an element is as in the other claims. -/
theorem C68_assign_agrees [DecidableEq V] (O : Objects V) (s : Storage V) (mem : List V) (index : Index) :
    (∀ n, (s.assign mem index n).err = none → s.assignObj O mem index n = s.assign mem index n) ∧
    (∀ t tmem, (s.assignStore mem index t tmem).err = none →
      s.assignStoreObj O mem index t tmem = s.assignStore mem index t tmem) ∧
    ∀ t, (s.assignShared mem index t).err = none → s.assignSharedObj O mem index t = s.assignShared mem index t := by
  refine ⟨fun n h => setItem_mono s mem index _ _ (fun _ vi v hv => getValue_mono O n vi v hv) h,
    fun t tmem h => setItem_mono s mem index _ _ (fun _ vi v hv => ?_) h,
    fun t h => setItem_mono s mem index _ _ (fun m vi v hv => ?_) h⟩
  · split at hv
    · cases hv
    · next hne => exact getVal_mono O t tmem vi hne v hv
  · split at hv
    · cases hv
    · next hne => exact getVal_mono O t m vi hne v hv

theorem writeAll_ext {P : Type} (w1 : List V → P → V → Wr V) (f g : List V → List Int → PyM V)
    (es : List (List Int × P)) (hfg : ∀ m, ∀ e ∈ es, f m e.1 = g m e.1) (mem : List V) :
    writeAll w1 f es mem = writeAll w1 g es mem := by
  induction es generalizing mem with
  | nil => rfl
  | cons e es ih =>
    obtain ⟨vi, p⟩ := e
    have := hfg mem (vi, p) (by simp)
    simp only at this
    simp only [writeAll, this]
    cases g mem vi with
    | error x => rfl
    | ok v =>
      simp only
      cases (w1 mem p v).err with
      | some x => rfl
      | none => exact ih (fun m e he => hfg m e (by simp [he])) _

theorem normalize_all_ints (ix : List Int) (shape : List Nat) (hl : ix.length = shape.length) (nix : List NIx)
    (h : normalizeItems (ix.map .int) shape = .ok nix) :
    nix.length = shape.length ∧ ∀ x ∈ nix, ∃ i, x = NIx.int i := by
  induction ix generalizing shape nix with
  | nil =>
    cases shape with
    | nil => cases h; simp
    | cons n shape => simp at hl
  | cons i ix ih =>
    cases shape with
    | nil => simp at hl
    | cons n shape =>
      simp only [List.map_cons, normalizeItems, bind_eq_ok, pure_eq_ok] at h
      obtain ⟨m, _, r, h2, rfl⟩ := h
      have := ih shape (by simpa using hl) r h2
      refine ⟨by simp [this.1], fun x hx => ?_⟩
      rcases List.mem_cons.1 hx with rfl | hx
      · exact ⟨m, rfl⟩
      · exact this.2 x hx

theorem indexStrided_all_ints (nix : List NIx) (hn : ∀ x ∈ nix, ∃ i, x = NIx.int i) (shape : List Nat) (strides : List Int) :
    ∃ off, indexStrided nix shape strides = .ok ([], [], off) := by
  induction nix generalizing shape strides with
  | nil => exact ⟨0, rfl⟩
  | cons x nix ih =>
    obtain ⟨i, rfl⟩ := hn x (by simp)
    cases shape with
    | nil => exact ⟨0, rfl⟩
    | cons n shape =>
      cases strides with
      | nil => exact ⟨0, rfl⟩
      | cons d strides =>
        obtain ⟨off, h⟩ := ih (fun x hx => hn x (by simp [hx])) shape strides
        exact ⟨d * i + off, by simp only [indexStrided, h, bind, Except.bind, pure, Except.pure]⟩

theorem mapM_mem {α β : Type} (f : α → PyM β) (l : List α) (r : List β) (h : l.mapM f = .ok r) (y : β) (hy : y ∈ r) :
    ∃ x ∈ l, f x = .ok y := by
  induction l generalizing r with
  | nil => cases h; cases hy
  | cons a l ih =>
    rw [List.mapM_cons] at h
    simp only [bind_eq_ok, pure_eq_ok] at h
    obtain ⟨z, h1, zs, h2, rfl⟩ := h
    rcases List.mem_cons.1 hy with rfl | hy
    · exact ⟨a, by simp, h1⟩
    · obtain ⟨x, hx, h3⟩ := ih zs h2 hy
      exact ⟨x, by simp [hx], h3⟩

theorem sliceEntries_none {P : Type} (entries : PyM (List (List Int × P))) (selfShape : List Nat) (off : Int)
    (es : List (List Int × P)) (h : sliceEntries entries selfShape [] [] off = .ok es) : ∀ e ∈ es, e.1 = [] := by
  rw [sliceEntries, bind_eq_ok] at h
  obtain ⟨data, h1, h2⟩ := h
  simp only [bind_eq_ok, pure_eq_ok] at h2
  obtain ⟨es0, _, rs, h3, rfl⟩ := h2
  intro e he
  simp only [List.mem_filterMap, id] at he
  obtain ⟨x, hx, rfl⟩ := he
  have hsolve : ∀ p, solveIndexData p [] data = .ok (some []) := by
    intro p
    have := (C15_solve_index_no_axes p).1
    rw [solveIndex, h1] at this
    exact this
  obtain ⟨a, _, h4⟩ := mapM_mem _ es0 rs h3 _ hx
  simp only [hsolve, bind_eq_ok, pure_eq_ok] at h4
  obtain ⟨p, _, q, hq, h5⟩ := h4
  cases hq
  cases h5
  rfl

/-- An assignment with an int on every axis asks for the value at the empty index only. -/
theorem setItem_element (s : Storage V) (mem : List V) (ix : List Int) (hl : ix.length = s.shape.length)
    (f g : List V → List Int → PyM V) (hfg : ∀ m, f m [] = g m []) :
    s.setItem mem (.tuple (ix.map .int)) f = s.setItem mem (.tuple (ix.map .int)) g := by
  have key : ∀ {P : Type} (entries : PyM (List (List Int × P))) (shape : List Nat) (es : List (List Int × P)),
      ix.length = shape.length → (do
        let nix ← normalizeItems (ix.map .int) shape
        let (sh, st, offset) ← indexStrided nix shape (makeStrides shape)
        sliceEntries entries shape sh st offset) = .ok es → ∀ e ∈ es, e.1 = [] := by
    intro P entries shape es hl h
    rw [bind_eq_ok] at h
    obtain ⟨nix, h1, h2⟩ := h
    obtain ⟨off, h3⟩ := indexStrided_all_ints nix (normalize_all_ints ix shape hl nix h1).2 shape (makeStrides shape)
    rw [h3] at h2
    exact sliceEntries_none _ _ _ _ h2
  cases s with
  | buffer b =>
    simp only [Storage.setItem, hfg]
  | strided s =>
    simp only [Storage.setItem, Strided.setItem, normalizeIndex]
    split
    · rfl
    · next es he =>
      apply writeAll_ext
      rw [bind_eq_ok] at he
      obtain ⟨nix, h1, h2⟩ := he
      obtain ⟨off, h3⟩ := indexStrided_all_ints nix (normalize_all_ints ix s.shape hl nix h1).2 s.shape s.strides
      rw [h3] at h2
      simp only [bind, Except.bind, Strided.sliceEntries, indexProduct] at h2
      intro m e he
      cases h2
      simp at he
      subst he
      exact hfg m
  | coo c =>
    simp only [Storage.setItem]
    split
    · rfl
    · next es he =>
      refine writeAll_ext _ _ _ _ (fun m e hm => ?_) _
      rw [key _ _ es hl he e hm, hfg]
  | flatcoo c =>
    simp only [Storage.setItem]
    split
    · rfl
    · next es he =>
      refine writeAll_ext _ _ _ _ (fun m e hm => ?_) _
      rw [key _ _ es hl he e hm, hfg]
  | csr c =>
    simp only [Storage.setItem]
    split
    · rfl
    · next es he =>
      refine writeAll_ext _ _ _ _ (fun m e hm => ?_) _
      rw [key _ _ es hl he e hm, hfg]
  | dm m data =>
    simp only [Storage.setItem]
    split
    · rfl
    · next es he =>
      refine writeAll_ext _ _ _ _ (fun m e hm => ?_) _
      rw [key _ _ es hl he e hm, hfg]

/-- C68, third part.  Assignment to one element: `get_value(value, ())` is the value itself.  A list or a storage
object is stored as it is, in every class. -/
theorem C68_element_assign [DecidableEq V] (O : Objects V) (s : Storage V) (mem : List V) (ix : List Int)
    (hl : ix.length = s.shape.length) :
    (∀ n, s.assignObj O mem (.tuple (ix.map .int)) n = s.assign mem (.tuple (ix.map .int)) (.leaf (itself O n))) ∧
    ∀ t tmem, s.assignStoreObj O mem (.tuple (ix.map .int)) t tmem
      = s.assign mem (.tuple (ix.map .int)) (.leaf (O.store t tmem)) := by
  refine ⟨fun n => setItem_element s mem ix hl _ _ fun _ => ?_, fun t tmem => setItem_element s mem ix hl _ _ fun _ => rfl⟩
  cases n <;> rfl

theorem items_ints (ix : List Int) (shape : List Nat) (h : InBox ix shape) :
    ValidItems (ix.map .int) shape ∧ selShape (ix.map .int) shape = [] ∧ selSource (ix.map .int) shape [] = ix := by
  induction ix generalizing shape with
  | nil => cases shape <;> simp_all [ValidItems, selShape, selSource, InBox]
  | cons i ix ih =>
    cases shape with
    | nil => cases h
    | cons n shape =>
      obtain ⟨h1, h2⟩ := h
      obtain ⟨a, b, c⟩ := ih shape h2
      refine ⟨a, b, ?_⟩
      simp only [List.map_cons, selSource, c, Int.emod_eq_of_lt h1.1 h1.2]

/-- C68, fourth part.  After `s[i, j] = [v, w]` on a `Strided` the element is that list; the same for a storage object. -/
theorem C68_strided_element [DecidableEq V] (O : Objects V) (s : Strided V) (mem : List V) (h : s.WF mem)
    (hd : DistinctAddresses s.shape s.strides) (hp : ∀ n ∈ s.shape, 0 < n) (ix : List Int) (hi : InBox ix s.shape) :
    (∀ n, ∃ mem', (Storage.strided s).assignObj O mem (.tuple (ix.map .int)) n = ⟨mem', none⟩ ∧
      Reads (.strided s) mem' ix (itself O n) ∧
      ∀ iy v, InBox iy s.shape → iy ≠ ix → Reads (.strided s) mem iy v → Reads (.strided s) mem' iy v) ∧
    ∀ t tmem, ∃ mem', (Storage.strided s).assignStoreObj O mem (.tuple (ix.map .int)) t tmem = ⟨mem', none⟩ ∧
      Reads (.strided s) mem' ix (O.store t tmem) ∧
      ∀ iy v, InBox iy s.shape → iy ≠ ix → Reads (.strided s) mem iy v → Reads (.strided s) mem' iy v := by
  obtain ⟨e1, e2, e3⟩ := items_ints ix s.shape hi
  have key : ∀ w, ∃ mem', (Storage.strided s).assign mem (.tuple (ix.map .int)) (.leaf w) = ⟨mem', none⟩ ∧
      Reads (.strided s) mem' ix w ∧
      ∀ iy v, InBox iy s.shape → iy ≠ ix → Reads (.strided s) mem iy v → Reads (.strided s) mem' iy v := by
    intro w
    obtain ⟨mem', h1, _, ⟨h2, h3⟩, _⟩ := C37_strided_assign s mem h hd hp (.tuple (ix.map .int)) e1 (.leaf w) (by
      intro j hj
      simp only [items, e2] at hj
      cases j with
      | nil => exact ⟨w, rfl⟩
      | cons a j => cases hj)
    refine ⟨mem', h1, ?_, fun iy v hy hne hr => h3 iy v hy ?_ hr⟩
    · have := h2 [] w (by simp only [items, Storage.shape, e2]; trivial) rfl
      simpa only [items, Storage.shape, e3] using this
    · rintro ⟨j, hj, hs⟩
      simp only [items, Storage.shape, e2] at hj hs
      cases j with
      | nil => exact hne (by rw [← hs, e3])
      | cons a j => cases hj
  have hl := hi.length_eq
  refine ⟨fun n => ?_, fun t tmem => ?_⟩
  · rw [(C68_element_assign O (.strided s) mem ix hl).1 n]; exact key _
  · rw [(C68_element_assign O (.strided s) mem ix hl).2 t tmem]; exact key _

/-! ### Deep lists -/

theorem walkObj_of_place (O : Objects V) (n : Nested V) (ix : List Int) (x : Nested V) (h : place n ix = some x) :
    n.walkObj O ix = .ok (itself O x) := by
  induction ix generalizing n with
  | nil =>
    simp only [place, Option.some.injEq] at h
    subst h
    rfl
  | cons i ix ih =>
    cases n with
    | leaf v => cases h
    | seq items =>
      simp only [place] at h
      split at h
      · next h0 =>
        cases hg : items[i.toNat]? with
        | none => rw [hg] at h; cases h
        | some y =>
          rw [hg] at h
          obtain ⟨k, rfl⟩ := Int.eq_ofNat_of_zero_le h0
          have : pyGet items (k : Int) = .ok y := by
            simp only [pyGet, if_pos h0, hg]
          simp only [Nested.walkObj, this, bind, Except.bind]
          exact ih y h
      · cases h

theorem getValueObj_of_place (O : Objects V) (n : Nested V) (ix : List Int) (x : Nested V) (h : place n ix = some x) :
    n.getValueObj O ix = .ok (itself O x) := by
  cases ix with
  | nil =>
    cases h
    cases n <;> rfl
  | cons i ix =>
    cases n with
    | leaf v => cases h
    | seq items => exact walkObj_of_place O _ _ x h

theorem walkObj_of_no_place (O : Objects V) (n : Nested V) (ix : List Int) (h0 : ∀ i ∈ ix, 0 ≤ i) (h : place n ix = none) :
    ∃ e, n.walkObj O ix = .error e := by
  induction ix generalizing n with
  | nil => simp [place] at h
  | cons i ix ih =>
    cases n with
    | leaf w => exact ⟨_, rfl⟩
    | seq items =>
      have hi : 0 ≤ i := h0 i (by simp)
      simp only [place, if_pos hi] at h
      simp only [Nested.walkObj, pyGet, if_pos hi]
      cases hx : items[i.toNat]? with
      | none => exact ⟨.index, rfl⟩
      | some x =>
        rw [hx] at h
        obtain ⟨e, he⟩ := ih x (fun i hi => h0 i (by simp [hi])) h
        exact ⟨e, by simp only [bind, Except.bind, he]⟩

theorem getValueObj_of_no_place (O : Objects V) (n : Nested V) (ix : List Int) (h0 : ∀ i ∈ ix, 0 ≤ i)
    (h : place n ix = none) : ∃ e, n.getValueObj O ix = .error e := by
  cases ix with
  | nil => simp [place] at h
  | cons i ix =>
    cases n with
    | leaf w => exact ⟨_, rfl⟩
    | seq items => exact walkObj_of_no_place O _ _ h0 h

/-- C68: `s[index] = n` on a `Strided` with a list that has something at every index of the selection: lists that are
nested deeper than the selection become elements. -/
theorem C68_list_assign [DecidableEq V] (O : Objects V) (s : Strided V) (mem : List V) (h : s.WF mem)
    (hd : DistinctAddresses s.shape s.strides) (hp : ∀ n ∈ s.shape, 0 < n) (index : Index)
    (hv : ValidItems (items index) s.shape) (n : Nested V)
    (hw : ∀ j, InBox j (selShape (items index) s.shape) → ∃ x, place n j = some x) :
    ∃ mem', (Storage.strided s).assignObj O mem index n = ⟨mem', none⟩ ∧
      Assigned (.strided s) mem mem' index (fun j v => ∃ x, place n j = some x ∧ v = itself O x) := by
  obtain ⟨mem', g1, _, g3, _⟩ := strided_assigned h hd hp hv (fun _ vi => n.getValueObj O vi)
    (fun j => ((place n j).map (itself O)).getD s.data.unspec) (by
      intro m _ j hj
      obtain ⟨x, hx⟩ := hw j hj
      simp only [getValueObj_of_place O n j x hx, hx, Option.map_some, Option.getD_some])
  refine ⟨mem', g1, fun j v hj hi => g3.1 j v hj ?_, g3.2⟩
  obtain ⟨x, hx, rfl⟩ := hi
  simp only [hx, Option.map_some, Option.getD_some]

theorem writeAll_raises {P : Type} (w1 : List V → P → V → Wr V) (valueAt : List V → List Int → PyM V)
    (es : List (List Int × P)) (mem : List V) (e : List Int × P) (he : e ∈ es) (hf : ∀ m, ∃ x, valueAt m e.1 = .error x) :
    (writeAll w1 valueAt es mem).err ≠ none := by
  induction es generalizing mem with
  | nil => cases he
  | cons a es ih =>
    simp only [writeAll]
    cases hv : valueAt mem a.1 with
    | error x => simp
    | ok v =>
      rcases List.mem_cons.1 he with rfl | he
      · obtain ⟨x, hx⟩ := hf mem
        rw [hx] at hv
        cases hv
      · cases hw : (w1 mem a.2 v).err with
        | some x => simp only [hw]; simp
        | none => simp only [hw]; exact ih _ he

/-- C68: if the list has nothing at some index of the selection, the assignment raises. -/
theorem C68_list_assign_missing [DecidableEq V] (O : Objects V) (s : Strided V) (mem : List V) (h : s.WF mem)
    (hp : ∀ n ∈ s.shape, 0 < n) (index : Index)
    (hv : ValidItems (items index) s.shape) (n : Nested V) (j : List Int)
    (hj : InBox j (selShape (items index) s.shape)) (hmiss : place n j = none) :
    ((Storage.strided s).assignObj O mem index n).err ≠ none := by
  obtain ⟨nix, st, off, h1, h2, h3, h4, h5⟩ := index_ok index s.shape s.strides hp hv h.len
  simp only [Storage.assignObj, Storage.setItem, Strided.setItem, h1, h3, bind, Except.bind,
    Strided.sliceEntries_ok _ st off h4]
  exact writeAll_raises _ _ _ mem _ (List.mem_map.2 ⟨j, (mem_indexProduct _ _).2 hj, rfl⟩)
    fun _ => getValueObj_of_no_place O n j (inBox_nonneg hj) hmiss

theorem items_prefix (j k : List Int) (sh rest : List Nat) (h : InBox j sh) :
    ValidItems (j.map .int) (sh ++ rest) ∧ selShape (j.map .int) (sh ++ rest) = rest ∧
      selSource (j.map .int) (sh ++ rest) k = j ++ k := by
  induction j generalizing sh with
  | nil => cases sh <;> simp_all [ValidItems, selShape, selSource, InBox]
  | cons i j ih =>
    cases sh with
    | nil => cases h
    | cons n sh =>
      obtain ⟨h1, h2⟩ := h
      obtain ⟨a, b, c⟩ := ih sh h2
      refine ⟨a, b, ?_⟩
      simp only [List.map_cons, List.cons_append, selSource, c, Int.emod_eq_of_lt h1.1 h1.2]

/-- C68: `s[index] = t` on a `Strided` with a storage that has more axes than the selection: the parts `t[i]`, `t[i, j]`
and so on become elements. -/
theorem C68_parts_assign [DecidableEq V] (O : Objects V) (s : Strided V) (mem : List V) (h : s.WF mem)
    (hd : DistinctAddresses s.shape s.strides) (hp : ∀ n ∈ s.shape, 0 < n) (index : Index)
    (hv : ValidItems (items index) s.shape) (hne : selShape (items index) s.shape ≠ []) (t : Storage V) (tmem : List V)
    (ht : t.WF tmem) (hb : t.cls ≠ .buffer) (hdm : t.cls ≠ .dm) (rest : List Nat) (hr : rest ≠ [])
    (hts : t.shape = selShape (items index) s.shape ++ rest) (htp : ∀ n ∈ t.shape, 0 < n) :
    ∃ mem', (Storage.strided s).assignStoreObj O mem index t tmem = ⟨mem', none⟩ ∧
      ∀ j, InBox j (selShape (items index) s.shape) → ∃ r m, Gives t tmem (.tuple (j.map .int)) r m ∧ r.shape = rest ∧
        (∀ k, InBox k rest → ∃ v, Reads t tmem (j ++ k) v ∧ Reads r m k v) ∧
        Reads (.strided s) mem' (selSource (items index) s.shape j) (O.store r m) := by
  have key : ∀ j, InBox j (selShape (items index) s.shape) → ∃ r m, Gives t tmem (.tuple (j.map .int)) r m ∧
      r.shape = rest ∧ (∀ k, InBox k rest → ∃ v, Reads t tmem (j ++ k) v ∧ Reads r m k v) ∧
      t.getValueObj O tmem j = .ok (O.store r m) := by
    intro j hj
    obtain ⟨e1, e2, _⟩ := items_prefix j [] _ rest hj
    have hbi : BufferIndex t (.tuple (j.map .int)) := by cases t <;> first | trivial | exact absurd rfl hb
    have hsi : SafeIndex t (.tuple (j.map .int)) := by cases t <;> first | trivial | exact absurd rfl hdm
    have hit : items (.tuple (j.map .int)) = j.map .int := rfl
    obtain ⟨r, m, g1, _, g3, _, g5⟩ := (selects_any ht htp (index := .tuple (j.map .int))
      (by rw [hts, hit]; exact e1) hbi hsi).2 (by rw [hts, hit, e2]; exact hr)
    rw [hts, hit, e2] at g3
    refine ⟨r, m, g1, g3, fun k hk => ?_, ?_⟩
    · obtain ⟨v, a, b⟩ := g5 k (by rw [g3]; exact hk)
      rw [hts, hit, (items_prefix j k _ rest hj).2.2] at a
      exact ⟨v, a, b⟩
    · have hj0 : j ≠ [] := by
        rintro rfl
        cases hs : selShape (items index) s.shape with
        | nil => exact hne hs
        | cons => rw [hs] at hj; exact hj
      cases j with
      | nil => exact absurd rfl hj0
      | cons i j =>
        rcases g1 with ⟨g1, rfl⟩ | g1
        · simp only [Storage.getValueObj, g1, bind, Except.bind]; rfl
        · simp only [Storage.getValueObj, g1, bind, Except.bind]; rfl
  obtain ⟨mem', g1, _, g3, _⟩ := strided_assigned h hd hp hv (fun _ vi => t.getValueObj O tmem vi)
    (fun j => match t.getValueObj O tmem j with | .ok v => v | .error _ => s.data.unspec) (by
      intro m _ j hj
      obtain ⟨r, m, _, _, _, e⟩ := key j hj
      simp only [e])
  refine ⟨mem', g1, fun j hj => ?_⟩
  obtain ⟨r, m, e1, e2, e3, e4⟩ := key j hj
  exact ⟨r, m, e1, e2, e3, g3.1 j _ hj (by simp only [e4])⟩

/-- C68: the constructors of all classes raise if the list has nothing at an index of the shape of its first items. -/
theorem C68_missing [DecidableEq V] [HasNone V] (O : Objects V) (cls : Cls) (n : Nested V) (shape : List Nat)
    (h : FirstShape n shape) (hne : shape ≠ []) (ix : List Int) (hi : InBox ix shape) (hmiss : place n ix = none)
    (u : Option V) : ∃ e, fromObjectObj O cls (.nested n) u = .error e := by
  obtain ⟨e, he⟩ := getValueObj_of_no_place O n ix (inBox_nonneg hi) hmiss
  have hs : (Src.nested n).shape = shape := firstShape_eq h
  have hd := dmBuild_fail shape ((Src.nested n).getValueObj O) pyNone (u.getD pyNone) ix hne hi e he
  have hf := fun c => buildFlat_fail c shape ((Src.nested n).getValueObj O) pyNone (u.getD pyNone) ix hi e he
  cases u <;> (
    simp only [fromObjectObj, hs]
    simp only [Src.unspec, bind, Except.bind]
    cases cls with
    | dm => obtain ⟨e', h'⟩ := hd; exact ⟨e', by simp only [h']⟩
    | buffer => obtain ⟨e', h'⟩ := hf .buffer; exact ⟨e', by simp only [h']⟩
    | strided => obtain ⟨e', h'⟩ := hf .strided; exact ⟨e', by simp only [h']⟩
    | coo => obtain ⟨e', h'⟩ := hf .coo; exact ⟨e', by simp only [h']⟩
    | flatcoo => obtain ⟨e', h'⟩ := hf .flatcoo; exact ⟨e', by simp only [h']⟩
    | csr => obtain ⟨e', h'⟩ := hf .csr; exact ⟨e', by simp only [h']⟩)

/-- C68, fifth part.  `cls.fromobject(n, unspecified=u)` of a list whose first items promise the shape `shape` and that
has something at every index of it: where there is a list and not a scalar, that list is the element. -/
theorem C68_list_items [DecidableEq V] [HasNone V] (O : Objects V) (cls : Cls) (n : Nested V) (shape : List Nat)
    (h : FirstShape n shape) (hne : shape ≠ []) (hfull : ∀ ix, InBox ix shape → ∃ x, place n ix = some x) (u : Option V)
    (hbuffer : cls = .buffer → shape.length = 1)
    (hcsr : cls = .csr → shape.length = 2 ∧
      ∃ ix x, InBox ix shape ∧ place n ix = some x ∧ stored u (itself O x) ≠ u.getD pyNone) :
    ∃ s mem, fromObjectObj O cls (.nested n) u = .ok (.fresh s mem) ∧ s.cls = cls ∧ s.shape = shape ∧
      s.unspec = u.getD pyNone ∧
      ∀ ix x, InBox ix shape → place n ix = some x → Reads s mem ix (stored u (itself O x)) := by
  let a : List Int → V := fun ix => ((place n ix).map (itself O)).getD pyNone
  have ha : ∀ ix x, place n ix = some x → a ix = itself O x := by
    intro ix x hx
    simp only [a, hx, Option.map_some, Option.getD_some]
  have hv : ∀ ix, InBox ix shape → (Src.nested n).getValueObj O ix = .ok (a ix) := by
    intro ix hi
    obtain ⟨x, hx⟩ := hfull ix hi
    rw [ha ix x hx]
    exact getValueObj_of_place O n ix x hx
  obtain ⟨s, mem, h1, h2, h3, _, h4, _⟩ := general_ok cls shape hne _ pyNone (u.getD pyNone) a hv
    ⟨hbuffer, fun hc => by
      obtain ⟨e1, ix, x, e2, e3, e4⟩ := hcsr hc
      exact ⟨e1, ix, e2, by simp only [ha ix x e3]; exact e4⟩⟩
  refine ⟨s, mem, ?_, h2, h4.shape_eq, h3, fun ix x hi hx => ?_⟩
  · have hs : (Src.nested n).shape = shape := firstShape_eq h
    cases u <;> (simp only [fromObjectObj, hs]; simp only [Src.unspec, bind, Except.bind]
                 cases cls <;> (simp only at h1 ⊢; rw [h1]; rfl))
  · have := h4.wf.reads ix (by rw [h4.shape_eq]; exact hi)
    rwa [h4.reads ix hi, ha ix x hx] at this

/-! ### Zero-dimensional storages -/

/-- C68, sixth part.  A conversion of a zero-dimensional array does not read its element: the new array has the old
array as its element. -/
theorem C68_zero_dim [DecidableEq V] [HasNone V] (O : Objects V) (cls : Cls) (s : Storage V) (mem : List V) (hs : s.shape = [])
    (u : Option V) (hc : cls = .strided ∨ cls = .flatcoo)
    (hu : u ≠ none ∨ cls = .strided ∧ s.cls ≠ .strided ∨ cls = .flatcoo ∧ s.cls = .strided)
    (h1 : O.store s mem ≠ s.unspec) :
    ∃ r m, fromObjectObj O cls (.store s mem) u = .ok (.fresh r m) ∧ r.cls = cls ∧ r.shape = [] ∧
      r.unspec = u.getD s.unspec ∧ Reads r m [] (O.store s mem) := by
  have hv : ∀ ix, InBox ix [] → (Src.store s mem).getValueObj O ix = .ok (O.store s mem) := by
    intro ix hi
    cases ix with
    | nil => rfl
    | cons i ix => cases hi
  obtain ⟨r, m, g1, g2, g3, g4, _⟩ := buildFlat_ok cls [] _ s.unspec (u.getD s.unspec) (fun _ => O.store s mem) hv (by
    rcases hc with rfl | rfl <;> simp)
  refine ⟨r, m, ?_, g2, g4.shape_eq, g3, ?_⟩
  · have hsh : (Src.store s mem).shape = [] := hs
    have hg : ∀ c, cls = c → (c = .strided ∨ c = .flatcoo) → (do
        let (s, mem) ← buildFlat c [] ((Src.store s mem).getValueObj O) s.unspec (u.getD s.unspec)
        return Made.fresh s mem) = .ok (.fresh r m) := by
      rintro c rfl _
      rw [g1]
      rfl
    rcases hc with rfl | rfl
    · have := hg _ rfl (.inl rfl)
      cases u with
      | some w => simp only [fromObjectObj, hsh]; exact this
      | none =>
        cases s <;> first | (simp only [fromObjectObj, hsh]; exact this) | simp [Storage.cls] at hu
    · have := hg _ rfl (.inr rfl)
      cases u with
      | some w => simp only [fromObjectObj, hsh]; exact this
      | none =>
        cases s <;> first | (simp only [fromObjectObj, hsh]; exact this) | simp [Storage.cls] at hu
  · have := g4.wf.reads [] (by rw [g4.shape_eq]; trivial)
    rwa [g4.reads [] trivial, subst, if_neg h1] at this

/-- The values of the cases: a list of `k` items is the value `1000 + k`, a storage object with `k` axes is `2000 + k`. -/
def codes : Objects (Option Int) := ⟨fun l => some (1000 + l.length), fun s _ => some (2000 + s.shape.length)⟩

/-- Cases of C68: `s[1, 0] = [8, 9]` on a `Strided` of shape `(2, 2)`, and the same with a storage object. -/
example :
    (let s : Strided (Option Int) := ⟨[2, 2], [2, 1], ⟨4, 0, none⟩⟩
    let mem := [some 1, some 2, some 3, some 4]
    let n : Nested (Option Int) := .seq [.leaf (some 8), .leaf (some 9)]
    s.WF mem ∧ InBox [1, 0] s.shape ∧
    (Storage.strided s).assignObj codes mem (.tuple [.int 1, .int 0]) n = ⟨[some 1, some 2, some 1002, some 4], none⟩ ∧
    ((Storage.strided s).assign mem (.tuple [.int 1, .int 0]) n).err = some .type ∧
    (Storage.strided s).assignStoreObj codes mem (.tuple [.int 1, .int 0]) (.strided s) mem
      = ⟨[some 1, some 2, some 2002, some 4], none⟩ ∧
    (Storage.strided s).assignObj codes mem (.tuple [.int 1]) n = ⟨[some 1, some 2, some 8, some 9], none⟩ ∧
    (Storage.strided s).assign mem (.tuple [.int 1]) n = ⟨[some 1, some 2, some 8, some 9], none⟩) := by
  refine ⟨?_, ?_, ?_, ?_, ?_, ?_, ?_⟩
  · refine ⟨by decide, by unfold Buffer.WF; decide, fun ix hi => ?_⟩
    match ix, hi with
    | [i, j], ⟨h1, h2, _⟩ => simp only [address]; simp at h1 h2 ⊢; omega
  · simp [InBox]
  all_goals decide +kernel

/-- Cases of C68: `[1, [2, 3]]` has the shape `(2,)` and the list `[2, 3]` as an element; `[[4], 1]` raises (see C59);
the conversion of a zero-dimensional array keeps the array as the element. -/
example :
    (let n : Nested (Option Int) := .seq [.leaf (some 1), .seq [.leaf (some 2), .leaf (some 3)]]
    FirstShape n [2] ∧ place n [1] = some (.seq [.leaf (some 2), .leaf (some 3)]) ∧
    fromObjectObj codes .strided (.nested n) none = .ok (.fresh (.strided ⟨[2], [1], ⟨2, 0, none⟩⟩) [some 1, some 1002])) ∧
    fromObjectObj codes .coo (.nested (.seq [.seq [.leaf (some 4)], .leaf (some 1)])) none = .error .type ∧
    (let s : Storage (Option Int) := .strided ⟨[], [], ⟨1, 0, none⟩⟩
    codes.store s [some 5] ≠ s.unspec ∧
    fromObjectObj codes .flatcoo (.store s [some 5]) none
      = .ok (.fresh (.flatcoo ⟨[], ⟨1, 0, none⟩, [some 0], ⟨1, 0, none⟩⟩) [some 2000])) := by
  refine ⟨⟨.seq _ _ _ (.leaf _), rfl, by decide +kernel⟩, by decide +kernel, by decide +kernel, by decide +kernel⟩

/-- Cases of C68 with slices: `s[1:] = [[8, 9], 7]` on a vector stores a list and a number, `s[1:] = [5]` raises, and
`s[1:] = t` with a matrix `t` stores its two rows. -/
example :
    (let s : Strided (Option Int) := ⟨[3], [1], ⟨3, 0, none⟩⟩
    let mem := [some 1, some 2, some 3]
    let n : Nested (Option Int) := .seq [.seq [.leaf (some 8), .leaf (some 9)], .leaf (some 7)]
    let t : Strided (Option Int) := ⟨[2, 2], [2, 1], ⟨4, 0, none⟩⟩
    selShape (items (.one (.slice ⟨some 1, none, none⟩))) s.shape = [2] ∧
    (Storage.strided s).assignObj codes mem (.one (.slice ⟨some 1, none, none⟩)) n = ⟨[some 1, some 1002, some 7], none⟩ ∧
    (Storage.strided s).assignObj codes mem (.one (.slice ⟨some 1, none, none⟩)) (.seq [.leaf (some 5)])
      = ⟨[some 1, some 5, some 3], some .index⟩ ∧
    (Storage.strided s).assignStoreObj codes mem (.one (.slice ⟨some 1, none, none⟩)) (.strided t)
        [some 1, some 2, some 3, some 4]
      = ⟨[some 1, some 2001, some 2001], none⟩) := by
  decide +kernel

end Gcs
