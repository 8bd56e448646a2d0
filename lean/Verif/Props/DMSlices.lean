import Verif.Lemmas.Keep
import Verif.Props.Getting

/-!
# C86: what a slice of a slice of a `DM` reads

`DM.__getitem__` (gcs/storage.py:1083-1126) leaves out the offset of a group of axes that the index fixes altogether
(C36 is an instance).  Here is what it reads instead, for any `DM` and any indices.
-/

namespace Gcs

namespace Spec

/-- The index has an int on axis `a`. -/
def isFixed (is : List Ix) (a : Nat) : Bool :=
  match is[a]? with
  | some (.int _) => true
  | _ => false

/-- The axis of the result that axis `a`, without an int on it, becomes: the number of the axes before it that have
no int. -/
def becomes (is : List Ix) (a : Nat) : Nat := ((List.range a).filter fun b => !isFixed is b).length

end Spec

open Spec

variable {V : Type} [DecidableEq V]

theorem normalizeItems_nil_fixed (is : List Ix) (nix : List NIx) (h : normalizeItems is [] = .ok nix) (d : Nat) :
    isFixed is d = false := by
  induction is generalizing d with
  | nil => simp [isFixed]
  | cons x is ih => cases x with
    | int i => simp [normalizeItems] at h
    | slice s => simp [normalizeItems] at h
    | other => simp [normalizeItems] at h
    | none =>
      cases d with
      | zero => rfl
      | succ d =>
        simp only [normalizeItems] at h
        exact ih h d

theorem normalizeItems_fixed (is : List Ix) (shape : List Nat) (nix : List NIx) (h : normalizeItems is shape = .ok nix)
    (d : Nat) : isIntAt nix d = isFixed is d := by
  rw [Bool.eq_iff_iff]
  constructor
  · intro hi
    obtain ⟨i, hi⟩ := normalizeItems_int is shape nix h d hi
    simp [isFixed, hi]
  · induction is generalizing shape nix d with
    | nil => simp [isFixed]
    | cons x is ih =>
      cases shape with
      | nil => rw [normalizeItems_nil_fixed _ _ h]; simp
      | cons n shape =>
        have key : ∃ y r, nix = y :: r ∧ normalizeItems is shape = .ok r ∧
            (isFixed (x :: is) 0 = true → isIntAt (y :: r) 0 = true) := by
          cases x with
          | other => simp [normalizeItems] at h
          | int i =>
            simp only [normalizeItems, bind_eq_ok, pure_eq_ok] at h
            obtain ⟨a, _, r, hr, rfl⟩ := h
            exact ⟨_, r, rfl, hr, fun _ => rfl⟩
          | slice s =>
            simp only [normalizeItems, bind_eq_ok, pure_eq_ok] at h
            obtain ⟨r, hr, rfl⟩ := h
            exact ⟨_, r, rfl, hr, fun h => by simp [isFixed] at h⟩
          | none =>
            simp only [normalizeItems, bind_eq_ok, pure_eq_ok] at h
            obtain ⟨r, hr, rfl⟩ := h
            exact ⟨_, r, rfl, hr, fun h => by simp [isFixed] at h⟩
        obtain ⟨y, r, rfl, hr, h0⟩ := key
        cases d with
        | zero => exact h0
        | succ d =>
          intro hf
          exact ih shape r hr d hf

theorem axisMap_becomes (is : List Ix) (nix : List NIx) (h : ∀ d, isIntAt nix d = isFixed is d) (a : Nat) :
    axisMap nix a = becomes is a := by
  unfold axisMap becomes
  simp only [h]
  have : ∀ l : List Nat, (l.filter fun j => isFixed is j).length + (l.filter fun j => !isFixed is j).length = l.length := by
    intro l
    induction l with
    | nil => rfl
    | cons x l ih =>
      simp only [List.filter_cons]
      cases isFixed is x <;> simp <;> omega
  have := this (List.range a)
  simp only [List.length_range] at this
  omega

theorem forgetful_inBox (fixed : Nat → Bool) (rdims : List (List Nat)) (rstrides : List (List Int)) (roffset : List Int)
    (inner : List Nat) (ix : List Int) (hb : InBox (target rdims rstrides roffset ix) inner) :
    InBox (forgetful fixed rdims rstrides roffset inner ix) inner := by
  induction rdims generalizing rstrides roffset inner with
  | nil => simpa [forgetful, target] using hb
  | cons dims rdims ih =>
    cases rstrides with
    | nil => simpa [forgetful, target] using hb
    | cons st rstrides => cases roffset with
      | nil => simpa [forgetful, target] using hb
      | cons off roffset => cases inner with
        | nil => exact hb.elim
        | cons n inner =>
          refine ⟨?_, ih rstrides roffset inner hb.2⟩
          have hb1 := hb.1
          split
          · exact ⟨Int.emod_nonneg _ (by omega), Int.emod_lt_of_pos _ (by omega)⟩
          · exact hb1

theorem forgetful2_inBox (fixed fixed2 : Nat → Bool) (rdims : List (List Nat)) (rstrides : List (List Int))
    (roffset : List Int) (inner : List Nat) (x x0 : List Int) (hb : InBox (target rdims rstrides roffset x) inner) :
    InBox (forgetful2 fixed fixed2 rdims rstrides roffset inner x x0) inner := by
  induction rdims generalizing rstrides roffset inner with
  | nil => simpa [forgetful2, target] using hb
  | cons dims rdims ih =>
    cases rstrides with
    | nil => simpa [forgetful2, target] using hb
    | cons st rstrides => cases roffset with
      | nil => simpa [forgetful2, target] using hb
      | cons off roffset => cases inner with
        | nil => exact hb.elim
        | cons n inner =>
          refine ⟨?_, ih rstrides roffset inner hb.2⟩
          have hb1 := hb.1
          split
          · exact ⟨Int.emod_nonneg _ (by omega), Int.emod_lt_of_pos _ (by omega)⟩
          · split
            · exact ⟨Int.emod_nonneg _ (by omega), Int.emod_lt_of_pos _ (by omega)⟩
            · exact hb1

/-- The parts of `s[index]` for a `DM` `s`. -/
theorem dm_slice_parts (m : DMMeta) (d : Storage V) (mem : List V) (h : (Storage.dm m d).WF mem)
    (hp : ∀ n ∈ m.shape, 0 < n) (index : Index) (hv : ValidItems (items index) m.shape) (hz : ZeroOff d)
    (g2 : selShape (items index) m.shape ≠ []) :
    ∃ rd rst roff dix d' mr,
      Gives (.dm m d) mem index (.dm ⟨selShape (items index) m.shape, rd,
        groupShapes (selShape (items index) m.shape) rd, rst, roff⟩ d') mr ∧
      DMMeta.WF ⟨selShape (items index) m.shape, rd, groupShapes (selShape (items index) m.shape) rd, rst, roff⟩
        d'.shape ∧
      Stands d' mr (selShape dix d.shape) (fun q => d.at mem (selSource dix d.shape q)) ∧
      SliceCls d.cls d'.cls ∧ d'.unspec = d.unspec ∧
      (∀ j, InBox j (selShape (items index) m.shape) →
        InBox (target rd rst roff j) (selShape dix d.shape) ∧
        selSource dix d.shape (target rd rst roff j) = forgetful (isFixed (items index)) m.rdims m.rstrides m.roffset
          d.shape (selSource (items index) m.shape j)) ∧
      (∀ fx j, InBox j (selShape (items index) m.shape) →
        selSource dix d.shape (forgetful fx rd rst roff (selShape dix d.shape) j)
          = forgetful2 (isFixed (items index)) (fun a => fx (becomes (items index) a)) m.rdims m.rstrides m.roffset
              d.shape (selSource (items index) m.shape j) (selSource (items index) m.shape (j.map fun _ => 0))) := by
  obtain ⟨hm, hd⟩ := h
  obtain ⟨nix, n1, n2, n3, n4, n5⟩ := index_cases index m.shape hp hv
  have hfix : ∀ a, isIntAt nix a = isFixed (items index) a := by
    intro a
    rw [normalizeIndex_eq_items index m.shape hv] at n1
    exact normalizeItems_fixed _ _ _ n1 a
  have hfix' : isIntAt nix = isFixed (items index) := funext hfix
  obtain ⟨_, _, _, _, _, _, _, gsrc⟩ := index_ok index m.shape (makeStrides m.shape) hp hv (makeStrides_length _)
  rcases n5 with ⟨_, g, _⟩ | ⟨g1, _⟩
  · exact absurd g g2
  obtain ⟨rd, rst, roff, dix, e1, e2, e3, e4, e5, e6, e7, e8, e9⟩ := dmSliceLoop_any nix m.shape n2 hp m.rdims m.rstrides
    m.roffset (fun a ha => (hm.axes a).1 ha) hm.rstrides hm.roffset
  obtain ⟨ix0, hx0⟩ := exists_inBox hp
  have hpin : PosShape d.shape := InBox_pos (hm.into ix0 hx0)
  have hdl : dix.length = d.shape.length := by rw [e5, hm.rank]
  have hval : ValidItems (items (.tuple dix)) d.shape := validItems_intsNones e6 _ hdl
  have hax : ∀ a, a ∈ rd.flatten ↔ a < (selShape (items index) m.shape).length := by
    intro a
    rw [e4, ← n3, ← axes_ok nix m.shape n2 a]
    constructor
    · rintro ⟨x, h1, h2⟩; exact ⟨x, (hm.axes x).1 h1, h2⟩
    · rintro ⟨x, h1, h2⟩; exact ⟨x, (hm.axes x).2 h1, h2⟩
  have hrd : rd ≠ [] := by
    intro he
    rw [he] at hax
    have h0 := (hax 0).2 (by
      rcases hsel : selShape (items index) m.shape with _ | ⟨_, _⟩
      · exact absurd hsel g2
      · simp)
    simp at h0
  have hsl : selShape dix d.shape ≠ [] := by
    intro he
    have := e7 d.shape hm.rank
    rw [he] at this
    exact hrd (List.length_eq_zero_iff.1 this.symm)
  have hdne : dix.isEmpty = false := by
    cases dix with
    | nil =>
      exfalso
      simp at e5
      exact hm.ne (List.length_eq_zero_iff.1 e5.symm)
    | cons => rfl
  have hbi : BufferIndex d (.tuple dix) := by
    cases d with
    | buffer b =>
      left
      simp only [Storage.shape, List.length_singleton] at hdl
      obtain ⟨x, rfl⟩ := List.length_eq_one_iff.1 hdl
      rcases e6 x (by simp) with rfl | ⟨i, rfl⟩
      · rfl
      · exact absurd rfl hsl
    | _ => trivial
  rcases hd.getItem_ok hpin (.tuple dix) hval hbi (hz.safe _) with ⟨q1, _⟩ | ⟨_, r, mem', q2, q3, q4⟩
  · exact absurd q1 hsl
  have hshape : shapeStrided nix m.shape = .ok (selShape (items index) m.shape) := by
    rw [shapeStrided_ok nix m.shape n2, n3]
  have hnew := DMMeta.new_ok (selShape (items index) m.shape) rd rst roff hrd hax
  have hloop : dmSliceLoop nix m.rdims m.rshapes m.rstrides m.roffset = .ok (rd, rst, roff, dix) := by
    rw [hm.rshapes]; exact e1
  have h8 : ∀ j, InBox j (selShape (items index) m.shape) → _ := fun j hj =>
    e8 d.shape j (by rw [n3]; exact hj) (by rw [n4 j hj]; exact hm.into _ (gsrc j hj).1)
  refine ⟨rd, rst, roff, dix, r, mem', ?_, ⟨hrd, hax, rfl, e2, e3, ?_, ?_⟩, q4, q3.2, q3.1, ?_, ?_⟩
  · rcases q2 with ⟨q2, q2'⟩ | q2
    · left
      refine ⟨?_, q2'⟩
      simp only [Storage.getItem, n1, bind, Except.bind, g1, hshape, hloop, hdne, Bool.false_eq_true, if_false, q2,
        hnew, pure, Except.pure]
    · right
      simp only [Storage.getItem, n1, bind, Except.bind, g1, hshape, hloop, hdne, Bool.false_eq_true, if_false, q2,
        hnew, pure, Except.pure]
  · rw [q4.shape_eq]; exact e7 d.shape hm.rank
  · intro j hj
    rw [q4.shape_eq]
    exact (h8 j hj).1
  · intro j hj
    refine ⟨(h8 j hj).1, ?_⟩
    rw [(h8 j hj).2, n4 j hj, hfix']
  · intro fx j hj
    rw [e9 fx d.shape j (by rw [n3]; exact hj) (by rw [n4 j hj]; exact hm.into _ (gsrc j hj).1), n4 j hj,
      n4 _ (InBox_zeros hj), hfix']
    simp only [axisMap_becomes (items index) nix hfix]

/-- C86.  `s[index]` for a `DM` `s` that may itself be a slice of a `DM`: in the wrapped storage, a group of axes that
the index fixes altogether is read without the offset of the group, modulo the size of the axis; each other
group is read where it should be. -/
theorem C86_dm_slice_any (m : DMMeta) (d : Storage V) (mem : List V) (h : (Storage.dm m d).WF mem)
    (hp : ∀ n ∈ m.shape, 0 < n) (index : Index) (hv : ValidItems (items index) m.shape) (hz : ZeroOff d)
    (h0 : selShape (items index) m.shape ≠ []) :
    ∃ r mr, Gives (.dm m d) mem index r mr ∧ r.WF mr ∧ r.shape = selShape (items index) m.shape ∧
      r.unspec = d.unspec ∧
      ∀ j, InBox j r.shape → ∃ v, Reads r mr j v ∧
        Reads d mem (forgetful (isFixed (items index)) m.rdims m.rstrides m.roffset d.shape
          (selSource (items index) m.shape j)) v := by
  obtain ⟨rd, rst, roff, dix, d', mr, e1, e2, e3, _, e5, e6, _⟩ := dm_slice_parts m d mem h hp index hv hz h0
  refine ⟨_, mr, e1, ⟨e2, e3.wf⟩, rfl, e5, fun j hj => ?_⟩
  refine ⟨_, Storage.WF.reads (s := .dm _ d') (mem := mr) ⟨e2, e3.wf⟩ j hj, ?_⟩
  rw [at_dm e2 e3.wf j hj]
  obtain ⟨f1, f2⟩ := e6 j hj
  simp only [e3.reads _ f1, f2]
  apply h.2.reads
  exact forgetful_inBox _ _ _ _ _ _ (h.1.into _ (source_inBox hp hv hj))

/-- What should be read. -/
theorem C86_meant (m : DMMeta) (d : Storage V) (mem : List V) (h : (Storage.dm m d).WF mem) (ix : List Int)
    (hi : InBox ix m.shape) (v : V) :
    Reads (.dm m d) mem ix v ↔ Reads d mem (target m.rdims m.rstrides m.roffset ix) v := by
  have h1 := Storage.WF.reads h ix hi
  have h2 := h.2.reads _ (h.1.into ix hi)
  rw [at_dm h.1 h.2 ix hi] at h1
  unfold Reads at *
  rw [h1, h2]

theorem forgetful_eq_iff (fixed : Nat → Bool) (rdims : List (List Nat)) (rstrides : List (List Int))
    (roffset : List Int) (inner : List Nat) (ix : List Int)
    (hb : InBox (target rdims rstrides roffset ix) inner)
    (h1 : GroupStrides rdims rstrides) :
    forgetful fixed rdims rstrides roffset inner ix = target rdims rstrides roffset ix ↔
      ∀ (k : Nat) dims off n, rdims[k]? = some dims → roffset[k]? = some off → inner[k]? = some n →
        (∀ a ∈ dims, fixed a = true) → (n : Int) ∣ off := by
  induction rdims generalizing rstrides roffset inner with
  | nil => simp [forgetful, target]
  | cons dims rdims ih =>
    cases rstrides with
    | nil => exact h1.elim
    | cons st rstrides => cases roffset with
      | nil => simp [forgetful, target]
      | cons off roffset => cases inner with
        | nil => exact hb.elim
        | cons n inner =>
          have hb1 := hb.1
          simp only [forgetful, target, List.cons.injEq, ih rstrides roffset inner hb.2 h1.2]
          have hone : ((if dims.all fixed then address (dims.map fun d => ix.getD d 0) st % (n : Int)
                else off + address (dims.map fun d => ix.getD d 0) st)
              = off + address (dims.map fun d => ix.getD d 0) st) ↔
              ((∀ a ∈ dims, fixed a = true) → (n : Int) ∣ off) := by
            rw [← List.all_eq_true]
            cases dims.all fixed with
            | false => simp
            | true =>
              simp only [if_true, forall_const]
              generalize address (dims.map fun d => ix.getD d 0) st = g at hb1 ⊢
              constructor
              · intro he
                have h2 := Int.emod_add_mul_ediv g n
                exact ⟨-(g / n), by rw [Int.mul_neg]; omega⟩
              · rintro ⟨c, rfl⟩
                rw [← Int.emod_eq_of_lt hb1.1 hb1.2, Int.mul_add_emod_self_left]
          rw [hone]
          constructor
          · rintro ⟨g1, g2⟩ k
            cases k with
            | zero =>
              intro dims' off' n' k1 k2 k3 k4
              simp only [List.getElem?_cons_zero, Option.some.injEq] at k1 k2 k3
              subst k1 k2 k3
              exact g1 k4
            | succ k => exact g2 k
          · intro g
            exact ⟨g 0 dims off n rfl rfl rfl, fun k => g (k + 1)⟩

/-- C86, when the element that is read is the one that should be: exactly if, for each group of axes that the index
fixes altogether, the offset is a multiple of the size of the axis of the wrapped storage. -/
theorem C86_when_right (m : DMMeta) (d : Storage V) (mem : List V) (h : (Storage.dm m d).WF mem)
    (hp : ∀ n ∈ m.shape, 0 < n) (index : Index) (hv : ValidItems (items index) m.shape) (j : List Int)
    (hj : InBox j (selShape (items index) m.shape)) :
    forgetful (isFixed (items index)) m.rdims m.rstrides m.roffset d.shape (selSource (items index) m.shape j)
        = target m.rdims m.rstrides m.roffset (selSource (items index) m.shape j) ↔
      ∀ (k : Nat) dims off n, m.rdims[k]? = some dims → m.roffset[k]? = some off → d.shape[k]? = some n →
        (∀ a ∈ dims, isFixed (items index) a = true) → (n : Int) ∣ off :=
  forgetful_eq_iff _ _ _ _ _ _ (h.1.into _ (source_inBox hp hv hj)) h.1.rstrides

/-- C86 for two indices.  `s[i1][i2]` for a `DM` `s` around a storage of another class: `x` is the index in `s` of
the element that is meant for `j`, and `x0` that of the first element of `s[i1]`.  A group that `i1` and `i2` together
fix altogether, but not `i1` alone, is read at the distance of `x` from `x0`. -/
theorem C86_twice (m : DMMeta) (d : Storage V) (mem : List V) (h : (Storage.dm m d).WF mem) (hc : d.cls ≠ .dm)
    (hp : ∀ n ∈ m.shape, 0 < n) (i1 i2 : Index) (hv1 : ValidItems (items i1) m.shape)
    (h1 : selShape (items i1) m.shape ≠ []) (hp1 : ∀ n ∈ selShape (items i1) m.shape, 0 < n)
    (hv2 : ValidItems (items i2) (selShape (items i1) m.shape))
    (h2 : selShape (items i2) (selShape (items i1) m.shape) ≠ []) :
    ∃ r mr t mt, Gives (.dm m d) mem i1 r mr ∧ Gives r mr i2 t mt ∧
      t.shape = selShape (items i2) (selShape (items i1) m.shape) ∧
      ∀ j, InBox j t.shape → ∃ v, Reads t mt j v ∧
        Reads d mem (forgetful2 (isFixed (items i1)) (fun a => isFixed (items i2) (becomes (items i1) a))
          m.rdims m.rstrides m.roffset d.shape
          (selSource (items i1) m.shape (selSource (items i2) (selShape (items i1) m.shape) j))
          (selSource (items i1) m.shape ((selShape (items i1) m.shape).map fun _ => 0))) v := by
  have hz : ZeroOff d := by cases d <;> first | trivial | exact absurd rfl hc
  obtain ⟨rd, rst, roff, dix, d1, mr, e1, e2, e3, e4, e5, e6, e7⟩ := dm_slice_parts m d mem h hp i1 hv1 hz h1
  have hc1 : d1.cls ≠ .dm := by rcases e4 with g | ⟨_, g⟩ <;> rw [g] <;> first | exact hc | simp
  have hz1 : ZeroOff d1 := by cases d1 <;> first | trivial | exact absurd rfl hc1
  obtain ⟨t, mt, f1, f2, f3, f4, f5⟩ := C86_dm_slice_any _ d1 mr ⟨e2, e3.wf⟩ hp1 i2 hv2 hz1 h2
  refine ⟨_, mr, t, mt, e1, f1, f3, fun j hj => ?_⟩
  obtain ⟨v, r1, r2⟩ := f5 j hj
  refine ⟨v, r1, ?_⟩
  have hy : InBox (selSource (items i2) (selShape (items i1) m.shape) j) (selShape (items i1) m.shape) :=
    source_inBox hp1 hv2 (by rw [f3] at hj; exact hj)
  have hb := forgetful_inBox (isFixed (items i2)) rd rst roff d1.shape _ (e2.into _ hy)
  have := r2.at_eq
  rw [e3.shape_eq] at hb
  rw [e3.shape_eq, e3.reads _ hb, e7 _ _ hy] at this
  have hzero : (selSource (items i2) (selShape (items i1) m.shape) j).map (fun _ => (0 : Int))
      = (selShape (items i1) m.shape).map fun _ => 0 := by
    rw [List.map_const', List.map_const', hy.length_eq]
  rw [hzero] at this
  rw [← this]
  apply h.2.reads
  exact forgetful2_inBox _ _ _ _ _ _ _ _ (h.1.into _ (source_inBox hp hv1 hy))

theorem forgetful2_eq_iff (fixed fixed2 : Nat → Bool) (rdims : List (List Nat)) (rstrides : List (List Int))
    (roffset : List Int) (inner : List Nat) (x x0 : List Int) (ho : ∀ o ∈ roffset, o = 0)
    (hb : InBox (target rdims rstrides roffset x) inner) (hb0 : InBox (target rdims rstrides roffset x0) inner)
    (h1 : GroupStrides rdims rstrides) (h2 : roffset.length = rdims.length) :
    forgetful2 fixed fixed2 rdims rstrides roffset inner x x0 = target rdims rstrides roffset x ↔
      ∀ (k : Nat) dims, rdims[k]? = some dims → ¬ (∀ a ∈ dims, fixed a = true) →
        (∀ a ∈ dims, fixed a = true ∨ fixed2 a = true) → (target rdims rstrides roffset x0)[k]? = some 0 := by
  induction rdims generalizing rstrides roffset inner with
  | nil => simp [forgetful2, target]
  | cons dims rdims ih =>
    cases rstrides with
    | nil => exact h1.elim
    | cons st rstrides => cases roffset with
      | nil => simp at h2
      | cons off roffset => cases inner with
        | nil => exact hb.elim
        | cons n inner =>
          have hb1 := hb.1
          have hb2 := hb0.1
          have hoff : off = 0 := ho off (by simp)
          subst hoff
          simp only [forgetful2, target, List.cons.injEq, ih rstrides roffset inner (fun o h => ho o (by simp [h]))
            hb.2 hb0.2 h1.2 (by simpa using h2)]
          simp only [Int.zero_add] at hb1 hb2 ⊢
          generalize address (dims.map fun d => x.getD d 0) st = g at hb1 ⊢
          generalize address (dims.map fun d => x0.getD d 0) st = g0 at hb2 ⊢
          have hone : ((if dims.all fixed then g % (n : Int)
                else if (dims.all fun a => fixed a || fixed2 a) then (g - g0) % (n : Int) else g) = g) ↔
              (¬ (∀ a ∈ dims, fixed a = true) → (∀ a ∈ dims, fixed a = true ∨ fixed2 a = true) → g0 = 0) := by
            have q : (∀ a ∈ dims, fixed a = true ∨ fixed2 a = true) ↔
                (dims.all fun a => fixed a || fixed2 a) = true := by simp
            rw [q, ← List.all_eq_true]
            cases dims.all fixed with
            | true => simp [Int.emod_eq_of_lt hb1.1 hb1.2]
            | false =>
              cases (dims.all fun a => fixed a || fixed2 a) with
              | false => simp
              | true =>
                simp only [Bool.false_eq_true, if_false, if_true, not_false_eq_true, forall_const]
                constructor
                · intro he
                  have h3 := Int.emod_add_mul_ediv (g - g0) n
                  rw [he] at h3
                  have h4 : g0 = n * -((g - g0) / n) := by rw [Int.mul_neg]; omega
                  have h5 := Int.emod_eq_of_lt hb2.1 hb2.2
                  rw [h4, Int.mul_emod_right] at h5
                  rw [h4]; exact h5.symm
                · rintro rfl
                  rw [Int.sub_zero, Int.emod_eq_of_lt hb1.1 hb1.2]
          rw [hone]
          constructor
          · rintro ⟨g1, g2⟩ k
            cases k with
            | zero =>
              intro dims' k1 k2 k3
              simp only [List.getElem?_cons_zero, Option.some.injEq] at k1 ⊢
              subst k1
              exact g1 k2 k3
            | succ k => exact g2 k
          · intro g
            refine ⟨fun k2 k3 => ?_, fun k => g (k + 1)⟩
            simpa using g 0 dims rfl k2 k3

/-- C86, when `s[i1][i2]` reads the element that is meant, for a `DM` without offsets, as `fromobject` makes it:
exactly if the first element of `s[i1]` has the position `0` in each group that `i2` fixes after `i1` did not. -/
theorem C86_twice_right (m : DMMeta) (d : Storage V) (mem : List V) (h : (Storage.dm m d).WF mem)
    (ho : ∀ o ∈ m.roffset, o = 0)
    (hp : ∀ n ∈ m.shape, 0 < n) (i1 i2 : Index) (hv1 : ValidItems (items i1) m.shape)
    (hp1 : ∀ n ∈ selShape (items i1) m.shape, 0 < n)
    (hv2 : ValidItems (items i2) (selShape (items i1) m.shape)) (j : List Int)
    (hj : InBox j (selShape (items i2) (selShape (items i1) m.shape))) :
    forgetful2 (isFixed (items i1)) (fun a => isFixed (items i2) (becomes (items i1) a)) m.rdims m.rstrides m.roffset
          d.shape (selSource (items i1) m.shape (selSource (items i2) (selShape (items i1) m.shape) j))
          (selSource (items i1) m.shape ((selShape (items i1) m.shape).map fun _ => 0))
        = target m.rdims m.rstrides m.roffset
            (selSource (items i1) m.shape (selSource (items i2) (selShape (items i1) m.shape) j)) ↔
      ∀ (k : Nat) dims, m.rdims[k]? = some dims → ¬ (∀ a ∈ dims, isFixed (items i1) a = true) →
        (∀ a ∈ dims, isFixed (items i1) a = true ∨ isFixed (items i2) (becomes (items i1) a) = true) →
        (target m.rdims m.rstrides m.roffset
          (selSource (items i1) m.shape ((selShape (items i1) m.shape).map fun _ => 0)))[k]? = some 0 := by
  have hy := source_inBox hp1 hv2 hj
  have hy0 := InBox_zeros hy
  have hzero : (selSource (items i2) (selShape (items i1) m.shape) j).map (fun _ => (0 : Int))
      = (selShape (items i1) m.shape).map fun _ => 0 := by
    rw [List.map_const', List.map_const', hy.length_eq]
  rw [hzero] at hy0
  exact forgetful2_eq_iff _ _ _ _ _ _ _ _ ho (h.1.into _ (source_inBox hp hv1 hy)) (h.1.into _ (source_inBox hp hv1 hy0))
    h.1.rstrides h.1.roffset

/-- The index `::-1`. -/
def flipped : Index := .one (.slice ⟨none, none, some (-1)⟩)

/-- A case of C86: `s[::-1]` has the rows of `s` turned round, and `s[::-1][0]`, which should be the last row, is
the first one; `s[::-1][1]`, which should be the first row, is read at `-1` modulo `2`, so it is the last one. -/
example : let s := Storage.dm sampleDM (.strided sampleStrided)
    let r := Storage.dm ⟨[2, 3], [[0], [1]], [[2], [3]], [[-1], [1]], [1, 0]⟩ (.strided sampleStrided)
    s.WF sampleCells ∧ (Storage.strided sampleStrided).cls ≠ .dm ∧ (∀ n ∈ sampleDM.shape, 0 < n) ∧
    (∀ o ∈ sampleDM.roffset, o = 0) ∧
    Gives s sampleCells flipped r sampleCells ∧
    (∀ n ∈ selShape (items flipped) sampleDM.shape, 0 < n) ∧
    ValidItems (items flipped) sampleDM.shape ∧
    (∀ i : Int, ValidItems (items (.one (.int i))) (selShape (items flipped) sampleDM.shape)) ∧
    selShape (items (.one (.int 0))) (selShape (items flipped) sampleDM.shape) = [3] ∧
    (∀ i ∈ [0, 1], forgetful (isFixed [.int i]) [[0], [1]] [[-1], [1]] [1, 0] [2, 3] [i, 1] = [(-i) % 2, 1]) ∧
    (∀ i ∈ [0, 1], forgetful2 (isFixed (items flipped)) (fun a => isFixed [.int i] (becomes (items flipped) a))
      [[0], [1]] [[1], [1]] [0, 0] [2, 3] (selSource (items flipped) [2, 3] (selSource [.int i] [2, 3] [1]))
      (selSource (items flipped) [2, 3] [0, 0]) = [i, 1]) ∧
    (∀ i ∈ [0, 1], target [[0], [1]] [[1], [1]] [0, 0]
      (selSource (items flipped) [2, 3] (selSource [.int i] [2, 3] [1])) = [1 - i, 1]) ∧
    Reads s sampleCells [0, 1] none ∧ Reads s sampleCells [1, 1] (some 5) ∧
    Gives r sampleCells (.one (.int 0)) (.dm ⟨[3], [[0]], [[3]], [[1]], [0]⟩ (.strided ⟨[3], [1], ⟨6, 0, none⟩⟩))
      sampleCells ∧
    Gives r sampleCells (.one (.int 1)) (.dm ⟨[3], [[0]], [[3]], [[1]], [0]⟩ (.strided ⟨[3], [1], ⟨3, 3, none⟩⟩))
      sampleCells ∧
    Reads (.dm ⟨[3], [[0]], [[3]], [[1]], [0]⟩ (.strided ⟨[3], [1], ⟨6, 0, none⟩⟩)) sampleCells [1] none ∧
    Reads (.dm ⟨[3], [[0]], [[3]], [[1]], [0]⟩ (.strided ⟨[3], [1], ⟨3, 3, none⟩⟩)) sampleCells [1] (some 5) := by
  refine ⟨sampleDM_wf.1, ?_⟩
  refine ⟨by decide, by decide, by decide, .inl ⟨by decide +kernel, rfl⟩, by decide +kernel,
    by simp [items, flipped, sampleDM, ValidItems], fun i => ?_, by decide +kernel, by decide +kernel, by decide +kernel,
    by decide +kernel, by unfold Reads; decide +kernel, by unfold Reads; decide +kernel,
    .inl ⟨by decide +kernel, rfl⟩, .inl ⟨by decide +kernel, rfl⟩, by unfold Reads; decide +kernel,
    by unfold Reads; decide +kernel⟩
  have : selShape (items flipped) sampleDM.shape = [2, 3] := by decide +kernel
  rw [this]
  simp [items, ValidItems]

end Gcs
