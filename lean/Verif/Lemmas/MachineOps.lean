import Verif.Lemmas.Machine
import Verif.Lemmas.Copy
import Verif.Props.SettingDM

/-!
# Lemmas: the statements of a program and the steps of the machine
-/

namespace Gcs

open Spec

variable {V : Type}

/-! ## Different elements are in different cells -/

/-- Different indices with a place are in different cells. -/
def CellInj (s : Storage V) : Prop :=
  ∀ ix jx c, InBox ix s.shape → InBox jx s.shape → s.cellAt ix = some c → s.cellAt jx = some c → ix = jx

theorem Sparse.cellInj {s : Storage V} {rows : List (List Int)} {b : Buffer V} (h : Sparse s rows b) : CellInj s := by
  intro ix jx c hi hj h1 h2
  refine h.cell_inj ix jx ?_ ?_ (h1.trans h2.symm)
  · by_contra hn
    rw [(h.cell_none ix hi).2 hn] at h1
    simp at h1
  · by_contra hn
    rw [(h.cell_none jx hj).2 hn] at h2
    simp at h2

theorem strided_cellInj {s : Strided V} {mem : List V} (h : s.WF mem) (hd : DistinctAddresses s.shape s.strides) :
    CellInj (.strided s) := by
  intro ix jx c hi hj h1 h2
  have e := h1.trans h2.symm
  simp only [Storage.cellAt, Option.some.injEq] at e
  exact Strided.cell_inj h hd hi hj e

theorem dm_cellInj {m : DMMeta} {d : Storage V} {mem : List V} (h : (Storage.dm m d).WF mem)
    (hc : d.cls = .buffer ∨ d.cls = .strided) (hg : DistinctCells (.dm m d)) : CellInj (.dm m d) := by
  intro ix jx c hi hj h1 h2
  exact dm_cell_inj h.2 h.1 hc hg.1 hg.2 hi hj (h1.trans h2.symm)

/-! ## New objects -/

/-- What a new object `r` with the list `mem` has. -/
structure Fresh (r : Storage V) (mem : List V) (kind : Kind) (shape : List Nat) (u : V) (e : List Int → Option V) :
    Prop where
  wf : r.WF mem
  kind_ok : KindOk kind r
  shape_eq : r.shape = shape
  unspec : r.unspec = u
  inj : CellInj r
  cell : ∀ ix, InBox ix shape → e ix = (r.cellAt ix).bind fun c => mem[c]?

theorem Storage.WF.place_at [DecidableEq V] {s : Storage V} {mem : List V} (h : s.WF mem) (ix : List Int)
    (hi : InBox ix s.shape) (c : Nat) (hc : s.cellAt ix = some c) : mem[c]? = some (s.at mem ix) := by
  have := h.cell_lt ix hi c hc
  rw [h.at_cell ix hi, hc]
  simp [cellVal, this]

theorem Fresh.intro [DecidableEq V] {r : Storage V} {mem : List V} {kind : Kind} {shape : List Nat} {u : V}
    {e : List Int → Option V} {f : List Int → V} (hs : Stands r mem shape f) (hk : KindOk kind r) (hu : r.unspec = u)
    (hi : CellInj r) (h0 : ∀ ix, InBox ix shape → r.cellAt ix = none → e ix = none)
    (h1 : ∀ ix, InBox ix shape → r.cellAt ix ≠ none → e ix = some (f ix)) : Fresh r mem kind shape u e := by
  refine ⟨hs.wf, hk, hs.shape_eq, hu, hi, fun ix hx => ?_⟩
  have hx' : InBox ix r.shape := by rw [hs.shape_eq]; exact hx
  cases hc : r.cellAt ix with
  | none => rw [h0 ix hx hc]; rfl
  | some c =>
    rw [h1 ix hx (by rw [hc]; simp), Option.bind_some, hs.wf.place_at ix hx' c hc, hs.reads ix hx]

theorem Refines.fresh {w : World V} {m : Machine V} {pos : Nat → List Int → Option Nat} (h : Refines w m pos)
    {r : Storage V} {mem : List V} {kind : Kind} {shape : List Nat} {u : V} {e : List Int → Option V}
    (hf : Fresh r mem kind shape u e) (hne : shape ≠ []) (hp : PosShape shape) :
    ∃ pos', Refines (w.addFresh r mem) (m.add kind shape u e) pos' :=
  h.addFresh hf.wf hf.kind_ok hf.shape_eq hf.unspec hne hp
    (fun ix jx c hi hj => hf.inj ix jx c (by rw [hf.shape_eq]; exact hi) (by rw [hf.shape_eq]; exact hj)) hf.cell

/-- A storage that has a place for each index. -/
theorem dense_kind {kind : Kind} {s : Storage V} {mem : List V} (hk : KindOk kind s) (hd : kind.sparse = false)
    (h : s.WF mem) (ix : List Int) (hi : InBox ix s.shape) : ∃ c, s.cellAt ix = some c := by
  cases kind with
  | strided => exact dense_cell (.inr hk) ix hi
  | dm cut =>
    obtain ⟨m, d, rfl, hc, _⟩ := hk
    exact dense_cell hc _ (h.1.into ix hi)
  | _ => simp [Kind.sparse] at hd

theorem sparse_kind {kind : Kind} {s : Storage V} {mem : List V} (hk : KindOk kind s) (hd : kind.sparse = true)
    (h : s.WF mem) : ∃ rows b, Sparse s rows b ∧ b.WF mem := by
  apply sparse_of_wf h
  cases kind with
  | coo => exact .inl hk
  | flatcoo => exact .inr (.inl hk)
  | csr => exact .inr (.inr hk)
  | _ => simp [Kind.sparse] at hd

theorem buildFlat_distinct [DecidableEq V] {cls : Cls} (hcls : cls = .buffer ∨ cls = .strided) {shape : List Nat}
    {value : List Int → PyM V} {su u : V} {r : Storage V} {mem : List V}
    (h : buildFlat cls shape value su u = .ok (r, mem)) : DistinctCells r := by
  rcases hcls with rfl | rfl
  · simp only [buildFlat, bind_eq_ok, pure_eq_ok, Prod.mk.injEq] at h
    obtain ⟨_, _, rfl, _⟩ := h
    trivial
  · simp only [buildFlat, bind_eq_ok, pure_eq_ok, Prod.mk.injEq] at h
    obtain ⟨_, h4, rfl, _⟩ := h
    simp only [stridedBuild, bind_eq_ok, pure_eq_ok] at h4
    obtain ⟨_, _, sd, h5, rfl⟩ := h4
    simp only [Strided.new, bind_eq_ok, pyAssert_eq_ok, pure_eq_ok] at h5
    obtain ⟨_, _, rfl⟩ := h5
    exact makeStrides_distinct _

theorem dmBuild_distinct [DecidableEq V] {cls : Cls} (hcls : cls = .buffer ∨ cls = .strided) {shape : List Nat}
    {dimensions partitioning : Option (List Nat)} {value : List Int → PyM V} {su u : V} {r : Storage V} {mem : List V}
    (h : dmBuild cls shape dimensions partitioning value su u = .ok (r, mem)) : DistinctCells r := by
  have h' : dmBuildWith (fun rshape value' => buildFlat cls rshape value' su u) (cls = .buffer) shape dimensions
      partitioning value = .ok (r, mem) := by
    rcases hcls with rfl | rfl <;> exact h
  obtain ⟨m, d, rshape, value', rfl, h2, h3⟩ := dmBuildWith_distinct h'
  exact ⟨h3, buildFlat_distinct hcls h2⟩

theorem made_dense [DecidableEq V] {kind : Kind} (hd : kind.sparse = false) (u : V) (f : List Int → V) (ix : List Int) :
    made kind u f ix = some (f ix) := by
  simp [made, hd]

/-- The general branch of `fromobject`. -/
theorem general_fresh [DecidableEq V] (cls : Cls) (shape : List Nat) (hne : shape ≠ []) (value : List Int → PyM V)
    (su u : V) (a : List Int → V) (h : ∀ ix, InBox ix shape → value ix = .ok (a ix))
    (hc : ClassFits cls shape u fun ix => replaced su u (a ix)) :
    ∃ s mem, (match cls with
      | .dm => dmBuild .strided shape none none value su u
      | c => buildFlat c shape value su u) = .ok (s, mem) ∧
      Fresh s mem (Kind.ofCls cls) shape u (made (Kind.ofCls cls) u fun ix => replaced su u (a ix)) := by
  obtain ⟨s, mem, h1, h2, h3, h4, h5, h6⟩ := general_ok cls shape hne value su u a h
    ⟨fun e => absurd e hc.1, hc.2⟩
  refine ⟨s, mem, h1, ?_⟩
  have dense : ∀ k : Kind, KindOk k s → k.sparse = false → CellInj s →
      Fresh s mem k shape u (made k u fun ix => replaced su u (a ix)) := by
    intro k hk hd hi
    refine .intro h5 hk h3 hi (fun ix hx h0 => ?_) fun ix hx _ => made_dense hd _ _ _
    obtain ⟨c, hc⟩ := dense_kind hk hd h5.wf ix (by rw [h5.shape_eq]; exact hx)
    rw [h0] at hc
    simp at hc
  have sparse : ∀ k : Kind, KindOk k s → k.sparse = true →
      (∃ b, Sparse s (keptRows s.shape (fun ix => subst su u (a ix)) u) b ∧ b.WF mem) →
      Fresh s mem k shape u (made k u fun ix => replaced su u (a ix)) := by
    rintro k hk hd ⟨b, hb, _⟩
    refine .intro h5 hk h3 hb.cellInj (fun ix hx h0 => ?_) fun ix hx h0 => ?_
    · have hx' : InBox ix s.shape := by rw [h5.shape_eq]; exact hx
      have := (hb.cell_none ix hx').1 h0
      rw [mem_keptRows] at this
      simp only [not_and, not_not] at this
      have e := this hx'
      simp only [made, hd, true_and]
      exact if_pos e
    · have hx' : InBox ix s.shape := by rw [h5.shape_eq]; exact hx
      have : ix ∈ keptRows s.shape (fun ix => subst su u (a ix)) u := by
        by_contra hn
        exact h0 ((hb.cell_none ix hx').2 hn)
      have e := ((mem_keptRows _ _ _ _).1 this).2
      simp only [made, hd, true_and]
      exact if_neg e
  cases cls with
  | buffer => exact absurd rfl hc.1
  | strided =>
    apply dense .strided h2 rfl
    cases s with
    | strided s => exact strided_cellInj h5.wf (buildFlat_distinct (.inr rfl) h1)
    | _ => simp [Storage.cls] at h2
  | coo => exact sparse .coo h2 rfl (by simpa only [Kept, h2] using h6)
  | flatcoo => exact sparse .flatcoo h2 rfl (by simpa only [Kept, h2] using h6)
  | csr => exact sparse .csr h2 rfl (by simpa only [Kept, h2] using h6)
  | dm =>
    obtain ⟨m, st, mem', h7, ⟨⟨g1, _⟩, _⟩, _⟩ := dmBuild_ok .strided shape none none value su u a
      (goodSplit_default _ _ (List.length_pos_of_ne_nil hne)) h (by simp) (by simp)
    have e := h1.symm.trans h7
    simp only [Except.ok.injEq, Prod.mk.injEq] at e
    obtain ⟨rfl, rfl⟩ := e
    exact dense (.dm false) ⟨m, st, rfl, .inr g1, fun _ => h4, by simp⟩ rfl
      (dm_cellInj h5.wf (.inr g1) (dmBuild_distinct (.inr rfl) h1))

/-- `DM.fromobject` with its arguments. -/
theorem dm_fresh [DecidableEq V] (cls : Cls) (shape : List Nat) (hne : shape ≠ []) (d p : Option (List Nat))
    (value : List Int → PyM V) (su u : V) (a : List Int → V) (h : ∀ ix, InBox ix shape → value ix = .ok (a ix))
    (hs : SplitFits shape.length d p cls) :
    ∃ s mem, dmBuild cls shape d p value su u = .ok (s, mem) ∧
      Fresh s mem (.dm false) shape u (made (.dm false) u fun ix => replaced su u (a ix)) := by
  obtain ⟨hd, hp, hc⟩ := hs
  have hn : 0 < shape.length := List.length_pos_of_ne_nil hne
  have hg : ∀ b : Bool, GoodSplit shape.length (d.getD (List.range shape.length)) (dmPartitioning shape.length b p) := by
    intro b
    have hperm : (d.getD (List.range shape.length)).Perm (List.range shape.length) := by
      cases d with
      | none => exact List.Perm.refl _
      | some d => exact hd d rfl
    cases p with
    | none =>
      have := goodSplit_default shape.length b hn
      exact ⟨hperm, this.sorted, this.pos, this.lt, hn⟩
    | some p =>
      obtain ⟨h1, h2⟩ := hp p rfl
      exact ⟨hperm, h1, fun k hk => (h2 k hk).1, fun k hk => (h2 k hk).2, hn⟩
  have hcls : cls = .buffer ∨ cls = .strided := by
    rcases hc with rfl | ⟨rfl, _⟩
    · exact .inr rfl
    · exact .inl rfl
  obtain ⟨m, st, mem, h1, ⟨⟨g1, g2⟩, _⟩, g3, g4⟩ := dmBuild_ok cls shape d p value su u a (hg _) h (by
    rintro rfl
    rcases hc with hc | ⟨_, rfl | rfl⟩
    · simp at hc
    · rfl
    · rfl) (by rintro rfl; simp at hcls)
  have hst : st.cls = .buffer ∨ st.cls = .strided := by rw [g1]; exact hcls
  refine ⟨.dm m st, mem, h1, ?_⟩
  have hk : KindOk (V := V) (.dm false) (.dm m st) := ⟨m, st, rfl, hst, fun _ => g3, by simp⟩
  refine .intro g4 hk g2 (dm_cellInj g4.wf hst (dmBuild_distinct hcls h1)) (fun ix hx h0 => ?_)
    fun ix hx _ => made_dense rfl _ _ _
  obtain ⟨c, hc⟩ := dense_kind hk rfl g4.wf ix (by rw [g4.shape_eq]; exact hx)
  rw [h0] at hc
  simp at hc

/-! ## Slices -/

/-- A slice of a `Buffer` or `Strided` with ints and `None`. -/
theorem dense_slice [DecidableEq V] {d : Storage V} {mem : List V} (h : d.WF mem)
    (hc : d.cls = .buffer ∨ d.cls = .strided) (hp : PosShape d.shape) (index : Index)
    (hv : ValidItems (items index) d.shape) (hb : d.cls = .buffer → index = .tuple [.none])
    (hne : selShape (items index) d.shape ≠ []) :
    ∃ r, d.getItem mem index = .ok (.view r) ∧ r.WF mem ∧ (r.cls = .buffer ∨ r.cls = .strided) ∧
      r.shape = selShape (items index) d.shape ∧ r.unspec = d.unspec ∧
      ∀ j, InBox j (selShape (items index) d.shape) → r.cellAt j = d.cellAt (selSource (items index) d.shape j) := by
  cases d with
  | buffer b =>
    obtain rfl := hb rfl
    refine ⟨.buffer b, rfl, h, .inl rfl, rfl, rfl, ?_⟩
    intro j hj
    cases j with
    | nil => exact hj.elim
    | cons j0 j => rfl
  | strided s =>
    rcases Strided.getItem_slice h hp index hv with ⟨h1, _⟩ | ⟨h1, r, h2, h3, h4, h5, h6, _⟩
    · exact absurd h1 hne
    · refine ⟨.strided r, ?_, h3, .inr rfl, h4, h5, ?_⟩
      · simp only [Storage.getItem, h2, bind, Except.bind, pure, Except.pure]
      · intro j hj
        have := (h6 j (by rw [h4]; exact hj)).2
        simp only [Storage.cellAt, this, Storage.shape]
  | coo c => simp [Storage.cls] at hc
  | flatcoo c => simp [Storage.cls] at hc
  | csr c => simp [Storage.cls] at hc
  | dm m d => simp [Storage.cls] at hc

/-- A slice of a `DM` over a `Buffer` or a `Strided`. -/
theorem dm_slice [DecidableEq V] {m : DMMeta} {d : Storage V} {mem : List V} (h : (Storage.dm m d).WF mem)
    (hc : d.cls = .buffer ∨ d.cls = .strided) (index : Index) (hz : SafeIndex (.dm m d) index) (hp : PosShape m.shape)
    (hv : ValidItems (items index) m.shape) (hne : selShape (items index) m.shape ≠ []) :
    ∃ m' r, (Storage.dm m d).getItem mem index = .ok (.view (.dm m' r)) ∧ (Storage.dm m' r).WF mem ∧
      (r.cls = .buffer ∨ r.cls = .strided) ∧ m'.shape = selShape (items index) m.shape ∧ r.unspec = d.unspec ∧
      (∀ g ∈ m'.rdims, g ≠ []) ∧
      ∀ j, InBox j (selShape (items index) m.shape) →
        (Storage.dm m' r).cellAt j = (Storage.dm m d).cellAt (selSource (items index) m.shape j) := by
  obtain ⟨hm, hd⟩ : m.WF d.shape ∧ d.WF mem := h
  obtain ⟨nix, n1, n2, n3, n4, n5⟩ := index_cases index m.shape hp hv
  have hint : ∀ a, isIntAt nix a = true → intItem (items index) a := by
    intro a ha
    rw [normalizeIndex_eq_items index m.shape hv] at n1
    exact normalizeItems_int _ _ _ n1 a ha
  rcases n5 with ⟨g1, g2, g3⟩ | ⟨g1, g2⟩
  · exact absurd g2 hne
  · obtain ⟨rd, rst, roff, dix, e1, e2, e3, e4, e5, e6, e7, e8⟩ := dmSliceLoop_ok nix m.shape n2 hp m.rdims m.rstrides
      m.roffset (fun a ha => (hm.axes a).1 ha) hm.rstrides hm.roffset
    have hoff := offsetsOk_of (items index) nix hint m.rdims m.roffset hz.1
    obtain ⟨ix0, hx0⟩ := exists_inBox hp
    have hpin : PosShape d.shape := InBox_pos (hm.into ix0 hx0)
    have hdl : dix.length = d.shape.length := by rw [e5, hm.rank]
    have hval : ValidItems (items (.tuple dix)) d.shape := validItems_intsNones e6 _ hdl
    have hax : ∀ a, a ∈ rd.flatten ↔ a < (selShape (items index) m.shape).length := by
      intro a
      rw [e4, ← n3, ← axes_ok nix m.shape n2 a]
      constructor
      · rintro ⟨x, h1, h2⟩; exact ⟨x, (hm.axes x).1 h1, h2⟩
      · rintro ⟨x, h1, h2⟩; exact ⟨x, (hm.axes x).2 h1, h2⟩
    have hrd : rd ≠ [] := by
      intro he
      rw [he] at hax
      have h0 := (hax 0).2 (List.length_pos_of_ne_nil hne)
      simp at h0
    have hsl : selShape dix d.shape ≠ [] := by
      intro he
      have := e7 d.shape hm.rank
      rw [he] at this
      exact hrd (List.length_eq_zero_iff.1 this.symm)
    have hdne : dix.isEmpty = false := by
      cases dix with
      | nil =>
        exfalso
        simp at e5
        exact hm.ne (List.length_eq_zero_iff.1 e5.symm)
      | cons => rfl
    obtain ⟨r, q1, q2, q3, q4, q5, q6⟩ := dense_slice hd hc hpin (.tuple dix) hval (by
      intro hb
      cases d with
      | buffer b =>
        simp only [Storage.shape, List.length_singleton] at hdl
        obtain ⟨x, rfl⟩ := List.length_eq_one_iff.1 hdl
        rcases e6 x (by simp) with rfl | ⟨i, rfl⟩
        · rfl
        · exact absurd rfl hsl
      | _ => simp [Storage.cls] at hb) hsl
    have hshape : shapeStrided nix m.shape = .ok (selShape (items index) m.shape) := by
      rw [shapeStrided_ok nix m.shape n2, n3]
    have hnew := DMMeta.new_ok (selShape (items index) m.shape) rd rst roff hrd hax
    have hloop : dmSliceLoop nix m.rdims m.rshapes m.rstrides m.roffset = .ok (rd, rst, roff, dix) := by
      rw [hm.rshapes]; exact e1
    have hcells : ∀ j, InBox j (selShape (items index) m.shape) →
        InBox (target rd rst roff j) (selShape dix d.shape) ∧ selSource dix d.shape (target rd rst roff j)
          = target m.rdims m.rstrides m.roffset (selSource (items index) m.shape j) := by
      intro j hj
      have := e8 d.shape j (by rw [n3]; exact hj) hoff (by rw [n4 j hj]; exact hm.into _ (source_inBox hp hv hj))
      rw [n4 j hj] at this
      exact this
    refine ⟨⟨selShape (items index) m.shape, rd, groupShapes (selShape (items index) m.shape) rd, rst, roff⟩, r, ?_,
      ⟨⟨hrd, hax, rfl, e2, e3, ?_, ?_⟩, q2⟩, q3, rfl, q5, (dmSliceLoop_groups nix _ _ _ _ hloop).1, ?_⟩
    · simp only [Storage.getItem, n1, bind, Except.bind, g1, hshape, hloop, hdne, Bool.false_eq_true, if_false, q1, hnew,
        pure, Except.pure]
    · rw [q4]; exact e7 d.shape hm.rank
    · intro j hj
      rw [q4]
      exact (hcells j hj).1
    · intro j hj
      obtain ⟨c1, c2⟩ := hcells j hj
      simp only [Storage.cellAt]
      rw [q6 _ c1]
      simp only [items, c2]

/-- An element of a `DM`. -/
theorem dm_elem [DecidableEq V] {m : DMMeta} {d : Storage V} {mem : List V} (h : (Storage.dm m d).WF mem)
    (hp : PosShape m.shape) (index : Index)
    (hv : ValidItems (items index) m.shape) (he : selShape (items index) m.shape = []) :
    (Storage.dm m d).getItem mem index = .ok (.val ((Storage.dm m d).at mem (selSource (items index) m.shape []))) := by
  obtain ⟨hm, hd⟩ : m.WF d.shape ∧ d.WF mem := h
  obtain ⟨nix, n1, n2, n3, n4, n5⟩ := index_cases index m.shape hp hv
  rcases n5 with ⟨g1, g2, g3⟩ | ⟨g1, g2⟩
  · have := getItem_of_getVal (hd.getVal_ok _ (hm.into _ g3))
    simp only [Storage.getItem, n1, bind, Except.bind, g1, hm.getDataPosition_ok _ g3, this, at_dm hm hd _ g3]
  · exact absurd he g2

/-- Elements of all kinds. -/
theorem kind_elem [DecidableEq V] {kind : Kind} {s : Storage V} {mem : List V} (h : s.WF mem) (hk : KindOk kind s)
    (hp : PosShape s.shape) (index : Index) (hv : ValidItems (items index) s.shape)
    (he : selShape (items index) s.shape = []) :
    s.getItem mem index = .ok (.val (s.at mem (selSource (items index) s.shape []))) := by
  by_cases hd : kind.sparse = true
  · obtain ⟨rows, b, hs, hb⟩ := sparse_kind hk hd h
    exact hs.getItem_elem hp mem hb index hv he
  · cases kind with
    | strided =>
      cases s with
      | strided s =>
        rcases Strided.getItem_slice h hp index hv with ⟨_, h2⟩ | ⟨h1, _⟩
        · simp only [Storage.getItem, h2, bind, Except.bind, pure, Except.pure, Storage.shape]
          have hi : InBox (selSource (items index) s.shape []) s.shape :=
            source_inBox hp hv (by rw [he]; trivial)
          rw [at_strided h _ hi]
        · exact absurd he h1
      | _ => simp [KindOk, Storage.cls] at hk
    | dm cut =>
      obtain ⟨m, d, rfl, _, _⟩ := hk
      exact dm_elem h hp index hv he
    | _ => simp [Kind.sparse] at hd

end Gcs
