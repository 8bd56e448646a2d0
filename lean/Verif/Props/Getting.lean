import Verif.Props.Construct

/-!
# C31 to C36: indexing storages

`Spec.Selects s mem index P` says that `s[index]` is the element or the array that the index selects,
where `P` is what else is known of the resulting object.  `Storage.WF` (Lemmas/Den.lean) is the
well-formedness of storage objects.
-/

namespace Gcs

open Spec

variable {V : Type} [DecidableEq V]

theorem source_inBox {shape : List Nat} (hp : PosShape shape) {index : Index} (hv : ValidItems (items index) shape)
    {j : List Int} (hj : InBox j (selShape (items index) shape)) : InBox (selSource (items index) shape j) shape := by
  obtain ⟨_, _, _, _, _, _, _, g⟩ := index_ok index shape (makeStrides shape) hp hv (makeStrides_length _)
  exact (g j hj).1

/-- `Selects` from the element case and the array case. -/
theorem selects_of {s : Storage V} {mem : List V} (h : s.WF mem) (hp : PosShape s.shape) {index : Index}
    (hv : ValidItems (items index) s.shape) {P : Storage V → List V → Prop}
    (he : selShape (items index) s.shape = [] →
      s.getItem mem index = .ok (.val (s.at mem (selSource (items index) s.shape []))))
    (ha : selShape (items index) s.shape ≠ [] → ∃ r m, Gives s mem index r m ∧ P r m ∧ r.unspec = s.unspec ∧
      Stands r m (selShape (items index) s.shape) fun j => s.at mem (selSource (items index) s.shape j)) :
    Selects s mem index P := by
  refine ⟨fun h0 => ⟨_, he h0, h.reads _ (source_inBox hp hv (by rw [h0]; trivial))⟩, fun h0 => ?_⟩
  obtain ⟨r, m, g1, g2, g3, g4⟩ := ha h0
  refine ⟨r, m, g1, g2, g4.shape_eq, g3, fun j hj => ⟨_, h.reads _ (source_inBox hp hv (by rw [← g4.shape_eq]; exact hj)), ?_⟩⟩
  have := g4.wf.reads j hj
  rwa [g4.reads j (by rw [← g4.shape_eq]; exact hj)] at this

/-- Indexing a storage of any class. -/
theorem selects_any {s : Storage V} {mem : List V} (h : s.WF mem) (hp : PosShape s.shape) {index : Index}
    (hv : ValidItems (items index) s.shape) (hb : BufferIndex s index) (hz : SafeIndex s index) :
    Selects s mem index fun r m => r.WF m ∧ SliceCls s.cls r.cls := by
  apply selects_of h hp hv
  · intro h0
    rcases h.getItem_ok hp index hv hb hz with ⟨_, g⟩ | ⟨g, _⟩
    · exact g
    · exact absurd h0 g
  · intro h0
    rcases h.getItem_ok hp index hv hb hz with ⟨g, _⟩ | ⟨_, r, m, g1, g2, g3⟩
    · exact absurd g h0
    · exact ⟨r, m, g1, ⟨g3.wf, g2.2⟩, g2.1, g3⟩

/-- C31.  Indexing a `Strided`; the result is a well-formed `Strided` on the same list. -/
theorem C31_strided_slice (s : Strided V) (mem : List V) (h : s.WF mem) (hp : ∀ n ∈ s.shape, 0 < n) (index : Index)
    (hv : ValidItems (items index) s.shape) :
    Selects (.strided s) mem index fun r m => m = mem ∧ ∃ t, r = .strided t ∧ t.WF mem := by
  have h' : (Storage.strided s).WF mem := h
  rcases selects_any h' hp hv trivial trivial with ⟨h1, h2⟩
  refine ⟨h1, fun h0 => ?_⟩
  obtain ⟨r, m, g1, g2, g3⟩ := h2 h0
  rcases Strided.getItem_slice h hp index hv with ⟨e1, _⟩ | ⟨_, t, e2, e3, _⟩
  · exact absurd e1 h0
  · have e4 : (Storage.strided s).getItem mem index = .ok (.view (.strided t)) := by
      simp only [Storage.getItem, e2, bind, Except.bind, pure, Except.pure]
    have e5 : r = .strided t ∧ m = mem := by
      rcases g1 with ⟨g1, rfl⟩ | g1
      · rw [e4] at g1
        simp only [Except.ok.injEq, Res.view.injEq] at g1
        exact ⟨g1.symm, rfl⟩
      · rw [e4] at g1; simp at g1
    exact ⟨r, m, g1, ⟨e5.2, t, e5.1, e3⟩, g3⟩

/-- Objects built by `fromobject` are well-formed. -/
theorem built_wf [HasNone V] (cls : Cls) (n : Nested V) (shape : List Nat) (hne : shape ≠ []) (h : HasShape n shape)
    (u : Option V) (s : Storage V) (mem : List V) (hb : fromObject cls (.nested n) u = .ok (.fresh s mem))
    (hc : (cls = .buffer → shape.length = 1) ∧
      (cls = .csr → shape.length = 2 ∧ ∃ ix v, item n ix = some v ∧ stored u v ≠ u.getD pyNone)) :
    s.WF mem ∧ s.shape = shape ∧ s.cls = cls ∧ ZeroOff s := by
  obtain ⟨s', mem', h1, h2, _, h3, h4, _⟩ := fromObject_nested cls n shape hne h u
    ⟨hc.1, fun e => ⟨(hc.2 e).1, by
      obtain ⟨ix, v, g1, g2⟩ := (hc.2 e).2
      obtain ⟨e1, e2⟩ := item_box h g1
      exact ⟨ix, e1, by simp only [e2]; exact g2⟩⟩⟩
  rw [h1] at hb
  simp only [Except.ok.injEq, Made.fresh.injEq] at hb
  obtain ⟨rfl, rfl⟩ := hb
  exact ⟨h4.wf, h4.shape_eq, h2, h3⟩

/-- The storage of each class built from `sample`, and its list. -/
def sampleStrided : Strided (Option Int) := ⟨[2, 3], [3, 1], ⟨6, 0, none⟩⟩
def sampleCells : List (Option Int) := [some 1, none, some 3, none, some 5, none]
def sampleCOO : COO (Option Int) :=
  ⟨[2, 3], ⟨[2, 3], [3, 1], ⟨6, 0, none⟩⟩, [some 0, some 0, some 1, some 0, some 2, some 1], ⟨3, 0, none⟩⟩
def sampleFlat : FlatCOO (Option Int) := ⟨[2, 3], ⟨3, 0, none⟩, [some 0, some 2, some 4], ⟨3, 0, none⟩⟩
def sampleCSR : CSR (Option Int) :=
  ⟨[2, 3], ⟨3, 0, none⟩, [some 0, some 2, some 3], ⟨3, 0, none⟩, [some 0, some 2, some 1], ⟨3, 0, none⟩⟩
def sampleItems : List (Option Int) := [some 1, some 3, some 5]

theorem sampleStrided_wf : (Storage.strided sampleStrided).WF sampleCells :=
  (built_wf .strided sample [2, 3] (by simp) sample_shape none _ _ (by decide +kernel) ⟨by simp, by simp⟩).1
theorem sampleCOO_wf : (Storage.coo sampleCOO).WF sampleItems :=
  (built_wf .coo sample [2, 3] (by simp) sample_shape none _ _ (by decide +kernel) ⟨by simp, by simp⟩).1
theorem sampleFlat_wf : (Storage.flatcoo sampleFlat).WF sampleItems :=
  (built_wf .flatcoo sample [2, 3] (by simp) sample_shape none _ _ (by decide +kernel) ⟨by simp, by simp⟩).1
theorem sampleCSR_wf : (Storage.csr sampleCSR).WF sampleItems :=
  (built_wf .csr sample [2, 3] (by simp) sample_shape none _ _ (by decide +kernel)
    ⟨by simp, fun _ => ⟨rfl, [1, 1], some 5, rfl, by decide⟩⟩).1

/-- A case of C31: `s[::-1, 2]`. -/
example : (Storage.strided sampleStrided).WF sampleCells ∧
    (let index : Index := .tuple [.slice ⟨none, none, some (-1)⟩, .int 2]
    (Storage.strided sampleStrided).getItem sampleCells index = .ok (.view (.strided ⟨[2], [-3], ⟨1, 5, none⟩⟩)) ∧
      selShape (items index) [2, 3] = [2] ∧ selSource (items index) [2, 3] [1] = [0, 2]) :=
  ⟨sampleStrided_wf, by decide +kernel⟩

theorem sparse_slice_enumerates {s : Storage V} {mem : List V} {index : Index} {rows : List (List Int)} {b : Buffer V}
    {r : Storage V} {vals : List V} {rows' : List (List Int)} {b' : Buffer V}
    (g : SparseSlice s mem index rows b r vals rows' b') (hp : r.cls = .flatcoo → PosShape r.shape)
    (keep : List Int → V → Prop)
    (hk : ∀ j, InBox j (selShape (items index) s.shape) → (j ∈ rows' ↔ keep j (r.at vals j))) :
    Enumerates r vals keep := by
  refine enumerates_of (g.sparse.wf _ g.buf) rows' _ (g.sparse.elements_ok vals g.buf hp) g.sparse.rows_ok.sorted ?_
  intro ix
  constructor
  · intro hx
    have hi := g.sparse.rows_ok.inbox ix hx
    exact ⟨hi, (hk ix (by rw [← g.shape_eq]; exact hi)).1 hx⟩
  · rintro ⟨h1, h2⟩
    exact (hk ix (by rw [← g.shape_eq]; exact h1)).2 h2

theorem sparse_stored {s : Storage V} {mem : List V} {rows : List (List Int)} {b : Buffer V} (h : Sparse s rows b)
    (hm : b.WF mem) (hp : s.cls = .flatcoo → PosShape s.shape) (ix : List Int) : Stored s mem ix ↔ ix ∈ rows := by
  have he := h.elements_ok mem hm hp
  constructor
  · rintro ⟨es, v, h1, h2⟩
    rw [he] at h1
    simp only [Except.ok.injEq] at h1
    subst h1
    simp only [List.mem_map, Prod.mk.injEq, Storage.Key.tuple.injEq] at h2
    obtain ⟨x, hx, rfl, _⟩ := h2
    exact hx
  · intro hx
    exact ⟨_, s.at mem ix, he, List.mem_map.2 ⟨ix, hx, rfl⟩⟩

theorem SparseSlice.stands {s : Storage V} {mem : List V} {index : Index} {rows : List (List Int)} {b : Buffer V}
    {r : Storage V} {vals : List V} {rows' : List (List Int)} {b' : Buffer V} (h : Sparse s rows b) (hm : b.WF mem)
    (hp : PosShape s.shape) (hv : ValidItems (items index) s.shape)
    (g : SparseSlice s mem index rows b r vals rows' b') :
    r.unspec = s.unspec ∧
      Stands r vals (selShape (items index) s.shape) fun j => s.at mem (selSource (items index) s.shape j) := by
  refine ⟨by rw [g.sparse.unspec, g.unspec_eq, h.unspec], g.sparse.wf _ g.buf, g.shape_eq, fun j hj => ?_⟩
  rw [g.sparse.at _ g.buf j (by rw [g.shape_eq]; exact hj), g.values j hj]
  exact (h.at mem hm _ (source_inBox hp hv hj)).symm

/-- C32.  Indexing a `COO`; a slice is a well-formed `COO` with a list of its own that stores exactly
the stored elements inside the selection. -/
theorem C32_coo_slice (c : COO V) (mem : List V) (h : (Storage.coo c).WF mem) (hp : ∀ n ∈ c.shape, 0 < n)
    (index : Index) (hv : ValidItems (items index) c.shape) :
    Selects (.coo c) mem index fun r m =>
      (Storage.coo c).getItem mem index = .ok (.fresh r m) ∧ (∃ c', r = .coo c') ∧ r.WF m ∧
      Enumerates r m fun j _ => Stored (.coo c) mem (selSource (items index) c.shape j) := by
  obtain ⟨⟨rows, hr⟩, hm⟩ := h
  refine selects_of ((Sparse.coo hr).wf mem hm) hp hv ((Sparse.coo hr).getItem_elem hp mem hm index hv) fun h0 => ?_
  obtain ⟨r, vals, rows', b', g, gs⟩ := coo_getItem hr hp mem hm index hv h0
  have st := g.stands (Sparse.coo hr) hm hp hv
  refine ⟨.coo r, vals, .inr g.eval, ⟨g.eval, ⟨r, rfl⟩, st.2.wf, ?_⟩, st.1, st.2⟩
  apply sparse_slice_enumerates g (by simp [Storage.cls])
  intro j hj
  rw [gs j hj, sparse_stored (Sparse.coo hr) hm (by simp [Storage.cls])]

/-- The index of the cases below, `[::-1, 1:]`. -/
def turned : Index := .tuple [.slice ⟨none, none, some (-1)⟩, .slice ⟨some 1, none, none⟩]

/-- A case of C32: the slice stores the items at `[0, 0]` and `[1, 1]`, that are at `[1, 1]` and `[0, 2]` in
the original. -/
example : (Storage.coo sampleCOO).WF sampleItems ∧ ValidItems (items turned) [2, 3] ∧
    (Storage.coo sampleCOO).getItem sampleItems turned
      = .ok (.fresh (.coo ⟨[2, 2], ⟨[2, 2], [2, 1], ⟨4, 0, none⟩⟩, [some 0, some 1, some 0, some 1], ⟨2, 0, none⟩⟩)
          [some 5, some 3]) ∧
    selSource (items turned) [2, 3] [0, 0] = [1, 1] ∧ selSource (items turned) [2, 3] [1, 1] = [0, 2] :=
  ⟨sampleCOO_wf, by simp [items, turned, ValidItems], by decide +kernel⟩

/-- C33.  Indexing a `FlatCOO`.  (What a slice stores is said for selections without an empty axis; for
others `elements()` can raise.) -/
theorem C33_flatcoo_slice (f : FlatCOO V) (mem : List V) (h : (Storage.flatcoo f).WF mem) (hp : ∀ n ∈ f.shape, 0 < n)
    (index : Index) (hv : ValidItems (items index) f.shape) :
    Selects (.flatcoo f) mem index fun r m =>
      (Storage.flatcoo f).getItem mem index = .ok (.fresh r m) ∧ (∃ f', r = .flatcoo f') ∧ r.WF m ∧
      ((∀ n ∈ r.shape, 0 < n) →
        Enumerates r m fun j _ => Stored (.flatcoo f) mem (selSource (items index) f.shape j)) := by
  obtain ⟨⟨rows, hr⟩, hm⟩ := h
  refine selects_of ((Sparse.flatcoo hr).wf mem hm) hp hv ((Sparse.flatcoo hr).getItem_elem hp mem hm index hv) fun h0 => ?_
  obtain ⟨r, vals, rows', b', g, gs⟩ := flatcoo_getItem hr hp mem hm index hv h0
  have st := g.stands (Sparse.flatcoo hr) hm hp hv
  refine ⟨.flatcoo r, vals, .inr g.eval, ⟨g.eval, ⟨r, rfl⟩, st.2.wf, fun hp' => ?_⟩, st.1, st.2⟩
  apply sparse_slice_enumerates g fun _ => hp'
  intro j hj
  rw [gs j hj, sparse_stored (Sparse.flatcoo hr) hm fun _ => hp]

/-- A case of C33. -/
example : (Storage.flatcoo sampleFlat).WF sampleItems ∧ ValidItems (items turned) [2, 3] ∧
    (Storage.flatcoo sampleFlat).getItem sampleItems turned
      = .ok (.fresh (.flatcoo ⟨[2, 2], ⟨2, 0, none⟩, [some 0, some 3], ⟨2, 0, none⟩⟩) [some 5, some 3]) :=
  ⟨sampleFlat_wf, by simp [items, turned, ValidItems], by decide +kernel⟩

/-- C34.  Indexing a `CSR`.  A slice that keeps both axes is a `CSR` that stores the stored elements
inside the selection.  A slice that keeps one axis is a `COO` that stores the selected elements
different from the unspecified value. -/
theorem C34_csr_slice (c : CSR V) (mem : List V) (h : (Storage.csr c).WF mem) (hp : ∀ n ∈ c.shape, 0 < n)
    (index : Index) (hv : ValidItems (items index) c.shape) :
    Selects (.csr c) mem index fun r m =>
      (Storage.csr c).getItem mem index = .ok (.fresh r m) ∧ r.WF m ∧
      (((∃ c', r = .csr c') ∧ r.shape.length = 2 ∧
          Enumerates r m fun j _ => Stored (.csr c) mem (selSource (items index) c.shape j)) ∨
        ((∃ c', r = .coo c') ∧ r.shape.length = 1 ∧ Enumerates r m fun _ v => v ≠ c.data.unspec)) := by
  obtain ⟨⟨rows, hr⟩, hm⟩ := h
  refine selects_of ((Sparse.csr hr).wf mem hm) hp hv ((Sparse.csr hr).getItem_elem hp mem hm index hv) fun h0 => ?_
  have hl := selShape_length_le (items index) c.shape
  have h2 := hr.two
  have h0' : (selShape (items index) c.shape).length ≠ 0 := fun he => h0 (List.length_eq_zero_iff.1 he)
  by_cases h1 : (selShape (items index) c.shape).length = 1
  · obtain ⟨r, vals, rows', b', g, gs⟩ := csr_getItem1 hr hp mem hm index hv h1
    have st := g.stands (Sparse.csr hr) hm hp hv
    refine ⟨.coo r, vals, .inr g.eval, ⟨g.eval, st.2.wf, .inr ⟨⟨r, rfl⟩, by rw [g.shape_eq]; exact h1, ?_⟩⟩, st.1, st.2⟩
    apply sparse_slice_enumerates g (by simp [Storage.cls])
    intro j hj
    have e := (Sparse.csr hr).at mem hm _ (source_inBox hp hv hj)
    rw [gs j hj, st.2.reads j hj, ← e]
    rfl
  · have h3 : (selShape (items index) c.shape).length = 2 := by omega
    obtain ⟨r, vals, rows', b', g, gs⟩ := csr_getItem2 hr hp mem hm index hv h3
    have st := g.stands (Sparse.csr hr) hm hp hv
    refine ⟨.csr r, vals, .inr g.eval, ⟨g.eval, st.2.wf, .inl ⟨⟨r, rfl⟩, by rw [g.shape_eq]; exact h3, ?_⟩⟩, st.1, st.2⟩
    apply sparse_slice_enumerates g (by simp [Storage.cls])
    intro j hj
    rw [gs j hj, sparse_stored (Sparse.csr hr) hm (by simp [Storage.cls])]

/-- Two cases of C34: `s[::-1, 1:]` and `s[0]`. -/
example : (Storage.csr sampleCSR).WF sampleItems ∧ ValidItems (items turned) [2, 3] ∧
    (Storage.csr sampleCSR).getItem sampleItems turned
      = .ok (.fresh (.csr ⟨[2, 2], ⟨3, 0, none⟩, [some 0, some 1, some 2], ⟨2, 0, none⟩, [some 0, some 1], ⟨2, 0, none⟩⟩)
          [some 5, some 3]) ∧
    (Storage.csr sampleCSR).getItem sampleItems (.one (.int 0))
      = .ok (.fresh (.coo ⟨[3], ⟨[1, 2], [2, 1], ⟨2, 0, none⟩⟩, [some 0, some 2], ⟨2, 0, none⟩⟩) [some 1, some 3]) :=
  ⟨sampleCSR_wf, by simp [items, turned, ValidItems], by decide +kernel⟩

theorem chainSource_inBox (chain : List (List Ix)) (shape : List Nat) (hc : ChainOk chain shape) (j : List Int)
    (hj : InBox j (chainShape chain shape)) : InBox (chainSource chain shape j) shape := by
  induction chain generalizing shape with
  | nil => exact hj
  | cons i chain ih => exact source_inBox (index := .tuple i) hc.1 hc.2.1 (ih _ hc.2.2.2 hj)

/-- C31 to C34 for chains `s[i1][i2]...[ik]`. -/
theorem C31_chain_of_slices (s : Storage V) (mem : List V) (h : s.WF mem) (hb : s.cls ≠ .buffer) (hd : s.cls ≠ .dm)
    (chain : List Index) (hc : ChainOk (chain.map items) s.shape) :
    ∃ r m, ChainGives s mem chain r m ∧ r.WF m ∧ r.shape = chainShape (chain.map items) s.shape ∧
      ∀ j, InBox j r.shape → ∃ v, Reads s mem (chainSource (chain.map items) s.shape j) v ∧ Reads r m j v := by
  induction chain generalizing s mem with
  | nil => exact ⟨s, mem, ⟨rfl, rfl⟩, h, rfl, fun j hj => ⟨_, h.reads j hj, h.reads j hj⟩⟩
  | cons i chain ih =>
    obtain ⟨hp, hv, hne, hc⟩ := hc
    have hbi : BufferIndex s i := by cases s <;> first | trivial | exact absurd rfl hb
    have hsi : SafeIndex s i := by cases s <;> first | trivial | exact absurd rfl hd
    obtain ⟨t, mt, g1, ⟨g2, g3⟩, g4, _, g5⟩ := (selects_any h hp hv hbi hsi).2 hne
    have hb' : t.cls ≠ .buffer := by rcases g3 with g3 | ⟨_, g3⟩ <;> rw [g3] <;> first | exact hb | simp
    have hd' : t.cls ≠ .dm := by rcases g3 with g3 | ⟨_, g3⟩ <;> rw [g3] <;> first | exact hd | simp
    obtain ⟨r, m, e1, e2, e3, e4⟩ := ih t mt g2 hb' hd' (by rw [g4]; exact hc)
    refine ⟨r, m, ⟨t, mt, g1, e1⟩, e2, by rw [e3, g4]; rfl, fun j hj => ?_⟩
    obtain ⟨v, f1, f2⟩ := e4 j hj
    rw [g4] at f1
    obtain ⟨w, f3, f4⟩ := g5 _ (by rw [g4]; exact chainSource_inBox (chain.map items) _ hc j (by rw [e3, g4] at hj; exact hj))
    have : w = v := f4.at_eq.symm.trans f1.at_eq
    exact ⟨w, f3, this ▸ f2⟩

/-- A case of the chain: `s[::-1, 1:][1]` for the `CSR` has the items `None` and `3`. -/
example : (Storage.csr sampleCSR).WF sampleItems ∧ ChainOk [items turned, [.int 1]] [2, 3] ∧
    chainShape [items turned, [.int 1]] [2, 3] = [2] ∧ chainSource [items turned, [.int 1]] [2, 3] [1] = [0, 2] := by
  refine ⟨sampleCSR_wf, ?_, by decide, by decide⟩
  have e : selShape (items turned) [2, 3] = [2, 2] := by decide
  refine ⟨by simp, by simp [items, turned, ValidItems], by rw [e]; simp, ?_⟩
  rw [e]
  exact ⟨by simp, by simp [ValidItems], by decide, trivial⟩

/-- C35.  Indexing a `DM` without offsets (as `fromobject` makes them); a slice is a well-formed `DM`. -/
theorem C35_dm_slice (m : DMMeta) (d : Storage V) (mem : List V) (h : (Storage.dm m d).WF mem)
    (hz : ZeroOff (.dm m d)) (hp : ∀ n ∈ m.shape, 0 < n) (index : Index) (hv : ValidItems (items index) m.shape) :
    Selects (.dm m d) mem index fun r mr => r.WF mr ∧ ∃ m' d', r = .dm m' d' := by
  obtain ⟨h1, h2⟩ := selects_any (s := .dm m d) h hp hv trivial (hz.safe index)
  refine ⟨h1, fun h0 => ?_⟩
  obtain ⟨r, mr, g1, ⟨g2, g3⟩, g4⟩ := h2 h0
  refine ⟨r, mr, g1, ⟨g2, ?_⟩, g4⟩
  rcases g3 with g3 | ⟨g3, _⟩
  · cases r with
    | dm m' d' => exact ⟨m', d', rfl⟩
    | _ => simp [Storage.cls] at g3
  · simp [Storage.cls] at g3

/-- C35 for slices of slices, when the groups of axes that the index fixes altogether have the offset `0`.  By
C36 this cannot be left out. -/
theorem C35_dm_slice_safe (m : DMMeta) (d : Storage V) (mem : List V) (h : (Storage.dm m d).WF mem)
    (hp : ∀ n ∈ m.shape, 0 < n) (index : Index) (hv : ValidItems (items index) m.shape) (hd : ZeroOff d)
    (ho : ∀ (k : Nat) dims off, m.rdims[k]? = some dims → m.roffset[k]? = some off →
      (∀ a ∈ dims, ∃ i, (items index)[a]? = some (.int i)) → off = 0) :
    Selects (.dm m d) mem index fun r mr => r.WF mr :=  by
  obtain ⟨h1, h2⟩ := selects_any (s := .dm m d) h hp hv trivial ⟨ho, .inl hd⟩
  refine ⟨h1, fun h0 => ?_⟩
  obtain ⟨r, mr, g1, ⟨g2, g3⟩, g4⟩ := h2 h0
  exact ⟨r, mr, g1, g2, g4⟩

/-- The `DM` of `sample`. -/
def sampleDM : DMMeta := ⟨[2, 3], [[0], [1]], [[2], [3]], [[1], [1]], [0, 0]⟩

theorem sampleDM_wf : (Storage.dm sampleDM (.strided sampleStrided)).WF sampleCells ∧
    ZeroOff (.dm sampleDM (.strided sampleStrided)) := by
  have := built_wf .dm sample [2, 3] (by simp) sample_shape none (.dm sampleDM (.strided sampleStrided)) sampleCells
    (by decide +kernel) ⟨by simp, by simp⟩
  exact ⟨this.1, this.2.2.2⟩

/-- A case of C35. -/
example : (Storage.dm sampleDM (.strided sampleStrided)).WF sampleCells ∧
    ZeroOff (.dm sampleDM (.strided sampleStrided)) ∧
    (Storage.dm sampleDM (.strided sampleStrided)).getItem sampleCells turned
      = .ok (.view (.dm ⟨[2, 2], [[0], [1]], [[2], [2]], [[-1], [1]], [1, 1]⟩ (.strided sampleStrided))) :=
  ⟨sampleDM_wf.1, sampleDM_wf.2, by decide +kernel⟩

/-! ## C36 -/

/-- The `DM` with the two axes of an `n` by `k` storage, each in a group of its own. -/
def matrixDM (n k : Nat) : DMMeta := ⟨[n, k], [[0], [1]], [[n], [k]], [[1], [1]], [0, 0]⟩

theorem reduced_from (a n : Nat) (h : a < n) : reduced ⟨some (a : Int), none, none⟩ n = ⟨a, n, 1⟩ := by
  rw [reduced_pos _ _ (by simp)]
  have e1 : upStart ⟨some (a : Int), none, none⟩ n = a := by
    simp only [upStart, clampBound, Option.map_some, Option.getD_some]
    omega
  have e2 : upStop ⟨some (a : Int), none, none⟩ n = n := by
    simp [upStop]
  rw [e1, e2, if_pos (by omega)]
  simp only [Option.getD_none]
  rw [show min (1 : Int) n = 1 by omega]

theorem nitemsR_from (a n : Nat) (h : a < n) : nitemsR ⟨a, n, 1⟩ = .ok (n - a) := by
  rw [nitemsR_up _ _ _ (by omega) (by omega)]
  congr 1
  rw [Int.fdiv_one]
  omega

/-- Slicing a `DM`, from its steps. -/
theorem dm_gives {m m' : DMMeta} {d d' : Storage V} {mem mem' : List V} {index : Index} {nix : List NIx}
    {gshape : List Nat} {rd : List (List Nat)} {rst : List (List Int)} {roff : List Int} {x : Ix} {dix : List Ix}
    (h1 : normalizeIndex index m.shape = .ok nix) (h2 : elementIndex nix = none)
    (h3 : shapeStrided nix m.shape = .ok gshape)
    (h4 : dmSliceLoop nix m.rdims m.rshapes m.rstrides m.roffset = .ok (rd, rst, roff, x :: dix))
    (h5 : DMMeta.new gshape rd rst roff = .ok m') (h6 : Gives d mem (.tuple (x :: dix)) d' mem') :
    Gives (.dm m d) mem index (.dm m' d') mem' := by
  rcases h6 with ⟨h6, rfl⟩ | h6
  · left
    refine ⟨?_, rfl⟩
    simp only [Storage.getItem, h1, h2, h3, h4, h5, h6, bind, Except.bind, pure, Except.pure, List.isEmpty_cons,
      Bool.false_eq_true, if_false]
  · right
    simp only [Storage.getItem, h1, h2, h3, h4, h5, h6, bind, Except.bind, pure, Except.pure, List.isEmpty_cons,
      Bool.false_eq_true, if_false]

/-- `s[a:]` of a `DM` with two axes. -/
theorem matrixDM_from (n k a : Nat) (ha : a < n) (hk : 0 < k) (d : Storage V) (mem : List V) (hd : d.WF mem)
    (hs : d.shape = [n, k]) (hc : d.cls ≠ .dm) :
    ∃ d' mem', Gives (.dm (matrixDM n k) d) mem (.one (.slice ⟨some a, none, none⟩))
        (.dm ⟨[n - a, k], [[0], [1]], [[n - a], [k]], [[1], [1]], [(a : Int), 0]⟩ d') mem' ∧
      (d'.cls ≠ .dm ∧ SliceCls d.cls d'.cls) ∧ Stands d' mem' [n, k] (fun j => d.at mem j) := by
  have hp : PosShape d.shape := by
    rw [hs]; intro x hx; simp only [List.mem_cons, List.not_mem_nil, or_false] at hx; omega
  have hsafe : SafeIndex d (.tuple [.none, .none]) := by cases d <;> first | trivial | exact absurd rfl hc
  have hbuf : BufferIndex d (.tuple [.none, .none]) := by
    cases d <;> first | trivial | (simp [Storage.shape] at hs)
  rcases hd.getItem_ok hp (.tuple [.none, .none]) (by rw [hs]; trivial) hbuf hsafe with
    ⟨e, _⟩ | ⟨_, d', mem', g1, g2, g3⟩
  · rw [hs] at e; simp [selShape, items] at e
  · have hcls : d'.cls ≠ .dm := by
      rcases g2.2 with g | ⟨_, g⟩ <;> rw [g] <;> first | exact hc | simp
    have hst : Stands d' mem' [n, k] (fun j => d.at mem j) := by
      refine ⟨g3.wf, by rw [g3.shape_eq, hs]; rfl, fun ix hi => ?_⟩
      rw [g3.reads ix (by rw [hs]; exact hi), hs]
      match ix, hi with
      | [_, _], _ => rfl
    refine ⟨d', mem', dm_gives (nix := [.slice ⟨a, n, 1⟩, .none]) (gshape := [n - a, k]) (rd := [[0], [1]])
      (rst := [[1], [1]]) (roff := [(a : Int), 0]) ?_ rfl ?_ ?_ ?_ g1, ⟨hcls, g2.2⟩, hst⟩
    · rw [normalizeIndex_eq_items _ _ (by simp [matrixDM, items, ValidItems])]
      simp only [matrixDM, items, normalizeItems, reduced_from a n ha, bind, Except.bind, pure, Except.pure,
        List.map_cons, List.map_nil]
    · simp only [matrixDM, shapeStrided, nitemsR_from a n ha, bind, Except.bind, pure, Except.pure]
    · have hz : ¬ (n = 0) := by omega
      have hf : Int.fmod a n = a := by rw [Int.fmod_eq_emod_of_nonneg _ (by omega)]; exact Int.emod_eq_of_lt (by omega) (by omega)
      simp [matrixDM, dmSliceLoop, pyGet, indexStrided, pyMod, hz, hf, nitemsR_from a n ha, isIntAt, axisMap, bind,
        Except.bind, pure, Except.pure]
    · rw [DMMeta.new_ok _ _ _ _ (by simp)]
      · rfl
      · intro d; simp; omega

/-- `r[i]` where `r` is such a slice. -/
theorem matrixDM_row (n n' k i : Nat) (a : Int) (hi : i < n') (hn : n' ≤ n) (hk : 0 < k) (d : Storage V)
    (mem : List V) (hd : d.WF mem) (hs : d.shape = [n, k]) (hc : d.cls ≠ .dm) :
    ∃ d' mem', Gives (.dm ⟨[n', k], [[0], [1]], [[n'], [k]], [[1], [1]], [a, 0]⟩ d) mem (.one (.int i))
        (.dm ⟨[k], [[0]], [[k]], [[1]], [0]⟩ d') mem' ∧ Stands d' mem' [k] (fun j => d.at mem (i :: j)) := by
  have hp : PosShape d.shape := by
    rw [hs]; intro x hx; simp only [List.mem_cons, List.not_mem_nil, or_false] at hx; omega
  have hsafe : SafeIndex d (.tuple [.int i, .none]) := by cases d <;> first | trivial | exact absurd rfl hc
  have hbuf : BufferIndex d (.tuple [.int i, .none]) := by
    cases d <;> first | trivial | (simp [Storage.shape] at hs)
  rcases hd.getItem_ok hp (.tuple [.int i, .none]) (by rw [hs]; trivial) hbuf hsafe with
    ⟨e, _⟩ | ⟨_, d', mem', g1, g2, g3⟩
  · rw [hs] at e; simp [selShape, items] at e
  · have hst : Stands d' mem' [k] (fun j => d.at mem (i :: j)) := by
      refine ⟨g3.wf, by rw [g3.shape_eq, hs]; rfl, fun ix hx => ?_⟩
      rw [g3.reads ix (by rw [hs]; exact hx), hs]
      match ix, hx with
      | [_], _ =>
        simp only [items, selSource]
        rw [Int.emod_eq_of_lt (by omega) (by omega)]
    have hz : ¬ ((n' : Int) = 0) := by omega
    have hf : Int.fmod i n' = i := by
      rw [Int.fmod_eq_emod_of_nonneg _ (by omega)]; exact Int.emod_eq_of_lt (by omega) (by omega)
    refine ⟨d', mem', dm_gives (nix := [.int i, .none]) (gshape := [k]) (rd := [[0]]) (rst := [[1]]) (roff := [0])
      ?_ rfl ?_ ?_ ?_ g1, hst⟩
    · rw [normalizeIndex_eq_items _ _ (by simp [items, ValidItems])]
      simp only [items, normalizeItems, pyMod, hz, hf, if_false, bind, Except.bind, pure, Except.pure,
        List.map_cons, List.map_nil]
    · simp only [shapeStrided, bind, Except.bind, pure, Except.pure]
    · simp [dmSliceLoop, pyGet, indexStrided, isIntAt, axisMap, bind, Except.bind, pure, Except.pure]
    · rw [DMMeta.new_ok _ _ _ _ (by simp)]
      · rfl
      · intro d; simp

theorem matrixDM_wf (n n' k a : Nat) (h : a + n' ≤ n) :
    DMMeta.WF ⟨[n', k], [[0], [1]], [[n'], [k]], [[1], [1]], [(a : Int), 0]⟩ [n, k] := by
  refine ⟨by simp, fun d => by simp; omega, rfl, by simp [GroupStrides], rfl, rfl, fun ix hi => ?_⟩
  match ix, hi with
  | [x, y], hi =>
    simp only [InBox] at hi
    simp [target, address, InBox]
    omega

/-- C36, a defect.  Let `r = s[a:]` for a `DM` `s` with two axes.  `r` reads the rows of `s` from row `a` on,
but `r[i]` is row `i` of `s`; it should be row `a + i`. -/
theorem C36_dm_slice_of_slice (n k a i : Nat) (ha : a + i < n) (hk : 0 < k) (d : Storage V) (mem : List V)
    (hd : d.WF mem) (hs : d.shape = [n, k]) (hc : d.cls ≠ .dm) :
    ∃ r m t mt, Gives (.dm (matrixDM n k) d) mem (.one (.slice ⟨some a, none, none⟩)) r m ∧
      Gives r m (.one (.int i)) t mt ∧ r.shape = [n - a, k] ∧ t.shape = [k] ∧
      (∀ x y, InBox [x, y] [n - a, k] →
        ∃ v, Reads (.dm (matrixDM n k) d) mem [a + x, y] v ∧ Reads r m [x, y] v) ∧
      ∀ y, InBox [y] [k] → ∃ v, Reads (.dm (matrixDM n k) d) mem [(i : Int), y] v ∧ Reads t mt [y] v := by
  obtain ⟨d1, m1, g1, ⟨g2, _⟩, g3⟩ := matrixDM_from n k a (by omega) hk d mem hd hs hc
  obtain ⟨d2, m2, e1, e2⟩ := matrixDM_row n (n - a) k i a (by omega) (by omega) hk d1 m1 g3.wf g3.shape_eq g2
  have w0 : (matrixDM n k).WF d.shape := by rw [hs]; exact matrixDM_wf n n k 0 (by omega)
  have w1 := matrixDM_wf n (n - a) k a (by omega)
  rw [← g3.shape_eq] at w1
  have w2 : DMMeta.WF ⟨[k], [[0]], [[k]], [[1]], [0]⟩ d2.shape := by
    rw [e2.shape_eq]
    refine ⟨by simp, fun d => by simp, rfl, by simp [GroupStrides], rfl, rfl, fun ix hi => ?_⟩
    match ix, hi with
    | [y], hi => simpa [target, address, InBox] using hi
  refine ⟨_, _, _, _, g1, e1, rfl, rfl, fun x y hxy => ?_, fun y hy => ?_⟩
  · simp only [InBox] at hxy
    have b0 : InBox [a + x, y] (matrixDM n k).shape := by simp only [matrixDM, InBox, and_true]; omega
    have b1 : InBox [x, y] [n - a, k] := by simp only [InBox, and_true]; omega
    have r0 := Storage.WF.reads (s := .dm (matrixDM n k) d) (mem := mem) ⟨w0, hd⟩ _ b0
    have r1 := Storage.WF.reads (s := .dm _ d1) (mem := m1) ⟨w1, g3.wf⟩ [x, y] b1
    rw [at_dm w0 hd _ b0] at r0
    rw [at_dm w1 g3.wf _ b1, g3.reads _ (by rw [← g3.shape_eq]; exact w1.into _ b1)] at r1
    refine ⟨_, r0, ?_⟩
    simpa [target, address, matrixDM] using r1
  · have b0 : InBox [(i : Int), y] (matrixDM n k).shape := by simp only [matrixDM, InBox, and_true] at *; omega
    have r0 := Storage.WF.reads (s := .dm (matrixDM n k) d) (mem := mem) ⟨w0, hd⟩ _ b0
    have r2 := Storage.WF.reads (s := .dm _ d2) (mem := m2) ⟨w2, e2.wf⟩ [y] hy
    rw [at_dm w0 hd _ b0] at r0
    have b3 : InBox [(i : Int), y] [n, k] := b0
    rw [at_dm w2 e2.wf _ hy, e2.reads _ (by rw [← e2.shape_eq]; exact w2.into _ hy)] at r2
    refine ⟨_, r0, ?_⟩
    simp only [target, address, List.map_cons, List.map_nil, List.getD_cons_zero, Int.mul_one, Int.zero_add,
      Int.add_zero] at r2
    rw [g3.reads _ b3] at r2
    simpa [target, address, matrixDM] using r2

/-- A case of C36: `s[1:][0]` is the first row of `sample` and not the second one. -/
example : let s := Storage.dm (matrixDM 2 3) (.strided sampleStrided)
    fromObject .dm (.nested sample) none = .ok (.fresh s sampleCells) ∧
    s.getItem sampleCells (.one (.slice ⟨some 1, none, none⟩))
      = .ok (.view (.dm ⟨[1, 3], [[0], [1]], [[1], [3]], [[1], [1]], [1, 0]⟩ (.strided sampleStrided))) ∧
    (Storage.dm ⟨[1, 3], [[0], [1]], [[1], [3]], [[1], [1]], [1, 0]⟩ (.strided sampleStrided)).getItem sampleCells
        (.one (.int 0))
      = .ok (.view (.dm ⟨[3], [[0]], [[3]], [[1]], [0]⟩ (.strided ⟨[3], [1], ⟨6, 0, none⟩⟩))) ∧
    Reads (.dm ⟨[3], [[0]], [[3]], [[1]], [0]⟩ (.strided ⟨[3], [1], ⟨6, 0, none⟩⟩)) sampleCells [1] none ∧
    Reads s sampleCells [0, 1] none ∧ Reads s sampleCells [1, 1] (some 5) := by
  unfold Reads
  decide +kernel

end Gcs
