import Verif.Lemmas.Keep

/-! Every constructor and conversion returns a well-formed object or raises, without conditions on the arguments. -/

namespace Gcs

open Spec

variable {V : Type}

/-- The value read at `ix`, if any. -/
def valueOf (value : List Int → PyM V) (u : V) (ix : List Int) : V :=
  match value ix with
  | .ok v => v
  | .error _ => u

theorem valueOf_ok {value : List Int → PyM V} {shape : List Nat} (u : V)
    (h : ∀ ix ∈ indexProduct shape, ∃ v, value ix = .ok v) :
    ∀ ix, InBox ix shape → value ix = .ok (valueOf value u ix) := by
  intro ix hi
  obtain ⟨v, hv⟩ := h ix ((mem_indexProduct _ _).2 hi)
  rw [hv, valueOf, hv]

theorem bufferBuild_inv [DecidableEq V] {shape : List Nat} {value : List Int → PyM V} {su u : V}
    {r : Buffer V × List V} (h : bufferBuild shape value su u = .ok r) :
    ∀ ix, InBox ix shape → value ix = .ok (valueOf value u ix) := by
  apply valueOf_ok
  simp only [bufferBuild, bind_eq_ok] at h
  obtain ⟨values, h1, _⟩ := h
  intro ix hx
  obtain ⟨y, hy⟩ := mapM_inv _ _ _ h1 ix hx
  simp only [bind_eq_ok] at hy
  exact ⟨hy.choose, hy.choose_spec.1⟩

theorem cooBuild_inv [DecidableEq V] {shape : List Nat} {value : List Int → PyM V} {su u : V}
    {r : COO V × List V} (h : cooBuild shape value su u = .ok r) :
    shape ≠ [] ∧ ∀ ix, InBox ix shape → value ix = .ok (valueOf value u ix) := by
  simp only [cooBuild, bind_eq_ok] at h
  obtain ⟨values, h1, data, _, ⟨indices, imem⟩, h3, c, h4, _⟩ := h
  refine ⟨?_, valueOf_ok _ ?_⟩
  · rintro rfl
    have e : Strided.ofNested (nestedRows (columns ([] : List Nat).length
        ((values.filter fun e => e.2 ≠ u).map (·.1)))) = .ok (⟨[0], [1], ⟨0, 0, none⟩⟩, []) := by
      have : columns ([] : List Nat).length ((values.filter fun e => e.2 ≠ u).map (·.1)) = [] := rfl
      rw [this]
      decide +kernel
    rw [e] at h3
    simp only [Except.ok.injEq, Prod.mk.injEq] at h3
    obtain ⟨rfl, rfl⟩ := h3
    simp [COO.new, pyGet, bind, Except.bind] at h4
  · intro ix hx
    obtain ⟨y, hy⟩ := mapM_inv _ _ _ h1 ix hx
    simp only [bind_eq_ok] at hy
    exact ⟨hy.choose, hy.choose_spec.1⟩

theorem flatBuild_inv [DecidableEq V] {shape : List Nat} {value : List Int → PyM V} {su u : V}
    {r : FlatCOO V × List V} (h : flatBuild shape value su u = .ok r) :
    ∀ ix, InBox ix shape → value ix = .ok (valueOf value u ix) := by
  apply valueOf_ok
  simp only [flatBuild, bind_eq_ok] at h
  obtain ⟨values, h1, _⟩ := h
  intro ix hx
  obtain ⟨y, hy⟩ := mapM_inv _ _ _ h1 ix hx
  simp only [bind_eq_ok] at hy
  exact ⟨hy.choose, hy.choose_spec.1⟩

/-! ## `COO` to `CSR` -/

theorem COO.Rep.row_shape {c : COO V} {rows : List (List Int)} (h : c.Rep rows) {j : Int} {s : Strided (Option Int)}
    (hs : c.indices.getView c.imem (.one (.int j)) = .ok s) : s.WF c.imem ∧ s.shape = [rows.length] := by
  simp only [Strided.getView, bind_eq_ok] at hs
  obtain ⟨x, h1, h2⟩ := hs
  cases x with
  | inl v => simp at h2
  | inr s' =>
    simp only [pure_eq_ok] at h2
    subst h2
    obtain ⟨g1, nix, g2, g3⟩ := Strided.getItem_wf h.iwf h1
    refine ⟨g1, ?_⟩
    rw [h.ishape] at g2 g3
    simp only [normalizeIndex, bind_eq_ok, pure_eq_ok] at g2
    obtain ⟨m, _, rfl⟩ := g2
    exact g3

theorem CSR.new_inv {shape : List Nat} {crow : Buffer (Option Int)} {crowMem : List (Option Int)}
    {col : Buffer (Option Int)} {colMem : List (Option Int)} {data : Buffer V} {r : CSR V}
    (h : CSR.new shape crow crowMem col colMem data = .ok r) :
    shape.length = 2 ∧ r = ⟨shape, crow, crowMem, col, colMem, data⟩ := by
  simp only [CSR.new, bind_eq_ok, pyAssert_eq_ok, pure_eq_ok] at h
  obtain ⟨_, h1, _, _, _, _, _, _, rfl⟩ := h
  exact ⟨h1, rfl⟩

theorem cooToCsr_wf [DecidableEq V] {c : COO V} {rows : List (List Int)} (h : c.Rep rows) {mem : List V}
    (hm : c.data.WF mem) {r : CSR V} {mem' : List V} (hr : cooToCsr c mem = .ok (r, mem')) :
    (Storage.csr r).WF mem' ∧ r.shape = c.shape := by
  have hr0 := hr
  simp only [cooToCsr, bind_eq_ok, pure_eq_ok] at hr
  obtain ⟨row0, a1, n0, a2, len, a3, firsts', a4, compressed, a5, ⟨crow, crowMem⟩, a6, row1, b1, ⟨row1c, row1mem⟩, b2,
    ⟨col, colMem⟩, b3, r', b4, b5⟩ := hr
  simp only [Prod.mk.injEq] at b5
  obtain ⟨rfl, b5⟩ := b5
  obtain ⟨h2, b6⟩ := CSR.new_inv b4
  have hw : Buffer.WF (⟨rows.length, 0, c.data.unspec⟩ : Buffer V) (c.data.window mem) := by
    simp [Buffer.WF, c.data.window_length mem hm, h.size]
  by_cases hne : rows = []
  · subst hne
    obtain ⟨_, s1⟩ := h.row_shape a1
    obtain ⟨w2, s2⟩ := h.row_shape b1
    rw [s1] at a3
    have e3 : len = 0 := by
      have : pyGet [([] : List (List Int)).length] 0 = .ok 0 := rfl
      rw [this] at a3
      simpa using a3.symm
    subst e3
    simp only [List.range_zero, List.mapM_nil, pure_eq_ok] at a4
    subst a4
    obtain ⟨n, m, hsh⟩ := List.length_eq_two.1 h2
    have e2 : n0 = c.shape.getD 0 0 := by
      have : pyGet c.shape 0 = .ok n := by rw [hsh]; rfl
      rw [this] at a2
      simp only [Except.ok.injEq] at a2
      rw [hsh, ← a2]
      rfl
    subst e2
    have hc := compress_firsts c.shape h2 [] h.rows_ok
    have hf : firsts [] = [] := rfl
    rw [hf] at hc
    rw [hc] at a5
    simp only [Except.ok.injEq] at a5
    subst a5
    rw [intBuffer_ok] at a6
    simp only [Except.ok.injEq, Prod.mk.injEq] at a6
    obtain ⟨rfl, rfl⟩ := a6
    rw [Strided.copy_ok w2] at b2
    simp only [Except.ok.injEq, Prod.mk.injEq] at b2
    obtain ⟨rfl, rfl⟩ := b2
    rw [bufferBuild_ok _ _ _ _ _ (bufferBuild_inv b3)] at b3
    simp only [Except.ok.injEq, Prod.mk.injEq] at b3
    obtain ⟨rfl, rfl⟩ := b3
    rw [c.data.copy_same mem hm] at b5 b6
    have e0 : product row1.shape = 0 := by rw [s2]; rfl
    have e1 : indexProduct row1.shape = [] := by rw [s2]; rfl
    subst b6
    simp only at b5
    subst b5
    refine ⟨⟨⟨[], h.rows_ok, h2, ?_, ?_, ?_, ?_, h.size⟩, ?_⟩, rfl⟩
    · simp [Buffer.WF]
    · simp [Buffer.window, hf]
    · simp [Buffer.WF, e0, e1]
    · simp [Buffer.window, e0, e1]
    · rw [← h.size] at hw; exact hw
  · rw [cooToCsr_ok h hne h2 mem hm] at hr0
    simp only [Except.ok.injEq, Prod.mk.injEq] at hr0
    obtain ⟨rfl, rfl⟩ := hr0
    exact ⟨⟨⟨rows, csrOf_rep _ h2 rows h.rows_ok _ rfl⟩, hw⟩, rfl⟩

theorem flatToCoo_wf [DecidableEq V] {f : FlatCOO V} {rows : List (List Int)} (h : f.Rep rows) {mem : List V}
    (hm : f.data.WF mem) {r : COO V} {mem' : List V} (hr : flatToCoo f mem = .ok (r, mem')) :
    (Storage.coo r).WF mem' ∧ r.shape = f.shape := by
  have hw : Buffer.WF (⟨rows.length, 0, f.data.unspec⟩ : Buffer V) (f.data.window mem) := by
    simp [Buffer.WF, f.data.window_length mem hm, h.size]
  have hne : f.shape ≠ [] := by
    intro he
    simp only [flatToCoo, bind_eq_ok] at hr
    obtain ⟨_, _, ixs, _, ⟨indices, imem⟩, h3, c, h4, _⟩ := hr
    rw [he] at h3
    have e : Strided.ofNested (nestedRows (columns ([] : List Nat).length ixs)) = .ok (⟨[0], [1], ⟨0, 0, none⟩⟩, []) := by
      have : columns ([] : List Nat).length ixs = [] := rfl
      rw [this]
      decide +kernel
    rw [e] at h3
    simp only [Except.ok.injEq, Prod.mk.injEq] at h3
    obtain ⟨rfl, rfl⟩ := h3
    simp [COO.new, pyGet, bind, Except.bind] at h4
  by_cases hp : PosShape f.shape
  · rw [flatToCoo_ok h hp hne mem hm] at hr
    simp only [Except.ok.injEq, Prod.mk.injEq] at hr
    obtain ⟨rfl, rfl⟩ := hr
    exact ⟨⟨⟨rows, cooOf_rep _ hne rows h.rows_ok _ rfl⟩, hw⟩, rfl⟩
  · have e := rows_nil h.rows_ok hp
    subst e
    have hz : f.findices.size = 0 := by rw [h.fsize]; rfl
    simp only [flatToCoo, hz, List.range_zero, List.mapM_nil, bind_eq_ok, pure_eq_ok, exists_eq_left',
      ofNested_columns _ (List.length_pos_of_ne_nil hne), Except.ok.injEq, f.data.copy_same mem hm] at hr
    obtain ⟨_, _, c, h4, h5⟩ := hr
    simp only [Prod.mk.injEq] at h5
    obtain ⟨rfl, rfl⟩ := h5
    rw [COO.new_ok _ _ _ _ f.shape.length 0 (by rfl) (by exact h.size)] at h4
    simp only [Except.ok.injEq] at h4
    subst h4
    rw [h.size]
    exact ⟨⟨⟨[], cooOf_rep _ hne [] h.rows_ok ⟨0, 0, f.data.unspec⟩ rfl⟩, hw⟩, rfl⟩

/-! ## The general branch of `fromobject` -/

theorem buildFlat_wf [DecidableEq V] {cls : Cls} {shape : List Nat} {value : List Int → PyM V} {su u : V}
    {st : Storage V} {mem : List V} (h : buildFlat cls shape value su u = .ok (st, mem)) :
    st.WF mem ∧ (st.shape = shape ∨ st.shape = [product shape]) := by
  cases cls with
  | dm => simp [buildFlat] at h
  | buffer =>
    simp only [buildFlat, bind_eq_ok, pure_eq_ok, Prod.mk.injEq] at h
    obtain ⟨r, h1, rfl, rfl⟩ := h
    rw [bufferBuild_ok _ _ _ _ _ (bufferBuild_inv h1)] at h1
    simp only [Except.ok.injEq] at h1
    subst h1
    exact ⟨by simp [Storage.WF, Buffer.WF, indexProduct_length], .inr rfl⟩
  | strided =>
    simp only [buildFlat, bind_eq_ok, pure_eq_ok, Prod.mk.injEq] at h
    obtain ⟨r, h1, rfl, rfl⟩ := h
    have h1' := h1
    simp only [stridedBuild, bind_eq_ok] at h1'
    obtain ⟨b, h2, _⟩ := h1'
    rw [stridedBuild_ok _ _ _ _ _ (bufferBuild_inv h2)] at h1
    simp only [Except.ok.injEq] at h1
    subst h1
    exact ⟨(contiguous_WF _ _ _).1, .inl rfl⟩
  | coo =>
    simp only [buildFlat, bind_eq_ok, pure_eq_ok, Prod.mk.injEq] at h
    obtain ⟨r, h1, rfl, rfl⟩ := h
    obtain ⟨hne, hv⟩ := cooBuild_inv h1
    rw [cooBuild_ok _ hne _ _ _ _ hv] at h1
    simp only [Except.ok.injEq] at h1
    subst h1
    exact ⟨⟨⟨_, cooOf_rep _ hne _ (keptRows_sorted _ _ _) _ rfl⟩, by simp [Buffer.WF, cooOf]⟩, .inl rfl⟩
  | flatcoo =>
    simp only [buildFlat, bind_eq_ok, pure_eq_ok, Prod.mk.injEq] at h
    obtain ⟨r, h1, rfl, rfl⟩ := h
    rw [flatBuild_ok _ _ _ _ _ (flatBuild_inv h1)] at h1
    simp only [Except.ok.injEq] at h1
    subst h1
    exact ⟨⟨⟨_, flatOf_rep _ _ (keptRows_sorted _ _ _) _ rfl⟩, by simp [Buffer.WF, flatOf]⟩, .inl rfl⟩
  | csr =>
    simp only [buildFlat, bind_eq_ok, pure_eq_ok, Prod.mk.injEq, csrBuild] at h
    obtain ⟨⟨r, mm⟩, ⟨⟨c, cm⟩, h1, h2⟩, rfl, rfl⟩ := h
    obtain ⟨hne, hv⟩ := cooBuild_inv h1
    rw [cooBuild_ok _ hne _ _ _ _ hv] at h1
    simp only [Except.ok.injEq, Prod.mk.injEq] at h1
    obtain ⟨rfl, rfl⟩ := h1
    obtain ⟨g1, g2⟩ := cooToCsr_wf (cooOf_rep _ hne _ (keptRows_sorted _ _ _) _ rfl) (by simp [Buffer.WF, cooOf]) h2
    exact ⟨g1, .inl g2⟩

/-- The groups read the wrapped storage inside its box. -/
theorem target_inBox (shape : List Nat) (G : List (List Nat)) (ix : List Int) (hi : InBox ix shape)
    (hd : ∀ d ∈ G.flatten, d < shape.length) :
    InBox (target G ((groupShapes shape G).map makeStrides) (List.replicate G.length 0) ix)
      ((groupShapes shape G).map product) := by
  induction G with
  | nil => trivial
  | cons dims G ih =>
    have hb : InBox (dims.map fun d => ix.getD d 0) (dims.map fun d => shape.getD d 0) := by
      have hd' : ∀ d ∈ dims, d < shape.length := fun d hd' => hd d (by simp [hd'])
      clear ih hd
      induction dims with
      | nil => trivial
      | cons d dims ih =>
        refine ⟨?_, ih fun e he => hd' e (by simp [he])⟩
        exact inBox_getD ix shape hi d (hd' d (by simp))
    have := address_bound hb
    refine ⟨?_, ih fun d hd' => hd d (by simp only [List.flatten_cons, List.mem_append]; exact .inr hd')⟩
    show 0 ≤ (0 : Int) + address (dims.map fun d => ix.getD d 0) (makeStrides (dims.map fun d => shape.getD d 0)) ∧
      (0 : Int) + address (dims.map fun d => ix.getD d 0) (makeStrides (dims.map fun d => shape.getD d 0)) <
        (product (dims.map fun d => shape.getD d 0) : Nat)
    omega

theorem groupStrides_make (shape : List Nat) (G : List (List Nat)) :
    GroupStrides G ((groupShapes shape G).map makeStrides) := by
  induction G with
  | nil => trivial
  | cons dims G ih => exact ⟨by simp [makeStrides_length], ih⟩

theorem dmBuildWith_wf [DecidableEq V] {inner : List Nat → (List Int → PyM V) → PyM (Storage V × List V)}
    {isBuffer : Bool} {shape : List Nat} {dimensions partitioning : Option (List Nat)} {value : List Int → PyM V}
    (hin : ∀ rshape value' st mem, inner rshape value' = .ok (st, mem) →
      st.WF mem ∧ (st.shape = rshape ∨ st.shape = [product rshape]))
    {r : Storage V} {mem : List V}
    (h : dmBuildWith inner isBuffer shape dimensions partitioning value = .ok (r, mem)) :
    r.WF mem ∧ r.shape = shape := by
  simp only [dmBuildWith, bind_eq_ok, pyAssert_eq_ok, pure_eq_ok, Prod.mk.injEq] at h
  obtain ⟨⟨rdims, rshape, rshapes, rstrides, roffset⟩, h1, ⟨st, mm⟩, h2, _, h3, m, h4, rfl, rfl⟩ := h
  obtain ⟨q1, q2, rfl⟩ := DMMeta.new_inv h4
  obtain ⟨g1, g2⟩ := hin _ _ _ _ h2
  have hd : ∀ d ∈ rdims.flatten, d < shape.length := fun d hd => (q2 d).1 hd
  have hp : rshape = (groupShapes shape rdims).map product ∧ rstrides = (groupShapes shape rdims).map makeStrides ∧
      roffset = List.replicate rdims.length 0 := by
    simp only [dmPrepare, bind_eq_ok, pure_eq_ok, Prod.mk.injEq] at h1
    obtain ⟨_, _, _, _, _, _, _, _, _, _, ⟨a, b, c⟩, h5, rfl, rfl, rfl, rfl, rfl⟩ := h1
    rw [makeReduction_ok shape _ fun g hg d hd' => hd d (List.mem_flatten.2 ⟨g, hg, hd'⟩)] at h5
    simp only [Except.ok.injEq, Prod.mk.injEq] at h5
    obtain ⟨rfl, rfl, rfl⟩ := h5
    exact ⟨rfl, rfl, by rw [dmGroups_length]⟩
  obtain ⟨rfl, rfl, rfl⟩ := hp
  have hs : st.shape = (groupShapes shape rdims).map product := by
    rcases g2 with g2 | g2
    · exact g2
    · rw [g2] at h3
      obtain ⟨dims, rfl⟩ := List.length_eq_one_iff.1 (show rdims.length = 1 from h3.symm)
      rw [g2]
      simp [groupShapes, product]
  refine ⟨⟨⟨q1, q2, rfl, groupStrides_make shape rdims, by simp, ?_, ?_⟩, g1⟩, rfl⟩
  · rw [hs]; simp [groupShapes]
  · intro ix hi
    rw [hs]
    exact target_inBox shape rdims ix hi hd

theorem dmBuild_wf [DecidableEq V] {cls : Cls} {shape : List Nat} {dimensions partitioning : Option (List Nat)}
    {value : List Int → PyM V} {su u : V} {r : Storage V} {mem : List V}
    (h : dmBuild cls shape dimensions partitioning value su u = .ok (r, mem)) : r.WF mem := by
  cases cls with
  | dm =>
    simp only [dmBuild] at h
    refine (dmBuildWith_wf ?_ h).1
    intro rshape value' st mm h1
    obtain ⟨g1, g2⟩ := dmBuildWith_wf (fun _ _ _ _ h2 => buildFlat_wf h2) h1
    exact ⟨g1, .inl g2⟩
  | _ =>
    simp only [dmBuild] at h
    exact (dmBuildWith_wf (fun _ _ _ _ h2 => buildFlat_wf h2) h).1

theorem fromObject_wf [DecidableEq V] [HasNone V] {cls : Cls} {seq : Src V} {unspec : Option V}
    (hs : ∀ s mem, seq = .store s mem → s.WF mem) {r : Storage V} {mem' : List V}
    (h : fromObject cls seq unspec = .ok (.fresh r mem')) : r.WF mem' := by
  have general : ∀ su u : V, ((do
      let (s, mem) ← match cls with
        | .dm => dmBuild .strided seq.shape none none seq.getValue su u
        | c => buildFlat c seq.shape seq.getValue su u
      return .fresh s mem : PyM (Made V))) = .ok (.fresh r mem') → r.WF mem' := by
    intro su u hg
    cases cls with
    | dm =>
      simp only [bind_eq_ok, pure_eq_ok] at hg
      obtain ⟨⟨s, m⟩, h1, h2⟩ := hg
      simp only [Made.fresh.injEq] at h2
      obtain ⟨rfl, rfl⟩ := h2
      exact dmBuild_wf h1
    | _ =>
      simp only [bind_eq_ok, pure_eq_ok] at hg
      obtain ⟨⟨s, m⟩, h1, h2⟩ := hg
      simp only [Made.fresh.injEq] at h2
      obtain ⟨rfl, rfl⟩ := h2
      exact (buildFlat_wf h1).1
  unfold fromObject at h
  cases unspec with
  | some u => exact general _ _ h
  | none =>
    cases seq with
    | nested n => cases cls <;> exact general _ _ h
    | store s mem =>
      have hw := hs s mem rfl
      cases s with
      | buffer b => cases cls <;> first | exact general _ _ h | (simp at h)
      | strided b => cases cls <;> first | exact general _ _ h | (simp at h)
      | csr b => cases cls <;> first | exact general _ _ h | (simp at h)
      | dm m d => cases cls <;> first | exact general _ _ h | (simp at h)
      | coo c =>
        obtain ⟨⟨rows, hr⟩, hm⟩ := hw
        cases cls with
        | coo => simp at h
        | flatcoo =>
          simp only [bind_eq_ok, pure_eq_ok] at h
          obtain ⟨⟨f, m⟩, h1, h2⟩ := h
          simp only [Made.fresh.injEq] at h2
          obtain ⟨rfl, rfl⟩ := h2
          rw [cooToFlat_ok hr mem hm] at h1
          simp only [Except.ok.injEq, Prod.mk.injEq] at h1
          obtain ⟨rfl, rfl⟩ := h1
          exact ⟨⟨rows, flatOf_rep _ rows hr.rows_ok _ rfl⟩, by
            simp [Buffer.WF, flatOf, c.data.window_length mem hm, hr.size]⟩
        | csr =>
          simp only [bind_eq_ok, pure_eq_ok] at h
          obtain ⟨⟨f, m⟩, h1, h2⟩ := h
          simp only [Made.fresh.injEq] at h2
          obtain ⟨rfl, rfl⟩ := h2
          exact (cooToCsr_wf hr hm h1).1
        | _ => exact general _ _ h
      | flatcoo f =>
        obtain ⟨⟨rows, hr⟩, hm⟩ := hw
        cases cls with
        | flatcoo => simp at h
        | coo =>
          simp only [bind_eq_ok, pure_eq_ok] at h
          obtain ⟨⟨c, m⟩, h1, h2⟩ := h
          simp only [Made.fresh.injEq] at h2
          obtain ⟨rfl, rfl⟩ := h2
          exact (flatToCoo_wf hr hm h1).1
        | csr =>
          simp only [bind_eq_ok, pure_eq_ok] at h
          obtain ⟨⟨c, m⟩, h1, ⟨c', m'⟩, h3, h2⟩ := h
          simp only [Made.fresh.injEq] at h2
          obtain ⟨rfl, rfl⟩ := h2
          obtain ⟨⟨rows', hr'⟩, hm'⟩ := (flatToCoo_wf hr hm h1).1
          exact (cooToCsr_wf hr' hm' h3).1
        | _ => exact general _ _ h

end Gcs
