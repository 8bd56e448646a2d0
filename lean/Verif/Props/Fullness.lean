import Verif.Props.Observing
import Verif.Props.SettingDM

/-!
# C46 for `DM`: fullness of a `DM` and of its slices
-/

namespace Gcs

open Spec

variable {V : Type} [DecidableEq V]

theorem product_prod (l : List Nat) : product l = l.prod := by
  induction l with
  | nil => rfl
  | cons a l ih => simp only [product, List.foldr_cons, List.prod_cons] at ih ⊢; rw [ih]

omit [DecidableEq V] in
theorem isFull_dm (m : DMMeta) (d : Storage V) : (Storage.dm m d).isFull = decide (d.size = product m.shape) := rfl

omit [DecidableEq V] in
theorem isFull_size (d : Storage V) : d.isFull = decide (d.size = product d.shape) := rfl

/-- The groups of all axes have as many elements together as the array. -/
theorem product_groups (shape : List Nat) (G : List (List Nat)) (h : G.flatten.Perm (List.range shape.length)) :
    product ((groupShapes shape G).map product) = product shape := by
  have e1 : ∀ G : List (List Nat), product ((groupShapes shape G).map product) =
      product (G.flatten.map fun d => shape.getD d 0) := by
    intro G
    induction G with
    | nil => rfl
    | cons g G ih =>
      simp only [groupShapes, product_prod] at ih ⊢
      simp only [List.map_cons, List.prod_cons, List.flatten_cons, List.map_append, List.prod_append, ih]
      simp [product_prod]
  have e2 : (List.range shape.length).map (fun d => shape.getD d 0) = shape := by
    apply List.ext_getElem (by simp)
    intro i h1 h2
    simp only [List.getElem_map, List.getElem_range]
    simp at h1
    simp [List.getD_eq_getElem?_getD, h1]
  rw [e1, product_prod, (h.map _).prod_eq, e2, product_prod]

omit [DecidableEq V] in
/-- What `DM.fromobject` has checked when it returns. -/
theorem dmBuildWith_inv {inner : List Nat → (List Int → PyM V) → PyM (Storage V × List V)}
    {isBuffer : Bool} {shape : List Nat} {dimensions partitioning : Option (List Nat)} {value : List Int → PyM V}
    {r : Storage V} {mem : List V}
    (h : dmBuildWith inner isBuffer shape dimensions partitioning value = .ok (r, mem)) :
    ∃ m d part G, part = dmPartitioning shape.length isBuffer partitioning ∧
      r = .dm m d ∧ m.shape = shape ∧ part.Pairwise (· ≤ ·) ∧ (∀ p ∈ part, 0 < p ∧ p < shape.length) ∧ part.length < shape.length ∧
      G.flatten = (dimensions.getD (List.range shape.length)).take shape.length ∧ G.flatten.Perm (List.range shape.length) ∧
      inner ((groupShapes shape G).map product) (fun rindex => do
        let ix ← promoteIndex (groupShapes shape G) G ((groupShapes shape G).map makeStrides) (List.replicate G.length 0) rindex
        value ix) = .ok (d, mem) := by
  simp only [dmBuildWith, bind_eq_ok, pyAssert_eq_ok, pure_eq_ok, Prod.mk.injEq] at h
  obtain ⟨⟨rdims, rshape, rshapes, rstrides, roffset⟩, h1, ⟨st, mm⟩, h2, _, h3, m, h4, rfl, rfl⟩ := h
  obtain ⟨q1, q2, rfl⟩ := DMMeta.new_inv h4
  have hd : ∀ d ∈ rdims.flatten, d < shape.length := fun d hd => (q2 d).1 hd
  simp only [dmPrepare, bind_eq_ok, pyAssert_eq_ok, pure_eq_ok, Prod.mk.injEq, pyAssert_bool] at h1
  obtain ⟨_, a1, _, a2, _, a3, _, a4, _, a5, ⟨a, b, c⟩, h5, rfl, rfl, rfl, rfl, rfl⟩ := h1
  rw [makeReduction_ok shape _ fun g hg d hd' => hd d (List.mem_flatten.2 ⟨g, hg, hd'⟩)] at h5
  simp only [Except.ok.injEq, Prod.mk.injEq] at h5
  obtain ⟨rfl, rfl, rfl⟩ := h5
  have hsorted : (dmPartitioning shape.length isBuffer partitioning).Pairwise (· ≤ ·) := by
    rw [of_decide_eq_true a1]
    exact List.pairwise_insertionSort _ _
  have hlt : ∀ p ∈ dmPartitioning shape.length isBuffer partitioning, 0 < p ∧ p < shape.length := by
    intro p hp
    exact ⟨of_decide_eq_true (List.all_eq_true.1 a2 p hp), of_decide_eq_true (List.all_eq_true.1 a3 p hp)⟩
  have hf : (dmGroups (dimensions.getD (List.range shape.length)) shape.length
      (dmPartitioning shape.length isBuffer partitioning) 0).flatten =
      (dimensions.getD (List.range shape.length)).take shape.length := by
    rw [dmGroups_eq, splitDims_flatten]
    · simp
    · rw [List.pairwise_cons]
      exact ⟨fun _ _ => Nat.zero_le _, hsorted⟩
    · intro p hp
      rcases List.mem_cons.1 hp with rfl | hp
      · exact Nat.zero_le _
      · have := hlt p hp
        omega
  refine ⟨_, _, _, _, rfl, rfl, rfl, hsorted, hlt, of_decide_eq_true a4, hf, ?_, ?_⟩
  · refine (List.Subperm.perm_of_length_le (List.subperm_of_subset List.nodup_range fun d hd' => ?_) ?_).symm
    · exact (q2 d).2 (by simpa using hd')
    · rw [hf]
      simp
  · rw [dmGroups_length]
    exact h2

omit [DecidableEq V] in
theorem dmBuildWith_size {inner : List Nat → (List Int → PyM V) → PyM (Storage V × List V)}
    {isBuffer : Bool} {shape : List Nat} {dimensions partitioning : Option (List Nat)} {value : List Int → PyM V}
    (hin : ∀ rshape value' st mem, inner rshape value' = .ok (st, mem) → product st.shape = product rshape)
    {r : Storage V} {mem : List V}
    (h : dmBuildWith inner isBuffer shape dimensions partitioning value = .ok (r, mem)) :
    ∃ m d rshape value', r = .dm m d ∧ m.shape = shape ∧ inner rshape value' = .ok (d, mem) ∧ product d.shape = product shape := by
  obtain ⟨m, d, part, G, _, h1, h2, _, _, _, _, h3, h4⟩ := dmBuildWith_inv h
  exact ⟨m, d, _, _, h1, h2, h4, by rw [hin _ _ _ _ h4, product_groups shape G h3]⟩

theorem buildFlat_cls {cls : Cls} {shape : List Nat} {value : List Int → PyM V} {su u : V} {st : Storage V} {mem : List V}
    (h : buildFlat cls shape value su u = .ok (st, mem)) : st.cls = cls := by
  cases cls <;> simp only [buildFlat, bind_eq_ok, pure_eq_ok, Prod.mk.injEq, reduceCtorEq] at h <;>
    (obtain ⟨_, _, rfl, _⟩ := h; rfl)

/-- C46 for a `DM` made by `DM.fromobject`: it is full if and only if the storage it wraps is; over a `Buffer`, a `Strided` or a
`DM` it always is, over a sparse storage if every element of that is stored. -/
theorem C46_dm [HasNone V] (seq : Src V) (dimensions partitioning : Option (List Nat)) (cls : Cls) (u : Option V)
    (r : Storage V) (mem : List V) (h : fromObjectDM seq dimensions partitioning cls u = .ok (r, mem)) :
    ∃ m d, r = .dm m d ∧ d.cls = cls ∧ (r.isFull = true ↔ d.isFull = true) ∧
      (cls = .buffer ∨ cls = .strided ∨ cls = .dm → r.isFull = true) ∧
      (cls = .coo ∨ cls = .flatcoo ∨ cls = .csr → (r.isFull = true ↔ ∀ ix, InBox ix d.shape → HasPlace d ix)) := by
  have hwf := dmBuild_wf h
  have hflat : ∀ c rshape (value' : List Int → PyM V) su u (st : Storage V) mem,
      buildFlat c rshape value' su u = .ok (st, mem) → product st.shape = product rshape := by
    intro c rshape value' su u st mem hb
    rcases (buildFlat_wf hb).2 with e | e <;> simp [e, product]
  have hcls : ∀ c rshape (value' : List Int → PyM V) su u (st : Storage V) mem,
      buildFlat c rshape value' su u = .ok (st, mem) → st.cls = c := fun _ _ _ _ _ _ _ hb => buildFlat_cls hb
  have hfull : ∀ (m : DMMeta) (d : Storage V), product d.shape = product m.shape →
      ((Storage.dm m d).isFull = true ↔ d.isFull = true) := by
    intro m d e
    rw [isFull_dm, isFull_size, e]
  have dense : ∀ d : Storage V, d.cls = .buffer ∨ d.cls = .strided → d.isFull = true := by
    intro d hd
    cases d <;> simp [Storage.cls] at hd <;> simp [Storage.isFull, Storage.size, Storage.shape, product]
  have main : ∀ c, c ≠ .dm → dmBuildWith (fun rshape value' => buildFlat c rshape value' seq.unspec (u.getD seq.unspec))
      (c = .buffer) seq.shape dimensions partitioning seq.getValue = .ok (r, mem) → cls = c →
      ∃ m d, r = .dm m d ∧ d.cls = cls ∧ (r.isFull = true ↔ d.isFull = true) ∧
      (cls = .buffer ∨ cls = .strided ∨ cls = .dm → r.isFull = true) ∧
      (cls = .coo ∨ cls = .flatcoo ∨ cls = .csr → (r.isFull = true ↔ ∀ ix, InBox ix d.shape → HasPlace d ix)) := by
    rintro c hc h' rfl
    obtain ⟨m, d, rshape, value', rfl, e1, e2, e3⟩ := dmBuildWith_size (fun _ _ _ _ hb => hflat _ _ _ _ _ _ _ hb) h'
    have ec := hcls _ _ _ _ _ _ _ e2
    have ef := hfull m d (by rw [e3, e1])
    refine ⟨m, d, rfl, ec, ef, fun h => ?_, fun h => ?_⟩
    · exact ef.2 (dense d (by rw [ec]; tauto))
    · rw [ef]
      exact C46_is_full d mem hwf.2 (by rw [ec]; tauto)
  cases cls with
  | dm =>
    simp only [fromObjectDM, dmBuild] at h
    have inner : ∀ rshape (value' : List Int → PyM V) (st : Storage V) mem,
        dmBuildWith (fun rshape' value'' => buildFlat .strided rshape' value'' seq.unspec (u.getD seq.unspec)) false rshape
          none none value' = .ok (st, mem) → st.cls = .dm ∧ st.shape = rshape ∧ st.isFull = true := by
      intro rshape value' st mem hb
      obtain ⟨m, d, rshape', value'', rfl, e1, e2, e3⟩ := dmBuildWith_size (fun _ _ _ _ hb => hflat _ _ _ _ _ _ _ hb) hb
      have ec := hcls _ _ _ _ _ _ _ e2
      exact ⟨rfl, e1, (hfull m d (by rw [e3, e1])).2 (dense d (.inr ec))⟩
    obtain ⟨m, d, rshape, value', rfl, e1, e2, e3⟩ :=
      dmBuildWith_size (fun _ _ _ _ hb => by rw [(inner _ _ _ _ hb).2.1]) h
    obtain ⟨i1, i2, i3⟩ := inner _ _ _ _ e2
    have ef := hfull m d (by rw [e3, e1])
    exact ⟨m, d, rfl, i1, ef, fun _ => ef.2 i3, by simp⟩
  | buffer => exact main .buffer (by simp) h rfl
  | strided => exact main .strided (by simp) h rfl
  | coo => exact main .coo (by simp) h rfl
  | flatcoo => exact main .flatcoo (by simp) h rfl
  | csr => exact main .csr (by simp) h rfl

/-- C46, a defect: the slice `s[a:]` of a `DM` over a `Strided` with two axes has every element stored but is not full, since
its size is that of `s`. -/
theorem C46_dm_slice (n k a : Nat) (ha : 0 < a) (han : a < n) (hk : 0 < k) (d : Storage V) (mem : List V) (hd : d.WF mem)
    (hs : d.shape = [n, k]) (hc : d.cls = .strided) :
    (Storage.dm (matrixDM n k) d).isFull = true ∧
    ∃ r m, Gives (.dm (matrixDM n k) d) mem (.one (.slice ⟨some a, none, none⟩)) r m ∧ r.shape = [n - a, k] ∧
      (∀ ix, InBox ix [n - a, k] → HasPlace r ix) ∧ r.isFull = false := by
  obtain ⟨d1, m1, g1, ⟨_, g2⟩, g3⟩ := matrixDM_from n k a han hk d mem hd hs (by rw [hc]; simp)
  have hc1 : d1.cls = .strided := by
    rcases g2 with g | ⟨g, _⟩
    · rw [g, hc]
    · rw [hc] at g; simp at g
  have hsz : ∀ d : Storage V, d.cls = .strided → d.size = product d.shape := by
    intro d hd
    cases d <;> simp [Storage.cls] at hd
    rfl
  refine ⟨?_, _, _, g1, rfl, fun ix hi => hi, ?_⟩
  · rw [isFull_dm, hsz d hc, hs]
    simp [matrixDM]
  · have : ¬ (n * k = (n - a) * k) := by
      intro e
      have := Nat.eq_of_mul_eq_mul_right hk e
      omega
    rw [isFull_dm, hsz d1 hc1, g3.shape_eq]
    simp [product, this]

/-- A case of C46: `DM.fromobject` over a `COO` with and without unspecified elements, and a slice of a `DM`. -/
example :
    (fromObjectDM (.nested (.seq [.seq [.leaf (some 1), .leaf none], .seq [.leaf (some 2), .leaf (some 3)]]) : Src (Option Int))
      (some [1, 0]) none .coo none).toOption.map (fun r => r.1.isFull) = some false ∧
    (fromObjectDM (.nested (.seq [.seq [.leaf (some 1), .leaf (some 5)], .seq [.leaf (some 2), .leaf (some 3)]]) : Src (Option Int))
      (some [1, 0]) none .coo none).toOption.map (fun r => r.1.isFull) = some true ∧
    (Storage.strided sampleStrided).WF sampleCells ∧ (Storage.strided sampleStrided).shape = [2, 3] ∧ (0 < 1 ∧ 1 < 2 ∧ 0 < 3) := by
  exact ⟨by decide +kernel, by decide +kernel, sampleStrided_wf, rfl, by decide⟩

end Gcs
