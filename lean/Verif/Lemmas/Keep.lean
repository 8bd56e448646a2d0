import Verif.Lemmas.Heap
import Verif.Lemmas.Copy
import Verif.Lemmas.Convert

/-! Every operation that returns an object returns a well-formed one: what success tells, without conditions
on the arguments. -/

namespace Gcs

open Spec

variable {V : Type}

theorem bind_eq_ok {α β : Type} {x : PyM α} {f : α → PyM β} {b : β} :
    (x >>= f) = .ok b ↔ ∃ a, x = .ok a ∧ f a = .ok b := by
  cases x with
  | error e => simp [bind, Except.bind]
  | ok a => simp [bind, Except.bind]

theorem pyAssert_eq_ok {p : Prop} [Decidable p] {u : Unit} : pyAssert p = .ok u ↔ p := by
  unfold pyAssert
  by_cases h : p <;> simp [h, pure, Except.pure]

theorem pyAssert_bool {c : Bool} {u : Unit} : pyAssert c = .ok u ↔ c = true := by
  unfold pyAssert
  cases c <;> simp

theorem pure_eq_ok {α : Type} {a b : α} : (pure a : PyM α) = .ok b ↔ a = b := by
  simp [pure, Except.pure]

theorem mapM_inv {α β : Type} (f : α → PyM β) (l : List α) (r : List β) (h : l.mapM f = .ok r) :
    ∀ x ∈ l, ∃ y, f x = .ok y := by
  induction l generalizing r with
  | nil => intro x hx; simp at hx
  | cons a l ih =>
    rw [List.mapM_cons] at h
    simp only [bind_eq_ok] at h
    obtain ⟨y, h1, ys, h2, _⟩ := h
    intro x hx
    rcases List.mem_cons.1 hx with rfl | hx
    · exact ⟨y, h1⟩
    · exact ih ys h2 x hx

/-! ## Indices -/

theorem reduced_step_ne (s : PySlice) (n : Nat) : (reduced s n).step ≠ 0 := by
  have := reduced_step_ne_zero s n
  simpa [RSlice.toPy] using this

theorem pyMod_inv {i : Int} {n : Nat} {m : Int} (h : pyMod i n = .ok m) : 0 ≤ m ∧ m < n := by
  unfold pyMod at h
  split at h
  · simp at h
  · next hn =>
    simp only [Except.ok.injEq] at h
    subst h
    rw [Int.fmod_eq_emod_of_nonneg _ (by omega)]
    exact ⟨Int.emod_nonneg _ hn, Int.emod_lt_of_pos _ (by omega)⟩

theorem normalizeItems_normalized (is : List Ix) (shape : List Nat) (nix : List NIx)
    (h : normalizeItems is shape = .ok nix) : Normalized nix shape := by
  induction is generalizing shape nix with
  | nil =>
    simp only [normalizeItems, pure_eq_ok] at h
    subst h
    exact normalized_none shape
  | cons x is ih =>
    cases shape with
    | nil =>
      cases x with
      | none => exact ih [] nix h
      | _ => simp [normalizeItems] at h
    | cons n shape =>
      cases x with
      | int i =>
        simp only [normalizeItems, bind_eq_ok, pure_eq_ok] at h
        obtain ⟨m, h1, r, h2, rfl⟩ := h
        exact ⟨pyMod_inv h1, ih shape r h2⟩
      | slice s =>
        simp only [normalizeItems, bind_eq_ok, pure_eq_ok] at h
        obtain ⟨r, h2, rfl⟩ := h
        exact ⟨⟨reduced_idem s n, reduced_step_ne s n⟩, ih shape r h2⟩
      | none =>
        simp only [normalizeItems, bind_eq_ok, pure_eq_ok] at h
        obtain ⟨r, h2, rfl⟩ := h
        exact ih shape r h2
      | other => simp [normalizeItems] at h

theorem normalizeIndex_normalized (index : Index) (shape : List Nat) (nix : List NIx)
    (h : normalizeIndex index shape = .ok nix) : Normalized nix shape := by
  have items : ∀ i : Ix, normalizeIndex (.one i) shape = .ok nix → normalizeItems [i] shape = .ok nix := by
    intro i hi
    cases i <;> cases shape <;> first | exact hi | (simp [normalizeIndex] at hi)
  cases index with
  | tuple is => exact normalizeItems_normalized is shape nix h
  | one i => exact normalizeItems_normalized [i] shape nix (items i h)

/-- A normalized index normalizes to itself. -/
theorem normalizeItems_toIx (nix : List NIx) (shape : List Nat) (h : Normalized nix shape) :
    normalizeItems (nix.map NIx.toIx) shape = .ok nix := by
  induction nix generalizing shape with
  | nil => cases shape with
    | nil => rfl
    | cons => exact h.elim
  | cons x nix ih => cases shape with
    | nil => cases x <;> exact h.elim
    | cons n shape => cases x with
      | int i =>
        have e := pyMod_pos i n (by have := h.1; omega)
        rw [Int.emod_eq_of_lt h.1.1 h.1.2] at e
        simp only [List.map_cons, NIx.toIx, normalizeItems, bind, Except.bind, e, ih shape h.2, pure, Except.pure]
      | slice r =>
        simp only [List.map_cons, NIx.toIx, normalizeItems, bind, Except.bind, ih shape h.2, h.1.1, pure, Except.pure]
      | none =>
        simp only [List.map_cons, NIx.toIx, normalizeItems, bind, Except.bind, ih shape h, pure, Except.pure]

theorem normalized_valid (nix : List NIx) (shape : List Nat) (h : Normalized nix shape) :
    ValidItems (nix.map NIx.toIx) shape := by
  induction nix generalizing shape with
  | nil => trivial
  | cons x nix ih => cases shape with
    | nil => cases x <;> exact h.elim
    | cons n shape => cases x with
      | int i => exact ih shape h.2
      | slice r => exact ⟨by simpa [NIx.toIx, RSlice.toPy] using h.1.2, ih shape h.2⟩
      | none => exact ih shape h

/-- What `indexStrided` computes when it does not raise. -/
theorem indexStrided_inv (nix : List NIx) (shape : List Nat) (strides : List Int) (hn : Normalized nix shape)
    (hs : strides.length = shape.length) (sh : List Nat) (st : List Int) (off : Int)
    (h : indexStrided nix shape strides = .ok (sh, st, off)) :
    sh = selShape (nix.map NIx.toIx) shape ∧ st.length = sh.length ∧
      ∀ j, InBox j sh → address j st + off = address (selSource (nix.map NIx.toIx) shape j) strides := by
  induction nix generalizing shape strides sh st off with
  | nil =>
    cases shape with
    | nil =>
      simp only [indexStrided, pure_eq_ok, Prod.mk.injEq] at h
      obtain ⟨rfl, rfl, rfl⟩ := h
      refine ⟨rfl, rfl, fun j hj => ?_⟩
      cases j with
      | nil => cases strides <;> simp [selSource, address]
      | cons => exact hj.elim
    | cons => exact hn.elim
  | cons x nix ih => cases shape with
    | nil => cases x <;> exact hn.elim
    | cons n shape => cases strides with
      | nil => simp at hs
      | cons s strides =>
        have hs' : strides.length = shape.length := by simpa using hs
        cases x with
        | int i =>
          simp only [indexStrided, bind_eq_ok, pure_eq_ok, Prod.mk.injEq] at h
          obtain ⟨⟨sh', st', off'⟩, h1, rfl, rfl, rfl⟩ := h
          obtain ⟨e1, e2, e3⟩ := ih shape strides hn.2 hs' _ _ _ h1
          refine ⟨e1, e2, fun j hj => ?_⟩
          have e : i % (n : Int) = i := Int.emod_eq_of_lt hn.1.1 hn.1.2
          simp only [List.map_cons, NIx.toIx, selSource, address, e]
          rw [← e3 j hj]; ring
        | slice r =>
          simp only [indexStrided, bind_eq_ok, pure_eq_ok, Prod.mk.injEq] at h
          obtain ⟨m, hm, k, hk, ⟨sh', st', off'⟩, h1, rfl, rfl, rfl⟩ := h
          obtain ⟨e1, e2, e3⟩ := ih shape strides hn.2 hs' _ _ _ h1
          obtain ⟨h4, h5⟩ := normalized_nitems hn.1.1 hn.1.2
          rw [h4] at hk
          simp only [Except.ok.injEq] at hk
          subst hk
          refine ⟨by rw [e1]; rfl, by simp [e2], fun j hj => ?_⟩
          cases j with
          | nil => exact hj.elim
          | cons j0 j =>
            obtain ⟨⟨hj0, hj1⟩, hj2⟩ := hj
            obtain ⟨h8, _, _⟩ := h5 j0.toNat (by omega)
            rw [Int.toNat_of_nonneg hj0] at h8
            have hm' : m = r.start.fmod n := by
              unfold pyMod at hm
              split at hm
              · simp at hm
              · simpa using hm.symm
            simp only [List.map_cons, NIx.toIx, selSource, address, h8, hm']
            rw [← e3 j hj2]; ring
        | none =>
          simp only [indexStrided, bind_eq_ok, pure_eq_ok, Prod.mk.injEq] at h
          obtain ⟨⟨sh', st', off'⟩, h1, rfl, rfl, rfl⟩ := h
          obtain ⟨e1, e2, e3⟩ := ih shape strides hn hs' _ _ _ h1
          refine ⟨by rw [e1]; rfl, by simp [e2], fun j hj => ?_⟩
          cases j with
          | nil => exact hj.elim
          | cons j0 j =>
            simp only [List.map_cons, NIx.toIx, selSource, address]
            rw [← e3 j hj.2]; ring

theorem keep_inBox (nix : List NIx) (shape : List Nat) (hn : Normalized nix shape) (j : List Int)
    (hj : InBox j (selShape (nix.map NIx.toIx) shape)) : InBox (selSource (nix.map NIx.toIx) shape j) shape := by
  induction nix generalizing shape j with
  | nil => cases shape with
    | nil => exact hj
    | cons => exact hn.elim
  | cons x nix ih => cases shape with
    | nil => cases x <;> exact hn.elim
    | cons n shape => cases x with
      | int i =>
        refine ⟨?_, ih shape hn.2 j hj⟩
        rw [Int.emod_eq_of_lt hn.1.1 hn.1.2]
        exact hn.1
      | slice r =>
        cases j with
        | nil => exact hj.elim
        | cons j0 j =>
          obtain ⟨⟨hj0, hj1⟩, hj2⟩ := hj
          obtain ⟨_, h5⟩ := normalized_nitems hn.1.1 hn.1.2
          obtain ⟨h8, h9⟩ := h5 j0.toNat (by omega)
          refine ⟨?_, ih shape hn.2 j hj2⟩
          rw [← h8] at h9
          exact h9
      | none =>
        cases j with
        | nil => exact hj.elim
        | cons j0 j => exact ⟨hj.1, ih shape hn j hj.2⟩

theorem zeros_inBox {j : List Int} {sh : List Nat} (h : InBox j sh) (st : List Int) :
    InBox (sh.map fun _ => (0 : Int)) sh ∧ address (sh.map fun _ => (0 : Int)) st = 0 := by
  induction sh generalizing j st with
  | nil => exact ⟨trivial, by cases st <;> simp [address]⟩
  | cons n sh ih => cases j with
    | nil => exact h.elim
    | cons j0 j =>
      refine ⟨⟨⟨le_refl _, by have := h.1; show (0 : Int) < n; omega⟩, (ih h.2 []).1⟩, ?_⟩
      cases st with
      | nil => simp [address]
      | cons s st =>
        rw [List.map_cons, address, (ih h.2 st).2]
        simp

/-! ## `Strided` -/

theorem Buffer.new_inv {size offset : Nat} {mem : List V} {u : V} {b : Buffer V}
    (h : Buffer.new size offset mem u = .ok b) : b.WF mem ∧ b = ⟨size, offset, u⟩ := by
  simp only [Buffer.new, bind_eq_ok, pyAssert_eq_ok, pure_eq_ok] at h
  obtain ⟨_, h1, rfl⟩ := h
  exact ⟨h1, rfl⟩

theorem Buffer.getSlice_wf {b b' : Buffer V} {mem : List V} {s : PySlice} (h : b.getSlice mem s = .ok b') : b'.WF mem := by
  obtain ⟨start, stop, step⟩ := s
  cases start <;> cases stop <;>
    simp only [Buffer.getSlice, throw, throwThe, MonadExceptOf.throw, bind, Except.bind, pure, Except.pure] at h <;>
    split_ifs at h <;> exact (Buffer.new_inv h).1

theorem Strided.getItem_wf {s r : Strided V} {mem : List V} (h : s.WF mem) {index : Index}
    (hr : s.getItem mem index = .ok (.inr r)) :
    r.WF mem ∧ ∃ nix, normalizeIndex index s.shape = .ok nix ∧ r.shape = selShape (nix.map NIx.toIx) s.shape := by
  simp only [Strided.getItem, bind_eq_ok] at hr
  obtain ⟨nix, h1, hr⟩ := hr
  have hn := normalizeIndex_normalized _ _ _ h1
  cases he : elementIndex nix with
  | some ix =>
    rw [he] at hr
    simp only [bind_eq_ok, pure_eq_ok] at hr
    obtain ⟨_, _, _, _, h2⟩ := hr
    simp at h2
  | none =>
    rw [he] at hr
    simp only [bind_eq_ok, pure_eq_ok, Strided.getSlice, Strided.new, pyAssert_eq_ok] at hr
    obtain ⟨⟨sh, st, off⟩, h2, r', ⟨b, h3, _, h4, h5⟩, h6⟩ := hr
    simp only [Sum.inr.injEq] at h6
    subst h6
    subst h5
    obtain ⟨e1, e2, e3⟩ := indexStrided_inv nix s.shape s.strides hn h.len _ _ _ h2
    refine ⟨⟨e2, Buffer.getSlice_wf h3, ?_⟩, nix, h1, e1⟩
    intro j hj
    simp only at hj ⊢
    have src : ∀ j, InBox j sh → InBox (selSource (nix.map NIx.toIx) s.shape j) s.shape := by
      intro j hj
      exact keep_inBox nix s.shape hn j (by rw [← e1]; exact hj)
    obtain ⟨z1, z2⟩ := zeros_inBox hj st
    have a1 := h.addr _ (src _ z1)
    rw [← e3 _ z1, z2, zero_add] at a1
    have a2 := h.addr _ (src _ hj)
    rw [← e3 _ hj] at a2
    rw [Buffer.getSlice_from s.data mem h.buf off a1.1 a1.2] at h3
    simp only [Except.ok.injEq] at h3
    subst h3
    simp only
    omega

/-! ## The sparse classes -/

theorem rows_nil {shape : List Nat} {rows : List (List Int)} (h : SortedRows shape rows) (hp : ¬ PosShape shape) :
    rows = [] := by
  cases rows with
  | nil => rfl
  | cons r rows => exact absurd (InBox_pos (h.inbox r (by simp))) hp

theorem sliceEntries_nil {P : Type} {selfShape shape : List Nat} {strides : List Int} {offset : Int}
    {L : List (List Int × P)} (h : sliceEntries (.ok ([] : List (List Int × P))) selfShape shape strides offset = .ok L) :
    L = [] := by
  simp only [sliceEntries, bind_eq_ok, pure_eq_ok] at h
  obtain ⟨_, _, _, h0, rs, h1, rfl⟩ := h
  cases h0
  simp only [List.mapM_nil, pure_eq_ok] at h1
  subst h1
  rfl

/-- The arguments of `get_slice` come from an index. -/
structure SliceArgs (shape : List Nat) (nix : List NIx) (sh : List Nat) (st : List Int) (off : Int) : Prop where
  norm : Normalized nix shape
  elem : elementIndex nix = none
  strided : indexStrided nix shape (makeStrides shape) = .ok (sh, st, off)

theorem SliceArgs.shape_eq {shape : List Nat} {nix : List NIx} {sh : List Nat} {st : List Int} {off : Int}
    (h : SliceArgs shape nix sh st off) : sh = selShape (nix.map NIx.toIx) shape :=
  (indexStrided_inv nix shape _ h.norm (makeStrides_length _) _ _ _ h.strided).1

theorem SliceArgs.ne {shape : List Nat} {nix : List NIx} {sh : List Nat} {st : List Int} {off : Int}
    (h : SliceArgs shape nix sh st off) : sh ≠ [] := by
  rw [h.shape_eq]
  rcases elementIndex_cases nix shape h.norm with ⟨ix, h1, _⟩ | ⟨_, h2⟩
  · rw [h.elem] at h1; simp at h1
  · exact h2

theorem SliceArgs.index {shape : List Nat} {nix : List NIx} {sh : List Nat} {st : List Int} {off : Int}
    (h : SliceArgs shape nix sh st off) : normalizeIndex (.tuple (nix.map NIx.toIx)) shape = .ok nix :=
  normalizeItems_toIx nix shape h.norm

theorem COO.getSlice_wf [DecidableEq V] {c r : COO V} {rows : List (List Int)} (h : c.Rep rows) {mem vals : List V}
    (hm : c.data.WF mem) {nix : List NIx} {sh : List Nat} {st : List Int} {off : Int}
    (ha : SliceArgs c.shape nix sh st off) (hr : c.getSlice mem sh st off = .ok (r, vals)) :
    (Storage.coo r).WF vals ∧ r.shape = sh := by
  by_cases hp : PosShape c.shape
  · obtain ⟨r', vals', rows', b', g, _⟩ := coo_getItem h hp mem hm (.tuple (nix.map NIx.toIx))
      (normalized_valid nix _ ha.norm) (by simp only [items]; rw [← ha.shape_eq]; exact ha.ne)
    have ge := g.eval
    simp only [Storage.getItem, ha.index, ha.elem, ha.strided, hr, bind, Except.bind, pure, Except.pure, Except.ok.injEq,
      Res.fresh.injEq, Storage.coo.injEq] at ge
    obtain ⟨rfl, rfl⟩ := ge
    refine ⟨g.sparse.wf _ g.buf, ?_⟩
    have := g.shape_eq
    simp only [items] at this
    rw [ha.shape_eq]
    exact this
  · have e := rows_nil h.rows_ok hp
    subst e
    have hr' := hr
    simp only [COO.getSlice, h.entries_ok, bind_eq_ok, pure_eq_ok] at hr
    obtain ⟨L, h1, _⟩ := hr
    have := sliceEntries_nil h1
    subst this
    rw [h.getSlice_ok mem sh st off [] [] ha.ne h1 rfl rfl] at hr'
    simp only [Except.ok.injEq, Prod.mk.injEq] at hr'
    obtain ⟨rfl, rfl⟩ := hr'
    exact ⟨⟨⟨[], cooOf_rep sh ha.ne [] ⟨List.Pairwise.nil, by simp⟩ _ rfl⟩, by simp [Buffer.WF, cooOf]⟩, rfl⟩

theorem FlatCOO.getSlice_wf [DecidableEq V] {f r : FlatCOO V} {rows : List (List Int)} (h : f.Rep rows) {mem vals : List V}
    (hm : f.data.WF mem) {nix : List NIx} {sh : List Nat} {st : List Int} {off : Int}
    (ha : SliceArgs f.shape nix sh st off) (hr : f.getSlice mem sh st off = .ok (r, vals)) :
    (Storage.flatcoo r).WF vals ∧ r.shape = sh := by
  by_cases hp : PosShape f.shape
  · obtain ⟨r', vals', rows', b', g, _⟩ := flatcoo_getItem h hp mem hm (.tuple (nix.map NIx.toIx))
      (normalized_valid nix _ ha.norm) (by simp only [items]; rw [← ha.shape_eq]; exact ha.ne)
    have ge := g.eval
    simp only [Storage.getItem, ha.index, ha.elem, ha.strided, hr, bind, Except.bind, pure, Except.pure, Except.ok.injEq,
      Res.fresh.injEq, Storage.flatcoo.injEq] at ge
    obtain ⟨rfl, rfl⟩ := ge
    refine ⟨g.sparse.wf _ g.buf, ?_⟩
    have := g.shape_eq
    simp only [items] at this
    rw [ha.shape_eq]
    exact this
  · have e := rows_nil h.rows_ok hp
    subst e
    have hz : f.findices.size = 0 := by rw [h.fsize]; rfl
    simp only [FlatCOO.getSlice, FlatCOO.entries, hz, List.range_zero, List.mapM_nil, bind_eq_ok, pure_eq_ok] at hr
    obtain ⟨L, h1, hr⟩ := hr
    simp only [sliceEntries, bind_eq_ok, pure_eq_ok] at h1
    obtain ⟨_, _, _, ⟨_, _, rfl⟩, rs, h1, rfl⟩ := h1
    simp only [List.mapM_nil, pure_eq_ok] at h1
    subst h1
    simp only [List.filterMap_nil] at hr
    have hp0 : pySorted [] = [] := rfl
    rw [hp0] at hr
    simp only [readAll, List.mapM_nil, pure_eq_ok, exists_eq_left', rawIntBuffer_ok, Except.ok.injEq, FlatCOO.new,
      bind_eq_ok, pyAssert_eq_ok, Prod.mk.injEq, List.length_nil] at hr
    obtain ⟨b, hb, _, ⟨_, _, rfl⟩, rfl, rfl⟩ := hr
    obtain ⟨_, rfl⟩ := Buffer.new_inv hb
    exact ⟨⟨⟨[], flatOf_rep sh [] ⟨List.Pairwise.nil, by simp⟩ ⟨0, 0, f.data.unspec⟩ rfl⟩, by simp [Buffer.WF]⟩, rfl⟩

theorem CSR.getSlice2_wf [DecidableEq V] {c r : CSR V} {rows : List (List Int)} (h : c.Rep rows) {mem vals : List V}
    (hm : c.data.WF mem) {nix : List NIx} {sh : List Nat} {st : List Int} {off : Int}
    (ha : SliceArgs c.shape nix sh st off) (hr : c.getSlice2 mem sh st off = .ok (r, vals)) :
    (Storage.csr r).WF vals ∧ r.shape = sh := by
  have h2 : sh.length = 2 := by
    simp only [CSR.getSlice2, bind_eq_ok, pyAssert_eq_ok] at hr
    exact hr.choose_spec.1
  by_cases hp : PosShape c.shape
  · obtain ⟨r', vals', rows', b', g, _⟩ := csr_getItem2 h hp mem hm (.tuple (nix.map NIx.toIx))
      (normalized_valid nix _ ha.norm) (by simp only [items]; rw [← ha.shape_eq]; exact h2)
    have ge := g.eval
    have h1 : ¬ sh.length = 1 := by omega
    simp only [Storage.getItem, ha.index, ha.elem, ha.strided, hr, bind, Except.bind, pure, Except.pure, h1, if_false,
      Except.ok.injEq, Res.fresh.injEq, Storage.csr.injEq] at ge
    obtain ⟨rfl, rfl⟩ := ge
    refine ⟨g.sparse.wf _ g.buf, ?_⟩
    have := g.shape_eq
    simp only [items] at this
    rw [ha.shape_eq]
    exact this
  · have e := rows_nil h.rows_ok hp
    subst e
    have hr' := hr
    simp only [CSR.getSlice2, h.entries_ok, bind_eq_ok, pure_eq_ok] at hr
    obtain ⟨_, _, L, h1, _⟩ := hr
    have := sliceEntries_nil h1
    subst this
    have hs : SortedRows sh [] := ⟨List.Pairwise.nil, by simp⟩
    rw [h.getSlice2_ok mem sh st off [] [] h2 hs h1 rfl rfl] at hr'
    simp only [Except.ok.injEq, Prod.mk.injEq] at hr'
    obtain ⟨rfl, rfl⟩ := hr'
    exact ⟨⟨⟨[], csrOf_rep sh h2 [] hs _ rfl⟩, by simp [Buffer.WF, csrOf]⟩, rfl⟩

theorem CSR.getSlice1_wf [DecidableEq V] {c : CSR V} {r : COO V} {rows : List (List Int)} (h : c.Rep rows)
    {mem vals : List V} (hm : c.data.WF mem) {nix : List NIx} {sh : List Nat} {st : List Int} {off : Int}
    (ha : SliceArgs c.shape nix sh st off) (hr : c.getSlice1 mem sh st off = .ok (r, vals)) :
    (Storage.coo r).WF vals ∧ r.shape = sh := by
  have hcne : c.shape ≠ [] := by
    intro he
    have := h.two
    rw [he] at this
    simp at this
  have hb := cooBuild_ok c.shape hcne (c.getElem mem) c.data.unspec c.data.unspec
    (fun ix => lookup rows (c.data.window mem) c.data.unspec ix) (fun ix hi => csr_getElem h mem hm ix hi)
  simp only [CSR.getSlice1, hb, bind, Except.bind] at hr
  refine COO.getSlice_wf (cooOf_rep c.shape hcne _ (keptRows_sorted _ _ _) _ rfl) ?_ ha hr
  simp [Buffer.WF, cooOf]

/-! ## `DM` -/

/-- What the loop over the groups computes when it does not raise. -/
theorem dmSliceLoop_inv (nix : List NIx) (shape : List Nat) (hn : Normalized nix shape)
    (rdims : List (List Nat)) (rstrides : List (List Int)) (roffset : List Int)
    (hd : ∀ d ∈ rdims.flatten, d < shape.length) (hs : GroupStrides rdims rstrides)
    (ho : roffset.length = rdims.length) (rd : List (List Nat)) (rst : List (List Int)) (roff : List Int) (dix : List Ix)
    (h : dmSliceLoop nix rdims (groupShapes shape rdims) rstrides roffset = .ok (rd, rst, roff, dix)) :
      GroupStrides rd rst ∧ roff.length = rd.length ∧ dix.length = rdims.length ∧ IntsNones dix ∧
      (∀ inner : List Nat, inner.length = rdims.length → (selShape dix inner).length = rd.length) ∧
      (∀ inner j, InBox j (selShape (nix.map NIx.toIx) shape) →
        InBox (target rdims rstrides roffset (selSource (nix.map NIx.toIx) shape j)) inner →
        InBox (target rd rst roff j) (selShape dix inner)) := by
  induction rdims generalizing rstrides roffset rd rst roff dix with
  | nil =>
    simp only [groupShapes, List.map_nil, dmSliceLoop, pure_eq_ok, Prod.mk.injEq] at h
    obtain ⟨rfl, rfl, rfl, rfl⟩ := h
    refine ⟨trivial, rfl, rfl, ?_, ?_, ?_⟩
    · intro x hx; simp at hx
    · intro inner hi; simpa [selShape] using hi
    · intro inner j _ h
      exact h
  | cons dims rdims ih =>
    cases rstrides with
    | nil => exact hs.elim
    | cons st rstrides => cases roffset with
      | nil => simp at ho
      | cons off roffset =>
        have hd1 : ∀ d ∈ dims, d < shape.length := fun d hd' => hd d (by simp [hd'])
        have hd2 : ∀ d ∈ rdims.flatten, d < shape.length := fun d hd' => hd d (by
          simp only [List.flatten_cons, List.mem_append]; exact .inr hd')
        obtain ⟨g1, g2, g3⟩ := group_ok nix shape hn dims hd1
        simp only [groupShapes, List.map_cons, dmSliceLoop] at h
        rw [nixItems_mapM nix dims (by rw [hn.length_eq]; exact hd1)] at h
        simp only [bind_eq_ok, Except.ok.injEq, exists_eq_left'] at h
        obtain ⟨⟨ksh, kst, koff⟩, k0, ⟨rd0, rst0, roff0, dix0⟩, h1, h⟩ := h
        obtain ⟨k1, k2, k3⟩ := indexStrided_inv _ _ st g1 (by simpa using hs.1) _ _ _ k0
        obtain ⟨e2, e3, e5, e6, e7, e8⟩ := ih rstrides roffset hd2 hs.2 (by simpa using ho) rd0 rst0 roff0 dix0 h1
        simp only at h
        rw [← keptAxes] at h
        have hemp : ksh.isEmpty = (keptAxes nix dims).isEmpty := by
          rw [Bool.eq_iff_iff, List.isEmpty_iff_length_eq_zero, List.isEmpty_iff_length_eq_zero, k1, g2]
        rw [hemp] at h
        have haddr : ∀ j, InBox j (selShape (nix.map NIx.toIx) shape) →
            address ((keptAxes nix dims).map fun d => j.getD d 0) kst + koff
              = address (dims.map fun d => (selSource (nix.map NIx.toIx) shape j).getD d 0) st := by
          intro j hj
          obtain ⟨b1, b2⟩ := g3 j hj
          rw [k3 _ (by rw [k1]; exact b1), b2]
        by_cases hk : keptAxes nix dims = []
        · rw [hk] at h
          simp only [List.isEmpty_nil, if_true, pure_eq_ok, Prod.mk.injEq] at h
          obtain ⟨rfl, rfl, rfl, rfl⟩ := h
          refine ⟨e2, e3, by simp [e5], ?_, ?_, ?_⟩
          · intro x hx
            rcases List.mem_cons.1 hx with rfl | hx
            · exact .inr ⟨_, rfl⟩
            · exact e6 x hx
          · intro inner hi
            obtain ⟨n, inner, rfl⟩ := List.exists_of_length_succ inner hi
            exact e7 inner (by simpa using hi)
          · intro inner j hj hb
            cases inner with
            | nil => exact hb.elim
            | cons n inner => exact e8 inner j hj hb.2
        · have hk' : (keptAxes nix dims).isEmpty = false := by
            cases hke : keptAxes nix dims with
            | nil => exact absurd hke hk
            | cons => rfl
          rw [hk'] at h
          simp only [Bool.false_eq_true, if_false, pure_eq_ok, Prod.mk.injEq] at h
          obtain ⟨rfl, rfl, rfl, rfl⟩ := h
          refine ⟨⟨?_, e2⟩, by simp [e3], by simp [e5], ?_, ?_, ?_⟩
          · rw [k2, k1, g2]
          · intro x hx
            rcases List.mem_cons.1 hx with rfl | hx
            · exact .inl rfl
            · exact e6 x hx
          · intro inner hi
            obtain ⟨n, inner, rfl⟩ := List.exists_of_length_succ inner hi
            simp [selShape, e7 inner (by simpa using hi)]
          · intro inner j hj hb
            cases inner with
            | nil => exact hb.elim
            | cons n inner =>
              have f1 := e8 inner j hj hb.2
              have ha := haddr j hj
              have e : off + koff + address ((keptAxes nix dims).map fun d => j.getD d 0) kst
                  = off + address (dims.map fun d => (selSource (nix.map NIx.toIx) shape j).getD d 0) st := by
                rw [← ha]; ring
              have hb1 := hb.1
              rw [← e] at hb1
              exact ⟨hb1, f1⟩

theorem makeReduction_inv (shape : List Nat) (rdims : List (List Nat))
    (r : List Nat × List (List Nat) × List (List Int)) (h : makeReduction shape rdims = .ok r) :
    ∀ d ∈ rdims.flatten, d < shape.length := by
  induction rdims generalizing r with
  | nil => simp
  | cons dims rdims ih =>
    simp only [makeReduction, bind_eq_ok] at h
    obtain ⟨sh, h1, r', h2, _⟩ := h
    intro d hd
    rcases List.mem_append.1 hd with hd | hd
    · obtain ⟨n, hn⟩ := mapM_inv _ _ _ h1 d hd
      by_contra hc
      simp only [pyGet] at hn
      split at hn <;> simp_all <;> omega
    · exact ih r' h2 d hd

theorem DMMeta.new_inv {shape : List Nat} {rdims : List (List Nat)} {rstrides : List (List Int)} {roffset : List Int}
    {m : DMMeta} (h : DMMeta.new shape rdims rstrides roffset = .ok m) :
    rdims ≠ [] ∧ (∀ d, d ∈ rdims.flatten ↔ d < shape.length) ∧
      m = ⟨shape, rdims, groupShapes shape rdims, rstrides, roffset⟩ := by
  have hne : rdims ≠ [] := by
    rintro rfl
    simp [DMMeta.new, throw, throwThe, MonadExceptOf.throw, bind, Except.bind] at h
  have hem : rdims.isEmpty = false := by cases rdims <;> simp_all
  have hax : ∀ d, d ∈ rdims.flatten ↔ d < shape.length := by
    simp only [DMMeta.new, hem, Bool.false_eq_true, if_false, bind_eq_ok, pyAssert_bool, flatten_foldr] at h
    obtain ⟨_, h1, _, h2, _⟩ := h
    intro d
    constructor
    · intro hd
      simpa using List.all_eq_true.1 h1 d hd
    · intro hd
      simpa using List.all_eq_true.1 h2 d (by simpa using hd)
  rw [DMMeta.new_ok shape rdims rstrides roffset hne hax] at h
  simp only [Except.ok.injEq] at h
  exact ⟨hne, hax, h.symm⟩

theorem selShape_normalized (dix : List Ix) (shape : List Nat) (nix : List NIx) (h : normalizeItems dix shape = .ok nix)
    (hi : IntsNones dix) : selShape (nix.map NIx.toIx) shape = selShape dix shape := by
  induction dix generalizing shape nix with
  | nil =>
    simp only [normalizeItems, pure_eq_ok] at h
    subst h
    rw [List.map_map]
    refine Eq.trans (selShape_none shape) ?_
    cases shape <;> rfl
  | cons x dix ih =>
    have hi' : IntsNones dix := fun y hy => hi y (by simp [hy])
    cases shape with
    | nil => rw [selShape_nil, selShape_nil]
    | cons n shape =>
      rcases hi x (by simp) with rfl | ⟨i, rfl⟩
      · simp only [normalizeItems, bind_eq_ok, pure_eq_ok] at h
        obtain ⟨r, h2, rfl⟩ := h
        simp only [List.map_cons, NIx.toIx, selShape, ih shape r h2 hi']
      · simp only [normalizeItems, bind_eq_ok, pure_eq_ok] at h
        obtain ⟨m, _, r, h2, rfl⟩ := h
        simp only [List.map_cons, NIx.toIx, selShape, ih shape r h2 hi']

/-- The shape of a slice by ints and `None`. -/
def KeepShape (s r : Storage V) (index : Index) : Prop :=
  ∀ dix, index = .tuple dix → IntsNones dix → dix.length = s.shape.length → r.shape = selShape dix s.shape

theorem keepShape_of {s r : Storage V} {index : Index} {nix : List NIx} (h1 : normalizeIndex index s.shape = .ok nix)
    (h2 : r.shape = selShape (nix.map NIx.toIx) s.shape) : KeepShape s r index := by
  rintro dix rfl hi _
  rw [h2]
  exact selShape_normalized dix s.shape nix h1 hi

theorem bufferGetItem_inv {b : Buffer V} {mem : List V} {index : Index} {res : Res V}
    (h : Storage.bufferGetItem b mem index = .ok res) :
    ∃ i, (index = .one i ∨ index = .tuple [i]) ∧ Storage.bufferGetItem b mem (.one i) = .ok res := by
  cases index with
  | one i => exact ⟨i, .inl rfl, h⟩
  | tuple is =>
    cases is with
    | nil => simp [Storage.bufferGetItem, bind, Except.bind] at h
    | cons i is => cases is with
      | nil => exact ⟨i, .inr rfl, h⟩
      | cons => simp [Storage.bufferGetItem, bind, Except.bind] at h

/-- Indexing a well-formed object returns a value or a well-formed object, or raises. -/
theorem Storage.WF.getItem_keep [DecidableEq V] {s : Storage V} {mem : List V} (h : s.WF mem) {index : Index} {res : Res V}
    (hr : s.getItem mem index = .ok res) {r : Storage V} {mem' : List V}
    (hres : (res = .view r ∧ mem' = mem) ∨ res = .fresh r mem') : r.WF mem' ∧ KeepShape s r index := by
  induction s generalizing index res r mem' with
  | buffer b =>
    simp only [Storage.getItem] at hr
    obtain ⟨i, h1, hr⟩ := bufferGetItem_inv hr
    have one : ∀ dix, index = .tuple dix → dix = [i] := by
      rintro dix rfl
      simpa using h1
    simp only [Storage.bufferGetItem, bind, Except.bind, pure, Except.pure] at hr
    cases i with
    | none =>
      simp only [Except.ok.injEq] at hr
      subst hr
      simp only [Res.view.injEq, reduceCtorEq, or_false] at hres
      obtain ⟨rfl, rfl⟩ := hres
      refine ⟨h, fun dix hd _ _ => ?_⟩
      rw [one dix hd]
      rfl
    | slice sl =>
      simp only at hr
      cases h2 : b.getSlice mem sl with
      | error e => rw [h2] at hr; simp at hr
      | ok b' =>
        rw [h2] at hr
        simp only [Except.ok.injEq] at hr
        subst hr
        simp only [Res.view.injEq, reduceCtorEq, or_false] at hres
        obtain ⟨rfl, rfl⟩ := hres
        refine ⟨Buffer.getSlice_wf h2, fun dix hd hi _ => ?_⟩
        rw [one dix hd] at hi
        rcases hi _ (List.mem_singleton.2 rfl) with hc | ⟨_, hc⟩ <;> simp at hc
    | int i =>
      simp only at hr
      cases h2 : b.getInt mem i with
      | error e => rw [h2] at hr; simp at hr
      | ok v =>
        rw [h2] at hr
        simp only [Except.ok.injEq] at hr
        subst hr
        simp at hres
    | other => simp at hr
  | strided s =>
    simp only [Storage.getItem, bind_eq_ok] at hr
    obtain ⟨x, h1, hr⟩ := hr
    cases x with
    | inl v =>
      simp only [pure_eq_ok] at hr
      subst hr
      simp at hres
    | inr r0 =>
      simp only [pure_eq_ok] at hr
      subst hr
      simp only [Res.view.injEq, reduceCtorEq, or_false] at hres
      obtain ⟨rfl, rfl⟩ := hres
      obtain ⟨g1, nix, g2, g3⟩ := Strided.getItem_wf h h1
      exact ⟨g1, keepShape_of g2 g3⟩
  | coo c =>
    obtain ⟨⟨rows, hrep⟩, hm⟩ := h
    simp only [Storage.getItem, bind_eq_ok] at hr
    obtain ⟨nix, h1, hr⟩ := hr
    cases he : elementIndex nix with
    | some ix =>
      rw [he] at hr
      simp only [bind_eq_ok, pure_eq_ok] at hr
      obtain ⟨_, _, _, _, rfl⟩ := hr
      simp at hres
    | none =>
      rw [he] at hr
      simp only [bind_eq_ok, pure_eq_ok] at hr
      obtain ⟨⟨sh, st, off⟩, h2, ⟨r0, m0⟩, h3, rfl⟩ := hr
      simp only [Res.fresh.injEq, reduceCtorEq, false_and, false_or] at hres
      obtain ⟨rfl, rfl⟩ := hres
      have ha : SliceArgs c.shape nix sh st off := ⟨normalizeIndex_normalized _ _ _ h1, he, h2⟩
      obtain ⟨g1, g2⟩ := COO.getSlice_wf hrep hm ha h3
      exact ⟨g1, keepShape_of h1 (g2.trans ha.shape_eq)⟩
  | flatcoo c =>
    obtain ⟨⟨rows, hrep⟩, hm⟩ := h
    simp only [Storage.getItem, bind_eq_ok] at hr
    obtain ⟨nix, h1, hr⟩ := hr
    cases he : elementIndex nix with
    | some ix =>
      rw [he] at hr
      simp only [bind_eq_ok, pure_eq_ok] at hr
      obtain ⟨_, _, _, _, rfl⟩ := hr
      simp at hres
    | none =>
      rw [he] at hr
      simp only [bind_eq_ok, pure_eq_ok] at hr
      obtain ⟨⟨sh, st, off⟩, h2, ⟨r0, m0⟩, h3, rfl⟩ := hr
      simp only [Res.fresh.injEq, reduceCtorEq, false_and, false_or] at hres
      obtain ⟨rfl, rfl⟩ := hres
      have ha : SliceArgs c.shape nix sh st off := ⟨normalizeIndex_normalized _ _ _ h1, he, h2⟩
      obtain ⟨g1, g2⟩ := FlatCOO.getSlice_wf hrep hm ha h3
      exact ⟨g1, keepShape_of h1 (g2.trans ha.shape_eq)⟩
  | csr c =>
    obtain ⟨⟨rows, hrep⟩, hm⟩ := h
    simp only [Storage.getItem, bind_eq_ok] at hr
    obtain ⟨nix, h1, hr⟩ := hr
    cases he : elementIndex nix with
    | some ix =>
      rw [he] at hr
      simp only [bind_eq_ok, pure_eq_ok] at hr
      obtain ⟨_, _, _, _, rfl⟩ := hr
      simp at hres
    | none =>
      rw [he] at hr
      simp only [bind_eq_ok] at hr
      obtain ⟨⟨sh, st, off⟩, h2, hr⟩ := hr
      have ha : SliceArgs c.shape nix sh st off := ⟨normalizeIndex_normalized _ _ _ h1, he, h2⟩
      simp only at hr
      by_cases h1' : sh.length = 1
      · simp only [h1', if_true, bind_eq_ok, pure_eq_ok] at hr
        obtain ⟨⟨r0, m0⟩, h3, rfl⟩ := hr
        simp only [Res.fresh.injEq, reduceCtorEq, false_and, false_or] at hres
        obtain ⟨rfl, rfl⟩ := hres
        obtain ⟨g1, g2⟩ := CSR.getSlice1_wf hrep hm ha h3
        exact ⟨g1, keepShape_of h1 (g2.trans ha.shape_eq)⟩
      · simp only [h1', if_false, bind_eq_ok, pure_eq_ok] at hr
        obtain ⟨⟨r0, m0⟩, h3, rfl⟩ := hr
        simp only [Res.fresh.injEq, reduceCtorEq, false_and, false_or] at hres
        obtain ⟨rfl, rfl⟩ := hres
        obtain ⟨g1, g2⟩ := CSR.getSlice2_wf hrep hm ha h3
        exact ⟨g1, keepShape_of h1 (g2.trans ha.shape_eq)⟩
  | dm m d ih =>
    obtain ⟨hm, hd⟩ := h
    simp only [Storage.getItem, bind_eq_ok] at hr
    obtain ⟨nix, h1, hr⟩ := hr
    have hn := normalizeIndex_normalized _ _ _ h1
    rcases elementIndex_cases nix m.shape hn with ⟨ix, he, _, hbox, _⟩ | ⟨he, hne⟩
    · rw [he] at hr
      simp only [bind_eq_ok] at hr
      obtain ⟨rix, h2, hr⟩ := hr
      rw [hm.getDataPosition_ok ix hbox] at h2
      simp only [Except.ok.injEq] at h2
      subst h2
      rw [getItem_of_getVal (hd.getVal_ok _ (hm.into ix hbox))] at hr
      simp only [Except.ok.injEq] at hr
      subst hr
      simp at hres
    · rw [he] at hr
      simp only [bind_eq_ok] at hr
      obtain ⟨gsh, h2, ⟨rd, rst, roff, dix⟩, h3, hr⟩ := hr
      rw [shapeStrided_ok nix m.shape hn] at h2
      simp only [Except.ok.injEq] at h2
      subst h2
      rw [hm.rshapes] at h3
      obtain ⟨e2, e3, e5, e6, e7, e8⟩ := dmSliceLoop_inv nix m.shape hn m.rdims m.rstrides m.roffset
        (fun a ha => (hm.axes a).1 ha) hm.rstrides hm.roffset rd rst roff dix h3
      have hdne : dix.isEmpty = false := by
        cases dix with
        | nil =>
          exfalso
          simp at e5
          exact hm.ne (List.length_eq_zero_iff.1 e5.symm)
        | cons => rfl
      simp only [hdne, Bool.false_eq_true, if_false, bind_eq_ok] at hr
      obtain ⟨r1, h4, m', h5, hr⟩ := hr
      obtain ⟨q1, q2, rfl⟩ := DMMeta.new_inv h5
      have fin : ∀ (s' : Storage V) (mm : List V), ((r1 = .view s' ∧ mm = mem) ∨ r1 = .fresh s' mm) →
          (Storage.dm ⟨selShape (nix.map NIx.toIx) m.shape, rd, groupShapes (selShape (nix.map NIx.toIx) m.shape) rd, rst,
            roff⟩ s').WF mm := by
        intro s' mm hs'
        obtain ⟨g1, g2⟩ := ih hd h4 hs'
        have hsh : s'.shape = selShape dix d.shape := g2 dix rfl e6 (by rw [e5, hm.rank])
        refine ⟨⟨q1, q2, rfl, e2, e3, ?_, ?_⟩, g1⟩
        · rw [hsh]; exact e7 d.shape hm.rank
        · intro j hj
          rw [hsh]
          exact e8 d.shape j hj (hm.into _ (keep_inBox nix m.shape hn j hj))
      cases r1 with
      | val v => simp at hr
      | view s' =>
        simp only [pure_eq_ok] at hr
        subst hr
        simp only [Res.view.injEq, reduceCtorEq, or_false] at hres
        obtain ⟨rfl, rfl⟩ := hres
        exact ⟨fin s' _ (.inl ⟨rfl, rfl⟩), keepShape_of h1 rfl⟩
      | fresh s' mm =>
        simp only [pure_eq_ok] at hr
        subst hr
        simp only [Res.fresh.injEq, reduceCtorEq, false_and, false_or] at hres
        obtain ⟨rfl, rfl⟩ := hres
        exact ⟨fin s' _ (.inr rfl), keepShape_of h1 rfl⟩

end Gcs
