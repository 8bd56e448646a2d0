import Verif.Lemmas.Elements
import Verif.Lemmas.GetItem

/-! Copies of storage objects. -/

namespace Gcs

open Spec

variable {V : Type} [DecidableEq V]

theorem Buffer.copy_ok (b : Buffer V) (mem : List V) (h : b.WF mem) (u : Option V) :
    b.copy mem u = (⟨b.size, 0, u.getD b.unspec⟩, (b.window mem).map (Gcs.subst b.unspec (u.getD b.unspec))) := by
  have hl := b.window_length mem h
  simp only [Buffer.copy]
  by_cases e : u.getD b.unspec = b.unspec
  · rw [if_pos e]
    have : (b.window mem).map (Gcs.subst b.unspec (u.getD b.unspec)) = b.window mem := by
      conv => rhs; rw [← List.map_id (b.window mem)]
      apply List.map_congr_left
      intro v _
      simp only [Gcs.subst, e, id_eq]
      split <;> simp_all
    simp only [hl, this]
  · rw [if_neg e]
    simp only [List.length_map, hl]
    rfl

theorem lookup_subst (rows : List (List Int)) (vals : List V) (u u' : V) (ix : List Int) :
    lookup rows (vals.map (subst u u')) u' ix = subst u u' (lookup rows vals u ix) := by
  unfold lookup
  cases rows.idxOf? ix with
  | none => simp [subst]
  | some p =>
    simp only [List.getD_eq_getElem?_getD, List.getElem?_map]
    cases vals[p]? with
    | none => simp [subst]
    | some v => rfl

/-- A copy stores the same indices. -/
theorem Sparse.copy_ok {s : Storage V} {rows : List (List Int)} {b : Buffer V} (h : Sparse s rows b)
    (mem : List V) (hm : b.WF mem) (u : Option V) :
    ∃ r, s.copy mem u = .ok (r, (b.window mem).map (subst b.unspec (u.getD b.unspec))) ∧
      Sparse r rows ⟨b.size, 0, u.getD b.unspec⟩ ∧ r.cls = s.cls ∧ r.shape = s.shape := by
  cases h with
  | @coo c _ h =>
    refine ⟨.coo ⟨c.shape, c.indices, c.imem, ⟨c.data.size, 0, u.getD c.data.unspec⟩⟩, ?_, ?_, rfl, rfl⟩
    · simp only [Storage.copy, Buffer.copy_ok _ _ hm, bind, Except.bind, pure, Except.pure]
      rw [COO.new_ok _ _ _ ⟨c.data.size, 0, u.getD c.data.unspec⟩ _ _ h.ishape h.size]
    · exact .coo (c := ⟨c.shape, c.indices, c.imem, ⟨c.data.size, 0, u.getD c.data.unspec⟩⟩)
        ⟨h.rows_ok, h.ne, h.ishape, h.iwf, h.iun, h.ival, h.size⟩
  | @flatcoo f _ h =>
    refine ⟨.flatcoo ⟨f.shape, f.findices, f.fmem, ⟨f.data.size, 0, u.getD f.data.unspec⟩⟩, ?_, ?_, rfl, rfl⟩
    · simp only [Storage.copy, Buffer.copy_ok _ _ hm, bind, Except.bind, pure, Except.pure]
      rw [FlatCOO.new_ok]
      rw [h.fsize, ← h.size]
    · exact .flatcoo (f := ⟨f.shape, f.findices, f.fmem, ⟨f.data.size, 0, u.getD f.data.unspec⟩⟩)
        ⟨h.rows_ok, h.fwf, h.fval, h.size⟩
  | @csr c _ h =>
    refine ⟨.csr ⟨c.shape, c.crow, c.crowMem, c.col, c.colMem, ⟨c.data.size, 0, u.getD c.data.unspec⟩⟩, ?_, ?_, rfl, rfl⟩
    · obtain ⟨n, m, hs⟩ := List.length_eq_two.1 h.two
      have h1 : c.crow.size = n + 1 := by
        rw [← c.crow.window_length _ h.cwf, h.cval]
        simp [hs]
      have h2 : c.col.size = c.data.size := by
        rw [← c.col.window_length _ h.kwf, h.kval, h.size]
        simp
      simp only [Storage.copy, Buffer.copy_ok _ _ hm, bind, Except.bind, pure, Except.pure]
      rw [CSR.new_ok _ _ _ _ _ ⟨c.data.size, 0, u.getD c.data.unspec⟩ n m hs h1 h2]
    · exact .csr (c := ⟨c.shape, c.crow, c.crowMem, c.col, c.colMem, ⟨c.data.size, 0, u.getD c.data.unspec⟩⟩)
        ⟨h.rows_ok, h.two, h.cwf, h.cval, h.kwf, h.kval, h.size⟩

/-- What `copy` returns. -/
structure CopyOf (s : Storage V) (mem : List V) (u : Option V) (r : Storage V) (m : List V) : Prop where
  eval : s.copy mem u = .ok (r, m)
  cls : r.cls = s.cls
  unspec : r.unspec = u.getD s.unspec
  stands : Stands r m s.shape fun ix => subst s.unspec (u.getD s.unspec) (s.at mem ix)

theorem Sparse.copyOf {s : Storage V} {rows : List (List Int)} {b : Buffer V} (h : Sparse s rows b)
    (mem : List V) (hm : b.WF mem) (u : Option V) :
    ∃ r m, CopyOf s mem u r m ∧ Sparse r rows ⟨b.size, 0, u.getD b.unspec⟩ ∧ m.length = b.size := by
  obtain ⟨r, h1, h2, h3, h4⟩ := h.copy_ok mem hm u
  have hl : ((b.window mem).map (subst b.unspec (u.getD b.unspec))).length = b.size := by
    rw [List.length_map, b.window_length mem hm]
  have hb : Buffer.WF ⟨b.size, 0, u.getD b.unspec⟩ ((b.window mem).map (subst b.unspec (u.getD b.unspec))) := by
    unfold Buffer.WF; simp only [hl]; omega
  refine ⟨r, _, ⟨h1, h3, ?_, ⟨h2.wf _ hb, h4, ?_⟩⟩, h2, hl⟩
  · rw [h2.unspec, h.unspec]
  · intro ix hi
    rw [h2.at _ hb ix (by rw [h4]; exact hi), h.at mem hm ix hi, buffer_window_map _ _ _ hl, lookup_subst, h.unspec]

theorem Storage.WF.copyOf {s : Storage V} {mem : List V} (h : s.WF mem) (u : Option V) :
    ∃ r m, CopyOf s mem u r m := by
  induction s with
  | buffer b =>
    have h : b.WF mem := h
    have hl : ((b.window mem).map (subst b.unspec (u.getD b.unspec))).length = b.size := by
      rw [List.length_map, b.window_length mem h]
    have hb : Buffer.WF ⟨b.size, 0, u.getD b.unspec⟩ ((b.window mem).map (subst b.unspec (u.getD b.unspec))) := by
      unfold Buffer.WF; simp only [hl]; omega
    refine ⟨.buffer ⟨b.size, 0, u.getD b.unspec⟩, (b.window mem).map (subst b.unspec (u.getD b.unspec)), ?_, rfl, rfl, hb, rfl, ?_⟩
    · simp only [Storage.copy, Buffer.copy_ok _ _ h, pure, Except.pure]
    · intro ix hi
      match ix, hi with
      | [i], hi =>
        simp only [Storage.shape, InBox, and_true] at hi
        rw [at_of_getVal (buffer_getVal h i hi.1 hi.2)]
        apply at_of_getVal
        rw [buffer_getVal hb i hi.1 hi.2, buffer_window_map _ _ _ hl]
        simp only [Storage.unspec, List.getD_eq_getElem?_getD, List.getElem?_map]
        cases (b.window mem)[i.toNat]? with
        | none => simp [subst]
        | some v => rfl
      | [], hi => exact hi.elim
      | _ :: _ :: _, hi => exact hi.2.elim
  | strided s =>
    have h : s.WF mem := h
    refine ⟨.strided ⟨s.shape, makeStrides s.shape, ⟨product s.shape, 0, u.getD s.data.unspec⟩⟩,
      (indexProduct s.shape).map fun ix => subst s.data.unspec (u.getD s.data.unspec) (s.val mem ix), ?_, rfl, rfl, ?_⟩
    · simp only [Storage.copy, Strided.copy_ok h, bind, Except.bind, pure, Except.pure]
    · have := strided_stands s.shape (fun ix => subst s.data.unspec (u.getD s.data.unspec) (s.val mem ix))
        (u.getD s.data.unspec)
      refine ⟨this.wf, rfl, fun ix hi => ?_⟩
      rw [this.reads ix hi, at_strided h ix hi]
      rfl
  | coo c =>
    obtain ⟨⟨rows, hr⟩, hm⟩ := h
    obtain ⟨r, m, h1, _⟩ := (Sparse.coo hr).copyOf mem hm u
    exact ⟨r, m, h1⟩
  | flatcoo c =>
    obtain ⟨⟨rows, hr⟩, hm⟩ := h
    obtain ⟨r, m, h1, _⟩ := (Sparse.flatcoo hr).copyOf mem hm u
    exact ⟨r, m, h1⟩
  | csr c =>
    obtain ⟨⟨rows, hr⟩, hm⟩ := h
    obtain ⟨r, m, h1, _⟩ := (Sparse.csr hr).copyOf mem hm u
    exact ⟨r, m, h1⟩
  | dm m d ih =>
    obtain ⟨hm, hd⟩ := h
    obtain ⟨r, mem', h1, h2, h3, h4⟩ := ih hd
    have hm' : m.WF r.shape := by rw [h4.shape_eq]; exact hm
    have e : (⟨m.shape, m.rdims, groupShapes m.shape m.rdims, m.rstrides, m.roffset⟩ : DMMeta) = m := by
      rw [← hm.rshapes]
    refine ⟨.dm m r, mem', ?_, rfl, h3, ⟨⟨hm', h4.wf⟩, rfl, ?_⟩⟩
    · simp only [Storage.copy, h1, DMMeta.new_ok _ _ _ _ hm.ne hm.axes, bind, Except.bind, pure, Except.pure, e]
    · intro ix hi
      rw [at_dm hm' h4.wf ix hi, at_dm hm hd ix hi, h4.reads _ (hm.into ix hi)]
      rfl

end Gcs
