import Verif.SpecArray
import Verif.Lemmas.DMBuild

/-!
# Lemmas: `fromobject` and the conversions
-/

namespace Gcs

open Spec

variable {V : Type}

/-! ## Nested lists -/

theorem Spec.HasShape.shape_eq {n : Nested V} {shape : List Nat} (h : HasShape n shape) : n.shape = shape := by
  induction h with
  | leaf v => rfl
  | empty => rfl
  | seq items shape hne h ih =>
    cases items with
    | nil => exact absurd rfl hne
    | cons x xs => simp [Nested.shape, ih x (by simp)]

theorem Spec.HasShape.item_iff {n : Nested V} {shape : List Nat} (h : HasShape n shape) (ix : List Int) :
    (∃ v, item n ix = some v) ↔ InBox ix shape := by
  induction h generalizing ix with
  | leaf v => cases ix <;> simp [item, InBox]
  | empty =>
    cases ix with
    | nil => simp [item, InBox]
    | cons i ix =>
      simp only [item, InBox]
      constructor
      · rintro ⟨v, hv⟩
        split at hv <;> simp at hv
      · rintro ⟨⟨h1, h2⟩, _⟩
        omega
  | seq items shape hne h ih =>
    cases ix with
    | nil => simp [item, InBox]
    | cons i ix =>
      simp only [item, InBox]
      constructor
      · rintro ⟨v, hv⟩
        split at hv
        · next h0 =>
          cases hx : items[i.toNat]? with
          | none => rw [hx] at hv; simp at hv
          | some x =>
            rw [hx] at hv
            have hlt : i.toNat < items.length := (List.getElem?_eq_some_iff.1 hx).1
            exact ⟨⟨h0, by omega⟩, (ih x (List.mem_of_getElem? hx) ix).1 ⟨v, hv⟩⟩
        · simp at hv
      · rintro ⟨⟨h0, h1⟩, h2⟩
        have hlt : i.toNat < items.length := by omega
        obtain ⟨v, hv⟩ := (ih items[i.toNat] (List.getElem_mem hlt) ix).2 h2
        exact ⟨v, by rw [if_pos h0, List.getElem?_eq_getElem hlt]; exact hv⟩

theorem walk_of_item (n : Nested V) (ix : List Int) (v : V) (h : item n ix = some v) : n.walk ix = .ok v := by
  induction ix generalizing n with
  | nil =>
    cases n with
    | leaf w => simpa [item, Nested.walk, pure, Except.pure] using h
    | seq items => simp [item] at h
  | cons i ix ih =>
    cases n with
    | leaf w => simp [item] at h
    | seq items =>
      simp only [item] at h
      split at h
      · next h0 =>
        cases hx : items[i.toNat]? with
        | none => rw [hx] at h; simp at h
        | some x =>
          rw [hx] at h
          have hlt : i.toNat < items.length := (List.getElem?_eq_some_iff.1 hx).1
          have := pyGet_nat items i.toNat hlt
          rw [Int.toNat_of_nonneg h0] at this
          have e : items[i.toNat] = x := by
            rw [List.getElem?_eq_getElem hlt] at hx
            exact Option.some.inj hx
          simp only [Nested.walk, this, bind, Except.bind, e]
          exact ih x h
      · simp at h

theorem getValue_of_item (n : Nested V) (ix : List Int) (v : V) (h : item n ix = some v) : n.getValue ix = .ok v := by
  cases n with
  | seq items => exact walk_of_item _ _ _ h
  | leaf w => cases ix with
    | nil => simpa [item, Nested.getValue, pure, Except.pure] using h
    | cons i ix => simp [item] at h

/-- The items of a nested list as a function. -/
def itemD [HasNone V] (n : Nested V) (ix : List Int) : V := (item n ix).getD pyNone

/-! ## Sources -/

/-- The source of `fromobject` is the array `a`. -/
structure SrcOk [DecidableEq V] (src : Src V) (shape : List Nat) (a : List Int → V) : Prop where
  shape_eq : src.shape = shape
  value : ∀ ix, InBox ix shape → src.getValue ix = .ok (a ix)

theorem SrcOk.nested [DecidableEq V] [HasNone V] {n : Nested V} {shape : List Nat} (h : HasShape n shape) :
    SrcOk (.nested n) shape (itemD n) := by
  refine ⟨h.shape_eq, fun ix hi => ?_⟩
  obtain ⟨v, hv⟩ := (h.item_iff ix).2 hi
  rw [Src.getValue, getValue_of_item n ix v hv, itemD, hv]
  rfl

theorem SrcOk.store [DecidableEq V] {s : Storage V} {mem : List V} (h : s.WF mem) (hne : s.shape ≠ []) :
    SrcOk (.store s mem) s.shape (s.at mem) := by
  refine ⟨rfl, fun ix hi => ?_⟩
  cases ix with
  | nil =>
    rw [← List.length_pos_iff, ← hi.length_eq] at hne
    simp at hne
  | cons i ix => exact h.getVal_ok _ hi

/-- What the class needs of the array: the values `f` with `u` as the unspecified value. -/
def ClassOk [DecidableEq V] (cls : Cls) (shape : List Nat) (f : List Int → V) (u : V) : Prop :=
  (cls = .buffer → shape.length = 1) ∧
  (cls = .csr → shape.length = 2 ∧ ∃ ix, InBox ix shape ∧ f ix ≠ u)

/-- The general branch of `fromobject`. -/
theorem general_ok [DecidableEq V] (cls : Cls) (shape : List Nat) (hne : shape ≠ []) (value : List Int → PyM V)
    (su u : V) (a : List Int → V) (h : ∀ ix, InBox ix shape → value ix = .ok (a ix))
    (hc : ClassOk cls shape (fun ix => subst su u (a ix)) u) :
    ∃ s mem, (match cls with
      | .dm => dmBuild .strided shape none none value su u
      | c => buildFlat c shape value su u) = .ok (s, mem) ∧ s.cls = cls ∧ s.unspec = u ∧ ZeroOff s ∧
      Stands s mem shape (fun ix => subst su u (a ix)) ∧ Kept s mem (fun ix => subst su u (a ix)) u := by
  have flat : ∀ c : Cls, c ≠ .dm → cls = c → ∃ s mem, buildFlat c shape value su u = .ok (s, mem) ∧
      s.cls = c ∧ s.unspec = u ∧ ZeroOff s ∧ Stands s mem shape (fun ix => subst su u (a ix)) ∧
      Kept s mem (fun ix => subst su u (a ix)) u := by
    rintro c hdm rfl
    obtain ⟨s, mem, h1, h2, h3, h4, h5⟩ := buildFlat_ok cls shape value su u a h (by
      cases cls with
      | buffer => exact .inl ⟨rfl, hc.1 rfl⟩
      | strided => exact .inr (.inl rfl)
      | coo => exact .inr (.inr (.inl ⟨rfl, hne⟩))
      | flatcoo => exact .inr (.inr (.inr (.inl rfl)))
      | csr => exact .inr (.inr (.inr (.inr ⟨rfl, hc.2 rfl⟩)))
      | dm => exact absurd rfl hdm)
    refine ⟨s, mem, h1, h2, h3, ?_, h4, h5⟩
    cases s with
    | dm m d => exact absurd h2.symm hdm
    | _ => trivial
  cases cls with
  | buffer => exact flat .buffer (by simp) rfl
  | strided => exact flat .strided (by simp) rfl
  | coo => exact flat .coo (by simp) rfl
  | flatcoo => exact flat .flatcoo (by simp) rfl
  | csr => exact flat .csr (by simp) rfl
  | dm =>
    obtain ⟨m, st, mem, h1, ⟨⟨_, h2⟩, _⟩, h3, h4⟩ := dmBuild_ok .strided shape none none value su u a
      (goodSplit_default _ _ (List.length_pos_of_ne_nil hne)) h (by simp) (by simp)
    exact ⟨.dm m st, mem, h1, rfl, h2, h3, h4, trivial⟩

/-- `fromobject` of a nested list. -/
theorem fromObject_nested [DecidableEq V] [HasNone V] (cls : Cls) (n : Nested V) (shape : List Nat) (hne : shape ≠ [])
    (h : HasShape n shape) (unspec : Option V)
    (hc : ClassOk cls shape (fun ix => subst pyNone (unspec.getD pyNone) (itemD n ix)) (unspec.getD pyNone)) :
    ∃ s mem, fromObject cls (.nested n) unspec = .ok (.fresh s mem) ∧ s.cls = cls ∧ s.unspec = unspec.getD pyNone ∧
      ZeroOff s ∧ Stands s mem shape (fun ix => subst pyNone (unspec.getD pyNone) (itemD n ix)) ∧
      Kept s mem (fun ix => subst pyNone (unspec.getD pyNone) (itemD n ix)) (unspec.getD pyNone) := by
  obtain ⟨hs, hv⟩ := SrcOk.nested h
  obtain ⟨s, mem, h1, h2⟩ := general_ok cls shape hne _ pyNone (unspec.getD pyNone) (itemD n) hv hc
  refine ⟨s, mem, ?_, h2⟩
  cases unspec with
  | some u =>
    simp only [fromObject, hs]
    simp only [Src.unspec, bind, Except.bind]
    cases cls <;> (simp only at h1 ⊢; rw [h1]; rfl)
  | none =>
    simp only [fromObject, hs]
    simp only [Src.unspec, bind, Except.bind]
    cases cls <;> (simp only at h1 ⊢; rw [h1]; rfl)

theorem lookup_ne_unspec {rows : List (List Int)} {vals : List V} {u : V} {ix : List Int}
    (h : lookup rows vals u ix ≠ u) : rows ≠ [] := by
  rintro rfl
  exact h (lookup_none _ _ (by simp))

/-- Conversion of a storage object to a class. -/
theorem convert_ok [DecidableEq V] [HasNone V] {s : Storage V} {mem : List V} (h : s.WF mem) (hne : s.shape ≠ [])
    (cls : Cls) (unspec : Option V)
    (hc : ClassOk cls s.shape (fun ix => subst s.unspec (unspec.getD s.unspec) (s.at mem ix)) (unspec.getD s.unspec))
    (hf : unspec = none → s.cls = .flatcoo → cls = .coo → PosShape s.shape) :
    ∃ r mem', s.convert mem cls unspec = .ok (r, mem') ∧ r.cls = cls ∧ r.unspec = unspec.getD s.unspec ∧
      ZeroOff r ∧ Stands r mem' s.shape fun ix => subst s.unspec (unspec.getD s.unspec) (s.at mem ix) := by
  obtain ⟨hs, hv⟩ := SrcOk.store h hne
  obtain ⟨r, mem', h1, h2, h3, h4, h5, _⟩ := general_ok cls s.shape hne _ s.unspec (unspec.getD s.unspec) (s.at mem) hv hc
  have gen : (fromObject cls (.store s mem) unspec = do
      let (r, m) ← match cls with
        | .dm => dmBuild .strided s.shape none none (Src.store s mem).getValue s.unspec (unspec.getD s.unspec)
        | c => buildFlat c s.shape (Src.store s mem).getValue s.unspec (unspec.getD s.unspec)
      return .fresh r m) → ∃ r mem', s.convert mem cls unspec = .ok (r, mem') ∧ r.cls = cls ∧
        r.unspec = unspec.getD s.unspec ∧
      ZeroOff r ∧ Stands r mem' s.shape fun ix => subst s.unspec (unspec.getD s.unspec) (s.at mem ix) := by
    intro hg
    refine ⟨r, mem', ?_, h2, h3, h4, h5⟩
    simp only [Storage.convert, hg, bind, Except.bind]
    cases cls <;> (simp only at h1 ⊢; rw [h1]; rfl)
  cases unspec with
  | some u => exact gen rfl
  | none =>
    clear h1 h2 h3 h4 h5 hv
    simp only [Option.getD_none] at *
    have same : ∀ {cls : Cls}, cls ≠ .dm → s.cls = cls → fromObject cls (.store s mem) none = .ok .same →
        ∃ r mem', s.convert mem cls none = .ok (r, mem') ∧ r.cls = cls ∧ r.unspec = s.unspec ∧ ZeroOff r ∧
        Stands r mem' s.shape fun ix => subst s.unspec s.unspec (s.at mem ix) := by
      intro cls hcd hcl hsame
      refine ⟨s, mem, ?_, hcl, rfl, ?_, h, rfl, fun ix _ => (subst_self _ _).symm⟩
      · simp only [Storage.convert, hsame, bind, Except.bind, pure, Except.pure]
      · cases s with
        | dm m d => exact absurd hcl.symm hcd
        | _ => trivial
    cases cls with
    | dm => exact gen rfl
    | buffer => cases s with
      | buffer b => exact same (by simp) rfl rfl
      | _ => exact gen rfl
    | strided => cases s with
      | strided b => exact same (by simp) rfl rfl
      | _ => exact gen rfl
    | coo => cases s with
      | coo b => exact same (by simp) rfl rfl
      | flatcoo f =>
        obtain ⟨⟨rows, hr⟩, hm⟩ := h
        have hp := hf trivial rfl rfl
        have hb : Buffer.WF ⟨rows.length, 0, f.data.unspec⟩ (f.data.window mem) := by
          simp [Buffer.WF, f.data.window_length mem hm, hr.size]
        have hrep : Sparse (.coo (cooOf f.shape rows (⟨rows.length, 0, f.data.unspec⟩ : Buffer V))) rows _ :=
          .coo (cooOf_rep f.shape hne rows hr.rows_ok _ rfl)
        refine ⟨.coo (cooOf f.shape rows ⟨rows.length, 0, f.data.unspec⟩), f.data.window mem, ?_, rfl, rfl, trivial, hrep.wf _ hb, rfl, fun ix hi => ?_⟩
        · simp only [Storage.convert, fromObject, flatToCoo_ok hr hp hne mem hm, bind, Except.bind, pure, Except.pure]
        · rw [subst_self, hrep.at _ hb ix hi, (Sparse.flatcoo hr).at mem hm ix hi]
          congr 1
          exact buffer_window_map _ _ _ (by simp [f.data.window_length mem hm, hr.size])
      | _ => exact gen rfl
    | flatcoo => cases s with
      | flatcoo b => exact same (by simp) rfl rfl
      | coo c =>
        obtain ⟨⟨rows, hr⟩, hm⟩ := h
        have hb : Buffer.WF ⟨rows.length, 0, c.data.unspec⟩ (c.data.window mem) := by
          simp [Buffer.WF, c.data.window_length mem hm, hr.size]
        have hrep : Sparse (.flatcoo (flatOf c.shape rows (⟨rows.length, 0, c.data.unspec⟩ : Buffer V))) rows _ :=
          .flatcoo (flatOf_rep c.shape rows hr.rows_ok _ rfl)
        refine ⟨.flatcoo (flatOf c.shape rows ⟨rows.length, 0, c.data.unspec⟩), c.data.window mem, ?_, rfl, rfl, trivial, hrep.wf _ hb, rfl, fun ix hi => ?_⟩
        · simp only [Storage.convert, fromObject, cooToFlat_ok hr mem hm, bind, Except.bind, pure, Except.pure]
        · rw [subst_self, hrep.at _ hb ix hi, (Sparse.coo hr).at mem hm ix hi]
          congr 1
          exact buffer_window_map _ _ _ (by simp [c.data.window_length mem hm, hr.size])
      | _ => exact gen rfl
    | csr =>
      obtain ⟨h2, ix0, hi0, hx0⟩ := hc.2 rfl
      have hp := InBox_pos hi0
      have fin : ∀ (rows : List (List Int)) (u : V) (w : List V), SortedRows s.shape rows → w.length = rows.length →
          s.unspec = u → (∀ ix, InBox ix s.shape → s.at mem ix = lookup rows w u ix) →
          Stands (.csr (csrOf s.shape rows (⟨rows.length, 0, u⟩ : Buffer V))) w s.shape
            fun ix => subst s.unspec s.unspec (s.at mem ix) := by
        intro rows u w hr hl hu hat
        have hb : Buffer.WF ⟨rows.length, 0, u⟩ w := by simp [Buffer.WF, hl]
        have hrep : Sparse (.csr (csrOf s.shape rows (⟨rows.length, 0, u⟩ : Buffer V))) rows _ :=
          .csr (csrOf_rep s.shape h2 rows hr _ rfl)
        refine ⟨hrep.wf _ hb, rfl, fun ix hi => ?_⟩
        rw [subst_self, hrep.at _ hb ix hi, hat ix hi]
        congr 1
        exact buffer_window_map _ _ _ hl
      cases s with
      | coo c =>
        obtain ⟨⟨rows, hr⟩, hm⟩ := h
        have hat := (Sparse.coo hr).at mem hm
        simp only [subst_self] at hx0
        rw [hat ix0 hi0] at hx0
        have hrn := lookup_ne_unspec hx0
        refine ⟨.csr (csrOf c.shape rows ⟨rows.length, 0, c.data.unspec⟩), c.data.window mem, ?_, rfl, rfl, trivial,
          fin rows _ _ hr.rows_ok (by simp [c.data.window_length mem hm, hr.size]) rfl hat⟩
        simp only [Storage.convert, fromObject, cooToCsr_ok hr hrn h2 mem hm, bind, Except.bind, pure, Except.pure]
      | flatcoo f =>
        obtain ⟨⟨rows, hr⟩, hm⟩ := h
        have hat := (Sparse.flatcoo hr).at mem hm
        simp only [subst_self] at hx0
        rw [hat ix0 hi0] at hx0
        have hrn := lookup_ne_unspec hx0
        have hwl : (f.data.window mem).length = rows.length := by simp [f.data.window_length mem hm, hr.size]
        have hb : Buffer.WF ⟨rows.length, 0, f.data.unspec⟩ (f.data.window mem) := by simp [Buffer.WF, hwl]
        have hc' := cooToCsr_ok (cooOf_rep f.shape hne rows hr.rows_ok (⟨rows.length, 0, f.data.unspec⟩ : Buffer V) rfl)
          hrn h2 (f.data.window mem) hb
        refine ⟨.csr (csrOf f.shape rows ⟨rows.length, 0, f.data.unspec⟩), f.data.window mem, ?_, rfl, rfl, trivial,
          fin rows _ _ hr.rows_ok hwl rfl hat⟩
        simp only [Storage.convert, fromObject, flatToCoo_ok hr hp hne mem hm, bind, Except.bind, pure, Except.pure]
        rw [hc', ← buffer_window_map rows.length f.data.unspec (f.data.window mem) hwl]
        simp [cooOf, buffer_window_map _ _ _ hwl, Storage.shape]
      | _ => exact gen rfl

/-! ## Equal objects -/

theorem rows_unique {shape : List Nat} {l1 l2 : List (List Int)} (h1 : SortedRows shape l1) (h2 : SortedRows shape l2)
    (h : ∀ ix, ix ∈ l1 ↔ ix ∈ l2) : l1 = l2 := by
  have hp : l1.Perm l2 := (List.perm_ext_iff_of_nodup h1.nodup h2.nodup).2 h
  exact hp.eq_of_pairwise (fun a b _ _ x y => (lexLt_asymm x y).elim) h1.sorted h2.sorted

theorem contiguous_window {s : Strided V} {mem : List V} (h : s.WF mem) (hs : s.strides = makeStrides s.shape)
    (hz : s.data.size = product s.shape) : s.data.window mem = (indexProduct s.shape).map (s.val mem) := by
  apply List.ext_getElem?
  intro k
  by_cases hk : k < product s.shape
  · obtain ⟨ix, h1, h2, h3⟩ := indexProduct_getElem? s.shape k hk
    have hw : k < (s.data.window mem).length := by rw [s.data.window_length mem h.buf, hz]; exact hk
    have := s.data.window_getD mem h.buf k (by omega) s.data.unspec
    rw [List.getElem?_map, h1, Option.map_some, Strided.val, Strided.cell, hs, h3]
    rw [List.getElem?_eq_getElem hw]
    rw [List.getD_eq_getElem?_getD, List.getElem?_eq_getElem hw] at this
    simp only [Option.getD_some] at this
    rw [this]
    congr 2
  · rw [List.getElem?_eq_none (by rw [s.data.window_length mem h.buf, hz]; omega),
      List.getElem?_eq_none (by simp [indexProduct_length]; omega)]

/-- The index array is contiguous, as the library makes it. -/
structure COO.Contiguous (c : COO V) : Prop where
  strides : c.indices.strides = makeStrides c.indices.shape
  size : c.indices.data.size = product c.indices.shape

theorem coo_eq_of [DecidableEq V] {c : COO V} {rows : List (List Int)} (h : c.Rep rows) (hc : c.Contiguous) (mem : List V)
    (hm : c.data.WF mem) :
    (Storage.coo c).eq mem (.coo (cooOf c.shape rows ⟨rows.length, 0, c.data.unspec⟩)) (c.data.window mem) = true := by
  have e1 : c.indices.data.window c.imem = imemOf c.shape.length rows := by
    rw [contiguous_window h.iwf hc.strides hc.size, h.ishape]
    apply List.map_congr_left
    intro ix hix
    obtain ⟨j, p, rfl, hj, hp⟩ := two_inBox ((mem_indexProduct _ _).1 hix)
    rw [h.ival p hp j hj]
    simp [List.getD_eq_getElem?_getD, hp]
  have e2 := c.data.window_length mem hm
  have e3 : (imemOf c.shape.length rows).length = product [c.shape.length, rows.length] := by
    simp [imemOf, indexProduct_length]
  simp only [Storage.eq, cooOf, indicesOf, Strided.eq, Buffer.eq, h.ishape, hc.strides, hc.size, h.iun, e1,
    buffer_window_map _ _ _ e3, buffer_window_map rows.length c.data.unspec (c.data.window mem) (by rw [e2, h.size]), h.size]
  simp

theorem flat_eq_of [DecidableEq V] {f : FlatCOO V} {rows : List (List Int)} (h : f.Rep rows)
    (hu : f.findices.unspec = none) (mem : List V) (hm : f.data.WF mem) :
    (Storage.flatcoo f).eq mem (.flatcoo (flatOf f.shape rows ⟨rows.length, 0, f.data.unspec⟩)) (f.data.window mem)
      = true := by
  have e2 := f.data.window_length mem hm
  have e3 : (fmemOf f.shape rows).length = rows.length := by simp [fmemOf]
  simp only [Storage.eq, flatOf, Buffer.eq, hu, h.fsize, h.size, h.fval,
    buffer_window_map _ _ _ e3, buffer_window_map rows.length f.data.unspec (f.data.window mem) (by rw [e2, h.size])]
  simp [fmemOf]

/-- The general conversion to `COO`, of an array given by stored indices and values. -/
theorem to_coo_ok [DecidableEq V] [HasNone V] {r : Storage V} {m : List V} (hw : r.WF m) (hne : r.shape ≠ [])
    (hcls : r.cls ≠ .coo ∧ r.cls ≠ .flatcoo) (rows : List (List Int)) (w : List V) (hr : SortedRows r.shape rows)
    (hl : w.length = rows.length) (hat : ∀ ix, InBox ix r.shape → r.at m ix = lookup rows w r.unspec ix)
    (hx : ∀ v ∈ w, v ≠ r.unspec) :
    r.convert m .coo none = .ok (.coo (cooOf r.shape rows ⟨rows.length, 0, r.unspec⟩), w) := by
  obtain ⟨hs, hv⟩ := SrcOk.store hw hne
  have hlk : ∀ (p : Nat) (hp : p < rows.length), lookup rows w r.unspec rows[p] = w[p]'(by omega) := by
    intro p hp
    rw [lookup_at hr.nodup _ _ p hp]
    have : p < w.length := by omega
    simp [List.getD_eq_getElem?_getD, this]
  have hk : keptRows r.shape (fun ix => subst r.unspec r.unspec (r.at m ix)) r.unspec = rows := by
    apply rows_unique (keptRows_sorted _ _ _) hr
    intro ix
    rw [mem_keptRows, subst_self]
    constructor
    · rintro ⟨hi, hne'⟩
      by_contra hc
      rw [hat ix hi, lookup_none _ _ hc] at hne'
      exact hne' rfl
    · intro hm
      have hi := hr.inbox ix hm
      refine ⟨hi, ?_⟩
      obtain ⟨p, hp, rfl⟩ := List.getElem_of_mem hm
      rw [hat _ hi, hlk p hp]
      exact hx _ (List.getElem_mem _)
  have hmap : rows.map (fun ix => subst r.unspec r.unspec (r.at m ix)) = w := by
    apply List.ext_getElem (by simp [hl])
    intro p h1 h2
    have hp : p < rows.length := by simpa using h1
    rw [List.getElem_map, subst_self, hat _ (hr.inbox _ (List.getElem_mem hp)), hlk p hp]
  have hb := cooBuild_ok r.shape hne _ r.unspec r.unspec _ hv
  rw [hk, hmap] at hb
  have hg : fromObject .coo (.store r m) none = .ok (.fresh (.coo (cooOf r.shape rows ⟨rows.length, 0, r.unspec⟩)) w) := by
    cases r with
    | coo c => exact absurd rfl hcls.1
    | flatcoo c => exact absurd rfl hcls.2
    | _ =>
      simp only [fromObject, Src.unspec, Src.shape, Option.getD_none, buildFlat]
      rw [hb]
      rfl
  simp only [Storage.convert, hg, bind, Except.bind, pure, Except.pure]

end Gcs
