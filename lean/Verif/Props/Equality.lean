import Verif.Props.Observing

/-!
# C52: `==`
-/

namespace Gcs

open Spec

variable {V : Type} [DecidableEq V]

theorem Buffer.eq_iff {α : Type} [DecidableEq α] (b b' : Buffer α) (mem mem' : List α) :
    b.eq mem b' mem' = true ↔ b.size = b'.size ∧ b.window mem = b'.window mem' ∧ b.unspec = b'.unspec := by
  simp [Buffer.eq, and_assoc]

theorem Strided.eq_iff {α : Type} [DecidableEq α] (s s' : Strided α) (mem mem' : List α) :
    s.eq mem s' mem' = true ↔ s.shape = s'.shape ∧ s.strides = s'.strides ∧ s.data.eq mem s'.data mem' = true := by
  simp [Strided.eq, and_assoc]

/-- C52.  `==` is reflexive, symmetric and transitive. -/
theorem C52_equivalence (s t r : Storage V) (ms mt mr : List V) :
    s.eq ms s ms = true ∧ s.eq ms t mt = t.eq mt s ms ∧
    (s.eq ms t mt = true → t.eq mt r mr = true → s.eq ms r mr = true) := by
  have brefl : ∀ {α : Type} [DecidableEq α] (b : Buffer α) (m : List α), b.eq m b m = true := by
    intro α _ b m; simp [Buffer.eq]
  have bsymm : ∀ {α : Type} [DecidableEq α] (b c : Buffer α) (m m' : List α), b.eq m c m' = c.eq m' b m := by
    intro α _ b c m m'
    rw [Bool.eq_iff_iff, Buffer.eq_iff, Buffer.eq_iff]
    exact ⟨fun ⟨h1, h2, h3⟩ => ⟨h1.symm, h2.symm, h3.symm⟩, fun ⟨h1, h2, h3⟩ => ⟨h1.symm, h2.symm, h3.symm⟩⟩
  have btrans : ∀ {α : Type} [DecidableEq α] {b c d : Buffer α} {m m' m'' : List α}, b.eq m c m' = true →
      c.eq m' d m'' = true → b.eq m d m'' = true := by
    intro α _ b c d m m' m''
    simp only [Buffer.eq_iff]
    rintro ⟨h1, h2, h3⟩ ⟨g1, g2, g3⟩
    exact ⟨h1.trans g1, h2.trans g2, h3.trans g3⟩
  have srefl : ∀ {α : Type} [DecidableEq α] (b : Strided α) (m : List α), b.eq m b m = true := by
    intro α _ b m; simp [Strided.eq, brefl]
  have ssymm : ∀ {α : Type} [DecidableEq α] (b c : Strided α) (m m' : List α), b.eq m c m' = c.eq m' b m := by
    intro α _ b c m m'
    simp only [Strided.eq, bsymm b.data c.data, eq_comm (a := b.shape), eq_comm (a := b.strides)]
  have strans : ∀ {α : Type} [DecidableEq α] {b c d : Strided α} {m m' m'' : List α}, b.eq m c m' = true →
      c.eq m' d m'' = true → b.eq m d m'' = true := by
    intro α _ b c d m m' m''
    simp only [Strided.eq_iff]
    rintro ⟨h1, h2, h3⟩ ⟨g1, g2, g3⟩
    exact ⟨h1.trans g1, h2.trans g2, btrans h3 g3⟩
  refine ⟨?_, ?_, ?_⟩
  · induction s with
    | buffer b => exact brefl b ms
    | strided s => exact srefl s ms
    | coo c => simp [Storage.eq, srefl, brefl]
    | flatcoo c => simp [Storage.eq, brefl]
    | csr c => simp [Storage.eq, brefl]
    | dm m d ih => simp [Storage.eq, ih]
  · induction s generalizing t with
    | buffer b => cases t <;> simp [Storage.eq]; exact bsymm _ _ _ _
    | strided b => cases t <;> simp [Storage.eq]; exact ssymm _ _ _ _
    | coo c =>
      cases t <;> simp only [Storage.eq]
      next c' => simp only [ssymm c.indices, bsymm c.data c'.data, eq_comm (a := c.shape)]
    | flatcoo c =>
      cases t <;> simp only [Storage.eq]
      next c' => simp only [bsymm c.findices, bsymm c.data, eq_comm (a := c.shape)]
    | csr c =>
      cases t <;> simp only [Storage.eq]
      next c' => simp only [bsymm c.crow, bsymm c.col, bsymm c.data, eq_comm (a := c.shape)]
    | dm m d ih =>
      cases t <;> simp only [Storage.eq]
      next m' d' =>
        simp only [ih d', eq_comm (a := m.shape), eq_comm (a := m.rdims), eq_comm (a := m.rstrides), eq_comm (a := m.roffset)]
  · induction s generalizing t r with
    | buffer b => cases t <;> cases r <;> simp only [Storage.eq, Bool.false_eq_true, false_implies, implies_true]; exact btrans
    | strided b => cases t <;> cases r <;> simp only [Storage.eq, Bool.false_eq_true, false_implies, implies_true]; exact strans
    | coo c =>
      cases t <;> cases r <;> simp only [Storage.eq, Bool.false_eq_true, false_implies, implies_true, Bool.and_eq_true, decide_eq_true_eq]
      rintro ⟨⟨h1, h2⟩, h3⟩ ⟨⟨g1, g2⟩, g3⟩
      exact ⟨⟨h1.trans g1, strans h2 g2⟩, btrans h3 g3⟩
    | flatcoo c =>
      cases t <;> cases r <;> simp only [Storage.eq, Bool.false_eq_true, false_implies, implies_true, Bool.and_eq_true, decide_eq_true_eq]
      rintro ⟨⟨h1, h2⟩, h3⟩ ⟨⟨g1, g2⟩, g3⟩
      exact ⟨⟨h1.trans g1, btrans h2 g2⟩, btrans h3 g3⟩
    | csr c =>
      cases t <;> cases r <;> simp only [Storage.eq, Bool.false_eq_true, false_implies, implies_true, Bool.and_eq_true, decide_eq_true_eq]
      rintro ⟨⟨⟨h1, h2⟩, h3⟩, h4⟩ ⟨⟨⟨g1, g2⟩, g3⟩, g4⟩
      exact ⟨⟨⟨h1.trans g1, btrans h2 g2⟩, btrans h3 g3⟩, btrans h4 g4⟩
    | dm m d ih =>
      cases t <;> cases r <;> simp only [Storage.eq, Bool.false_eq_true, false_implies, implies_true, Bool.and_eq_true, decide_eq_true_eq]
      rintro ⟨⟨⟨⟨h1, h2⟩, h3⟩, h4⟩, h5⟩ ⟨⟨⟨⟨g1, g2⟩, g3⟩, g4⟩, g5⟩
      exact ⟨⟨⟨⟨h1.trans g1, h2.trans g2⟩, h3.trans g3⟩, h4.trans g4⟩, ih _ _ h5 g5⟩

/-- Equal `Strided` objects without elements before their windows have equal elements. -/
theorem Strided.val_of_eq {α : Type} [DecidableEq α] {s t : Strided α} {mem mem' : List α} (hs : s.WF mem) (ht : t.WF mem')
    (h : s.eq mem t mem' = true) (hn : ∀ ix, InBox ix s.shape → 0 ≤ address ix s.strides) (ix : List Int)
    (hi : InBox ix s.shape) : s.val mem ix = t.val mem' ix := by
  rw [Strided.eq_iff, Buffer.eq_iff] at h
  obtain ⟨h1, h2, h3, h4, h5⟩ := h
  have a := hs.addr ix hi
  have b := ht.addr ix (by rw [← h1]; exact hi)
  have c := hn ix hi
  have e1 := s.data.window_getD mem hs.buf (address ix s.strides).toNat (by omega) s.data.unspec
  have e2 := t.data.window_getD mem' ht.buf (address ix t.strides).toNat (by rw [← h2]; omega) t.data.unspec
  rw [h4, h5, h2, e2] at e1
  simp only [Strided.val, Strided.cell]
  rw [show ((s.data.offset : Int) + address ix s.strides).toNat = s.data.offset + (address ix t.strides).toNat by
      rw [← h2]; omega, h5, ← e1]
  rw [h2] at c
  congr 1
  omega

omit [DecidableEq V] in
theorem Sparse.same_window_place {s t : Storage V} {rows : List (List Int)} {b b' : Buffer V} (hs : Sparse s rows b)
    (ht : Sparse t rows b') (ix : List Int) : HasPlace s ix ↔ HasPlace t ix := by
  rw [hs.hasPlace, ht.hasPlace]

omit [DecidableEq V] in
/-- Equal index arrays: the same stored indices. -/
theorem COO.Rep.rows_eq {c c' : COO V} {rows rows' : List (List Int)} (hr : c.Rep rows) (hr' : c'.Rep rows')
    (h1 : c.shape = c'.shape) (h2 : c.indices.eq c.imem c'.indices c'.imem = true)
    (hn : ∀ ix, InBox ix c.indices.shape → 0 ≤ address ix c.indices.strides) : rows = rows' := by
  have hsh := (Strided.eq_iff _ _ _ _).1 h2
  have hlen : rows.length = rows'.length := by
    have := hsh.1
    rw [hr.ishape, hr'.ishape] at this
    simp only [List.cons.injEq, and_true] at this
    exact this.2
  apply List.ext_getElem hlen
  intro p h4 h5
  have l1 := (hr.rows_ok.inbox _ (List.getElem_mem h4)).length_eq
  have l2 := (hr'.rows_ok.inbox _ (List.getElem_mem h5)).length_eq
  apply List.ext_getElem (by rw [l1, l2, h1])
  intro k h6 h7
  have hb : InBox [(k : Int), (p : Int)] c.indices.shape := by
    rw [hr.ishape]
    simp only [InBox, and_true]
    omega
  have e := Strided.val_of_eq hr.iwf hr'.iwf h2 hn _ hb
  rw [hr.ival p h4 k (by omega), hr'.ival p h5 k (by omega)] at e
  simpa [List.getD_eq_getElem?_getD, h6, h7] using e

omit [DecidableEq V] in
theorem FlatCOO.Rep.rows_eq {f f' : FlatCOO V} {rows rows' : List (List Int)} (hr : f.Rep rows) (hr' : f'.Rep rows')
    (h1 : f.shape = f'.shape) (h2 : f.findices.eq f.fmem f'.findices f'.fmem = true) : rows = rows' := by
  rw [Buffer.eq_iff] at h2
  have hw := h2.2.1
  rw [hr.fval, hr'.fval] at hw
  have hlen : rows.length = rows'.length := by simpa using congrArg List.length hw
  apply List.ext_getElem hlen
  intro p h4 h5
  have e := congrArg (fun l => l[p]?) hw
  simp only [List.getElem?_map, h4, h5, List.getElem?_eq_getElem, Option.map_some, Option.some.injEq] at e
  rw [← h1] at e
  exact address_inj (hr.rows_ok.inbox _ (List.getElem_mem h4))
    (by rw [h1]; exact hr'.rows_ok.inbox _ (List.getElem_mem h5)) e

omit [DecidableEq V] in
theorem CSR.Rep.rows_eq {c c' : CSR V} {rows rows' : List (List Int)} (hr : c.Rep rows) (hr' : c'.Rep rows')
    (h1 : c.shape = c'.shape) (h2 : c.crow.eq c.crowMem c'.crow c'.crowMem = true)
    (h3 : c.col.eq c.colMem c'.col c'.colMem = true) : rows = rows' := by
  rw [Buffer.eq_iff] at h2 h3
  have hw := h2.2.1
  have hk := h3.2.1
  rw [hr.cval, hr'.cval] at hw
  rw [hr.kval, hr'.kval] at hk
  have hlen : rows.length = rows'.length := by simpa using congrArg List.length hk
  have hbelow : ∀ r : Nat, r ≤ c.shape.getD 0 0 → below (firsts rows) r = below (firsts rows') r := by
    intro r hr0
    have e := congrArg (fun l => l[r]?) hw
    rw [← h1] at e
    simp only [List.getElem?_map, List.getElem?_range (show r < c.shape.getD 0 0 + 1 by omega), Option.map_some,
      Option.some.injEq, Nat.cast_inj] at e
    exact e
  apply List.ext_getElem hlen
  intro p h5 h6
  have e := congrArg (fun l => l[p]?) hk
  simp only [List.getElem?_map, h5, h6, List.getElem?_eq_getElem, Option.map_some, Option.some.injEq] at e
  obtain ⟨r, k, n, m, e1, e2, e3, e4, e5, e6⟩ := pair_of_two (hr.rows_ok.inbox _ (List.getElem_mem h5)) hr.two
  obtain ⟨r', k', n', m', e1', e2', e3', e4', _⟩ := pair_of_two (hr'.rows_ok.inbox _ (List.getElem_mem h6)) hr'.two
  have hn : c.shape.getD 0 0 = n := by simp [e2]
  have p1 := (below_range (firsts rows) r hr.rows_ok.firsts_sorted p (by rw [firsts_length]; exact h5)).2
    (by rw [firsts_getElem, e1]; rfl)
  obtain ⟨a, rfl⟩ := Int.eq_ofNat_of_zero_le e3
  have b1 := hbelow a (by omega)
  have b2 := hbelow (a + 1) (by omega)
  push_cast at b2
  rw [b1, b2] at p1
  have p2 := (below_range (firsts rows') a hr'.rows_ok.firsts_sorted p (by rw [firsts_length]; exact h6)).1 p1
  rw [firsts_getElem, e1'] at p2
  rw [e1, e1'] at e
  simp only [List.getD_cons_zero, List.getD_cons_succ] at p2 e
  rw [e1, e1', p2, e]

/-- Equal storages have the same stored indices and the same elements. -/
theorem eq_same {s t : Storage V} {mem mem' : List V} (hs : s.WF mem) (ht : t.WF mem')
    (hn : NoneBefore s) (h : s.eq mem t mem' = true) :
    s.cls = t.cls ∧ s.shape = t.shape ∧ s.unspec = t.unspec ∧ (∀ ix, HasPlace s ix ↔ HasPlace t ix) ∧
      ∀ ix, InBox ix s.shape → s.at mem ix = t.at mem' ix := by
  have sparse : ∀ {s t : Storage V} {rows b b'}, Sparse s rows b → Sparse t rows b' → b.WF mem → b'.WF mem' →
      s.shape = t.shape → b.eq mem b' mem' = true → s.unspec = t.unspec ∧
      (∀ ix, HasPlace s ix ↔ HasPlace t ix) ∧ ∀ ix, InBox ix s.shape → s.at mem ix = t.at mem' ix := by
    intro s t rows b b' h1 h2 h3 h4 h5 h6
    rw [Buffer.eq_iff] at h6
    refine ⟨by rw [h1.unspec, h2.unspec]; exact h6.2.2, fun ix => h1.same_window_place h2 ix, fun ix hi => ?_⟩
    rw [h1.at mem h3 ix hi, h2.at mem' h4 ix (by rw [← h5]; exact hi), h6.2.1, h6.2.2]
  induction s generalizing t with
  | buffer b =>
    cases t <;> simp only [Storage.eq, Bool.false_eq_true] at h
    next b' =>
      rw [Buffer.eq_iff] at h
      have hsh : (Storage.buffer b).shape = (Storage.buffer b').shape := by simp [Storage.shape, h.1]
      refine ⟨rfl, hsh, h.2.2, fun ix => by simp only [HasPlace, hsh], fun ix hi => ?_⟩
      match ix, hi with
      | [i], hi =>
        have hi' : InBox [i] (Storage.buffer b').shape := by rw [← hsh]; exact hi
        rw [at_of_getVal (buffer_getVal hs i hi.1.1 hi.1.2), at_of_getVal (buffer_getVal ht i hi'.1.1 hi'.1.2), h.2.1, h.2.2]
      | [], hi => exact hi.elim
      | _ :: _ :: _, hi => exact hi.2.elim
  | strided s =>
    cases t <;> simp only [Storage.eq, Bool.false_eq_true] at h
    next t =>
      have h' := h
      rw [Strided.eq_iff, Buffer.eq_iff] at h'
      refine ⟨rfl, h'.1, h'.2.2.2.2, fun ix => by simp only [HasPlace, Storage.shape, h'.1], fun ix hi => ?_⟩
      rw [at_strided hs ix hi, at_strided ht ix (by rw [← h'.1]; exact hi)]
      exact Strided.val_of_eq hs ht h hn ix hi
  | coo c =>
    cases t <;> simp only [Storage.eq, Bool.false_eq_true, Bool.and_eq_true, decide_eq_true_eq] at h
    next c' =>
      obtain ⟨⟨rows, hr⟩, hm⟩ := hs
      obtain ⟨⟨rows', hr'⟩, hm'⟩ := ht
      obtain ⟨⟨h1, h2⟩, h3⟩ := h
      have := hr.rows_eq hr' h1 h2 hn
      subst this
      exact ⟨rfl, h1, sparse (.coo hr) (.coo hr') hm hm' h1 h3⟩
  | flatcoo f =>
    cases t <;> simp only [Storage.eq, Bool.false_eq_true, Bool.and_eq_true, decide_eq_true_eq] at h
    next f' =>
      obtain ⟨⟨rows, hr⟩, hm⟩ := hs
      obtain ⟨⟨rows', hr'⟩, hm'⟩ := ht
      obtain ⟨⟨h1, h2⟩, h3⟩ := h
      have := hr.rows_eq hr' h1 h2
      subst this
      exact ⟨rfl, h1, sparse (.flatcoo hr) (.flatcoo hr') hm hm' h1 h3⟩
  | csr c =>
    cases t <;> simp only [Storage.eq, Bool.false_eq_true, Bool.and_eq_true, decide_eq_true_eq] at h
    next c' =>
      obtain ⟨⟨rows, hr⟩, hm⟩ := hs
      obtain ⟨⟨rows', hr'⟩, hm'⟩ := ht
      obtain ⟨⟨⟨h1, h2⟩, h3⟩, h4⟩ := h
      have := hr.rows_eq hr' h1 h2 h3
      subst this
      exact ⟨rfl, h1, sparse (.csr hr) (.csr hr') hm hm' h1 h4⟩
  | dm m d ih =>
    cases t <;> simp only [Storage.eq, Bool.false_eq_true, Bool.and_eq_true, decide_eq_true_eq] at h
    next m' d' =>
      obtain ⟨⟨⟨⟨h1, h2⟩, h3⟩, h4⟩, h5⟩ := h
      obtain ⟨_, i2, i3, _, i5⟩ := ih hs.2 ht.2 hn h5
      refine ⟨rfl, h1, i3, fun ix => by simp only [HasPlace, Storage.shape, h1], fun ix hi => ?_⟩
      rw [at_dm hs.1 hs.2 ix hi, at_dm ht.1 ht.2 ix (by rw [← h1]; exact hi), h2, h3, h4]
      rw [← h2, ← h3, ← h4]
      exact i5 _ (hs.1.into ix hi)

/-- C52.  `s == t` for objects without elements before their windows: they have the same class, shape and unspecified
value, places for the same indices, and the same elements. -/
theorem C52_eq_reads (s t : Storage V) (mem mem' : List V) (hs : s.WF mem) (ht : t.WF mem') (hn : NoneBefore s)
    (h : s.eq mem t mem' = true) :
    s.cls = t.cls ∧ s.shape = t.shape ∧ s.unspec = t.unspec ∧ (∀ ix, HasPlace s ix ↔ HasPlace t ix) ∧
      ∀ ix v, InBox ix s.shape → (Reads s mem ix v ↔ Reads t mem' ix v) := by
  obtain ⟨h1, h2, h3, h4, h5⟩ := eq_same hs ht hn h
  refine ⟨h1, h2, h3, h4, fun ix v hi => ?_⟩
  have r1 := hs.reads ix hi
  have r2 := ht.reads ix (by rw [← h2]; exact hi)
  rw [h5 ix hi] at r1
  constructor
  · intro hr
    rw [← hr.at_eq, h5 ix hi]
    exact r2
  · intro hr
    rw [← hr.at_eq]
    exact r1

theorem sorted_rows_ext {shape shape' : List Nat} {rows rows' : List (List Int)} (h : SortedRows shape rows)
    (h' : SortedRows shape' rows') (he : ∀ ix, ix ∈ rows ↔ ix ∈ rows') : rows = rows' := by
  apply List.Perm.eq_of_pairwise (le := lexLt) _ h.sorted h'.sorted ((List.perm_ext_iff_of_nodup h.nodup h'.nodup).2 he)
  intro a b _ _ h1 h2
  exact (lexLt_irrefl _ (lexLt_trans h1 h2)).elim

theorem Sparse.window_eq {s t : Storage V} {rows : List (List Int)} {b b' : Buffer V} (h : Sparse s rows b)
    (h' : Sparse t rows b') (mem mem' : List V) (hm : b.WF mem) (hm' : b'.WF mem') (hsh : s.shape = t.shape)
    (he : ∀ ix v, InBox ix s.shape → (Reads s mem ix v ↔ Reads t mem' ix v)) : b.window mem = b'.window mem' := by
  have l1 : (b.window mem).length = rows.length := by rw [b.window_length mem hm, h.size]
  have l2 : (b'.window mem').length = rows.length := by rw [b'.window_length mem' hm', h'.size]
  apply List.ext_getElem (l1.trans l2.symm)
  intro p h1 h2
  have hp : p < rows.length := by omega
  have hi := h.rows_ok.inbox _ (List.getElem_mem hp)
  have e : s.at mem rows[p] = t.at mem' rows[p] := by
    have := (he _ _ hi).1 ((h.wf mem hm).reads _ hi)
    exact this.at_eq.symm
  rw [h.at mem hm _ hi, h'.at mem' hm' _ (by rw [← hsh]; exact hi), lookup_at h.rows_ok.nodup _ _ p hp,
    lookup_at h'.rows_ok.nodup _ _ p hp] at e
  simpa [List.getD_eq_getElem?_getD, h1, h2] using e

/-- C52.  Two `FlatCOO` objects are `==` iff they have the same shape, unspecified value, stored indices and elements. -/
theorem C52_eq_iff_flatcoo (f g : FlatCOO V) (mem mem' : List V) (hs : (Storage.flatcoo f).WF mem)
    (ht : (Storage.flatcoo g).WF mem') (hu : f.findices.unspec = g.findices.unspec) :
    (Storage.flatcoo f).eq mem (.flatcoo g) mem' = true ↔
      f.shape = g.shape ∧ f.data.unspec = g.data.unspec ∧
      (∀ ix, HasPlace (.flatcoo f) ix ↔ HasPlace (.flatcoo g) ix) ∧
      ∀ ix v, InBox ix f.shape → (Reads (.flatcoo f) mem ix v ↔ Reads (.flatcoo g) mem' ix v) := by
  refine ⟨fun h => (C52_eq_reads _ _ mem mem' hs ht trivial h).2, ?_⟩
  rintro ⟨h1, h2, h3, h4⟩
  obtain ⟨⟨rows, hr⟩, hm⟩ := hs
  obtain ⟨⟨rows', hr'⟩, hm'⟩ := ht
  have : rows = rows' := sorted_rows_ext hr.rows_ok hr'.rows_ok fun ix => by
    rw [← (Sparse.flatcoo hr).hasPlace, h3, (Sparse.flatcoo hr').hasPlace]
  subst this
  simp only [Storage.eq, Bool.and_eq_true, decide_eq_true_eq, Buffer.eq_iff]
  exact ⟨⟨h1, hr.fsize.trans hr'.fsize.symm, by rw [hr.fval, hr'.fval, h1], hu⟩, hr.size.trans hr'.size.symm,
    (Sparse.flatcoo hr).window_eq (.flatcoo hr') mem mem' hm hm' h1 h4, h2⟩

/-- C52.  Two `CSR` objects are `==` iff they have the same shape, unspecified value, stored indices and elements. -/
theorem C52_eq_iff_csr (c d : CSR V) (mem mem' : List V) (hs : (Storage.csr c).WF mem)
    (ht : (Storage.csr d).WF mem') (hu : c.crow.unspec = d.crow.unspec) (hk : c.col.unspec = d.col.unspec) :
    (Storage.csr c).eq mem (.csr d) mem' = true ↔
      c.shape = d.shape ∧ c.data.unspec = d.data.unspec ∧
      (∀ ix, HasPlace (.csr c) ix ↔ HasPlace (.csr d) ix) ∧
      ∀ ix v, InBox ix c.shape → (Reads (.csr c) mem ix v ↔ Reads (.csr d) mem' ix v) := by
  refine ⟨fun h => (C52_eq_reads _ _ mem mem' hs ht trivial h).2, ?_⟩
  rintro ⟨h1, h2, h3, h4⟩
  obtain ⟨⟨rows, hr⟩, hm⟩ := hs
  obtain ⟨⟨rows', hr'⟩, hm'⟩ := ht
  have : rows = rows' := sorted_rows_ext hr.rows_ok hr'.rows_ok fun ix => by
    rw [← (Sparse.csr hr).hasPlace, h3, (Sparse.csr hr').hasPlace]
  subst this
  have w1 : c.crow.window c.crowMem = d.crow.window d.crowMem := by rw [hr.cval, hr'.cval, h1]
  have w2 : c.col.window c.colMem = d.col.window d.colMem := by rw [hr.kval, hr'.kval]
  have s1 := congrArg List.length w1
  have s2 := congrArg List.length w2
  rw [Buffer.window_length _ _ hr.cwf, Buffer.window_length _ _ hr'.cwf] at s1
  rw [Buffer.window_length _ _ hr.kwf, Buffer.window_length _ _ hr'.kwf] at s2
  simp only [Storage.eq, Bool.and_eq_true, decide_eq_true_eq, Buffer.eq_iff]
  exact ⟨⟨⟨h1, s1, w1, hu⟩, s2, w2, hk⟩, hr.size.trans hr'.size.symm,
    (Sparse.csr hr).window_eq (.csr hr') mem mem' hm hm' h1 h4, h2⟩

theorem map_subst_self (u : V) (l : List V) : l.map (subst u u) = l := by
  have : subst u u = id := by
    funext v
    simp only [subst, id]
    split
    · next h => exact h.symm
    · rfl
  rw [this, List.map_id]

theorem Buffer.copy_eq (b : Buffer V) (mem : List V) (h : b.WF mem) :
    b.eq mem ⟨b.size, 0, b.unspec⟩ (b.window mem) = true := by
  have hl := b.window_length mem h
  rw [Buffer.eq_iff]
  refine ⟨rfl, ?_, rfl⟩
  simp only [Buffer.window, List.drop_zero] at hl ⊢
  rw [List.take_take, Nat.min_self]

/-- C52.  A copy is `==` to the original, except that a `Strided` must be contiguous and fill its window. -/
theorem C52_copy_eq (s : Storage V) (mem : List V) (h : s.WF mem) :
    ∃ r m, s.copy mem none = .ok (r, m) ∧
      (s.cls = .buffer ∨ s.cls = .coo ∨ s.cls = .flatcoo ∨ s.cls = .csr → s.eq mem r m = true) ∧
      ∀ t, s = .strided t →
        (s.eq mem r m = true ↔ t.strides = makeStrides t.shape ∧ t.data.size = product t.shape) := by
  cases s with
  | buffer b =>
    have h : b.WF mem := h
    refine ⟨.buffer ⟨b.size, 0, b.unspec⟩, b.window mem, ?_, ?_, by simp⟩
    · simp only [Storage.copy, Buffer.copy_ok _ _ h, pure, Except.pure, Option.getD_none, map_subst_self]
    · intro _
      exact Buffer.copy_eq b mem h
  | strided t =>
    have h : t.WF mem := h
    refine ⟨.strided ⟨t.shape, makeStrides t.shape, ⟨product t.shape, 0, t.data.unspec⟩⟩,
      (indexProduct t.shape).map (t.val mem), ?_, by simp [Storage.cls], ?_⟩
    · simp only [Storage.copy, Strided.copy_ok h, bind, Except.bind, pure, Except.pure, Option.getD_none]
      have := map_subst_self t.data.unspec ((indexProduct t.shape).map (t.val mem))
      rw [List.map_map] at this
      simp only [Function.comp_def] at this
      rw [this]
    · intro t' ht'
      cases ht'
      simp only [Storage.eq, Strided.eq_iff, Buffer.eq_iff, true_and, and_true]
      constructor
      · rintro ⟨h1, h2, _⟩
        exact ⟨h1, h2⟩
      · rintro ⟨h1, h2⟩
        refine ⟨h1, h2, ?_⟩
        rw [contiguous_window h h1 h2]
        simp only [Buffer.window, List.drop_zero]
        rw [List.take_of_length_le]
        rw [List.length_map, indexProduct_length]
  | coo c =>
    obtain ⟨⟨rows, hr⟩, hm⟩ := h
    refine ⟨.coo ⟨c.shape, c.indices, c.imem, ⟨c.data.size, 0, c.data.unspec⟩⟩, c.data.window mem, ?_, ?_, by simp⟩
    · simp only [Storage.copy, Buffer.copy_ok _ _ hm, bind, Except.bind, pure, Except.pure, Option.getD_none, map_subst_self]
      rw [COO.new_ok _ _ _ ⟨c.data.size, 0, c.data.unspec⟩ _ _ hr.ishape hr.size]
    · intro _
      simp only [Storage.eq, Buffer.copy_eq _ _ hm, Bool.and_true]
      simp [Strided.eq, Buffer.eq]
  | flatcoo f =>
    obtain ⟨⟨rows, hr⟩, hm⟩ := h
    refine ⟨.flatcoo ⟨f.shape, f.findices, f.fmem, ⟨f.data.size, 0, f.data.unspec⟩⟩, f.data.window mem, ?_, ?_, by simp⟩
    · simp only [Storage.copy, Buffer.copy_ok _ _ hm, bind, Except.bind, pure, Except.pure, Option.getD_none, map_subst_self]
      rw [FlatCOO.new_ok]
      rw [hr.fsize, ← hr.size]
    · intro _
      simp [Storage.eq, Buffer.copy_eq _ _ hm]
      simp [Buffer.eq]
  | csr c =>
    obtain ⟨⟨rows, hr⟩, hm⟩ := h
    refine ⟨.csr ⟨c.shape, c.crow, c.crowMem, c.col, c.colMem, ⟨c.data.size, 0, c.data.unspec⟩⟩, c.data.window mem, ?_, ?_,
      by simp⟩
    · obtain ⟨n, m, hs⟩ := List.length_eq_two.1 hr.two
      have h1 : c.crow.size = n + 1 := by
        rw [← c.crow.window_length _ hr.cwf, hr.cval]
        simp [hs]
      have h2 : c.col.size = c.data.size := by
        rw [← c.col.window_length _ hr.kwf, hr.kval, hr.size]
        simp
      simp only [Storage.copy, Buffer.copy_ok _ _ hm, bind, Except.bind, pure, Except.pure, Option.getD_none, map_subst_self]
      rw [CSR.new_ok _ _ _ _ _ ⟨c.data.size, 0, c.data.unspec⟩ n m hs h1 h2]
    · intro _
      simp only [Storage.eq, Buffer.copy_eq _ _ hm, Bool.and_true]
      simp [Buffer.eq]
  | dm m d =>
    obtain ⟨r, m', h1⟩ := h.copyOf none
    exact ⟨r, m', h1.eval, by simp [Storage.cls], by simp⟩

/-- C52.  Objects that are `==` are also equal by `equal`. -/
theorem C52_eq_equal (s t : Storage V) (mem mem' : List V) (hs : s.WF mem) (ht : t.WF mem') (hn : NoneBefore s)
    (hb : s.cls ≠ .buffer) (hp : s.cls = .flatcoo → ∀ n ∈ s.shape, 0 < n) (h : s.eq mem t mem' = true) :
    s.equal mem t mem' = .ok true := by
  obtain ⟨h1, h2, h3, h4, h5⟩ := C52_eq_reads s t mem mem' hs ht hn h
  obtain ⟨b, g1, g2⟩ := C45_equal_places s t mem mem' hs ht ⟨hb, h1 ▸ hb⟩ hp (by rw [← h1, ← h2]; exact hp)
  rw [g1, g2.2 ⟨h4, fun ix v hx => h5 ix v ?_⟩]
  cases s with
  | buffer b => exact hx
  | strided s => exact hx
  | dm m d => exact hx
  | coo c => obtain ⟨⟨rows, hr⟩, hm⟩ := hs; exact hr.rows_ok.inbox ix (((Sparse.coo hr).hasPlace ix).1 hx)
  | flatcoo c => exact hx.1
  | csr c => exact hx.1

/-- The index that reverses a one-dimensional array. -/
def reversed : Index := .one (.slice ⟨none, none, some (-1)⟩)

/-- C52, a defect.  For two arrays of `n` elements, `s[::-1] == t[::-1]` compares the last elements only: the window of
a reversed slice starts at the last element. -/
theorem C52_reversed (n : Nat) (hn : 0 < n) (mem mem' : List V) (u : V) (h : mem.length = n) (h' : mem'.length = n) :
    ∃ r, (Storage.strided ⟨[n], [1], ⟨n, 0, u⟩⟩).getItem mem reversed = .ok (.view r) ∧
      (Storage.strided ⟨[n], [1], ⟨n, 0, u⟩⟩).getItem mem' reversed = .ok (.view r) ∧
      (∀ (i : Nat) v, i < n → (Reads r mem [(i : Int)] v ↔ mem[n - 1 - i]? = some v)) ∧
      (r.eq mem r mem' = true ↔ mem[n - 1]? = mem'[n - 1]?) := by
  have hred : reduced ⟨none, none, some (-1)⟩ (n : Int) = ⟨-1, -1 - n, -1⟩ := by
    have := reduced_neg ⟨none, none, some (-1)⟩ n (by simp)
    rw [if_pos ⟨by simp only [downStart, downStop, Option.map_none, Option.getD_none]; omega, by simp⟩] at this
    rw [this]
    simp only [downStart, downStop, Option.map_none, Option.getD_none, Option.getD_some, RSlice.mk.injEq]
    exact ⟨by omega, trivial, by omega⟩
  have hmod : pyMod (-1) (n : Int) = .ok ((n : Int) - 1) := by
    rw [pyMod_pos _ _ (by omega)]
    have : (-1 : Int) % n = (n - 1) % n := by rw [show ((n : Int) - 1) = -1 + n by omega, Int.add_emod_right]
    rw [this, Int.emod_eq_of_lt (by omega) (by omega)]
  have hnit : nitemsR ⟨-1, -1 - n, -1⟩ = .ok n := by
    simp only [nitemsR]
    rw [if_neg (by omega)]
    simp [pyDiv, bind, Except.bind, pure, Except.pure]
    rw [show (-1 - (n : Int) + 1) = n * -1 by omega, Int.mul_fdiv_cancel _ (by omega)]
    simp
  have hget : ∀ m : List V, m.length = n → (Storage.strided ⟨[n], [1], ⟨n, 0, u⟩⟩).getItem m reversed
      = .ok (.view (.strided ⟨[n], [-1], ⟨1, n - 1, u⟩⟩)) := by
    intro m hm
    have hsl := Buffer.getSlice_from (⟨n, 0, u⟩ : Buffer V) m (by unfold Buffer.WF; simp only; omega) ((n : Int) - 1)
      (by simp only; omega) (by simp only; omega)
    rw [show ((n : Int) - (n - 1)).toNat = 1 by omega, show (((0 : Nat) : Int) + (n - 1)).toNat = n - 1 by omega] at hsl
    simp only [Storage.getItem, Strided.getItem, reversed, normalizeIndex, List.map_nil, hred, pure, Except.pure, bind,
      Except.bind, elementIndex, indexStrided, hmod, hnit, Strided.getSlice, Int.add_zero, Strided.new]
    rw [Int.one_mul, hsl]
    simp [pyAssert]
  have hwf : ∀ m : List V, m.length = n → Strided.WF (⟨[n], [-1], ⟨1, n - 1, u⟩⟩ : Strided V) m := by
    intro m hm
    refine ⟨rfl, by unfold Buffer.WF; simp only; omega, fun ix hi => ?_⟩
    match ix, hi with
    | [i], hi =>
      simp only [InBox, and_true] at hi
      simp only [address]
      omega
    | [], hi => exact hi.elim
    | _ :: _ :: _, hi => exact hi.2.elim
  refine ⟨_, hget mem h, hget mem' h', ?_, ?_⟩
  · intro i v hi
    rw [strided_reads (hwf mem h) (by simp only [InBox, and_true]; omega)]
    simp only [Strided.val, Strided.cell, address]
    rw [show (((n - 1 : Nat) : Int) + ((i : Int) * -1 + 0)).toNat = n - 1 - i by omega]
    have : n - 1 - i < mem.length := by omega
    simp [List.getD_eq_getElem?_getD, this]
  · simp only [Storage.eq, Strided.eq_iff, Buffer.eq_iff, true_and, and_true, Buffer.window]
    have h1 : n - 1 < mem.length := by omega
    have h2 : n - 1 < mem'.length := by omega
    rw [List.take_one_drop_eq_of_lt_length h1, List.take_one_drop_eq_of_lt_length h2]
    simp [h1, h2]

/-- C52 on cases that meet the hypotheses: a `COO` and a copy of it with its own list; a `Strided` with a step and its
copy, which have the same elements and are not `==`; two reversed arrays that are `==` and differ. -/
example : (Storage.coo sampleCOO).WF sampleItems ∧ NoneBefore (Storage.coo sampleCOO) ∧
    (Storage.coo sampleCOO).eq sampleItems (.coo { sampleCOO with data := ⟨3, 1, none⟩ }) (some 7 :: sampleItems) = true := by
  refine ⟨sampleCOO_wf, ?_, by decide +kernel⟩
  intro ix hi
  match ix, hi with
  | [i, j], hi =>
    simp only [sampleCOO, InBox, and_true] at hi
    simp only [sampleCOO, address]
    omega
  | [], hi => exact hi.elim
  | [_], hi => exact hi.2.elim
  | _ :: _ :: _ :: _, hi => exact hi.2.2.elim

example : (Storage.strided (⟨[2], [2], ⟨3, 0, 0⟩⟩ : Strided Int)).copy [1, 2, 3] none
      = .ok (.strided ⟨[2], [1], ⟨2, 0, 0⟩⟩, [1, 3]) ∧
    (Storage.strided (⟨[2], [2], ⟨3, 0, 0⟩⟩ : Strided Int)).equal [1, 2, 3] (.strided ⟨[2], [1], ⟨2, 0, 0⟩⟩) [1, 3]
      = .ok true ∧
    (Storage.strided (⟨[2], [2], ⟨3, 0, 0⟩⟩ : Strided Int)).eq [1, 2, 3] (.strided ⟨[2], [1], ⟨2, 0, 0⟩⟩) [1, 3]
      = false := by decide +kernel

example : (Storage.strided (⟨[3], [1], ⟨3, 0, 0⟩⟩ : Strided Int)).getItem [1, 2, 9] reversed
      = .ok (.view (.strided ⟨[3], [-1], ⟨1, 2, 0⟩⟩)) ∧
    (Storage.strided (⟨[3], [-1], ⟨1, 2, 0⟩⟩ : Strided Int)).eq [1, 2, 9] (.strided ⟨[3], [-1], ⟨1, 2, 0⟩⟩) [3, 4, 9]
      = true ∧
    (Storage.strided (⟨[3], [-1], ⟨1, 2, 0⟩⟩ : Strided Int)).equal [1, 2, 9] (.strided ⟨[3], [-1], ⟨1, 2, 0⟩⟩) [3, 4, 9]
      = .ok false := by decide +kernel

end Gcs
