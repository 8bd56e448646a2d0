import Verif.Lemmas.MachineOps

/-!
# Lemmas: each statement of a program is a step of the machine
-/

namespace Gcs

open Spec

variable {V : Type}

theorem Fresh.congr {r : Storage V} {mem : List V} {kind : Kind} {shape : List Nat} {u : V} {e e' : List Int → Option V}
    (h : Fresh r mem kind shape u e) (he : ∀ ix, InBox ix shape → e' ix = e ix) : Fresh r mem kind shape u e' :=
  ⟨h.wf, h.kind_ok, h.shape_eq, h.unspec, h.inj, fun ix hi => (he ix hi).trans (h.cell ix hi)⟩

theorem Refines.cellInj {w : World V} {m : Machine V} {pos : Nat → List Int → Option Nat} (h : Refines w m pos) {o : Nat}
    {x : Obj V} {v : View V} (hx : w.objs[o]? = some x) (hv : m.views[o]? = some v) : CellInj x.desc := by
  obtain ⟨h1, h2, h3⟩ := h.obj o x v hx hv
  have ht := h.tie v.arr _ (List.getElem?_eq_getElem h2)
  intro ix jx c hi hj a b
  rw [h3.shape] at hi hj
  rw [h3.cell ix hi] at a
  rw [h3.cell jx hj] at b
  exact h3.inj ix jx hi hj (ht.inj _ _ c a b)

/-! ## Copies -/

theorem dense_copy_inj [DecidableEq V] {d r : Storage V} {mem mem' : List V} (h : d.WF mem)
    (hc : d.cls = .buffer ∨ d.cls = .strided) (u : Option V) (he : d.copy mem u = .ok (r, mem')) (hr : r.WF mem') :
    CellInj r := by
  cases d with
  | buffer b =>
    have h : b.WF mem := h
    simp only [Storage.copy, Buffer.copy_ok _ _ h, pure, Except.pure, Except.ok.injEq, Prod.mk.injEq] at he
    obtain ⟨rfl, _⟩ := he
    intro ix jx c hi hj h1 h2
    match ix, jx, hi, hj with
    | [i], [j], hi, hj =>
      simp only [Storage.shape, InBox, and_true] at hi hj
      simp only [Storage.cellAt, Option.some.injEq] at h1 h2
      simp only [List.cons.injEq, and_true]
      omega
    | [], _, hi, _ => exact hi.elim
    | _ :: _ :: _, _, hi, _ => exact hi.2.elim
    | [_], [], _, hj => exact hj.elim
    | [_], _ :: _ :: _, _, hj => exact hj.2.elim
  | strided s =>
    have h : s.WF mem := h
    simp only [Storage.copy, Strided.copy_ok h, bind, Except.bind, pure, Except.pure, Except.ok.injEq,
      Prod.mk.injEq] at he
    obtain ⟨rfl, _⟩ := he
    exact strided_cellInj hr (makeStrides_distinct _)
  | coo c => simp [Storage.cls] at hc
  | flatcoo c => simp [Storage.cls] at hc
  | csr c => simp [Storage.cls] at hc
  | dm m d => simp [Storage.cls] at hc

theorem copy_fresh [DecidableEq V] {kind : Kind} {s : Storage V} {mem : List V} (h : s.WF mem) (hk : KindOk kind s)
    (hi : CellInj s) (u : Option V) :
    ∃ r m, s.copy mem u = .ok (r, m) ∧ Fresh r m kind s.shape (u.getD s.unspec) fun ix =>
      ((s.cellAt ix).bind fun c => mem[c]?).map (replaced s.unspec (u.getD s.unspec)) := by
  have val : ∀ ix, InBox ix s.shape → s.cellAt ix ≠ none →
      ((s.cellAt ix).bind fun c => mem[c]?).map (replaced s.unspec (u.getD s.unspec))
        = some (subst s.unspec (u.getD s.unspec) (s.at mem ix)) := by
    intro ix hx h0
    obtain ⟨c, hc⟩ := Option.ne_none_iff_exists'.1 h0
    rw [hc, Option.bind_some, h.place_at ix hx c hc]
    rfl
  by_cases hd : kind.sparse = true
  · obtain ⟨rows, b, hs, hb⟩ := sparse_kind hk hd h
    obtain ⟨r, m, h1, h2, _⟩ := hs.copyOf mem hb u
    refine ⟨r, m, h1.eval, .intro h1.stands ?_ h1.unspec h2.cellInj ?_ ?_⟩
    · cases kind with
      | coo => exact h1.cls.trans hk
      | flatcoo => exact h1.cls.trans hk
      | csr => exact h1.cls.trans hk
      | _ => simp [Kind.sparse] at hd
    · intro ix hx h0
      have := (h2.cell_none ix (by rw [h1.stands.shape_eq]; exact hx)).1 h0
      rw [(hs.cell_none ix hx).2 this]
      rfl
    · intro ix hx h0
      apply val ix hx
      intro h3
      exact h0 ((h2.cell_none ix (by rw [h1.stands.shape_eq]; exact hx)).2 ((hs.cell_none ix hx).1 h3))
  · have hd : kind.sparse = false := by simpa using hd
    have val' : ∀ ix, InBox ix s.shape →
        ((s.cellAt ix).bind fun c => mem[c]?).map (replaced s.unspec (u.getD s.unspec))
          = some (subst s.unspec (u.getD s.unspec) (s.at mem ix)) := by
      intro ix hx
      obtain ⟨c, hc⟩ := dense_kind hk hd h ix hx
      exact val ix hx (by rw [hc]; simp)
    have fin : ∀ r m, CopyOf s mem u r m → KindOk kind r → CellInj r →
        Fresh r m kind s.shape (u.getD s.unspec) fun ix =>
          ((s.cellAt ix).bind fun c => mem[c]?).map (replaced s.unspec (u.getD s.unspec)) := by
      intro r m h1 h2 h3
      refine .intro h1.stands h2 h1.unspec h3 (fun ix hx h0 => ?_) fun ix hx _ => val' ix hx
      obtain ⟨c, hc⟩ := dense_kind h2 hd h1.stands.wf ix (by rw [h1.stands.shape_eq]; exact hx)
      rw [h0] at hc
      simp at hc
    cases kind with
    | strided =>
      obtain ⟨r, m, h1⟩ := h.copyOf u
      exact ⟨r, m, h1.eval, fin r m h1 (h1.cls.trans hk) (dense_copy_inj h (.inr hk) u h1.eval h1.stands.wf)⟩
    | dm cut =>
      obtain ⟨m, d, rfl, hc, hz⟩ := hk
      obtain ⟨hm, hd'⟩ : m.WF d.shape ∧ d.WF mem := h
      obtain ⟨r, mem', g1, g2, g3, g4⟩ := hd'.copyOf u
      have hm' : m.WF r.shape := by rw [g4.shape_eq]; exact hm
      have e : (⟨m.shape, m.rdims, groupShapes m.shape m.rdims, m.rstrides, m.roffset⟩ : DMMeta) = m := by
        rw [← hm.rshapes]
      have hev : (Storage.dm m d).copy mem u = .ok (.dm m r, mem') := by
        simp only [Storage.copy, g1, DMMeta.new_ok _ _ _ _ hm.ne hm.axes, bind, Except.bind, pure, Except.pure, e]
      have hcr : r.cls = .buffer ∨ r.cls = .strided := by rw [g2]; exact hc
      refine ⟨.dm m r, mem', hev, fin _ _ ⟨hev, rfl, g3, ⟨⟨hm', g4.wf⟩, rfl, ?_⟩⟩ ⟨m, r, rfl, hcr, ?_, hz.2⟩ ?_⟩
      · intro ix hx
        rw [at_dm hm' g4.wf ix hx, at_dm hm hd' ix hx, g4.reads _ (hm.into ix hx)]
        rfl
      · intro hcut
        refine ⟨(hz.1 hcut).1, ?_⟩
        cases r with
        | dm m d => simp [Storage.cls] at hcr
        | _ => trivial
      · intro ix jx c hx hj h1 h2
        have := dense_copy_inj hd' hc u g1 g4.wf _ _ c (hm'.into ix hx) (hm'.into jx hj) h1 h2
        obtain ⟨c', hc'⟩ := dense_cell hc _ (hm.into ix hx)
        exact hi ix jx c' hx hj hc' (by simp only [Storage.cellAt]; rw [← this]; exact hc')
    | _ => simp [Kind.sparse] at hd

/-! ## Conversions -/

theorem KindOk.cls {kind : Kind} {s : Storage V} (h : KindOk kind s) : kind = .dm true ∨ kind = Kind.ofCls s.cls := by
  cases kind with
  | dm cut =>
    obtain ⟨m, d, rfl, _, _⟩ := h
    cases cut
    · exact .inr rfl
    · exact .inl rfl
  | _ => simp only [KindOk] at h; rw [h]; exact .inr rfl

/-- The rows of a sparse storage in another one. -/
theorem kept_fresh [DecidableEq V] {s r : Storage V} {rows : List (List Int)} {b : Buffer V} {mem : List V} {kind : Kind}
    (hs : Sparse s rows b) (hb : b.WF mem) (hr : Sparse r rows ⟨rows.length, 0, b.unspec⟩) (hk : KindOk kind r)
    (hsh : r.shape = s.shape) :
    Fresh r (b.window mem) kind s.shape s.unspec fun ix => (s.cellAt ix).bind fun c => mem[c]? := by
  have hl : (b.window mem).length = rows.length := by rw [b.window_length mem hb, hs.size]
  have hrb : Buffer.WF ⟨rows.length, 0, b.unspec⟩ (b.window mem) := by simp [Buffer.WF, hl]
  have hst : Stands r (b.window mem) s.shape (s.at mem) := by
    refine ⟨hr.wf _ hrb, hsh, fun ix hi => ?_⟩
    rw [hr.at _ hrb ix (by rw [hsh]; exact hi), hs.at mem hb ix hi, buffer_window_map _ _ _ hl]
  refine .intro hst hk (by rw [hr.unspec, hs.unspec]) hr.cellInj ?_ ?_
  · intro ix hx h0
    have := (hr.cell_none ix (by rw [hsh]; exact hx)).1 h0
    rw [(hs.cell_none ix hx).2 this]
    rfl
  · intro ix hx h0
    have h1 : s.cellAt ix ≠ none := fun h3 =>
      h0 ((hr.cell_none ix (by rw [hsh]; exact hx)).2 ((hs.cell_none ix hx).1 h3))
    obtain ⟨c, hc⟩ := Option.ne_none_iff_exists'.1 h1
    rw [hc, Option.bind_some, (hs.wf mem hb).place_at ix hx c hc]

theorem takes_fresh [DecidableEq V] [HasNone V] {kind : Kind} {s : Storage V} {mem : List V} (h : s.WF mem)
    (hk : KindOk kind s) (hne : s.shape ≠ []) (hp : PosShape s.shape) (cls : Cls)
    (ht : kind.takes (Kind.ofCls cls) = true)
    (hc : ClassFits cls s.shape s.unspec fun ix => replaced s.unspec s.unspec (s.at mem ix)) :
    ∃ r m, fromObject cls (.store s mem) none = .ok (.fresh r m) ∧
      Fresh r m (Kind.ofCls cls) s.shape s.unspec fun ix => (s.cellAt ix).bind fun c => mem[c]? := by
  have hrows : cls = .csr → ∀ {rows b}, Sparse s rows b → b.WF mem → rows ≠ [] := by
    intro hcs rows b hs hb
    obtain ⟨_, ix, hx, hn⟩ := hc.2 hcs
    simp only at hn
    rw [show replaced s.unspec s.unspec (s.at mem ix) = s.at mem ix from subst_self _ _, hs.at mem hb ix hx,
      hs.unspec] at hn
    exact lookup_ne_unspec hn
  cases s with
  | coo c =>
    obtain rfl : kind = .coo := by rcases hk.cls with rfl | e; · simp [KindOk] at hk
                                   · exact e
    obtain ⟨⟨rows, hr⟩, hm⟩ := h
    cases cls with
    | flatcoo =>
      refine ⟨_, _, ?_, kept_fresh (.coo hr) hm (.flatcoo (flatOf_rep c.shape rows hr.rows_ok _ rfl)) rfl rfl⟩
      simp only [fromObject, cooToFlat_ok hr mem hm, bind, Except.bind, pure, Except.pure]
    | csr =>
      refine ⟨_, _, ?_, kept_fresh (.coo hr) hm (.csr (csrOf_rep c.shape (hc.2 rfl).1 rows hr.rows_ok _ rfl)) rfl rfl⟩
      simp only [fromObject, cooToCsr_ok hr (hrows rfl (.coo hr) hm) (hc.2 rfl).1 mem hm, bind, Except.bind, pure,
        Except.pure]
    | _ => simp [Kind.takes, Kind.ofCls] at ht
  | flatcoo f =>
    obtain rfl : kind = .flatcoo := by rcases hk.cls with rfl | e; · simp [KindOk] at hk
                                       · exact e
    obtain ⟨⟨rows, hr⟩, hm⟩ := h
    cases cls with
    | coo =>
      refine ⟨_, _, ?_, kept_fresh (.flatcoo hr) hm (.coo (cooOf_rep f.shape hne rows hr.rows_ok _ rfl)) rfl rfl⟩
      simp only [fromObject, flatToCoo_ok hr hp hne mem hm, bind, Except.bind, pure, Except.pure]
    | csr =>
      have hwl : (f.data.window mem).length = rows.length := by simp [f.data.window_length mem hm, hr.size]
      have hb : Buffer.WF ⟨rows.length, 0, f.data.unspec⟩ (f.data.window mem) := by simp [Buffer.WF, hwl]
      have hc' := cooToCsr_ok (cooOf_rep f.shape hne rows hr.rows_ok (⟨rows.length, 0, f.data.unspec⟩ : Buffer V) rfl)
        (hrows rfl (.flatcoo hr) hm) (hc.2 rfl).1 (f.data.window mem) hb
      refine ⟨_, _, ?_, kept_fresh (.flatcoo hr) hm (.csr (csrOf_rep f.shape (hc.2 rfl).1 rows hr.rows_ok _ rfl)) rfl rfl⟩
      simp only [fromObject, flatToCoo_ok hr hp hne mem hm, bind, Except.bind, pure, Except.pure]
      rw [hc', ← buffer_window_map rows.length f.data.unspec (f.data.window mem) hwl]
      simp [cooOf, buffer_window_map _ _ _ hwl]
    | _ => simp [Kind.takes, Kind.ofCls] at ht
  | buffer b => rcases hk.cls with rfl | rfl <;> simp [Kind.takes, Kind.ofCls, Storage.cls] at ht
  | strided b => rcases hk.cls with rfl | rfl <;> simp [Kind.takes, Kind.ofCls, Storage.cls] at ht
  | csr b => rcases hk.cls with rfl | rfl <;> (cases cls <;> simp [Kind.takes, Kind.ofCls, Storage.cls] at ht)
  | dm m d => rcases hk.cls with rfl | rfl <;> simp [Kind.takes, Kind.ofCls, Storage.cls] at ht

theorem same_store [DecidableEq V] [HasNone V] {kind : Kind} {s : Storage V} {mem : List V} (hk : KindOk kind s) (cls : Cls)
    (hcb : cls ≠ .buffer) (ht : kind.same (Kind.ofCls cls) = true) : fromObject cls (.store s mem) none = .ok .same := by
  cases s with
  | buffer b =>
    rcases hk.cls with rfl | rfl
    · simp [Kind.same] at ht
    · simp [KindOk, Storage.cls, Kind.ofCls] at hk
  | _ => rcases hk.cls with rfl | rfl <;> cases cls <;> first | rfl | exact absurd rfl hcb | simp [Kind.same, Kind.ofCls, Storage.cls] at ht

theorem general_store [DecidableEq V] [HasNone V] {kind : Kind} {s : Storage V} {mem : List V} (hk : KindOk kind s)
    (cls : Cls) (u : Option V) (hcb : cls ≠ .buffer) (h1 : ¬ (u = none ∧ kind.same (Kind.ofCls cls) = true))
    (h2 : ¬ (u = none ∧ kind.takes (Kind.ofCls cls) = true)) :
    fromObject cls (.store s mem) u = do
      let (r, m) ← match cls with
        | .dm => dmBuild .strided s.shape none none (Src.store s mem).getValue s.unspec (u.getD s.unspec)
        | c => buildFlat c s.shape (Src.store s mem).getValue s.unspec (u.getD s.unspec)
      return .fresh r m := by
  cases u with
  | some u => rfl
  | none =>
    simp only [true_and] at h1 h2
    cases s with
    | buffer b =>
      rcases hk.cls with rfl | rfl
      · simp [KindOk] at hk
      · simp [KindOk, Storage.cls, Kind.ofCls] at hk
    | _ => rcases hk.cls with rfl | rfl <;> cases cls <;>
        first
        | rfl
        | exact absurd rfl hcb
        | (simp [KindOk] at hk; done)
        | (simp [Kind.same, Kind.ofCls, Storage.cls] at h1; done)
        | (simp [Kind.takes, Kind.ofCls, Storage.cls] at h2; done)

/-! ## Slices of sparse storages -/

theorem slice_fresh [DecidableEq V] {s r : Storage V} {mem vals : List V} {index : Index} {rows rows' : List (List Int)}
    {b b' : Buffer V} (hs : Sparse s rows b) (hb : b.WF mem) (hp : PosShape s.shape)
    (hv : ValidItems (items index) s.shape) (h : SparseSlice s mem index rows b r vals rows' b') {kind : Kind}
    (hk : KindOk kind r) {e : List Int → Option V}
    (h0 : ∀ j, InBox j (selShape (items index) s.shape) → j ∉ rows' → e j = none)
    (h1 : ∀ j, InBox j (selShape (items index) s.shape) → j ∈ rows' →
      e j = some (s.at mem (selSource (items index) s.shape j))) :
    Fresh r vals kind (selShape (items index) s.shape) s.unspec e := by
  have hst : Stands r vals (selShape (items index) s.shape) fun j => s.at mem (selSource (items index) s.shape j) := by
    refine ⟨h.sparse.wf _ h.buf, h.shape_eq, fun j hj => ?_⟩
    rw [h.sparse.at _ h.buf j (by rw [h.shape_eq]; exact hj), h.values j hj]
    exact (hs.at mem hb _ (source_inBox hp hv hj)).symm
  refine .intro hst hk (by rw [h.sparse.unspec, h.unspec_eq, hs.unspec]) h.sparse.cellInj ?_ ?_
  · intro j hj hn
    exact h0 j hj ((h.sparse.cell_none j (by rw [h.shape_eq]; exact hj)).1 hn)
  · intro j hj hn
    apply h1 j hj
    by_contra hc
    exact hn ((h.sparse.cell_none j (by rw [h.shape_eq]; exact hj)).2 hc)

/-- A slice that keeps the places. -/
theorem slice_places [DecidableEq V] {s r : Storage V} {mem vals : List V} {index : Index} {rows rows' : List (List Int)}
    {b b' : Buffer V} (hs : Sparse s rows b) (hb : b.WF mem) (hp : PosShape s.shape)
    (hv : ValidItems (items index) s.shape) (h : SparseSlice s mem index rows b r vals rows' b') {kind : Kind}
    (hk : KindOk kind r)
    (hr : ∀ j, InBox j (selShape (items index) s.shape) → (j ∈ rows' ↔ selSource (items index) s.shape j ∈ rows)) :
    Fresh r vals kind (selShape (items index) s.shape) s.unspec fun j =>
      (s.cellAt (selSource (items index) s.shape j)).bind fun c => mem[c]? := by
  refine slice_fresh hs hb hp hv h hk (fun j hj hn => ?_) fun j hj hn => ?_
  · rw [(hs.cell_none _ (source_inBox hp hv hj)).2 fun hc => hn ((hr j hj).2 hc)]
    rfl
  · have hx := source_inBox hp hv hj
    have h1 : s.cellAt (selSource (items index) s.shape j) ≠ none :=
      fun h3 => (hs.cell_none _ hx).1 h3 ((hr j hj).1 hn)
    obtain ⟨c, hc⟩ := Option.ne_none_iff_exists'.1 h1
    rw [hc, Option.bind_some, (hs.wf mem hb).place_at _ hx c hc]

/-! ## Assignments -/

/-- The machine after a list of writes to array `a`. -/
def Machine.writeAll (m : Machine V) (a : Nat) (K : List (List Int × V)) : Machine V :=
  K.foldl (fun m e => m.write a e.1 e.2) m

theorem Machine.writeAll_length (m : Machine V) (a : Nat) (K : List (List Int × V)) :
    (Machine.writeAll m a K).arrs.length = m.arrs.length := by
  induction K generalizing m with
  | nil => rfl
  | cons e K ih => rw [← Machine.write_arrs m a e.1 e.2]; exact ih _

theorem Machine.writeAll_views (m : Machine V) (a : Nat) (K : List (List Int × V)) :
    (Machine.writeAll m a K).views = m.views := by
  induction K generalizing m with
  | nil => rfl
  | cons e K ih => exact ih _

theorem Machine.writeAll_not (m : Machine V) (a : Nat) (K : List (List Int × V)) (b : Nat) (jx : List Int)
    (h : b = a → ∀ e ∈ K, e.1 ≠ jx) : (Machine.writeAll m a K).elem b jx = m.elem b jx := by
  induction K generalizing m with
  | nil => rfl
  | cons e K ih =>
    refine (ih _ fun hb e he => h hb e (List.mem_cons_of_mem _ he)).trans ?_
    rw [Machine.elem_write, if_neg]
    rintro ⟨rfl, rfl⟩
    exact h rfl e List.mem_cons_self rfl

theorem Machine.writeAll_mem (m : Machine V) (a : Nat) (K : List (List Int × V)) (e : List Int × V) (he : e ∈ K)
    (h : ∀ e' ∈ K, e'.1 = e.1 → e'.2 = e.2) :
    (Machine.writeAll m a K).elem a e.1 = (m.elem a e.1).map fun _ => e.2 := by
  induction K generalizing m with
  | nil => simp at he
  | cons e' K ih =>
    by_cases hK : e ∈ K
    · refine (ih _ hK fun x hx => h x (List.mem_cons_of_mem _ hx)).trans ?_
      rw [Machine.elem_write]
      split
      · rw [Option.map_map]; rfl
      · rfl
    · obtain rfl : e = e' := by
        rcases List.mem_cons.1 he with h | h
        · exact h
        · exact absurd h hK
      by_cases hk : ∃ x ∈ K, x.1 = e.1
      · obtain ⟨x, hx, hxe⟩ := hk
        have hx2 := h x (List.mem_cons_of_mem _ hx) hxe
        exact absurd (by rwa [show x = e from Prod.ext hxe hx2] at hx) hK
      · refine (Machine.writeAll_not _ a K a e.1 fun _ x hx hxe => hk ⟨x, hx, hxe⟩).trans ?_
        rw [Machine.elem_write, if_pos ⟨rfl, rfl⟩]

/-- Writes in another order, and without those that have no place. -/
theorem Machine.writeAll_eq (m : Machine V) (a : Nat) (K K' : List (List Int × V))
    (hc : ∀ e ∈ K', ∀ e' ∈ K', e'.1 = e.1 → e'.2 = e.2) (h1 : ∀ e ∈ K, e ∈ K')
    (h2 : ∀ e ∈ K', e ∉ K → m.elem a e.1 = none) : Machine.writeAll m a K = Machine.writeAll m a K' := by
  refine Machine.ext' ((Machine.writeAll_length _ _ _).trans (Machine.writeAll_length _ _ _).symm)
    ((Machine.writeAll_views _ _ _).trans (Machine.writeAll_views _ _ _).symm) ?_
  intro b jx
  by_cases hb : b = a
  · subst hb
    by_cases hk : ∃ e ∈ K', e.1 = jx
    · obtain ⟨e, he, rfl⟩ := hk
      rw [Machine.writeAll_mem m b K' e he (hc e he)]
      by_cases hK : e ∈ K
      · rw [Machine.writeAll_mem m b K e hK fun x hx => hc e he x (h1 x hx)]
      · rw [h2 e he hK, Option.map_none, Machine.writeAll_not, h2 e he hK]
        intro _ x hx hxe
        exact hK (by rwa [← show x = e from Prod.ext hxe (hc e he x (h1 x hx) hxe)])
    · rw [Machine.writeAll_not _ _ _ _ _ fun _ e he hx => hk ⟨e, he, hx⟩,
        Machine.writeAll_not _ _ _ _ _ fun _ e he hx => hk ⟨e, h1 e he, hx⟩]
  · rw [Machine.writeAll_not _ _ _ _ _ fun h => absurd h hb, Machine.writeAll_not _ _ _ _ _ fun h => absurd h hb]

/-- Writes to the cells of the elements of an object. -/
theorem Refines.setCells {w : World V} {m : Machine V} {pos : Nat → List Int → Option Nat} (h : Refines w m pos) {o : Nat}
    {x : Obj V} {v : View V} (hx : w.objs[o]? = some x) (hv : m.views[o]? = some v) (K : List (List Int × V))
    (hK : ∀ e ∈ K, InBox e.1 v.shape ∧ x.desc.cellAt e.1 ≠ none) :
    Refines (w.put x.addr (setCells (w.list x.addr) (K.map fun e => ((x.desc.cellAt e.1).getD 0, e.2))))
      (Machine.writeAll m v.arr (K.map fun e => (v.src e.1, e.2))) pos := by
  have key : ∀ (mem : List V) (m : Machine V), Refines (w.put x.addr mem) m pos → m.views[o]? = some v →
      Refines (w.put x.addr (Gcs.setCells mem (K.map fun e => ((x.desc.cellAt e.1).getD 0, e.2))))
        (Machine.writeAll m v.arr (K.map fun e => (v.src e.1, e.2))) pos := by
    have had : x.addr < w.lists.length := h.addressed x (List.mem_of_getElem? hx)
    induction K with
    | nil => intro mem m hm _; exact hm
    | cons e K ih =>
      intro mem m hm hv'
      obtain ⟨h1, h2⟩ := hK e List.mem_cons_self
      obtain ⟨c, hc⟩ := Option.ne_none_iff_exists'.1 h2
      have hw := hm.write (o := o) (x := x) (v := v) (by simpa [World.put] using hx) hv' e.1 h1 c hc e.2
      rw [World.put_put, w.list_put _ _ had, if_pos rfl] at hw
      simp only [List.map_cons, hc, Option.getD_some, Gcs.setCells]
      exact ih (fun e he => hK e (List.mem_cons_of_mem _ he)) _ _ hw hv'
  exact key _ _ (by rw [World.put_list]; exact h) hv

/-- The writes of an assignment to an object that is no `Strided`. -/
theorem set_cells {kind : Kind} {s : Storage V} {mem : List V} (h : s.WF mem) (hk : KindOk kind s)
    (hns : kind ≠ .strided) (hp : PosShape s.shape) (index : Index) (hv : ValidItems (items index) s.shape)
    (valueAt : List V → List Int → PyM V) (val : List Int → V)
    (hw : ∀ mem' j, InBox j (selShape (items index) s.shape) → valueAt mem' j = .ok (val j))
    (T : List (List Int × List Int))
    (hT : T = if selShape (items index) s.shape = [] then (boxList s.shape).map fun ix => (ix, [])
      else (boxList (selShape (items index) s.shape)).map fun j => (selSource (items index) s.shape j, j)) :
    ∃ K : List (List Int × V),
      s.setItem mem index valueAt = ⟨setCells mem (K.map fun e => ((s.cellAt e.1).getD 0, e.2)), none⟩ ∧
      (∀ e ∈ K, (∃ t ∈ T, e = (t.1, val t.2)) ∧ s.cellAt e.1 ≠ none) ∧
      ∀ t ∈ T, s.cellAt t.1 ≠ none → (t.1, val t.2) ∈ K := by
  simp only [boxList_eq] at hT
  by_cases he : selShape (items index) s.shape = []
  · rw [if_pos he] at hT
    subst hT
    have hw' : ∀ m, valueAt m [] = .ok (val []) := fun m => hw m [] (by rw [he]; trivial)
    by_cases hd : kind.sparse = true
    · obtain ⟨rows, b, hs, hb⟩ := sparse_kind hk hd h
      refine ⟨rows.map fun ix => (ix, val []), ?_, ?_, ?_⟩
      · rw [sparse_setItem_elem hs hp mem hb index hv he (val []) valueAt hw']
        congr 2
        apply List.ext_getElem (by simp)
        intro q h1 h2
        have hq : q < rows.length := by simpa using h1
        simp [hs.cell_stored q hq]
      · intro e he'
        obtain ⟨ix, hix, rfl⟩ := List.mem_map.1 he'
        have hi := hs.rows_ok.inbox ix hix
        refine ⟨⟨(ix, []), List.mem_map.2 ⟨ix, (mem_indexProduct _ _).2 hi, rfl⟩, rfl⟩, fun h0 => ?_⟩
        exact (hs.cell_none ix hi).1 h0 hix
      · intro t ht hc
        obtain ⟨ix, hix, rfl⟩ := List.mem_map.1 ht
        have hi := (mem_indexProduct _ _).1 hix
        refine List.mem_map.2 ⟨ix, ?_, rfl⟩
        by_contra hn
        exact hc ((hs.cell_none ix hi).2 hn)
    · cases kind with
      | strided => exact absurd rfl hns
      | dm cut =>
        obtain ⟨m, d, rfl, hc, _⟩ := hk
        obtain ⟨hm, hd'⟩ : m.WF d.shape ∧ d.WF mem := h
        have hcell : ∀ ix, InBox ix m.shape → (Storage.dm m d).cellAt ix ≠ none := by
          intro ix hi h0
          obtain ⟨c, hc⟩ := dense_cell hc _ (hm.into ix hi)
          rw [show (Storage.dm m d).cellAt ix = some c from hc] at h0
          simp at h0
        refine ⟨(indexProduct m.shape).map fun ix => (ix, val []), ?_, ?_, ?_⟩
        · have h1 := dm_plan_elem hm hp index hv he
          have h2 := dm_writes hd' hm hc ((indexProduct m.shape).map fun ix => ([], ix)) (by
            intro e he'
            obtain ⟨ix, hix, rfl⟩ := List.mem_map.1 he'
            exact (mem_indexProduct _ _).1 hix) valueAt val (by
            intro m' hl e he'
            obtain ⟨ix, hix, rfl⟩ := List.mem_map.1 he'
            exact hw' m')
          simp only [Storage.setItem, h1]
          simp only [List.map_map, Function.comp_def] at h2 ⊢
          exact h2
        · intro e he'
          obtain ⟨ix, hix, rfl⟩ := List.mem_map.1 he'
          exact ⟨⟨(ix, []), List.mem_map.2 ⟨ix, hix, rfl⟩, rfl⟩, hcell ix ((mem_indexProduct _ _).1 hix)⟩
        · intro t ht _
          obtain ⟨ix, hix, rfl⟩ := List.mem_map.1 ht
          exact List.mem_map.2 ⟨ix, hix, rfl⟩
      | _ => simp [Kind.sparse] at hd
  · rw [if_neg he] at hT
    subst hT
    by_cases hd : kind.sparse = true
    · obtain ⟨rows, b, hs, hb⟩ := sparse_kind hk hd h
      obtain ⟨L, h1, h2, h3⟩ := hs.setItem_ok hp mem hb index hv he valueAt val fun m' _ j hj _ => hw m' j hj
      refine ⟨L.map fun j => (selSource (items index) s.shape j, val j), ?_, ?_, ?_⟩
      · rw [h3, List.map_map]
        rfl
      · intro e he'
        obtain ⟨j, hj, rfl⟩ := List.mem_map.1 he'
        obtain ⟨g1, g2⟩ := (h1 j).1 hj
        refine ⟨⟨(selSource (items index) s.shape j, j), List.mem_map.2 ⟨j, (mem_indexProduct _ _).2 g1, rfl⟩, rfl⟩,
          fun h0 => ?_⟩
        exact (hs.cell_none _ (source_inBox hp hv g1)).1 h0 g2
      · intro t ht hc
        obtain ⟨j, hj, rfl⟩ := List.mem_map.1 ht
        have g1 := (mem_indexProduct _ _).1 hj
        refine List.mem_map.2 ⟨j, (h1 j).2 ⟨g1, ?_⟩, rfl⟩
        by_contra hn
        exact hc ((hs.cell_none _ (source_inBox hp hv g1)).2 hn)
    · cases kind with
      | strided => exact absurd rfl hns
      | dm cut =>
        obtain ⟨m, d, rfl, hc, _⟩ := hk
        obtain ⟨hm, hd'⟩ : m.WF d.shape ∧ d.WF mem := h
        have hcell : ∀ ix, InBox ix m.shape → (Storage.dm m d).cellAt ix ≠ none := by
          intro ix hi h0
          obtain ⟨c, hc⟩ := dense_cell hc _ (hm.into ix hi)
          rw [show (Storage.dm m d).cellAt ix = some c from hc] at h0
          simp at h0
        obtain ⟨L, h1, h2, h3, _⟩ := dm_plan hm hp index hv he
        have hL : ∀ j ∈ L, InBox (selSource (items index) m.shape j) m.shape :=
          fun j hj => source_inBox hp hv ((h2 j).1 hj)
        refine ⟨L.map fun j => (selSource (items index) m.shape j, val j), ?_, ?_, ?_⟩
        · have h4 := dm_writes hd' hm hc (L.map fun j => (j, selSource (items index) m.shape j)) (by
            intro e he'
            obtain ⟨j, hj, rfl⟩ := List.mem_map.1 he'
            exact hL j hj) valueAt val (by
            intro m' hl e he'
            obtain ⟨j, hj, rfl⟩ := List.mem_map.1 he'
            exact hw m' j ((h2 j).1 hj))
          simp only [Storage.setItem, h1]
          simp only [List.map_map, Function.comp_def] at h4 ⊢
          exact h4
        · intro e he'
          obtain ⟨j, hj, rfl⟩ := List.mem_map.1 he'
          exact ⟨⟨(selSource (items index) m.shape j, j), List.mem_map.2 ⟨j, (mem_indexProduct _ _).2 ((h2 j).1 hj), rfl⟩,
            rfl⟩, hcell _ (hL j hj)⟩
        · intro t ht _
          obtain ⟨j, hj, rfl⟩ := List.mem_map.1 ht
          exact List.mem_map.2 ⟨j, (h2 j).2 ((mem_indexProduct _ _).1 hj), rfl⟩
      | _ => simp [Kind.sparse] at hd

/-- The values of an assignment when they do not depend on the array that is written. -/
theorem Machine.assign_const (m : Machine V) (v : View V) (index : Index) (value : Machine V → List Int → V)
    (hval : ∀ m', (∀ b ≠ v.arr, ∀ jx, m'.elem b jx = m.elem b jx) → ∀ j, value m' j = value m j) :
    m.assign v index value = Machine.writeAll m v.arr ((v.targets index).map fun t => (v.src t.1, value m t.2)) := by
  have key : ∀ (T : List (List Int × List Int)) (m' : Machine V), (∀ b ≠ v.arr, ∀ jx, m'.elem b jx = m.elem b jx) →
      T.foldl (fun m e => m.write v.arr (v.src e.1) (value m e.2)) m'
        = Machine.writeAll m' v.arr (T.map fun t => (v.src t.1, value m t.2)) := by
    intro T
    induction T with
    | nil => intro m' _; rfl
    | cons t T ih =>
      intro m' hm'
      simp only [List.foldl_cons, List.map_cons, Machine.writeAll, hval m' hm']
      apply ih
      intro b hb jx
      rw [Machine.elem_write, if_neg fun h => hb h.1]
      exact hm' b hb jx
  exact key _ m fun _ _ _ => rfl

/-- An assignment to an object that is no `Strided`. -/
theorem Refines.assign_cells {w : World V} {m : Machine V} {pos : Nat → List Int → Option Nat} (h : Refines w m pos)
    {o : Nat} {x : Obj V} {v : View V} (hx : w.objs[o]? = some x) (hv : m.views[o]? = some v) (hns : v.kind ≠ .strided)
    (index : Index) (hi : ValidItems (items index) v.shape) (value : Machine V → List Int → V)
    (hval : ∀ m', (∀ b ≠ v.arr, ∀ jx, m'.elem b jx = m.elem b jx) → ∀ j, value m' j = value m j)
    (valueAt : List V → List Int → PyM V)
    (hw : ∀ mem' j, InBox j (selShape (items index) v.shape) → valueAt mem' j = .ok (value m j)) :
    ∃ mem', x.desc.setItem (w.list x.addr) index valueAt = ⟨mem', none⟩ ∧
      Refines (w.put x.addr mem') (m.assign v index value) pos := by
  obtain ⟨h1, h2, h3⟩ := h.obj o x v hx hv
  have hT : v.targets index = if selShape (items index) x.desc.shape = [] then
      (boxList x.desc.shape).map fun ix => (ix, [])
      else (boxList (selShape (items index) x.desc.shape)).map fun j => (selSource (items index) x.desc.shape j, j) := by
    simp only [View.targets, ne_eq, hns, not_false_eq_true, and_true, h3.shape]
  obtain ⟨K, k1, k2, k3⟩ := set_cells h3.wf h3.kind hns (by rw [h3.shape]; exact h3.poss) index
    (by rw [h3.shape]; exact hi) valueAt (value m) (fun mem' j hj => hw mem' j (by rw [← h3.shape]; exact hj)) _ hT
  have hbox : ∀ t ∈ v.targets index, InBox t.1 v.shape := by
    intro t ht
    rw [hT, ← h3.shape] at *
    split at ht
    · obtain ⟨ix, hix, rfl⟩ := List.mem_map.1 ht
      rw [boxList_eq] at hix
      exact (mem_indexProduct _ _).1 hix
    · obtain ⟨j, hj, rfl⟩ := List.mem_map.1 ht
      rw [boxList_eq] at hj
      exact source_inBox (by rw [h3.shape]; exact h3.poss) hi ((mem_indexProduct _ _).1 hj)
  refine ⟨_, k1, ?_⟩
  have hr := h.setCells hx hv K (by
    intro e he
    obtain ⟨⟨t, ht, rfl⟩, hc⟩ := k2 e he
    exact ⟨hbox t ht, hc⟩)
  rw [Machine.assign_const m v index value hval]
  rwa [Machine.writeAll_eq m v.arr (K.map fun e => (v.src e.1, e.2))
    ((v.targets index).map fun t => (v.src t.1, value m t.2)) ?_ ?_ ?_] at hr
  · intro e he e' he' hk
    obtain ⟨t, ht, rfl⟩ := List.mem_map.1 he
    obtain ⟨t', ht', rfl⟩ := List.mem_map.1 he'
    have e1 : t'.1 = t.1 := h3.inj _ _ (hbox t' ht') (hbox t ht) hk
    rw [hT] at ht ht'
    split at ht
    · next hs =>
      rw [if_pos hs] at ht'
      obtain ⟨ix, _, rfl⟩ := List.mem_map.1 ht
      obtain ⟨jx, _, rfl⟩ := List.mem_map.1 ht'
      rfl
    · next hs =>
      rw [if_neg hs] at ht'
      obtain ⟨j, hj, rfl⟩ := List.mem_map.1 ht
      obtain ⟨j', hj', rfl⟩ := List.mem_map.1 ht'
      rw [boxList_eq] at hj hj'
      rw [selSource_inj _ _ _ _ ((mem_indexProduct _ _).1 hj') ((mem_indexProduct _ _).1 hj) e1]
  · intro e he
    obtain ⟨e', he', rfl⟩ := List.mem_map.1 he
    obtain ⟨⟨t, ht, rfl⟩, _⟩ := k2 e' he'
    exact List.mem_map.2 ⟨t, ht, rfl⟩
  · intro e he hn
    obtain ⟨t, ht, rfl⟩ := List.mem_map.1 he
    by_cases hc : x.desc.cellAt t.1 = none
    · have := h.place_eq hx hv t.1 (hbox t ht)
      rw [hc] at this
      exact this
    · exact absurd (List.mem_map.2 ⟨_, k3 t ht hc, rfl⟩) hn

/-- An assignment to a `Strided`. -/
theorem Refines.assign_strided {w : World V} {m : Machine V} {pos : Nat → List Int → Option Nat} (h : Refines w m pos)
    {o : Nat} {x : Obj V} {v : View V} (hx : w.objs[o]? = some x) (hv : m.views[o]? = some v) (hk : v.kind = .strided)
    (index : Index) (hi : ValidItems (items index) v.shape) (value : Machine V → List Int → V)
    (valueAt : List V → List Int → PyM V)
    (hw : ∀ mem' m', mem'.length = (w.list x.addr).length → Refines (w.put x.addr mem') m' pos → m'.views = m.views →
      ∀ j, InBox j (selShape (items index) v.shape) → valueAt mem' j = .ok (value m' j)) :
    ∃ mem', x.desc.setItem (w.list x.addr) index valueAt = ⟨mem', none⟩ ∧
      Refines (w.put x.addr mem') (m.assign v index value) pos := by
  obtain ⟨h1, h2, h3⟩ := h.obj o x v hx hv
  have had : x.addr < w.lists.length := h.addressed x (List.mem_of_getElem? hx)
  have hkk := h3.kind
  rw [hk] at hkk
  obtain ⟨s, hs⟩ : ∃ s, x.desc = .strided s := by
    cases hd : x.desc with
    | strided s => exact ⟨s, rfl⟩
    | _ => rw [hd] at hkk; simp [KindOk, Storage.cls] at hkk
  have hwf : s.WF (w.list x.addr) := by have := h3.wf; rw [hs] at this; exact this
  have hsh : s.shape = v.shape := by have := h3.shape; rw [hs] at this; exact this
  have hp : PosShape s.shape := by rw [hsh]; exact h3.poss
  have hi' : ValidItems (items index) s.shape := by rw [hsh]; exact hi
  obtain ⟨nix, st, off, g1, g2, g3, g4, g5⟩ := index_ok index s.shape s.strides hp hi' hwf.len
  have hset : x.desc.setItem (w.list x.addr) index valueAt = Gcs.writeAll s.data.write1 valueAt
      ((indexProduct (selShape (items index) s.shape)).map fun j => (j, off + address j st)) (w.list x.addr) := by
    rw [hs]
    simp only [Storage.setItem, Strided.setItem, g1, g3, bind, Except.bind, Strided.sliceEntries_ok _ st off g4]
  obtain ⟨mem', r1, r2⟩ := Refines.writes (w := w) (m := m) (pos := pos) hx s.data.write1 valueAt value
    (fun e => selSource (items index) s.shape e.1) (w.list x.addr).length
    ((indexProduct (selShape (items index) s.shape)).map fun j => (j, off + address j st)) (w.list x.addr) rfl had
    (by rw [World.put_list]; exact h) hv (by
      intro e he
      obtain ⟨j, hj, rfl⟩ := List.mem_map.1 he
      have hj := (mem_indexProduct _ _).1 hj
      obtain ⟨a1, a2⟩ := g5 j hj
      have b1 := hwf.addr _ a1
      have b2 := hwf.buf
      unfold Buffer.WF at b2
      refine ⟨by rw [← hsh]; exact a1, s.cell (selSource (items index) s.shape j), by rw [hs]; rfl, ?_⟩
      intro mem' hl val
      rw [Buffer.write1_ok s.data mem' (off + address j st) val (by omega) (by omega)]
      simp only [Strided.cell]
      congr 3
      omega)
    (by
      intro mem' m' hl hr hvs e he
      obtain ⟨j, hj, rfl⟩ := List.mem_map.1 he
      exact hw mem' m' hl hr hvs j (by rw [← hsh]; exact (mem_indexProduct _ _).1 hj))
  refine ⟨mem', hset.trans r1, ?_⟩
  have hT : v.targets index = (indexProduct (selShape (items index) s.shape)).map fun j =>
      (selSource (items index) s.shape j, j) := by
    simp only [View.targets, hk, ne_eq, not_true, and_false, if_false, boxList_eq, hsh]
  rw [Machine.assign, hT, List.foldl_map]
  rw [List.foldl_map] at r2
  exact r2

end Gcs
