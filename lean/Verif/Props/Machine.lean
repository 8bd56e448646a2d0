import Verif.Lemmas.MachineStep
import Verif.Props.History

/-!
# C73: programs and the machine of the specification
-/

namespace Gcs

open Spec

variable {V : Type} [DecidableEq V] [HasNone V]

theorem src_value {s : Storage V} {mem : List V} (h : s.WF mem) (hne : s.shape ≠ []) :
    ∀ ix, InBox ix s.shape → (Src.store s mem).getValue ix = .ok (s.at mem ix) := (SrcOk.store h hne).value

/-- One statement. -/
theorem Refines.step {w : World V} {m : Machine V} {pos : Nat → List Int → Option Nat} (h : Refines w m pos) (op : Op V)
    (hf : m.Fits op) : (∃ pos', Refines (w.step op).1 (m.step op).1 pos') ∧ (w.step op).2 = (m.step op).2 := by
  cases op with
  | make cls seq u =>
    obtain ⟨h1, h2, h3, h4⟩ := hf
    obtain ⟨hs, hv⟩ := SrcOk.nested h1
    obtain ⟨s, mem, g1, g2⟩ := general_fresh cls (dims seq) h2 _ pyNone (u.getD pyNone) (itemD seq) hv h4
    have hm : makeNested cls seq u = .ok (s, mem) := by
      have : fromObject cls (.nested seq) u = .ok (.fresh s mem) := by
        cases u <;> simp only [fromObject, hs] <;> simp only [Src.unspec, bind, Except.bind] <;>
          cases cls <;> (simp only at g1 ⊢; rw [g1]; rfl)
      simp only [makeNested, this, bind, Except.bind, pure, Except.pure]
    simp only [World.step, hm, World.create, Machine.step, and_true]
    exact h.fresh g2 h2 h3
  | makeDM seq d p cls u =>
    obtain ⟨h1, h2, h3, h4⟩ := hf
    obtain ⟨hs, hv⟩ := SrcOk.nested h1
    obtain ⟨s, mem, g1, g2⟩ := dm_fresh cls (dims seq) h2 d p _ pyNone (u.getD pyNone) (itemD seq) hv h4
    have hm : fromObjectDM (.nested seq) d p cls u = .ok (s, mem) := by
      simp only [fromObjectDM, hs]
      exact g1
    simp only [World.step, hm, World.create, Machine.step, and_true]
    exact h.fresh g2 h2 h3
  | get o index =>
    obtain ⟨v, hv, h1, h2, h3⟩ := hf
    obtain ⟨x, hx, ha, hl, hs⟩ := h.view hv
    rw [w.step_on _ o x rfl hx]
    simp only [World.stepOn, Machine.step, hv]
    have hi : ValidItems (items index) x.desc.shape := by rw [hs.shape]; exact h1
    have hp : PosShape x.desc.shape := by rw [hs.shape]; exact hs.poss
    by_cases he : selShape (items index) v.shape = []
    · have he' : selShape (items index) x.desc.shape = [] := by rw [hs.shape]; exact he
      rw [kind_elem hs.wf hs.kind hp index hi he', if_pos he]
      simp only [World.got]
      refine ⟨⟨pos, h⟩, ?_⟩
      rw [hs.shape, h.at_eq hx hv _ (source_inBox hs.poss h1 (by rw [he]; trivial))]
    · have he' : selShape (items index) x.desc.shape ≠ [] := by rw [hs.shape]; exact he
      rw [if_neg he]
      simp only
      have hpl : ∀ j, InBox j (selShape (items index) v.shape) →
          m.place v (selSource (items index) v.shape j)
            = (x.desc.cellAt (selSource (items index) x.desc.shape j)).bind fun c => (w.list x.addr)[c]? := by
        intro j hj
        rw [hs.shape]
        exact h.place_eq hx hv _ (source_inBox hs.poss h1 hj)
      have fresh : ∀ {r vals kind e e'}, x.desc.getItem (w.list x.addr) index = .ok (.fresh r vals) →
          Fresh r vals kind (selShape (items index) x.desc.shape) x.desc.unspec e' →
          (∀ j, InBox j (selShape (items index) v.shape) → e j = e' j) →
          (∃ pos', Refines (w.got x (x.desc.getItem (w.list x.addr) index)).1
            (m.add kind (selShape (items index) v.shape) v.unspec e) pos') ∧
          (w.got x (x.desc.getItem (w.list x.addr) index)).2 = .done := by
        intro r vals kind e e' q1 q2 q3
        rw [q1]
        simp only [World.got, and_true]
        rw [hs.shape, hs.unspec] at q2
        exact h.fresh (q2.congr q3) he h2
      have view : ∀ {r kind}, x.desc.getItem (w.list x.addr) index = .ok (.view r) → r.WF (w.list x.addr) →
          KindOk kind r → r.shape = selShape (items index) v.shape → r.unspec = v.unspec →
          (∀ j, InBox j (selShape (items index) v.shape) → r.cellAt j = x.desc.cellAt (selSource (items index) v.shape j)) →
          (∃ pos', Refines (w.got x (x.desc.getItem (w.list x.addr) index)).1
            (m.addView ⟨kind, selShape (items index) v.shape, v.unspec, v.arr, fun j =>
              v.src (selSource (items index) v.shape j)⟩) pos') ∧
          (w.got x (x.desc.getItem (w.list x.addr) index)).2 = .done := by
        intro r kind q1 q2 q3 q4 q5 q6
        rw [q1]
        simp only [World.got, and_true]
        refine ⟨pos, ?_⟩
        rw [ha]
        refine h.addView (v := ⟨kind, selShape (items index) v.shape, v.unspec, v.arr, fun j =>
          v.src (selSource (items index) v.shape j)⟩) hl ⟨by rw [← ha]; exact q2, q3, q4, q5, he, h2, ?_, ?_⟩
        · intro j hj
          rw [q6 j hj, hs.cell _ (source_inBox hs.poss h1 hj)]
        · intro j k hj hk e
          exact selSource_inj _ _ _ _ hj hk
            (hs.inj _ _ (source_inBox hs.poss h1 hj) (source_inBox hs.poss h1 hk) e)
      have hkind := hs.kind
      cases hk : v.kind with
      | strided =>
        rw [hk] at hkind
        simp only [Machine.slice, hk]
        obtain ⟨r, q1, q2, q3, q4, q5, q6⟩ := dense_slice hs.wf (.inr hkind) hp index hi
          (by intro e; rw [show x.desc.cls = .strided from hkind] at e; simp at e) he'
        have hr : r.cls = .strided := by
          cases hd : x.desc with
          | strided s =>
            rw [hd] at q1
            simp only [Storage.getItem, bind_eq_ok, pure_eq_ok] at q1
            obtain ⟨a, _, q1⟩ := q1
            cases a with
            | inl a => simp [pure_eq_ok] at q1
            | inr a => simp only [Res.view.injEq, pure_eq_ok] at q1; rw [← q1]; rfl
          | _ => rw [hd] at hkind; simp [KindOk, Storage.cls] at hkind
        rw [hs.shape] at q4 q6
        rw [hs.unspec] at q5
        exact view q1 q2 hr q4 q5 q6
      | dm cut =>
        rw [hk] at hkind
        simp only [Machine.slice, hk]
        obtain ⟨dm, d, hd, hc, hz⟩ := hkind
        have hz : SafeIndex (.dm dm d) index := by
          cases cut
          · rw [← hd]; exact (hz.1 rfl).safe index
          · rcases h3 hk with h3 | h3
            · exact absurd h3 he
            · refine Grouped.safe (s := .dm dm d) ⟨hz.2 rfl, ?_⟩ index h3
              rcases hc with hc | hc <;> cases d <;> first | trivial | simp [Storage.cls] at hc
        have hwf := hs.wf
        have hsh := hs.shape
        have hun := hs.unspec
        rw [hd] at hwf hsh hun hp hi he'
        obtain ⟨m', r, q1, q2, q3, q4, q5, q7, q6⟩ := dm_slice hwf hc index hz hp hi he'
        simp only [Storage.shape, Storage.unspec] at hsh hun
        rw [hsh] at q4 q6
        rw [← hd] at q1 q6
        exact view q1 q2 (kind := .dm true) ⟨m', r, rfl, q3, by simp, fun _ => q7⟩ q4 (q5.trans hun) q6
      | coo =>
        rw [hk] at hkind
        simp only [Machine.slice, hk]
        cases hd : x.desc with
        | coo c =>
          have hwf := hs.wf
          rw [hd] at hwf hp hi he' hpl fresh
          obtain ⟨⟨rows, hr⟩, hb⟩ := hwf
          obtain ⟨r, vals, rows', b', q1, q2⟩ := coo_getItem hr hp _ hb index hi he'
          exact fresh q1.eval (slice_places (.coo hr) hb hp hi q1 (kind := .coo) rfl q2) hpl
        | _ => rw [hd] at hkind; simp [KindOk, Storage.cls] at hkind
      | flatcoo =>
        rw [hk] at hkind
        simp only [Machine.slice, hk]
        cases hd : x.desc with
        | flatcoo c =>
          have hwf := hs.wf
          rw [hd] at hwf hp hi he' hpl fresh
          obtain ⟨⟨rows, hr⟩, hb⟩ := hwf
          obtain ⟨r, vals, rows', b', q1, q2⟩ := flatcoo_getItem hr hp _ hb index hi he'
          exact fresh q1.eval (slice_places (.flatcoo hr) hb hp hi q1 (kind := .flatcoo) rfl q2) hpl
        | _ => rw [hd] at hkind; simp [KindOk, Storage.cls] at hkind
      | csr =>
        rw [hk] at hkind
        simp only [Machine.slice, hk]
        have hread : ∀ j, InBox j (selShape (items index) v.shape) → x.desc.at (w.list x.addr)
            (selSource (items index) v.shape j) = m.read v (selSource (items index) v.shape j) := fun j hj =>
          h.at_eq hx hv _ (source_inBox hs.poss h1 hj)
        cases hd : x.desc with
        | csr c =>
          have hwf := hs.wf
          have hsh := hs.shape
          have hun := hs.unspec
          rw [hd] at hwf hp hi he' hpl fresh hsh hread hun
          obtain ⟨⟨rows, hr⟩, hb⟩ := hwf
          by_cases hl1 : (selShape (items index) v.shape).length = 1
          · rw [if_pos hl1]
            obtain ⟨r, vals, rows', b', q1, q2⟩ := csr_getItem1 hr hp _ hb index hi (by
              simp only [Storage.shape] at hsh; rw [hsh]; exact hl1)
            have hat : ∀ j, InBox j (selShape (items index) c.shape) →
                lookup rows (c.data.window (w.list x.addr)) c.data.unspec (selSource (items index) c.shape j)
                  = m.read v (selSource (items index) v.shape j) := by
              intro j hj
              have := (Sparse.csr hr).at _ hb _ (source_inBox hp hi hj)
              simp only [Storage.shape] at hsh this
              rw [← this]
              rw [hsh] at hj ⊢
              exact hread j hj
            simp only [Storage.shape, Storage.unspec] at hsh hun
            refine fresh q1.eval (slice_fresh (.csr hr) hb hp hi q1 (kind := .coo) rfl
              (e := made .coo v.unspec fun j => m.read v (selSource (items index) v.shape j)) ?_ ?_) fun _ _ => rfl
            · intro j hj hn
              rw [q2 j hj, not_not, hat j hj] at hn
              simp only [made, Kind.sparse, true_and]
              rw [if_pos (by rw [hn, hun])]
            · intro j hj hn
              rw [q2 j hj, hat j hj] at hn
              simp only [made, Kind.sparse, true_and]
              rw [if_neg (by rw [← hun]; exact hn)]
              simp only [Storage.shape] at hj ⊢
              rw [hsh] at hj ⊢
              rw [hread j hj]
          · rw [if_neg hl1]
            obtain ⟨r, vals, rows', b', q1, q2⟩ := csr_getItem2 hr hp _ hb index hi (by
              have a := selShape_length_le (items index) c.shape
              have b := hr.two
              have e : (selShape (items index) c.shape).length ≠ 0 := fun e => he' (List.length_eq_zero_iff.1 e)
              simp only [Storage.shape] at hsh
              rw [← hsh] at hl1
              omega)
            exact fresh q1.eval (slice_places (.csr hr) hb hp hi q1 (kind := .csr) rfl q2) hpl
        | _ => rw [hd] at hkind; simp [KindOk, Storage.cls] at hkind
  | convert o cls u =>
    obtain ⟨v, hv, h1⟩ := hf
    obtain ⟨x, hx, ha, hl, hs⟩ := h.view hv
    rw [w.step_on _ o x rfl hx]
    simp only [World.stepOn, Machine.step, hv, Machine.convert]
    have hne : x.desc.shape ≠ [] := by rw [hs.shape]; exact hs.ne
    have hp : PosShape x.desc.shape := by rw [hs.shape]; exact hs.poss
    by_cases c1 : u = none ∧ v.kind.same (Kind.ofCls cls) = true
    · rw [if_pos c1]
      obtain ⟨rfl, c1⟩ := c1
      rw [same_store hs.kind cls h1.1 c1]
      simp only [World.made, and_true]
      refine ⟨pos, ?_⟩
      rw [ha] at hs ⊢
      exact h.addView hl hs
    · rw [if_neg c1]
      by_cases c2 : u = none ∧ v.kind.takes (Kind.ofCls cls) = true
      · rw [if_pos c2]
        obtain ⟨rfl, c2⟩ := c2
        obtain ⟨r, mem, g1, g2⟩ := takes_fresh hs.wf hs.kind hne hp cls c2 (by
          refine ⟨h1.1, fun e => ?_⟩
          obtain ⟨e1, ix, e2, e3⟩ := h1.2 e
          refine ⟨by rw [hs.shape]; exact e1, ix, by rw [hs.shape]; exact e2, ?_⟩
          simp only [Option.getD_none] at e3 ⊢
          rw [hs.unspec, h.at_eq hx hv ix e2]
          exact e3)
        rw [g1]
        simp only [World.made, and_true]
        rw [hs.shape, hs.unspec] at g2
        exact h.fresh (g2.congr fun ix hi => h.place_eq hx hv ix hi) hs.ne hs.poss
      · rw [if_neg c2, general_store hs.kind cls u h1.1 c1 c2]
        obtain ⟨r, mem, g1, g2⟩ := general_fresh cls x.desc.shape hne _ x.desc.unspec (u.getD x.desc.unspec)
          (x.desc.at (w.list x.addr)) (src_value hs.wf hne) (by
          refine ⟨h1.1, fun e => ?_⟩
          obtain ⟨e1, ix, e2, e3⟩ := h1.2 e
          refine ⟨by rw [hs.shape]; exact e1, ix, by rw [hs.shape]; exact e2, ?_⟩
          simp only at e3 ⊢
          rw [hs.unspec, h.at_eq hx hv ix e2]
          exact e3)
        rw [hs.shape, hs.unspec] at g2
        have g3 := h.fresh (g2.congr (e' := made (Kind.ofCls cls) (u.getD v.unspec) fun ix =>
          replaced v.unspec (u.getD v.unspec) (m.read v ix)) fun ix hi => by simp only [made, h.at_eq hx hv ix hi])
          hs.ne hs.poss
        cases cls <;> (simp only at g1 ⊢; rw [g1]; exact ⟨g3, rfl⟩)
  | convertDM o d p cls u =>
    obtain ⟨v, hv, h1⟩ := hf
    obtain ⟨x, hx, ha, hl, hs⟩ := h.view hv
    rw [w.step_on _ o x rfl hx]
    have c1 : ¬ (u = none ∧ v.kind.same (.dm false) = true) := by rintro ⟨_, c⟩; cases hk : v.kind <;> simp [hk, Kind.same] at c
    have c2 : ¬ (u = none ∧ v.kind.takes (.dm false) = true) := by rintro ⟨_, c⟩; cases hk : v.kind <;> simp [hk, Kind.takes] at c
    simp only [World.stepOn, Machine.step, hv, Machine.convert, if_neg c1, if_neg c2]
    have hne : x.desc.shape ≠ [] := by rw [hs.shape]; exact hs.ne
    obtain ⟨r, mem, g1, g2⟩ := dm_fresh cls x.desc.shape hne d p _ x.desc.unspec (u.getD x.desc.unspec)
      (x.desc.at (w.list x.addr)) (src_value hs.wf hne) (by rw [hs.shape]; exact h1)
    have hm : fromObjectDM (.store x.desc (w.list x.addr)) d p cls u = .ok (r, mem) := g1
    simp only [hm, World.create, and_true]
    rw [hs.shape, hs.unspec] at g2
    exact h.fresh (g2.congr (e' := made (.dm false) (u.getD v.unspec) fun ix =>
      replaced v.unspec (u.getD v.unspec) (m.read v ix)) fun ix hi => by simp only [made, h.at_eq hx hv ix hi]) hs.ne hs.poss
  | copy o u =>
    obtain ⟨v, hv⟩ := hf
    obtain ⟨x, hx, ha, hl, hs⟩ := h.view hv
    rw [w.step_on _ o x rfl hx]
    obtain ⟨r, mem, g1, g2⟩ := copy_fresh hs.wf hs.kind (h.cellInj hx hv) u
    simp only [World.stepOn, Machine.step, hv, g1, World.create, and_true]
    rw [hs.shape, hs.unspec] at g2
    exact h.fresh (g2.congr fun ix hi => by rw [h.place_eq hx hv ix hi]) hs.ne hs.poss
  | set o index value =>
    obtain ⟨v, hv, h1, h2⟩ := hf
    obtain ⟨x, hx, ha, hl, hs⟩ := h.view hv
    rw [w.step_on _ o x rfl hx]
    simp only [World.stepOn, Machine.step, hv, Storage.assign]
    have hval : ∀ (mem' : List V) (j : List Int), InBox j (selShape (items index) v.shape) →
        value.getValue j = .ok ((item value j).getD v.unspec) := by
      intro mem' j hj
      obtain ⟨y, hy⟩ := h2 j hj
      rw [getValue_of_item value j y hy, hy]
      rfl
    have : ∃ mem', x.desc.setItem (w.list x.addr) index (fun _ vi => value.getValue vi) = ⟨mem', none⟩ ∧
        Refines (w.put x.addr mem') (m.assign v index fun _ j => (item value j).getD v.unspec) pos := by
      by_cases hk : v.kind = .strided
      · exact h.assign_strided hx hv hk index h1 _ _ fun mem' _ _ _ _ j hj => hval mem' j hj
      · exact h.assign_cells hx hv hk index h1 _ (fun _ _ _ => rfl) _ hval
    obtain ⟨mem', g1, g2⟩ := this
    rw [g1]
    exact ⟨⟨pos, g2⟩, rfl⟩
  | setFrom o index p =>
    obtain ⟨v, q, hv, hq, h1, h2, h3, h4⟩ := hf
    obtain ⟨x, hx, ha, hl, hs⟩ := h.view hv
    obtain ⟨y, hy, hya, hyl, hys⟩ := h.view hq
    rw [w.step_on _ o x rfl hx]
    simp only [World.stepOn, Machine.step, hv, hq, hy]
    have hnil : ∀ j, InBox j (selShape (items index) v.shape) → j ≠ [] := by
      rintro j hj rfl
      cases hsel : selShape (items index) v.shape with
      | nil => exact h2 hsel
      | cons => rw [hsel] at hj; exact hj.elim
    have hget : ∀ (w' : World V) (m' : Machine V), Refines w' m' pos → w'.objs = w.objs → m'.views = m.views →
        ∀ j, InBox j (selShape (items index) v.shape) →
        (if j = [] then .error .type else y.desc.getVal (w'.list y.addr) j : PyM V) = .ok (m'.read q j) := by
      intro w' m' hr ho hm j hj
      have hy' : w'.objs[p]? = some y := by rw [ho]; exact hy
      have hq' : m'.views[p]? = some q := by rw [hm]; exact hq
      have hj' : InBox j q.shape := by rw [h3]; exact hj
      obtain ⟨_, _, hys'⟩ := hr.obj p y q hy' hq'
      rw [if_neg (hnil j hj), hys'.wf.getVal_ok j (by rw [hys'.shape]; exact hj'), hr.at_eq hy' hq' j hj']
    have had : x.addr < w.lists.length := h.addressed x (List.mem_of_getElem? hx)
    by_cases hxy : y.addr = x.addr
    · rw [if_pos hxy]
      have hk : v.kind = .strided := h4 (by rw [← ha, ← hya, hxy])
      obtain ⟨mem', g1, g2⟩ := h.assign_strided hx hv hk index h1 (fun m j => m.read q j)
        (fun m vi => if vi = [] then .error .type else y.desc.getVal m vi) (by
          intro mem' m' _ hr hm j hj
          have := hget _ m' hr rfl hm j hj
          rw [w.list_put _ _ had, if_pos hxy] at this
          exact this)
      simp only [Storage.assignShared, g1]
      exact ⟨⟨pos, g2⟩, rfl⟩
    · rw [if_neg hxy]
      have : ∃ mem', x.desc.setItem (w.list x.addr) index
          (fun _ vi => if vi = [] then .error .type else y.desc.getVal (w.list y.addr) vi) = ⟨mem', none⟩ ∧
          Refines (w.put x.addr mem') (m.assign v index fun m j => m.read q j) pos := by
        by_cases hk : v.kind = .strided
        · refine h.assign_strided hx hv hk index h1 _ _ ?_
          intro mem' m' _ hr hm j hj
          have := hget _ m' hr rfl hm j hj
          rw [w.list_put _ _ had, if_neg hxy] at this
          exact this
        · refine h.assign_cells hx hv hk index h1 _ ?_ _ fun mem' j hj => hget w m h rfl rfl j hj
          intro m' hm' j
          simp only [Machine.read, Machine.place]
          rw [hm' q.arr (by rw [← hya, ← ha]; exact hxy)]
      obtain ⟨mem', g1, g2⟩ := this
      simp only [Storage.assignStore, g1]
      exact ⟨⟨pos, g2⟩, rfl⟩

theorem Refines.empty : Refines (World.empty : World V) Machine.empty fun _ _ => none := by
  refine ⟨rfl, rfl, ?_, ?_⟩
  · intro a e ha
    simp [Machine.empty] at ha
  · intro o x v hx
    simp [World.empty] at hx

theorem Refines.run {w : World V} {m : Machine V} {pos : Nat → List Int → Option Nat} (h : Refines w m pos) (ops : List (Op V))
    (hf : m.FitsAll ops) : ∃ pos', Refines (w.run ops) (m.run ops) pos' := by
  induction ops generalizing w m pos with
  | nil => exact ⟨pos, h⟩
  | cons op ops ih =>
    obtain ⟨⟨pos', h'⟩, _⟩ := h.step op hf.1
    exact ih h' hf.2

omit [DecidableEq V] in
theorem FitsAll.append [DecidableEq V] {m : Machine V} (xs ys : List (Op V)) (h : m.FitsAll (xs ++ ys)) :
    m.FitsAll xs ∧ (m.run xs).FitsAll ys := by
  induction xs generalizing m with
  | nil => exact ⟨trivial, h⟩
  | cons x xs ih =>
    obtain ⟨h1, h2⟩ := h
    obtain ⟨a, b⟩ := ih h2
    exact ⟨⟨h1, a⟩, b⟩

theorem Refines.objects {w : World V} {m : Machine V} {pos : Nat → List Int → Option Nat} (h : Refines w m pos) :
    w.objs.length = m.views.length ∧
    ∀ (o : Nat) (v : View V), m.views[o]? = some v → ∃ x : Obj V, w.objs[o]? = some x ∧
      x.desc.cls = v.kind.cls ∧ x.desc.shape = v.shape ∧ x.desc.unspec = v.unspec ∧
      ∀ ix, InBox ix v.shape → Reads x.desc (w.list x.addr) ix (m.read v ix) := by
  refine ⟨h.objs, fun o v hv => ?_⟩
  obtain ⟨x, hx, ha, hl, hs⟩ := h.view hv
  refine ⟨x, hx, ?_, hs.shape, hs.unspec, fun ix hi => ?_⟩
  · have hk := hs.kind
    cases hv : v.kind <;> rw [hv] at hk
    case dm =>
      obtain ⟨m, d, e, _⟩ := hk
      rw [e]
      rfl
    all_goals exact hk
  · rw [← h.at_eq hx hv ix hi]
    exact hs.wf.reads ix (by rw [hs.shape]; exact hi)

/-- C73, the objects.  After a program whose statements meet their conditions the objects of the heap are those of the
machine: as many, and each with the class, the shape, the unspecified value and the elements that the machine has. -/
theorem C73_objects (ops : List (Op V)) (hf : Machine.empty.FitsAll ops) :
    (World.empty.run ops).objs.length = (Machine.empty.run ops).views.length ∧
    ∀ (o : Nat) (v : View V), (Machine.empty.run ops).views[o]? = some v → ∃ x : Obj V, (World.empty.run ops).objs[o]? = some x ∧
      x.desc.cls = v.kind.cls ∧ x.desc.shape = v.shape ∧ x.desc.unspec = v.unspec ∧
      ∀ ix, InBox ix v.shape → Reads x.desc ((World.empty.run ops).list x.addr) ix ((Machine.empty.run ops).read v ix) := by
  obtain ⟨pos, h⟩ := Refines.empty.run ops hf
  exact h.objects

/-- C73, the outcomes.  Each statement of such a program gives the program what the machine says: an element, or
nothing.  None raises. -/
theorem C73_outcomes (pre : List (Op V)) (op : Op V) (post : List (Op V)) (hf : Machine.empty.FitsAll (pre ++ op :: post)) :
    ((World.empty.run pre).step op).2 = ((Machine.empty.run pre).step op).2 ∧
    ∀ e, ((World.empty.run pre).step op).2 ≠ .raised e := by
  obtain ⟨h1, h2, _⟩ := FitsAll.append pre _ hf
  obtain ⟨pos, h⟩ := Refines.empty.run pre h1
  have he := (h.step op h2).2
  refine ⟨he, fun e => ?_⟩
  rw [he]
  cases op <;> simp only [Machine.step] <;> (repeat' split) <;> simp

/-! ## A program

The conditions of a program with concrete statements can be computed. -/

omit [DecidableEq V] [HasNone V]

def rect : List Nat → Nested V → Bool
  | [], .leaf _ => true
  | n :: shape, .seq xs => xs.length == n && !xs.isEmpty && xs.all (rect shape)
  | _, _ => false

theorem rect_sound (shape : List Nat) (x : Nested V) (h : rect shape x = true) : HasShape x shape := by
  induction shape generalizing x with
  | nil =>
    cases x with
    | leaf v => exact .leaf v
    | seq xs => simp [rect] at h
  | cons n shape ih =>
    cases x with
    | leaf v => simp [rect] at h
    | seq xs =>
      simp only [rect, Bool.and_eq_true, beq_iff_eq, Bool.not_eq_true', List.isEmpty_eq_false_iff, List.all_eq_true] at h
      obtain ⟨⟨rfl, h2⟩, h3⟩ := h
      exact .seq xs shape h2 fun x hx => ih x (h3 x hx)

def itemsOk : List Ix → List Nat → Bool
  | [], _ => true
  | .int _ :: is, _ :: shape => itemsOk is shape
  | .slice s :: is, _ :: shape => s.step != some 0 && itemsOk is shape
  | .none :: is, shape => itemsOk is shape.tail
  | _, _ => false

theorem itemsOk_sound (is : List Ix) (shape : List Nat) (h : itemsOk is shape = true) : ValidItems is shape := by
  fun_induction itemsOk is shape <;> simp_all [ValidItems]

def permOk (n : Nat) (d : List Nat) : Bool := d.isPerm (List.range n)

def pairs : List Nat → Bool
  | [] => true
  | x :: xs => xs.all (x < ·) && pairs xs

theorem pairs_sound (xs : List Nat) (h : pairs xs = true) : xs.Pairwise (· < ·) := by
  induction xs with
  | nil => exact .nil
  | cons x xs ih =>
    simp only [pairs, Bool.and_eq_true, List.all_eq_true, decide_eq_true_eq] at h
    exact .cons h.1 (ih h.2)

def splitOk (n : Nat) (d p : Option (List Nat)) (cls : Cls) : Bool :=
  d.all (fun d => d.isPerm (List.range n)) && p.all (fun p => pairs p && p.all fun k => decide (0 < k ∧ k < n)) &&
    (decide (cls = .strided) || (decide (cls = .buffer) && (p == none || p == some [])))

theorem splitOk_sound {n : Nat} {d p : Option (List Nat)} {cls : Cls} (h : splitOk n d p cls = true) : SplitFits n d p cls := by
  simp only [splitOk, Bool.and_eq_true, Bool.or_eq_true, decide_eq_true_eq, beq_iff_eq, Option.all_eq_true] at h
  obtain ⟨⟨h1, h2⟩, h3⟩ := h
  refine ⟨fun d e => List.isPerm_iff.1 (h1 d e), fun p e => ?_, h3⟩
  obtain ⟨a, b⟩ := h2 p e
  refine ⟨pairs_sound p a, fun k hk => ?_⟩
  simpa using List.all_eq_true.1 b k hk

variable [DecidableEq V] [HasNone V]

omit [HasNone V] in
theorem boxList_all {shape : List Nat} {p : List Int → Bool} (h : (boxList shape).all p = true) (ix : List Int)
    (hi : InBox ix shape) : p ix = true :=
  List.all_eq_true.1 h ix (by rw [boxList_eq]; exact (mem_indexProduct _ _).2 hi)

def classOk (cls : Cls) (shape : List Nat) (unspec : V) (f : List Int → V) : Bool :=
  decide (cls ≠ .buffer) && (decide (cls ≠ .csr) || (shape.length == 2 && (boxList shape).any fun ix => decide (f ix ≠ unspec)))

omit [HasNone V] in
theorem classOk_sound {cls : Cls} {shape : List Nat} {unspec : V} {f : List Int → V} (h : classOk cls shape unspec f = true) :
    ClassFits cls shape unspec f := by
  simp only [classOk, Bool.and_eq_true, Bool.or_eq_true, decide_eq_true_eq, beq_iff_eq, List.any_eq_true] at h
  refine ⟨h.1, fun e => ?_⟩
  rcases h.2 with h2 | ⟨h2, ix, h3, h4⟩
  · exact absurd e h2
  · rw [boxList_eq] at h3
    exact ⟨h2, ix, (mem_indexProduct _ _).1 h3, h4⟩

/-- The item is not an int. -/
def notInt : Ix → Bool
  | .int _ => false
  | _ => true

def fits (m : Machine V) : Op V → Bool
  | .make cls seq u => rect (dims seq) seq && decide (dims seq ≠ []) && (dims seq).all (0 < ·) &&
    classOk cls (dims seq) (u.getD pyNone) (listElem seq u)
  | .makeDM seq d p cls _ => rect (dims seq) seq && decide (dims seq ≠ []) && (dims seq).all (0 < ·) &&
    splitOk (dims seq).length d p cls
  | .get o index => match m.views[o]? with
    | none => false
    | some v => itemsOk (items index) v.shape && (selShape (items index) v.shape).all (0 < ·) &&
      (decide (v.kind ≠ .dm true) || (decide (selShape (items index) v.shape = []) || (items index).all notInt))
  | .convert o cls u => match m.views[o]? with
    | none => false
    | some v => classOk cls v.shape (u.getD v.unspec) fun ix => replaced v.unspec (u.getD v.unspec) (m.read v ix)
  | .convertDM o d p cls _ => match m.views[o]? with
    | none => false
    | some v => splitOk v.shape.length d p cls
  | .copy o _ => (m.views[o]?).isSome
  | .set o index value => match m.views[o]? with
    | none => false
    | some v => itemsOk (items index) v.shape && (boxList (selShape (items index) v.shape)).all fun j => (item value j).isSome
  | .setFrom o index p => match m.views[o]?, m.views[p]? with
    | some v, some q => itemsOk (items index) v.shape && decide (selShape (items index) v.shape ≠ []) &&
      decide (q.shape = selShape (items index) v.shape) && (decide (v.arr ≠ q.arr) || decide (v.kind = .strided))
    | _, _ => false

theorem fits_sound {m : Machine V} {op : Op V} (h : fits m op = true) : m.Fits op := by
  cases op with
  | make cls seq u =>
    simp only [fits, Bool.and_eq_true, decide_eq_true_eq, List.all_eq_true] at h
    exact ⟨rect_sound _ _ h.1.1.1, h.1.1.2, h.1.2, classOk_sound h.2⟩
  | makeDM seq d p cls u =>
    simp only [fits, Bool.and_eq_true, decide_eq_true_eq, List.all_eq_true] at h
    exact ⟨rect_sound _ _ h.1.1.1, h.1.1.2, h.1.2, splitOk_sound h.2⟩
  | get o index =>
    simp only [fits] at h
    split at h
    · simp at h
    · next v hv =>
      simp only [Bool.and_eq_true, Bool.or_eq_true, decide_eq_true_eq, List.all_eq_true] at h
      refine ⟨v, hv, itemsOk_sound _ _ h.1.1, h.1.2, fun e => ?_⟩
      rcases h.2.resolve_left (fun k => k e) with h | h
      · exact .inl h
      · exact .inr fun i hi => by simpa [notInt] using h _ hi
  | convert o cls u =>
    simp only [fits] at h
    split at h
    · simp at h
    · next v hv => exact ⟨v, hv, classOk_sound h⟩
  | convertDM o d p cls u =>
    simp only [fits] at h
    split at h
    · simp at h
    · next v hv => exact ⟨v, hv, splitOk_sound h⟩
  | copy o u => exact Option.isSome_iff_exists.1 h
  | set o index value =>
    simp only [fits] at h
    split at h
    · simp at h
    · next v hv =>
      simp only [Bool.and_eq_true] at h
      exact ⟨v, hv, itemsOk_sound _ _ h.1, fun j hj => Option.isSome_iff_exists.1 (boxList_all h.2 j hj)⟩
  | setFrom o index p =>
    simp only [fits] at h
    split at h
    · next v q hv hq =>
      simp only [Bool.and_eq_true, Bool.or_eq_true, decide_eq_true_eq] at h
      exact ⟨v, q, hv, hq, itemsOk_sound _ _ h.1.1.1, h.1.1.2, h.1.2, fun e => h.2.resolve_left (fun k => k e)⟩
    · simp at h

def fitsAll (m : Machine V) : List (Op V) → Bool
  | [] => true
  | op :: ops => fits m op && fitsAll (m.step op).1 ops

theorem fitsAll_sound {m : Machine V} {ops : List (Op V)} (h : fitsAll m ops = true) : m.FitsAll ops := by
  induction ops generalizing m with
  | nil => trivial
  | cons op ops ih =>
    simp only [fitsAll, Bool.and_eq_true] at h
    exact ⟨fits_sound h.1, ih h.2⟩

/-- A program with views, copies, conversions and an assignment in which the value changes while it is read.
```
o0 = Strided.fromobject([[1, None, 3], [None, 5, None]]);  o1 = o0[:, 1:];  o1[0] = [7, 8]
o2 = o0.as_COO();  o3 = o2.as_CSR();  o4 = o3[1];  o4[:] = [4, 6, 9]
o5 = o0.as_DM(dimensions=(1, 0), partitioning=(1,));  o6 = o5[:, -1];  o0[:, 0] = o6;  o5[:, 2] = [2, 4]
o7 = o0[:, :-1];  o0[:, 1:] = o7;  o8 = o3.copy(unspecified=0);  o0[-1, 2]
``` -/
def machineProgram : List (Op (Option Int)) :=
  [.make .strided (.seq [.seq [.leaf (some 1), .leaf none, .leaf (some 3)], .seq [.leaf none, .leaf (some 5), .leaf none]]) none,
   .get 0 (.tuple [.slice ⟨none, none, none⟩, .slice ⟨some 1, none, none⟩]),
   .set 1 (.one (.int 0)) (.seq [.leaf (some 7), .leaf (some 8)]),
   .convert 0 .coo none, .convert 2 .csr none, .get 3 (.one (.int 1)),
   .set 4 (.one (.slice ⟨none, none, none⟩)) (.seq [.leaf (some 4), .leaf (some 6), .leaf (some 9)]),
   .convertDM 0 (some [1, 0]) (some [1]) .strided none, .get 5 (.tuple [.slice ⟨none, none, none⟩, .int (-1)]),
   .setFrom 0 (.tuple [.slice ⟨none, none, none⟩, .int 0]) 6,
   .set 5 (.tuple [.slice ⟨none, none, none⟩, .int 2]) (.seq [.leaf (some 2), .leaf (some 4)]),
   .get 0 (.tuple [.slice ⟨none, none, none⟩, .slice ⟨none, some (-1), none⟩]),
   .setFrom 0 (.tuple [.slice ⟨none, none, none⟩, .slice ⟨some 1, none, none⟩]) 7,
   .copy 3 (some (some 0)),
   .get 0 (.tuple [.int (-1), .int 2])]

/-- The program meets the conditions of C73. -/
theorem machineProgram_fits : Machine.empty.FitsAll machineProgram := fitsAll_sound (by decide +kernel)

/-- A case of C73: the elements of the nine objects after the program.  `o0[:, 1:] = o0[:, :-1]` has spread the first
column. -/
example : ((Machine.empty.run machineProgram).views.map fun v =>
      (v.kind.cls, (boxList v.shape).map ((Machine.empty.run machineProgram).read v))) =
    [(.strided, [some 8, some 8, some 8, none, none, none]), (.strided, [some 8, some 8, none, none]),
     (.coo, [some 1, some 7, some 8, none, some 5, none]), (.csr, [some 1, some 7, some 8, none, some 5, none]),
     (.coo, [none, some 6, none]), (.dm, [some 1, some 7, some 2, none, some 5, some 4]), (.dm, [some 2, some 4]),
     (.strided, [some 8, some 8, none, none]), (.csr, [some 1, some 7, some 8, some 0, some 5, some 0])] := by
  decide +kernel

/-- One of the objects in the heap, by C73. -/
theorem machineProgram_dm : ∃ x, (World.empty.run machineProgram).objs[5]? = some x ∧ x.desc.cls = .dm ∧ x.desc.shape = [2, 3] ∧
    Reads x.desc ((World.empty.run machineProgram).list x.addr) [1, 2] (some 4) := by
  obtain ⟨v, hv, h1, h2, h3⟩ : ∃ v, (Machine.empty.run machineProgram).views[5]? = some v ∧ v.kind.cls = .dm ∧
      v.shape = [2, 3] ∧ (Machine.empty.run machineProgram).read v [1, 2] = some 4 :=
    ⟨_, rfl, by decide +kernel, by decide +kernel, by decide +kernel⟩
  obtain ⟨x, a, b, c, _, d⟩ := (C73_objects machineProgram machineProgram_fits).2 5 v hv
  exact ⟨x, a, b.trans h1, c.trans h2, h3 ▸ d [1, 2] (by rw [h2]; decide)⟩

/-- The machine tells `DM` objects from `Strided` ones: `o[0, 0] = 9` writes the whole `DM` (C53). -/
example : (Machine.empty.run [Op.makeDM (.seq [.seq [.leaf (some 1), .leaf (some (2 : Int))]]) none none .strided none,
      .set 0 (.tuple [.int 0, .int 0]) (.leaf (some 9))]).read ⟨.dm false, [1, 2], none, 0, id⟩ [0, 1] = some 9 ∧
    (Machine.empty.run [Op.make .strided (.seq [.seq [.leaf (some 1), .leaf (some (2 : Int))]]) none,
      .set 0 (.tuple [.int 0, .int 0]) (.leaf (some 9))]).read ⟨.strided, [1, 2], none, 0, id⟩ [0, 1] = some 2 := by
  decide +kernel

/-- A case of C73 with a slice of a slice of a `DM`: `o0 = DM.fromobject([[1, 2, 3], [4, 5, 6]]); o1 = o0[:, 1:];
o2 = o1[::-1, ::-1]; o2[0] = [7, 8]` writes the last two elements of `o0`, the last one first. -/
example :
    let p : List (Op (Option Int)) :=
      [.makeDM (.seq [.seq [.leaf (some 1), .leaf (some 2), .leaf (some 3)], .seq [.leaf (some 4), .leaf (some 5), .leaf (some 6)]])
        none none .strided none,
       .get 0 (.tuple [.none, .slice ⟨some 1, none, none⟩]),
       .get 1 (.tuple [.slice ⟨none, none, some (-1)⟩, .slice ⟨none, none, some (-1)⟩]),
       .set 2 (.one (.int 0)) (.seq [.leaf (some 7), .leaf (some 8)])]
    Machine.empty.FitsAll p ∧ ((Machine.empty.run p).views.map fun v =>
      (v.kind, (boxList v.shape).map ((Machine.empty.run p).read v))) =
      [(.dm false, [some 1, some 2, some 3, some 4, some 8, some 7]), (.dm true, [some 2, some 3, some 8, some 7]),
       (.dm true, [some 7, some 8, some 3, some 2])] :=
  ⟨fitsAll_sound (by decide +kernel), by decide +kernel⟩

/-! ## C74 -/

theorem Machine.step_plainDM (m : Machine V) (op : Op V) : m.step (plainDM op) = m.step op := by
  cases op <;> rfl

theorem Machine.run_plainDM (m : Machine V) (ops : List (Op V)) : m.run (ops.map plainDM) = m.run ops := by
  induction ops generalizing m with
  | nil => rfl
  | cons op ops ih => simp only [List.map_cons, Machine.run, Machine.step_plainDM, ih]

theorem Machine.fits_plainDM {m : Machine V} {op : Op V} (h : m.Fits op) : m.Fits (plainDM op) := by
  have hn : ∀ n, SplitFits n none none .strided := fun n => ⟨by simp, by simp, .inl rfl⟩
  cases op with
  | makeDM seq d p cls u => exact ⟨h.1, h.2.1, h.2.2.1, hn _⟩
  | convertDM o d p cls u =>
    obtain ⟨v, hv, _⟩ := h
    exact ⟨v, hv, hn _⟩
  | _ => exact h

theorem Machine.fitsAll_plainDM {m : Machine V} {ops : List (Op V)} (h : m.FitsAll ops) : m.FitsAll (ops.map plainDM) := by
  induction ops generalizing m with
  | nil => trivial
  | cons op ops ih =>
    refine ⟨Machine.fits_plainDM h.1, ?_⟩
    rw [Machine.step_plainDM]
    exact ih h.2

/-- C74, the objects.  A program has the same objects with the same elements when all its `dimensions`, `partitioning`
and `storage_class` arguments of `DM` are left out. -/
theorem C74_objects (ops : List (Op V)) (hf : Machine.empty.FitsAll ops) (o : Nat) :
    (∀ shape, ShapeAt (World.empty.run ops) o shape ↔ ShapeAt (World.empty.run (ops.map plainDM)) o shape) ∧
    ∀ shape, ShapeAt (World.empty.run ops) o shape → ∀ ix, InBox ix shape → ∀ x,
      (ReadsAt (World.empty.run ops) o ix x ↔ ReadsAt (World.empty.run (ops.map plainDM)) o ix x) := by
  obtain ⟨a1, a2⟩ := C73_objects ops hf
  obtain ⟨b1, b2⟩ := C73_objects _ (Machine.fitsAll_plainDM hf)
  rw [Machine.run_plainDM] at b1 b2
  cases hv : (Machine.empty.run ops).views[o]? with
  | none =>
    have hl := List.getElem?_eq_none_iff.1 hv
    have ha : (World.empty.run ops).objs[o]? = none := List.getElem?_eq_none_iff.2 (by omega)
    have hb : (World.empty.run (ops.map plainDM)).objs[o]? = none := List.getElem?_eq_none_iff.2 (by omega)
    refine ⟨fun shape => ?_, fun shape => ?_⟩
    · simp only [ShapeAt, ha, hb]
    · rintro ⟨x, hx, _⟩
      rw [ha] at hx
      simp at hx
  | some v =>
    obtain ⟨x, hx, _, xs, _, xr⟩ := a2 o v hv
    obtain ⟨y, hy, _, ys, _, yr⟩ := b2 o v hv
    refine ⟨fun shape => ?_, fun shape hs ix hi z => ?_⟩
    · simp only [ShapeAt, hx, hy, Option.some.injEq, exists_eq_left', xs, ys]
    · simp only [ShapeAt, hx, Option.some.injEq, exists_eq_left', xs] at hs
      subst hs
      have h1 := xr ix hi
      have h2 := yr ix hi
      simp only [ReadsAt, hx, hy, Option.some.injEq, exists_eq_left']
      unfold Reads at h1 h2 ⊢
      rw [h1, h2]

/-- C74, the outcomes: each statement gives the program the same. -/
theorem C74_outcomes (pre : List (Op V)) (op : Op V) (post : List (Op V)) (hf : Machine.empty.FitsAll (pre ++ op :: post)) :
    ((World.empty.run (pre.map plainDM)).step (plainDM op)).2 = ((World.empty.run pre).step op).2 := by
  have h2 := Machine.fitsAll_plainDM hf
  rw [List.map_append, List.map_cons] at h2
  rw [(C73_outcomes _ _ _ hf).1, (C73_outcomes _ _ _ h2).1, Machine.run_plainDM, Machine.step_plainDM]

/-- A case of C74: the program above, with and without the arguments of `as_DM`.  The lists differ. -/
example : (World.empty.run machineProgram).lists[4]? = some [some 1, none, some 7, some 5, some 2, some 4] ∧
    (World.empty.run (machineProgram.map plainDM)).lists[4]? = some [some 1, some 7, some 2, none, some 5, some 4] ∧
    ReadsAt (World.empty.run (machineProgram.map plainDM)) 5 [1, 2] (some 4) := by
  refine ⟨by decide +kernel, by decide +kernel, ?_⟩
  obtain ⟨x, hx, _, hs, hr⟩ := machineProgram_dm
  exact ((C74_objects machineProgram machineProgram_fits 5).2 [2, 3] ⟨x, hx, hs⟩ [1, 2] (by decide) _).1 ⟨x, hx, hr⟩

end Gcs
