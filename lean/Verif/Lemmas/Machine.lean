import Verif.SpecMachine
import Verif.Props.History
import Verif.Lemmas.DMWrite
import Verif.Lemmas.Shared

/-!
# Lemmas: programs and the machine of the specification

The lists of a program and the arrays of the machine have the same numbers.  `pos a ix` is the cell of list `a` that holds
index `ix` of array `a`.
-/

namespace Gcs

open Spec

variable {V : Type}

theorem boxList_eq (shape : List Nat) : boxList shape = indexProduct shape := by
  induction shape with
  | nil => rfl
  | cons n shape ih => simp only [boxList, indexProduct, ih]

theorem HasShape.dims_eq {n : Nested V} {shape : List Nat} (h : HasShape n shape) : dims n = shape := by
  induction h with
  | leaf v => simp [dims]
  | empty => simp [dims]
  | seq items shape hne h ih =>
    cases items with
    | nil => exact absurd rfl hne
    | cons x xs => simp only [dims, List.length_cons, ih x List.mem_cons_self]

/-- What the kind of a view says about the object. -/
def KindOk : Kind → Storage V → Prop
  | .strided, s => s.cls = .strided
  | .coo, s => s.cls = .coo
  | .flatcoo, s => s.cls = .flatcoo
  | .csr, s => s.cls = .csr
  | .dm cut, s => ∃ m d, s = .dm m d ∧ (d.cls = .buffer ∨ d.cls = .strided) ∧ (cut = false → ZeroOff s) ∧
    (cut = true → ∀ g ∈ m.rdims, g ≠ [])

/-- A list and an array with the same values. -/
structure Tie (mem : List V) (e : List Int → Option V) (pos : List Int → Option Nat) : Prop where
  lt : ∀ ix c, pos ix = some c → c < mem.length
  eq : ∀ ix, e ix = (pos ix).bind fun c => mem[c]?
  inj : ∀ ix jx c, pos ix = some c → pos jx = some c → ix = jx

/-- An object and its view. -/
structure Shows (s : Storage V) (mem : List V) (v : View V) (pos : List Int → Option Nat) : Prop where
  wf : s.WF mem
  kind : KindOk v.kind s
  shape : s.shape = v.shape
  unspec : s.unspec = v.unspec
  ne : v.shape ≠ []
  poss : PosShape v.shape
  cell : ∀ ix, InBox ix v.shape → s.cellAt ix = pos (v.src ix)
  inj : ∀ ix jx, InBox ix v.shape → InBox jx v.shape → v.src ix = v.src jx → ix = jx

theorem Shows.of_length {s : Storage V} {mem mem' : List V} {v : View V} {pos : List Int → Option Nat}
    (h : Shows s mem v pos) (hl : mem'.length = mem.length) : Shows s mem' v pos :=
  ⟨h.wf.of_length hl, h.kind, h.shape, h.unspec, h.ne, h.poss, h.cell, h.inj⟩

/-- A state of a program and a state of the machine. -/
structure Refines (w : World V) (m : Machine V) (pos : Nat → List Int → Option Nat) : Prop where
  lists : w.lists.length = m.arrs.length
  objs : w.objs.length = m.views.length
  tie : ∀ a e, m.arrs[a]? = some e → Tie (w.list a) e (pos a)
  obj : ∀ (o : Nat) x v, w.objs[o]? = some x → m.views[o]? = some v →
    x.addr = v.arr ∧ v.arr < m.arrs.length ∧ Shows x.desc (w.list x.addr) v (pos v.arr)

theorem Refines.addressed {w : World V} {m : Machine V} {pos : Nat → List Int → Option Nat} (h : Refines w m pos) :
    w.Addressed := by
  intro x hx
  obtain ⟨o, ho⟩ := List.mem_iff_getElem?.1 hx
  have hl : o < m.views.length := by rw [← h.objs]; exact (List.getElem?_eq_some_iff.1 ho).1
  obtain ⟨h1, h2, _⟩ := h.obj o x m.views[o] ho (List.getElem?_eq_getElem hl)
  rw [h.lists, h1]
  exact h2

theorem Refines.view {w : World V} {m : Machine V} {pos : Nat → List Int → Option Nat} (h : Refines w m pos) {o : Nat}
    {v : View V} (hv : m.views[o]? = some v) : ∃ x, w.objs[o]? = some x ∧ x.addr = v.arr ∧ v.arr < m.arrs.length ∧
      Shows x.desc (w.list x.addr) v (pos v.arr) := by
  have hl : o < w.objs.length := by rw [h.objs]; exact (List.getElem?_eq_some_iff.1 hv).1
  have hx := List.getElem?_eq_getElem hl
  exact ⟨_, hx, h.obj o _ v hx hv⟩

theorem Refines.place_eq {w : World V} {m : Machine V} {pos : Nat → List Int → Option Nat} (h : Refines w m pos) {o : Nat}
    {x : Obj V} {v : View V} (hx : w.objs[o]? = some x) (hv : m.views[o]? = some v) (ix : List Int)
    (hi : InBox ix v.shape) : m.place v ix = (x.desc.cellAt ix).bind fun c => (w.list x.addr)[c]? := by
  obtain ⟨h1, h2, h3⟩ := h.obj o x v hx hv
  have ht := h.tie v.arr _ (List.getElem?_eq_getElem h2)
  simp only [Machine.place, Machine.elem, List.getElem?_eq_getElem h2, Option.bind_some]
  rw [ht.eq, h3.cell ix hi, h1]

theorem Refines.at_eq [DecidableEq V] {w : World V} {m : Machine V} {pos : Nat → List Int → Option Nat}
    (h : Refines w m pos) {o : Nat} {x : Obj V} {v : View V} (hx : w.objs[o]? = some x) (hv : m.views[o]? = some v)
    (ix : List Int) (hi : InBox ix v.shape) : x.desc.at (w.list x.addr) ix = m.read v ix := by
  obtain ⟨h1, h2, h3⟩ := h.obj o x v hx hv
  have hi' : InBox ix x.desc.shape := by rw [h3.shape]; exact hi
  rw [h3.wf.at_cell ix hi', Machine.read, h.place_eq hx hv ix hi]
  cases hc : x.desc.cellAt ix with
  | none => exact h3.unspec
  | some c =>
    have := h3.wf.cell_lt ix hi' c hc
    simp [cellVal, this]

/-! ## New objects -/

theorem Refines.addFresh {w : World V} {m : Machine V} {pos : Nat → List Int → Option Nat} (h : Refines w m pos)
    {r : Storage V} {mem : List V} {kind : Kind} {shape : List Nat} {u : V} {e : List Int → Option V}
    (hwf : r.WF mem) (hk : KindOk kind r) (hs : r.shape = shape) (hu : r.unspec = u) (hne : shape ≠ [])
    (hp : PosShape shape)
    (hinj : ∀ ix jx c, InBox ix shape → InBox jx shape → r.cellAt ix = some c → r.cellAt jx = some c → ix = jx)
    (he : ∀ ix, InBox ix shape → e ix = (r.cellAt ix).bind fun c => mem[c]?) :
    ∃ pos', Refines (w.addFresh r mem) (m.add kind shape u e) pos' := by
  refine ⟨fun a => if a = m.arrs.length then fun ix => if InBox ix shape then r.cellAt ix else none else pos a, ?_⟩
  have hlist : (w.addFresh r mem).list m.arrs.length = mem := by
    simp [World.list, World.addFresh, ← h.lists]
  refine ⟨by simp [World.addFresh, Machine.add, h.lists], by simp [World.addFresh, Machine.add, h.objs], ?_, ?_⟩
  · intro a f hf
    simp only [Machine.add] at hf
    by_cases ha : a = m.arrs.length
    · subst ha
      simp only [List.length_append, List.length_singleton, Nat.lt_add_one, List.getElem?_append_right, Nat.le_refl,
        Nat.sub_self, List.getElem?_cons_zero, Option.some.injEq] at hf
      subst hf
      rw [hlist]
      simp only [if_true]
      refine ⟨?_, ?_, ?_⟩
      · intro ix c hc
        split at hc
        · next hi => exact hwf.cell_lt ix (by rw [hs]; exact hi) c hc
        · simp at hc
      · intro ix
        by_cases hi : InBox ix shape
        · simp only [if_pos hi]; exact he ix hi
        · simp only [if_neg hi, Option.bind_none]
      · intro ix jx c h1 h2
        split at h1
        · next hi =>
          split at h2
          · next hj => exact hinj ix jx c hi hj h1 h2
          · simp at h2
        · simp at h1
    · have hlt : a < m.arrs.length := by
        have := (List.getElem?_eq_some_iff.1 hf).1
        simp at this
        omega
      rw [List.getElem?_append_left hlt] at hf
      simp only [if_neg ha]
      rw [w.list_addFresh r mem a (by rw [h.lists]; exact hlt)]
      exact h.tie a f hf
  · intro o x v hx hv
    simp only [World.addFresh, Machine.add] at hx hv
    by_cases ho : o = w.objs.length
    · subst ho
      rw [List.getElem?_append_right (Nat.le_refl _), Nat.sub_self, List.getElem?_cons_zero, Option.some.injEq] at hx
      rw [h.objs, List.getElem?_append_right (Nat.le_refl _), Nat.sub_self, List.getElem?_cons_zero,
        Option.some.injEq] at hv
      subst hx hv
      refine ⟨h.lists, by simp [Machine.add], ?_⟩
      rw [h.lists, hlist]
      refine ⟨hwf, hk, hs, hu, hne, hp, ?_, fun ix jx _ _ he => he⟩
      intro ix hi
      simp only [if_true, id, if_pos (show InBox ix shape from hi)]
    · have hlt : o < w.objs.length := by
        have := (List.getElem?_eq_some_iff.1 hx).1
        simp at this
        omega
      rw [List.getElem?_append_left hlt] at hx
      rw [List.getElem?_append_left (by rw [← h.objs]; exact hlt)] at hv
      obtain ⟨h1, h2, h3⟩ := h.obj o x v hx hv
      refine ⟨h1, by simp [Machine.add]; omega, ?_⟩
      rw [w.list_addFresh r mem _ (by rw [h.lists, h1]; exact h2), if_neg (by omega)]
      exact h3

theorem Refines.addView {w : World V} {m : Machine V} {pos : Nat → List Int → Option Nat} (h : Refines w m pos)
    {r : Storage V} {v : View V} (hl : v.arr < m.arrs.length) (hs : Shows r (w.list v.arr) v (pos v.arr)) :
    Refines (w.addView v.arr r) (m.addView v) pos := by
  refine ⟨h.lists, by simp [World.addView, Machine.addView, h.objs], h.tie, ?_⟩
  intro o x q hx hq
  simp only [World.addView, Machine.addView] at hx hq
  by_cases ho : o = w.objs.length
  · subst ho
    rw [List.getElem?_append_right (Nat.le_refl _), Nat.sub_self, List.getElem?_cons_zero, Option.some.injEq] at hx
    rw [h.objs, List.getElem?_append_right (Nat.le_refl _), Nat.sub_self, List.getElem?_cons_zero, Option.some.injEq] at hq
    subst hx hq
    exact ⟨rfl, hl, hs⟩
  · have hlt : o < w.objs.length := by
      have := (List.getElem?_eq_some_iff.1 hx).1
      simp at this
      omega
    rw [List.getElem?_append_left hlt] at hx
    rw [List.getElem?_append_left (by rw [← h.objs]; exact hlt)] at hq
    exact h.obj o x q hx hq

/-! ## Writes -/

theorem Machine.write_views (m : Machine V) (a : Nat) (ix : List Int) (x : V) : (m.write a ix x).views = m.views := rfl

theorem Machine.write_arrs (m : Machine V) (a : Nat) (ix : List Int) (x : V) :
    (m.write a ix x).arrs.length = m.arrs.length := by simp [Machine.write]

theorem Machine.elem_write (m : Machine V) (a : Nat) (ix : List Int) (x : V) (b : Nat) (jx : List Int) :
    (m.write a ix x).elem b jx = if b = a ∧ jx = ix then (m.elem b jx).map fun _ => x else m.elem b jx := by
  simp only [Machine.elem, Machine.write, List.getElem?_modify]
  by_cases hb : a = b
  · subst hb
    cases m.arrs[a]? with
    | none => simp
    | some e =>
      by_cases hj : jx = ix <;> simp [hj]
  · simp [hb, Ne.symm hb]

/-- Two machines are the same when their arrays have the same elements. -/
theorem Machine.ext' {m n : Machine V} (hl : m.arrs.length = n.arrs.length) (hv : m.views = n.views)
    (he : ∀ a ix, m.elem a ix = n.elem a ix) : m = n := by
  obtain ⟨ma, mv⟩ := m
  obtain ⟨na, nv⟩ := n
  simp only at hl hv
  subst hv
  congr 1
  apply List.ext_getElem hl
  intro i h1 h2
  funext ix
  have := he i ix
  simpa [Machine.elem, h1, h2] using this

/-- One write to a cell. -/
theorem Refines.write {w : World V} {m : Machine V} {pos : Nat → List Int → Option Nat} (h : Refines w m pos) {o : Nat}
    {x : Obj V} {v : View V} (hx : w.objs[o]? = some x) (hv : m.views[o]? = some v) (ix : List Int)
    (hi : InBox ix v.shape) (c : Nat) (hc : x.desc.cellAt ix = some c) (val : V) :
    Refines (w.put x.addr ((w.list x.addr).set c val)) (m.write v.arr (v.src ix) val) pos := by
  obtain ⟨h1, h2, h3⟩ := h.obj o x v hx hv
  have hadd : x.addr < w.lists.length := by rw [h.lists, h1]; exact h2
  have hpos := h3.cell ix hi
  rw [hc] at hpos
  have hlist := w.list_put x.addr ((w.list x.addr).set c val) hadd
  refine ⟨?_, h.objs, ?_, ?_⟩
  · rw [Machine.write_arrs]; simpa [World.put] using h.lists
  · intro a e he
    simp only [Machine.write, List.getElem?_modify] at he
    cases hm : m.arrs[a]? with
    | none => rw [hm] at he; simp at he
    | some f =>
      have ht := h.tie a f hm
      rw [hm] at he
      simp only [Option.map_eq_map, Option.map_some, Option.some.injEq, Function.comp_apply] at he
      rw [hlist]
      by_cases ha : v.arr = a
      · subst ha
        rw [if_pos rfl] at he
        rw [if_pos h1.symm]
        subst he
        rw [← h1] at ht
        refine ⟨fun jx d hd => by rw [List.length_set]; exact ht.lt jx d (h1.symm ▸ hd), ?_,
          fun ix jx d a b => ht.inj ix jx d (h1.symm ▸ a) (h1.symm ▸ b)⟩
        intro jx
        rw [h1] at ht ⊢
        have hlt := ht.lt _ _ hpos.symm
        by_cases hj : jx = v.src ix
        · subst hj
          rw [if_pos rfl, ht.eq, ← hpos]
          simp [hlt]
        · rw [if_neg hj, ht.eq]
          cases hd : pos v.arr jx with
          | none => rfl
          | some d =>
            simp only [Option.bind_some]
            rw [List.getElem?_set_ne]
            rintro rfl
            exact hj (ht.inj _ _ _ hd hpos.symm)
      · rw [if_neg ha] at he
        rw [if_neg (by rw [h1]; exact fun e => ha e.symm)]
        have : f = e := by simpa using he
        rw [← this]
        exact ht
  · intro p y q hy hq
    obtain ⟨g1, g2, g3⟩ := h.obj p y q hy hq
    refine ⟨g1, by rw [Machine.write_arrs]; exact g2, ?_⟩
    rw [hlist]
    split
    · next e => exact g3.of_length (by rw [List.length_set, e])
    · exact g3

theorem Machine.write_none (m : Machine V) (a : Nat) (ix : List Int) (x : V) (h : m.elem a ix = none) :
    m.write a ix x = m := by
  refine Machine.ext' (Machine.write_arrs m a ix x) rfl ?_
  intro b jx
  rw [Machine.elem_write]
  split
  · next e => rw [e.1, e.2, h]; rfl
  · rfl

theorem World.put_put (w : World V) (a : Nat) (m1 m2 : List V) : (w.put a m1).put a m2 = w.put a m2 := by
  simp [World.put]

theorem World.put_list (w : World V) (a : Nat) : w.put a (w.list a) = w := by
  obtain ⟨ls, os⟩ := w
  simp only [World.put, World.list, World.mk.injEq, and_true]
  apply List.ext_getElem? 
  intro i
  rw [List.getElem?_set]
  split
  · next e =>
    subst e
    split
    · next hl => simp [List.getD_eq_getElem?_getD, hl]
    · next hl => rw [List.getElem?_eq_none (by omega)]
  · rfl

/-- The loop of an assignment. -/
theorem Refines.writes {w : World V} {m : Machine V} {pos : Nat → List Int → Option Nat} {o : Nat} {x : Obj V}
    {v : View V} (hx : w.objs[o]? = some x) {P : Type} (write1 : List V → P → V → Wr V)
    (valueAt : List V → List Int → PyM V) (value : Machine V → List Int → V) (tgt : List Int × P → List Int)
    (n : Nat) (entries : List (List Int × P)) (mem : List V) (hl : mem.length = n) (had : x.addr < w.lists.length)
    (h : Refines (w.put x.addr mem) m pos) (hv : m.views[o]? = some v)
    (h1 : ∀ e ∈ entries, InBox (tgt e) v.shape ∧ ∃ c, x.desc.cellAt (tgt e) = some c ∧
      ∀ mem' : List V, mem'.length = n → ∀ val, write1 mem' e.2 val = ⟨mem'.set c val, none⟩)
    (h2 : ∀ mem' m', mem'.length = n → Refines (w.put x.addr mem') m' pos → m'.views = m.views → ∀ e ∈ entries,
      valueAt mem' e.1 = .ok (value m' e.1)) :
    ∃ mem', writeAll write1 valueAt entries mem = ⟨mem', none⟩ ∧
      Refines (w.put x.addr mem') (entries.foldl (fun m e => m.write v.arr (v.src (tgt e)) (value m e.1)) m) pos := by
  induction entries generalizing mem m with
  | nil => exact ⟨mem, rfl, h⟩
  | cons e entries ih =>
    obtain ⟨g1, c, g2, g3⟩ := h1 e List.mem_cons_self
    have hval := h2 mem m hl h rfl e List.mem_cons_self
    simp only [writeAll, hval, g3 mem hl, List.foldl_cons]
    have hw := h.write (o := o) (x := x) (v := v) (by simpa [World.put] using hx) hv (tgt e) g1 c g2 (value m e.1)
    rw [World.put_put, w.list_put _ _ had, if_pos rfl] at hw
    exact ih _ (by simpa using hl) hw hv (fun e' he' => h1 e' (List.mem_cons_of_mem _ he'))
      (fun mem' m' a b c e' he' => h2 mem' m' a b (by rw [c]; rfl) e' (List.mem_cons_of_mem _ he'))

end Gcs
