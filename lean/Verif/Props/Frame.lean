import Verif.Lemmas.Confined
import Verif.Props.Sharing

/-!
# C96: an assignment stays inside the object

`Spec.CellAt`, `Spec.CellOf` and `Spec.Reach` (Lemmas/Confined.lean) say which cells of the list are those of an object,
in terms of reading only: whatever is written to the cell is read at the index.
-/

namespace Gcs

open Spec

variable {V : Type} [DecidableEq V]

/-- No cell is one of both objects, which are on one list. -/
def Spec.NoCommonCell (s t : Storage V) (mem : List V) : Prop := ∀ c, Reach s mem c → ¬ Reach t mem c

/-- The values do not depend on the cells of `t`. -/
def Spec.Ignores (f : List V → List Int → PyM V) (t : Storage V) (mem : List V) : Prop :=
  ∀ m m', m.length = mem.length → m'.length = mem.length → (∀ c, ¬ Reach t mem c → m[c]? = m'[c]?) → ∀ vi, f m vi = f m' vi

/-- The cell of an element that the index selects. -/
def Spec.CellUnder (s : Storage V) (mem : List V) (index : Index) (c : Nat) : Prop :=
  ∃ j, InBox j (selShape (items index) s.shape) ∧ CellAt s mem (selSource (items index) s.shape j) c

/-- C96.  An assignment `s[index] = ...` to an object of any class but `Buffer` leaves the list as long as it is and does
not change a cell that is not one of the object: whatever the index, also one that is refused, whatever the values, also
when reading one of them raises or they are read from the list that is being written. -/
theorem C96_frame (s : Storage V) (mem : List V) (h : s.WF mem) (hb : s.cls ≠ .buffer) (index : Index)
    (valueAt : List V → List Int → PyM V) :
    (s.setItem mem index valueAt).mem.length = mem.length ∧
    ∀ c, ¬ Reach s mem c → (s.setItem mem index valueAt).mem[c]? = mem[c]? := by
  obtain ⟨W, e, h1, h2⟩ := (h.confined hb index).writes valueAt mem rfl
  rw [h1]
  refine ⟨setCells_length _ _, fun c hc => setCells_not_mem _ _ _ fun hx => ?_⟩
  obtain ⟨x, hx', rfl⟩ := List.mem_map.1 hx
  exact hc (h2 x hx').1

/-- C96, the values: a cell has its old value or one that was read from the assigned object. -/
theorem C96_values (s : Storage V) (mem : List V) (h : s.WF mem) (hb : s.cls ≠ .buffer) (index : Index)
    (valueAt : List V → List Int → PyM V) (c : Nat) :
    (s.setItem mem index valueAt).mem[c]? = mem[c]? ∨
    ∃ l vi v, l.length = mem.length ∧ valueAt l vi = .ok v ∧ (s.setItem mem index valueAt).mem[c]? = some v := by
  obtain ⟨W, e, h1, h2⟩ := (h.confined hb index).writes valueAt mem rfl
  rw [h1]
  rcases setCells_get mem W c with h | ⟨v, hv, h⟩
  · exact .inl h
  · obtain ⟨_, l, vi, g1, g2⟩ := h2 _ hv
    exact .inr ⟨l, vi, v, g1, g2, h⟩

/-- C96, another object: it has the same elements as before, if it has no cell in common with the one assigned to. -/
theorem C96_others (s t : Storage V) (mem : List V) (h : s.WF mem) (hb : s.cls ≠ .buffer) (ht : t.WF mem)
    (hd : NoCommonCell s t mem) (index : Index) (valueAt : List V → List Int → PyM V) (ix : List Int)
    (hi : InBox ix t.shape) (v : V) :
    Reads t (s.setItem mem index valueAt).mem ix v ↔ Reads t mem ix v := by
  obtain ⟨h1, h2⟩ := C96_frame s mem h hb index valueAt
  have e := ht.reads_agree h1 (fun c hc => h2 c fun hs => hd c hs hc) ix hi
  have a := (ht.of_length h1).reads ix hi
  have b := ht.reads ix hi
  rw [e] at a
  constructor <;> intro hr
  · rw [← hr.at_eq, e]; exact b
  · rw [← hr.at_eq]; exact a

/-- C96, the order of two assignments: if the objects have no cell in common and the values of neither are read from the
cells of the other object, the order does not matter: the list ends with the same values, and each of the two
raises what it raises when it is the first. -/
theorem C96_order (s t : Storage V) (mem : List V) (hs : s.WF mem) (ht : t.WF mem) (bs : s.cls ≠ .buffer)
    (bt : t.cls ≠ .buffer) (hd : NoCommonCell s t mem) (i k : Index) (f g : List V → List Int → PyM V)
    (hf : Ignores f t mem) (hg : Ignores g s mem) :
    (t.setItem (s.setItem mem i f).mem k g).mem = (s.setItem (t.setItem mem k g).mem i f).mem ∧
    (t.setItem (s.setItem mem i f).mem k g).err = (t.setItem mem k g).err ∧
    (s.setItem (t.setItem mem k g).mem i f).err = (s.setItem mem i f).err :=
  (hs.confined bs i).swap (ht.confined bt k) hd f g hf hg mem rfl

theorem cellUnder_iff {s : Strided V} {mem : List V} (h : s.WF mem) (hp : PosShape s.shape) (index : Index)
    (hv : ValidItems (items index) s.shape) :
    (Storage.strided s).Confined mem.length index (CellUnder (.strided s) mem index) := by
  have h' : (Storage.strided s).WF mem := h
  refine (Strided.confined_sel h hp index hv).mono ?_
  rintro c ⟨j, hj, rfl⟩
  exact ⟨j, hj, cellAt_cell h' (source_inBox hp hv hj) rfl⟩

/-- C96, for `Strided`: only cells of elements that the index selects change. -/
theorem C96_selected (s : Strided V) (mem : List V) (h : s.WF mem) (hp : ∀ n ∈ s.shape, 0 < n) (index : Index)
    (hv : ValidItems (items index) s.shape) (valueAt : List V → List Int → PyM V) (c : Nat)
    (hc : ¬ CellUnder (.strided s) mem index c) :
    ((Storage.strided s).setItem mem index valueAt).mem[c]? = mem[c]? := by
  obtain ⟨W, e, h1, h2⟩ := (cellUnder_iff h hp index hv).writes valueAt mem rfl
  rw [h1]
  refine setCells_not_mem _ _ _ fun hx => ?_
  obtain ⟨x, hx', rfl⟩ := List.mem_map.1 hx
  exact hc (h2 x hx').1

/-- C96, for one `Strided` and two selections without a common element: `s[i] = x` and `s[k] = y` can be exchanged. -/
theorem C96_two_parts (s : Strided V) (mem : List V) (h : s.WF mem) (ha : DistinctAddresses s.shape s.strides)
    (hp : ∀ n ∈ s.shape, 0 < n) (i k : Index) (hi : ValidItems (items i) s.shape) (hk : ValidItems (items k) s.shape)
    (hd : ∀ ix, Selected (items i) s.shape ix → ¬ Selected (items k) s.shape ix) (x y : Nested V) :
    let o := Storage.strided s
    (o.assign (o.assign mem i x).mem k y).mem = (o.assign (o.assign mem k y).mem i x).mem ∧
    (o.assign (o.assign mem i x).mem k y).err = (o.assign mem k y).err ∧
    (o.assign (o.assign mem k y).mem i x).err = (o.assign mem i x).err := by
  refine (Strided.confined_sel h hp i hi).swap (Strided.confined_sel h hp k hk) ?_ _ _ (fun _ _ _ _ _ _ => rfl)
    (fun _ _ _ _ _ _ => rfl) mem rfl
  rintro c ⟨j, hj, rfl⟩ ⟨l, hl, he⟩
  have := Strided.cell_inj h ha (source_inBox hp hi hj) (source_inBox hp hk hl) he
  exact hd _ ⟨j, hj, rfl⟩ ⟨l, hl, this.symm⟩

theorem cellAt_unique [Nontrivial V] {s : Storage V} {mem : List V} (h : s.WF mem) {ix : List Int} (hi : InBox ix s.shape)
    {c : Nat} (hc : CellAt s mem ix c) : s.cellAt ix = some c := by
  obtain ⟨hl, hc⟩ := hc
  have key : ∀ v, cellVal (mem.set c v) s.unspec (s.cellAt ix) = v := by
    intro v
    rw [← (h.of_length (by simp) : s.WF (mem.set c v)).at_cell ix hi]
    exact (hc v).at_eq
  obtain ⟨a, b, hab⟩ := exists_pair_ne V
  have ha := key a
  have hb := key b
  cases hx : s.cellAt ix with
  | none =>
    rw [hx] at ha hb
    exact absurd (ha.symm.trans hb) hab
  | some c' =>
    rw [hx] at ha hb
    simp only [cellVal, List.getD_eq_getElem?_getD] at ha hb
    by_cases he : c = c'
    · rw [he]
    · rw [List.getElem?_set_ne he] at ha hb
      exact absurd (ha.symm.trans hb) hab

theorem reach_of_length [Nontrivial V] {s : Storage V} {mem mem' : List V} (h : s.WF mem) (hl : mem'.length = mem.length)
    {c : Nat} (hc : Reach s mem c) : Reach s mem' c := by
  have cells : ∀ (s : Storage V), s.WF mem → CellOf s mem c → CellOf s mem' c := by
    rintro s h ⟨ix, hi, hc⟩
    exact ⟨ix, hi, cellAt_cell (h.of_length hl) hi (cellAt_unique h hi hc)⟩
  induction s with
  | dm m d ih =>
    simp only [Reach] at hc ⊢
    split at hc
    · rename_i hd
      rw [if_pos hd]
      exact cells _ h hc
    · rename_i hd
      rw [if_neg hd]
      exact ih h.2 hc
  | _ => exact cells _ h hc

/-- C96, slices: two slices of one `Strided` that select no common element have no common cell. -/
theorem C96_slices [Nontrivial V] (s : Strided V) (mem : List V) (h : s.WF mem) (ha : DistinctAddresses s.shape s.strides)
    (hp : ∀ n ∈ s.shape, 0 < n) (i k : Index) (hi : ValidItems (items i) s.shape) (hk : ValidItems (items k) s.shape)
    (hd : ∀ ix, Selected (items i) s.shape ix → ¬ Selected (items k) s.shape ix) (r t : Storage V)
    (hr : (Storage.strided s).getItem mem i = .ok (.view r)) (ht : (Storage.strided s).getItem mem k = .ok (.view t)) :
    r.WF mem ∧ t.WF mem ∧ NoCommonCell r t mem := by
  have one : ∀ (i : Index) (r : Storage V), ValidItems (items i) s.shape →
      (Storage.strided s).getItem mem i = .ok (.view r) → r.WF mem ∧
        ∀ c, Reach r mem c → ∃ ix, Selected (items i) s.shape ix ∧ InBox ix s.shape ∧ c = s.cell ix := by
    intro i r hi hr
    rcases Strided.getItem_slice h hp i hi with ⟨_, h2⟩ | ⟨_, r', h2, h3, h4, _, h6, _⟩
    · simp only [Storage.getItem, h2, bind, Except.bind, pure, Except.pure] at hr
      simp at hr
    · simp only [Storage.getItem, h2, bind, Except.bind, pure, Except.pure, Except.ok.injEq, Res.view.injEq] at hr
      subst hr
      have h3' : (Storage.strided r').WF mem := h3
      refine ⟨h3', ?_⟩
      rintro c ⟨j, hj, hc⟩
      have := cellAt_unique h3' hj hc
      simp only [Storage.cellAt, Option.some.injEq] at this
      obtain ⟨b1, b2⟩ := h6 j hj
      exact ⟨_, ⟨j, by rw [← h4]; exact hj, rfl⟩, b1, by rw [← this, b2]⟩
  obtain ⟨r1, r2⟩ := one i r hi hr
  obtain ⟨t1, t2⟩ := one k t hk ht
  refine ⟨r1, t1, fun c hc hc' => ?_⟩
  obtain ⟨ix, a1, a2, rfl⟩ := r2 c hc
  obtain ⟨jx, b1, b2, he⟩ := t2 _ hc'
  have := Strided.cell_inj h ha a2 b2 he
  subst this
  exact hd ix a1 b1

/-! ## Programs -/

variable [HasNone V]

/-- Two objects of a program that are on different lists, or have no common cell. -/
def Spec.CellsApart (w : World V) (x y : Obj V) : Prop := x.addr = y.addr → NoCommonCell x.desc y.desc (w.list x.addr)

/-- The statement is an assignment to object number `o`. -/
def Spec.AssignsTo : Op V → Nat → Prop
  | .set o _ _, q => o = q
  | .setFrom o _ _, q => o = q
  | _, _ => False

/-- C96, programs: in any state of a program, for two objects that are not `Buffer`s and have no common cell, the
statements `o[i] = a` and `p[k] = b` with any indices and any nested lists, fitting or not, can be exchanged.  The state
after the two is the same, and so is what each of them raises. -/
theorem C96_statements (w : World V) (hw : w.Addressed) (o p : Nat) (x y : Obj V) (hx : w.objs[o]? = some x)
    (hy : w.objs[p]? = some y) (wx : x.desc.WF (w.list x.addr)) (wy : y.desc.WF (w.list y.addr))
    (bx : x.desc.cls ≠ .buffer) (hb : y.desc.cls ≠ .buffer) (ha : CellsApart w x y) (i k : Index) (a b : Nested V) :
    w.run [.set o i a, .set p k b] = w.run [.set p k b, .set o i a] ∧
    ((w.step (.set o i a)).1.step (.set p k b)).2 = (w.step (.set p k b)).2 ∧
    ((w.step (.set p k b)).1.step (.set o i a)).2 = (w.step (.set o i a)).2 := by
  have one : ∀ (w : World V) (o : Nat) (x : Obj V) (i : Index) (a : Nested V), w.objs[o]? = some x →
      w.step (.set o i a) = w.write x.addr (x.desc.assign (w.list x.addr) i a) := by
    intro w o x i a hx
    rw [w.step_on (.set o i a) o x rfl hx]
    rfl
  have lx := hw x (List.mem_of_getElem? hx)
  have ly := hw y (List.mem_of_getElem? hy)
  simp only [World.run]
  rw [one w o x i a hx, one w p y k b hy]
  simp only [World.write]
  rw [one (w.put x.addr _) p y k b hy, one (w.put y.addr _) o x i a hx]
  simp only [World.write, World.list_put _ _ _ lx, World.list_put _ _ _ ly]
  by_cases he : x.addr = y.addr
  · rw [he] at wx
    have hd := ha he
    rw [he] at hd
    obtain ⟨h1, h2, h3⟩ := C96_order x.desc y.desc (w.list y.addr) wx wy bx hb hd i k (fun _ vi => a.getValue vi)
      (fun _ vi => b.getValue vi) (fun _ _ _ _ _ _ => rfl) (fun _ _ _ _ _ _ => rfl)
    simp only [he, if_true, Storage.assign, h1, h2, h3, and_self, and_true]
    simp only [World.put, List.set_set]
  · simp only [he, Ne.symm he, if_false, and_true]
    simp only [World.put]
    rw [List.set_comm _ _ he]

theorem assign_step (w : World V) (hw : w.Addressed) (op : Op V) (o : Nat) (x : Obj V) (hx : w.objs[o]? = some x)
    (ho : AssignsTo op o) (wx : x.desc.WF (w.list x.addr)) (bx : x.desc.cls ≠ .buffer) :
    ∃ m, (w.step op).1 = w.put x.addr m ∧ m.length = (w.list x.addr).length ∧
      ∀ c, ¬ Reach x.desc (w.list x.addr) c → m[c]? = (w.list x.addr)[c]? := by
  have lx := hw x (List.mem_of_getElem? hx)
  cases op with
  | set q i a =>
    obtain rfl : q = o := ho
    rw [w.step_on (.set q i a) q x rfl hx]
    exact ⟨_, rfl, C96_frame x.desc _ wx bx i _⟩
  | setFrom q i p =>
    obtain rfl : q = o := ho
    rw [w.step_on (.setFrom q i p) q x rfl hx]
    simp only [World.stepOn]
    cases hp : w.objs[p]? with
    | none =>
      refine ⟨w.list x.addr, ?_, rfl, fun _ _ => rfl⟩
      simp [World.put, World.list, List.getD_eq_getElem?_getD, lx]
    | some y =>
      simp only
      split
      · exact ⟨_, rfl, C96_frame x.desc _ wx bx i _⟩
      · exact ⟨_, rfl, C96_frame x.desc _ wx bx i _⟩
  | _ => exact ho.elim

/-- C96, programs: any number of assignments, of nested lists and of objects, that raise or not, to objects that have no
cell in common with `p`, leave all elements of `p` as they are. -/
theorem C96_untouched [Nontrivial V] (w : World V) (hw : w.Addressed) (p : Nat) (y : Obj V) (hy : w.objs[p]? = some y)
    (wy : y.desc.WF (w.list y.addr)) (ops : List (Op V))
    (ho : ∀ op ∈ ops, ∃ o x, AssignsTo op o ∧ w.objs[o]? = some x ∧ x.desc.WF (w.list x.addr) ∧ x.desc.cls ≠ .buffer ∧
      CellsApart w x y) (ix : List Int) (hi : InBox ix y.desc.shape) (v : V) :
    ReadsAt (w.run ops) p ix v ↔ ReadsAt w p ix v := by
  induction ops generalizing w with
  | nil => rfl
  | cons op ops ih =>
    obtain ⟨o, x, h1, h2, h3, h4, h5⟩ := ho op (by simp)
    obtain ⟨m, g1, g2, g3⟩ := assign_step w hw op o x h2 h1 h3 h4
    have lx := hw x (List.mem_of_getElem? h2)
    have hlen : ∀ a, ((w.put x.addr m).list a).length = (w.list a).length := by
      intro a
      rw [w.list_put _ _ lx]
      split
      · rename_i he; rw [g2, he]
      · rfl
    have hy' : (w.put x.addr m).objs[p]? = some y := hy
    simp only [World.run]
    rw [g1, ih (w.put x.addr m) (by simpa [World.Addressed, World.put] using hw) hy' (wy.of_length (hlen _)) ?_]
    · have hag : y.desc.at ((w.put x.addr m).list y.addr) ix = y.desc.at (w.list y.addr) ix := by
        apply wy.reads_agree (hlen _) _ ix hi
        intro c hc
        rw [w.list_put _ _ lx]
        split
        · rename_i he
          rw [he] at hc ⊢
          exact g3 c fun hx => h5 he.symm c hx hc
        · rfl
      have r1 := wy.reads ix hi
      have r2 := (wy.of_length (hlen y.addr)).reads ix hi
      constructor
      · rintro ⟨z, hz, hr⟩
        rw [hy', Option.some.injEq] at hz
        subst hz
        exact ⟨_, hy, by rw [← hr.at_eq, hag]; exact r1⟩
      · rintro ⟨z, hz, hr⟩
        rw [hy, Option.some.injEq] at hz
        subst hz
        exact ⟨_, hy', by rw [← hr.at_eq, ← hag]; exact r2⟩
    · intro op' hop'
      obtain ⟨o', x', k1, k2, k3, k4, k5⟩ := ho op' (by simp [hop'])
      refine ⟨o', x', k1, k2, k3.of_length (hlen _), k4, fun he c hc hc' => ?_⟩
      have hl := hlen x'.addr
      refine k5 he c (reach_of_length (k3.of_length hl) hl.symm hc) ?_
      rw [he] at hc' hl ⊢
      exact reach_of_length (wy.of_length hl) hl.symm hc'

/-! ## Cases -/

/-- Row `i` of an array with two axes. -/
def rowIndex (i : Int) : Index := .tuple [.int i]

theorem sample_rows_apart : ∀ ix, Selected (items (rowIndex 0)) [2, 3] ix → ¬ Selected (items (rowIndex 1)) [2, 3] ix := by
  rintro ix ⟨j, _, rfl⟩ ⟨k, _, h⟩
  simp [rowIndex, items, selSource] at h

/-- A case of C96: the rows of `1 - 3` and `- 5 -` are slices without a common cell.  `r[:] = [7]` raises after one
write, in the row `r`; the other row `t` is as it was, and `t[1:] = [8, 9]` before or after it makes no difference. -/
example :
    let o := Storage.strided sampleStrided
    let r := Storage.strided ⟨[3], [1], ⟨6, 0, none⟩⟩
    let t := Storage.strided ⟨[3], [1], ⟨3, 3, none⟩⟩
    let all : Index := .one (.slice ⟨none, none, none⟩)
    let tail : Index := .one (.slice ⟨some 1, none, none⟩)
    sampleStrided.WF sampleCells ∧ DistinctAddresses sampleStrided.shape sampleStrided.strides ∧
    o.getItem sampleCells (rowIndex 0) = .ok (.view r) ∧ o.getItem sampleCells (rowIndex 1) = .ok (.view t) ∧
    NoCommonCell r t sampleCells ∧
    r.assign sampleCells all (.seq [.leaf (some 7)]) = ⟨[some 7, none, some 3, none, some 5, none], some .index⟩ ∧
    t.assign [some 7, none, some 3, none, some 5, none] tail (.seq [.leaf (some 8), .leaf (some 9)])
      = ⟨[some 7, none, some 3, none, some 8, some 9], none⟩ :=
  ⟨sampleStrided_wf, sampleStrided_distinct, by decide +kernel, by decide +kernel,
    (C96_slices sampleStrided sampleCells sampleStrided_wf sampleStrided_distinct (by decide) (rowIndex 0) (rowIndex 1)
      (by simp [rowIndex, items, ValidItems, sampleStrided]) (by simp [rowIndex, items, ValidItems, sampleStrided]) sample_rows_apart _ _
      (by decide +kernel) (by decide +kernel)).2.2, by decide +kernel, by decide +kernel⟩

/-- A case of C96 for a `DM` around a `COO` that is on a part of its list: an int on every axis writes all elements that the
`COO` stores, and the last cell stays. -/
example :
    let s := Storage.dm sampleDM (.coo sampleCOO)
    let mem : List (Option Int) := [some 1, some 3, some 5, some 14]
    s.WF mem ∧ s.cls ≠ .buffer ∧
    s.setItem mem (.tuple [.int 0, .int 0]) (fun _ _ => .ok (some 7)) = ⟨[some 7, some 7, some 7, some 14], none⟩ :=
  ⟨⟨sampleDM_wf.1.1, sampleCOO_wf.1, by simp [Buffer.WF, sampleCOO]⟩, by decide, by decide +kernel⟩

end Gcs
