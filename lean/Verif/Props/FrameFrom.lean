import Verif.Props.Frame
import Verif.Props.Raising

/-!
# C96: the order of assignments from objects
-/

namespace Gcs

open Spec

variable {V : Type} [DecidableEq V]

theorem ints_cases (vi : List Int) (shape : List Nat) (hp : PosShape shape) :
    ValidItems (vi.map .int) shape ∨ Refused (vi.map .int) shape := by
  induction vi generalizing shape with
  | nil => left; cases shape <;> trivial
  | cons i vi ih =>
    cases shape with
    | nil => right; trivial
    | cons n shape =>
      rcases ih shape (fun m hm => hp m (by simp [hm])) with h | h
      · left
        exact h
      · right
        exact .inr h

/-- Reading an object with any index depends on the cells of the object only. -/
theorem getVal_agree {t : Storage V} {base mem mem' : List V} (h0 : t.WF base) (hb : t.cls ≠ .buffer) (hp : PosShape t.shape)
    (hz : ZeroOff t) (hl : mem'.length = base.length) (hl0 : mem.length = base.length)
    (ha : ∀ c, Reach t base c → mem'[c]? = mem[c]?) (vi : List Int) :
    t.getVal mem' vi = t.getVal mem vi := by
  rcases ints_cases vi t.shape hp with hv | hr
  · have hbi : BufferIndex t (.tuple (vi.map .int)) := by
      cases t with
      | buffer b => exact absurd rfl hb
      | _ => trivial
    have hs : SafeIndex t (.tuple (vi.map .int)) := by
      cases t with
      | dm m d => exact ⟨fun _ _ off _ ho _ => hz.1 off (List.mem_of_getElem? ho), .inl hz.2⟩
      | _ => trivial
    have h := h0.of_length hl0
    have h' := h0.of_length hl
    have same : ∀ ix, InBox ix t.shape → t.at mem' ix = t.at mem ix := by
      intro ix hi
      rw [h'.at_cell ix hi, h.at_cell ix hi]
      cases hx : t.cellAt ix with
      | none => rfl
      | some c => simp only [cellVal, List.getD_eq_getElem?_getD, ha c (cellAt_reach h0 hi hx)]
    unfold Storage.getVal
    rcases h.getItem_ok hp (.tuple (vi.map .int)) hv hbi hs with ⟨g1, g2⟩ | ⟨g1, r, m, g2, -⟩ <;>
      rcases h'.getItem_ok hp (.tuple (vi.map .int)) hv hbi hs with ⟨k1, k2⟩ | ⟨k1, r', m', k2, -⟩
    · rw [g2, k2, same _ (source_inBox (index := .tuple (vi.map .int)) hp hv (by rw [g1]; trivial))]
    · exact absurd g1 k1
    · exact absurd k1 g1
    · rcases g2 with ⟨g2, -⟩ | g2 <;> rcases k2 with ⟨k2, -⟩ | k2 <;> rw [g2, k2] <;> rfl
  · obtain ⟨e, he⟩ := (C06_normalize_index_raises (.tuple (vi.map .int)) t.shape).2 hr
    have key : ∀ mem, t.getItem mem (.tuple (vi.map .int)) = .error e := by
      intro mem
      cases t with
      | buffer b => exact absurd rfl hb
      | strided s => simp only [Storage.shape] at he; simp only [Storage.getItem, Strided.getItem, he, bind, Except.bind]
      | coo s => simp only [Storage.shape] at he; simp only [Storage.getItem, he, bind, Except.bind]
      | flatcoo s => simp only [Storage.shape] at he; simp only [Storage.getItem, he, bind, Except.bind]
      | csr s => simp only [Storage.shape] at he; simp only [Storage.getItem, he, bind, Except.bind]
      | dm m s => simp only [Storage.shape] at he; simp only [Storage.getItem, he, bind, Except.bind]
    unfold Storage.getVal
    rw [key, key]

variable [HasNone V]

/-- The statement reads object number `q`. -/
def Spec.AssignsFrom : Op V → Nat → Prop
  | .setFrom _ _ p, q => p = q
  | _, _ => False

/-- An object that can be assigned: of any class but `Buffer`, no `DM` that is a slice of one, and without empty axes. -/
def Spec.Assignable (w : World V) (z : Obj V) : Prop :=
  z.desc.WF (w.list z.addr) ∧ z.desc.cls ≠ .buffer ∧ ZeroOff z.desc ∧ ∀ n ∈ z.desc.shape, 0 < n

/-- The index of an assignment. -/
def opIndex : Op V → Index
  | .set _ i _ => i
  | .setFrom _ i _ => i
  | _ => .tuple []

/-- The values that an assignment to `x` reads. -/
def opValue (w : World V) (x : Obj V) : Op V → Option (List V → List Int → PyM V)
  | .set _ _ a => some fun _ vi => a.getValue vi
  | .setFrom _ _ q => (w.objs[q]?).map fun z m vi =>
    if vi = [] then .error .type else z.desc.getVal (if z.addr = x.addr then m else w.list z.addr) vi
  | _ => none

theorem step_opValue (w : World V) (op : Op V) (o : Nat) (x : Obj V) (hx : w.objs[o]? = some x) (ho : AssignsTo op o) :
    w.step op = match opValue w x op with
      | none => (w, .noObject)
      | some f => w.write x.addr (x.desc.setItem (w.list x.addr) (opIndex op) f) := by
  cases op with
  | set q i a =>
    obtain rfl : q = o := ho
    rw [w.step_on (.set q i a) q x rfl hx]
    rfl
  | setFrom q i p =>
    obtain rfl : q = o := ho
    rw [w.step_on (.setFrom q i p) q x rfl hx]
    simp only [World.stepOn, opValue, opIndex]
    cases hp : w.objs[p]? with
    | none => rfl
    | some y =>
      simp only [Option.map_some]
      split
      · simp only [Storage.assignShared]
      · simp only [Storage.assignStore]
  | _ => exact ho.elim

/-- What an assignment reads is the same after a change of cells that are not those of the object it reads. -/
theorem opValue_put (w : World V) (x y : Obj V) (ly : y.addr < w.lists.length) (op : Op V) (m : List V)
    (hm : m.length = (w.list y.addr).length) (hc : ∀ c, ¬ Reach y.desc (w.list y.addr) c → m[c]? = (w.list y.addr)[c]?)
    (hs : ∀ q z, AssignsFrom op q → w.objs[q]? = some z → Assignable w z ∧ CellsApart w z y) :
    opValue (w.put y.addr m) x op = opValue w x op := by
  cases op with
  | setFrom o i q =>
    simp only [opValue]
    have ho : (w.put y.addr m).objs = w.objs := rfl
    rw [ho]
    cases hq : w.objs[q]? with
    | none => rfl
    | some z =>
      obtain ⟨⟨h1, h2, h3, h4⟩, h5⟩ := hs q z rfl hq
      simp only [Option.map_some, Option.some.injEq]
      funext l vi
      split
      · rfl
      split
      · rfl
      rw [w.list_put _ _ ly]
      split
      · rename_i he
        rw [he] at h1
        refine (getVal_agree h1 h2 h4 h3 hm rfl (fun c hr => hc c fun hy => ?_) vi).trans (by rw [he])
        rw [← he] at hr hy
        exact h5 he c hr hy
      · rfl
  | _ => rfl

theorem opValue_ignores (w : World V) (x y : Obj V) (he : x.addr = y.addr) (op : Op V) (f : List V → List Int → PyM V)
    (hf : opValue w x op = some f)
    (hs : ∀ q z, AssignsFrom op q → w.objs[q]? = some z → Assignable w z ∧ CellsApart w z y) :
    Ignores f y.desc (w.list y.addr) := by
  intro m m' hm hm' hc vi
  cases op with
  | setFrom o i q =>
    simp only [opValue, Option.map_eq_some_iff] at hf
    obtain ⟨z, hz, rfl⟩ := hf
    obtain ⟨⟨h1, h2, h3, h4⟩, h5⟩ := hs q z rfl hz
    simp only
    split
    · rfl
    split
    · rename_i hzx
      have hzy := hzx.trans he
      have h5 := h5 hzy
      rw [hzy] at h1 h5
      exact getVal_agree h1 h2 h4 h3 hm hm' (fun c hr => hc c (h5 c hr)) vi
    · rfl
  | set o i a =>
    simp only [opValue, Option.some.injEq] at hf
    subst hf
    rfl
  | _ => cases hf

/-- C96, programs: two assignments, of nested lists or of objects, that raise or not, to objects that are not `Buffer`s and have no
common cell, where neither reads an object that has a cell in common with the object the other assigns to, can be exchanged.  The
state after the two is the same, and so is what each of them raises. -/
theorem C96_statements_from (w : World V) (hw : w.Addressed) (op op' : Op V) (o p : Nat) (x y : Obj V) (ho : AssignsTo op o)
    (ho' : AssignsTo op' p) (hx : w.objs[o]? = some x) (hy : w.objs[p]? = some y) (wx : x.desc.WF (w.list x.addr))
    (wy : y.desc.WF (w.list y.addr)) (bx : x.desc.cls ≠ .buffer) (hb : y.desc.cls ≠ .buffer) (ha : CellsApart w x y)
    (hs : ∀ q z, AssignsFrom op q → w.objs[q]? = some z → Assignable w z ∧ CellsApart w z y)
    (hs' : ∀ q z, AssignsFrom op' q → w.objs[q]? = some z → Assignable w z ∧ CellsApart w z x) :
    w.run [op, op'] = w.run [op', op] ∧ ((w.step op).1.step op').2 = (w.step op').2 ∧ ((w.step op').1.step op).2 = (w.step op).2 := by
  have lx := hw x (List.mem_of_getElem? hx)
  have ly := hw y (List.mem_of_getElem? hy)
  have s1 : ∀ m, (w.put y.addr m).step op = _ := fun m => step_opValue (w.put y.addr m) op o x hx ho
  have s2 : ∀ m, (w.put x.addr m).step op' = _ := fun m => step_opValue (w.put x.addr m) op' p y hy ho'
  simp only [World.run]
  rw [step_opValue w op o x hx ho, step_opValue w op' p y hy ho']
  cases hf : opValue w x op with
  | none =>
    cases hg : opValue w y op' with
    | none => simp only [step_opValue w op o x hx ho, step_opValue w op' p y hy ho', hf, hg, and_self]
    | some g =>
      obtain ⟨k1, k2⟩ := C96_frame y.desc _ wy hb (opIndex op') g
      have e := opValue_put w x y ly op _ k1 k2 hs
      simp only [World.write, s1, e, hf, step_opValue w op' p y hy ho', hg, and_self]
  | some f =>
    obtain ⟨j1, j2⟩ := C96_frame x.desc _ wx bx (opIndex op) f
    have e' := opValue_put w y x lx op' _ j1 j2 hs'
    cases hg : opValue w y op' with
    | none => simp only [World.write, s2, e', hg, step_opValue w op o x hx ho, hf, and_self]
    | some g =>
      obtain ⟨k1, k2⟩ := C96_frame y.desc _ wy hb (opIndex op') g
      have e := opValue_put w x y ly op _ k1 k2 hs
      simp only [World.write, s1, s2, e, e', hf, hg, World.list_put _ _ _ lx, World.list_put _ _ _ ly]
      by_cases he : x.addr = y.addr
      · have hF := opValue_ignores w x y he op f hf hs
        have hG := opValue_ignores w y x he.symm op' g hg hs'
        rw [he] at wx hG
        have hd := ha he
        rw [he] at hd
        obtain ⟨h1, h2, h3⟩ := C96_order x.desc y.desc (w.list y.addr) wx wy bx hb hd (opIndex op) (opIndex op') f g hF hG
        simp only [he, if_true, h1, h2, h3, and_self, and_true]
        simp only [World.put, List.set_set]
      · simp only [he, Ne.symm he, if_false, and_true]
        simp only [World.put]
        rw [List.set_comm _ _ he]

/-- An assignment to an object that is not a `Buffer`, of a nested list, an object that can be assigned, or one that does not exist. -/
def Spec.PlainAssignment (w : World V) (op : Op V) : Prop :=
  ∃ o x, AssignsTo op o ∧ w.objs[o]? = some x ∧ x.desc.WF (w.list x.addr) ∧ x.desc.cls ≠ .buffer ∧
    ∀ q z, AssignsFrom op q → w.objs[q]? = some z → Assignable w z

/-- The objects that the two assign to have no common cell, and neither reads an object that has a cell in common with the one the
other assigns to. -/
def Spec.Independent (w : World V) (op op' : Op V) : Prop :=
  ∀ o p x y, AssignsTo op o → AssignsTo op' p → w.objs[o]? = some x → w.objs[p]? = some y →
    CellsApart w x y ∧ (∀ q z, AssignsFrom op q → w.objs[q]? = some z → CellsApart w z y) ∧
    (∀ q z, AssignsFrom op' q → w.objs[q]? = some z → CellsApart w z x)

omit [HasNone V] in
theorem apart_symm {w : World V} {x y : Obj V} (h : CellsApart w x y) : CellsApart w y x := by
  intro he c hy hx
  rw [he] at hy hx
  exact h he.symm c hx hy

theorem independent_symm {w : World V} {op op' : Op V} (h : Independent w op op') : Independent w op' op := by
  intro o p x y h1 h2 h3 h4
  obtain ⟨a, b, c⟩ := h p o y x h2 h1 h4 h3
  exact ⟨apart_symm a, c, b⟩

theorem assignsTo_unique {op : Op V} {o p : Nat} (h : AssignsTo op o) (h' : AssignsTo op p) : o = p := by
  cases op with
  | set => exact h.symm.trans h'
  | setFrom => exact h.symm.trans h'
  | _ => exact h.elim

omit [HasNone V] in
theorem apart_mono [Nontrivial V] {w w' : World V} (hl : ∀ a, (w'.list a).length = (w.list a).length) {x y : Obj V}
    (wx : x.desc.WF (w.list x.addr)) (wy : y.desc.WF (w.list y.addr)) (h : CellsApart w x y) : CellsApart w' x y := by
  intro he c hx hy
  have hx' := reach_of_length (wx.of_length (hl _)) (hl x.addr).symm hx
  rw [he] at hy hx'
  have hy' := reach_of_length (wy.of_length (hl _)) (hl y.addr).symm hy
  rw [← he] at hx' hy'
  exact h he c hx' hy'

/-- C96, programs: any number of assignments of which no two depend on each other have the same effect in any order. -/
theorem C96_any_order [Nontrivial V] (w : World V) (hw : w.Addressed) (ops ops' : List (Op V)) (h : ∀ op ∈ ops, PlainAssignment w op)
    (hi : ops.Pairwise (Independent w)) (hp : ops.Perm ops') : w.run ops = w.run ops' := by
  have step : ∀ (w : World V), w.Addressed → ∀ op, PlainAssignment w op → (w.step op).1.Addressed ∧ (w.step op).1.objs = w.objs ∧
      ∀ a, ((w.step op).1.list a).length = (w.list a).length := by
    rintro w hw op ⟨o, x, h1, h2, h3, h4, -⟩
    obtain ⟨m, g1, g2, -⟩ := assign_step w hw op o x h2 h1 h3 h4
    rw [g1]
    refine ⟨by simpa [World.Addressed, World.put] using hw, rfl, fun a => ?_⟩
    rw [w.list_put _ _ (hw x (List.mem_of_getElem? h2))]
    split
    · rename_i he; rw [g2, he]
    · rfl
  have plain : ∀ (w w' : World V), w'.objs = w.objs → (∀ a, (w'.list a).length = (w.list a).length) → ∀ op, PlainAssignment w op →
      PlainAssignment w' op := by
    rintro w w' ho hl op ⟨o, x, h1, h2, h3, h4, h5⟩
    refine ⟨o, x, h1, by rw [ho]; exact h2, h3.of_length (hl _), h4, fun q z hq hz => ?_⟩
    obtain ⟨k1, k2⟩ := h5 q z hq (by rw [← ho]; exact hz)
    exact ⟨k1.of_length (hl _), k2⟩
  have indep : ∀ (w w' : World V), w'.objs = w.objs → (∀ a, (w'.list a).length = (w.list a).length) → ∀ op op',
      PlainAssignment w op → PlainAssignment w op' → Independent w op op' → Independent w' op op' := by
    rintro w w' ho hl op op' ⟨o, x, h1, h2, h3, h4, h5⟩ ⟨p, y, k1, k2, k3, k4, k5⟩ hi o' p' x' y' e1 e2 e3 e4
    obtain rfl := assignsTo_unique h1 e1
    obtain rfl := assignsTo_unique k1 e2
    rw [ho] at e3 e4
    rw [h2, Option.some.injEq] at e3
    rw [k2, Option.some.injEq] at e4
    subst e3 e4
    obtain ⟨a, b, c⟩ := hi o p x y h1 k1 h2 k2
    refine ⟨apart_mono hl h3 k3 a, fun q z hq hz => ?_, fun q z hq hz => ?_⟩
    · rw [ho] at hz
      exact apart_mono hl (h5 q z hq hz).1 k3 (b q z hq hz)
    · rw [ho] at hz
      exact apart_mono hl (k5 q z hq hz).1 h3 (c q z hq hz)
  induction hp generalizing w with
  | nil => rfl
  | cons op hp ih =>
    rename_i l l'
    obtain ⟨g1, g2, g3⟩ := step w hw op (h op (by simp))
    rw [List.pairwise_cons] at hi
    refine ih _ g1 (fun op' ho => plain w _ g2 g3 op' (h op' (by simp [ho]))) (hi.2.imp_of_mem fun ha hb hab => ?_)
    exact indep w _ g2 g3 _ _ (h _ (by simp [ha])) (h _ (by simp [hb])) hab
  | swap op op' l =>
    obtain ⟨o, x, h1, h2, h3, h4, h5⟩ := h op (by simp)
    obtain ⟨p, y, k1, k2, k3, k4, k5⟩ := h op' (by simp)
    rw [List.pairwise_cons] at hi
    obtain ⟨a, b, c⟩ := hi.1 op (by simp) p o y x k1 h1 k2 h2
    have := (C96_statements_from w hw op' op p o y x k1 h1 k2 h2 k3 h3 k4 h4 a (fun q z hq hz => ⟨k5 q z hq hz, b q z hq hz⟩)
      (fun q z hq hz => ⟨h5 q z hq hz, c q z hq hz⟩)).1
    simp only [World.run] at this ⊢
    rw [this]
  | trans hp1 hp2 ih1 ih2 =>
    rw [ih1 w hw h hi]
    exact ih2 w hw (fun op ho => h op (hp1.mem_iff.2 ho)) ((hp1.pairwise_iff independent_symm).1 hi)

/-! ## A case -/

/-- The rows of `1 - 3` and `- 5 -`, and a vector on another list. -/
def rowsWorld : World (Option Int) :=
  ⟨[sampleCells, [none, none, none]],
   [⟨0, .strided ⟨[3], [1], ⟨6, 0, none⟩⟩⟩, ⟨0, .strided ⟨[3], [1], ⟨3, 3, none⟩⟩⟩, ⟨1, .strided ⟨[3], [1], ⟨3, 0, none⟩⟩⟩]⟩

theorem vector_wf (size offset : Nat) (mem : List (Option Int)) (h : 3 ≤ size)
    (hm : Buffer.WF (⟨size, offset, none⟩ : Buffer (Option Int)) mem) :
    (Storage.strided ⟨[3], [1], ⟨size, offset, none⟩⟩).WF mem := by
  refine (⟨rfl, hm, ?_⟩ : Strided.WF ⟨[3], [1], ⟨size, offset, none⟩⟩ mem)
  rintro (_ | ⟨i, _ | ⟨j, ix⟩⟩) hi
  · exact hi.elim
  · obtain ⟨⟨h1, h2⟩, -⟩ := hi
    simp only [address]
    omega
  · exact hi.2.elim

/-- A case of C96_statements_from: with the rows `r` and `t` and the vector `u`, `r[:] = t` and `u[1:] = t` can be exchanged. -/
example :
    let all : Index := .one (.slice ⟨none, none, none⟩)
    let tail : Index := .one (.slice ⟨some 1, none, none⟩)
    rowsWorld.run [.setFrom 0 all 1, .setFrom 2 tail 1] = rowsWorld.run [.setFrom 2 tail 1, .setFrom 0 all 1] ∧
    (rowsWorld.run [.setFrom 0 all 1, .setFrom 2 tail 1]).lists =
      [[none, some 5, none, none, some 5, none], [none, none, some 5]] := by
  intro all tail
  have w0 := vector_wf 6 0 sampleCells (by decide) (by simp [Buffer.WF, sampleCells])
  have w1 := vector_wf 3 3 sampleCells (by decide) (by simp [Buffer.WF, sampleCells])
  have w2 := vector_wf 3 0 [none, none, none] (by decide) (by simp [Buffer.WF])
  have apart := (C96_slices sampleStrided sampleCells sampleStrided_wf sampleStrided_distinct (by decide) (rowIndex 0) (rowIndex 1)
    (by simp [rowIndex, items, ValidItems, sampleStrided]) (by simp [rowIndex, items, ValidItems, sampleStrided]) sample_rows_apart
    (.strided ⟨[3], [1], ⟨6, 0, none⟩⟩) (.strided ⟨[3], [1], ⟨3, 3, none⟩⟩) (by decide +kernel) (by decide +kernel)).2.2
  refine ⟨(C96_statements_from rowsWorld ?_ (.setFrom 0 all 1) (.setFrom 2 tail 1) 0 2 _ _ rfl rfl rfl rfl w0 w2 (by decide) (by decide)
    ?_ ?_ ?_).1, by decide +kernel⟩
  · intro x hx
    simp only [rowsWorld, List.mem_cons, List.not_mem_nil, or_false] at hx
    rcases hx with rfl | rfl | rfl <;> simp [rowsWorld]
  · intro he
    cases he
  · rintro q z rfl hz
    cases hz
    exact ⟨⟨w1, by decide, trivial, by decide⟩, fun he => by cases he⟩
  · rintro q z rfl hz
    cases hz
    exact ⟨⟨w1, by decide, trivial, by decide⟩, fun _ c h1 h2 => apart c h2 h1⟩

/-- A case of C96_any_order: `r[None] = []` and `u[None] = [4]` (too short: both raise, the second after one write) in any order. -/
example (ops : List (Op (Option Int))) (h : ops.Perm [.set 0 (.one .none) (.seq []), .set 2 (.one .none) (.seq [.leaf (some 4)])]) :
    (rowsWorld.run ops).lists = [sampleCells, [some 4, none, none]] := by
  have w0 := vector_wf 6 0 sampleCells (by decide) (by simp [Buffer.WF, sampleCells])
  have w2 := vector_wf 3 0 [none, none, none] (by decide) (by simp [Buffer.WF])
  have := C96_any_order rowsWorld (by
      intro x hx
      simp only [rowsWorld, List.mem_cons, List.not_mem_nil, or_false] at hx
      rcases hx with rfl | rfl | rfl <;> simp [rowsWorld])
    [.set 0 (.one .none) (.seq []), .set 2 (.one .none) (.seq [.leaf (some 4)])] ops (by
      intro op hop
      simp only [List.mem_cons, List.not_mem_nil, or_false] at hop
      rcases hop with rfl | rfl
      · exact ⟨0, _, rfl, rfl, w0, by decide, fun _ _ hq => hq.elim⟩
      · exact ⟨2, _, rfl, rfl, w2, by decide, fun _ _ hq => hq.elim⟩) (by
      refine .cons (fun b hb => ?_) (.cons (fun _ hb => by cases hb) .nil)
      rw [List.mem_singleton] at hb
      subst hb
      rintro o p x y rfl rfl hx hy
      cases hx
      cases hy
      exact ⟨fun he => (by cases he), fun _ _ hq => hq.elim, fun _ _ hq => hq.elim⟩) h.symm
  rw [← this]
  decide +kernel

end Gcs
