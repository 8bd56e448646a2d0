import Verif.Model.Heap
import Verif.Lemmas.Copy

/-! What one statement of a program does to the lists and the objects. -/

namespace Gcs

variable {V : Type}

/-! ## Assignments keep the length of the list -/

theorem Buffer.write1_length (b : Buffer V) (mem : List V) (p : Int) (v : V) :
    (b.write1 mem p v).mem.length = mem.length := by
  unfold Buffer.write1 Buffer.setInt pySet
  split <;> split <;> simp [Wr.ofPyM]

theorem writeAll_length {P : Type} (write1 : List V → P → V → Wr V)
    (hw : ∀ mem p v, (write1 mem p v).mem.length = mem.length) (valueAt : List V → List Int → PyM V)
    (es : List (List Int × P)) (mem : List V) : (writeAll write1 valueAt es mem).mem.length = mem.length := by
  induction es generalizing mem with
  | nil => rfl
  | cons e es ih =>
    obtain ⟨vi, p⟩ := e
    unfold writeAll
    cases valueAt mem vi with
    | error e => rfl
    | ok v =>
      simp only
      cases (write1 mem p v).err with
      | some e => exact hw mem p v
      | none => simp only [ih, hw]

theorem Storage.setItem_length (s : Storage V) (mem : List V) (index : Index) (valueAt : List V → List Int → PyM V) :
    (s.setItem mem index valueAt).mem.length = mem.length := by
  induction s generalizing mem index valueAt with
  | buffer b =>
    simp only [Storage.setItem]
    split
    · rfl
    · cases valueAt mem [] with
      | error e => rfl
      | ok v => exact b.write1_length mem _ v
  | strided s =>
    simp only [Storage.setItem, Strided.setItem]
    split
    · rfl
    · exact writeAll_length _ s.data.write1_length _ _ _
  | coo c =>
    simp only [Storage.setItem]
    split
    · rfl
    · exact writeAll_length _ c.data.write1_length _ _ _
  | flatcoo c =>
    simp only [Storage.setItem]
    split
    · rfl
    · exact writeAll_length _ c.data.write1_length _ _ _
  | csr c =>
    simp only [Storage.setItem]
    split
    · rfl
    · exact writeAll_length _ c.data.write1_length _ _ _
  | dm m d ih =>
    simp only [Storage.setItem]
    split
    · rfl
    · exact writeAll_length _ (fun mem p v => ih mem _ _) _ _ _

/-! ## One statement -/

/-- What a statement can do: nothing; a new object with a new list; a new object on the list of the object that
the statement is about; new contents, of the same length, for the list of that object. -/
inductive Effect (w : World V) (op : Op V) : World V → Prop
  | none : Effect w op w
  | fresh (s : Storage V) (mem : List V) : Effect w op (w.addFresh s mem)
  | view (o : Nat) (x : Obj V) (s : Storage V) (ho : op.on = some o) (hx : w.objs[o]? = some x) :
    Effect w op (w.addView x.addr s)
  | put (o : Nat) (x : Obj V) (m : List V) (ho : op.on = some o) (hx : w.objs[o]? = some x)
    (hl : m.length = (w.list x.addr).length) : Effect w op (w.put x.addr m)

theorem World.create_effect (w : World V) (op : Op V) (r : PyM (Storage V × List V)) : Effect w op (w.create r).1 := by
  cases r with
  | error e => exact .none
  | ok r => exact .fresh _ _

variable [DecidableEq V] [HasNone V]

theorem World.stepOn_effect (w : World V) (op : Op V) (o : Nat) (x : Obj V) (ho : op.on = some o)
    (hx : w.objs[o]? = some x) : Effect w op (w.stepOn x op).1 := by
  cases op with
  | make => exact .none
  | makeDM => exact .none
  | get o' index =>
    simp only [World.stepOn]
    cases x.desc.getItem (w.list x.addr) index with
    | error e => exact .none
    | ok r => cases r with
      | val v => exact .none
      | view s => exact .view o x s ho hx
      | fresh s mem => exact .fresh s mem
  | convert o' cls u =>
    simp only [World.stepOn]
    cases fromObject cls (.store x.desc (w.list x.addr)) u with
    | error e => exact .none
    | ok r => cases r with
      | same => exact .view o x _ ho hx
      | fresh s mem => exact .fresh s mem
  | convertDM => exact w.create_effect _ _
  | copy => exact w.create_effect _ _
  | set o' index value => exact .put o x _ ho hx (Storage.setItem_length _ _ _ _)
  | setFrom o' index p =>
    simp only [World.stepOn]
    cases w.objs[p]? with
    | none => exact .none
    | some y =>
      simp only
      split
      · exact .put o x _ ho hx (Storage.setItem_length _ _ _ _)
      · exact .put o x _ ho hx (Storage.setItem_length _ _ _ _)

/-- Statements about an object. -/
theorem World.step_on (w : World V) (op : Op V) (o : Nat) (x : Obj V) (ho : op.on = some o)
    (hx : w.objs[o]? = some x) : w.step op = w.stepOn x op := by
  cases op <;> simp only [Op.on, Option.some.injEq, reduceCtorEq] at ho <;> subst ho <;>
    simp only [World.step, Op.on, Option.bind_some, hx]

theorem World.step_effect (w : World V) (op : Op V) : Effect w op (w.step op).1 := by
  cases ho : op.on with
  | none =>
    cases op <;> simp only [Op.on, reduceCtorEq] at ho
    · exact w.create_effect _ _
    · exact w.create_effect _ _
  | some o =>
    cases hx : w.objs[o]? with
    | none =>
      cases op <;> simp only [Op.on, Option.some.injEq, reduceCtorEq] at ho <;> subst ho <;>
        simp only [World.step, Op.on, Option.bind_some, hx] <;> exact .none
    | some x =>
      rw [w.step_on op o x ho hx]
      exact w.stepOn_effect op o x ho hx

/-! ## Sequences of statements -/

/-- The lists that the objects refer to exist. -/
def World.Addressed (w : World V) : Prop := ∀ x ∈ w.objs, x.addr < w.lists.length

omit [DecidableEq V] [HasNone V] in
theorem World.list_addFresh (w : World V) (s : Storage V) (mem : List V) (a : Nat) (h : a < w.lists.length) :
    (w.addFresh s mem).list a = w.list a := by
  simp only [World.list, World.addFresh, List.getD_eq_getElem?_getD]
  rw [List.getElem?_append_left h]

omit [DecidableEq V] [HasNone V] in
theorem World.list_put (w : World V) (a : Nat) (m : List V) (h : a < w.lists.length) (b : Nat) :
    (w.put a m).list b = if b = a then m else w.list b := by
  simp only [World.list, World.put, List.getD_eq_getElem?_getD, List.getElem?_set]
  by_cases hb : b = a
  · subst hb; simp [h]
  · simp [hb, Ne.symm hb]

omit [DecidableEq V] [HasNone V] in
theorem Effect.addressed {w w' : World V} {op : Op V} (he : Effect w op w') (h : w.Addressed) : w'.Addressed := by
  cases he with
  | none => exact h
  | fresh s mem =>
    intro x hx
    simp only [World.addFresh, List.mem_append, List.mem_singleton, List.length_append, List.length_singleton] at hx ⊢
    rcases hx with hx | rfl
    · have := h x hx; omega
    · simp
  | view o x s ho hx =>
    intro y hy
    simp only [World.addView, List.mem_append, List.mem_singleton] at hy ⊢
    rcases hy with hy | rfl
    · exact h y hy
    · exact h x (List.mem_of_getElem? hx)
  | put o x m ho hx hl =>
    intro y hy
    simpa [World.put] using h y hy

omit [DecidableEq V] [HasNone V] in
/-- Objects stay what they are. -/
theorem Effect.objs {w w' : World V} {op : Op V} (he : Effect w op w') {o : Nat} {x : Obj V} (hx : w.objs[o]? = some x) :
    w'.objs[o]? = some x := by
  have hl : o < w.objs.length := by
    rw [List.getElem?_eq_some_iff] at hx
    exact hx.1
  cases he with
  | none => exact hx
  | fresh s mem => simp only [World.addFresh]; rw [List.getElem?_append_left hl]; exact hx
  | view => simp only [World.addView]; rw [List.getElem?_append_left hl]; exact hx
  | put => exact hx

omit [DecidableEq V] [HasNone V] in
/-- Lists keep their lengths. -/
theorem Effect.length {w w' : World V} {op : Op V} (he : Effect w op w') (h : w.Addressed) {a : Nat}
    (ha : a < w.lists.length) : (w'.list a).length = (w.list a).length := by
  cases he with
  | none => rfl
  | fresh s mem => rw [w.list_addFresh s mem a ha]
  | view => rfl
  | put o x m ho hx hl =>
    rw [w.list_put x.addr m (h x (List.mem_of_getElem? hx)) a]
    split
    · next e => rw [hl, e]
    · rfl

omit [DecidableEq V] [HasNone V] in
/-- Only the list of the object that the statement is about can change. -/
theorem Effect.frame {w w' : World V} {op : Op V} (he : Effect w op w') (h : w.Addressed) {a : Nat}
    (ha : a < w.lists.length) (hn : ∀ o x, op.on = some o → w.objs[o]? = some x → x.addr ≠ a) :
    w'.list a = w.list a := by
  cases he with
  | none => rfl
  | fresh s mem => exact w.list_addFresh s mem a ha
  | view => rfl
  | put o x m ho hx hl =>
    rw [w.list_put x.addr m (h x (List.mem_of_getElem? hx)) a, if_neg]
    exact fun e => hn o x ho hx e.symm

omit [DecidableEq V] [HasNone V] in
theorem Effect.lists {w w' : World V} {op : Op V} (he : Effect w op w') : w.lists.length ≤ w'.lists.length := by
  cases he with
  | none => exact le_rfl
  | fresh s mem => simp [World.addFresh]
  | view => exact le_rfl
  | put => simp [World.put]

theorem World.run_addressed {w : World V} (h : w.Addressed) (ops : List (Op V)) : (w.run ops).Addressed := by
  induction ops generalizing w with
  | nil => exact h
  | cons op ops ih => exact ih ((w.step_effect op).addressed h)

theorem World.run_objs {w : World V} (ops : List (Op V)) {o : Nat} {x : Obj V} (hx : w.objs[o]? = some x) :
    (w.run ops).objs[o]? = some x := by
  induction ops generalizing w with
  | nil => exact hx
  | cons op ops ih => exact ih ((w.step_effect op).objs hx)

theorem World.run_length {w : World V} (h : w.Addressed) (ops : List (Op V)) {a : Nat} (ha : a < w.lists.length) :
    ((w.run ops).list a).length = (w.list a).length := by
  induction ops generalizing w with
  | nil => rfl
  | cons op ops ih =>
    have e := w.step_effect op
    exact (ih (e.addressed h) (lt_of_lt_of_le ha e.lists)).trans (e.length h ha)

end Gcs
