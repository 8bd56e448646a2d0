import Verif.SpecHeap
import Verif.Lemmas.KeepMake
import Verif.Props.Observing

/-!
# C49: every object of every program is well-formed

Programs are sequences of statements (`World.run`, Model/Heap.lean).
-/

namespace Gcs

open Spec

variable {V : Type}

/-- The stored indices of the index arrays are the rows. -/
theorem Sparse.nthStored {s : Storage V} {rows : List (List Int)} {b : Buffer V} (h : Sparse s rows b) (p : Nat)
    (ix : List Int) : NthStored s p ix ↔ rows[p]? = some ix := by
  rw [List.getElem?_eq_some_iff]
  cases h with
  | @coo c _ h =>
    have hb : ∀ (p k : Nat), p < rows.length → k < c.shape.length → InBox [(k : Int), (p : Int)] c.indices.shape := by
      intro p k hp hk
      rw [h.ishape]
      simp only [InBox, and_true]
      omega
    simp only [NthStored, h.ishape]
    constructor
    · rintro ⟨hp, hl, hk⟩
      have hp : p < rows.length := by simpa using hp
      refine ⟨hp, ?_⟩
      have hlen := (h.rows_ok.inbox rows[p] (List.getElem_mem hp)).length_eq
      apply List.ext_getElem (by rw [hl, hlen])
      intro k h1 h2
      have := hk k h2
      rw [strided_reads h.iwf (hb p k hp (by omega)), h.ival p hp k (by omega)] at this
      simpa [List.getD_eq_getElem?_getD, h1] using this
    · rintro ⟨hp, rfl⟩
      have hlen := (h.rows_ok.inbox rows[p] (List.getElem_mem hp)).length_eq
      refine ⟨by simpa using hp, hlen, ?_⟩
      intro k hk
      rw [strided_reads h.iwf (hb p k hp (by omega)), h.ival p hp k (by omega)]
      simp [List.getD_eq_getElem?_getD, hk]
  | @flatcoo f _ h =>
    have hw : f.findices.window f.fmem = (rows.map fun r => address r (makeStrides f.shape)).map some := by
      rw [h.fval, List.map_map]; rfl
    have hrm : ∀ ix, InBox ix f.shape → rowMajor ix f.shape 0 = address ix (makeStrides f.shape) := by
      intro ix hi
      rw [rowMajor_eq _ _ _ hi.length_eq]; omega
    simp only [NthStored, h.fsize]
    constructor
    · rintro ⟨hp, hi, hr⟩
      rw [buffer_reads_map h.fwf _ hw p (by simpa using hp), hrm ix hi] at hr
      simp only [List.getElem_map] at hr
      exact ⟨hp, address_inj (h.rows_ok.inbox _ (List.getElem_mem hp)) hi hr⟩
    · rintro ⟨hp, rfl⟩
      have hi := h.rows_ok.inbox _ (List.getElem_mem hp)
      refine ⟨hp, hi, ?_⟩
      rw [buffer_reads_map h.fwf _ hw p (by simpa using hp), hrm _ hi]
      simp
  | @csr c _ h =>
    have hfs := h.rows_ok.firsts_sorted
    have hsz : c.col.size = rows.length := by rw [← c.col.window_length _ h.kwf, h.kval]; simp
    have inrow : ∀ (r : Int) (p : Nat) (hp : p < rows.length),
        (below (firsts rows) r ≤ p ∧ p < below (firsts rows) (r + 1)) ↔ rows[p].getD 0 0 = r := by
      intro r p hp
      have := below_range (firsts rows) r hfs p (by rw [firsts_length]; exact hp)
      rwa [firsts_getElem] at this
    have hcrow : ∀ (r : Nat) (v : Int), r ≤ c.shape.getD 0 0 →
        (Reads (.buffer c.crow) c.crowMem [(r : Int)] (some v) ↔ ((below (firsts rows) r : Nat) : Int) = v) := by
      intro r v hr
      rw [buffer_reads_map h.cwf _ h.cval r (by simp only [List.length_map, List.length_range]; omega)]
      simp
    have hcol : ∀ (p : Nat) (hp : p < rows.length) (v : Int),
        (Reads (.buffer c.col) c.colMem [(p : Int)] (some v) ↔ rows[p].getD 1 0 = v) := by
      intro p hp v
      rw [buffer_reads_map h.kwf _ h.kval p (by simpa using hp)]
      simp
    simp only [NthStored, hsz]
    constructor
    · rintro ⟨hq, hi, r, k, lo, hi', rfl, h1, h2, h3, h4, h5⟩
      obtain ⟨r', k', n, m, e, hsh, hr0, hr1, hk0, hk1⟩ := pair_of_two hi h.two
      simp only [List.cons.injEq, and_true] at e
      obtain ⟨rfl, rfl⟩ := e
      have hn : c.shape.getD 0 0 = n := by simp [hsh]
      obtain ⟨a, rfl⟩ := Int.eq_ofNat_of_zero_le hr0
      rw [hcrow a lo (by omega)] at h1
      have := hcrow (a + 1) hi' (by omega)
      simp only [Nat.cast_add, Nat.cast_one] at this
      rw [this] at h2
      rw [hcol p hq] at h5
      have hrow := (inrow a p hq).1 (by omega)
      obtain ⟨r'', k'', _, _, e', _⟩ := pair_of_two (h.rows_ok.inbox _ (List.getElem_mem hq)) h.two
      rw [e'] at h5 hrow
      simp at h5 hrow
      exact ⟨hq, by rw [e', h5, hrow]⟩
    · rintro ⟨hp, e⟩
      have hi := h.rows_ok.inbox _ (List.getElem_mem hp)
      rw [e] at hi
      obtain ⟨r, k, n, m, rfl, hsh, hr0, hr1, hk0, hk1⟩ := pair_of_two hi h.two
      have hn : c.shape.getD 0 0 = n := by simp [hsh]
      obtain ⟨a, rfl⟩ := Int.eq_ofNat_of_zero_le hr0
      have hrow := (inrow a p hp).2 (by rw [e]; rfl)
      have h2 := hcrow (a + 1) (below (firsts rows) ((a : Int) + 1) : Nat) (by omega)
      simp only [Nat.cast_add, Nat.cast_one, iff_true] at h2
      refine ⟨hp, hi, a, k, (below (firsts rows) a : Nat), (below (firsts rows) ((a : Int) + 1) : Nat), rfl, ?_, h2,
        by omega, by omega, ?_⟩
      · rw [hcrow a _ (by omega)]
      · rw [hcol p hp, e]; rfl

theorem Sparse.goodIndices {s : Storage V} {rows : List (List Int)} {b : Buffer V} (h : Sparse s rows b)
    (hs : SortedRows s.shape rows) : GoodIndices s rows.length := by
  simp only [GoodIndices, h.nthStored]
  refine ⟨fun p hp => ⟨rows[p], by simp [hp]⟩, ?_, ?_, ?_⟩
  · intro p ix hr
    obtain ⟨hp, rfl⟩ := List.getElem?_eq_some_iff.1 hr
    exact ⟨hp, hs.inbox _ (List.getElem_mem hp)⟩
  · intro p ix jx h1 h2
    rw [h1] at h2
    exact Option.some.inj h2
  · intro p q ix jx hpq h1 h2
    obtain ⟨hp, rfl⟩ := List.getElem?_eq_some_iff.1 h1
    obtain ⟨hq, rfl⟩ := List.getElem?_eq_some_iff.1 h2
    exact List.pairwise_iff_getElem.1 hs.sorted p q hp hq hpq

theorem Storage.WF.good {s : Storage V} {mem : List V} (h : s.WF mem) : GoodStorage s := by
  induction s with
  | buffer => trivial
  | strided => trivial
  | coo c =>
    obtain ⟨⟨rows, h⟩, _⟩ := h
    simp only [GoodStorage, h.size]
    exact (Sparse.coo h).goodIndices h.rows_ok
  | flatcoo c =>
    obtain ⟨⟨rows, h⟩, _⟩ := h
    simp only [GoodStorage, h.size]
    exact (Sparse.flatcoo h).goodIndices h.rows_ok
  | csr c =>
    obtain ⟨⟨rows, h⟩, _⟩ := h
    simp only [GoodStorage, h.size]
    exact (Sparse.csr h).goodIndices h.rows_ok
  | dm m d ih => exact ih h.2

/-! ## The invariant -/

/-- Every object is well-formed on its list. -/
structure World.Good (w : World V) : Prop where
  addr : w.Addressed
  wf : ∀ x ∈ w.objs, x.desc.WF (w.list x.addr)

theorem World.Good.empty : (World.empty : World V).Good := ⟨by simp [World.Addressed, World.empty], by simp [World.empty]⟩

theorem World.Good.addFresh {w : World V} (h : w.Good) {s : Storage V} {mem : List V} (hs : s.WF mem) :
    (w.addFresh s mem).Good := by
  refine ⟨(Effect.fresh (op := .copy 0 none) s mem).addressed h.addr, ?_⟩
  intro x hx
  simp only [World.addFresh, List.mem_append, List.mem_singleton] at hx
  rcases hx with hx | rfl
  · rw [w.list_addFresh s mem _ (h.addr x hx)]
    exact h.wf x hx
  · simpa [World.list, World.addFresh] using hs

theorem World.Good.addView {w : World V} (h : w.Good) {x : Obj V} (hx : x ∈ w.objs) {s : Storage V}
    (hs : s.WF (w.list x.addr)) : (w.addView x.addr s).Good := by
  constructor
  · intro y hy
    simp only [World.addView, List.mem_append, List.mem_singleton] at hy ⊢
    rcases hy with hy | rfl
    · exact h.addr y hy
    · exact h.addr x hx
  · intro y hy
    simp only [World.addView, List.mem_append, List.mem_singleton] at hy
    rcases hy with hy | rfl
    · exact h.wf y hy
    · exact hs

theorem World.Good.put {w : World V} (h : w.Good) {x : Obj V} (hx : x ∈ w.objs) {m : List V}
    (hm : m.length = (w.list x.addr).length) : (w.put x.addr m).Good := by
  constructor
  · intro y hy
    simpa [World.put] using h.addr y hy
  · intro y hy
    rw [w.list_put x.addr m (h.addr x hx)]
    split
    · next e => exact (h.wf y hy).of_length (by rw [hm, e])
    · exact h.wf y hy

theorem World.Good.create {w : World V} (h : w.Good) {r : PyM (Storage V × List V)}
    (hr : ∀ s mem, r = .ok (s, mem) → s.WF mem) : (w.create r).1.Good := by
  cases r with
  | error e => exact h
  | ok r => exact h.addFresh (hr _ _ rfl)

variable [DecidableEq V] [HasNone V]

theorem World.Good.stepOn {w : World V} (h : w.Good) {x : Obj V} (hx : x ∈ w.objs) (op : Op V) : (w.stepOn x op).1.Good := by
  have hw := h.wf x hx
  cases op with
  | make => exact h
  | makeDM => exact h
  | get o index =>
    simp only [World.stepOn]
    cases hg : x.desc.getItem (w.list x.addr) index with
    | error e => exact h
    | ok r => cases r with
      | val v => exact h
      | view s => exact h.addView hx (hw.getItem_keep hg (.inl ⟨rfl, rfl⟩)).1
      | fresh s mem => exact h.addFresh (hw.getItem_keep hg (.inr rfl)).1
  | convert o cls u =>
    simp only [World.stepOn]
    cases hg : fromObject cls (.store x.desc (w.list x.addr)) u with
    | error e => exact h
    | ok r => cases r with
      | same => exact h.addView hx hw
      | fresh s mem =>
        refine h.addFresh (fromObject_wf ?_ hg)
        intro s' mem' e
        simp only [Src.store.injEq] at e
        obtain ⟨rfl, rfl⟩ := e
        exact hw
  | convertDM => exact h.create fun s mem hr => dmBuild_wf hr
  | copy o u =>
    refine h.create fun s mem hr => ?_
    obtain ⟨r, m, hc⟩ := hw.copyOf u
    rw [hc.eval] at hr
    simp only [Except.ok.injEq, Prod.mk.injEq] at hr
    obtain ⟨rfl, rfl⟩ := hr
    exact hc.stands.wf
  | set o index value => exact h.put hx (Storage.setItem_length _ _ _ _)
  | setFrom o index p =>
    simp only [World.stepOn]
    cases w.objs[p]? with
    | none => exact h
    | some y =>
      simp only
      split
      · exact h.put hx (Storage.setItem_length _ _ _ _)
      · exact h.put hx (Storage.setItem_length _ _ _ _)

theorem World.Good.step {w : World V} (h : w.Good) (op : Op V) : (w.step op).1.Good := by
  cases ho : op.on with
  | none =>
    cases op <;> simp only [Op.on, reduceCtorEq] at ho
    · refine h.create fun s mem hr => ?_
      simp only [makeNested, bind_eq_ok] at hr
      obtain ⟨r, h1, h2⟩ := hr
      cases r with
      | same => simp at h2
      | fresh s' mem' =>
        simp only [pure_eq_ok, Prod.mk.injEq] at h2
        obtain ⟨rfl, rfl⟩ := h2
        exact fromObject_wf (by simp) h1
    · exact h.create fun s mem hr => dmBuild_wf hr
  | some o =>
    cases hx : w.objs[o]? with
    | none =>
      cases op <;> simp only [Op.on, Option.some.injEq, reduceCtorEq] at ho <;> subst ho <;>
        simp only [World.step, Op.on, Option.bind_some, hx] <;> exact h
    | some x =>
      rw [w.step_on op o x ho hx]
      exact h.stepOn (List.mem_of_getElem? hx) op

theorem World.Good.run {w : World V} (h : w.Good) (ops : List (Op V)) : (w.run ops).Good := by
  induction ops generalizing w with
  | nil => exact h
  | cons op ops ih => exact ih (h.step op)

/-! ## C49 -/

/-- C49.  After any program, for every object that it made: every read inside the box of the object gives a value, and
the index arrays are in order.  The arrays and nested lists of the program need not have positive sizes, need not even
be rectangular; statements can raise, and assignments that raise half-way keep what they wrote. -/
theorem C49_history (ops : List (Op V)) (x : Obj V) (hx : x ∈ (World.empty.run ops).objs) :
    (∀ ix, InBox ix x.desc.shape → ∃ v, Reads x.desc ((World.empty.run ops).list x.addr) ix v) ∧
      GoodStorage x.desc := by
  have h := (World.Good.empty.run ops).wf x hx
  exact ⟨fun ix hi => ⟨_, h.reads ix hi⟩, h.good⟩

/-- C49, the hypotheses of the other properties: the objects of every program are well-formed and their lists exist. -/
theorem C49_wf (ops : List (Op V)) : (World.empty.run ops).Addressed ∧
    ∀ x ∈ (World.empty.run ops).objs, x.desc.WF ((World.empty.run ops).list x.addr) :=
  ⟨(World.Good.empty.run ops).addr, (World.Good.empty.run ops).wf⟩

/-- A program that makes objects of all classes from one another.  `set 0` raises after the first write.
```
o0 = Strided.fromobject([[1, None, 3], [None, 5, None]])
o1 = o0.as_COO();  o2 = o1[::-1, 1:];  o3 = o2.as_FlatCOO();  o4 = o3.as_CSR();  o5 = o4[-1]
o6 = o0.as_DM(partitioning=(1,), storage_class=COO);  o7 = o6[1, ::2]
o4[0, :] = [7, 8];  o0[0] = [7];  o8 = COO.fromobject([]);  o9 = o4.copy(unspecified=0);  o0[1, 1:] = o5
``` -/
def sampleProgram : List (Op (Option Int)) :=
  [.make .strided (.seq [.seq [.leaf (some 1), .leaf none, .leaf (some 3)], .seq [.leaf none, .leaf (some 5), .leaf none]]) none,
   .convert 0 .coo none, .get 1 turned, .convert 2 .flatcoo none, .convert 3 .csr none, .get 4 (.one (.int (-1))),
   .convertDM 0 none (some [1]) .coo none, .get 6 (.tuple [.int 1, .slice ⟨none, none, some 2⟩]),
   .set 4 (.tuple [.int 0, .slice ⟨none, none, none⟩]) (.seq [.leaf (some 7), .leaf (some 8)]),
   .set 0 (.one (.int 0)) (.seq [.leaf (some 7)]), .make .coo (.seq []) none,
   .copy 4 (some (some 0)), .setFrom 0 (.tuple [.int 1, .slice ⟨some 1, none, none⟩]) 5]

/-- A case of C49: the objects of the program. -/
example :
    ((World.empty.run sampleProgram).objs.map fun x => (x.addr, x.desc.cls, x.desc.shape)) =
      [(0, .strided, [2, 3]), (1, .coo, [2, 3]), (2, .coo, [2, 2]), (3, .flatcoo, [2, 2]), (4, .csr, [2, 2]), (5, .coo, [2]),
        (6, .dm, [2, 3]), (7, .dm, [2]), (8, .coo, [0]), (9, .csr, [2, 2])] ∧
    (World.empty.run sampleProgram).lists =
      [[some 7, none, some 3, none, none, some 3], [some 1, some 3, some 5], [some 5, some 3], [some 5, some 3],
        [some 7, some 3], [some 3], [some 1, some 3, some 5], [some 5], [], [some 7, some 3]] :=
  ⟨by decide +kernel, by decide +kernel⟩

/-- The index arrays of a `COO` that are not in order: the columns `(1, 0)` and `(0, 1)` in this order do not meet the
specification. -/
example : ¬ GoodStorage (.coo (⟨[2, 2], ⟨[2, 2], [2, 1], ⟨4, 0, none⟩⟩, [some 1, some 0, some 0, some 1], ⟨2, 0, none⟩⟩ :
    COO (Option Int))) := by
  intro h
  have h0 : NthStored (.coo (⟨[2, 2], ⟨[2, 2], [2, 1], ⟨4, 0, none⟩⟩, [some 1, some 0, some 0, some 1], ⟨2, 0, none⟩⟩ :
    COO (Option Int))) 0 [1, 0] := by
    refine ⟨by decide, rfl, fun k hk => ?_⟩
    match k, hk with
    | 0, _ => unfold Reads; simp only [List.getElem_cons_zero, List.getElem_cons_succ]; decide +kernel
    | 1, _ => unfold Reads; simp only [List.getElem_cons_zero, List.getElem_cons_succ]; decide +kernel
  have h1 : NthStored (.coo (⟨[2, 2], ⟨[2, 2], [2, 1], ⟨4, 0, none⟩⟩, [some 1, some 0, some 0, some 1], ⟨2, 0, none⟩⟩ :
    COO (Option Int))) 1 [0, 1] := by
    refine ⟨by decide, rfl, fun k hk => ?_⟩
    match k, hk with
    | 0, _ => unfold Reads; simp only [List.getElem_cons_zero, List.getElem_cons_succ]; decide +kernel
    | 1, _ => unfold Reads; simp only [List.getElem_cons_zero, List.getElem_cons_succ]; decide +kernel
  have := h.2.2.2 0 1 _ _ (by decide) h0 h1
  simp [lexLt] at this

end Gcs
