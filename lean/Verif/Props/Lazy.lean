/-
C64: the search for positions and the writes of an assignment.
-/
import Verif.Model.Lazy
import Verif.Lemmas.Keep
import Verif.Lemmas.DMWrite
import Verif.Lemmas.Heap
import Verif.Props.SettingDM
import Verif.Props.Assigning

namespace Gcs

open Spec

variable {V : Type}

/-! ## Generators that do not raise -/

theorem map_of_mapM {A B : Type} (f : A → PyM B) (l : List A) (r : List B) (h : l.mapM f = .ok r) :
    l.map f = r.map .ok := by
  induction l generalizing r with
  | nil =>
    simp only [List.mapM_nil, pure_eq_ok] at h
    subst h
    rfl
  | cons a l ih =>
    rw [List.mapM_cons] at h
    simp only [bind_eq_ok, pure_eq_ok] at h
    obtain ⟨y, h1, ys, h2, rfl⟩ := h
    simp only [List.map_cons, h1, ih ys h2]

theorem COO.gen_ok {c : COO V} {es : List (List Int × Int)} (h : c.entries = .ok es) : c.gen = es.map .ok :=
  map_of_mapM _ _ _ h

theorem DMMeta.gen_ok {m : DMMeta} {es : List (List Int × List Int)} (h : m.entries = .ok es) : m.gen = es.map .ok :=
  map_of_mapM _ _ _ h

theorem flatMap_of_mapM {A B : Type} (f : A → PyM (List B)) (g : A → Gen B) (hg : ∀ a r, f a = .ok r → g a = r.map .ok)
    (l : List A) (rs : List (List B)) (h : l.mapM f = .ok rs) : l.flatMap g = (rs.foldr (· ++ ·) []).map .ok := by
  induction l generalizing rs with
  | nil =>
    simp only [List.mapM_nil, pure_eq_ok] at h
    subst h
    rfl
  | cons a l ih =>
    rw [List.mapM_cons] at h
    simp only [bind_eq_ok, pure_eq_ok] at h
    obtain ⟨y, h1, ys, h2, rfl⟩ := h
    simp only [List.flatMap_cons, List.foldr_cons, List.map_append, hg a y h1, ih ys h2]

theorem CSR.gen_ok {c : CSR V} {es : List (List Int × Int)} (h : c.entries = .ok es) : c.gen = es.map .ok := by
  simp only [CSR.entries, bind_eq_ok (α := List (List (List Int × Int))), pure_eq_ok] at h
  obtain ⟨rows, h, rfl⟩ := h
  refine flatMap_of_mapM _ _ (fun row r hr => ?_) _ _ h
  simp only [bind_eq_ok] at hr
  obtain ⟨lo, h1, hi, h2, hr⟩ := hr
  simp only [CSR.genRow, h1, h2, bind, Except.bind, pure, Except.pure, Gen.after]
  exact map_of_mapM _ _ _ hr

theorem FlatCOO.gen_ok {f : FlatCOO V} {es : List (List Int × Int)} (h : f.entries = .ok es) : f.gen = es.map .ok := by
  simp only [FlatCOO.entries, bind_eq_ok] at h
  obtain ⟨data, h1, h⟩ := h
  simp only [FlatCOO.gen, h1, Gen.after]
  exact map_of_mapM _ _ _ h

theorem writeGen_ok {P : Type} (write1 : List V → P → V → Wr V) (valueAt : List V → List Int → PyM V)
    (rs : List (Option (List Int × P))) (mem : List V) :
    writeGen write1 valueAt (rs.map .ok) mem = writeAll write1 valueAt (rs.filterMap id) mem := by
  induction rs generalizing mem with
  | nil => rfl
  | cons r rs ih =>
    cases r with
    | none => simpa [writeGen] using ih mem
    | some e =>
      obtain ⟨vi, p⟩ := e
      simp only [List.map_cons, writeGen, List.filterMap_cons, id, writeAll]
      cases valueAt mem vi with
      | error e => rfl
      | ok v =>
        cases he : (write1 mem p v).err with
        | some e => simp only [he]
        | none =>
          simp only [he, ih]
          rfl

/-- What the eager assignment does with the outcome of the search. -/
def afterPlan {P : Type} (write1 : List V → P → V → Wr V) (valueAt : List V → List Int → PyM V) (mem : List V) :
    PyM (List (List Int × P)) → Wr V
  | .error e => ⟨mem, some e⟩
  | .ok entries => writeAll write1 valueAt entries mem

theorem writeGen_slice {P : Type} (write1 : List V → P → V → Wr V) (valueAt : List V → List Int → PyM V)
    (gen : Gen (List Int × P)) (entries : PyM (List (List Int × P))) (selfShape shape : List Nat) (strides : List Int)
    (off : Int) (mem : List V)
    (h : (∃ es, gen = es.map .ok ∧ entries = .ok es ∧
        (es = [] ∨ ∃ L, sliceEntries (.ok es) selfShape shape strides off = .ok L)) ∨
      ∃ e, gen = [.error e] ∧ entries = .error e) :
    writeGen write1 valueAt (sliceGen gen selfShape shape strides off) mem
      = afterPlan write1 valueAt mem (sliceEntries entries selfShape shape strides off) := by
  rcases h with ⟨es, rfl, rfl, h⟩ | ⟨e, rfl, rfl⟩
  · cases hd : initDiophantine strides (some shape) with
    | error e => simp only [sliceGen, sliceEntries, hd, Gen.after, writeGen, bind, Except.bind, afterPlan]
    | ok data =>
      simp only [sliceGen, sliceEntries, hd, Gen.after, bind, Except.bind] at h ⊢
      rcases h with rfl | ⟨L, h⟩
      · rfl
      · cases hm : es.mapM (fun e => do
            let p ← getPosition e.1 selfShape (makeStrides selfShape)
            let r ← solveIndexData (p - off) shape data
            return r.map fun ix => (ix, e.2)) with
        | error e =>
          simp only [bind, Except.bind] at hm
          rw [hm] at h
          simp at h
        | ok rs =>
          have := map_of_mapM _ _ _ hm
          simp only [bind, Except.bind] at hm this
          rw [List.map_map]
          simp only [Function.comp_def, hm]
          rw [this, writeGen_ok]
          rfl
  · cases hd : initDiophantine strides (some shape) with
    | error e => simp only [sliceGen, sliceEntries, hd, Gen.after, writeGen, bind, Except.bind, afterPlan]
    | ok data => simp only [sliceGen, sliceEntries, hd, Gen.after, List.map_cons, writeGen, bind, Except.bind, afterPlan]

/-- The search for positions does not raise once the slice is known, for entries inside the array. -/
theorem sliceEntries_any {P : Type} (es : List (List Int × P)) (shape : List Nat) (hb : ∀ e ∈ es, InBox e.1 shape)
    (hnd : (es.map (·.1)).Nodup) {index : Index} {nix : List NIx} (hn : normalizeIndex index shape = .ok nix)
    {sh : List Nat} {st : List Int} {off : Int} (hs : indexStrided nix shape (makeStrides shape) = .ok (sh, st, off)) :
    es = [] ∨ ∃ L, sliceEntries (.ok es) shape sh st off = .ok L ∧ ∀ x ∈ L, InBox x.1 sh := by
  by_cases hp : PosShape shape
  · right
    have hN := normalizeIndex_normalized _ _ _ hn
    obtain ⟨e1, e2, _⟩ := indexStrided_inv nix shape _ hN (makeStrides_length _) _ _ _ hs
    rcases elementIndex_cases nix shape hN with ⟨ix, _, _, _, h3, _⟩ | ⟨_, h3⟩
    · rw [h3] at e1
      subst e1
      have hst : st = [] := List.length_eq_zero_iff.1 e2
      subst hst
      refine ⟨_, sliceEntries_elem es shape hb off, fun x hx => ?_⟩
      obtain ⟨e, _, rfl⟩ := List.mem_map.1 hx
      trivial
    · obtain ⟨nix', st', off', L, g1, _, g3, g4, g5, _⟩ := sliceEntries_ok es shape hp hb hnd (.tuple (nix.map NIx.toIx))
        (normalized_valid nix _ hN) h3
      have : normalizeIndex (.tuple (nix.map NIx.toIx)) shape = .ok nix := normalizeItems_toIx nix shape hN
      rw [this] at g1
      cases g1
      rw [hs] at g3
      cases g3
      exact ⟨L, g4, fun x hx => ((g5 x.1 x.2).1 hx).1⟩
  · left
    cases es with
    | nil => rfl
    | cons e es => exact absurd (InBox_pos (hb e (by simp))) hp

theorem withPos_valid {shape : List Nat} {rows : List (List Int)} (h : SortedRows shape rows) :
    (∀ e ∈ withPos rows, InBox e.1 shape) ∧ ((withPos rows).map (·.1)).Nodup := by
  refine ⟨fun e he => ?_, by rw [withPos_fst]; exact h.nodup⟩
  obtain ⟨q, hq, e1, _⟩ := (mem_withPos e.1 e.2).1 he
  rw [← e1]
  exact h.inbox _ (List.getElem_mem hq)

theorem setLoop_slice {P : Type} (write1 : List V → P → V → Wr V) (valueAt : List V → List Int → PyM V)
    (gen : Gen (List Int × P)) (entries : PyM (List (List Int × P))) (shape : List Nat) (index : Index) (mem : List V)
    (h : (∃ es, gen = es.map .ok ∧ entries = .ok es ∧ (∀ e ∈ es, InBox e.1 shape) ∧ (es.map (·.1)).Nodup) ∨
      ∃ e, gen = [.error e] ∧ entries = .error e) :
    setLoop shape (makeStrides shape) (sliceGen gen shape) write1 valueAt index mem
      = afterPlan write1 valueAt mem (do
          let nix ← normalizeIndex index shape
          let (sh, st, off) ← indexStrided nix shape (makeStrides shape)
          sliceEntries entries shape sh st off) := by
  simp only [setLoop, bind, Except.bind]
  cases hn : normalizeIndex index shape with
  | error e => rfl
  | ok nix =>
    simp only
    cases hs : indexStrided nix shape (makeStrides shape) with
    | error e => rfl
    | ok t =>
      obtain ⟨sh, st, off⟩ := t
      simp only
      refine writeGen_slice _ _ _ _ _ _ _ _ _ ?_
      rcases h with ⟨es, h1, h2, h3, h4⟩ | h
      · exact .inl ⟨es, h1, h2, (sliceEntries_any es shape h3 h4 hn hs).imp_right fun ⟨L, hL, _⟩ => ⟨L, hL⟩⟩
      · exact .inr h

theorem DMMeta.WF.entries_ok {m : DMMeta} {inner : List Nat} (h : m.WF inner) :
    m.entries = .ok ((indexProduct m.shape).map fun ix => (ix, target m.rdims m.rstrides m.roffset ix)) := by
  apply mapM_ok
  intro ix hix
  simp only [h.getDataPosition_ok ix ((mem_indexProduct _ _).1 hix), bind, Except.bind, pure, Except.pure]

theorem FlatCOO.Rep.gen_cases {f : FlatCOO V} {rows : List (List Int)} (h : f.Rep rows) :
    (∃ es, f.gen = es.map .ok ∧ f.entries = .ok es ∧ (∀ e ∈ es, InBox e.1 f.shape) ∧ (es.map (·.1)).Nodup) ∨
      ∃ e, f.gen = [.error e] ∧ f.entries = .error e := by
  by_cases hp : PosShape f.shape
  · exact .inl ⟨_, FlatCOO.gen_ok (h.entries_ok hp), h.entries_ok hp, withPos_valid h.rows_ok⟩
  · have e := rows_nil h.rows_ok hp
    subst e
    have hz : f.findices.size = 0 := by rw [h.fsize]; rfl
    cases hd : initDiophantine (makeStrides f.shape) (some f.shape) with
    | error e => exact .inr ⟨e, by simp only [FlatCOO.gen, hd, Gen.after],
        by simp only [FlatCOO.entries, hd, bind, Except.bind]⟩
    | ok data =>
      refine .inl ⟨[], ?_, ?_, by simp, by simp⟩
      · simp only [FlatCOO.gen, hd, Gen.after, hz]; rfl
      · simp only [FlatCOO.entries, hd, bind, Except.bind, hz]; rfl

/-- C64.  Finding the positions one at a time, between the writes, as the generators of the code do, and finding all
of them before the first write come to the same: for every well-formed object, whatever the index (also one that
raises), whatever the values and whichever of them cannot be read. -/
theorem C64_interleaved (s : Storage V) (mem : List V) (h : s.WF mem) (index : Index)
    (valueAt : List V → List Int → PyM V) : s.setItemLazy mem index valueAt = s.setItem mem index valueAt := by
  induction s generalizing mem index valueAt with
  | buffer b => rfl
  | strided s =>
    simp only [Storage.setItemLazy, Storage.setItem, Strided.setItem, setLoop, bind, Except.bind]
    cases hn : normalizeIndex index s.shape with
    | error e => rfl
    | ok nix =>
      simp only
      cases hs : indexStrided nix s.shape s.strides with
      | error e => rfl
      | ok t =>
        obtain ⟨sh, st, off⟩ := t
        simp only
        obtain ⟨e1, e2, _⟩ := indexStrided_inv nix s.shape _ (normalizeIndex_normalized _ _ _ hn) h.len _ _ _ hs
        rw [Strided.sliceEntries_ok sh st off e2]
        have : Strided.sliceGen sh st off
            = ((indexProduct sh).map fun j => some (j, off + address j st)).map .ok := by
          rw [List.map_map]
          apply List.map_congr_left
          intro j hj
          have hi := (mem_indexProduct _ _).1 hj
          simp only [getPosition_ok j sh st hi.length_eq e2, bind, Except.bind, pure, Except.pure, Function.comp_apply]
        rw [this, writeGen_ok]
        congr 1
        rw [List.filterMap_map]
        simp [Function.comp_def]
  | coo c =>
    obtain ⟨⟨rows, hr⟩, _⟩ := h
    refine (setLoop_slice _ _ _ _ _ _ _ (.inl ⟨_, COO.gen_ok hr.entries_ok, hr.entries_ok, withPos_valid hr.rows_ok⟩)).trans ?_
    change afterPlan _ _ _ (Storage.setPlan (.coo c) index) = _
    simp only [Storage.setItem]
    cases Storage.setPlan (.coo c) index <;> rfl
  | flatcoo f =>
    obtain ⟨⟨rows, hr⟩, _⟩ := h
    refine (setLoop_slice _ _ _ _ _ _ _ hr.gen_cases).trans ?_
    change afterPlan _ _ _ (Storage.setPlan (.flatcoo f) index) = _
    simp only [Storage.setItem]
    cases Storage.setPlan (.flatcoo f) index <;> rfl
  | csr c =>
    obtain ⟨⟨rows, hr⟩, _⟩ := h
    refine (setLoop_slice _ _ _ _ _ _ _ (.inl ⟨_, CSR.gen_ok hr.entries_ok, hr.entries_ok, withPos_valid hr.rows_ok⟩)).trans ?_
    change afterPlan _ _ _ (Storage.setPlan (.csr c) index) = _
    simp only [Storage.setItem]
    cases Storage.setPlan (.csr c) index <;> rfl
  | dm m d ih =>
    obtain ⟨hm, hd⟩ := h
    have hw : ∀ (m' : List V), m'.length = mem.length → ∀ (rindex : List Int) (v : V),
        d.setItemLazy m' (.tuple (rindex.map .int)) (fun _ _ => .ok v)
          = d.setItem m' (.tuple (rindex.map .int)) (fun _ _ => .ok v) := by
      intro m' hl rindex v
      exact ih m' (hd.of_length hl) _ _
    have hcongr : ∀ (g : Gen (Option (List Int × List Int))) (m' : List V), m'.length = mem.length →
        writeGen (fun mem rindex v => d.setItemLazy mem (.tuple (rindex.map .int)) (fun _ _ => .ok v)) valueAt g m'
          = writeGen (fun mem rindex v => d.setItem mem (.tuple (rindex.map .int)) (fun _ _ => .ok v)) valueAt g m' := by
      intro g
      induction g with
      | nil => intro m' _; rfl
      | cons x g ihg =>
        intro m' hl
        cases x with
        | error e => rfl
        | ok x =>
          cases x with
          | none => exact ihg m' hl
          | some e =>
            obtain ⟨vi, p⟩ := e
            simp only [writeGen]
            cases valueAt m' vi with
            | error e => rfl
            | ok v =>
              simp only [hw m' hl p v]
              cases he : (d.setItem m' (.tuple (p.map .int)) (fun _ _ => .ok v)).err with
              | some e => simp only [he]
              | none =>
                simp only [he]
                exact ihg _ (by rw [Storage.setItem_length, hl])
    have hloop := setLoop_slice
      (fun mem rindex v => d.setItem mem (.tuple (rindex.map .int)) (fun _ _ => .ok v)) valueAt m.gen m.entries m.shape
      index mem (.inl ⟨_, DMMeta.gen_ok hm.entries_ok, hm.entries_ok, by
        intro e he
        obtain ⟨ix, hix, rfl⟩ := List.mem_map.1 he
        exact (mem_indexProduct _ _).1 hix, by
        rw [List.map_map]
        simpa [Function.comp_def] using indexProduct_nodup m.shape⟩)
    have hend : afterPlan (fun mem rindex v => d.setItem mem (.tuple (rindex.map .int)) (fun _ _ => .ok v)) valueAt mem
        (Storage.dmSetPlan m index) = (Storage.dm m d).setItem mem index valueAt := by
      simp only [Storage.setItem]
      cases Storage.dmSetPlan m index <;> rfl
    rw [← hend]
    refine Eq.trans ?_ hloop
    simp only [Storage.setItemLazy, setLoop]
    cases normalizeIndex index m.shape with
    | error e => rfl
    | ok nix =>
      simp only
      cases indexStrided nix m.shape (makeStrides m.shape) with
      | error e => rfl
      | ok t => exact hcongr _ _ rfl

/-! ## An exception leaves everything or nothing written -/

theorem writeAll_total {P : Type} (write1 : List V → P → V → Wr V) (valueAt : List V → List Int → PyM V)
    (n : Nat) (es : List (List Int × P)) (hv : ∀ m, ∀ e ∈ es, ∃ v, valueAt m e.1 = .ok v)
    (hl : ∀ m p v, (write1 m p v).mem.length = m.length)
    (hw : ∀ m, m.length = n → ∀ e ∈ es, ∀ v, (write1 m e.2 v).err = none) (mem : List V) (hm : mem.length = n) :
    (writeAll write1 valueAt es mem).err = none := by
  induction es generalizing mem with
  | nil => rfl
  | cons e es ih =>
    obtain ⟨vi, p⟩ := e
    obtain ⟨v, hv'⟩ := hv mem (vi, p) (by simp)
    simp only [writeAll, hv', hw mem hm (vi, p) (by simp) v]
    exact ih (fun m e he => hv m e (by simp [he])) (fun m hm e he => hw m hm e (by simp [he])) _ (by rw [hl, hm])

/-- The positions found are those of stored elements. -/
theorem sliceEntries_sub {P : Type} {es : List (List Int × P)} {selfShape shape : List Nat} {strides : List Int}
    {off : Int} {L : List (List Int × P)} (h : sliceEntries (.ok es) selfShape shape strides off = .ok L) :
    ∀ x ∈ L, ∃ e ∈ es, e.2 = x.2 := by
  simp only [sliceEntries, bind_eq_ok (α := DioData), bind_eq_ok (α := List (List Int × P)),
    bind_eq_ok (α := List (Option (List Int × P))), pure_eq_ok] at h
  obtain ⟨data, _, _, h0, rs, h1, rfl⟩ := h
  cases h0
  intro x hx
  rw [List.mem_filterMap] at hx
  obtain ⟨o, ho, hx⟩ := hx
  have h2 := map_of_mapM _ _ _ h1
  have h3 : Except.ok (some x) ∈ rs.map (Except.ok : _ → PyM (Option (List Int × P))) := by
    simp only [id] at hx
    subst hx
    exact List.mem_map.2 ⟨_, ho, rfl⟩
  rw [← h2] at h3
  obtain ⟨e, he, h4⟩ := List.mem_map.1 h3
  simp only [bind_eq_ok, pure_eq_ok] at h4
  obtain ⟨p, _, r, _, h5⟩ := h4
  refine ⟨e, he, ?_⟩
  cases r with
  | none => simp at h5
  | some ix => simp only [Option.map_some, Option.some.injEq] at h5; rw [← h5]

theorem sparse_total {s : Storage V} {rows : List (List Int)} {b : Buffer V} (h : Sparse s rows b) {mem : List V}
    (hb : b.WF mem) (valueAt : List V → List Int → PyM V) (L : List (List Int × Int))
    (hv : ∀ m, ∀ x ∈ L, ∃ v, valueAt m x.1 = .ok v) (hL : ∀ x ∈ L, ∃ e ∈ withPos rows, e.2 = x.2) :
    (writeAll b.write1 valueAt L mem).err = none := by
  refine writeAll_total _ valueAt mem.length _ hv b.write1_length ?_ mem rfl
  intro m hm x hx v
  obtain ⟨e, he, h2⟩ := hL x hx
  obtain ⟨q, hq, _, e2⟩ := (mem_withPos e.1 e.2).1 he
  have := h.size
  unfold Buffer.WF at hb
  rw [Buffer.write1_ok _ _ _ _ (by omega) (by omega)]

/-- Setting one element does not raise. -/
theorem setItem_elem_total (s : Storage V) (mem : List V) (h : s.WF mem) (ix : List Int) (hi : InBox ix s.shape) (v : V) :
    (s.setItem mem (.tuple (ix.map .int)) (fun _ _ => .ok v)).err = none := by
  induction s generalizing mem ix v with
  | buffer b => rw [dense_set h (.inl rfl) ix hi v]
  | strided s => rw [dense_set h (.inr rfl) ix hi v]
  | coo c =>
    obtain ⟨⟨rows, hr⟩, hb⟩ := h
    obtain ⟨a1, a2⟩ := ints_select ix _ hi
    rw [sparse_setItem_elem (.coo hr) (InBox_pos hi) mem hb (.tuple (ix.map .int)) a1 a2 v (fun _ _ => .ok v)
      (fun _ => rfl)]
  | flatcoo c =>
    obtain ⟨⟨rows, hr⟩, hb⟩ := h
    obtain ⟨a1, a2⟩ := ints_select ix _ hi
    rw [sparse_setItem_elem (.flatcoo hr) (InBox_pos hi) mem hb (.tuple (ix.map .int)) a1 a2 v (fun _ _ => .ok v)
      (fun _ => rfl)]
  | csr c =>
    obtain ⟨⟨rows, hr⟩, hb⟩ := h
    obtain ⟨a1, a2⟩ := ints_select ix _ hi
    rw [sparse_setItem_elem (.csr hr) (InBox_pos hi) mem hb (.tuple (ix.map .int)) a1 a2 v (fun _ _ => .ok v)
      (fun _ => rfl)]
  | dm m d ih =>
    obtain ⟨hm, hd⟩ := h
    obtain ⟨a1, a2⟩ := ints_select ix _ hi
    simp only [Storage.setItem]
    rw [dm_plan_elem hm (InBox_pos hi) (.tuple (ix.map .int)) a1 a2]
    refine writeAll_total _ _ mem.length _ (fun _ _ _ => ⟨v, rfl⟩) (fun _ _ _ => Storage.setItem_length _ _ _ _) ?_ mem rfl
    intro m' hm' x hx v
    obtain ⟨jx, hjx, rfl⟩ := List.mem_map.1 hx
    exact ih m' (hd.of_length hm') _ (hm.into jx ((mem_indexProduct _ _).1 hjx)) v

/-- What the search finds, for an index that is not refused: elements of the slice, at positions of entries. -/
theorem plan_found {P : Type} (es : List (List Int × P)) (shape : List Nat) (hb : ∀ e ∈ es, InBox e.1 shape)
    (hnd : (es.map (·.1)).Nodup) {index : Index} (hvi : ValidItems (items index) shape) {L : List (List Int × P)}
    (h : (do
      let nix ← normalizeIndex index shape
      let (sh, st, off) ← indexStrided nix shape (makeStrides shape)
      sliceEntries (.ok es) shape sh st off) = .ok L) :
    ∀ x ∈ L, InBox x.1 (selShape (items index) shape) ∧ ∃ e ∈ es, e.2 = x.2 := by
  simp only [bind_eq_ok] at h
  obtain ⟨nix, hn, ⟨sh, st, off⟩, hs, h⟩ := h
  simp only at h
  intro x hx
  obtain ⟨e, he, h2⟩ := sliceEntries_sub h x hx
  refine ⟨?_, e, he, h2⟩
  have hp : PosShape shape := InBox_pos (hb e he)
  obtain ⟨nix', g1, g2, g3, _⟩ := normalizeIndex_ok index shape hp hvi
  rw [hn] at g1
  cases g1
  rw [← g3, ← (indexStrided_inv nix shape _ g2 (makeStrides_length _) _ _ _ hs).1]
  rcases sliceEntries_any es shape hb hnd hn hs with rfl | ⟨L', h3, h4⟩
  · simp at he
  · rw [h] at h3
    cases h3
    exact h4 x hx

/-- C64 (all or nothing).  When the value of every selected element can be read, an assignment that raises has
written nothing. -/
theorem C64_all_or_nothing (s : Storage V) (mem : List V) (h : s.WF mem) (index : Index)
    (hvi : ValidItems (items index) s.shape) (valueAt : List V → List Int → PyM V)
    (hv : ∀ m vi, InBox vi (selShape (items index) s.shape) → ∃ v, valueAt m vi = .ok v) (e : PyErr)
    (he : (s.setItemLazy mem index valueAt).err = some e) : (s.setItemLazy mem index valueAt).mem = mem := by
  rw [C64_interleaved s mem h] at he ⊢
  cases s with
  | buffer b =>
    simp only [Storage.setItem] at he ⊢
    split
    · rfl
    · rename_i i hi
      obtain ⟨v, hv'⟩ := hv mem [] (by
        revert hi
        split <;> intro hi <;> first | trivial | cases hi)
      simp only [hi, hv'] at he ⊢
      simp only [Buffer.write1] at he ⊢
      cases hb : b.setInt mem i v with
      | error e => rfl
      | ok m => rw [hb] at he; simp [Wr.ofPyM] at he
  | strided s =>
    simp only [Storage.setItem, Strided.setItem, bind, Except.bind] at he ⊢
    cases hn : normalizeIndex index s.shape with
    | error e => rfl
    | ok nix =>
      simp only [hn] at he ⊢
      cases hs : indexStrided nix s.shape s.strides with
      | error e => rfl
      | ok t =>
        obtain ⟨sh, st, off⟩ := t
        simp only [hs] at he ⊢
        have hN := normalizeIndex_normalized _ _ _ hn
        obtain ⟨e1, e2, e3⟩ := indexStrided_inv nix s.shape _ hN h.len _ _ _ hs
        rw [Strided.sliceEntries_ok sh st off e2] at he ⊢
        simp only at he ⊢
        rw [writeAll_total _ valueAt mem.length _ ?_ s.data.write1_length ?_ mem rfl] at he
        · simp at he
        · intro m x hx
          obtain ⟨j, hj, rfl⟩ := List.mem_map.1 hx
          have hj := (mem_indexProduct _ _).1 hj
          have hp : PosShape s.shape := InBox_pos (keep_inBox nix s.shape hN j (by rw [← e1]; exact hj))
          obtain ⟨nix', g1, g2, g3, _⟩ := normalizeIndex_ok index s.shape hp hvi
          rw [hn] at g1
          cases g1
          exact hv m j (by rw [Storage.shape, ← g3, ← e1]; exact hj)
        · intro m hm x hx v
          obtain ⟨j, hj, rfl⟩ := List.mem_map.1 hx
          have hj := (mem_indexProduct _ _).1 hj
          have a := h.addr _ (keep_inBox nix s.shape hN j (by rw [← e1]; exact hj))
          rw [← e3 j hj] at a
          have hb := h.buf
          unfold Buffer.WF at hb
          rw [Buffer.write1_ok _ _ _ _ (by simp only; omega) (by simp only; omega)]
  | coo c =>
    obtain ⟨⟨rows, hr⟩, hb⟩ := h
    simp only [Storage.setItem] at he ⊢
    cases hp : Storage.setPlan (.coo c) index with
    | error e => rfl
    | ok L =>
      simp only [hp] at he
      simp only [Storage.setPlan, hr.entries_ok] at hp
      have hf := plan_found _ _ (withPos_valid hr.rows_ok).1 (withPos_valid hr.rows_ok).2 hvi hp
      rw [sparse_total (.coo hr) hb valueAt L (fun m x hx => hv m x.1 (hf x hx).1) (fun x hx => (hf x hx).2)] at he
      simp at he
  | flatcoo f =>
    obtain ⟨⟨rows, hr⟩, hb⟩ := h
    simp only [Storage.setItem] at he ⊢
    cases hp : Storage.setPlan (.flatcoo f) index with
    | error e => rfl
    | ok L =>
      simp only [hp] at he
      simp only [Storage.setPlan] at hp
      by_cases hpos : PosShape f.shape
      · simp only [hr.entries_ok hpos] at hp
        have hf := plan_found _ _ (withPos_valid hr.rows_ok).1 (withPos_valid hr.rows_ok).2 hvi hp
        rw [sparse_total (.flatcoo hr) hb valueAt L (fun m x hx => hv m x.1 (hf x hx).1) (fun x hx => (hf x hx).2)] at he
        simp at he
      · have e0 := rows_nil hr.rows_ok hpos
        subst e0
        have hz : f.findices.size = 0 := by rw [hr.fsize]; rfl
        have : L = [] := by
          simp only [bind_eq_ok] at hp
          obtain ⟨_, _, ⟨sh, st, off⟩, _, hp⟩ := hp
          simp only [sliceEntries, FlatCOO.entries, hz, List.range_zero, List.mapM_nil, bind_eq_ok, pure_eq_ok] at hp
          obtain ⟨_, _, _, ⟨_, _, rfl⟩, rs, h1, rfl⟩ := hp
          simp only [List.mapM_nil, pure_eq_ok] at h1
          subst h1
          rfl
        subst this
        simp [writeAll] at he
  | csr c =>
    obtain ⟨⟨rows, hr⟩, hb⟩ := h
    simp only [Storage.setItem] at he ⊢
    cases hp : Storage.setPlan (.csr c) index with
    | error e => rfl
    | ok L =>
      simp only [hp] at he
      simp only [Storage.setPlan, hr.entries_ok] at hp
      have hf := plan_found _ _ (withPos_valid hr.rows_ok).1 (withPos_valid hr.rows_ok).2 hvi hp
      rw [sparse_total (.csr hr) hb valueAt L (fun m x hx => hv m x.1 (hf x hx).1) (fun x hx => (hf x hx).2)] at he
      simp at he
  | dm m d =>
    obtain ⟨hm, hd⟩ := h
    simp only [Storage.setItem] at he ⊢
    cases hp : Storage.dmSetPlan m index with
    | error e => rfl
    | ok L =>
      simp only [hp] at he
      simp only [Storage.dmSetPlan, hm.entries_ok] at hp
      have hf := plan_found _ _ (by
        intro e he
        obtain ⟨ix, hix, rfl⟩ := List.mem_map.1 he
        exact (mem_indexProduct _ _).1 hix) (by
        rw [List.map_map]
        simpa [Function.comp_def] using indexProduct_nodup m.shape) hvi hp
      rw [writeAll_total _ valueAt mem.length L (fun m x hx => hv m x.1 (hf x hx).1)
        (fun _ _ _ => Storage.setItem_length _ _ _ _) ?_ mem rfl] at he
      · simp at he
      · intro m' hm' x hx v
        obtain ⟨_, e', he', h2⟩ := hf x hx
        obtain ⟨ix, hix, rfl⟩ := List.mem_map.1 he'
        rw [← h2]
        exact setItem_elem_total d m' (hd.of_length hm') _ (hm.into ix ((mem_indexProduct _ _).1 hix)) v

/-- A case: writing a `COO` with the rows reversed, and the same where the value of one element cannot be read: the
elements before it have been written. -/
example : (Storage.coo sampleCOO).WF sampleItems ∧
    (Storage.coo sampleCOO).setItemLazy sampleItems (.one (.slice ⟨none, none, some (-1)⟩))
      (fun _ vi => .ok (some vi.sum)) = ⟨[some 1, some 3, some 1], none⟩ ∧
    (Storage.coo sampleCOO).setItemLazy sampleItems (.one (.slice ⟨none, none, none⟩))
      (fun _ vi => if vi = [1, 1] then .error .index else .ok (some 9)) = ⟨[some 9, some 9, some 5], some .index⟩ :=
  ⟨sampleCOO_wf, by decide +kernel, by decide +kernel⟩

/-- A case of all or nothing: the assignment raises because the slice has two axes of size zero; nothing is written. -/
example : (Storage.flatcoo ⟨[1, 0, 0], ⟨0, 0, none⟩, [], ⟨0, 0, none⟩⟩ : Storage (Option Int)).WF [some 4] ∧
    ValidItems (items (.one (.int 0))) [1, 0, 0] ∧
    (Storage.flatcoo ⟨[1, 0, 0], ⟨0, 0, none⟩, [], ⟨0, 0, none⟩⟩ : Storage (Option Int)).setItemLazy [some 4]
      (.one (.int 0)) (fun _ vi => .ok (some vi.sum)) = ⟨[some 4], some .assertion⟩ :=
  ⟨⟨⟨[], flatOf_rep [1, 0, 0] [] ⟨List.Pairwise.nil, by simp⟩ ⟨0, 0, none⟩ rfl⟩, by simp [Buffer.WF]⟩, trivial,
    by decide +kernel⟩

end Gcs
