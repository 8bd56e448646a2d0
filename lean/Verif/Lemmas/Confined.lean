import Verif.Props.Lazy

/-!
# Lemmas: the cells that an assignment writes
-/

namespace Gcs

open Spec

variable {V : Type}

/-- Writing the same value to several cells. -/
def writeCells (mem : List V) (cells : List Nat) (v : V) : Wr V := ⟨setCells mem (cells.map fun c => (c, v)), none⟩

theorem writeAll_cells {P : Type} (write1 : List V → P → V → Wr V) (valueAt : List V → List Int → PyM V)
    (cells : P → List Nat) (n : Nat) (es : List (List Int × P))
    (h : ∀ m, m.length = n → ∀ e ∈ es, ∀ v, write1 m e.2 v = writeCells m (cells e.2) v) (mem : List V)
    (hm : mem.length = n) :
    writeAll write1 valueAt es mem = writeAll writeCells valueAt (es.map fun e => (e.1, cells e.2)) mem := by
  induction es generalizing mem with
  | nil => rfl
  | cons e es ih =>
    obtain ⟨vi, p⟩ := e
    simp only [writeAll, List.map_cons]
    cases valueAt mem vi with
    | error e => rfl
    | ok v =>
      simp only [h mem hm (vi, p) (by simp) v]
      exact ih (fun m hm e he => h m hm e (by simp [he])) _ (by simp only [writeCells, setCells_length, hm])

/-- The writes, and that they are the same on lists that differ only where the values do not come from. -/
theorem writeAll_agree (valueAt : List V → List Int → PyM V) (T : Nat → Prop) (n : Nat) (es : List (List Int × List Nat))
    (hv : ∀ m m', m.length = n → m'.length = n → (∀ c, ¬ T c → m[c]? = m'[c]?) → ∀ vi, valueAt m vi = valueAt m' vi)
    (m m' : List V) (hm : m.length = n) (hm' : m'.length = n) (ha : ∀ c, ¬ T c → m[c]? = m'[c]?) :
    ∃ W e, writeAll writeCells valueAt es m = ⟨setCells m W, e⟩ ∧ writeAll writeCells valueAt es m' = ⟨setCells m' W, e⟩ ∧
      ∀ x ∈ W, (∃ e ∈ es, x.1 ∈ e.2) ∧ ∃ l vi, l.length = n ∧ valueAt l vi = .ok x.2 := by
  induction es generalizing m m' with
  | nil => exact ⟨[], none, rfl, rfl, by simp⟩
  | cons e es ih =>
    obtain ⟨vi, cs⟩ := e
    simp only [writeAll]
    have e1 := hv m m' hm hm' ha vi
    rw [← e1]
    cases hx : valueAt m vi with
    | error e => exact ⟨[], some e, rfl, rfl, by simp⟩
    | ok v =>
      simp only [writeCells]
      have hk : ∀ c, ¬ T c → (setCells m (cs.map fun c => (c, v)))[c]? = (setCells m' (cs.map fun c => (c, v)))[c]? := by
        intro c hc
        by_cases hl : c < n
        · rw [setCells_const _ _ _ _ (by omega), setCells_const _ _ _ _ (by omega), ha c hc]
        · rw [List.getElem?_eq_none (by rw [setCells_length]; omega), List.getElem?_eq_none (by rw [setCells_length]; omega)]
      obtain ⟨W, e, h1, h2, h3⟩ := ih _ _ (by rw [setCells_length, hm]) (by rw [setCells_length, hm']) hk
      refine ⟨(cs.map fun c => (c, v)) ++ W, e, ?_, ?_, ?_⟩
      · rw [setCells_append]; exact h1
      · rw [setCells_append]; exact h2
      · intro x hx'
        rcases List.mem_append.1 hx' with hx' | hx'
        · obtain ⟨c, hc, rfl⟩ := List.mem_map.1 hx'
          exact ⟨⟨(vi, cs), by simp, hc⟩, m, vi, hm, hx⟩
        · obtain ⟨⟨e, he, hc⟩, r⟩ := h3 x hx'
          exact ⟨⟨e, by simp [he], hc⟩, r⟩

/-- `s[index] = ...` is refused, or is a loop of writes to cells in `R`; the positions do not depend on the list. -/
def Storage.Confined (s : Storage V) (n : Nat) (index : Index) (R : Nat → Prop) : Prop :=
  (∃ e, ∀ m valueAt, m.length = n → s.setItem m index valueAt = ⟨m, some e⟩) ∨
  ∃ es : List (List Int × List Nat), (∀ m valueAt, m.length = n → s.setItem m index valueAt = writeAll writeCells valueAt es m) ∧
    ∀ e ∈ es, ∀ c ∈ e.2, R c

theorem Storage.Confined.mono {s : Storage V} {n : Nat} {index : Index} {R R' : Nat → Prop} (h : s.Confined n index R)
    (hr : ∀ c, R c → R' c) : s.Confined n index R' := by
  rcases h with h | ⟨es, h1, h2⟩
  · exact .inl h
  · exact .inr ⟨es, h1, fun e he c hc => hr c (h2 e he c hc)⟩

theorem Storage.Confined.agree {s : Storage V} {n : Nat} {index : Index} {R : Nat → Prop} (h : s.Confined n index R)
    (valueAt : List V → List Int → PyM V) (T : Nat → Prop)
    (hv : ∀ m m', m.length = n → m'.length = n → (∀ c, ¬ T c → m[c]? = m'[c]?) → ∀ vi, valueAt m vi = valueAt m' vi)
    (m m' : List V) (hm : m.length = n) (hm' : m'.length = n) (ha : ∀ c, ¬ T c → m[c]? = m'[c]?) :
    ∃ W e, s.setItem m index valueAt = ⟨setCells m W, e⟩ ∧ s.setItem m' index valueAt = ⟨setCells m' W, e⟩ ∧
      ∀ x ∈ W, R x.1 ∧ ∃ l vi, l.length = n ∧ valueAt l vi = .ok x.2 := by
  rcases h with ⟨e, h⟩ | ⟨es, h1, h2⟩
  · exact ⟨[], some e, h m _ hm, h m' _ hm', by simp⟩
  · rw [h1 m _ hm, h1 m' _ hm']
    obtain ⟨W, e, g1, g2, g3⟩ := writeAll_agree valueAt T n es hv m m' hm hm' ha
    exact ⟨W, e, g1, g2, fun x hx => ⟨let ⟨⟨e, he, hc⟩, _⟩ := g3 x hx; h2 e he _ hc, (g3 x hx).2⟩⟩

theorem Storage.Confined.writes {s : Storage V} {n : Nat} {index : Index} {R : Nat → Prop} (h : s.Confined n index R)
    (valueAt : List V → List Int → PyM V) (m : List V) (hm : m.length = n) :
    ∃ W e, s.setItem m index valueAt = ⟨setCells m W, e⟩ ∧
      ∀ x ∈ W, R x.1 ∧ ∃ l vi, l.length = n ∧ valueAt l vi = .ok x.2 := by
  obtain ⟨W, e, h1, _, h2⟩ := h.agree valueAt (fun _ => False)
    (fun m m' _ _ ha vi => by rw [List.ext_getElem? fun c => ha c (by simp)]) m m hm hm (fun _ _ => rfl)
  exact ⟨W, e, h1, h2⟩

theorem setCells_get (mem : List V) (W : List (Nat × V)) (c : Nat) :
    (setCells mem W)[c]? = mem[c]? ∨ ∃ v, (c, v) ∈ W ∧ (setCells mem W)[c]? = some v := by
  induction W generalizing mem with
  | nil => exact .inl rfl
  | cons x W ih =>
    simp only [setCells]
    rcases ih (mem.set x.1 x.2) with h | ⟨v, h1, h2⟩
    · by_cases hc : x.1 = c
      · subst hc
        by_cases hl : x.1 < mem.length
        · exact .inr ⟨x.2, by simp, by rw [h, List.getElem?_set_self hl]⟩
        · left
          rw [h, List.getElem?_eq_none (by simp; omega), List.getElem?_eq_none (by omega)]
      · left
        rw [h, List.getElem?_set_ne hc]
    · exact .inr ⟨v, by simp [h1], h2⟩

theorem setCells_comm (mem : List V) (W W' : List (Nat × V)) (h : ∀ x ∈ W, ∀ y ∈ W', x.1 ≠ y.1) :
    setCells (setCells mem W) W' = setCells (setCells mem W') W := by
  induction W generalizing mem with
  | nil => rfl
  | cons x W ih =>
    have key : ∀ (W' : List (Nat × V)) (mem : List V), (∀ y ∈ W', x.1 ≠ y.1) →
        setCells (mem.set x.1 x.2) W' = (setCells mem W').set x.1 x.2 := by
      intro W'
      induction W' with
      | nil => intro mem _; rfl
      | cons y W' ih =>
        intro mem hy
        simp only [setCells]
        rw [List.set_comm _ _ (hy y (by simp)), ih _ fun z hz => hy z (by simp [hz])]
    simp only [setCells]
    rw [ih _ fun a ha => h a (by simp [ha]), key W' mem (h x (by simp))]

/-- Two assignments to different cells, with values that do not come from the cells of the other. -/
theorem Storage.Confined.swap {s t : Storage V} {n : Nat} {i k : Index} {R T : Nat → Prop} (hs : s.Confined n i R)
    (ht : t.Confined n k T) (hd : ∀ c, R c → ¬ T c) (f g : List V → List Int → PyM V)
    (hf : ∀ m m', m.length = n → m'.length = n → (∀ c, ¬ T c → m[c]? = m'[c]?) → ∀ vi, f m vi = f m' vi)
    (hg : ∀ m m', m.length = n → m'.length = n → (∀ c, ¬ R c → m[c]? = m'[c]?) → ∀ vi, g m vi = g m' vi)
    (m : List V) (hm : m.length = n) :
    (t.setItem (s.setItem m i f).mem k g).mem = (s.setItem (t.setItem m k g).mem i f).mem ∧
    (t.setItem (s.setItem m i f).mem k g).err = (t.setItem m k g).err ∧
    (s.setItem (t.setItem m k g).mem i f).err = (s.setItem m i f).err := by
  obtain ⟨A, a, hA, hA'⟩ := hs.writes f m hm
  obtain ⟨B, b, hB, hB'⟩ := ht.writes g m hm
  have keep : ∀ (W : List (Nat × V)) (P : Nat → Prop), (∀ x ∈ W, P x.1) → ∀ c, ¬ P c → m[c]? = (setCells m W)[c]? := by
    intro W P hW c hc
    rw [setCells_not_mem]
    intro hx
    obtain ⟨x, hx', rfl⟩ := List.mem_map.1 hx
    exact hc (hW x hx')
  obtain ⟨C, c, hC, hC2, hC'⟩ := hs.agree f T hf m (setCells m B) hm (by rw [setCells_length, hm])
    (keep B T fun x hx => (hB' x hx).1)
  obtain ⟨D, d, hD, hD2, hD'⟩ := ht.agree g R hg m (setCells m A) hm (by rw [setCells_length, hm])
    (keep A R fun x hx => (hA' x hx).1)
  rw [hA] at hC
  rw [hB] at hD
  simp only [Wr.mk.injEq] at hC hD
  obtain ⟨hC, rfl⟩ := hC
  obtain ⟨hD, rfl⟩ := hD
  simp only [hA, hB, hC2, hD2, and_true]
  rw [hC, hD]
  exact setCells_comm m C D fun x hx y hy he => hd _ (hC' x hx).1 (he ▸ (hD' y hy).1)

/-! ## The cells of an object -/

/-- Cell `c` of the list holds the element at `ix`: whatever is written there is read there. -/
def Spec.CellAt [DecidableEq V] (s : Storage V) (mem : List V) (ix : List Int) (c : Nat) : Prop :=
  c < mem.length ∧ ∀ v, Reads s (mem.set c v) ix v

/-- Cell `c` holds an element of the object. -/
def Spec.CellOf [DecidableEq V] (s : Storage V) (mem : List V) (c : Nat) : Prop :=
  ∃ ix, InBox ix s.shape ∧ CellAt s mem ix c

/-- The cells that assignments to the object can change.  They are those of its elements, but a `DM` around a sparse
storage or a `DM` changes all stored elements of what it wraps (C39, C43). -/
def Spec.Reach [DecidableEq V] : Storage V → List V → Nat → Prop
  | .dm m d, mem, c =>
    if d.cls = .buffer ∨ d.cls = .strided then CellOf (.dm m d) mem c else Reach d mem c
  | s, mem, c => CellOf s mem c

variable [DecidableEq V]

theorem cellAt_cell {s : Storage V} {mem : List V} (h : s.WF mem) {ix : List Int} (hi : InBox ix s.shape) {c : Nat}
    (hc : s.cellAt ix = some c) : CellAt s mem ix c := by
  have hl := h.cell_lt ix hi c hc
  refine ⟨hl, fun v => ?_⟩
  have h' : s.WF (mem.set c v) := h.of_length (by simp)
  have := h'.reads ix hi
  rw [h'.at_cell ix hi, hc] at this
  simpa [cellVal, hl] using this

theorem cellAt_reach {s : Storage V} {mem : List V} (h : s.WF mem) {ix : List Int} (hi : InBox ix s.shape) {c : Nat}
    (hc : s.cellAt ix = some c) : Reach s mem c := by
  induction s generalizing ix with
  | dm m d ih =>
    simp only [Reach]
    split
    · exact ⟨ix, hi, cellAt_cell h hi hc⟩
    · exact ih h.2 (h.1.into ix hi) hc
  | _ => exact ⟨ix, hi, cellAt_cell h hi hc⟩

theorem Sparse.reach {s : Storage V} {rows : List (List Int)} {b : Buffer V} (h : Sparse s rows b) {mem : List V}
    (hw : s.WF mem) {q : Nat} (hq : q < rows.length) : Reach s mem (b.offset + q) :=
  cellAt_reach hw (h.rows_ok.inbox _ (List.getElem_mem hq)) (h.cell_stored q hq)

/-- A loop of a sparse storage. -/
theorem Sparse.confined {s : Storage V} {rows : List (List Int)} {b : Buffer V} (h : Sparse s rows b) {mem : List V}
    (hw : s.WF mem) (hb : b.WF mem) {index : Index} (plan : PyM (List (List Int × Int)))
    (hs : ∀ m valueAt, s.setItem m index valueAt = afterPlan b.write1 valueAt m plan)
    (hp : ∀ L, plan = .ok L → ∀ x ∈ L, ∃ e ∈ withPos rows, e.2 = x.2) : s.Confined mem.length index (Reach s mem) := by
  cases plan with
  | error e => exact .inl ⟨e, fun m va _ => hs m va⟩
  | ok L =>
    have hL := hp L rfl
    have hq : ∀ x ∈ L, ∃ q : Nat, q < rows.length ∧ x.2 = q := by
      intro x hx
      obtain ⟨e, he, h2⟩ := hL x hx
      obtain ⟨q, hq, _, e2⟩ := (mem_withPos e.1 e.2).1 he
      exact ⟨q, hq, by rw [← h2, e2]⟩
    refine .inr ⟨L.map fun e => (e.1, [((b.offset : Int) + e.2).toNat]), fun m va hm => ?_, ?_⟩
    · rw [hs]
      refine writeAll_cells b.write1 va (fun p => [((b.offset : Int) + p).toNat]) mem.length L ?_ m hm
      intro m' hm' e he v
      obtain ⟨q, hq, e2⟩ := hq e he
      have := h.size
      unfold Buffer.WF at hb
      rw [Buffer.write1_ok _ _ _ _ (by omega) (by omega)]
      rfl
    · intro e he c hc
      obtain ⟨x, hx, rfl⟩ := List.mem_map.1 he
      obtain ⟨q, hq, e2⟩ := hq x hx
      simp only [List.mem_singleton] at hc
      rw [hc, show ((b.offset : Int) + x.2).toNat = b.offset + q by omega]
      exact h.reach hw hq

/-- The loop over entries: what is found is at positions of entries. -/
theorem slicePlan_sub {P : Type} {entries : PyM (List (List Int × P))} {es : List (List Int × P)} {shape : List Nat}
    {index : Index} (he : ∀ l, entries = .ok l → l = es) {L : List (List Int × P)}
    (h : (do
      let nix ← normalizeIndex index shape
      let (sh, st, off) ← indexStrided nix shape (makeStrides shape)
      sliceEntries entries shape sh st off) = .ok L) : ∀ x ∈ L, ∃ e ∈ es, e.2 = x.2 := by
  simp only [bind_eq_ok] at h
  obtain ⟨nix, _, ⟨sh, st, off⟩, _, h⟩ := h
  cases hx : entries with
  | error e =>
    rw [hx] at h
    simp only [sliceEntries, bind, Except.bind] at h
    split at h <;> simp at h
  | ok l =>
    rw [hx] at h
    rw [← he l hx]
    exact sliceEntries_sub h

theorem FlatCOO.Rep.entries_sub {f : FlatCOO V} {rows : List (List Int)} (h : f.Rep rows) (l : List (List Int × Int))
    (hl : f.entries = .ok l) : l = withPos rows := by
  by_cases hp : PosShape f.shape
  · rw [h.entries_ok hp] at hl
    cases hl
    rfl
  · have e := rows_nil h.rows_ok hp
    subst e
    have hz : f.findices.size = 0 := by rw [h.fsize]; rfl
    cases hd : initDiophantine (makeStrides f.shape) (some f.shape) with
    | error e => simp only [FlatCOO.entries, hd, bind, Except.bind] at hl; simp at hl
    | ok data =>
      simp only [FlatCOO.entries, hd, bind, Except.bind, hz] at hl
      cases hl
      rfl

/-- A selection with an element is one of an array with elements. -/
theorem Normalized.pos {nix : List NIx} {shape : List Nat} (h : Normalized nix shape) {j : List Int}
    (hj : InBox j (selShape (nix.map NIx.toIx) shape)) : PosShape shape := by
  induction nix generalizing shape j with
  | nil =>
    cases shape with
    | nil => intro n hn; simp at hn
    | cons => exact h.elim
  | cons a nix ih =>
    cases shape with
    | nil => cases a <;> exact h.elim
    | cons n shape =>
      cases a with
      | int i =>
        have hr := ih h.2 hj
        have h1 := h.1
        intro k hk
        rcases List.mem_cons.1 hk with rfl | hk
        · omega
        · exact hr k hk
      | none =>
        match j, hj with
        | j0 :: j, hj =>
          have hr := ih h hj.2
          have h1 := hj.1
          intro k hk
          rcases List.mem_cons.1 hk with rfl | hk
          · omega
          · exact hr k hk
        | [], hj => exact hj.elim
      | slice r =>
        match j, hj with
        | j0 :: j, hj =>
          have hr := ih h.2 hj.2
          have h1 := hj.1
          intro k hk
          rcases List.mem_cons.1 hk with rfl | hk
          · rcases Nat.eq_zero_or_pos k with rfl | h0
            · simp [slicePositions] at h1
              omega
            · exact h0
          · exact hr k hk
        | [], hj => exact hj.elim

/-- The loop of a `Strided`. -/
theorem Strided.confined_sel {s : Strided V} {mem : List V} (h : s.WF mem) (hp : PosShape s.shape) (index : Index)
    (hv : ValidItems (items index) s.shape) :
    (Storage.strided s).Confined mem.length index fun c =>
      ∃ j, InBox j (selShape (items index) s.shape) ∧ c = s.cell (selSource (items index) s.shape j) := by
  obtain ⟨nix, st, off, h1, h2, h3, h4, h5⟩ := index_ok index s.shape s.strides hp hv h.len
  refine .inr ⟨((indexProduct (selShape (items index) s.shape)).map fun j => (j, off + address j st)).map fun e =>
    (e.1, [((s.data.offset : Int) + e.2).toNat]), fun m va hm => ?_, ?_⟩
  · simp only [Storage.setItem, Strided.setItem, h1, h3, bind, Except.bind, Strided.sliceEntries_ok _ st off h4]
    refine writeAll_cells _ va (fun p => [((s.data.offset : Int) + p).toNat]) mem.length _ ?_ m hm
    intro m' hm' e he v
    obtain ⟨j, hj, rfl⟩ := List.mem_map.1 he
    have hj := (mem_indexProduct _ _).1 hj
    obtain ⟨a1, a2⟩ := h5 j hj
    have b1 := h.addr _ a1
    have b2 := h.buf
    unfold Buffer.WF at b2
    rw [Buffer.write1_ok _ _ _ _ (by simp only; omega) (by simp only; omega)]
    rfl
  · intro e he c hc
    rw [List.map_map] at he
    obtain ⟨j, hj, rfl⟩ := List.mem_map.1 he
    have hj := (mem_indexProduct _ _).1 hj
    simp only [Function.comp_apply, List.mem_singleton] at hc
    refine ⟨j, hj, ?_⟩
    have := (h5 j hj).2
    rw [hc, Strided.cell]
    congr 1
    omega

theorem Strided.confined {s : Strided V} {mem : List V} (h : s.WF mem) (index : Index) :
    (Storage.strided s).Confined mem.length index (Reach (.strided s) mem) := by
  have h' : (Storage.strided s).WF mem := h
  cases hn : normalizeIndex index s.shape with
  | error e => exact .inl ⟨e, fun m va _ => by simp only [Storage.setItem, Strided.setItem, hn, bind, Except.bind]⟩
  | ok nix =>
    cases hs : indexStrided nix s.shape s.strides with
    | error e => exact .inl ⟨e, fun m va _ => by simp only [Storage.setItem, Strided.setItem, hn, hs, bind, Except.bind]⟩
    | ok t =>
      obtain ⟨sh, st, off⟩ := t
      have hN := normalizeIndex_normalized _ _ _ hn
      obtain ⟨e1, e2, _⟩ := indexStrided_inv nix s.shape _ hN h.len _ _ _ hs
      by_cases hp : PosShape s.shape
      · have hn' : normalizeIndex (.tuple (nix.map NIx.toIx)) s.shape = .ok nix := normalizeItems_toIx nix s.shape hN
        have := (Strided.confined_sel h hp (.tuple (nix.map NIx.toIx)) (normalized_valid nix _ hN)).mono
          (R' := Reach (.strided s) mem) (by
            rintro c ⟨j, hj, rfl⟩
            exact cellAt_reach h' (source_inBox (index := .tuple (nix.map NIx.toIx)) hp (normalized_valid nix _ hN) hj) rfl)
        have he : ∀ m va, (Storage.strided s).setItem m index va
            = (Storage.strided s).setItem m (.tuple (nix.map NIx.toIx)) va := by
          intro m va
          simp only [Storage.setItem, Strided.setItem, hn, hn', bind, Except.bind]
        rcases this with ⟨e, g⟩ | ⟨es, g1, g2⟩
        · exact .inl ⟨e, fun m va hm => by rw [he, g m va hm]⟩
        · exact .inr ⟨es, fun m va hm => by rw [he, g1 m va hm], g2⟩
      · refine .inr ⟨[], fun m va hm => ?_, by simp⟩
        have hz : indexProduct sh = [] := by
          cases hx : indexProduct sh with
          | nil => rfl
          | cons j l =>
            have := (mem_indexProduct sh j).1 (by rw [hx]; simp)
            exact absurd (hN.pos (e1 ▸ this)) hp
        simp only [Storage.setItem, Strided.setItem, hn, hs, bind, Except.bind, Strided.sliceEntries_ok _ st off e2, hz]
        rfl

/-- A loop with one value. -/
theorem writeAll_one (es : List (List Int × List Nat)) (v : V) (m : List V) :
    writeAll writeCells (fun _ _ => .ok v) es m = writeCells m (es.flatMap (·.2)) v := by
  induction es generalizing m with
  | nil => rfl
  | cons e es ih =>
    simp only [writeAll, writeCells] at ih ⊢
    rw [ih, List.flatMap_cons, List.map_append, setCells_append]

/-- Setting one element of what a `DM` wraps, at an element of the `DM`. -/
theorem target_cells {m : DMMeta} {d : Storage V} {mem : List V} (h : (Storage.dm m d).WF mem) {ix : List Int}
    (hi : InBox ix m.shape)
    (hd : ∃ cells : List Nat, (∀ c ∈ cells, Reach d mem c) ∧
      (d.cls = .buffer ∨ d.cls = .strided →
        ∃ c, d.cellAt (target m.rdims m.rstrides m.roffset ix) = some c ∧ cells = [c]) ∧
      ∀ l v, l.length = mem.length → d.setItem l (.tuple ((target m.rdims m.rstrides m.roffset ix).map .int))
        (fun _ _ => .ok v) = writeCells l cells v) :
    ∃ cells : List Nat, (∀ c ∈ cells, Reach (.dm m d) mem c) ∧
      ∀ l v, l.length = mem.length → d.setItem l (.tuple ((target m.rdims m.rstrides m.roffset ix).map .int))
        (fun _ _ => .ok v) = writeCells l cells v := by
  obtain ⟨cells, h1, h2, h3⟩ := hd
  refine ⟨cells, fun c hc => ?_, h3⟩
  by_cases hcls : d.cls = .buffer ∨ d.cls = .strided
  · obtain ⟨c', hc', rfl⟩ := h2 hcls
    rw [List.mem_singleton.1 hc]
    exact cellAt_reach (s := .dm m d) h hi hc'
  · simp only [Reach, if_neg hcls]
    exact h1 c hc

/-- The loop of a `DM`. -/
theorem dm_loop {m : DMMeta} {d : Storage V} {mem : List V} (L : List (List Int × List Int))
    (hL : ∀ e ∈ L, ∃ cells : List Nat, (∀ c ∈ cells, Reach (.dm m d) mem c) ∧
      ∀ l v, l.length = mem.length → d.setItem l (.tuple (e.2.map .int)) (fun _ _ => .ok v) = writeCells l cells v) :
    ∃ es : List (List Int × List Nat), (∀ e ∈ es, ∀ c ∈ e.2, Reach (.dm m d) mem c) ∧
      ∀ l valueAt, l.length = mem.length →
        writeAll (fun mem rindex v => d.setItem mem (.tuple (rindex.map .int)) (fun _ _ => .ok v)) valueAt L l
          = writeAll writeCells valueAt es l := by
  classical
  let cells : List Int → List Nat := fun p =>
    if hx : ∃ cells : List Nat, (∀ c ∈ cells, Reach (.dm m d) mem c) ∧
      ∀ l v, l.length = mem.length → d.setItem l (.tuple (p.map .int)) (fun _ _ => .ok v) = writeCells l cells v
    then hx.choose else []
  have hc : ∀ e ∈ L, (∀ c ∈ cells e.2, Reach (.dm m d) mem c) ∧
      ∀ l v, l.length = mem.length → d.setItem l (.tuple (e.2.map .int)) (fun _ _ => .ok v) = writeCells l (cells e.2) v := by
    intro e he
    have hx := hL e he
    have : cells e.2 = hx.choose := dif_pos hx
    rw [this]
    exact hx.choose_spec
  refine ⟨L.map fun e => (e.1, cells e.2), ?_, fun l va hl => ?_⟩
  · intro e he
    obtain ⟨x, hx, rfl⟩ := List.mem_map.1 he
    exact (hc x hx).1
  · exact writeAll_cells _ va cells mem.length L (fun l' hl' e he v => (hc e he).2 l' v hl') l hl

/-- Setting one element of a `Buffer` or a `Strided`. -/
theorem dense_cells {s : Storage V} {mem : List V} (h : s.WF mem) {ix : List Int} (hi : InBox ix s.shape)
    (hc : s.cls = .buffer ∨ s.cls = .strided) :
    ∃ cells : List Nat, (∀ c ∈ cells, Reach s mem c) ∧
      (s.cls = .buffer ∨ s.cls = .strided → ∃ c, s.cellAt ix = some c ∧ cells = [c]) ∧
      ∀ m v, m.length = mem.length → s.setItem m (.tuple (ix.map .int)) (fun _ _ => .ok v) = writeCells m cells v := by
  obtain ⟨c, hc'⟩ := dense_cell hc ix hi
  refine ⟨[c], ?_, fun _ => ⟨c, hc', rfl⟩, fun m v hm => ?_⟩
  · intro c' h'
    rw [List.mem_singleton.1 h']
    exact cellAt_reach h hi hc'
  · rw [dense_set (h.of_length hm) hc ix hi v, hc']
    rfl

/-- Setting one element of a sparse storage. -/
theorem sparse_cells {s : Storage V} {mem : List V} (h : s.WF mem) {ix : List Int} (hi : InBox ix s.shape)
    {rows : List (List Int)} {b : Buffer V} (hs : Sparse s rows b) (hb : b.WF mem) :
    ∃ cells : List Nat, (∀ c ∈ cells, Reach s mem c) ∧
      (s.cls = .buffer ∨ s.cls = .strided → ∃ c, s.cellAt ix = some c ∧ cells = [c]) ∧
      ∀ m v, m.length = mem.length → s.setItem m (.tuple (ix.map .int)) (fun _ _ => .ok v) = writeCells m cells v := by
  obtain ⟨a1, a2⟩ := ints_select ix _ hi
  refine ⟨(List.range rows.length).map fun q => b.offset + q, ?_, ?_, fun m v hm => ?_⟩
  · intro c hc
    obtain ⟨q, hq, rfl⟩ := List.mem_map.1 hc
    exact hs.reach h (List.mem_range.1 hq)
  · cases hs <;> simp [Storage.cls]
  · have hb' : b.WF m := by unfold Buffer.WF at hb ⊢; omega
    rw [sparse_setItem_elem hs (InBox_pos hi) m hb' (.tuple (ix.map .int)) a1 a2 v (fun _ _ => .ok v) (fun _ => rfl),
      writeCells, List.map_map]
    rfl

/-- Setting one element. -/
theorem elem_confined (s : Storage V) (mem : List V) (h : s.WF mem) (ix : List Int) (hi : InBox ix s.shape) :
    ∃ cells : List Nat, (∀ c ∈ cells, Reach s mem c) ∧
      (s.cls = .buffer ∨ s.cls = .strided → ∃ c, s.cellAt ix = some c ∧ cells = [c]) ∧
      ∀ m v, m.length = mem.length → s.setItem m (.tuple (ix.map .int)) (fun _ _ => .ok v) = writeCells m cells v := by
  induction s generalizing ix with
  | buffer b => exact dense_cells h hi (.inl rfl)
  | strided s => exact dense_cells h hi (.inr rfl)
  | coo c =>
    obtain ⟨⟨rows, hr⟩, hb⟩ := h
    exact sparse_cells (s := .coo c) (mem := mem) ⟨⟨rows, hr⟩, hb⟩ hi (.coo hr) hb
  | flatcoo c =>
    obtain ⟨⟨rows, hr⟩, hb⟩ := h
    exact sparse_cells (s := .flatcoo c) (mem := mem) ⟨⟨rows, hr⟩, hb⟩ hi (.flatcoo hr) hb
  | csr c =>
    obtain ⟨⟨rows, hr⟩, hb⟩ := h
    exact sparse_cells (s := .csr c) (mem := mem) ⟨⟨rows, hr⟩, hb⟩ hi (.csr hr) hb
  | dm m d ih =>
    have h' := h
    obtain ⟨hm, hd⟩ := h
    obtain ⟨a1, a2⟩ := ints_select ix _ hi
    obtain ⟨es, g1, g2⟩ := dm_loop (m := m) (d := d) (mem := mem)
      ((indexProduct m.shape).map fun ix => ([], target m.rdims m.rstrides m.roffset ix)) (by
        intro e he
        obtain ⟨jx, hjx, rfl⟩ := List.mem_map.1 he
        have hj := (mem_indexProduct _ _).1 hjx
        exact target_cells h' hj (ih hd _ (hm.into jx hj)))
    refine ⟨es.flatMap (·.2), ?_, by simp [Storage.cls], fun l v hl => ?_⟩
    · intro c hc
      obtain ⟨e, he, hc⟩ := List.mem_flatMap.1 hc
      exact g1 e he c hc
    · simp only [Storage.setItem]
      rw [dm_plan_elem hm (InBox_pos hi) (.tuple (ix.map .int)) a1 a2]
      simp only
      rw [g2 l _ hl, writeAll_one]

/-- Every assignment, of any values, to an object that is not a `Buffer`. -/
theorem Storage.WF.confined {s : Storage V} {mem : List V} (h : s.WF mem) (hb : s.cls ≠ .buffer) (index : Index) :
    s.Confined mem.length index (Reach s mem) := by
  cases s with
  | buffer b => exact absurd rfl hb
  | strided s => exact Strided.confined h index
  | coo c =>
    obtain ⟨⟨rows, hr⟩, hw⟩ := h
    refine (Sparse.coo hr).confined ⟨⟨rows, hr⟩, hw⟩ hw (Storage.setPlan (.coo c) index) (fun m va => ?_) ?_
    · simp only [Storage.setItem]
      cases Storage.setPlan (.coo c) index <;> rfl
    · intro L hL
      exact slicePlan_sub (fun l hl => by rw [hr.entries_ok] at hl; cases hl; rfl) hL
  | flatcoo c =>
    obtain ⟨⟨rows, hr⟩, hw⟩ := h
    refine (Sparse.flatcoo hr).confined ⟨⟨rows, hr⟩, hw⟩ hw (Storage.setPlan (.flatcoo c) index) (fun m va => ?_) ?_
    · simp only [Storage.setItem]
      cases Storage.setPlan (.flatcoo c) index <;> rfl
    · intro L hL
      exact slicePlan_sub hr.entries_sub hL
  | csr c =>
    obtain ⟨⟨rows, hr⟩, hw⟩ := h
    refine (Sparse.csr hr).confined ⟨⟨rows, hr⟩, hw⟩ hw (Storage.setPlan (.csr c) index) (fun m va => ?_) ?_
    · simp only [Storage.setItem]
      cases Storage.setPlan (.csr c) index <;> rfl
    · intro L hL
      exact slicePlan_sub (fun l hl => by rw [hr.entries_ok] at hl; cases hl; rfl) hL
  | dm m d =>
    have h' := h
    obtain ⟨hm, hd⟩ := h
    cases hp : Storage.dmSetPlan m index with
    | error e => exact .inl ⟨e, fun l va _ => by simp only [Storage.setItem, hp]⟩
    | ok L =>
      have hL := slicePlan_sub (fun l hl => by rw [hm.entries_ok] at hl; cases hl; rfl) hp
      obtain ⟨es, g1, g2⟩ := dm_loop (m := m) (d := d) (mem := mem) L (by
        intro e he
        obtain ⟨x, hx, e2⟩ := hL e he
        obtain ⟨jx, hjx, rfl⟩ := List.mem_map.1 hx
        have hj := (mem_indexProduct _ _).1 hjx
        rw [← e2]
        exact target_cells h' hj (elem_confined d mem hd _ (hm.into jx hj)))
      exact .inr ⟨es, fun l va hl => by simp only [Storage.setItem, hp]; exact g2 l va hl, g1⟩

/-- An object reads the same on lists that agree on its cells. -/
theorem Storage.WF.reads_agree {s : Storage V} {mem mem' : List V} (h : s.WF mem) (hl : mem'.length = mem.length)
    (ha : ∀ c, Reach s mem c → mem'[c]? = mem[c]?) (ix : List Int) (hi : InBox ix s.shape) :
    s.at mem' ix = s.at mem ix := by
  rw [(h.of_length hl).at_cell ix hi, h.at_cell ix hi]
  cases hx : s.cellAt ix with
  | none => rfl
  | some c => simp only [cellVal, List.getD_eq_getElem?_getD, ha c (cellAt_reach h hi hx)]

end Gcs
