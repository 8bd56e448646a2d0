import Verif.Model.C2SR
import Verif.Props.Ragged
import Verif.Props.Equality
import Verif.Props.Indexing

/-!
# C71: `C2SR`
-/

namespace Gcs

open Spec

variable {V : Type}

/-- C71.  The constructor accepts the arguments if and only if the shape has two axes and there is one length and one
pointer for each row, and the object has what was given.  Nothing is asked of the items: lengths, pointers and column
indices may be anything. -/
theorem C71_init (shape : List Nat) (channels : Int) (rl rp ci : Buffer (Option Int)) (ml mp mc : List (Option Int))
    (data : Buffer V) :
    ((∃ c, C2SR.new shape channels rl ml rp mp ci mc data = .ok c) ↔
      ∃ rows cols, shape = [rows, cols] ∧ rl.size = rows ∧ rp.size = rows) ∧
    (∀ c, C2SR.new shape channels rl ml rp mp ci mc data = .ok c →
      c = ⟨shape, channels, rl, ml, rp, mp, ci, mc, data⟩) ∧
    ∀ e, C2SR.new shape channels rl ml rp mp ci mc data = .error e → e = .assertion := by
  match shape with
  | [] => simp [C2SR.new, pyAssert, bind, Except.bind]
  | [a] => simp [C2SR.new, pyAssert, bind, Except.bind]
  | [a, b] =>
    simp only [C2SR.new, pyAssert, bind, Except.bind, pyGet]
    by_cases h1 : rl.size = rp.size
    · by_cases h2 : a = rl.size
      · simp [h1, h2, pure, Except.pure]
      · have h3 : a ≠ rp.size := by rw [← h1]; exact h2
        simp [h1, h3, Ne.symm h3]
    · simp [h1]
      intro h; subst h; exact fun h' => h1 h'.symm
  | a :: b :: c :: rest => simp [C2SR.new, pyAssert, bind, Except.bind]

/-- C71.  No index reads anything from a `C2SR`; an index that is fine for the other classes raises
`NotImplementedError`. -/
theorem C71_no_reading (c : C2SR V) (mem : List V) (index : Index) :
    (∃ e, c.getItem mem index = .error e) ∧
    ((∀ n ∈ c.shape, 0 < n) → ValidItems (items index) c.shape → c.getItem mem index = .error .notImplemented) := by
  constructor
  · simp only [C2SR.getItem, bind, Except.bind]
    split
    · exact ⟨_, rfl⟩
    · split
      · exact ⟨_, rfl⟩
      · split
        · exact ⟨_, rfl⟩
        · exact ⟨_, rfl⟩
  · intro hp hv
    obtain ⟨nix, sh, st, off, h1, h2, _⟩ := C04_index_strided index c.shape (makeStrides c.shape) hp hv (makeStrides_length _)
    simp only [C2SR.getItem, bind, Except.bind, h1]
    split
    · rfl
    · rw [h2]; rfl

/-- C71.  No assignment to a `C2SR` writes anything, each raises; `NotImplementedError` for an index that is fine for
the other classes. -/
theorem C71_no_writing (c : C2SR V) (mem : List V) (index : Index) (valueAt : List V → List Int → PyM V) :
    (∃ e, c.setItem mem index valueAt = ⟨mem, some e⟩) ∧
    ((∀ n ∈ c.shape, 0 < n) → ValidItems (items index) c.shape → c.setItem mem index valueAt = ⟨mem, some .notImplemented⟩) := by
  have fails : ∀ sh st off, ∃ e, sliceEntries c.entries c.shape sh st off = .error e := by
    intro sh st off
    simp only [sliceEntries, C2SR.entries, bind, Except.bind]
    split <;> exact ⟨_, rfl⟩
  constructor
  · simp only [C2SR.setItem, bind, Except.bind]
    cases h1 : normalizeIndex index c.shape with
    | error e => exact ⟨e, rfl⟩
    | ok nix =>
      cases h2 : indexStrided nix c.shape (makeStrides c.shape) with
      | error e => exact ⟨e, by simp only [h2]⟩
      | ok r =>
        obtain ⟨e, he⟩ := fails r.1 r.2.1 r.2.2
        exact ⟨e, by simp only [h2, he]⟩
  · intro hp hv
    by_cases hne : selShape (items index) c.shape = []
    · obtain ⟨nix, sh, st, off, h1, h2, h3, h4, _⟩ :=
        C04_index_strided index c.shape (makeStrides c.shape) hp hv (makeStrides_length _)
      rw [hne] at h3
      subst h3
      have : st = [] := List.length_eq_zero_iff.1 (by simpa using h4)
      subst this
      simp only [C2SR.setItem, bind, Except.bind, h1, h2, sliceEntries, initDiophantine, C2SR.entries, pure, Except.pure]
    · obtain ⟨nix, st, off, L, h1, _, h3, h4, _⟩ :=
        sliceEntries_ok ([] : List (List Int × Int)) c.shape hp (by simp) (by simp) index hv hne
      simp only [C2SR.setItem, bind, Except.bind, h1, h3]
      simp only [sliceEntries, bind, Except.bind] at h4 ⊢
      split at h4
      · cases h4
      · simp only [C2SR.entries]

/-- C71.  The elements of a `C2SR` cannot be listed, and it cannot be compared element by element, neither with
something nor by another array that can list its elements; a loop over it raises. -/
theorem C71_no_elements [DecidableEq V] (c : C2SR V) (mem : List V) :
    c.elements mem = .error .notImplemented ∧ (∀ others, c.equal mem others = .error .notImplemented) ∧
    (∀ (s : Storage V) smem es, s.elements smem = .ok es → c.equalTo s smem mem = .error .notImplemented) ∧
    ((∀ n ∈ c.shape, 0 < n) → c.shape ≠ [] → ∀ i, c.next mem i = .error .notImplemented) := by
  refine ⟨rfl, fun _ => rfl, fun s smem es h => ?_, fun hp hne i => ?_⟩
  · simp only [C2SR.equalTo, h, bind, Except.bind]
    rfl
  · have hv : ValidItems (items (.one (.int i))) c.shape := by
      cases hs : c.shape with
      | nil => exact absurd hs hne
      | cons n rest => trivial
    simp only [C2SR.next, (C71_no_reading c mem (.one (.int i))).2 hp hv]

theorem mapM_all_fail {α β : Type} (f : α → PyM β) (l : List α) (hne : l ≠ []) (e : PyErr) (h : ∀ x ∈ l, f x = .error e) :
    l.mapM f = .error e := by
  cases l with
  | nil => exact absurd rfl hne
  | cons a l => rw [List.mapM_cons, h a List.mem_cons_self]; rfl

theorem buildFlat_all_fail [DecidableEq V] (cls : Cls) (hc : cls ≠ .dm) (shape : List Nat) (value : List Int → PyM V)
    (su u : V) (e : PyErr) (hp : ∀ n ∈ shape, 0 < n) (he : ∀ ix, InBox ix shape → value ix = .error e) :
    buildFlat cls shape value su u = .error e := by
  have hne : indexProduct shape ≠ [] := by
    obtain ⟨ix, hi⟩ := exists_inBox hp
    exact List.ne_nil_of_mem ((mem_indexProduct shape ix).2 hi)
  have h1 := mapM_all_fail (fun ix => do
    let v ← value ix
    return if v = su then u else v) _ hne e (fun x hx => by simp only [he x ((mem_indexProduct shape x).1 hx), bind, Except.bind])
  have h2 := mapM_all_fail (fun ix => do
    let v ← value ix
    return (ix, if v = su then u else v)) _ hne e (fun x hx => by simp only [he x ((mem_indexProduct shape x).1 hx), bind, Except.bind])
  simp only [bind, Except.bind] at h1 h2
  cases cls with
  | buffer => simp only [buildFlat, bufferBuild, h1, bind, Except.bind]
  | strided => simp only [buildFlat, stridedBuild, bufferBuild, h1, bind, Except.bind]
  | coo => simp only [buildFlat, cooBuild, h2, bind, Except.bind]
  | flatcoo => simp only [buildFlat, flatBuild, h2, bind, Except.bind]
  | csr => simp only [buildFlat, csrBuild, cooBuild, h2, bind, Except.bind]
  | dm => exact absurd rfl hc

theorem C2SR.getValue_fail (c : C2SR V) (mem : List V) (hp : ∀ n ∈ c.shape, 0 < n) (hne : c.shape ≠ []) (ix : List Int)
    (hi : InBox ix c.shape) : c.getValue mem ix = .error .notImplemented := by
  cases ix with
  | nil => cases hs : c.shape with
    | nil => exact absurd hs hne
    | cons n rest => rw [hs] at hi; exact hi.elim
  | cons i ix =>
    have hv : ValidItems (items (.tuple ((i :: ix).map .int))) c.shape := by
      simp only [items]
      have : ∀ (ix : List Int) (shape : List Nat), InBox ix shape → ValidItems (ix.map .int) shape := by
        intro ix
        induction ix with
        | nil => exact fun _ _ => trivial
        | cons i ix ih =>
          intro shape h
          cases shape with
          | nil => exact h.elim
          | cons n shape => exact ih shape h.2
      exact this _ _ hi
    simp only [C2SR.getValue, (C71_no_reading c mem _).2 hp hv, bind, Except.bind]

theorem indexProduct_empty {rows cols : Nat} (h : rows = 0 ∨ cols = 0) : indexProduct [rows, cols] = [] := by
  rw [List.eq_nil_iff_forall_not_mem]
  intro ix hx
  have := InBox_pos ((mem_indexProduct _ _).1 hx)
  simp [PosShape] at this
  omega

/-- C71.  A `C2SR` with a row and a column cannot be converted.  Without rows or without columns the conversions give
arrays without elements, except that to `CSR`, which raises `IndexError` (as in C28). -/
theorem C71_convert [DecidableEq V] (c : C2SR V) (mem : List V) (cls : Cls) (u : Option V) (rows cols : Nat)
    (hs : c.shape = [rows, cols]) :
    (0 < rows → 0 < cols → c.convert mem cls u = .error .notImplemented) ∧
    (rows = 0 ∨ cols = 0 → cls = .csr → c.convert mem cls u = .error .index) ∧
    (rows = 0 ∨ cols = 0 → cls ≠ .csr → ∃ r, c.convert mem cls u = .ok (r, []) ∧ r.cls = cls ∧
      r.shape = (if cls = .buffer then [0] else c.shape) ∧ r.unspec = u.getD c.data.unspec) := by
  have dm : ∀ value su u, dmBuild (V := V) .strided [rows, cols] none none value su u = (do
      let (st, m) ← buildFlat .strided [rows, cols] (fun rindex => do
        let ix ← promoteIndex [[rows], [cols]] [[0], [1]] [[1], [1]] [0, 0] rindex
        value ix) su u
      pyAssert (st.shape.length = 2)
      let mt ← DMMeta.new [rows, cols] [[0], [1]] [[1], [1]] [0, 0]
      return (.dm mt st, m)) := by
    intro value su u
    have hp : dmPrepare [rows, cols] none none false
        = .ok ([[0], [1]], [rows, cols], [[rows], [cols]], [[1], [1]], [0, 0]) := by
      simp [dmPrepare, dmPartitioning, pyAssert, bind, Except.bind, dmGroups, makeReduction, pyGet, pure, Except.pure, product,
        makeStrides, List.range, List.range.loop, List.replicate]
    simp only [dmBuild, dmBuildWith, reduceCtorEq, decide_false, hp, bind, Except.bind]
    rfl
  refine ⟨fun h1 h2 => ?_, fun h1 h2 => ?_, fun h1 h2 => ?_⟩
  · have hp : ∀ n ∈ c.shape, 0 < n := by rw [hs]; simp [h1, h2]
    have hv := c.getValue_fail mem hp (by rw [hs]; simp)
    cases cls with
    | dm =>
      simp only [C2SR.convert, hs, dm]
      rw [buildFlat_all_fail .strided (by simp) _ _ _ _ .notImplemented (by rw [← hs]; exact hp)]
      · rfl
      · intro ix hi
        match ix, hi with
        | [i, j], hi =>
          have e : promoteIndex [[rows], [cols]] [[0], [1]] [[1], [1]] [0, 0] [i, j] = .ok [i, j] := by
            obtain ⟨⟨a1, a2⟩, ⟨b1, b2⟩, _⟩ := hi
            simp [promoteIndex, promoteLoop, promoteGroup, pyDiv, pyMod, bind, Except.bind, pySet, pure, Except.pure,
              show ¬ rows = 0 by omega, show ¬ cols = 0 by omega, Int.fdiv_eq_ediv_of_nonneg, Int.fmod_eq_emod_of_nonneg,
              Int.emod_eq_of_lt a1 a2, Int.emod_eq_of_lt b1 b2]
          simp only [e, bind, Except.bind]
          exact hv _ (by rw [hs]; exact hi)
        | [], hi => exact hi.elim
        | [_], hi => exact hi.2.elim
        | _ :: _ :: _ :: _, hi => exact hi.2.2.elim
    | buffer => exact buildFlat_all_fail .buffer (by simp) _ _ _ _ _ hp hv
    | strided => exact buildFlat_all_fail .strided (by simp) _ _ _ _ _ hp hv
    | coo => exact buildFlat_all_fail .coo (by simp) _ _ _ _ _ hp hv
    | flatcoo => exact buildFlat_all_fail .flatcoo (by simp) _ _ _ _ _ hp hv
    | csr => exact buildFlat_all_fail .csr (by simp) _ _ _ _ _ hp hv
  · subst h2
    have := cooBuild_ok [rows, cols] (by simp) (c.getValue mem) c.unspec (u.getD c.unspec) (fun _ => u.getD c.unspec)
      (fun ix hi => by
        have := (mem_indexProduct _ _).2 hi
        rw [indexProduct_empty h1] at this
        simp at this)
    have hk : keptRows [rows, cols] (fun ix => subst c.unspec (u.getD c.unspec) (u.getD c.unspec)) (u.getD c.unspec) = [] := by
      rw [List.eq_nil_iff_forall_not_mem]
      intro ix hx
      have := (mem_indexProduct _ _).2 ((mem_keptRows _ _ _ _).1 hx).1
      rw [indexProduct_empty h1] at this
      simp at this
    have hv : (indicesOf 2 []).getView (imemOf 2 []) (.one (.int 0)) = .error .index := by decide +kernel
    simp only [C2SR.convert, hs, buildFlat, csrBuild, this, hk, bind, Except.bind]
    simp only [cooToCsr, cooOf, List.length_cons, List.length_nil, Nat.zero_add, Nat.reduceAdd, hv, bind, Except.bind]
  · have hi := indexProduct_empty h1
    have hz : product [rows, cols] = 0 := by
      rcases h1 with h1 | h1 <;> simp [product, h1]
    have hb : ∀ value su (u : V), bufferBuild [rows, cols] value su u = .ok (⟨0, 0, u⟩, []) := by
      intro value su u
      simp [bufferBuild, hi, Buffer.new, pyAssert, bind, Except.bind, pure, Except.pure]
    have hst : ∀ value su (u : V), ∃ s, buildFlat .strided [rows, cols] value su u = .ok (.strided s, []) ∧
        s.shape = [rows, cols] ∧ s.data = ⟨0, 0, u⟩ := by
      intro value su u
      refine ⟨⟨[rows, cols], makeStrides [rows, cols], ⟨0, 0, u⟩⟩, ?_, rfl, rfl⟩
      simp [buildFlat, stridedBuild, hb, Strided.new, makeStrides_length, pyAssert, bind, Except.bind, pure, Except.pure, hz]
    cases cls with
    | csr => exact absurd rfl h2
    | buffer =>
      refine ⟨.buffer ⟨0, 0, u.getD c.unspec⟩, ?_, rfl, rfl, rfl⟩
      simp only [C2SR.convert, hs, buildFlat, hb, bind, Except.bind, pure, Except.pure]
    | strided =>
      obtain ⟨s, e1, e2, e3⟩ := hst (c.getValue mem) c.unspec (u.getD c.unspec)
      exact ⟨.strided s, by simp only [C2SR.convert, hs, e1], rfl, by simp [Storage.shape, e2, hs], by
        simp [Storage.unspec, e3]; rfl⟩
    | dm =>
      obtain ⟨s, e1, e2, e3⟩ := hst (fun rindex => do
        let ix ← promoteIndex [[rows], [cols]] [[0], [1]] [[1], [1]] [0, 0] rindex
        c.getValue mem ix) c.unspec (u.getD c.unspec)
      refine ⟨.dm ⟨[rows, cols], [[0], [1]], [[rows], [cols]], [[1], [1]], [0, 0]⟩ (.strided s), ?_, rfl, by simp [Storage.shape, hs], by
        simp [Storage.unspec, e3]; rfl⟩
      simp only [C2SR.convert, hs, dm]
      rw [e1]
      simp [Storage.shape, e2, pyAssert, DMMeta.new, makeReduction, pyGet, bind, Except.bind, pure, Except.pure, List.range,
        List.range.loop]
    | coo =>
      have := cooBuild_ok [rows, cols] (by simp) (c.getValue mem) c.unspec (u.getD c.unspec) (fun _ => c.unspec)
        (fun ix hx => by
          have := (mem_indexProduct _ _).2 hx
          rw [hi] at this
          simp at this)
      have hk : ∀ f, keptRows [rows, cols] f (u.getD c.unspec) = [] := by
        intro f
        rw [List.eq_nil_iff_forall_not_mem]
        intro ix hx
        have := (mem_indexProduct _ _).2 ((mem_keptRows _ _ _ _).1 hx).1
        rw [hi] at this
        simp at this
      rw [hk] at this
      refine ⟨.coo (cooOf [rows, cols] [] ⟨0, 0, u.getD c.unspec⟩), ?_, rfl, by simp [Storage.shape, hs, cooOf], rfl⟩
      simp [C2SR.convert, hs, buildFlat, this, bind, Except.bind, pure, Except.pure]
    | flatcoo =>
      refine ⟨.flatcoo ⟨[rows, cols], ⟨0, 0, none⟩, [], ⟨0, 0, u.getD c.unspec⟩⟩, ?_, rfl, by simp [Storage.shape, hs], rfl⟩
      simp [C2SR.convert, hs, buildFlat, flatBuild, hi, Buffer.new, pyAssert, bind, Except.bind, pure, Except.pure,
        rawIntBuffer, FlatCOO.new]

/-- C71.  `copy` makes a new list of values, with the unspecified values replaced, and keeps all the rest; a copy with the
same unspecified value is equal to the original. -/
theorem C71_copy [DecidableEq V] (c : C2SR V) (mem : List V) (u : Option V) (rows cols : Nat) (hs : c.shape = [rows, cols])
    (hl : c.rowLengths.size = rows) (hp : c.rowPointers.size = rows) (hd : c.data.offset + c.data.size ≤ mem.length) :
    ∃ c' m, c.copy mem u = .ok (c', m) ∧
      c' = { c with data := ⟨c.data.size, 0, u.getD c.data.unspec⟩ } ∧
      m = ((mem.drop c.data.offset).take c.data.size).map (fun v => if v = c.data.unspec then u.getD c.data.unspec else v) ∧
      (u = none → c.eq mem c' m = true) := by
  have hw : c.data.copy mem u = (⟨c.data.size, 0, u.getD c.data.unspec⟩,
      ((mem.drop c.data.offset).take c.data.size).map
        (fun v => if v = c.data.unspec then u.getD c.data.unspec else v)) := by
    have hlen : ((mem.drop c.data.offset).take c.data.size).length = c.data.size := by simp; omega
    simp only [Buffer.copy, Buffer.window]
    split
    · rename_i h
      rw [h]
      have : (fun v => if v = c.data.unspec then c.data.unspec else v) = id := by
        funext v; by_cases hv : v = c.data.unspec <;> simp [hv]
      simp [this, hlen]
    · simp only [List.length_map, hlen]
  have hid : (fun v => if v = c.data.unspec then c.data.unspec else v) = id := by
    funext v; by_cases hv : v = c.data.unspec <;> simp [hv]
  refine ⟨_, _, ?_, rfl, rfl, ?_⟩
  · obtain ⟨⟨_, h1⟩, h2, _⟩ := C71_init c.shape c.channels c.rowLengths c.rowPointers c.col c.rowLengthsMem c.rowPointersMem
      c.colMem (⟨c.data.size, 0, u.getD c.data.unspec⟩ : Buffer V)
    obtain ⟨x, hx⟩ := h1 ⟨rows, cols, hs, hl, hp⟩
    simp only [C2SR.copy, hw, hx, bind, Except.bind, pure, Except.pure, h2 x hx]
  · rintro rfl
    have hb := Buffer.copy_eq c.data mem hd
    have hr : ∀ {α : Type} [DecidableEq α] (b : Buffer α) (m : List α), b.eq m b m = true := by
      intro α _ b m; simp [Buffer.eq]
    simp only [C2SR.eq, Option.getD_none, hid, List.map_id]
    simp only [Buffer.window] at hb
    simp [hb, hr]

/-- Two buffers have the same items and the same unspecified value. -/
def Spec.SameItems {α : Type} (b : Buffer α) (mem : List α) (b' : Buffer α) (mem' : List α) : Prop :=
  b.size = b'.size ∧ (mem.drop b.offset).take b.size = (mem'.drop b'.offset).take b'.size ∧ b.unspec = b'.unspec

/-- C71.  Two `C2SR` objects are `==` if and only if they have the same shape and channels, and the four buffers have the
same items and unspecified values; where the items are in their lists does not matter. -/
theorem C71_eq [DecidableEq V] (c d : C2SR V) (mem mem' : List V) :
    c.eq mem d mem' = true ↔ c.shape = d.shape ∧ c.channels = d.channels ∧
      SameItems c.rowLengths c.rowLengthsMem d.rowLengths d.rowLengthsMem ∧
      SameItems c.rowPointers c.rowPointersMem d.rowPointers d.rowPointersMem ∧
      SameItems c.col c.colMem d.col d.colMem ∧ SameItems c.data mem d.data mem' := by
  simp only [C2SR.eq, Bool.and_eq_true, decide_eq_true_eq, Buffer.eq_iff, SameItems, Buffer.window, and_assoc]

/-- C71: what can be asked of the object: the size is the number of values, `len` is the number of rows, and it is full when
there are as many values as places. -/
theorem C71_attributes (c : C2SR V) (rows cols : Nat) (hs : c.shape = [rows, cols]) :
    c.size = c.data.size ∧ c.len = .ok rows ∧ (c.isFull = true ↔ c.data.size = rows * cols) ∧ c.unspec = c.data.unspec := by
  simp [C2SR.size, C2SR.len, C2SR.isFull, C2SR.unspec, hs, pyGet, product]

/-- `sample` (SpecArray.lean) as a `C2SR`: two elements in row `0`, one in row `1`. -/
def sampleC2SR : C2SR (Option Int) :=
  ⟨[2, 3], 1, ⟨2, 0, none⟩, [some 2, some 1], ⟨2, 0, none⟩, [some 0, some 2], ⟨3, 0, none⟩, [some 0, some 2, some 1],
    ⟨3, 0, none⟩⟩

/-- A case of C71: the constructor, reading, writing, conversions, copies and the text of `sampleC2SR`. -/
example :
    C2SR.new [2, 3] 1 ⟨2, 0, none⟩ [some 2, some 1] ⟨2, 0, none⟩ [some 0, some 2] ⟨3, 0, none⟩ [some 0, some 2, some 1]
      (⟨3, 0, none⟩ : Buffer (Option Int)) = .ok sampleC2SR ∧
    (C2SR.new [2, 3] 1 ⟨2, 0, none⟩ [some 2, some 1] ⟨1, 0, none⟩ [some 0, some 2] ⟨3, 0, none⟩ [some 0, some 2, some 1]
      (⟨3, 0, none⟩ : Buffer (Option Int))).toOption = none ∧
    ValidItems (items turned) sampleC2SR.shape ∧
    sampleC2SR.getItem [some 1, some 3, some 5] turned = .error .notImplemented ∧
    sampleC2SR.setItem [some 1, some 3, some 5] turned (fun _ _ => .ok (some 0)) = ⟨[some 1, some 3, some 5], some .notImplemented⟩ ∧
    sampleC2SR.convert [some 1, some 3, some 5] .dm none = .error .notImplemented ∧
    sampleC2SR.copy [some 1, some 3, some 5] (some (some 0))
      = .ok ({ sampleC2SR with data := ⟨3, 0, some 0⟩ }, [some 1, some 3, some 5]) ∧
    sampleC2SR.isFull = false ∧ sampleC2SR.len = .ok 2 ∧
    sampleC2SR.repr Text.optTexts [some 1, some 3, some 5] = ("C2SR((2, 3), 1, Buffer(2, 0, [2, 1], unspecified=None), " ++
      "Buffer(2, 0, [0, 2], unspecified=None), Buffer(3, 0, [0, 2, 1], unspecified=None), " ++
      "Buffer(3, 0, [1, 3, 5], unspecified=None))").toList := by
  refine ⟨by decide +kernel, by decide +kernel, by simp [turned, items, ValidItems, sampleC2SR], by decide +kernel,
    by decide +kernel, by decide +kernel, by decide +kernel, by decide +kernel, by decide +kernel, by decide +kernel⟩

/-- A case without rows: `C2SR` to `Strided` is fine, to `CSR` raises `IndexError`. -/
example :
    let c : C2SR (Option Int) := ⟨[0, 3], 1, ⟨0, 0, none⟩, [], ⟨0, 0, none⟩, [], ⟨0, 0, none⟩, [], ⟨0, 0, none⟩⟩
    c.convert [] .strided none = .ok (.strided ⟨[0, 3], [3, 1], ⟨0, 0, none⟩⟩, []) ∧
    c.convert [] .csr none = .error .index := by
  decide +kernel

end Gcs
