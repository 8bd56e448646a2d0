import Verif.Lemmas.Copy
import Verif.Props.Setting

/-!
# C42, C44 to C47: copies, enumeration, comparison, fullness, slices of buffers
-/

namespace Gcs

open Spec

variable {V : Type} [DecidableEq V]

/-! ## C42 -/

/-- C42.  `s.copy()` and `s.copy(unspecified=u)`. -/
theorem C42_copy (s : Storage V) (mem : List V) (h : s.WF mem) (u : Option V) :
    ∃ r m, s.copy mem u = .ok (r, m) ∧ r.WF m ∧ r.cls = s.cls ∧ r.shape = s.shape ∧
      r.unspec = u.getD s.unspec ∧
      ∀ ix v, InBox ix s.shape → Reads s mem ix v →
        Reads r m ix (if v = s.unspec then u.getD s.unspec else v) := by
  obtain ⟨r, m, h1, h2, h3, h4⟩ := h.copyOf u
  refine ⟨r, m, h1, h4.wf, h2, h4.shape_eq, h3, ?_⟩
  intro ix v hi hr
  have := h4.wf.reads ix (by rw [h4.shape_eq]; exact hi)
  rwa [h4.reads ix hi, hr.at_eq] at this

/-- C42 without `unspecified`: the elements are the same. -/
theorem C42_copy_same (s : Storage V) (mem : List V) (h : s.WF mem) :
    ∃ r m, s.copy mem none = .ok (r, m) ∧ r.cls = s.cls ∧ r.shape = s.shape ∧ r.unspec = s.unspec ∧
      ∀ ix v, InBox ix s.shape → Reads s mem ix v → Reads r m ix v := by
  obtain ⟨r, m, h1, _, h2, h3, h4, h5⟩ := C42_copy s mem h none
  refine ⟨r, m, h1, h2, h3, h4, fun ix v hi hr => ?_⟩
  have := h5 ix v hi hr
  simp only [Option.getD_none] at this
  split at this
  · next e => rw [e]; exact this
  · exact this

/-- A case of C42: a copy with `unspecified=0` of a slice of a `Strided` with a negative stride. -/
example : (Storage.strided (⟨[2], [-3], ⟨1, 5, none⟩⟩ : Strided (Option Int))).WF sampleCells ∧
    (Storage.strided (⟨[2], [-3], ⟨1, 5, none⟩⟩ : Strided (Option Int))).copy sampleCells (some (some 0))
      = .ok (.strided ⟨[2], [1], ⟨2, 0, some 0⟩⟩, [some 0, some 3]) := by
  refine ⟨⟨rfl, by unfold Buffer.WF; decide, ?_⟩, by decide +kernel⟩
  intro ix hi
  match ix, hi with
  | [i], hi =>
    simp only [InBox, and_true] at hi
    simp only [address, sampleCells, List.length_cons, List.length_nil]
    omega
  | [], hi => exact hi.elim
  | _ :: _ :: _, hi => exact hi.2.elim

/-! ## C44 -/

theorem strided_reads {α : Type} [DecidableEq α] {s : Strided α} {mem : List α} (h : s.WF mem) {ix : List Int} (hi : InBox ix s.shape) (v : α) :
    Reads (.strided s) mem ix v ↔ s.val mem ix = v := by
  have := getItem_of_getVal (strided_getVal h ix hi)
  simp only [Reads, this, Except.ok.injEq, Res.val.injEq]

theorem buffer_reads {α : Type} [DecidableEq α] {b : Buffer α} {mem : List α} (h : b.WF mem) {i : Int} (h0 : 0 ≤ i) (h1 : i < b.size) (v : α) :
    Reads (.buffer b) mem [i] v ↔ (b.window mem).getD i.toNat b.unspec = v := by
  have := getItem_of_getVal (buffer_getVal h i h0 h1)
  simp only [Reads, this, Except.ok.injEq, Res.val.injEq]

theorem buffer_reads_map {b : Buffer (Option Int)} {mem : List (Option Int)} (h : b.WF mem) (l : List Int)
    (hl : b.window mem = l.map some) (p : Nat) (hp : p < l.length) (v : Int) :
    Reads (.buffer b) mem [(p : Int)] (some v) ↔ l[p] = v := by
  have hs : b.size = l.length := by rw [← b.window_length mem h, hl]; simp
  rw [buffer_reads h (by omega) (by omega), hl]
  simp [hp]

omit [DecidableEq V] in
theorem Sparse.hasPlace {s : Storage V} {rows : List (List Int)} {b : Buffer V} (h : Sparse s rows b) (ix : List Int) :
    HasPlace s ix ↔ ix ∈ rows := by
  cases h with
  | @coo c _ h =>
    have hb : ∀ (p k : Nat), p < rows.length → k < c.shape.length → InBox [(k : Int), (p : Int)] c.indices.shape := by
      intro p k hp hk
      rw [h.ishape]
      simp only [InBox, and_true]
      omega
    simp only [HasPlace, h.ishape]
    constructor
    · rintro ⟨hl, p, hp, hk⟩
      have hp : p < rows.length := by simpa using hp
      have : ix = rows[p] := by
        have hlen := (h.rows_ok.inbox rows[p] (List.getElem_mem hp)).length_eq
        apply List.ext_getElem (by rw [hl, hlen])
        intro k h1 h2
        have := hk k h1
        rw [strided_reads h.iwf (hb p k hp (by omega)), h.ival p hp k (by omega)] at this
        simpa [List.getD_eq_getElem?_getD, h2] using this.symm
      rw [this]
      exact List.getElem_mem hp
    · intro hr
      obtain ⟨p, hp, rfl⟩ := List.getElem_of_mem hr
      have hlen := (h.rows_ok.inbox rows[p] hr).length_eq
      refine ⟨hlen, p, by simpa using hp, ?_⟩
      intro k hk
      rw [strided_reads h.iwf (hb p k hp (by omega)), h.ival p hp k (by omega)]
      simp [List.getD_eq_getElem?_getD, hk]
  | @flatcoo f _ h =>
    have hw : f.findices.window f.fmem = (rows.map fun r => address r (makeStrides f.shape)).map some := by
      rw [h.fval, List.map_map]; rfl
    have hrm : ∀ ix, InBox ix f.shape → rowMajor ix f.shape 0 = address ix (makeStrides f.shape) := by
      intro ix hi
      rw [rowMajor_eq _ _ _ hi.length_eq]; omega
    simp only [HasPlace, h.fsize]
    constructor
    · rintro ⟨hi, p, hp, hr⟩
      rw [buffer_reads_map h.fwf _ hw p (by simpa using hp), hrm ix hi] at hr
      simp only [List.getElem_map] at hr
      have := address_inj (h.rows_ok.inbox _ (List.getElem_mem hp)) hi hr
      rw [← this]
      exact List.getElem_mem hp
    · intro hr
      have hi := h.rows_ok.inbox ix hr
      obtain ⟨p, hp, rfl⟩ := List.getElem_of_mem hr
      refine ⟨hi, p, hp, ?_⟩
      rw [buffer_reads_map h.fwf _ hw p (by simpa using hp), hrm _ hi]
      simp
  | @csr c _ h =>
    have hfs := h.rows_ok.firsts_sorted
    have hle : ∀ r : Int, below (firsts rows) r ≤ rows.length := by
      intro r
      have := below_le_length (firsts rows) r
      rwa [firsts_length] at this
    have inrow : ∀ (r : Int) (p : Nat) (hp : p < rows.length),
        (below (firsts rows) r ≤ p ∧ p < below (firsts rows) (r + 1)) ↔ rows[p].getD 0 0 = r := by
      intro r p hp
      have := below_range (firsts rows) r hfs p (by rw [firsts_length]; exact hp)
      rwa [firsts_getElem] at this
    have hcrow : ∀ (r : Nat) (v : Int), r ≤ c.shape.getD 0 0 →
        (Reads (.buffer c.crow) c.crowMem [(r : Int)] (some v) ↔ ((below (firsts rows) r : Nat) : Int) = v) := by
      intro r v hr
      rw [buffer_reads_map h.cwf _ h.cval r (by simp only [List.length_map, List.length_range]; omega)]
      simp
    have hcol : ∀ (p : Nat) (hp : p < rows.length) (v : Int),
        (Reads (.buffer c.col) c.colMem [(p : Int)] (some v) ↔ rows[p].getD 1 0 = v) := by
      intro p hp v
      rw [buffer_reads_map h.kwf _ h.kval p (by simpa using hp)]
      simp
    simp only [HasPlace]
    constructor
    · rintro ⟨hi, r, k, lo, hi', p, rfl, h1, h2, h3, h4, h5⟩
      obtain ⟨r', k', n, m, e, hsh, hr0, hr1, hk0, hk1⟩ := pair_of_two hi h.two
      simp only [List.cons.injEq, and_true] at e
      obtain ⟨rfl, rfl⟩ := e
      have hn : c.shape.getD 0 0 = n := by simp [hsh]
      obtain ⟨a, rfl⟩ := Int.eq_ofNat_of_zero_le hr0
      rw [hcrow a lo (by omega)] at h1
      have := hcrow (a + 1) hi' (by omega)
      simp only [Nat.cast_add, Nat.cast_one] at this
      rw [this] at h2
      have hb := hle ((a : Int) + 1)
      obtain ⟨q, rfl⟩ := Int.eq_ofNat_of_zero_le (show 0 ≤ p by omega)
      have hq : q < rows.length := by omega
      rw [hcol q hq] at h5
      have hrow := (inrow a q hq).1 (by omega)
      obtain ⟨r'', k'', _, _, e', _⟩ := pair_of_two (h.rows_ok.inbox _ (List.getElem_mem hq)) h.two
      rw [e'] at h5 hrow
      simp at h5 hrow
      have : rows[q] = [(a : Int), k] := by rw [e', h5, hrow]
      rw [← this]
      exact List.getElem_mem hq
    · intro hr
      have hi := h.rows_ok.inbox ix hr
      obtain ⟨r, k, n, m, rfl, hsh, hr0, hr1, hk0, hk1⟩ := pair_of_two hi h.two
      have hn : c.shape.getD 0 0 = n := by simp [hsh]
      obtain ⟨p, hp, e⟩ := List.getElem_of_mem hr
      obtain ⟨a, rfl⟩ := Int.eq_ofNat_of_zero_le hr0
      have hrow := (inrow a p hp).2 (by rw [e]; rfl)
      have h2 := hcrow (a + 1) (below (firsts rows) ((a : Int) + 1) : Nat) (by omega)
      simp only [Nat.cast_add, Nat.cast_one, iff_true] at h2
      refine ⟨hi, a, k, (below (firsts rows) a : Nat), (below (firsts rows) ((a : Int) + 1) : Nat), p, rfl, ?_, h2,
        by omega, by omega, ?_⟩
      · rw [hcrow a _ (by omega)]
      · rw [hcol p hp, e]; rfl

/-- C44.  `elements()` yields the indices for which the storage has a place, each once, in increasing order, each with the
value that reading gives.  `Strided` and `DM` have a place for every index of the box. -/
theorem C44_elements (s : Storage V) (mem : List V) (h : s.WF mem) (hb : s.cls ≠ .buffer)
    (hp : s.cls = .flatcoo → ∀ n ∈ s.shape, 0 < n) : Enumerates s mem (fun ix _ => HasPlace s ix) := by
  have sparse : ∀ {rows b}, Sparse s rows b → b.WF mem → Enumerates s mem (fun ix _ => HasPlace s ix) := by
    intro rows b hs hm
    refine enumerates_of h rows _ (hs.elements_ok mem hm hp) hs.rows_ok.sorted ?_
    intro ix
    rw [hs.hasPlace]
    exact ⟨fun hr => ⟨hs.rows_ok.inbox ix hr, hr⟩, fun hr => hr.2⟩
  cases s with
  | buffer b => exact absurd rfl hb
  | strided s =>
    refine enumerates_of h _ _ (strided_elements h) (indexProduct_sorted _) fun ix => ?_
    rw [mem_indexProduct]
    simp only [HasPlace, Storage.shape, and_self]
  | dm m d =>
    refine enumerates_of h _ _ (dm_elements h.1 h.2) (indexProduct_sorted _) fun ix => ?_
    rw [mem_indexProduct]
    simp only [HasPlace, Storage.shape, and_self]
  | coo c => obtain ⟨⟨rows, hr⟩, hm⟩ := h; exact sparse (.coo hr) hm
  | flatcoo c => obtain ⟨⟨rows, hr⟩, hm⟩ := h; exact sparse (.flatcoo hr) hm
  | csr c => obtain ⟨⟨rows, hr⟩, hm⟩ := h; exact sparse (.csr hr) hm

/-- C44 for a `Buffer`, whose `elements()` yields ints and not tuples. -/
theorem C44_buffer_elements (b : Buffer V) (mem : List V) (h : b.WF mem) :
    ∃ vals : List V, vals.length = b.size ∧
      (Storage.buffer b).elements mem = .ok (vals.mapIdx fun i v => (.int i, v)) ∧
      ∀ (i : Nat) (hi : i < vals.length), Reads (.buffer b) mem [(i : Int)] vals[i] := by
  have hl := b.window_length mem h
  refine ⟨b.window mem, hl, ?_, ?_⟩
  · simp only [Storage.elements, Buffer.entries]
    rw [mapM_ok _ (fun e => (Storage.Key.int e.1, (b.window mem).getD e.1.toNat b.unspec)), List.map_map]
    · congr 1
      apply List.ext_getElem (by simp [hl])
      intro i h1 h2
      simp only [List.length_mapIdx] at h2
      simp [h2]
    · intro e he
      obtain ⟨i, hi, rfl⟩ := List.mem_map.1 he
      have := b.getInt_window mem h i (by simpa using hi) b.unspec
      simp only [Buffer.getInt] at this
      simp only [this, bind, Except.bind, pure, Except.pure, Int.toNat_natCast]
  · intro i hi
    rw [buffer_reads h (by omega) (by omega)]
    simp [hi]

/-- A case of C44. -/
example : (Storage.csr sampleCSR).WF sampleItems ∧
    (Storage.csr sampleCSR).elements sampleItems
      = .ok [(.tuple [0, 0], some 1), (.tuple [0, 2], some 3), (.tuple [1, 1], some 5)] :=
  ⟨sampleCSR_wf, by decide +kernel⟩

/-! ## C45 -/

omit [DecidableEq V] in
theorem dictGet_iff {K : Type} [DecidableEq K] (d : List (K × V)) (k : K) (v : V) :
    Storage.dictGet d k = some v ↔ LastValue d k v := by
  induction d generalizing v with
  | nil => simp [Storage.dictGet, LastValue]
  | cons e d ih =>
    obtain ⟨k', v'⟩ := e
    have hnone : Storage.dictGet d k = none ↔ ∀ w, (k, w) ∉ d := by
      constructor
      · intro h w hw
        have : ∀ (d : List (K × V)), (k, w) ∈ d → Storage.dictGet d k ≠ none := by
          intro d
          induction d with
          | nil => simp
          | cons e d ih =>
            intro hmem
            rcases List.mem_cons.1 hmem with rfl | hmem
            · simp only [Storage.dictGet]
              cases Storage.dictGet d k <;> simp
            · simp only [Storage.dictGet]
              cases hx : Storage.dictGet d k with
              | none => exact absurd hx (ih hmem)
              | some x => simp
        exact this d hw h
      · intro h
        cases hx : Storage.dictGet d k with
        | none => rfl
        | some w =>
          obtain ⟨pre, post, e, _⟩ := (ih w).1 hx
          exact absurd (by rw [e]; simp) (h w)
    simp only [Storage.dictGet]
    constructor
    · intro h
      cases hx : Storage.dictGet d k with
      | some w =>
        rw [hx] at h
        simp only [Option.some.injEq] at h
        subst h
        obtain ⟨pre, post, e, hp⟩ := (ih w).1 hx
        exact ⟨(k', v') :: pre, post, by rw [e]; rfl, hp⟩
      | none =>
        rw [hx] at h
        simp only at h
        split at h
        · next e =>
          subst e
          simp only [Option.some.injEq] at h
          subst h
          exact ⟨[], d, rfl, hnone.1 hx⟩
        · cases h
    · rintro ⟨pre, post, e, hp⟩
      cases pre with
      | nil =>
        simp only [List.nil_append, List.cons.injEq, Prod.mk.injEq] at e
        obtain ⟨⟨rfl, rfl⟩, rfl⟩ := e
        rw [hnone.2 hp]
        simp
      | cons x pre =>
        simp only [List.cons_append, List.cons.injEq] at e
        rw [(ih v).2 ⟨pre, post, e.2, hp⟩]

theorem dictEq_iff {K : Type} [DecidableEq K] (d1 d2 : List (K × V)) :
    Storage.dictEq d1 d2 = true ↔ ∀ k v, LastValue d1 k v ↔ LastValue d2 k v := by
  have hmem : ∀ (d : List (K × V)) k v, LastValue d k v → (k, v) ∈ d := by
    rintro d k v ⟨pre, post, rfl, _⟩
    simp
  simp only [Storage.dictEq, Bool.and_eq_true, List.all_eq_true, decide_eq_true_eq]
  constructor
  · rintro ⟨h1, h2⟩ k v
    constructor
    · intro h
      have := h1 _ (hmem _ _ _ h)
      simp only at this
      rw [← dictGet_iff, this, dictGet_iff]
      exact h
    · intro h
      have := h2 _ (hmem _ _ _ h)
      simp only at this
      rw [← dictGet_iff, this, dictGet_iff]
      exact h
  · intro h
    have : ∀ k, Storage.dictGet d1 k = Storage.dictGet d2 k := by
      intro k
      apply Option.ext
      intro v
      rw [dictGet_iff, dictGet_iff, h k v]
    exact ⟨fun e _ => (this e.1).symm, fun e _ => this e.1⟩

/-- C45.  `s.equal(t)` compares the dictionaries of elements. -/
theorem C45_equal_iff (s t : Storage V) (mem mem' : List V) (d1 d2 : List (Storage.Key × V))
    (h1 : s.elements mem = .ok d1) (h2 : t.elements mem' = .ok d2) :
    ∃ b, s.equal mem t mem' = .ok b ∧ (b = true ↔ ∀ k v, LastValue d1 k v ↔ LastValue d2 k v) := by
  refine ⟨_, ?_, dictEq_iff d1 d2⟩
  simp only [Storage.equal, h1, h2, bind, Except.bind, pure, Except.pure]

theorem equal_elements {s t : Storage V} {mem mem' : List V} {b : Bool} (h : s.equal mem t mem' = .ok b) :
    ∃ d1 d2, s.elements mem = .ok d1 ∧ t.elements mem' = .ok d2 := by
  simp only [Storage.equal, bind, Except.bind] at h
  cases h1 : s.elements mem with
  | error e => rw [h1] at h; simp at h
  | ok d1 =>
    rw [h1] at h
    cases h2 : t.elements mem' with
    | error e => rw [h2] at h; simp at h
    | ok d2 => exact ⟨d1, d2, rfl, rfl⟩

/-- C45.  `equal` is reflexive, symmetric and transitive. -/
theorem C45_equivalence (s t r : Storage V) (ms mt mr : List V) :
    (∀ d, s.elements ms = .ok d → s.equal ms s ms = .ok true) ∧
    (∀ b, s.equal ms t mt = .ok b → t.equal mt s ms = .ok b) ∧
    (s.equal ms t mt = .ok true → t.equal mt r mr = .ok true → s.equal ms r mr = .ok true) := by
  refine ⟨?_, ?_, ?_⟩
  · intro d hd
    obtain ⟨b, h1, h2⟩ := C45_equal_iff s s ms ms d d hd hd
    rw [h1, h2.2 fun _ _ => Iff.rfl]
  · intro b hb
    obtain ⟨d1, d2, e1, e2⟩ := equal_elements hb
    obtain ⟨b1, h1, h2⟩ := C45_equal_iff s t ms mt d1 d2 e1 e2
    obtain ⟨b2, h3, h4⟩ := C45_equal_iff t s mt ms d2 d1 e2 e1
    rw [h3]
    have : b1 = b := by rw [h1] at hb; simpa using hb
    subst this
    congr 1
    rw [Bool.eq_iff_iff, h2, h4]
    exact ⟨fun h k v => (h k v).symm, fun h k v => (h k v).symm⟩
  · intro hb hb'
    obtain ⟨d1, d2, e1, e2⟩ := equal_elements hb
    obtain ⟨_, d3, _, e3⟩ := equal_elements hb'
    obtain ⟨b1, h1, h2⟩ := C45_equal_iff s t ms mt d1 d2 e1 e2
    obtain ⟨b2, h3, h4⟩ := C45_equal_iff t r mt mr d2 d3 e2 e3
    obtain ⟨b3, h5, h6⟩ := C45_equal_iff s r ms mr d1 d3 e1 e3
    rw [h1] at hb
    rw [h3] at hb'
    simp only [Except.ok.injEq] at hb hb'
    subst hb hb'
    rw [h5, h6.2 fun k v => (h2.1 rfl k v).trans (h4.1 rfl k v)]

omit [DecidableEq V] in
theorem lastValue_sorted {es : List (List Int × V)} (hs : (es.map (·.1)).Pairwise lexLt) (k : Storage.Key) (v : V) :
    LastValue (es.map fun e => (Storage.Key.tuple e.1, e.2)) k v ↔ ∃ ix, k = .tuple ix ∧ (ix, v) ∈ es := by
  constructor
  · rintro ⟨pre, post, e, _⟩
    have : (k, v) ∈ es.map fun e => (Storage.Key.tuple e.1, e.2) := by rw [e]; simp
    obtain ⟨x, hx, e⟩ := List.mem_map.1 this
    simp only [Prod.mk.injEq] at e
    obtain ⟨rfl, rfl⟩ := e
    exact ⟨x.1, rfl, hx⟩
  · rintro ⟨ix, rfl, hm⟩
    obtain ⟨pre, post, rfl⟩ := List.append_of_mem hm
    refine ⟨pre.map fun e => (.tuple e.1, e.2), post.map fun e => (.tuple e.1, e.2), by simp, ?_⟩
    intro w hw
    obtain ⟨x, hx, e⟩ := List.mem_map.1 hw
    simp only [Prod.mk.injEq, Storage.Key.tuple.injEq] at e
    rw [List.map_append, List.map_cons, List.pairwise_append, List.pairwise_cons] at hs
    have := hs.2.1.1 x.1 (List.mem_map.2 ⟨x, hx, rfl⟩)
    rw [e.1] at this
    exact lexLt_irrefl _ this

/-- C45.  Two well-formed storages are equal iff they have places for the same indices and the same values there. -/
theorem C45_equal_places (s t : Storage V) (mem mem' : List V) (hs : s.WF mem) (ht : t.WF mem')
    (hb : s.cls ≠ .buffer ∧ t.cls ≠ .buffer) (hp : s.cls = .flatcoo → ∀ n ∈ s.shape, 0 < n)
    (hp' : t.cls = .flatcoo → ∀ n ∈ t.shape, 0 < n) :
    ∃ b, s.equal mem t mem' = .ok b ∧
      (b = true ↔ (∀ ix, HasPlace s ix ↔ HasPlace t ix) ∧
        ∀ ix v, HasPlace s ix → (Reads s mem ix v ↔ Reads t mem' ix v)) := by
  obtain ⟨es, e1, e2, e3⟩ := C44_elements s mem hs hb.1 hp
  obtain ⟨et, f1, f2, f3⟩ := C44_elements t mem' ht hb.2 hp'
  obtain ⟨b, g1, g2⟩ := C45_equal_iff s t mem mem' _ _ e1 f1
  have hbox : ∀ (s : Storage V) (mem : List V), s.WF mem → ∀ ix, HasPlace s ix → InBox ix s.shape := by
    intro s mem hs ix hx
    cases s with
    | buffer b => exact hx
    | strided s => exact hx
    | dm m d => exact hx
    | coo c => obtain ⟨⟨rows, hr⟩, hm⟩ := hs; exact hr.rows_ok.inbox ix (((Sparse.coo hr).hasPlace ix).1 hx)
    | flatcoo c => exact hx.1
    | csr c => exact hx.1
  have inj : ∀ (s : Storage V) (mem : List V) ix v w, Reads s mem ix v → Reads s mem ix w → v = w := by
    intro s mem ix v w h1 h2
    rw [← h1.at_eq, h2.at_eq]
  refine ⟨b, g1, g2.trans ?_⟩
  constructor
  · intro h
    have h' : ∀ ix v, (ix, v) ∈ es ↔ (ix, v) ∈ et := by
      intro ix v
      have := h (.tuple ix) v
      rw [lastValue_sorted e2, lastValue_sorted f2] at this
      simpa using this
    refine ⟨fun ix => ⟨fun hx => ?_, fun hx => ?_⟩, fun ix v hx => ⟨fun hr => ?_, fun hr => ?_⟩⟩
    · have hi := hbox s mem hs ix hx
      exact ((f3 ix _).1 ((h' ix _).1 ((e3 ix _).2 ⟨hi, hs.reads ix hi, hx⟩))).2.2
    · have hi := hbox t mem' ht ix hx
      exact ((e3 ix _).1 ((h' ix _).2 ((f3 ix _).2 ⟨hi, ht.reads ix hi, hx⟩))).2.2
    · have hi := hbox s mem hs ix hx
      exact ((f3 ix v).1 ((h' ix v).1 ((e3 ix v).2 ⟨hi, hr, hx⟩))).2.1
    · have hi := hbox s mem hs ix hx
      have h1 := hs.reads ix hi
      have h2 := ((f3 ix _).1 ((h' ix _).1 ((e3 ix _).2 ⟨hi, h1, hx⟩))).2.1
      rw [inj t mem' ix _ _ hr h2]
      exact h1
  · rintro ⟨h1, h2⟩ k v
    rw [lastValue_sorted e2, lastValue_sorted f2]
    have : ∀ ix, (ix, v) ∈ es ↔ (ix, v) ∈ et := by
      intro ix
      rw [e3, f3]
      constructor
      · rintro ⟨a1, a2, a3⟩
        have a3' := (h1 ix).1 a3
        exact ⟨hbox t mem' ht ix a3', (h2 ix v a3).1 a2, a3'⟩
      · rintro ⟨a1, a2, a3⟩
        have a3' := (h1 ix).2 a3
        exact ⟨hbox s mem hs ix a3', (h2 ix v a3').2 a2, a3'⟩
    simp only [this]

/-- C45 for storages of the same shape: `equal` is equality of all reads if both are dense (`Strided` or `DM`), and if both
are sparse, have the same unspecified value and store no element equal to it. -/
theorem C45_equal_reads (s t : Storage V) (mem mem' : List V) (hs : s.WF mem) (ht : t.WF mem') (he : s.shape = t.shape)
    (hp : ∀ n ∈ s.shape, 0 < n)
    (hc : ((s.cls = .strided ∨ s.cls = .dm) ∧ (t.cls = .strided ∨ t.cls = .dm)) ∨
      ((s.cls = .coo ∨ s.cls = .flatcoo ∨ s.cls = .csr) ∧ (t.cls = .coo ∨ t.cls = .flatcoo ∨ t.cls = .csr) ∧
        s.unspec = t.unspec ∧ (∀ ix, HasPlace s ix → ¬ Reads s mem ix s.unspec) ∧
        ∀ ix, HasPlace t ix → ¬ Reads t mem' ix t.unspec)) :
    ∃ b, s.equal mem t mem' = .ok b ∧
      (b = true ↔ ∀ ix v, InBox ix s.shape → (Reads s mem ix v ↔ Reads t mem' ix v)) := by
  obtain ⟨b, g1, g2⟩ := C45_equal_places s t mem mem' hs ht
    (by rcases hc with ⟨hc | hc, hd | hd⟩ | ⟨hc | hc | hc, hd | hd | hd, _⟩ <;> rw [hc, hd] <;> simp)
    (fun _ => hp) (fun _ => by rw [← he]; exact hp)
  refine ⟨b, g1, g2.trans ?_⟩
  rcases hc with ⟨hc, hd⟩ | ⟨hc, hd, hu, h1, h2⟩
  · have e1 : ∀ ix, HasPlace s ix ↔ InBox ix s.shape := by
      intro ix
      cases s <;> simp [Storage.cls] at hc <;> rfl
    have e2 : ∀ ix, HasPlace t ix ↔ InBox ix t.shape := by
      intro ix
      cases t <;> simp [Storage.cls] at hd <;> rfl
    constructor
    · rintro ⟨_, a⟩ ix v hi
      exact a ix v ((e1 ix).2 hi)
    · intro a
      exact ⟨fun ix => by rw [e1, e2, he], fun ix v hx => a ix v ((e1 ix).1 hx)⟩
  · obtain ⟨rs, bs, hss, hsm⟩ := sparse_of_wf hs hc
    obtain ⟨rt, bt, hts, htm⟩ := sparse_of_wf ht hd
    have un : ∀ {s : Storage V} {mem : List V} {rows : List (List Int)} {b : Buffer V}, Sparse s rows b → b.WF mem → ∀ ix,
        InBox ix s.shape → ¬ HasPlace s ix → Reads s mem ix s.unspec := by
      intro s mem rows b hs hm ix hi hx
      rw [hs.hasPlace] at hx
      have := (hs.wf mem hm).reads ix hi
      rwa [hs.at mem hm ix hi, lookup_none _ _ hx, ← hs.unspec] at this
    constructor
    · rintro ⟨a1, a2⟩ ix v hi
      by_cases hx : HasPlace s ix
      · exact a2 ix v hx
      · have r1 := un hss hsm ix hi hx
        have r2 := un hts htm ix (by rw [← he]; exact hi) (fun hy => hx ((a1 ix).2 hy))
        rw [hu] at r1
        constructor
        · intro hr
          rw [← hr.at_eq, r1.at_eq]
          exact r2
        · intro hr
          rw [← hr.at_eq, r2.at_eq]
          exact r1
    · intro a
      refine ⟨fun ix => ⟨fun hx => ?_, fun hx => ?_⟩, fun ix v hx => a ix v ?_⟩
      · by_contra hy
        have hi := hss.rows_ok.inbox ix ((hss.hasPlace ix).1 hx)
        have := un hts htm ix (by rw [← he]; exact hi) hy
        apply h1 ix hx
        rw [hu]
        exact (a ix _ hi).2 this
      · by_contra hy
        have hi := hts.rows_ok.inbox ix ((hts.hasPlace ix).1 hx)
        rw [← he] at hi
        have := un hss hsm ix hi hy
        apply h2 ix hx
        rw [← hu]
        exact (a ix _ hi).1 this
      · exact hss.rows_ok.inbox ix ((hss.hasPlace ix).1 hx)

/-- A case of C45: a `COO` and a `CSR`.  After `None` has been assigned to a stored element, the reads agree with those of a
storage without that element, and `equal` is false. -/
example : (Storage.coo sampleCOO).equal sampleItems (.csr sampleCSR) sampleItems = .ok true ∧
    (Storage.flatcoo sampleFlat).equal [some 1, none, some 5]
      (.flatcoo ⟨[2, 3], ⟨2, 0, none⟩, [some 0, some 4], ⟨2, 0, none⟩⟩) [some 1, some 5] = .ok false ∧
    (Storage.strided sampleStrided).equal sampleCells (.csr sampleCSR) sampleItems = .ok false := by
  decide +kernel

/-! ## C46 -/

omit [DecidableEq V] in
/-- C46.  `is_full()` for `Strided` and the sparse classes. -/
theorem C46_is_full (s : Storage V) (mem : List V) (h : s.WF mem)
    (hc : s.cls = .strided ∨ s.cls = .coo ∨ s.cls = .flatcoo ∨ s.cls = .csr) :
    s.isFull = true ↔ ∀ ix, InBox ix s.shape → HasPlace s ix := by
  rcases hc with hc | hc
  · cases s <;> simp [Storage.cls] at hc
    simp [Storage.isFull, Storage.size, Storage.shape, HasPlace]
  · obtain ⟨rows, b, hs, hm⟩ := sparse_of_wf h hc
    have hsize : s.size = rows.length := by
      cases hs with
      | coo h => simp [Storage.size, COO.size, h.ishape]
      | flatcoo h => simp [Storage.size, h.fsize]
      | csr h => simp [Storage.size, h.size]
    simp only [Storage.isFull, decide_eq_true_eq, hsize, hs.hasPlace]
    rw [← indexProduct_length]
    constructor
    · intro hl ix hi
      have hsub : rows ⊆ indexProduct s.shape := fun r hr => (mem_indexProduct _ _).2 (hs.rows_ok.inbox r hr)
      have := (List.subperm_of_subset hs.rows_ok.nodup hsub).perm_of_length_le (by omega)
      exact this.mem_iff.2 ((mem_indexProduct _ _).2 hi)
    · intro ha
      apply Nat.le_antisymm
      · exact (List.subperm_of_subset hs.rows_ok.nodup
          (fun r hr => (mem_indexProduct _ _).2 (hs.rows_ok.inbox r hr))).length_le
      · exact (List.subperm_of_subset (indexProduct_nodup _)
          (fun r hr => ha r ((mem_indexProduct _ _).1 hr))).length_le

/-- Cases of C46.  For a slice of a `DM` the claim fails: its `size` is that of the wrapped storage. -/
example : (Storage.csr sampleCSR).isFull = false ∧
    (Storage.flatcoo (⟨[2, 1], ⟨2, 0, none⟩, [some 0, some 1], ⟨2, 0, none⟩⟩ : FlatCOO (Option Int))).isFull = true ∧
    (Storage.dm ⟨[2, 2], [[0], [1]], [[2], [2]], [[-1], [1]], [1, 1]⟩ (.strided sampleStrided)).isFull = false ∧
    (Storage.dm ⟨[2, 2], [[0], [1]], [[2], [2]], [[-1], [1]], [1, 1]⟩ (.strided sampleStrided)).elements sampleCells
      = .ok [(.tuple [0, 0], some 5), (.tuple [0, 1], none), (.tuple [1, 0], none), (.tuple [1, 1], some 3)] := by
  decide +kernel

/-! ## C47 -/

omit [DecidableEq V] in
theorem Buffer.getSlice_eq (b : Buffer V) (mem : List V) (s : PySlice) (a z : Int)
    (ha : a = b.offset + s.start.getD 0) (hz : z = b.offset + s.stop.getD b.size) :
    b.getSlice mem s =
      (if a < 0 ∨ a ≥ mem.length then .error .index else
        if z ≤ 0 ∨ z > mem.length then .error .index else
          if (reduced ⟨some a, some z, s.step⟩ mem.length).step ≠ 1 then .error .index else
            Buffer.new ((reduced ⟨some a, some z, s.step⟩ mem.length).stop -
              (reduced ⟨some a, some z, s.step⟩ mem.length).start).toNat
              (reduced ⟨some a, some z, s.step⟩ mem.length).start.toNat mem b.unspec) := by
  subst ha hz
  obtain ⟨start, stop, step⟩ := s
  cases start <;> cases stop <;>
    simp only [Buffer.getSlice, Option.getD_none, Option.getD_some, Int.add_zero, bind, Except.bind, throw, throwThe,
      MonadExceptOf.throw, pure, Except.pure] <;> rfl

/-- C47.  `b[start:stop:step]` for a `Buffer`.  The bounds count from the offset of `b` in the list, also if they are
negative.  Bounds outside of the list raise `IndexError`, and so does a step other than `1`, unless nothing is
selected or the list has one cell. -/
theorem C47_buffer_slice (b : Buffer V) (mem : List V) (s : PySlice) (hs : s.step ≠ some 0) (a z : Int)
    (ha : a = b.offset + s.start.getD 0) (hz : z = b.offset + s.stop.getD b.size) :
    ((a < 0 ∨ mem.length ≤ a ∨ z ≤ 0 ∨ mem.length < z) →
      (Storage.buffer b).getItem mem (.one (.slice s)) = .error .index) ∧
    (0 ≤ a → a < mem.length → 0 < z → z ≤ mem.length →
      (s.step.getD 1 = 1 ∨ slicePositions ⟨some a, some z, s.step⟩ mem.length = [] ∨ mem.length = 1 →
        ∃ r : Buffer V, (Storage.buffer b).getItem mem (.one (.slice s)) = .ok (.view (.buffer r)) ∧
          r.offset + r.size ≤ mem.length ∧ r.unspec = b.unspec ∧
          r.size = (slicePositions ⟨some a, some z, s.step⟩ mem.length).length ∧
          (s.step.getD 1 = 1 → (r.size : Int) = max 0 (z - a)) ∧
          ∀ (i : Nat) (v : V), i < r.size →
            (Reads (.buffer r) mem [(i : Int)] v ↔ Reads (.buffer b) mem [s.start.getD 0 + i] v)) ∧
      (s.step.getD 1 ≠ 1 → slicePositions ⟨some a, some z, s.step⟩ mem.length ≠ [] → 1 < mem.length →
        (Storage.buffer b).getItem mem (.one (.slice s)) = .error .index)) := by
  have hget : (Storage.buffer b).getItem mem (.one (.slice s)) =
      (if a < 0 ∨ a ≥ mem.length then (.error .index : PyM (Res V)) else
        if z ≤ 0 ∨ z > mem.length then .error .index else
          if (reduced ⟨some a, some z, s.step⟩ mem.length).step ≠ 1 then .error .index else
            (Buffer.new ((reduced ⟨some a, some z, s.step⟩ mem.length).stop -
              (reduced ⟨some a, some z, s.step⟩ mem.length).start).toNat
              (reduced ⟨some a, some z, s.step⟩ mem.length).start.toNat mem b.unspec).map fun r => .view (.buffer r)) := by
    simp only [Storage.getItem, Storage.bufferGetItem, Buffer.getSlice_eq b mem s a z ha hz, bind, Except.bind, pure, Except.pure]
    by_cases c1 : a < 0 ∨ a ≥ mem.length
    · simp only [if_pos c1]
    · by_cases c2 : z ≤ 0 ∨ z > mem.length
      · simp only [if_neg c1, if_pos c2]
      · by_cases c3 : (reduced ⟨some a, some z, s.step⟩ mem.length).step ≠ 1
        · simp only [if_neg c1, if_neg c2, if_pos c3]
        · simp only [if_neg c1, if_neg c2, if_neg c3]
          cases Buffer.new ((reduced ⟨some a, some z, s.step⟩ mem.length).stop -
              (reduced ⟨some a, some z, s.step⟩ mem.length).start).toNat
              (reduced ⟨some a, some z, s.step⟩ mem.length).start.toNat mem b.unspec <;> rfl
  refine ⟨?_, ?_⟩
  · intro h
    rw [hget]
    by_cases c1 : a < 0 ∨ a ≥ mem.length
    · rw [if_pos c1]
    · rw [if_neg c1, if_pos (by omega)]
  · intro h1 h2 h3 h4
    rw [hget, if_neg (by omega), if_neg (by omega)]
    have sp := reduced_spec ⟨some a, some z, s.step⟩ mem.length hs
    have hus : upStart ⟨some a, some z, s.step⟩ mem.length = a := by
      simp only [upStart, clampBound, Option.map_some, Option.getD_some]; split <;> omega
    have huz : upStop ⟨some a, some z, s.step⟩ mem.length = z := by
      simp only [upStop, clampBound, Option.map_some, Option.getD_some]; split <;> omega
    have hds : downStart ⟨some a, some z, s.step⟩ mem.length = a := by
      simp only [downStart, clampBound, Option.map_some, Option.getD_some]; split <;> omega
    have hdz : downStop ⟨some a, some z, s.step⟩ mem.length = min ((mem.length : Int) - 1) z := by
      simp only [downStop, clampBound, Option.map_some, Option.getD_some]; split <;> omega
    have hne : s.step.getD 1 ≠ 0 := by
      cases h : s.step with
      | none => simp
      | some k => simp only [Option.getD_some]; rintro rfl; exact hs h
    have empty_case : ∀ (hP : slicePositions ⟨some a, some z, s.step⟩ mem.length = [])
        (hr : reduced ⟨some a, some z, s.step⟩ mem.length = ⟨0, 0, 1⟩) (hk : s.step.getD 1 = 1 → z ≤ a),
        ∃ r : Buffer V, (if (reduced ⟨some a, some z, s.step⟩ mem.length).step ≠ 1 then (.error .index : PyM (Res V)) else
            (Buffer.new ((reduced ⟨some a, some z, s.step⟩ mem.length).stop -
              (reduced ⟨some a, some z, s.step⟩ mem.length).start).toNat
              (reduced ⟨some a, some z, s.step⟩ mem.length).start.toNat mem b.unspec).map fun r => .view (.buffer r))
              = .ok (.view (.buffer r)) ∧
          r.offset + r.size ≤ mem.length ∧ r.unspec = b.unspec ∧
          r.size = (slicePositions ⟨some a, some z, s.step⟩ mem.length).length ∧
          (s.step.getD 1 = 1 → (r.size : Int) = max 0 (z - a)) ∧
          ∀ (i : Nat) (v : V), i < r.size →
            (Reads (.buffer r) mem [(i : Int)] v ↔ Reads (.buffer b) mem [s.start.getD 0 + i] v) := by
      intro hP hr hk
      refine ⟨⟨0, 0, b.unspec⟩, ?_, by simp, rfl, by rw [hP]; rfl, fun h => by have := hk h; simp only [Nat.cast_zero]; omega,
        fun i v i1 => absurd i1 (Nat.not_lt_zero i)⟩
      rw [hr, Buffer.new_ok _ _ _ _ (by simp)]; simp [Except.map]
    by_cases hpos : 0 < s.step.getD 1
    · have hr := reduced_pos ⟨some a, some z, s.step⟩ mem.length hpos
      simp only [hus, huz] at hr
      by_cases hlt : a < z
      · rw [if_pos hlt] at hr
        have hP : slicePositions ⟨some a, some z, s.step⟩ mem.length ≠ [] ∧
            (min (s.step.getD 1) mem.length = 1 → ((slicePositions ⟨some a, some z, s.step⟩ mem.length).length : Int) = z - a) := by
          generalize hg : reduced ⟨some a, some z, s.step⟩ mem.length = g at sp
          rw [hr] at hg
          cases sp with
          | empty h => simp only [RSlice.mk.injEq] at hg; omega
          | up i j k m g0 gij gj gk gkn gm gP =>
            simp only [RSlice.mk.injEq] at hg
            obtain ⟨rfl, rfl, rfl⟩ := hg
            rw [gP]
            refine ⟨?_, fun h => ?_⟩
            · have := (gm 0).2 (by simpa using gij)
              intro h
              have := congrArg List.length h
              simp at this
              omega
            · simp only [List.length_map, List.length_range]
              have ga := gm (z - a).toNat
              have gb := gm ((z - a).toNat - 1)
              rw [h] at ga gb
              omega
          | down i j k m g0 gij gj gk gkn gm gP =>
            simp only [RSlice.mk.injEq] at hg
            omega
        refine ⟨?_, ?_⟩
        · intro hcase
          have hmin : min (s.step.getD 1) (mem.length : Int) = 1 := by
            rcases hcase with h | h | h
            · omega
            · exact absurd h hP.1
            · omega
          have hlen := hP.2 hmin
          rw [hr]
          refine ⟨⟨(z - a).toNat, a.toNat, b.unspec⟩, ?_, ?_, rfl, ?_, ?_, ?_⟩
          · simp only [hmin, ne_eq, not_true_eq_false, if_false]
            rw [Buffer.new_ok _ _ _ _ (by omega)]
            rfl
          · simp only; omega
          · simp only; omega
          · intro _; simp only; omega
          · intro i v i1
            simp only [Reads, Storage.getItem, Storage.bufferGetItem, List.map_cons, List.map_nil, Buffer.getInt, bind, Except.bind, pure, Except.pure]
            have : ((a.toNat : Nat) : Int) + i = b.offset + (s.start.getD 0 + i) := by omega
            rw [this]
        · intro hstep _ hl
          rw [hr, if_pos]
          simp only
          omega
      · rw [if_neg hlt] at hr
        have hP : slicePositions ⟨some a, some z, s.step⟩ mem.length = [] := by
          have hn := (reduced_nitems ⟨some a, some z, s.step⟩ mem.length hs).1
          simp only [nitems, hr] at hn
          have : (slicePositions ⟨some a, some z, s.step⟩ mem.length).length = 0 := by
            have e : nitemsR ⟨0, 0, 1⟩ = .ok 0 := rfl
            rw [e] at hn
            simpa using hn.symm
          exact List.length_eq_zero_iff.1 this
        exact ⟨fun _ => empty_case hP hr (fun _ => by omega), fun _ h => absurd hP h⟩
    · have hr := reduced_neg ⟨some a, some z, s.step⟩ mem.length (by simp only; omega)
      simp only [hds, hdz] at hr
      generalize hg : reduced ⟨some a, some z, s.step⟩ mem.length = g at sp
      cases sp with
      | empty h => exact ⟨fun _ => by rw [← hg]; exact empty_case h hg (fun h => by omega), fun _ h' => absurd h h'⟩
      | up i j k m g0 gij gj gk gkn gm gP =>
        rw [hg] at hr
        split at hr <;> simp only [RSlice.mk.injEq] at hr <;> omega
      | down i j k m g0 gij gj gk gkn gm gP =>
        refine ⟨?_, ?_⟩
        · rintro (h | h | h)
          · omega
          · exfalso
            have := (gm 0).2 (by simpa using gij)
            rw [gP] at h
            have := congrArg List.length h
            simp at this
            omega
          · exfalso
            rw [hg] at hr
            split at hr <;> simp only [RSlice.mk.injEq] at hr <;> omega
        · intro _ _ _
          rw [if_pos]
          simp only
          omega

/-- A zero step, for which Python raises `ValueError`, gives the empty buffer. -/
theorem C47_zero_step (b : Buffer V) (mem : List V) (start stop : Option Int)
    (h1 : 0 ≤ (b.offset : Int) + start.getD 0) (h2 : (b.offset : Int) + start.getD 0 < mem.length)
    (h3 : 0 < (b.offset : Int) + stop.getD b.size) (h4 : (b.offset : Int) + stop.getD b.size ≤ mem.length) :
    (Storage.buffer b).getItem mem (.one (.slice ⟨start, stop, some 0⟩)) = .ok (.view (.buffer ⟨0, 0, b.unspec⟩)) := by
  simp only [Storage.getItem, Storage.bufferGetItem, Buffer.getSlice_eq b mem ⟨start, stop, some 0⟩ _ _ rfl rfl, bind,
    Except.bind, pure, Except.pure, reduced_zero_step]
  rw [if_neg (by omega), if_neg (by omega)]
  simp [Buffer.new_ok]

/-- Cases of C47: `b[-1:2]` of a buffer at offset `2` is larger than the buffer on its left side, `b[2:2]` raises at the end
of the list, `b[0:2:2]` raises. -/
example : (Storage.buffer (⟨3, 2, 0⟩ : Buffer Int)).getItem [10, 11, 12, 13, 14] (.one (.slice ⟨some (-1), some 2, none⟩))
      = .ok (.view (.buffer ⟨3, 1, 0⟩)) ∧
    (Storage.buffer (⟨3, 2, 0⟩ : Buffer Int)).getItem [10, 11, 12, 13, 14] (.one (.slice ⟨some 3, some 3, none⟩))
      = .error .index ∧
    (Storage.buffer (⟨3, 2, 0⟩ : Buffer Int)).getItem [10, 11, 12, 13, 14] (.one (.slice ⟨some 0, some 2, some 2⟩))
      = .error .index := by decide +kernel

end Gcs
