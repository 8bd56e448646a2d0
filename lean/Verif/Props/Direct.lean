import Verif.Props.Observing

/-!
# C62: objects made by calling the constructors

The programs below call `Strided(...)`, `COO(...)`, `FlatCOO(...)` and `CSR(...)` with index arrays of the user.
-/

namespace Gcs

open Spec

variable {V : Type} [DecidableEq V]

/-- `COO(shape, Strided.fromobject(indices), Buffer(len(values), 0, values, u))`: gcs/storage.py:700-708. -/
def callCOO (shape : List Nat) (indices : List (List Int)) (values : List V) (u : V) : PyM (COO V) := do
  let (ind, imem) ← Strided.ofNested (nestedRows indices)
  let data ← Buffer.new values.length 0 values u
  COO.new shape ind imem data

/-- `FlatCOO(shape, Buffer.fromobject(findices), Buffer(len(values), 0, values, u))`: gcs/storage.py:779-787. -/
def callFlatCOO (shape : List Nat) (findices : List Int) (values : List V) (u : V) : PyM (FlatCOO V) := do
  let (fi, fmem) ← intBuffer findices
  let data ← Buffer.new values.length 0 values u
  FlatCOO.new shape fi fmem data

/-- `CSR(shape, Buffer.fromobject(crow), Buffer.fromobject(col), Buffer(len(values), 0, values, u))`:
gcs/storage.py:833-857. -/
def callCSR (shape : List Nat) (crow col : List Int) (values : List V) (u : V) : PyM (CSR V) := do
  let (cr, crMem) ← intBuffer crow
  let (co, coMem) ← intBuffer col
  let data ← Buffer.new values.length 0 values u
  CSR.new shape cr crMem co coMem data

/-- `Strided(shape, strides, Buffer(size, offset, values, u))`: gcs/storage.py:613-619. -/
def callStrided (shape : List Nat) (strides : List Int) (size offset : Nat) (values : List V) (u : V) : PyM (Strided V) := do
  let data ← Buffer.new size offset values u
  Strided.new shape strides data

/-- `s` is the array of the given shape that has the given values at the given indices and `u` elsewhere;
`elements()` yields the given pairs. -/
structure Spec.HasEntries (s : Storage V) (mem : List V) (shape : List Nat) (ixs : List (List Int)) (vals : List V)
    (u : V) : Prop where
  shape_eq : s.shape = shape
  unspec : s.unspec = u
  given : ∀ (k : Nat) ix v, ixs[k]? = some ix → vals[k]? = some v → Reads s mem ix v
  other : ∀ ix, InBox ix shape → ix ∉ ixs → Reads s mem ix u
  elements : (∀ n ∈ shape, 0 < n) → s.elements mem = .ok (List.zipWith (fun ix v => (.tuple ix, v)) ixs vals)

theorem hasEntries_of {s : Storage V} {shape : List Nat} {ixs : List (List Int)} {vals : List V} {u : V}
    (h : Sparse s ixs ⟨vals.length, 0, u⟩) (hs : s.shape = shape) (hl : vals.length = ixs.length) :
    HasEntries s vals shape ixs vals u := by
  have hb : Buffer.WF ⟨vals.length, 0, u⟩ vals := by simp [Buffer.WF]
  have hw : Buffer.window ⟨vals.length, 0, u⟩ vals = vals := by simp [Buffer.window]
  have hwf := h.wf vals hb
  have hat := h.at vals hb
  rw [hw] at hat
  subst hs
  refine ⟨rfl, h.unspec, ?_, ?_, ?_⟩
  · intro k ix v hk hv
    obtain ⟨h1, rfl⟩ := List.getElem?_eq_some_iff.1 hk
    obtain ⟨h2, rfl⟩ := List.getElem?_eq_some_iff.1 hv
    have hi := h.rows_ok.inbox _ (List.getElem_mem h1)
    have := hwf.reads _ hi
    rw [hat _ hi, lookup_at h.rows_ok.nodup vals u k h1] at this
    simpa [List.getD_eq_getElem?_getD, h2] using this
  · intro ix hi hno
    have := hwf.reads _ hi
    rwa [hat _ hi, lookup_none _ _ hno] at this
  · intro hp
    rw [h.elements_ok vals hb fun _ => hp]
    congr 1
    apply List.ext_getElem (by simp [hl])
    intro i h1 h2
    have hi : i < ixs.length := by simpa using h1
    have hv : i < vals.length := by omega
    have hbox := h.rows_ok.inbox _ (List.getElem_mem hi)
    simp only [List.getElem_map, List.getElem_zipWith]
    rw [hat _ hbox, lookup_at h.rows_ok.nodup vals u i hi]
    simp [List.getD_eq_getElem?_getD, hv]

theorem callCOO_ok (shape : List Nat) (hne : shape ≠ []) (ixs : List (List Int)) (vals : List V)
    (hl : vals.length = ixs.length) (u : V) :
    callCOO shape ((List.range shape.length).map fun j => ixs.map fun ix => ix.getD j 0) vals u =
      .ok (cooOf shape ixs ⟨vals.length, 0, u⟩) := by
  have := ofNested_columns shape.length (List.length_pos_of_ne_nil hne) ixs
  simp only [columns] at this
  simp only [callCOO, this, bind, Except.bind]
  rw [Buffer.new_ok _ _ _ _ (by simp)]
  simp only
  rw [COO.new_ok _ _ _ _ shape.length ixs.length rfl hl]
  rfl

/-- C62 for `COO`: indices in strictly increasing order, given axis by axis. -/
theorem C62_coo (shape : List Nat) (hne : shape ≠ []) (ixs : List (List Int)) (hsort : ixs.Pairwise lexLt)
    (hbox : ∀ ix ∈ ixs, InBox ix shape) (vals : List V) (hl : vals.length = ixs.length) (u : V) :
    ∃ c, callCOO shape ((List.range shape.length).map fun j => ixs.map fun ix => ix.getD j 0) vals u = .ok c ∧
      (Storage.coo c).WF vals ∧ HasEntries (.coo c) vals shape ixs vals u := by
  have hr : SortedRows shape ixs := ⟨hsort, hbox⟩
  have hrep := cooOf_rep shape hne ixs hr ⟨vals.length, 0, u⟩ hl
  exact ⟨_, callCOO_ok shape hne ixs vals hl u, ⟨⟨ixs, hrep⟩, by simp [cooOf, Buffer.WF]⟩,
    hasEntries_of (.coo hrep) rfl hl⟩

/-- C62 for `FlatCOO`: the row-major positions of the indices. -/
theorem C62_flatcoo (shape : List Nat) (ixs : List (List Int)) (hsort : ixs.Pairwise lexLt)
    (hbox : ∀ ix ∈ ixs, InBox ix shape) (vals : List V) (hl : vals.length = ixs.length) (u : V) :
    ∃ f, callFlatCOO shape (ixs.map fun ix => rowMajor ix shape 0) vals u = .ok f ∧
      (Storage.flatcoo f).WF vals ∧ HasEntries (.flatcoo f) vals shape ixs vals u := by
  have hr : SortedRows shape ixs := ⟨hsort, hbox⟩
  have hrep := flatOf_rep shape ixs hr ⟨vals.length, 0, u⟩ hl
  refine ⟨flatOf shape ixs ⟨vals.length, 0, u⟩, ?_, ⟨⟨ixs, hrep⟩, by simp [flatOf, Buffer.WF]⟩,
    hasEntries_of (.flatcoo hrep) rfl hl⟩
  have e : (ixs.map fun ix => rowMajor ix shape 0) = ixs.map fun ix => address ix (makeStrides shape) := by
    apply List.map_congr_left
    intro ix hix
    have := rowMajor_eq ix shape 0 (hbox ix hix).length_eq
    rwa [zero_mul, zero_add] at this
  simp only [callFlatCOO, e, intBuffer_ok, bind, Except.bind]
  rw [Buffer.new_ok _ _ _ _ (by simp)]
  simp only
  rw [FlatCOO.new_ok _ _ _ _ (by simp [hl])]
  simp [flatOf, fmemOf, Function.comp_def]

/-- C62 for `CSR`: `crow[r]` is the number of indices in the rows before `r`, `col` are the columns. -/
theorem C62_csr (n m : Nat) (ixs : List (List Int)) (hsort : ixs.Pairwise lexLt)
    (hbox : ∀ ix ∈ ixs, InBox ix [n, m]) (vals : List V) (hl : vals.length = ixs.length) (u : V) :
    ∃ c, callCSR [n, m] ((List.range (n + 1)).map fun (r : Nat) => ((ixs.countP fun ix => ix.getD 0 0 < (r : Int)) : Nat))
        (ixs.map fun ix => ix.getD 1 0) vals u = .ok c ∧
      (Storage.csr c).WF vals ∧ HasEntries (.csr c) vals [n, m] ixs vals u := by
  have hr : SortedRows [n, m] ixs := ⟨hsort, hbox⟩
  have hrep := csrOf_rep [n, m] rfl ixs hr ⟨vals.length, 0, u⟩ hl
  refine ⟨csrOf [n, m] ixs ⟨vals.length, 0, u⟩, ?_, ⟨⟨ixs, hrep⟩, by simp [csrOf, Buffer.WF]⟩,
    hasEntries_of (.csr hrep) rfl hl⟩
  have e : ∀ r : Nat, below (firsts ixs) r = ixs.countP fun ix => decide (ix.getD 0 0 < (r : Int)) := by
    intro r
    simp only [below, firsts, List.countP_eq_length_filter, List.filter_map, List.length_map]
    rfl
  simp only [callCSR, intBuffer_ok, bind, Except.bind]
  rw [Buffer.new_ok _ _ _ _ (by simp)]
  simp only
  rw [CSR.new_ok [n, m] _ _ _ _ _ n m rfl (by simp) (by simp [hl])]
  simp [csrOf, e, Function.comp_def]

/-- C62 for `Strided`: any strides whose addresses fit into the window; different indices may share a cell. -/
theorem C62_strided (shape : List Nat) (strides : List Int) (size offset : Nat) (vals : List V) (u : V)
    (hl : strides.length = shape.length) (hfit : offset + size ≤ vals.length)
    (haddr : ∀ ix, InBox ix shape → 0 ≤ address ix strides ∧ address ix strides < size) :
    ∃ s, callStrided shape strides size offset vals u = .ok s ∧ (Storage.strided s).WF vals ∧ s.shape = shape ∧
      ∀ ix, InBox ix shape → ∃ v, vals[offset + (address ix strides).toNat]? = some v ∧ Reads (.strided s) vals ix v := by
  have hwf : (⟨shape, strides, ⟨size, offset, u⟩⟩ : Strided V).WF vals :=
    ⟨hl, hfit, fun ix hi => ⟨by have := haddr ix hi; simp only; omega, (haddr ix hi).2⟩⟩
  refine ⟨⟨shape, strides, ⟨size, offset, u⟩⟩, ?_, hwf, rfl, fun ix hi => ?_⟩
  · simp only [callStrided, bind, Except.bind]
    rw [Buffer.new_ok _ _ _ _ hfit]
    simp [Strided.new, pyAssert, hl, bind, Except.bind, pure, Except.pure]
  · have h1 := haddr ix hi
    have hlt : offset + (address ix strides).toNat < vals.length := by omega
    refine ⟨vals[offset + (address ix strides).toNat], List.getElem?_eq_getElem hlt, ?_⟩
    have := Storage.WF.reads (s := .strided _) (mem := vals) hwf ix hi
    rw [at_strided hwf ix hi] at this
    have e : (⟨shape, strides, ⟨size, offset, u⟩⟩ : Strided V).val vals ix = vals[offset + (address ix strides).toNat] := by
      simp only [Strided.val, Strided.cell]
      have : ((offset : Int) + address ix strides).toNat = offset + (address ix strides).toNat := by omega
      rw [this]
      simp [List.getD_eq_getElem?_getD, hlt]
    rwa [e] at this

/-! ## Indices in any order -/

/-- A search in any list of indices finds nothing, or a position that holds the index. -/
theorem bsearch_sound (cmp : Int → PyM Ordering) (ord : Int → Ordering) (left right : Int)
    (hc : ∀ p, left ≤ p → p ≤ right → cmp p = .ok (ord p)) :
    (∃ p, bsearch cmp left right = .ok (some p) ∧ left ≤ p ∧ p ≤ right ∧ ord p = .eq) ∨
      bsearch cmp left right = .ok none := by
  induction hn : (right + 1 - left).toNat using Nat.strongRecOn generalizing left right with
  | _ n ih =>
    by_cases h : left ≤ right
    · have hmid : left ≤ Int.fdiv (left + right) 2 ∧ Int.fdiv (left + right) 2 ≤ right := by
        rw [Int.fdiv_eq_ediv_of_nonneg _ (by omega)]; omega
      rw [bsearch, dif_pos h]
      set pos := Int.fdiv (left + right) 2 with hpos
      simp only [← hpos, hc pos hmid.1 hmid.2]
      cases ho : ord pos with
      | eq => exact .inl ⟨pos, rfl, hmid.1, hmid.2, ho⟩
      | lt =>
        rcases ih _ (by omega) (pos + 1) right (fun p h1 h2 => hc p (by omega) h2) rfl with ⟨p, h1, h2, h3, h4⟩ | h1
        · exact .inl ⟨p, h1, by omega, h3, h4⟩
        · exact .inr h1
      | gt =>
        rcases ih _ (by omega) left (pos - 1) (fun p h1 h2 => hc p h1 (by omega)) rfl with ⟨p, h1, h2, h3, h4⟩ | h1
        · exact .inl ⟨p, h1, h2, by omega, h4⟩
        · exact .inr h1
    · rw [bsearch, dif_neg h]
      exact .inr rfl

theorem indicesOf_read (d : Nat) (rows : List (List Int)) (p : Nat) (hp : p < rows.length) (j : Nat) (hj : j < d) :
    readIndex (indicesOf d rows) (imemOf d rows) (j : Int) (p : Int) = .ok (rows[p].getD j 0) := by
  obtain ⟨h1, h2, h3⟩ := indicesOf_ok d rows
  have hb : InBox [(j : Int), (p : Int)] (indicesOf d rows).shape := by
    rw [h1]
    exact ⟨⟨by omega, by omega⟩, ⟨by omega, by omega⟩, trivial⟩
  have := Strided.getItem_elem h2 [(j : Int), (p : Int)] hb
  simp only [List.map_cons, List.map_nil] at this
  simp only [readIndex, this, bind, Except.bind, h3 p hp j hj, asInt]

/-- What `get_coo_position` compares. -/
theorem cooOf_compare (shape : List Nat) (ixs : List (List Int)) (hbox : ∀ ix ∈ ixs, InBox ix shape) (ix : List Int)
    (hi : InBox ix shape) (p : Nat) (hp : p < ixs.length) :
    cooCompare (indicesOf shape.length ixs) (imemOf shape.length ixs) (p : Int) 0 ix = .ok (lexCmp ixs[p] ix) := by
  have hlen := (hbox _ (List.getElem_mem hp)).length_eq
  have := cooCompare_ok (indicesOf shape.length ixs) (imemOf shape.length ixs) (p : Int) ixs[p] ix 0
    (by rw [hlen, hi.length_eq]; omega) (fun i _ hi => indicesOf_read _ _ p hp i (by omega))
  simpa using this

/-- Reading an element of a COO over any list of indices. -/
theorem cooOf_getItem (shape : List Nat) (ixs : List (List Int)) (b : Buffer V) (mem : List V) (ix : List Int)
    (hi : InBox ix shape) (p : Option Int)
    (h : bsearch (fun pos => cooCompare (indicesOf shape.length ixs) (imemOf shape.length ixs) pos 0 ix) 0
      ((ixs.length : Int) - 1) = .ok p) (v : V) (hv : readAt b mem p = .ok v) :
    Reads (.coo (cooOf shape ixs b)) mem ix v := by
  have e : (cooOf shape ixs b).getDataPosition ix = .ok p := by
    simp only [COO.getDataPosition, getCooPosition, cooOf]
    rw [show pyGet (indicesOf shape.length ixs).shape 1 = .ok ixs.length from rfl]
    exact h
  simp only [Reads, Storage.getItem, bind, Except.bind]
  rw [show (cooOf shape ixs b).shape = shape from rfl, normalize_ints ix _ hi]
  simp only [elementIndex_ints, e]
  rw [show (cooOf shape ixs b).data = b from rfl, hv]
  rfl

theorem getInt_whole (vals : List V) (u : V) (p : Nat) (hp : p < vals.length) :
    (⟨vals.length, 0, u⟩ : Buffer V).getInt vals (p : Int) = .ok vals[p] := by
  have := (⟨vals.length, 0, u⟩ : Buffer V).getInt_window vals (by simp [Buffer.WF]) p hp u
  simpa [Buffer.window, List.getD_eq_getElem?_getD, hp] using this

/-- C62, any order: `COO` takes the indices in any order, with or without repetitions.  `elements()` yields all of
them.  A read never gives a value that was given for another index: it gives a value given for this index or the
unspecified value. -/
theorem C62_coo_any_order (shape : List Nat) (hne : shape ≠ []) (ixs : List (List Int))
    (hbox : ∀ ix ∈ ixs, InBox ix shape) (vals : List V) (hl : vals.length = ixs.length) (u : V) :
    ∃ c, callCOO shape ((List.range shape.length).map fun j => ixs.map fun ix => ix.getD j 0) vals u = .ok c ∧
      (Storage.coo c).elements vals = .ok (List.zipWith (fun ix v => (.tuple ix, v)) ixs vals) ∧
      ∀ ix, InBox ix shape → Reads (.coo c) vals ix u ∨
        ∃ (k : Nat) (v : V), ixs[k]? = some ix ∧ vals[k]? = some v ∧ Reads (.coo c) vals ix v := by
  refine ⟨_, callCOO_ok shape hne ixs vals hl u, ?_, fun ix hi => ?_⟩
  · have he : (cooOf shape ixs ⟨vals.length, 0, u⟩).entries = .ok (withPos ixs) := by
      have hsz : (cooOf shape ixs ⟨vals.length, 0, u⟩).size = ixs.length := rfl
      simp only [COO.entries, hsz]
      rw [mapM_ok _ (fun (p : Nat) => (ixs.getD p [], (p : Int)))]
      · congr 1
        apply List.ext_getElem (by simp [withPos])
        intro i h1 h2
        have : i < ixs.length := by simpa using h1
        simp [withPos, List.getD_eq_getElem?_getD, this]
      · intro p hp
        have hp : p < ixs.length := by simpa using hp
        have hlen := (hbox ixs[p] (List.getElem_mem _)).length_eq
        have e : (cooOf shape ixs ⟨vals.length, 0, u⟩).indices.shape.getD 0 0 = shape.length := rfl
        have hm := mapM_ok (fun (j : Nat) => readIndex (indicesOf shape.length ixs) (imemOf shape.length ixs) (j : Int) (p : Int))
          (fun j => ixs[p].getD j 0) (List.range shape.length)
          fun j hj => indicesOf_read shape.length ixs p hp j (by simpa using hj)
        rw [e]
        simp only [cooOf, hm, bind, Except.bind, pure, Except.pure, range_getD _ _ hlen]
        simp [List.getD_eq_getElem?_getD, hp]
    simp only [Storage.elements, he, bind, Except.bind]
    have e2 : List.zipWith (fun ix v => (Storage.Key.tuple ix, v)) ixs vals =
        (withPos ixs).map fun e => (Storage.Key.tuple e.1, vals.getD e.2.toNat u) := by
      apply List.ext_getElem (by simp [withPos, hl])
      intro i h1 h2
      have h3 : i < vals.length := by simp at h1; omega
      simp [withPos, List.getD_eq_getElem?_getD, h3]
    rw [e2]
    refine mapM_ok _ _ _ fun e he => ?_
    obtain ⟨p, hp, rfl⟩ := List.getElem_of_mem he
    have hp' : p < vals.length := by simp [withPos] at hp; omega
    have e3 : (withPos ixs)[p].2 = (p : Int) := by simp [withPos]
    rw [show (cooOf shape ixs ⟨vals.length, 0, u⟩).data = ⟨vals.length, 0, u⟩ from rfl, e3, getInt_whole vals u p hp']
    simp [pure, Except.pure, List.getD_eq_getElem?_getD, hp']
  · rcases bsearch_sound (fun pos => cooCompare (indicesOf shape.length ixs) (imemOf shape.length ixs) pos 0 ix)
        (fun p => lexCmp (ixs.getD p.toNat []) ix) 0 ((ixs.length : Int) - 1) (fun p h0 h1 => by
          have hp : p.toNat < ixs.length := by omega
          have := cooOf_compare shape ixs hbox ix hi p.toNat hp
          rw [Int.toNat_of_nonneg h0] at this
          simp only [this]
          simp [List.getD_eq_getElem?_getD, hp])
      with ⟨p, h1, h2, h3, h4⟩ | h1
    · right
      have hp : p.toNat < ixs.length := by omega
      have hv : p.toNat < vals.length := by omega
      have e : ixs.getD p.toNat [] = ixs[p.toNat] := by simp [List.getD_eq_getElem?_getD, hp]
      simp only [e] at h4
      have h5 := (lexCmp_spec _ _ (by rw [(hbox _ (List.getElem_mem hp)).length_eq, hi.length_eq])).2.1 h4
      refine ⟨p.toNat, vals[p.toNat], by simp [hp, h5], by simp [hv], ?_⟩
      refine cooOf_getItem shape ixs _ vals ix hi (some p) h1 _ ?_
      have := getInt_whole vals u p.toNat hv
      rw [Int.toNat_of_nonneg h2] at this
      exact this
    · left
      exact cooOf_getItem shape ixs _ vals ix hi none h1 u rfl

/-- C62, defect: with the two indices in decreasing order, `elements()` has the element at `a`, but reading it gives
the unspecified value. -/
theorem C62_coo_unsorted (shape : List Nat) (hne : shape ≠ []) (a b : List Int) (ha : InBox a shape) (hb : InBox b shape)
    (hab : lexLt a b) (va vb u : V) :
    ∃ c, callCOO shape ((List.range shape.length).map fun j => [b.getD j 0, a.getD j 0]) [vb, va] u = .ok c ∧
      (Storage.coo c).elements [vb, va] = .ok [(.tuple b, vb), (.tuple a, va)] ∧
      Reads (.coo c) [vb, va] b vb ∧ Reads (.coo c) [vb, va] a u := by
  have hbox : ∀ ix ∈ [b, a], InBox ix shape := by simp [ha, hb]
  obtain ⟨c, h1, h2, -⟩ := C62_coo_any_order shape hne [b, a] hbox [vb, va] rfl u
  have h3 := callCOO_ok shape hne [b, a] [vb, va] rfl u
  obtain rfl : c = _ := Except.ok.inj (h1.symm.trans h3)
  refine ⟨_, h1, h2, ?_, ?_⟩
  · refine cooOf_getItem shape [b, a] _ _ b hb (some 0) ?_ vb rfl
    rw [bsearch, dif_pos (by simp)]
    have e := cooOf_compare shape [b, a] hbox b hb 0 (by simp)
    have e2 : lexCmp b b = .eq := (lexCmp_spec _ _ rfl).2.2 rfl
    simp only [Int.ofNat_zero, Nat.cast_zero, List.getElem_cons_zero, e2] at e
    have e3 : Int.fdiv (0 + (([b, a].length : Int) - 1)) 2 = 0 := by simp
    simp only [e3, e]
  · refine cooOf_getItem shape [b, a] _ _ a ha none ?_ u rfl
    rw [bsearch, dif_pos (by simp)]
    have e := cooOf_compare shape [b, a] hbox a ha 0 (by simp)
    have e2 : lexCmp b a = .gt := by
      have hs := lexCmp_spec b a (by rw [ha.length_eq, hb.length_eq])
      cases ho : lexCmp b a with
      | gt => rfl
      | lt => exact absurd (lexLt_trans hab (hs.1.1 ho)) (lexLt_irrefl a)
      | eq => exact absurd (hs.2.1 ho ▸ hab) (lexLt_irrefl a)
    simp only [Int.ofNat_zero, Nat.cast_zero, List.getElem_cons_zero, e2] at e
    have e3 : Int.fdiv (0 + (([b, a].length : Int) - 1)) 2 = 0 := by simp
    simp only [e3, e]
    rw [bsearch, dif_neg (by decide)]

/-! ## Examples -/

/-- A 3 x 4 array with values at (0, 2), (2, 0), (2, 3): the three calls give the same elements. -/
example : (do let c ← callCOO [3, 4] [[0, 2, 2], [2, 0, 3]] [some 5, some 6, some 7] none
              return ((Storage.coo c).getVal [some 5, some 6, some 7] [2, 3], (Storage.coo c).getVal [some 5, some 6, some 7] [1, 2]))
    = (.ok (.ok (some 7), .ok none) : PyM (PyM (Option Int) × PyM (Option Int))) := by decide +kernel

example : (do let c ← callFlatCOO [3, 4] [2, 8, 11] [some 5, some 6, some 7] none
              return ((Storage.flatcoo c).getVal [some 5, some 6, some 7] [2, 3], (Storage.flatcoo c).getVal [some 5, some 6, some 7] [1, 2]))
    = (.ok (.ok (some 7), .ok none) : PyM (PyM (Option Int) × PyM (Option Int))) := by decide +kernel

example : (do let c ← callCSR [3, 4] [0, 1, 1, 3] [2, 0, 3] [some 5, some 6, some 7] none
              return ((Storage.csr c).getVal [some 5, some 6, some 7] [2, 3], (Storage.csr c).getVal [some 5, some 6, some 7] [1, 2]))
    = (.ok (.ok (some 7), .ok none) : PyM (PyM (Option Int) × PyM (Option Int))) := by decide +kernel

example : ([[0, 2], [2, 0], [2, 3]] : List (List Int)).Pairwise lexLt ∧
    (∀ ix ∈ ([[0, 2], [2, 0], [2, 3]] : List (List Int)), InBox ix [3, 4]) := by
  simp [lexLt, InBox]

/-- A 3 x 3 Hankel matrix in five cells, starting at the second item of the list. -/
example : (do let s ← callStrided [3, 3] [1, 1] 5 1 [some 0, some 1, some 2, some 3, some 4, some 5] (none : Option Int)
              return ((Storage.strided s).getVal [some 0, some 1, some 2, some 3, some 4, some 5] [2, 1]))
    = .ok (.ok (some 4)) := by decide +kernel

example : ∀ ix, InBox ix [3, 3] → 0 ≤ address ix [1, 1] ∧ address ix [1, 1] < 5 := by
  intro ix h
  match ix, h with
  | [i, j], h =>
    obtain ⟨⟨h1, h2⟩, ⟨h3, h4⟩, -⟩ := h
    simp [address]
    omega

/-- The indices (1, 1), (0, 2) in this order. -/
example : (do let c ← callCOO [2, 3] [[1, 0], [1, 2]] [some 5, some 6] none
              return ((Storage.coo c).getVal [some 5, some 6] [1, 1], (Storage.coo c).getVal [some 5, some 6] [0, 2]))
    = (.ok (.ok (some 5), .ok none) : PyM (PyM (Option Int) × PyM (Option Int))) := by decide +kernel

example : lexLt [0, 2] [1, 1] := by simp [lexLt]

end Gcs
