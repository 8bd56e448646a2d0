/-
C63: how much of the index lists the binary searches look at.
-/
import Mathlib.Data.Nat.Size
import Verif.Props.Getting

namespace Gcs

open Spec

variable {V : Type}

/-- The positions that a search looks at. -/
theorem bsearch_probes (cmp : Int → PyM Ordering) (left right : Int) :
    ∃ ps : List Int, (∀ p ∈ ps, left ≤ p ∧ p ≤ right) ∧ ps.length ≤ Nat.size (right + 1 - left).toNat ∧
      ∀ cmp' : Int → PyM Ordering, (∀ p ∈ ps, cmp' p = cmp p) → bsearch cmp' left right = bsearch cmp left right := by
  induction hn : (right + 1 - left).toNat using Nat.strongRecOn generalizing left right with
  | _ n ih =>
    by_cases h : left ≤ right
    · have hmid : left ≤ Int.fdiv (left + right) 2 ∧ Int.fdiv (left + right) 2 ≤ right ∧
          right ≤ 2 * Int.fdiv (left + right) 2 - left + 1 ∧ 2 * Int.fdiv (left + right) 2 ≤ left + right := by
        rw [Int.fdiv_eq_ediv_of_nonneg _ (by omega)]
        omega
      have hstep : ∀ (ps : List Int) (k : Nat), ps.length ≤ Nat.size k → 2 * k ≤ n → (ps.length + 1) ≤ Nat.size n := by
        intro ps k h1 h2
        rw [Nat.succ_le_iff, Nat.lt_size]
        by_cases h0 : ps.length = 0
        · rw [h0]
          simp only [pow_zero]
          omega
        · have : ps.length - 1 < Nat.size k := by omega
          rw [Nat.lt_size] at this
          have e : 2 ^ ps.length = 2 * 2 ^ (ps.length - 1) := by
            conv => lhs; rw [show ps.length = (ps.length - 1) + 1 by omega, pow_succ]
            omega
          omega
      generalize hpos : Int.fdiv (left + right) 2 = pos at hmid
      have stop : ∀ r, (∀ cmp' : Int → PyM Ordering, cmp' pos = cmp pos → bsearch cmp' left right = r) →
          ∃ ps : List Int, (∀ p ∈ ps, left ≤ p ∧ p ≤ right) ∧ ps.length ≤ Nat.size n ∧
            ∀ cmp' : Int → PyM Ordering, (∀ p ∈ ps, cmp' p = cmp p) → bsearch cmp' left right = bsearch cmp left right := by
        intro r hr
        refine ⟨[pos], ?_, hstep [] 0 (by simp) (by omega), fun cmp' hc => ?_⟩
        · intro p hp
          rw [List.mem_singleton] at hp
          subst hp
          exact ⟨hmid.1, hmid.2.1⟩
        · rw [hr cmp' (hc pos (by simp)), hr cmp rfl]
      have un : ∀ cmp' : Int → PyM Ordering, bsearch cmp' left right = match cmp' pos with
          | .error e => .error e
          | .ok .eq => .ok (some pos)
          | .ok .lt => bsearch cmp' (pos + 1) right
          | .ok .gt => bsearch cmp' left (pos - 1) := by
        intro cmp'
        rw [bsearch, dif_pos h]
        simp only [hpos]
        rfl
      cases hc : cmp pos with
      | error e => exact stop (.error e) fun cmp' h' => by rw [un, h', hc]
      | ok o =>
        cases o with
        | eq => exact stop (.ok (some pos)) fun cmp' h' => by rw [un, h', hc]
        | lt =>
          obtain ⟨ps, h1, h2, h3⟩ := ih _ (by omega) (pos + 1) right rfl
          refine ⟨pos :: ps, ?_, hstep ps _ h2 (by omega), fun cmp' hc' => ?_⟩
          · intro p hp
            rcases List.mem_cons.1 hp with rfl | hp
            · exact ⟨hmid.1, hmid.2.1⟩
            · have := h1 p hp
              omega
          · rw [un, un, hc' pos (by simp), hc]
            exact h3 cmp' fun p hp => hc' p (by simp [hp])
        | gt =>
          obtain ⟨ps, h1, h2, h3⟩ := ih _ (by omega) left (pos - 1) rfl
          refine ⟨pos :: ps, ?_, hstep ps _ h2 (by omega), fun cmp' hc' => ?_⟩
          · intro p hp
            rcases List.mem_cons.1 hp with rfl | hp
            · exact ⟨hmid.1, hmid.2.1⟩
            · have := h1 p hp
              omega
          · rw [un, un, hc' pos (by simp), hc]
            exact h3 cmp' fun p hp => hc' p (by simp [hp])
    · refine ⟨[], by simp, by simp, fun cmp' _ => ?_⟩
      rw [bsearch, dif_neg h, bsearch, dif_neg h]

theorem pyGet_congr {α : Type} (l l' : List α) (i : Int) (h : 0 ≤ i) (he : l'[i.toNat]? = l[i.toNat]?) :
    pyGet l' i = pyGet l i := by
  simp only [pyGet, if_pos h, he]

theorem readBuf_congr (b : Buffer (Option Int)) (l l' : List (Option Int)) (i : Int) (h : 0 ≤ i)
    (he : l'[b.offset + i.toNat]? = l[b.offset + i.toNat]?) : readBuf b l' i = readBuf b l i := by
  have e : ((b.offset : Int) + i).toNat = b.offset + i.toNat := by omega
  simp only [readBuf, Buffer.getInt]
  rw [pyGet_congr l l' _ (by omega) (by rw [e]; exact he)]

theorem readIndex_congr (s : Strided (Option Int)) (l l' : List (Option Int)) (hw : s.WF l) (j p : Int)
    (hi : InBox [j, p] s.shape) (he : l'[s.cell [j, p]]? = l[s.cell [j, p]]?) :
    readIndex s l' j p = readIndex s l j p := by
  have hn := normalize_ints [j, p] s.shape hi
  have hel := elementIndex_ints [j, p]
  simp only [List.map_cons, List.map_nil] at hn hel
  have ha := (hw.addr _ hi).1
  simp only [readIndex, Strided.getItem, hn, hel, Strided.getDataPosition_ok hw hi, bind, Except.bind, Buffer.getInt]
  rw [pyGet_congr l l' _ ha he]

theorem cooCompare_congr (s : Strided (Option Int)) (l l' : List (Option Int)) (p : Int) (ix : List Int) (j : Nat)
    (h : ∀ i, j ≤ i → i < j + ix.length → readIndex s l' (i : Int) p = readIndex s l (i : Int) p) :
    cooCompare s l' p j ix = cooCompare s l p j ix := by
  induction ix generalizing j with
  | nil => rfl
  | cons x ix ih =>
    simp only [List.length_cons] at h
    simp only [cooCompare, h j (Nat.le_refl _) (by omega)]
    rw [ih (j + 1) fun i h1 h2 => h i (by omega) (by omega)]

theorem getVal_congr_coo [DecidableEq V] (c : COO V) (mem : List V) (ix : List Int) (hi : InBox ix c.shape)
    (imem : List (Option Int))
    (h : getCooPosition ix c.indices imem = getCooPosition ix c.indices c.imem) :
    (Storage.coo { c with imem := imem }).getVal mem ix = (Storage.coo c).getVal mem ix := by
  simp only [Storage.getVal, Storage.getItem, normalize_ints ix c.shape hi, elementIndex_ints, COO.getDataPosition, h,
    bind, Except.bind]

/-- C63 (`COO`).  Reading one element of a `COO` with `n` stored elements looks at no more columns of `indices` than
`n` has binary digits: whatever the other items of the list of `indices` are, the result is the same. -/
theorem C63_coo [DecidableEq V] (c : COO V) (mem : List V) (h : (Storage.coo c).WF mem) (ix : List Int)
    (hi : InBox ix c.shape) :
    ∃ cells : List Nat, cells.length ≤ Nat.size c.data.size * c.shape.length ∧
      ∀ imem : List (Option Int), (∀ k ∈ cells, imem[k]? = c.imem[k]?) →
        (Storage.coo { c with imem := imem }).getVal mem ix = (Storage.coo c).getVal mem ix := by
  obtain ⟨⟨rows, hr⟩, _⟩ := h
  have hn : pyGet c.indices.shape 1 = .ok rows.length := by rw [hr.ishape]; rfl
  obtain ⟨ps, h1, h2, h3⟩ := bsearch_probes (fun pos => cooCompare c.indices c.imem pos 0 ix) 0 ((rows.length : Int) - 1)
  refine ⟨ps.flatMap fun p => (List.range c.shape.length).map fun (j : Nat) => c.indices.cell [(j : Int), p], ?_,
    fun imem hm => ?_⟩
  · have e : ((rows.length : Int) - 1 + 1 - 0).toNat = c.data.size := by rw [hr.size]; omega
    rw [e] at h2
    simp only [List.length_flatMap, List.length_map, List.length_range, List.map_const', List.sum_replicate,
      smul_eq_mul]
    exact Nat.mul_le_mul_right _ h2
  · apply getVal_congr_coo c mem ix hi
    simp only [getCooPosition, hn, bind, Except.bind]
    refine h3 _ fun p hp => ?_
    apply cooCompare_congr
    intro i _ hil
    have hp' := h1 p hp
    have hl := hi.length_eq
    apply readIndex_congr _ _ _ hr.iwf
    · rw [hr.ishape]
      exact ⟨⟨by omega, by omega⟩, ⟨by omega, by omega⟩, trivial⟩
    · exact hm _ (List.mem_flatMap.2 ⟨p, hp, List.mem_map.2 ⟨i, List.mem_range.2 (by omega), rfl⟩⟩)

/-- C63 (`FlatCOO`).  Reading one element of a `FlatCOO` with `n` stored elements looks at no more items of `findices`
than `n` has binary digits. -/
theorem C63_flatcoo [DecidableEq V] (f : FlatCOO V) (mem : List V) (h : (Storage.flatcoo f).WF mem) (ix : List Int)
    (hi : InBox ix f.shape) :
    ∃ cells : List Nat, cells.length ≤ Nat.size f.data.size ∧
      ∀ fmem : List (Option Int), (∀ k ∈ cells, fmem[k]? = f.fmem[k]?) →
        (Storage.flatcoo { f with fmem := fmem }).getVal mem ix = (Storage.flatcoo f).getVal mem ix := by
  obtain ⟨⟨rows, hr⟩, _⟩ := h
  obtain ⟨ps, h1, h2, h3⟩ := bsearch_probes (fun pos => do
      let v ← readBuf f.findices f.fmem pos
      return signOf (v - address ix (makeStrides f.shape))) 0 ((f.findices.size : Int) - 1)
  refine ⟨ps.map fun p => f.findices.offset + p.toNat, ?_, fun fmem hm => ?_⟩
  · have e : ((f.findices.size : Int) - 1 + 1 - 0).toNat = f.data.size := by rw [hr.fsize, hr.size]; omega
    rw [e] at h2
    simpa using h2
  · have hg : getFlatcooPosition (address ix (makeStrides f.shape)) f.findices fmem
        = getFlatcooPosition (address ix (makeStrides f.shape)) f.findices f.fmem := by
      refine h3 _ fun p hp => ?_
      rw [readBuf_congr f.findices f.fmem fmem p (h1 p hp).1 (hm _ (List.mem_map.2 ⟨p, hp, rfl⟩))]
    simp only [Storage.getVal, Storage.getItem, normalize_ints ix f.shape hi, elementIndex_ints,
      FlatCOO.getDataPosition, getPosition_ok ix f.shape _ hi.length_eq (makeStrides_length _), hg, bind, Except.bind]

theorem increasing_width (key : Nat → Int) (lo hi : Nat) (hs : ∀ p q, lo ≤ p → p < q → q < hi → key p < key q)
    (b : Int) (h0 : ∀ p, lo ≤ p → p < hi → 0 ≤ key p) (h1 : ∀ p, lo ≤ p → p < hi → key p < b) :
    ((hi - lo : Nat) : Int) ≤ max b 0 := by
  have hk : ∀ d, lo + d < hi → (d : Int) ≤ key (lo + d) := by
    intro d
    induction d with
    | zero => intro h; exact h0 lo (Nat.le_refl _) (by omega)
    | succ d ih =>
      intro h
      have a := ih (by omega)
      have b := hs (lo + d) (lo + (d + 1)) (by omega) (by omega) h
      omega
  by_cases h : lo < hi
  · have a := hk (hi - lo - 1) (by omega)
    have b := h1 (lo + (hi - lo - 1)) (by omega) (by omega)
    omega
  · omega

/-- C63 (`CSR`).  Reading one element of a `CSR` with `m` columns looks at no more column indices than `m` has binary
digits (and at two row pointers). -/
theorem C63_csr [DecidableEq V] (c : CSR V) (mem : List V) (h : (Storage.csr c).WF mem) (n m : Nat)
    (hs : c.shape = [n, m]) (ix : List Int) (hi : InBox ix c.shape) :
    ∃ rcells cells : List Nat, rcells.length ≤ 2 ∧ cells.length ≤ Nat.size m ∧
      ∀ crowMem colMem : List (Option Int), (∀ k ∈ rcells, crowMem[k]? = c.crowMem[k]?) →
        (∀ k ∈ cells, colMem[k]? = c.colMem[k]?) →
        (Storage.csr { c with crowMem := crowMem, colMem := colMem }).getVal mem ix = (Storage.csr c).getVal mem ix := by
  obtain ⟨⟨rows, hr⟩, _⟩ := h
  obtain ⟨r, k, n', m', rfl, hsh, hr0, hr1, hk0, hk1⟩ := pair_of_two hi hr.two
  rw [hs] at hsh
  obtain ⟨rfl, rfl⟩ : n = n' ∧ m = m' := by simpa using hsh
  have hn : c.shape.getD 0 0 = n := by simp [hs]
  obtain ⟨r, rfl⟩ := Int.eq_ofNat_of_zero_le hr0
  have hlo := hr.crow_ok r (by omega)
  have hhi := hr.crow_ok (r + 1) (by omega)
  have hle : below (firsts rows) (r + 1) ≤ rows.length := by
    have := below_le_length (firsts rows) (r + 1)
    rwa [firsts_length] at this
  have hfs := hr.rows_ok.firsts_sorted
  have inrow : ∀ p : Nat, ∀ hp : p < rows.length,
      (below (firsts rows) r ≤ p ∧ p < below (firsts rows) (r + 1)) → rows[p].getD 0 0 = r := by
    intro p hp
    have := below_range (firsts rows) r hfs p (by rw [firsts_length]; exact hp)
    rw [firsts_getElem] at this
    exact this.1
  have hwidth : below (firsts rows) (r + 1) - below (firsts rows) r ≤ m := by
    have := increasing_width (fun p => (rows.getD p []).getD 1 0) (below (firsts rows) r) (below (firsts rows) (r + 1))
      (by
        intro p q h1 h2 h3
        have hp : p < rows.length := by omega
        have hq : q < rows.length := by omega
        have := hr.rows_ok.cols_lt hr.two p q hq h2 (by
          rw [firsts_getD _ _ hp, firsts_getD _ _ hq, inrow p hp (by omega), inrow q hq (by omega)])
        have ep : rows.getD p [] = rows[p] := by simp [List.getD_eq_getElem?_getD, hp]
        have eq : rows.getD q [] = rows[q] := by simp [List.getD_eq_getElem?_getD, hq]
        simp only [ep, eq]
        exact this) m
      (by
        intro p h1 h2
        have hp : p < rows.length := by omega
        obtain ⟨r', k', _, _, e, e', _, _, z, _⟩ := pair_of_two (hr.rows_ok.inbox _ (List.getElem_mem hp)) hr.two
        have ep : rows.getD p [] = rows[p] := by simp [List.getD_eq_getElem?_getD, hp]
        simp only [ep, e]
        simpa using z)
      (by
        intro p h1 h2
        have hp : p < rows.length := by omega
        obtain ⟨r', k', _, m'', e, e', _, _, _, z⟩ := pair_of_two (hr.rows_ok.inbox _ (List.getElem_mem hp)) hr.two
        have ep : rows.getD p [] = rows[p] := by simp [List.getD_eq_getElem?_getD, hp]
        rw [hs] at e'
        simp only [List.cons.injEq, and_true] at e'
        simp only [ep, e, e'.2]
        simpa using z)
    omega
  obtain ⟨ps, h1, h2, h3⟩ := bsearch_probes (fun i => do
      let v ← readBuf c.col c.colMem i
      return signOf (v - k)) ((below (firsts rows) r : Nat) : Int) (((below (firsts rows) (r + 1) : Nat) : Int) - 1)
  refine ⟨[c.crow.offset + r, c.crow.offset + (r + 1)], ps.map fun p => c.col.offset + p.toNat, by simp, ?_,
    fun crowMem colMem hm1 hm2 => ?_⟩
  · rw [List.length_map]
    exact h2.trans (Nat.size_le_size (by omega))
  · have g1 : readBuf c.crow crowMem (r : Int) = .ok ((below (firsts rows) r : Nat) : Int) := by
      rw [← hlo]
      exact readBuf_congr _ _ _ _ (by omega) (hm1 _ (by simp))
    have g2 : readBuf c.crow crowMem ((r : Int) + 1) = .ok ((below (firsts rows) (r + 1) : Nat) : Int) := by
      have e : (((r + 1 : Nat)) : Int) = (r : Int) + 1 := by omega
      rw [e] at hhi
      rw [← hhi]
      exact readBuf_congr _ _ _ _ (by omega) (hm1 _ (by
        have : ((r : Int) + 1).toNat = r + 1 := by omega
        simp [this]))
    have g3 : readBuf c.crow c.crowMem ((r : Int) + 1) = .ok ((below (firsts rows) (r + 1) : Nat) : Int) := by
      have e : (((r + 1 : Nat)) : Int) = (r : Int) + 1 := by omega
      rw [e] at hhi
      exact hhi
    have hg := h3 (fun i => do
      let v ← readBuf c.col colMem i
      return signOf (v - k)) (fun p hp => by
        rw [readBuf_congr c.col c.colMem colMem p (by have := h1 p hp; omega) (hm2 _ (List.mem_map.2 ⟨p, hp, rfl⟩))])
    simp only [Storage.getVal, Storage.getItem, normalize_ints _ c.shape hi, elementIndex_ints,
      CSR.getDataPosition, getCsrPosition, g1, g2, g3, hlo, hg, bind, Except.bind] at hg ⊢

/-- A case: of three stored elements the search for `[1, 1]` looks at two (`3` has two binary digits); the item of the
index lists for the other one may be anything. -/
example : (Storage.flatcoo sampleFlat).WF sampleItems ∧ Nat.size sampleFlat.data.size = 2 ∧
    (Storage.flatcoo { sampleFlat with fmem := [none, some 2, some 4] }).getVal sampleItems [1, 1] = .ok (some 5) ∧
    (Storage.coo { sampleCOO with imem := [none, some 0, some 1, none, some 2, some 1] }).getVal sampleItems [1, 1]
      = .ok (some 5) ∧
    (Storage.csr { sampleCSR with crowMem := [none, some 2, some 3], colMem := [none, none, some 1] }).getVal sampleItems
      [1, 1] = .ok (some 5) :=
  ⟨sampleFlat_wf, by decide, by decide +kernel, by decide +kernel, by decide +kernel⟩

end Gcs
