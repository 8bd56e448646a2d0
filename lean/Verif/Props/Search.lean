import Verif.Lemmas.Sparse

/-!
# C22, C23, C24: the binary searches

Each theorem describes the index arrays by the cells of the lists behind them, so that views with an
offset or with other strides are covered.
-/

namespace Gcs

open Spec

/-- C22.  `get_coo_position`: column `p` of the index array (shape `(d, n)`, any strides, any
offset) is `rows[p]`, and the columns increase strictly in lexicographic order.  Looking up `ix`
gives the position `p` with `rows[p] = ix`, or `None` exactly when there is none. -/
theorem C22_coo_search (d n : Nat) (s0 s1 : Int) (b : Buffer (Option Int)) (imem : List (Option Int))
    (rows : List (List Int)) (hn : rows.length = n) (hd : ∀ r ∈ rows, r.length = d)
    (hs : rows.Pairwise lexLt)
    (hcell : ∀ (p j : Nat) (row : List Int) (v : Int), rows[p]? = some row → row[j]? = some v →
      ∃ a : Nat, (a : Int) = b.offset + j * s0 + p * s1 ∧ imem[a]? = some (some v))
    (ix : List Int) (hix : ix.length = d) :
    (∃ p : Nat, getCooPosition ix ⟨[d, n], [s0, s1], b⟩ imem = .ok (some (p : Int)) ∧ rows[p]? = some ix) ∨
    (getCooPosition ix ⟨[d, n], [s0, s1], b⟩ imem = .ok none ∧ ix ∉ rows) := by
  have hread : ∀ p (hp : p < rows.length) j, j < ix.length →
      readIndex ⟨[d, n], [s0, s1], b⟩ imem (j : Int) (p : Int) = .ok (rows[p].getD j 0) := by
    intro p hp j hj
    have hrow : rows[p].length = d := hd _ (List.getElem_mem hp)
    have hj' : j < rows[p].length := by omega
    obtain ⟨a, ha, hm⟩ := hcell p j rows[p] rows[p][j] (List.getElem?_eq_getElem hp) (List.getElem?_eq_getElem hj')
    have hb : InBox [(j : Int), (p : Int)] [d, n] := ⟨⟨by omega, by omega⟩, ⟨by omega, by omega⟩, trivial⟩
    have hlen : a < imem.length := by
      rcases Nat.lt_or_ge a imem.length with h | h
      · exact h
      · rw [List.getElem?_eq_none h] at hm; cases hm
    have e1 := normalize_ints _ _ hb
    have e2 := elementIndex_ints [(j : Int), (p : Int)]
    have e3 := getPosition_ok [(j : Int), (p : Int)] [d, n] [s0, s1] rfl rfl
    simp only [List.map_cons, List.map_nil] at e1 e2
    simp only [address] at e3
    have e4 := b.getInt_ok imem ((j : Int) * s0 + ((p : Int) * s1 + 0)) none (by omega) (by omega)
    have e5 : ((b.offset : Int) + ((j : Int) * s0 + ((p : Int) * s1 + 0))).toNat = a := by omega
    rw [e5, List.getD_eq_getElem?_getD, hm] at e4
    simp only [readIndex, Strided.getItem, e1, bind, Except.bind, e2, Strided.getDataPosition, e3, e4, pure,
      Except.pure, Option.getD_some, asInt]
    simp [List.getD_eq_getElem?_getD, hj']
  rw [getCooPosition_ok ⟨[d, n], [s0, s1], b⟩ imem rows ix (by rw [hn]; rfl) hs
    (fun r hr => by rw [hd r hr, hix]) hread]
  by_cases hmem : ix ∈ rows
  · obtain ⟨p, hp, rfl⟩ := List.getElem_of_mem hmem
    exact .inl ⟨p, by rw [findPos_some (sorted_nodup hs) hp], List.getElem?_eq_getElem hp⟩
  · exact .inr ⟨by rw [findPos_none hmem], hmem⟩

/-- A case of C22: four stored indices, one of them looked up, and an index between two of them. -/
example :
    let ind : Strided (Option Int) := ⟨[2, 4], [4, 1], ⟨8, 0, none⟩⟩
    let imem : List (Option Int) := [some 0, some 0, some 2, some 2, some 1, some 3, some 0, some 4]
    getCooPosition [2, 0] ind imem = .ok (some 2) ∧ getCooPosition [2, 2] ind imem = .ok none ∧
    ([[0, 1], [0, 3], [2, 0], [2, 4]] : List (List Int)).Pairwise lexLt := by
  refine ⟨by decide +kernel, by decide +kernel, ?_⟩
  simp [lexLt]

/-- C23.  `get_flatcoo_position`: the flat indices in the window of the buffer are `fis`, strictly
increasing.  Looking up `x` gives its position, or `None` exactly when it is not stored. -/
theorem C23_flatcoo_search (b : Buffer (Option Int)) (fmem : List (Option Int)) (fis : List Int)
    (hsz : b.size = fis.length) (hs : fis.Pairwise (· < ·))
    (hcell : ∀ (p : Nat) (v : Int), fis[p]? = some v → fmem[b.offset + p]? = some (some v)) (x : Int) :
    (∃ p : Nat, getFlatcooPosition x b fmem = .ok (some (p : Int)) ∧ fis[p]? = some x) ∨
    (getFlatcooPosition x b fmem = .ok none ∧ x ∉ fis) := by
  rcases getFlatcooPosition_ok b fmem fis x hsz hs (by
      intro p hp
      have hm := hcell p fis[p] (List.getElem?_eq_getElem hp)
      have hlen : b.offset + p < fmem.length := by
        rcases Nat.lt_or_ge (b.offset + p) fmem.length with h | h
        · exact h
        · rw [List.getElem?_eq_none h] at hm; cases hm
      have e : ((b.offset : Int) + (p : Int)).toNat = b.offset + p := by omega
      simp only [readBuf, b.getInt_ok fmem (p : Int) none (by omega) (by omega), e, List.getD_eq_getElem?_getD, hm,
        bind, Except.bind, Option.getD_some, asInt])
    with ⟨p, hp, h1, h2⟩ | h
  · exact .inl ⟨p, h1, by rw [← h2]; exact List.getElem?_eq_getElem hp⟩
  · exact .inr h

/-- A case of C23, with an offset. -/
example : getFlatcooPosition 7 ⟨4, 1, none⟩ [none, some 0, some 3, some 7, some 9] = .ok (some 2) ∧
    getFlatcooPosition 8 ⟨4, 1, none⟩ [none, some 0, some 3, some 7, some 9] = .ok none := by
  decide +kernel

/-- C24.  `get_csr_position`: `ptr` are the row pointers and `cols` the column numbers; the pointers of
row `r` delimit a range of positions of `cols` in which the column numbers increase strictly.  Looking
up `(r, k)` gives the position of that range holding `k`, or `None` exactly when there is none. -/
theorem C24_csr_search (crow : Buffer (Option Int)) (crowMem : List (Option Int)) (col : Buffer (Option Int))
    (colMem : List (Option Int)) (ptr : List Nat) (cols : List Int)
    (hptr : ∀ (r : Nat) (v : Nat), ptr[r]? = some v → crowMem[crow.offset + r]? = some (some (v : Int)))
    (hcol : ∀ (p : Nat) (v : Int), cols[p]? = some v → colMem[col.offset + p]? = some (some v))
    (r lo hi : Nat) (hlo : ptr[r]? = some lo) (hhi : ptr[r + 1]? = some hi) (hle : hi ≤ cols.length)
    (hs : ∀ (p q : Nat) (v w : Int), lo ≤ p → p < q → q < hi → cols[p]? = some v → cols[q]? = some w → v < w)
    (k : Int) :
    (∃ p : Nat, getCsrPosition [(r : Int), k] crow crowMem col colMem = .ok (some (p : Int)) ∧
      lo ≤ p ∧ p < hi ∧ cols[p]? = some k) ∨
    (getCsrPosition [(r : Int), k] crow crowMem col colMem = .ok none ∧
      ∀ p, lo ≤ p → p < hi → cols[p]? ≠ some k) := by
  have rd : ∀ (b : Buffer (Option Int)) (mem : List (Option Int)) (p : Nat) (v : Int),
      mem[b.offset + p]? = some (some v) → readBuf b mem (p : Int) = .ok v := by
    intro b mem p v hm
    have hlen : b.offset + p < mem.length := by
      rcases Nat.lt_or_ge (b.offset + p) mem.length with h | h
      · exact h
      · rw [List.getElem?_eq_none h] at hm; cases hm
    have e : ((b.offset : Int) + (p : Int)).toNat = b.offset + p := by omega
    simp only [readBuf, b.getInt_ok mem (p : Int) none (by omega) (by omega), e, List.getD_eq_getElem?_getD, hm,
      bind, Except.bind, Option.getD_some, asInt]
  have e1 := rd crow crowMem r lo (hptr r lo hlo)
  have e2 := rd crow crowMem (r + 1) hi (hptr (r + 1) hi hhi)
  rw [show (((r + 1 : Nat)) : Int) = (r : Int) + 1 by omega] at e2
  have eg : ∀ p : Int, (lo : Int) ≤ p → p < hi → cols[p.toNat]? = some (cols.getD p.toNat 0) := by
    intro p h1 h2
    have : p.toNat < cols.length := by omega
    simp [this]
  rcases getCsrPosition_ok crow crowMem col colMem (r : Int) k lo hi (fun p => cols.getD p.toNat 0) e1 e2
      (by
        intro p h1 h2
        have := rd col colMem p.toNat _ (hcol _ _ (eg p h1 h2))
        rwa [Int.toNat_of_nonneg (by omega)] at this)
      (by
        intro p q h1 h2 h3
        exact hs p.toNat q.toNat _ _ (by omega) (by omega) (by omega) (eg p h1 (by omega)) (eg q (by omega) h3))
    with ⟨p, h1, h2, h3, h4⟩ | ⟨h1, h2⟩
  · refine .inl ⟨p.toNat, ?_, by omega, by omega, ?_⟩
    · rw [h1, Int.toNat_of_nonneg (by omega)]
    · rw [eg p h2 h3, ← h4]
  · refine .inr ⟨h1, fun p hp1 hp2 he => ?_⟩
    apply h2 (p : Int) (by omega) (by omega)
    rw [Int.toNat_natCast, List.getD_eq_getElem?_getD, he]
    rfl

/-- A case of C24: three rows, the middle one empty; a stored index, one absent from its row although
the column occurs in another row, and one in the empty row. -/
example :
    let crow : List (Option Int) := [some 0, some 2, some 2, some 5]
    let col : List (Option Int) := [some 1, some 4, some 0, some 2, some 4]
    getCsrPosition [2, 2] ⟨4, 0, none⟩ crow ⟨5, 0, none⟩ col = .ok (some 3) ∧
    getCsrPosition [0, 2] ⟨4, 0, none⟩ crow ⟨5, 0, none⟩ col = .ok none ∧
    getCsrPosition [1, 4] ⟨4, 0, none⟩ crow ⟨5, 0, none⟩ col = .ok none := by
  decide +kernel

end Gcs
