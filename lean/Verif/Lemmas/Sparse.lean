import Verif.Lemmas.Search

/-! Well-formed sparse storages: which indices they store, and what the searches and the enumerations return. -/

namespace Gcs

open Spec

variable {α : Type}

/-- The stored indices: inside the box, each once, in lexicographic order. -/
structure SortedRows (shape : List Nat) (rows : List (List Int)) : Prop where
  sorted : rows.Pairwise lexLt
  inbox : ∀ r ∈ rows, InBox r shape

theorem SortedRows.nodup {shape : List Nat} {rows : List (List Int)} (h : SortedRows shape rows) : rows.Nodup :=
  sorted_nodup h.sorted

/-- The stored indices with their positions. -/
def withPos (rows : List (List Int)) : List (List Int × Int) := rows.mapIdx fun p ix => (ix, (p : Int))

/-- The position of a stored index. -/
def findPos (rows : List (List Int)) (ix : List Int) : Option Int := (rows.idxOf? ix).map fun (p : Nat) => (p : Int)

theorem findPos_some {rows : List (List Int)} (hn : rows.Nodup) {p : Nat} (hp : p < rows.length) :
    findPos rows rows[p] = some (p : Int) := by
  have : rows.idxOf? rows[p] = some p := by
    rw [List.idxOf?_eq_some_iff]
    refine ⟨hp, by simp, fun j hj => ?_⟩
    have := List.pairwise_iff_getElem.1 hn j p (by omega) hp hj
    simpa using this
  simp [findPos, this]

theorem findPos_none {rows : List (List Int)} {ix : List Int} (h : ix ∉ rows) : findPos rows ix = none := by
  have : rows.idxOf? ix = none := by simpa [List.idxOf?_eq_none_iff] using h
  simp [findPos, this]

/-! ## `COO` -/

/-- `c` stores the indices `rows`. -/
structure COO.Rep (c : COO α) (rows : List (List Int)) : Prop where
  rows_ok : SortedRows c.shape rows
  ne : c.shape ≠ []
  ishape : c.indices.shape = [c.shape.length, rows.length]
  iwf : c.indices.WF c.imem
  iun : c.indices.data.unspec = none
  ival : ∀ p (hp : p < rows.length) j, j < c.shape.length →
    c.indices.val c.imem [(j : Int), (p : Int)] = some (rows[p].getD j 0)
  size : c.data.size = rows.length

theorem COO.Rep.readIndex_ok {c : COO α} {rows : List (List Int)} (h : c.Rep rows) (p : Nat) (hp : p < rows.length)
    (j : Nat) (hj : j < c.shape.length) : readIndex c.indices c.imem (j : Int) (p : Int) = .ok (rows[p].getD j 0) := by
  have hb : InBox [(j : Int), (p : Int)] c.indices.shape := by
    rw [h.ishape]
    exact ⟨⟨by omega, by omega⟩, ⟨by omega, by omega⟩, trivial⟩
  have := Strided.getItem_elem h.iwf [(j : Int), (p : Int)] hb
  simp only [List.map_cons, List.map_nil] at this
  simp only [readIndex, this, bind, Except.bind, h.ival p hp j hj, asInt]

theorem range_getD (row : List Int) (n : Nat) (h : row.length = n) :
    (List.range n).map (fun j => row.getD j 0) = row := by
  subst h
  apply List.ext_getElem (by simp)
  intro i h1 h2
  simp [List.getD_eq_getElem?_getD, h2]

theorem COO.Rep.entries_ok {c : COO α} {rows : List (List Int)} (h : c.Rep rows) :
    c.entries = .ok (withPos rows) := by
  have hsz : c.size = rows.length := by simp [COO.size, h.ishape]
  simp only [COO.entries, hsz]
  rw [mapM_ok _ (fun (p : Nat) => (rows.getD p [], (p : Int)))]
  · congr 1
    apply List.ext_getElem (by simp [withPos])
    intro i h1 h2
    have : i < rows.length := by simpa using h1
    simp [withPos, List.getD_eq_getElem?_getD, this]
  · intro p hp
    have hp : p < rows.length := by simpa using hp
    have e : c.indices.shape.getD 0 0 = c.shape.length := by simp [h.ishape]
    rw [e, mapM_ok _ (fun j => rows[p].getD j 0) _ fun j hj => h.readIndex_ok p hp j (by simpa using hj)]
    have hlen := (h.rows_ok.inbox rows[p] (List.getElem_mem _)).length_eq
    simp only [bind, Except.bind, pure, Except.pure, range_getD _ _ hlen]
    simp [List.getD_eq_getElem?_getD, hp]

/-- The search, for columns that are strictly sorted. -/
theorem getCooPosition_ok (indices : Strided (Option Int)) (imem : List (Option Int)) (rows : List (List Int))
    (ix : List Int) (hn : pyGet indices.shape 1 = .ok rows.length) (hs : rows.Pairwise lexLt)
    (hl : ∀ r ∈ rows, r.length = ix.length)
    (hr : ∀ p (hp : p < rows.length) j, j < ix.length →
      readIndex indices imem (j : Int) (p : Int) = .ok (rows[p].getD j 0)) :
    getCooPosition ix indices imem = .ok (findPos rows ix) := by
  simp only [getCooPosition, hn, bind, Except.bind]
  rcases bsearch_rows rows hs ix hl (fun pos => cooCompare indices imem pos 0 ix) (by
      intro p hp
      have hlen := hl _ (List.getElem_mem hp)
      have := cooCompare_ok indices imem (p : Int) rows[p] ix 0 (by omega)
        (fun i _ hi => hr p hp i (by omega))
      simpa using this)
    with ⟨p, hp, h1, h2⟩ | ⟨h1, h2⟩
  · rw [h1, ← h2, findPos_some (sorted_nodup hs) hp]
  · rw [h1, findPos_none h2]

theorem COO.Rep.find_ok {c : COO α} {rows : List (List Int)} (h : c.Rep rows) (ix : List Int)
    (hi : InBox ix c.shape) : c.getDataPosition ix = .ok (findPos rows ix) := by
  apply getCooPosition_ok _ _ _ _ _ h.rows_ok.sorted
  · intro r hr
    rw [(h.rows_ok.inbox r hr).length_eq, hi.length_eq]
  · intro p hp j hj
    exact h.readIndex_ok p hp j (by rw [hi.length_eq] at hj; exact hj)
  · rw [h.ishape]; rfl

/-! ## `FlatCOO` -/

/-- `f` stores the indices `rows`. -/
structure FlatCOO.Rep (f : FlatCOO α) (rows : List (List Int)) : Prop where
  rows_ok : SortedRows f.shape rows
  fwf : f.findices.WF f.fmem
  fval : f.findices.window f.fmem = rows.map fun r => some (address r (makeStrides f.shape))
  size : f.data.size = rows.length

theorem FlatCOO.Rep.fsize {f : FlatCOO α} {rows : List (List Int)} (h : f.Rep rows) : f.findices.size = rows.length := by
  rw [← f.findices.window_length _ h.fwf, h.fval]; simp

theorem readBuf_window (b : Buffer (Option Int)) (mem : List (Option Int)) (h : b.WF mem) (l : List Int)
    (hw : b.window mem = l.map some) (p : Nat) (hp : p < l.length) : readBuf b mem (p : Int) = .ok (l.getD p 0) := by
  have hsz : b.size = l.length := by rw [← b.window_length mem h, hw]; simp
  simp only [readBuf, b.getInt_window mem h p (by omega) none, hw, bind, Except.bind]
  simp [List.getD_eq_getElem?_getD, hp, asInt]

theorem FlatCOO.Rep.read_ok {f : FlatCOO α} {rows : List (List Int)} (h : f.Rep rows) (p : Nat) (hp : p < rows.length) :
    readBuf f.findices f.fmem (p : Int) = .ok (address rows[p] (makeStrides f.shape)) := by
  have := readBuf_window f.findices f.fmem h.fwf (rows.map fun r => address r (makeStrides f.shape))
    (by rw [h.fval, List.map_map]; rfl) p (by simpa using hp)
  rw [this]
  simp [List.getD_eq_getElem?_getD, hp]

/-- `init_diophantine` succeeds whenever no stride is zero. -/
theorem init_ok (st : List Int) (sh : List Nat) (hl : st.length = sh.length) (hne : sh ≠ [])
    (hnz : ∀ a ∈ st, a ≠ 0) :
    ∃ data, initDiophantine st (some sh) = .ok data ∧ ∀ pos, solveIndexData pos sh data = solveIndex pos sh st := by
  cases h : initDiophantine st (some sh) with
  | error e =>
    have : solveIndex 0 sh st = .error e := by simp only [solveIndex, h, bind, Except.bind]
    rcases solve_sound st sh hl hne hnz 0 with h1 | ⟨x, h1, _⟩
    · rw [h1] at this; simp at this
    · rw [h1] at this; simp at this
  | ok data => exact ⟨data, rfl, fun pos => by simp only [solveIndex, h, bind, Except.bind]⟩

/-- The flat indices of a box are turned back into indices. -/
theorem solve_flat (shape : List Nat) (hp : PosShape shape) :
    ∃ data, initDiophantine (makeStrides shape) (some shape) = .ok data ∧
      ∀ ix, InBox ix shape → solveIndexData (address ix (makeStrides shape)) shape data = .ok (some ix) := by
  by_cases hne : shape = []
  · subst hne
    refine ⟨⟨1, [], [], [], [], none⟩, rfl, fun ix hi => ?_⟩
    cases ix with
    | nil => decide
    | cons => exact hi.elim
  · obtain ⟨hc, hnz⟩ := makeStrides_chain shape hp
    obtain ⟨data, h1, h2⟩ := init_ok (makeStrides shape) shape (makeStrides_length _) hne hnz
    exact ⟨data, h1, fun ix hi => by rw [h2]; exact solve_chain hc hnz hne ix hi⟩

theorem FlatCOO.Rep.entries_ok {f : FlatCOO α} {rows : List (List Int)} (h : f.Rep rows) (hp : PosShape f.shape) :
    f.entries = .ok (withPos rows) := by
  obtain ⟨data, h1, h2⟩ := solve_flat f.shape hp
  simp only [FlatCOO.entries, h1, bind, Except.bind, h.fsize]
  refine Eq.trans (mapM_ok _ (fun (p : Nat) => (rows.getD p [], (p : Int))) _ ?_) ?_
  · intro p hp
    have hp : p < rows.length := by simpa using hp
    simp only [h.read_ok p hp, h2 _ (h.rows_ok.inbox _ (List.getElem_mem hp)), pure, Except.pure]
    simp [List.getD_eq_getElem?_getD, hp]
  · congr 1
    apply List.ext_getElem (by simp [withPos])
    intro i h1 h2
    have : i < rows.length := by simpa using h1
    simp [withPos, List.getD_eq_getElem?_getD, this]

/-- The search, for flat indices that are strictly increasing. -/
theorem getFlatcooPosition_ok (findices : Buffer (Option Int)) (fmem : List (Option Int)) (fis : List Int) (x : Int)
    (hn : findices.size = fis.length) (hs : fis.Pairwise (· < ·))
    (hr : ∀ p (hp : p < fis.length), readBuf findices fmem (p : Int) = .ok fis[p]) :
    (∃ p, ∃ hp : p < fis.length, getFlatcooPosition x findices fmem = .ok (some (p : Int)) ∧ fis[p] = x) ∨
    (getFlatcooPosition x findices fmem = .ok none ∧ x ∉ fis) := by
  simp only [getFlatcooPosition, hn]
  have hget : ∀ p : Int, 0 ≤ p → p ≤ (fis.length : Int) - 1 → ∃ hp : p.toNat < fis.length,
      readBuf findices fmem p = .ok fis[p.toNat] ∧ fis.getD p.toNat 0 = fis[p.toNat] := by
    intro p h1 h2
    have hp : p.toNat < fis.length := by omega
    refine ⟨hp, ?_, by simp [List.getD_eq_getElem?_getD, hp]⟩
    have := hr p.toNat hp
    rwa [Int.toNat_of_nonneg h1] at this
  rcases bsearch_ints (fun p => fis.getD p.toNat 0) 0 ((fis.length : Int) - 1) x (fun pos => do
      let v ← readBuf findices fmem pos
      return signOf (v - x)) (by
        intro p h1 h2
        obtain ⟨hp, e1, e2⟩ := hget p h1 h2
        simp only [e1, bind, Except.bind, pure, Except.pure, e2]) (by
        intro p q h1 h2 h3
        obtain ⟨hp, _, e1⟩ := hget p h1 (by omega)
        obtain ⟨hq, _, e2⟩ := hget q (by omega) h3
        simp only [e1, e2]
        exact List.pairwise_iff_getElem.1 hs p.toNat q.toNat hp hq (by omega))
    with ⟨p, h1, h2, h3, h4⟩ | ⟨h1, h2⟩
  · obtain ⟨hp, _, e1⟩ := hget p h2 h3
    simp only [e1] at h4
    exact .inl ⟨p.toNat, hp, by rw [h1, Int.toNat_of_nonneg h2], h4⟩
  · refine .inr ⟨h1, fun hmem => ?_⟩
    obtain ⟨p, hp, rfl⟩ := List.getElem_of_mem hmem
    apply h2 (p : Int) (by omega) (by omega)
    simp [List.getD_eq_getElem?_getD, hp]

theorem SortedRows.addresses {shape : List Nat} {rows : List (List Int)} (h : SortedRows shape rows) :
    (rows.map fun r => address r (makeStrides shape)).Pairwise (· < ·) := by
  rw [List.pairwise_map]
  refine h.sorted.imp_of_mem ?_
  intro x y hx hy hxy
  exact address_lt (h.inbox x hx) (h.inbox y hy) hxy

theorem FlatCOO.Rep.find_ok {f : FlatCOO α} {rows : List (List Int)} (h : f.Rep rows) (ix : List Int)
    (hi : InBox ix f.shape) : f.getDataPosition ix = .ok (findPos rows ix) := by
  simp only [FlatCOO.getDataPosition, getPosition_box hi, bind, Except.bind]
  rcases getFlatcooPosition_ok f.findices f.fmem (rows.map fun r => address r (makeStrides f.shape))
      (address ix (makeStrides f.shape)) (by rw [h.fsize]; simp) h.rows_ok.addresses (by
        intro p hp
        rw [h.read_ok p (by simpa using hp)]
        simp)
    with ⟨p, hp, h1, h2⟩ | ⟨h1, h2⟩
  · have hp' : p < rows.length := by simpa using hp
    simp only [List.getElem_map] at h2
    have : rows[p] = ix := address_inj (h.rows_ok.inbox _ (List.getElem_mem hp')) hi h2
    rw [h1, ← this, findPos_some h.rows_ok.nodup hp']
  · rw [h1, findPos_none]
    intro hmem
    exact h2 (List.mem_map.2 ⟨ix, hmem, rfl⟩)

/-! ## `CSR` -/

/-- The row numbers of the stored indices. -/
def firsts (rows : List (List Int)) : List Int := rows.map fun r => r.getD 0 0

/-- `c` stores the indices `rows`. -/
structure CSR.Rep (c : CSR α) (rows : List (List Int)) : Prop where
  rows_ok : SortedRows c.shape rows
  two : c.shape.length = 2
  cwf : c.crow.WF c.crowMem
  cval : c.crow.window c.crowMem
    = ((List.range (c.shape.getD 0 0 + 1)).map fun (r : Nat) => ((below (firsts rows) r : Nat) : Int)).map some
  kwf : c.col.WF c.colMem
  kval : c.col.window c.colMem = (rows.map fun r => r.getD 1 0).map some
  size : c.data.size = rows.length

theorem CSR.Rep.crow_ok {c : CSR α} {rows : List (List Int)} (h : c.Rep rows) (r : Nat) (hr : r ≤ c.shape.getD 0 0) :
    readBuf c.crow c.crowMem (r : Int) = .ok ((below (firsts rows) r : Nat) : Int) := by
  rw [readBuf_window _ _ h.cwf _ h.cval r (by simp; simp at hr; omega)]
  have hr' : r < c.shape.getD 0 0 + 1 := by omega
  rw [List.getD_eq_getElem?_getD, List.getElem?_map, List.getElem?_range hr']
  rfl

theorem CSR.Rep.col_ok {c : CSR α} {rows : List (List Int)} (h : c.Rep rows) (p : Nat) (hp : p < rows.length) :
    readBuf c.col c.colMem (p : Int) = .ok (rows[p].getD 1 0) := by
  rw [readBuf_window _ _ h.kwf _ h.kval p (by simpa using hp)]
  rw [List.getD_eq_getElem?_getD, List.getElem?_map, List.getElem?_eq_getElem hp]
  rfl

theorem pair_of_two {ix : List Int} {shape : List Nat} (h : InBox ix shape) (h2 : shape.length = 2) :
    ∃ r c n m, ix = [r, c] ∧ shape = [n, m] ∧ 0 ≤ r ∧ r < (n : Int) ∧ 0 ≤ c ∧ c < (m : Int) := by
  obtain ⟨n, m, rfl⟩ := List.length_eq_two.1 h2
  obtain ⟨r, c, rfl⟩ := List.length_eq_two.1 (h.length_eq.trans h2)
  exact ⟨r, c, n, m, rfl, rfl, h.1.1, h.1.2, h.2.1.1, h.2.1.2⟩

theorem SortedRows.firsts_sorted {shape : List Nat} {rows : List (List Int)} (h : SortedRows shape rows) :
    (firsts rows).Pairwise (· ≤ ·) := by
  unfold firsts
  rw [List.pairwise_map]
  refine h.sorted.imp_of_mem ?_
  intro x y hx hy hxy
  have e : x.length = y.length := by rw [(h.inbox x hx).length_eq, (h.inbox y hy).length_eq]
  cases x with
  | nil => cases y with
    | nil => simp
    | cons b y => simp at e
  | cons a x => cases y with
    | nil => simp [lexLt] at hxy
    | cons b y =>
      simp only [lexLt] at hxy
      simp; omega

/-- The search in a window of strictly increasing columns. -/
theorem getCsrPosition_ok (crow : Buffer (Option Int)) (crowMem : List (Option Int)) (col : Buffer (Option Int))
    (colMem : List (Option Int)) (r c lo hi : Int) (key : Int → Int)
    (h1 : readBuf crow crowMem r = .ok lo) (h2 : readBuf crow crowMem (r + 1) = .ok hi)
    (hc : ∀ p, lo ≤ p → p < hi → readBuf col colMem p = .ok (key p))
    (hs : ∀ p q, lo ≤ p → p < q → q < hi → key p < key q) :
    (∃ p, getCsrPosition [r, c] crow crowMem col colMem = .ok (some p) ∧ lo ≤ p ∧ p < hi ∧ key p = c) ∨
    (getCsrPosition [r, c] crow crowMem col colMem = .ok none ∧ ∀ p, lo ≤ p → p < hi → key p ≠ c) := by
  simp only [getCsrPosition, h1, h2, bind, Except.bind]
  rcases bsearch_ints key lo (hi - 1) c (fun i => do
      let v ← readBuf col colMem i
      return signOf (v - c)) (by
        intro p a b
        simp only [hc p a (by omega), bind, Except.bind, pure, Except.pure])
      (fun p q a b e => hs p q a b (by omega)) with ⟨p, e1, e2, e3, e4⟩ | ⟨e1, e2⟩
  · exact .inl ⟨p, e1, e2, by omega, e4⟩
  · exact .inr ⟨e1, fun p a b => e2 p a (by omega)⟩

/-- Two stored indices of the same row. -/
theorem SortedRows.cols_lt {shape : List Nat} {rows : List (List Int)} (h : SortedRows shape rows)
    (h2 : shape.length = 2) (p q : Nat) (hq : q < rows.length) (hpq : p < q)
    (he : (firsts rows).getD p 0 = (firsts rows).getD q 0) : rows[p].getD 1 0 < rows[q].getD 1 0 := by
  have hlt := List.pairwise_iff_getElem.1 h.sorted p q (by omega) hq hpq
  obtain ⟨r, c, n, m, e1, _⟩ := pair_of_two (h.inbox rows[p] (List.getElem_mem (by omega))) h2
  obtain ⟨r', c', n', m', e1', _⟩ := pair_of_two (h.inbox rows[q] (List.getElem_mem hq)) h2
  have hp : p < rows.length := by omega
  simp only [firsts, List.getD_eq_getElem?_getD, List.getElem?_map, List.getElem?_eq_getElem hp,
    List.getElem?_eq_getElem hq, e1, e1'] at he
  simp only [e1, e1', lexLt] at hlt
  simp only [e1, e1']
  simp at he hlt ⊢
  omega

theorem firsts_length (rows : List (List Int)) : (firsts rows).length = rows.length := by simp [firsts]

theorem firsts_getElem (rows : List (List Int)) (p : Nat) (hp : p < (firsts rows).length) :
    (firsts rows)[p] = (rows[p]'(by simpa [firsts] using hp)).getD 0 0 := by simp [firsts]

theorem firsts_getD (rows : List (List Int)) (p : Nat) (hp : p < rows.length) :
    (firsts rows).getD p 0 = rows[p].getD 0 0 := by
  simp [firsts, List.getD_eq_getElem?_getD, hp]

theorem CSR.Rep.find_ok {c : CSR α} {rows : List (List Int)} (h : c.Rep rows) (ix : List Int)
    (hi : InBox ix c.shape) : c.getDataPosition ix = .ok (findPos rows ix) := by
  obtain ⟨r, k, n, m, rfl, hsh, hr0, hr1, hk0, hk1⟩ := pair_of_two hi h.two
  have hn : c.shape.getD 0 0 = n := by simp [hsh]
  have hrn : ((r.toNat : Nat) : Int) = r := Int.toNat_of_nonneg hr0
  have hlo := h.crow_ok r.toNat (by omega)
  have hhi := h.crow_ok (r.toNat + 1) (by omega)
  have e : (((r.toNat + 1 : Nat)) : Int) = r + 1 := by omega
  rw [hrn] at hlo
  rw [e] at hhi
  have hle : below (firsts rows) (r + 1) ≤ rows.length := by
    have := below_le_length (firsts rows) (r + 1)
    rwa [firsts_length] at this
  have hfs := h.rows_ok.firsts_sorted
  have inrow : ∀ p : Nat, ∀ hp : p < rows.length, (below (firsts rows) r ≤ p ∧ p < below (firsts rows) (r + 1)) ↔
      rows[p].getD 0 0 = r := by
    intro p hp
    have := below_range (firsts rows) r hfs p (by rw [firsts_length]; exact hp)
    rwa [firsts_getElem] at this
  rcases getCsrPosition_ok c.crow c.crowMem c.col c.colMem r k _ _ (fun p => (rows.getD p.toNat []).getD 1 0) hlo hhi
      (by
        intro p h1 h2
        have hp : p.toNat < rows.length := by omega
        have := h.col_ok p.toNat hp
        rw [Int.toNat_of_nonneg (by omega)] at this
        rw [this]
        simp [List.getD_eq_getElem?_getD, hp])
      (by
        intro p q h1 h2 h3
        have hp : p.toNat < rows.length := by omega
        have hq : q.toNat < rows.length := by omega
        have := h.rows_ok.cols_lt h.two p.toNat q.toNat hq (by omega) (by
          rw [firsts_getD _ _ hp, firsts_getD _ _ hq, (inrow p.toNat hp).1 (by omega), (inrow q.toNat hq).1 (by omega)])
        have ep : rows.getD p.toNat [] = rows[p.toNat] := by simp [List.getD_eq_getElem?_getD, hp]
        have eq : rows.getD q.toNat [] = rows[q.toNat] := by simp [List.getD_eq_getElem?_getD, hq]
        simp only [ep, eq]
        exact this)
    with ⟨p, e1, e2, e3, e4⟩ | ⟨e1, e2⟩
  · have hp : p.toNat < rows.length := by omega
    have ep : rows.getD p.toNat [] = rows[p.toNat] := by simp [List.getD_eq_getElem?_getD, hp]
    simp only [ep] at e4
    have hr := (inrow p.toNat hp).1 (by omega)
    have : rows[p.toNat] = [r, k] := by
      obtain ⟨r', k', _, _, e', _⟩ := pair_of_two (h.rows_ok.inbox _ (List.getElem_mem hp)) h.two
      rw [e'] at hr e4 ⊢
      simp at hr e4
      rw [hr, e4]
    rw [CSR.getDataPosition, e1, ← this, findPos_some h.rows_ok.nodup hp, Int.toNat_of_nonneg (by omega)]
  · rw [CSR.getDataPosition, e1, findPos_none]
    intro hmem
    obtain ⟨p, hp, he⟩ := List.getElem_of_mem hmem
    have := (inrow p hp).2 (by rw [he]; rfl)
    refine e2 (p : Int) (by omega) (by omega) ?_
    have ep : rows.getD p [] = rows[p] := by simp [List.getD_eq_getElem?_getD, hp]
    simp only [Int.toNat_natCast, ep, he]
    rfl

/-- Concatenating consecutive ranges. -/
theorem ranges_flatten {β : Type} (b : Nat → Nat) (hb : ∀ r, b r ≤ b (r + 1)) (g : Nat → β) (n : Nat) :
    ((List.range n).map fun r => (List.range (b (r + 1) - b r)).map fun q => g (b r + q)).foldr (· ++ ·) []
      = (List.range (b n - b 0)).map fun q => g (b 0 + q) := by
  have hm : ∀ n, b 0 ≤ b n := by
    intro n
    induction n with
    | zero => exact Nat.le_refl _
    | succ n ih => exact Nat.le_trans ih (hb n)
  induction n with
  | zero => simp
  | succ n ih =>
    rw [List.range_succ, List.map_append, List.foldr_append]
    have aux : ∀ (ls : List (List β)) (x : List β), ls.foldr (· ++ ·) x = ls.foldr (· ++ ·) [] ++ x := by
      intro ls x
      induction ls with
      | nil => simp
      | cons a ls ih => simp only [List.foldr_cons]; rw [ih]; simp
    rw [aux, ih]
    have e : b (n + 1) - b 0 = (b n - b 0) + (b (n + 1) - b n) := by
      have := hm n; have := hb n; omega
    rw [e, List.range_add, List.map_append, List.map_map]
    congr 1
    simp only [List.map_cons, List.map_nil, List.foldr_cons, List.foldr_nil, List.append_nil]
    apply List.map_congr_left
    intro q _
    have := hm n
    simp only [Function.comp_apply]
    congr 1; omega

theorem CSR.Rep.entries_ok {c : CSR α} {rows : List (List Int)} (h : c.Rep rows) :
    c.entries = .ok (withPos rows) := by
  have hfs := h.rows_ok.firsts_sorted
  have hbl : ∀ r : Int, below (firsts rows) r ≤ rows.length := by
    intro r
    have := below_le_length (firsts rows) r
    rwa [firsts_length] at this
  let b : Nat → Nat := fun r => below (firsts rows) (r : Int)
  let g : Nat → List Int × Int := fun p => (rows.getD p [], (p : Int))
  have hb : ∀ r, b r ≤ b (r + 1) := fun r => below_mono _ _ _ (by omega)
  unfold CSR.entries
  rw [mapM_ok _ (fun r => (List.range (b (r + 1) - b r)).map fun q => g (b r + q))]
  · simp only [bind, Except.bind, pure, Except.pure]
    rw [ranges_flatten b hb g]
    have h0 : b 0 = 0 := below_none _ _ (by
      intro x hx
      obtain ⟨p, hp, rfl⟩ := List.getElem_of_mem hx
      rw [firsts_getElem]
      obtain ⟨r, k, n, m, e', _, h0, _⟩ := pair_of_two (h.rows_ok.inbox _ (List.getElem_mem (by rwa [firsts_length] at hp))) h.two
      rw [e']; simpa using h0)
    have hn : b (c.shape.getD 0 0) = rows.length := by
      rw [← firsts_length rows]
      apply below_all
      intro x hx
      obtain ⟨p, hp, rfl⟩ := List.getElem_of_mem hx
      rw [firsts_getElem]
      obtain ⟨r, k, n, m, e', e2, _, h1, _⟩ := pair_of_two (h.rows_ok.inbox _ (List.getElem_mem (by rwa [firsts_length] at hp))) h.two
      rw [e', e2]; simpa using h1
    rw [h0, hn]
    congr 1
    apply List.ext_getElem (by simp [withPos])
    intro i h1 h2
    have : i < rows.length := by simpa using h1
    simp [withPos, List.getD_eq_getElem?_getD, this, g]
  · intro r hr
    have hr : r < c.shape.getD 0 0 := by simpa using hr
    have hlo := h.crow_ok r (by omega)
    have hhi := h.crow_ok (r + 1) (by omega)
    have e : (((r + 1 : Nat)) : Int) = (r : Int) + 1 := by omega
    rw [e] at hhi
    simp only [hlo, hhi, bind, Except.bind, pure, Except.pure]
    have e2 : (((below (firsts rows) ((r : Int) + 1) : Nat) : Int) - ((below (firsts rows) (r : Int) : Nat) : Int)).toNat
        = b (r + 1) - b r := by simp only [b, e]; omega
    rw [e2]
    refine mapM_ok _ _ _ ?_
    intro q hq
    have hq : q < b (r + 1) - b r := by simpa using hq
    have hp : b r + q < rows.length := by
      have := hbl (((r + 1 : Nat)) : Int)
      simp only [b] at hq ⊢
      omega
    have e3 : ((below (firsts rows) (r : Int) : Nat) : Int) + (q : Int) = ((b r + q : Nat) : Int) := by simp only [b]; omega
    rw [e3]
    simp only [h.col_ok _ hp]
    have hrow := (below_range (firsts rows) r hfs (b r + q) (by rw [firsts_length]; exact hp)).1 (by
      simp only [b] at hq ⊢
      rw [e] at hq
      omega)
    rw [firsts_getElem] at hrow
    have eg : rows.getD (b r + q) [] = rows[b r + q] := by simp [List.getD_eq_getElem?_getD, hp]
    simp only [g, eg]
    obtain ⟨r', k', _, _, e', _⟩ := pair_of_two (h.rows_ok.inbox _ (List.getElem_mem hp)) h.two
    rw [e'] at hrow ⊢
    simp at hrow
    simp [hrow]

end Gcs
