import Verif.Model.Storage
import Mathlib.Data.List.Count
import Mathlib.Data.List.Range
import Mathlib.Order.Lattice
import Mathlib.Algebra.Order.Ring.Int
import Mathlib.Tactic.Linarith

/-! Facts on `compressIndices` and `uncompressIndices`. -/

namespace Gcs

theorem pySet_nat {α : Type} (l : List α) (k : Nat) (v : α) (h : k < l.length) :
    pySet l k v = .ok (l.set k v) := by
  simp [pySet, h]

theorem fillRun_ok (c : List Int) (k : Nat) (i : Int) (count : Nat) (h : k + count ≤ c.length) :
    ∃ c', fillRun c k i count = .ok (c', k + count) ∧ c'.length = c.length ∧
      ∀ r, c'.getD r 0 = if k ≤ r ∧ r < k + count then i else c.getD r 0 := by
  induction count generalizing c k with
  | zero =>
    refine ⟨c, rfl, rfl, fun r => ?_⟩
    rw [if_neg (by omega)]
  | succ count ih =>
    obtain ⟨c', h1, h2, h3⟩ := ih (c.set k i) (k + 1) (by simp; omega)
    refine ⟨c', ?_, by simpa using h2, fun r => ?_⟩
    · simp only [fillRun, pySet_nat c k i (by omega), bind, Except.bind, h1]
      congr 2; omega
    · rw [h3]
      by_cases hr : r = k
      · subst hr
        rw [if_neg (by omega), if_pos (by omega)]
        simp [List.getD_eq_getElem?_getD, show r < c.length by omega]
      · by_cases h4 : k + 1 ≤ r ∧ r < k + 1 + count
        · rw [if_pos h4, if_pos (by omega)]
        · rw [if_neg h4, if_neg (by omega)]
          simp [List.getD_eq_getElem?_getD, List.getElem?_set, Ne.symm hr]

theorem fillRun_error (c : List Int) (k : Nat) (i : Int) (count : Nat) (hk : k ≤ c.length)
    (h : c.length < k + count) : fillRun c k i count = .error .index := by
  induction count generalizing c k with
  | zero => omega
  | succ count ih =>
    by_cases hk' : k < c.length
    · simp only [fillRun, pySet_nat c k i hk', bind, Except.bind]
      exact ih _ _ (by simp; omega) (by simp; omega)
    · have : pySet c k i = .error .index := by simp [pySet, hk']
      simp only [fillRun, this, bind, Except.bind]

/-- Number of entries below `r`. -/
def below (rows : List Int) (r : Int) : Nat := (rows.filter fun x => decide (x < r)).length

theorem below_append (l1 l2 : List Int) (r : Int) : below (l1 ++ l2) r = below l1 r + below l2 r := by
  simp [below]

theorem below_all (l : List Int) (r : Int) (h : ∀ x ∈ l, x < r) : below l r = l.length := by
  unfold below
  rw [List.filter_eq_self.2]
  simpa using h

theorem below_none (l : List Int) (r : Int) (h : ∀ x ∈ l, r ≤ x) : below l r = 0 := by
  unfold below
  rw [List.filter_eq_nil_iff.2]
  · rfl
  · intro x hx
    have := h x hx
    simpa using this

theorem compressLoop_ok (size : Nat) (done rest : List Int) (c : List Int) (last : Nat)
    (hlast : ∀ x ∈ done, x ≤ last) (hsz : last ≤ size) (hc : c.length = size + 1)
    (hrest : rest.Pairwise (· ≤ ·)) (hge : ∀ x ∈ rest, (last : Int) ≤ x) (hle : ∀ x ∈ rest, x ≤ size)
    (hinv : ∀ r : Nat, r ≤ last → c.getD r 0 = below (done ++ rest) r) :
    ∃ c' last', compressLoop c (last + 1) last done.length rest = .ok (c', last' + 1) ∧
      last' ≤ size ∧ c'.length = size + 1 ∧ (∀ x ∈ done ++ rest, x ≤ (last' : Int)) ∧
      ∀ r : Nat, r ≤ last' → c'.getD r 0 = below (done ++ rest) r := by
  induction rest generalizing done c last with
  | nil => exact ⟨c, last, rfl, hsz, hc, by simpa using hlast, hinv⟩
  | cons x rest ih =>
    have hx := hge x (by simp)
    have hx2 := hle x (by simp)
    obtain ⟨hx3, hrest'⟩ := List.pairwise_cons.1 hrest
    obtain ⟨c1, h1, h2, h3⟩ := fillRun_ok c (last + 1) done.length (x - last).toNat (by omega)
    have e : done ++ x :: rest = (done ++ [x]) ++ rest := by simp
    obtain ⟨c', last', g1, g2, g3, g4, g5⟩ := ih (done ++ [x]) c1 x.toNat
      (by
        intro y hy
        rcases List.mem_append.1 hy with hy | hy
        · have := hlast y hy; omega
        · simp at hy; omega)
      (by omega) (by omega) hrest'
      (by intro y hy; have := hx3 y hy; omega)
      (by intro y hy; exact hle y (by simp [hy]))
      (by
        intro r hr
        rw [h3, ← e]
        by_cases hr1 : r ≤ last
        · rw [if_neg (by omega), hinv r hr1]
        · rw [if_pos (by omega), below_append, below_all done r (by intro y hy; have := hlast y hy; omega),
            below_none (x :: rest) r (by
              intro y hy
              rcases List.mem_cons.1 hy with rfl | hy
              · omega
              · have := hx3 y hy; omega)]
          rfl)
    refine ⟨c', last', ?_, g2, g3, by rw [e]; exact g4, by rw [e]; exact g5⟩
    simp only [compressLoop, h1, bind, Except.bind]
    have e1 : last + 1 + (x - last).toNat = x.toNat + 1 := by omega
    have e2 : x = (x.toNat : Int) := by omega
    rw [e1]
    rw [← e2, List.length_append] at g1
    exact g1

/-- `compress_indices` on a sorted list of rows counts the entries below each row. -/
theorem compressIndices_ok (rows : List Int) (size : Nat) (hs : rows.Pairwise (· ≤ ·))
    (h0 : ∀ x ∈ rows, 0 ≤ x) (hlt : ∀ x ∈ rows, x < size) :
    ∃ c, compressIndices rows size = .ok c ∧ c.length = size + 1 ∧
      ∀ r : Nat, r ≤ size → c.getD r 0 = below rows r := by
  obtain ⟨c1, last, h1, h2, h3, h4, h5⟩ := compressLoop_ok size [] rows (List.replicate (size + 1) 0) 0
    (by simp) (by omega) (by simp) hs (by simpa using h0) (by intro x hx; have := hlt x hx; omega)
    (by
      intro r hr
      have : r = 0 := by omega
      subst this
      rw [List.nil_append, below_none rows _ (by simpa using h0)]
      simp)
  obtain ⟨c2, g1, g2, g3⟩ := fillRun_ok c1 (last + 1) rows.length (size + 1 - (last + 1)) (by omega)
  refine ⟨c2, ?_, by omega, fun r hr => ?_⟩
  · have e : compressLoop (List.replicate (size + 1) 0) 1 0 0 rows = .ok (c1, last + 1) := by simpa using h1
    simp only [compressIndices, bind, Except.bind, e, g1, pure, Except.pure]
  · rw [g3]
    by_cases hrl : r ≤ last
    · rw [if_neg (by omega)]; simpa using h5 r hrl
    · rw [if_pos (by omega), below_all rows r (by
        intro x hx
        have := h4 x (by simpa using hx)
        omega)]

theorem compressLoop_error (rows : List Int) (c : List Int) (k : Nat) (last : Int) (i : Nat)
    (hk : k ≤ c.length) (hl : last < k) (h : ∃ x ∈ rows, (c.length : Int) ≤ x) :
    compressLoop c k last i rows = .error .index := by
  induction rows generalizing c k last i with
  | nil => simp at h
  | cons x rows ih =>
    by_cases hlen : c.length < k + (x - last).toNat
    · simp only [compressLoop, fillRun_error c k i _ hk hlen, bind, Except.bind]
    · obtain ⟨c', h1, h2, _⟩ := fillRun_ok c k i (x - last).toNat (by omega)
      simp only [compressLoop, h1, bind, Except.bind]
      apply ih
      · omega
      · omega
      · rw [h2]
        obtain ⟨y, hy, hy2⟩ := h
        rcases List.mem_cons.1 hy with rfl | hy
        · omega
        · exact ⟨y, hy, hy2⟩

theorem count_uncompress_aux (f : Nat → Nat) (n : Nat) (x : Int) :
    ((List.range n).flatMap fun i => List.replicate (f i) (i : Int)).count x
      = if 0 ≤ x ∧ x < n then f x.toNat else 0 := by
  induction n with
  | zero =>
    rw [if_neg (by omega)]; simp
  | succ n ih =>
    rw [List.range_succ, List.flatMap_append, List.count_append, ih]
    simp only [List.flatMap_cons, List.flatMap_nil, List.append_nil, List.count_replicate]
    by_cases hx : (n : Int) = x
    · subst hx
      rw [if_neg (by omega), if_pos (by simp), if_pos (by omega)]; simp
    · have hb : ((n : Int) == x) = false := by simpa using hx
      rw [hb, if_neg (by simp : ¬ (false = true)), Nat.add_zero]
      by_cases h2 : 0 ≤ x ∧ x < n
      · rw [if_pos h2, if_pos (by omega)]
      · rw [if_neg h2, if_neg (by omega)]

theorem sorted_uncompress_aux (f : Nat → Nat) (n : Nat) :
    ((List.range n).flatMap fun i => List.replicate (f i) (i : Int)).Pairwise (· ≤ ·) := by
  induction n with
  | zero => simp
  | succ n ih =>
    rw [List.range_succ, List.flatMap_append, List.pairwise_append]
    refine ⟨ih, ?_, ?_⟩
    · simp
    · intro a ha b hb
      simp only [List.mem_flatMap, List.mem_range, List.mem_replicate] at ha
      obtain ⟨i, hi, _, rfl⟩ := ha
      simp only [List.flatMap_cons, List.flatMap_nil, List.append_nil, List.mem_replicate] at hb
      rw [hb.2]; omega

theorem below_succ (l : List Int) (r : Int) : below l (r + 1) = below l r + l.count r := by
  induction l with
  | nil => simp [below]
  | cons x l ih =>
    simp only [below, List.filter_cons, List.count_cons] at *
    by_cases h1 : x < r
    · have e1 : decide (x < r + 1) = true := by simp; omega
      have e2 : decide (x < r) = true := by simpa using h1
      have e3 : (x == r) = false := by simp; omega
      simp [e1, e2, e3, ih]; omega
    · by_cases h2 : x = r
      · subst h2
        simp [ih]; omega
      · have e1 : decide (x < r + 1) = false := by simp; omega
        have e2 : decide (x < r) = false := by simpa using h1
        have e3 : (x == r) = false := by simpa using h2
        simp [e1, e2, e3, ih]

theorem eq_of_sorted_count (l1 l2 : List Int) (h1 : l1.Pairwise (· ≤ ·)) (h2 : l2.Pairwise (· ≤ ·))
    (h : ∀ x, l1.count x = l2.count x) : l1 = l2 :=
  (List.perm_iff_count.2 h).eq_of_pairwise (fun _ _ _ _ h1 h2 => Int.le_antisymm h1 h2) h1 h2

/-- `uncompress_indices` on the counts below gives the list back. -/
theorem uncompress_below (rows : List Int) (size : Nat) (hs : rows.Pairwise (· ≤ ·))
    (h0 : ∀ x ∈ rows, 0 ≤ x) (hlt : ∀ x ∈ rows, x < size) (c : List Int) (hc : c.length = size + 1)
    (hb : ∀ r : Nat, r ≤ size → c.getD r 0 = below rows r) : uncompressIndices c = rows := by
  apply eq_of_sorted_count _ _ (sorted_uncompress_aux _ _) hs
  intro x
  rw [count_uncompress_aux]
  split_ifs with h
  · rw [hb _ (by omega), hb _ (by omega)]
    have e : ((x.toNat + 1 : Nat) : Int) = x + 1 := by omega
    have e2 : ((x.toNat : Nat) : Int) = x := by omega
    rw [e, e2, below_succ]
    omega
  · symm
    rw [List.count_eq_zero]
    intro hx
    apply h
    have := h0 x hx
    have := hlt x hx
    omega

/-- The counts below of an uncompressed list are the pointers. -/
theorem below_uncompress (c : List Int) (size : Nat) (hc : c.length = size + 1) (h0 : c.getD 0 0 = 0)
    (hm : ∀ r < size, c.getD r 0 ≤ c.getD (r + 1) 0) (r : Nat) (hr : r ≤ size) :
    c.getD r 0 = below (uncompressIndices c) r := by
  induction r with
  | zero =>
    rw [h0, below_none]
    · rfl
    · intro x hx
      simp only [uncompressIndices, List.mem_flatMap, List.mem_replicate] at hx
      obtain ⟨i, _, _, rfl⟩ := hx
      push_cast; omega
  | succ r ih =>
    have := ih (by omega)
    push_cast
    rw [below_succ]
    have e : (uncompressIndices c).count (r : Int) = (c.getD (r + 1) 0 - c.getD r 0).toNat := by
      unfold uncompressIndices
      rw [count_uncompress_aux, if_pos (by omega)]
      rfl
    rw [e]
    have := hm r (by omega)
    push_cast
    omega

end Gcs
