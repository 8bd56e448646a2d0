import Verif.Lemmas.Compress

/-!
# C17, C18: compressed row pointers
-/

namespace Gcs

/-- C17, first half.  Compressing a sorted list of row numbers below `size` succeeds, and
uncompressing the result gives the list back. -/
theorem C17_uncompress_compress (rows : List Int) (size : Nat) (hs : rows.Pairwise (· ≤ ·))
    (hr : ∀ x ∈ rows, 0 ≤ x ∧ x < size) :
    ∃ c, compressIndices rows size = .ok c ∧ uncompressIndices c = rows := by
  obtain ⟨c, h1, h2, h3⟩ := compressIndices_ok rows size hs (fun x hx => (hr x hx).1) (fun x hx => (hr x hx).2)
  exact ⟨c, h1, uncompress_below rows size hs (fun x hx => (hr x hx).1) (fun x hx => (hr x hx).2) c h2 h3⟩

/-- C17, second half.  Uncompressing a non-decreasing list that starts with `0` gives a sorted list of
row numbers, and compressing that gives the list back. -/
theorem C17_compress_uncompress (c : List Int) (size : Nat) (hc : c.length = size + 1)
    (h0 : c.head? = some 0) (hm : c.Pairwise (· ≤ ·)) :
    compressIndices (uncompressIndices c) size = .ok c := by
  have hc0 : c.getD 0 0 = 0 := by
    cases c with
    | nil => simp at hc
    | cons a c => simpa using h0
  have hmono : ∀ r < size, c.getD r 0 ≤ c.getD (r + 1) 0 := by
    intro r hr
    have := List.pairwise_iff_getElem.1 hm r (r + 1) (by omega) (by omega) (by omega)
    simpa [List.getD_eq_getElem?_getD, show r < c.length by omega, show r + 1 < c.length by omega] using this
  have hmem : ∀ x ∈ uncompressIndices c, 0 ≤ x ∧ x < size := by
    intro x hx
    simp only [uncompressIndices, List.mem_flatMap, List.mem_range, List.mem_replicate] at hx
    obtain ⟨i, hi, _, rfl⟩ := hx
    omega
  obtain ⟨c', h1, h2, h3⟩ := compressIndices_ok (uncompressIndices c) size (sorted_uncompress_aux _ _)
    (fun x hx => (hmem x hx).1) (fun x hx => (hmem x hx).2)
  rw [h1]
  congr 1
  apply List.ext_getElem (by omega)
  intro r hr1 hr2
  have := h3 r (by omega)
  rw [← below_uncompress c size hc hc0 hmono r (by omega)] at this
  simpa [List.getD_eq_getElem?_getD, hr1, hr2] using this

/-- A case of C17: rows 0, 0, 2, 3, 3 of five, row 1 and row 4 empty. -/
example : compressIndices [0, 0, 2, 3, 3] 5 = .ok [0, 2, 2, 3, 5, 5] ∧
    uncompressIndices [0, 2, 2, 3, 5, 5] = [0, 0, 2, 3, 3] := by
  decide

/-- C18.  Item `r` of the compressed list is the number of entries smaller than `r`; so the entries
equal to `r` are those at the positions from item `r` to item `r + 1`. -/
theorem C18_compress_counts (rows : List Int) (size : Nat) (hs : rows.Pairwise (· ≤ ·))
    (hr : ∀ x ∈ rows, 0 ≤ x ∧ x < size) :
    ∃ c, compressIndices rows size = .ok c ∧ c.length = size + 1 ∧
      (∀ r : Nat, r ≤ size → c[r]? = some ((rows.countP (fun (x : Int) => decide (x < (r : Int))) : Nat) : Int)) ∧
      ∀ (r : Nat) (lo hi : Int), r < size → c[r]? = some lo → c[r + 1]? = some hi →
        ∀ p (hp : p < rows.length), (lo ≤ p ∧ p < hi) ↔ rows[p] = r := by
  obtain ⟨c, h1, h2, h3⟩ := compressIndices_ok rows size hs (fun x hx => (hr x hx).1) (fun x hx => (hr x hx).2)
  have key : ∀ r : Nat, r ≤ size → c[r]? = some ((rows.countP (fun (x : Int) => decide (x < (r : Int))) : Nat) : Int) := by
    intro r hr
    have := h3 r hr
    rw [below, ← List.countP_eq_length_filter] at this
    rw [List.getElem?_eq_getElem (by omega)]
    rw [List.getD_eq_getElem?_getD, List.getElem?_eq_getElem (by omega), Option.getD_some] at this
    rw [this]
  refine ⟨c, h1, h2, key, ?_⟩
  -- in a sorted list the entries below `r` come first
  have hpos : ∀ (r : Int) (l : List Int), l.Pairwise (· ≤ ·) → ∀ p (hp : p < l.length),
      (p < l.countP fun x => decide (x < r)) ↔ l[p] < r := by
    intro r l
    induction l with
    | nil => intro _ p hp; simp at hp
    | cons a l ih =>
      intro hl p hp
      obtain ⟨ha, hl'⟩ := List.pairwise_cons.1 hl
      by_cases har : a < r
      · rw [List.countP_cons_of_pos (by simpa using har)]
        cases p with
        | zero => simp [har]
        | succ p =>
          have := ih hl' p (by simpa using hp)
          simp only [List.getElem_cons_succ]
          rw [← this]; omega
      · have hz : (a :: l).countP (fun x => decide (x < r)) = 0 := by
          rw [List.countP_eq_zero]
          intro x hx
          rcases List.mem_cons.1 hx with rfl | hx
          · simpa using har
          · have := ha x hx
            simp; omega
        rw [hz]
        have : r ≤ (a :: l)[p] := by
          have hmem : (a :: l)[p] ∈ a :: l := List.getElem_mem _
          rcases List.mem_cons.1 hmem with h | h
          · rw [h]; omega
          · have := ha _ h; omega
        omega
  intro r lo hi hrs hlo hhi p hp
  rw [key r (by omega)] at hlo
  rw [key (r + 1) (by omega)] at hhi
  simp only [Option.some.injEq] at hlo hhi
  have a1 := hpos r rows hs p hp
  have a2 := hpos ((r + 1 : Nat) : Int) rows hs p hp
  push_cast at a2
  rw [← hlo, ← hhi]
  push_cast
  constructor
  · rintro ⟨b1, b2⟩
    have b2' : rows[p] < r + 1 := a2.1 (by exact_mod_cast b2)
    have b1' : ¬ rows[p] < r := fun hh => by have := a1.2 hh; omega
    omega
  · intro he
    constructor
    · by_contra hh
      have := a1.1 (by omega)
      omega
    · have := a2.2 (by omega)
      exact_mod_cast this

/-- C18, the failure.  A row number above `size` anywhere in the list (sorted or not) is an
`IndexError`. -/
theorem C18_compress_raises (rows : List Int) (size : Nat) (h : ∃ x ∈ rows, (size : Int) < x) :
    compressIndices rows size = .error .index := by
  have := compressLoop_error rows (List.replicate (size + 1) 0) 1 0 0 (by simp) (by omega) (by
    obtain ⟨x, hx, hx2⟩ := h
    exact ⟨x, hx, by simp; omega⟩)
  simp [compressIndices, this, bind, Except.bind]

/-- Cases of C18: a row number equal to `size` is not noticed, one above is. -/
example : compressIndices [0, 2] 2 = .ok [0, 1, 1] ∧ compressIndices [0, 3] 2 = .error .index := by
  decide

end Gcs
