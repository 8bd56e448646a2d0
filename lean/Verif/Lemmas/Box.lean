import Verif.Lemmas.Reduce

/-! Facts on the enumeration of a box and on the lexicographic order. -/

namespace Gcs

open Spec

theorem count_eq (shape : List Nat) : Spec.count shape = product shape := by
  induction shape with
  | nil => rfl
  | cons n shape ih => rw [Spec.count, product_cons, ih]

theorem mem_indexProduct (shape : List Nat) (ix : List Int) : ix ∈ indexProduct shape ↔ InBox ix shape := by
  induction shape generalizing ix with
  | nil => cases ix <;> simp [indexProduct, InBox]
  | cons n shape ih =>
    simp only [indexProduct, List.mem_flatMap, List.mem_range, List.mem_map]
    constructor
    · rintro ⟨i, hi, y, hy, rfl⟩
      exact ⟨by omega, (ih y).1 hy⟩
    · intro h
      cases ix with
      | nil => exact h.elim
      | cons x ix =>
        obtain ⟨⟨h1, h2⟩, h3⟩ := h
        exact ⟨x.toNat, by omega, ix, (ih ix).2 h3, by rw [Int.toNat_of_nonneg h1]⟩

theorem lexLt_irrefl (x : List Int) : ¬ lexLt x x := by
  induction x with
  | nil => simp [lexLt]
  | cons a x ih => simp [lexLt, ih]

theorem lexLt_trans {x y z : List Int} (h1 : lexLt x y) (h2 : lexLt y z) : lexLt x z := by
  induction x generalizing y z with
  | nil => cases y with
    | nil => simp [lexLt] at h1
    | cons b y => cases z with
      | nil => simp [lexLt] at h2
      | cons c z => trivial
  | cons a x ih => cases y with
    | nil => simp [lexLt] at h1
    | cons b y => cases z with
      | nil => simp [lexLt] at h2
      | cons c z =>
        simp only [lexLt] at h1 h2 ⊢
        rcases h1 with h1 | ⟨rfl, h1⟩ <;> rcases h2 with h2 | ⟨rfl, h2⟩
        · left; omega
        · left; omega
        · left; omega
        · right; exact ⟨rfl, ih h1 h2⟩

theorem lexLt_asymm {x y : List Int} (h1 : lexLt x y) (h2 : lexLt y x) : False :=
  lexLt_irrefl x (lexLt_trans h1 h2)

theorem lexLt_trichotomy (x y : List Int) : lexLt x y ∨ x = y ∨ lexLt y x := by
  induction x generalizing y with
  | nil => cases y <;> simp [lexLt]
  | cons a x ih => cases y with
    | nil => simp [lexLt]
    | cons b y =>
      simp only [lexLt, List.cons.injEq]
      rcases Int.lt_trichotomy a b with h | h | h
      · exact .inl (.inl h)
      · rcases ih y with h2 | h2 | h2
        · exact .inl (.inr ⟨h, h2⟩)
        · exact .inr (.inl ⟨h, h2⟩)
        · exact .inr (.inr (.inr ⟨h.symm, h2⟩))
      · exact .inr (.inr (.inl h))

theorem indexProduct_sorted (shape : List Nat) : (indexProduct shape).Pairwise lexLt := by
  induction shape with
  | nil => simp [indexProduct]
  | cons n shape ih =>
    rw [indexProduct, List.pairwise_flatMap]
    constructor
    · intro i _
      rw [List.pairwise_map]
      exact ih.imp fun h => .inr ⟨rfl, h⟩
    · refine List.pairwise_lt_range.imp ?_
      intro i j hij x hx y hy
      obtain ⟨x', _, rfl⟩ := List.mem_map.1 hx
      obtain ⟨y', _, rfl⟩ := List.mem_map.1 hy
      exact .inl (by omega)

theorem sorted_nodup {l : List (List Int)} (h : l.Pairwise lexLt) : l.Nodup := by
  refine List.Pairwise.imp ?_ h
  rintro a b hab rfl
  exact lexLt_irrefl _ hab

theorem indexProduct_nodup (shape : List Nat) : (indexProduct shape).Nodup :=
  sorted_nodup (indexProduct_sorted shape)

theorem address_lt {x y : List Int} {shape : List Nat} (hx : InBox x shape) (hy : InBox y shape)
    (h : lexLt x y) : address x (makeStrides shape) < address y (makeStrides shape) := by
  induction shape generalizing x y with
  | nil =>
    cases x with
    | nil => cases y with
      | nil => simp [lexLt] at h
      | cons => exact hy.elim
    | cons => exact hx.elim
  | cons n shape ih =>
    cases x with
    | nil => exact hx.elim
    | cons a x => cases y with
      | nil => exact hy.elim
      | cons b y =>
        rw [makeStrides_cons, address, address]
        have hbx := address_bound hx.2
        have hby := address_bound hy.2
        rcases h with h | ⟨rfl, h⟩
        · have : (a + 1) * (product shape : Int) ≤ b * product shape :=
            Int.mul_le_mul_of_nonneg_right (by omega) (by omega)
          linarith
        · have := ih hx.2 hy.2 h
          omega

theorem address_lt_iff {x y : List Int} {shape : List Nat} (hx : InBox x shape) (hy : InBox y shape) :
    address x (makeStrides shape) < address y (makeStrides shape) ↔ lexLt x y := by
  constructor
  · intro h
    rcases lexLt_trichotomy x y with h1 | rfl | h1
    · exact h1
    · omega
    · have := address_lt hy hx h1; omega
  · exact address_lt hx hy

theorem address_inj {x y : List Int} {shape : List Nat} (hx : InBox x shape) (hy : InBox y shape)
    (h : address x (makeStrides shape) = address y (makeStrides shape)) : x = y := by
  rw [← decode_address hx, h, decode_address hy]

theorem indexProduct_length (shape : List Nat) : (indexProduct shape).length = product shape := by
  induction shape with
  | nil => rfl
  | cons n shape ih =>
    rw [indexProduct, List.length_flatMap, product_cons]
    simp [ih]

/-- Iterating a box visits the positions `0, 1, 2, ...`. -/
theorem indexProduct_address (shape : List Nat) :
    (indexProduct shape).map (fun ix => address ix (makeStrides shape))
      = (List.range (product shape)).map fun (p : Nat) => (p : Int) := by
  have e : ((indexProduct shape).map fun ix => (address ix (makeStrides shape)).toNat)
      = List.range (product shape) := by
    apply eq_of_pairwise_of_mem
    · rw [List.pairwise_map]
      refine (indexProduct_sorted shape).imp_of_mem ?_
      intro x y hx hy h
      have hx := (mem_indexProduct _ _).1 hx
      have hy := (mem_indexProduct _ _).1 hy
      have h1 := address_bound hx
      have h2 := address_bound hy
      have := address_lt hx hy h
      omega
    · exact List.pairwise_lt_range
    · intro p
      simp only [List.mem_map, List.mem_range]
      constructor
      · rintro ⟨x, hx, rfl⟩
        have := address_bound ((mem_indexProduct _ _).1 hx)
        omega
      · intro hp
        obtain ⟨h1, h2⟩ := address_decode (pos := p) (sh := shape) (by omega) (by omega)
        exact ⟨_, (mem_indexProduct _ _).2 h1, by rw [h2]; simp⟩
  rw [← e, List.map_map]
  apply List.map_congr_left
  intro ix hix
  have := address_bound ((mem_indexProduct _ _).1 hix)
  simp only [Function.comp]
  omega

theorem indexProduct_getElem? (shape : List Nat) (p : Nat) (hp : p < product shape) :
    ∃ ix, (indexProduct shape)[p]? = some ix ∧ InBox ix shape ∧ address ix (makeStrides shape) = p := by
  have hl : p < (indexProduct shape).length := by rw [indexProduct_length]; exact hp
  refine ⟨(indexProduct shape)[p], List.getElem?_eq_getElem hl, (mem_indexProduct _ _).1 (List.getElem_mem hl), ?_⟩
  have := congrArg (fun l => l[p]?) (indexProduct_address shape)
  simpa [hl, hp] using this

/-- Position of an index in the enumeration. -/
theorem indexProduct_at (shape : List Nat) (ix : List Int) (h : InBox ix shape) :
    (indexProduct shape)[(address ix (makeStrides shape)).toNat]? = some ix := by
  have hb := address_bound h
  obtain ⟨iy, h1, h2, h3⟩ := indexProduct_getElem? shape (address ix (makeStrides shape)).toNat (by omega)
  rw [h1]
  congr 1
  apply address_inj h2 h
  rw [h3]; omega

theorem getPosition_box {ix : List Int} {shape : List Nat} (h : InBox ix shape) :
    getPosition ix shape (makeStrides shape) = .ok (address ix (makeStrides shape)) :=
  getPosition_ok ix shape _ h.length_eq (makeStrides_length _)

end Gcs
