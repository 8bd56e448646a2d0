import Verif.Lemmas.Store

/-! Slicing and assigning to the storages that search their stored indices. -/

namespace Gcs

open Spec

variable {V : Type}

/-- `slice_indices_and_data_position` for a selection that keeps an axis: exactly the stored indices inside
the selection, each with its place in the selection and its data position. -/
theorem sliceEntries_ok {P : Type} (entries : List (List Int × P)) (shape : List Nat) (hp : PosShape shape)
    (hb : ∀ e ∈ entries, InBox e.1 shape) (hnd : (entries.map (·.1)).Nodup) (index : Index)
    (hv : ValidItems (items index) shape) (hne : selShape (items index) shape ≠ []) :
    ∃ nix st off L, normalizeIndex index shape = .ok nix ∧ elementIndex nix = none ∧
      indexStrided nix shape (makeStrides shape) = .ok (selShape (items index) shape, st, off) ∧
      sliceEntries (.ok entries) shape (selShape (items index) shape) st off = .ok L ∧
      (∀ j p, (j, p) ∈ L ↔ InBox j (selShape (items index) shape) ∧ (selSource (items index) shape j, p) ∈ entries) ∧
      (L.map (·.1)).Nodup ∧ (L.map fun e => selSource (items index) shape e.1).Sublist (entries.map (·.1)) := by
  obtain ⟨nix, h1, h2, h3, h4, h5⟩ := index_cases index shape hp hv
  obtain ⟨st, off, k1, k2, k3⟩ := indexStrided_ok nix shape (makeStrides shape) hp h2 (makeStrides_length _)
  rw [h3] at k1 k2 k3
  have hel : elementIndex nix = none := by
    rcases h5 with ⟨_, g, _⟩ | ⟨g, _⟩
    · exact absurd g hne
    · exact g
  obtain ⟨hc, hnz⟩ := indexStrided_chain nix shape hp h2 _ _ _ k1
  obtain ⟨data, d1, d2⟩ := init_ok st _ k2 hne hnz
  -- the place of an index in the selection
  have hinv : ∀ ix, InBox ix shape → ∃ o : Option (List Int),
      solveIndexData (address ix (makeStrides shape) - off) (selShape (items index) shape) data = .ok o ∧
      ∀ j, o = some j ↔ InBox j (selShape (items index) shape) ∧ selSource (items index) shape j = ix := by
    intro ix hix
    rcases solve_sound st _ k2 hne hnz (address ix (makeStrides shape) - off) with e | ⟨x, e, e2, e3⟩
    · refine ⟨none, by rw [d2, e], fun j => ⟨fun h => by simp at h, fun ⟨a, b⟩ => ?_⟩⟩
      exfalso
      have c := solve_chain hc hnz hne j a
      have c2 := (k3 j a).2
      rw [h4 j a, b] at c2
      rw [show address ix (makeStrides shape) - off = address j st by omega, c] at e
      simp at e
    · refine ⟨some x, by rw [d2, e], fun j => ⟨?_, fun ⟨a, b⟩ => ?_⟩⟩
      · rintro ⟨rfl⟩
        refine ⟨e2, ?_⟩
        obtain ⟨c1, c2⟩ := k3 x e2
        rw [h4 x e2] at c1 c2
        exact address_inj c1 hix (by omega)
      · have c := solve_chain hc hnz hne j a
        have c2 := (k3 j a).2
        rw [h4 j a, b] at c2
        rw [show address ix (makeStrides shape) - off = address j st by omega, c] at e
        simp at e
        rw [e]
  choose! inv hinv1 hinv2 using hinv
  refine ⟨nix, st, off, (entries.map fun e => (inv e.1).map fun j => (j, e.2)).filterMap id, h1, hel, k1, ?_, ?_, ?_, ?_⟩
  · simp only [sliceEntries, d1, bind, Except.bind]
    rw [mapM_ok _ (fun e : List Int × P => (inv e.1).map fun j => (j, e.2))]
    · rfl
    · intro e he
      simp only [getPosition_box (hb e he), hinv1 e.1 (hb e he), pure, Except.pure]
  · intro j p
    simp only [List.mem_filterMap, List.mem_map, id_eq]
    constructor
    · rintro ⟨o, ⟨e, he, rfl⟩, h⟩
      simp only [Option.map_eq_some_iff, Prod.mk.injEq] at h
      obtain ⟨j', h1, rfl, rfl⟩ := h
      obtain ⟨a, b⟩ := (hinv2 e.1 (hb e he) j').1 h1
      refine ⟨a, ?_⟩
      rw [b]
      exact he
    · rintro ⟨a, b⟩
      refine ⟨_, ⟨_, b, rfl⟩, ?_⟩
      rw [(hinv2 _ (hb _ b) j).2 ⟨a, rfl⟩]
      rfl
  · clear d1 d2 hinv1
    induction entries with
    | nil => simp
    | cons e entries ih =>
      simp only [List.map_cons, List.nodup_cons] at hnd
      have ih := ih (fun e' he' => hb e' (List.mem_cons_of_mem _ he')) hnd.2
      have he := hb e List.mem_cons_self
      simp only [List.map_cons]
      cases hi : inv e.1 with
      | none => simpa [hi] using ih
      | some j =>
        rw [List.filterMap_cons_some (b := (j, e.2)) (by rfl)]
        simp only [List.map_cons, List.nodup_cons]
        refine ⟨?_, ih⟩
        intro hmem
        apply hnd.1
        obtain ⟨⟨j', p'⟩, hm, hj⟩ := List.mem_map.1 hmem
        simp only at hj
        subst hj
        simp only [List.mem_filterMap, List.mem_map, id_eq] at hm
        obtain ⟨o, ⟨e', he', rfl⟩, h⟩ := hm
        simp only [Option.map_eq_some_iff, Prod.mk.injEq] at h
        obtain ⟨j'', g1, rfl, rfl⟩ := h
        have a := ((hinv2 e'.1 (hb _ (List.mem_cons_of_mem _ he')) _).1 g1).2
        have b := ((hinv2 e.1 he _).1 hi).2
        rw [← b, a]
        exact List.mem_map.2 ⟨e', he', rfl⟩
  · clear d1 d2 hinv1 hnd
    induction entries with
    | nil => simp
    | cons e entries ih =>
      have ih := ih fun e' he' => hb e' (List.mem_cons_of_mem _ he')
      simp only [List.map_cons]
      cases hi : inv e.1 with
      | none => simpa [hi] using ih.cons _
      | some j =>
        rw [List.filterMap_cons_some (b := (j, e.2)) (by rfl)]
        simp only [List.map_cons]
        rw [((hinv2 e.1 (hb e List.mem_cons_self) _).1 hi).2]
        exact ih.cons₂ _

/-- For an index that fixes every axis, every stored position is returned (the reason for C39). -/
theorem sliceEntries_elem {P : Type} (entries : List (List Int × P)) (shape : List Nat)
    (hb : ∀ e ∈ entries, InBox e.1 shape) (off : Int) :
    sliceEntries (.ok entries) shape [] [] off = .ok (entries.map fun e => ([], e.2)) := by
  have hd : initDiophantine [] (some []) = .ok ⟨1, [], [], [], [], none⟩ := rfl
  simp only [sliceEntries, hd, bind, Except.bind]
  rw [mapM_ok _ (fun e : List Int × P => some (([] : List Int), e.2))]
  · simp only [pure, Except.pure]
    congr 1
    induction entries with
    | nil => rfl
    | cons e entries ih =>
      have := ih fun e' he' => hb e' (List.mem_cons_of_mem _ he')
      simp only [List.map_cons]
      rw [List.filterMap_cons_some (b := (([] : List Int), e.2)) (by rfl), this]
  · intro e he
    have hs : ∀ k : Int, solveIndexData k [] ⟨1, [], [], [], [], none⟩ = .ok (some []) := by
      intro k
      simp [solveIndexData, pyAssert, bind, Except.bind, pyMod, pyDiv, bits, tryDts, addKernel, inBox, pure, Except.pure,
        axpy]
    simp only [getPosition_box (hb e he), hs, pure, Except.pure]
    rfl

/-! ## Sorting -/

theorem lexLe_iff (x y : List Int) : lexLe x y = true ↔ lexLt x y ∨ x = y := by
  induction x generalizing y with
  | nil => cases y <;> simp [lexLe, lexLt]
  | cons a x ih =>
    cases y with
    | nil => simp [lexLe, lexLt]
    | cons b y =>
      simp only [lexLe, lexLt, List.cons.injEq]
      by_cases h1 : a < b
      · simp [h1]
      · by_cases h2 : b < a
        · have : a ≠ b := by omega
          simp [h1, h2, this]
        · have : a = b := by omega
          simp [this, ih]

theorem pairLe_iff (x y : List Int × Int) :
    pairLe x y = true ↔ lexLt x.1 y.1 ∨ (x.1 = y.1 ∧ x.2 ≤ y.2) := by
  unfold pairLe
  by_cases h : x.1 = y.1
  · rw [if_pos h, h]
    simp [lexLt_irrefl]
  · rw [if_neg h, lexLe_iff]
    simp [h]

theorem pySorted_ok (L : List (List Int × Int)) (hn : (L.map (·.1)).Nodup) :
    (pySorted L).Perm L ∧ ((pySorted L).map (·.1)).Pairwise lexLt := by
  have hperm : (pySorted L).Perm L := List.perm_insertionSort _ L
  refine ⟨hperm, ?_⟩
  have hs : (pySorted L).Pairwise fun a b => pairLe a b = true := by
    have tr : IsTrans (List Int × Int) fun a b => pairLe a b = true := by
      refine ⟨fun a b c h1 h2 => ?_⟩
      rw [pairLe_iff] at *
      rcases h1 with h1 | ⟨h1, h1'⟩
      · rcases h2 with h2 | ⟨h2, h2'⟩
        · exact .inl (lexLt_trans h1 h2)
        · rw [← h2]; exact .inl h1
      · rcases h2 with h2 | ⟨h2, h2'⟩
        · rw [h1]; exact .inl h2
        · exact .inr ⟨h1.trans h2, by omega⟩
    have tot : Std.Total fun a b : List Int × Int => pairLe a b = true := by
      refine ⟨fun a b => ?_⟩
      rcases lexLt_trichotomy a.1 b.1 with h | h | h
      · simp [(pairLe_iff a b).2 (.inl h)]
      · rcases Int.le_total a.2 b.2 with h2 | h2
        · simp [(pairLe_iff a b).2 (.inr ⟨h, h2⟩)]
        · simp [(pairLe_iff b a).2 (.inr ⟨h.symm, h2⟩)]
      · simp [(pairLe_iff b a).2 (.inl h)]
    exact List.pairwise_insertionSort _ L
  have hn' : ((pySorted L).map (·.1)).Nodup := (hperm.map _).nodup_iff.2 hn
  rw [List.pairwise_map]
  rw [List.Nodup, List.pairwise_map] at hn'
  refine (hs.and hn').imp ?_
  intro a b ⟨h1, h2⟩
  rw [pairLe_iff] at h1
  rcases h1 with h1 | ⟨h1, _⟩
  · exact h1
  · exact absurd h1 h2

/-! ## The stored elements of a slice -/

theorem withPos_box {shape : List Nat} {rows : List (List Int)} (h : SortedRows shape rows) :
    ∀ e ∈ withPos rows, InBox e.1 shape := by
  intro e he
  obtain ⟨q, hq, h1, _⟩ := (mem_withPos e.1 e.2).1 he
  rw [← h1]
  exact h.inbox _ (List.getElem_mem hq)

theorem withPos_nodup {shape : List Nat} {rows : List (List Int)} (h : SortedRows shape rows) :
    ((withPos rows).map (·.1)).Nodup := by
  rw [withPos_fst]
  exact h.nodup

/-- Everything the slicing methods of the sparse classes need. -/
theorem slice_core {shape : List Nat} {rows : List (List Int)} (h : SortedRows shape rows) (hp : PosShape shape)
    (b : Buffer V) (mem : List V) (hm : b.WF mem) (hs : b.size = rows.length) (index : Index)
    (hv : ValidItems (items index) shape) (hne : selShape (items index) shape ≠ []) :
    ∃ nix st off L es vals, normalizeIndex index shape = .ok nix ∧ elementIndex nix = none ∧
      indexStrided nix shape (makeStrides shape) = .ok (selShape (items index) shape, st, off) ∧
      sliceEntries (.ok (withPos rows)) shape (selShape (items index) shape) st off = .ok L ∧
      pySorted L = es ∧ readAll b mem es = .ok vals ∧ vals.length = es.length ∧
      SortedRows (selShape (items index) shape) (es.map (·.1)) ∧
      (∀ j, InBox j (selShape (items index) shape) →
        (j ∈ es.map (·.1) ↔ selSource (items index) shape j ∈ rows)) ∧
      (∀ j, InBox j (selShape (items index) shape) →
        lookup (es.map (·.1)) vals b.unspec j = lookup rows (b.window mem) b.unspec (selSource (items index) shape j)) ∧
      (∀ e ∈ es, InBox e.1 (selShape (items index) shape)) := by
  obtain ⟨nix, st, off, L, h1, h2, h3, h4, h5, h6, _⟩ := sliceEntries_ok (withPos rows) shape hp (withPos_box h)
    (withPos_nodup h) index hv hne
  obtain ⟨p1, p2⟩ := pySorted_ok L h6
  have hmem : ∀ j p, (j, p) ∈ pySorted L ↔ InBox j (selShape (items index) shape) ∧
      (selSource (items index) shape j, p) ∈ withPos rows := by
    intro j p
    rw [p1.mem_iff, h5]
  have hpos : ∀ e ∈ pySorted L, ∃ q : Nat, ∃ hq : q < rows.length,
      rows[q] = selSource (items index) shape e.1 ∧ e.2 = q := by
    intro e he
    exact (mem_withPos _ _).1 ((hmem e.1 e.2).1 he).2
  have hread : readAll b mem (pySorted L) = .ok ((pySorted L).map fun e => (b.window mem).getD e.2.toNat b.unspec) := by
    apply mapM_ok
    intro e he
    obtain ⟨q, hq, _, e2⟩ := hpos e he
    rw [e2, b.getInt_window mem hm q (by omega) b.unspec]
    rfl
  have hmem2 : ∀ j, InBox j (selShape (items index) shape) →
        (j ∈ (pySorted L).map (·.1) ↔ selSource (items index) shape j ∈ rows) := by
    intro j hj
    rw [List.mem_map]
    constructor
    · rintro ⟨e, he, rfl⟩
      obtain ⟨q, hq, e1, _⟩ := hpos e he
      rw [← e1]
      exact List.getElem_mem hq
    · intro hm
      obtain ⟨q, hq, e1⟩ := List.getElem_of_mem hm
      refine ⟨(j, (q : Int)), (hmem _ _).2 ⟨hj, (mem_withPos _ _).2 ⟨q, hq, e1, rfl⟩⟩, rfl⟩
  refine ⟨nix, st, off, L, pySorted L, _, h1, h2, h3, h4, rfl, hread, by simp, ⟨p2, ?_⟩, hmem2, ?_, ?_⟩
  · intro r hr
    obtain ⟨e, he, rfl⟩ := List.mem_map.1 hr
    exact ((hmem e.1 e.2).1 he).1
  · intro j hj
    by_cases hin : j ∈ (pySorted L).map (·.1)
    · obtain ⟨k, hk, rfl⟩ := List.getElem_of_mem hin
      have hk' : k < (pySorted L).length := by simpa using hk
      rw [lookup_at (sorted_nodup p2) _ _ k hk]
      obtain ⟨q, hq, e1, e2⟩ := hpos (pySorted L)[k] (List.getElem_mem hk')
      have e3 : ((pySorted L).map (·.1))[k] = (pySorted L)[k].1 := by simp
      rw [e3, ← e1, lookup_at h.nodup _ _ q hq]
      rw [List.getD_eq_getElem?_getD, List.getElem?_map, List.getElem?_eq_getElem hk', Option.map_some,
        Option.getD_some, e2]
      rfl
    · rw [lookup_none _ _ hin, lookup_none]
      rwa [← hmem2 j hj]
  · intro e he
    exact ((hmem e.1 e.2).1 he).1

/-! ## The three `get_slice` -/

theorem indexProduct_two (d n : Nat) : indexProduct [d, n]
    = (List.range d).flatMap fun (j : Nat) => (List.range n).map fun (p : Nat) => [(j : Int), (p : Int)] := by
  simp only [indexProduct]
  congr 1
  funext j
  induction List.range n with
  | nil => rfl
  | cons a l ih => simpa using ih

theorem columns_flat (d : Nat) (rows : List (List Int)) :
    ((columns d rows).foldr (· ++ ·) []).map some = imemOf d rows := by
  have e : ((columns d rows).foldr (· ++ ·) []) = (columns d rows).flatten := by
    induction columns d rows with
    | nil => rfl
    | cons a l ih => simp [ih]
  rw [e]
  unfold imemOf columns
  rw [indexProduct_two, List.flatMap_def, List.map_flatten, List.map_flatten, List.map_map, List.map_map]
  congr 1
  apply List.map_congr_left
  intro j hj
  apply List.ext_getElem
  · simp
  · intro p h1 h2
    have hp : p < rows.length := by simpa using h1
    simp [List.getD_eq_getElem?_getD, hp]

theorem COO.Rep.getSlice_ok {c : COO V} {rows : List (List Int)} (h : c.Rep rows) (mem : List V)
    (sh : List Nat) (st : List Int) (off : Int) (L : List (List Int × Int)) (vals : List V) (hne : sh ≠ [])
    (h1 : sliceEntries (.ok (withPos rows)) c.shape sh st off = .ok L) (h2 : readAll c.data mem (pySorted L) = .ok vals)
    (h3 : vals.length = (pySorted L).length) :
    c.getSlice mem sh st off
      = .ok (cooOf sh ((pySorted L).map (·.1)) ⟨vals.length, 0, c.data.unspec⟩, vals) := by
  have hd := List.length_pos_of_ne_nil hne
  have hcol : pyGet (columns sh.length ((pySorted L).map (·.1))) 0
      = .ok (((pySorted L).map (·.1)).map fun ix => ix.getD 0 0) := by
    have := pyGet_nat (columns sh.length ((pySorted L).map (·.1))) 0 (by rw [columns_length]; exact hd)
    rw [columns_getElem] at this
    exact this
  simp only [COO.getSlice, h.entries_ok, h1, h2, hcol, bind, Except.bind, List.length_map]
  rw [columns_flat, Buffer.new_ok _ _ _ _ (by
    simp only [imemOf, List.length_map, indexProduct_length]; omega)]
  simp only [Strided.new, pyAssert, makeStrides_length, decide_true, if_true, bind, Except.bind, pure, Except.pure]
  rw [Buffer.new_ok _ _ _ _ (by simp)]
  simp only
  rw [COO.new_ok _ _ _ _ sh.length (pySorted L).length rfl h3]
  simp [cooOf, indicesOf]

theorem FlatCOO.Rep.getSlice_ok {f : FlatCOO V} {rows : List (List Int)} (h : f.Rep rows) (hp : PosShape f.shape)
    (mem : List V) (sh : List Nat) (st : List Int) (off : Int) (L : List (List Int × Int)) (vals : List V)
    (hb : ∀ e ∈ pySorted L, InBox e.1 sh)
    (h1 : sliceEntries (.ok (withPos rows)) f.shape sh st off = .ok L) (h2 : readAll f.data mem (pySorted L) = .ok vals)
    (h3 : vals.length = (pySorted L).length) :
    f.getSlice mem sh st off
      = .ok (flatOf sh ((pySorted L).map (·.1)) ⟨vals.length, 0, f.data.unspec⟩, vals) := by
  simp only [FlatCOO.getSlice, h.entries_ok hp, h1, h2, bind, Except.bind]
  rw [positions_ok _ _ hb]
  simp only
  rw [Buffer.new_ok _ _ _ _ (by simp)]
  simp only [rawIntBuffer_ok]
  rw [FlatCOO.new_ok _ _ _ _ (by simp [h3])]
  simp [pure, Except.pure, flatOf, fmemOf, Function.comp_def]

theorem CSR.Rep.getSlice2_ok {c : CSR V} {rows : List (List Int)} (h : c.Rep rows)
    (mem : List V) (sh : List Nat) (st : List Int) (off : Int) (L : List (List Int × Int)) (vals : List V)
    (h2s : sh.length = 2) (hs : SortedRows sh ((pySorted L).map (·.1)))
    (h1 : sliceEntries (.ok (withPos rows)) c.shape sh st off = .ok L) (h2 : readAll c.data mem (pySorted L) = .ok vals)
    (h3 : vals.length = (pySorted L).length) :
    c.getSlice2 mem sh st off
      = .ok (csrOf sh ((pySorted L).map (·.1)) ⟨vals.length, 0, c.data.unspec⟩, vals) := by
  obtain ⟨n, m, hsh⟩ := List.length_eq_two.1 h2s
  have hn0 : pyGet sh 0 = .ok n := by rw [hsh]; rfl
  have hs0 : sh.getD 0 0 = n := by rw [hsh]; rfl
  have hcomp := compress_firsts sh h2s _ hs
  rw [hs0] at hcomp
  have hf : firsts ((pySorted L).map (·.1)) = (pySorted L).map fun e => e.1.getD 0 0 := by
    simp [firsts]
  have hcomp' := hcomp
  rw [hf] at hcomp'
  simp only [CSR.getSlice2, h.entries_ok, h1, h2, bind, Except.bind, pyAssert, h2s, decide_true, if_true]
  rw [Buffer.new_ok _ _ _ _ (by simp)]
  simp only [hn0]
  rw [hcomp']
  simp only [intBuffer_ok]
  rw [CSR.new_ok _ _ _ _ _ _ n m hsh (by simp) (by simp [h3])]
  simp only [pure, Except.pure, csrOf, hs0, hf, List.map_map, List.length_map, List.length_range]
  rfl

end Gcs
