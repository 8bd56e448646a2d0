import Verif.Lemmas.Cell

/-!
# Lemmas: assignments that read the list they write
-/

namespace Gcs

open Spec

variable {V : Type}

/-- The write loop when the value at each step depends on the cells written before. -/
theorem writeAll_seq {P : Type} (write1 : List V → P → V → Wr V) (valueAt : List V → List Int → PyM V)
    (cell : P → Nat) (w : List Int → V) (n : Nat) (entries : List (List Int × P)) (mem : List V) (hm : mem.length = n)
    (h1 : ∀ m, m.length = n → ∀ e ∈ entries, ∀ v, write1 m e.2 v = ⟨m.set (cell e.2) v, none⟩)
    (h2 : ∀ pre e post, entries = pre ++ e :: post →
      valueAt (setCells mem (pre.map fun e => (cell e.2, w e.1))) e.1 = .ok (w e.1)) :
    writeAll write1 valueAt entries mem = ⟨setCells mem (entries.map fun e => (cell e.2, w e.1)), none⟩ := by
  induction entries generalizing mem with
  | nil => rfl
  | cons e entries ih =>
    have a := h2 [] e entries rfl
    simp only [List.map_nil, setCells] at a
    simp only [writeAll, a, h1 mem hm e List.mem_cons_self]
    rw [ih _ (by simpa using hm) (fun m hm e he => h1 m hm e (List.mem_cons_of_mem _ he)) ?_]
    · rfl
    · intro pre e' post he
      have := h2 (e :: pre) e' post (by rw [he]; rfl)
      simpa only [List.map_cons, setCells] using this

theorem Strided.setItem_seq {s : Strided V} {mem : List V} (h : s.WF mem) (hp : PosShape s.shape) (index : Index)
    (hv : ValidItems (items index) s.shape) (valueAt : List V → List Int → PyM V) (w : List Int → V)
    (hw : ∀ pre j post, indexProduct (selShape (items index) s.shape) = pre ++ j :: post →
      valueAt (setCells mem (pre.map fun j => (s.cell (selSource (items index) s.shape j), w j))) j = .ok (w j)) :
    s.setItem mem index valueAt = ⟨setCells mem ((indexProduct (selShape (items index) s.shape)).map fun j =>
      (s.cell (selSource (items index) s.shape j), w j)), none⟩ := by
  obtain ⟨nix, st, off, h1, h2, h3, h4, h5⟩ := index_ok index s.shape s.strides hp hv h.len
  simp only [Strided.setItem, h1, h3, bind, Except.bind, Strided.sliceEntries_ok _ st off h4]
  have hcells : ∀ l : List (List Int), (∀ j ∈ l, InBox j (selShape (items index) s.shape)) →
      ((l.map fun j => (j, off + address j st)).map fun e : List Int × Int => (((s.data.offset : Int) + e.2).toNat, w e.1))
        = l.map fun j => (s.cell (selSource (items index) s.shape j), w j) := by
    intro l hl
    rw [List.map_map]
    apply List.map_congr_left
    intro j hj
    have := (h5 j (hl j hj)).2
    simp only [Function.comp_apply, Strided.cell]
    congr 2
    omega
  rw [writeAll_seq _ _ (fun p => ((s.data.offset : Int) + p).toNat) w mem.length _ _ rfl]
  · rw [hcells _ fun j hj => (mem_indexProduct _ _).1 hj]
  · intro m hm e he v
    obtain ⟨j, hj, rfl⟩ := List.mem_map.1 he
    have hj := (mem_indexProduct _ _).1 hj
    obtain ⟨a1, a2⟩ := h5 j hj
    have b1 := h.addr _ a1
    have b2 := h.buf
    unfold Buffer.WF at b2
    apply Buffer.write1_ok <;> simp only <;> omega
  · intro pre e post he
    obtain ⟨pre', rest, e1, rfl, e3⟩ := List.map_eq_append_iff.1 he
    obtain ⟨j, post', rfl, rfl, rfl⟩ := List.map_eq_cons_iff.1 e3
    have := hw pre' j post' e1
    rw [← hcells pre' fun j hj => (mem_indexProduct _ _).1 (by rw [e1]; simp [hj])] at this
    exact this

end Gcs
