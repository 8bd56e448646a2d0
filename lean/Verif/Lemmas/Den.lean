import Verif.Lemmas.SparseSlice
import Verif.SpecArray

/-! Well-formed storages of every class and the arrays they stand for. -/

namespace Gcs

open Spec

variable {V : Type}

/-! ## `DM` -/

/-- The strides of each group have one item per axis. -/
def GroupStrides : List (List Nat) → List (List Int) → Prop
  | [], [] => True
  | dims :: rdims, st :: rstrides => st.length = dims.length ∧ GroupStrides rdims rstrides
  | _, _ => False

/-- The parts of a `DM` fit each other and the shape of the wrapped storage. -/
structure DMMeta.WF (m : DMMeta) (inner : List Nat) : Prop where
  ne : m.rdims ≠ []
  axes : ∀ d, d ∈ m.rdims.flatten ↔ d < m.shape.length
  rshapes : m.rshapes = groupShapes m.shape m.rdims
  rstrides : GroupStrides m.rdims m.rstrides
  roffset : m.roffset.length = m.rdims.length
  rank : inner.length = m.rdims.length
  into : ∀ ix, InBox ix m.shape → InBox (target m.rdims m.rstrides m.roffset ix) inner

theorem target_ok (shape : List Nat) (rdims : List (List Nat)) (rstrides : List (List Int)) (roffset ix : List Int)
    (h1 : GroupStrides rdims rstrides) (h2 : roffset.length = rdims.length)
    (hd : ∀ d ∈ rdims.flatten, d < ix.length) :
    reduceIndex (groupShapes shape rdims) rdims rstrides roffset ix = .ok (target rdims rstrides roffset ix) := by
  induction rdims generalizing rstrides roffset with
  | nil => rfl
  | cons dims rdims ih =>
    cases rstrides with
    | nil => exact h1.elim
    | cons st rstrides => cases roffset with
      | nil => simp at h2
      | cons off roffset =>
        have hd1 : ∀ d ∈ dims, d < ix.length := fun d hd' => hd d (by simp [hd'])
        have hd2 : ∀ d ∈ rdims.flatten, d < ix.length := fun d hd' => hd d (by
          simp only [List.flatten_cons, List.mem_append]; exact .inr hd')
        simp only [groupShapes, List.map_cons, reduceIndex]
        rw [getRPosition_ok ix st _ dims (by simpa using h1.1) (by simp) hd1]
        have := ih rstrides roffset h1.2 (by simpa using h2) hd2
        simp only [groupShapes] at this
        simp only [this, bind, Except.bind, pure, Except.pure, target]

theorem DMMeta.WF.getDataPosition_ok {m : DMMeta} {inner : List Nat} (h : m.WF inner) (ix : List Int)
    (hi : InBox ix m.shape) : m.getDataPosition ix = .ok (target m.rdims m.rstrides m.roffset ix) := by
  unfold DMMeta.getDataPosition
  rw [h.rshapes]
  apply target_ok _ _ _ _ _ h.rstrides h.roffset
  intro d hd
  rw [hi.length_eq]
  exact (h.axes d).1 hd

/-! ## Well-formed storages -/

/-- The object is well-formed on a list with the contents `mem`. -/
def Storage.WF : Storage V → List V → Prop
  | .buffer b, mem => b.WF mem
  | .strided s, mem => s.WF mem
  | .coo c, mem => (∃ rows, c.Rep rows) ∧ c.data.WF mem
  | .flatcoo f, mem => (∃ rows, f.Rep rows) ∧ f.data.WF mem
  | .csr c, mem => (∃ rows, c.Rep rows) ∧ c.data.WF mem
  | .dm m d, mem => m.WF d.shape ∧ Storage.WF d mem

/-- The element at `ix`. -/
def Storage.at [DecidableEq V] (s : Storage V) (mem : List V) (ix : List Int) : V :=
  match s.getVal mem ix with
  | .ok v => v
  | .error _ => s.unspec

theorem at_of_getVal [DecidableEq V] {s : Storage V} {mem : List V} {ix : List Int} {v : V}
    (h : s.getVal mem ix = .ok v) : s.at mem ix = v := by
  simp [Storage.at, h]

theorem getItem_of_getVal [DecidableEq V] {s : Storage V} {mem : List V} {ix : List Int} {v : V}
    (h : s.getVal mem ix = .ok v) : s.getItem mem (.tuple (ix.map .int)) = .ok (.val v) := by
  simp only [Storage.getVal, bind, Except.bind] at h
  cases hg : s.getItem mem (.tuple (ix.map .int)) with
  | error e => rw [hg] at h; simp at h
  | ok r =>
    rw [hg] at h
    cases r with
    | val w => simpa [pure, Except.pure] using h
    | view => simp at h
    | fresh => simp at h

theorem getVal_of_getItem [DecidableEq V] {s : Storage V} {mem : List V} {ix : List Int} {v : V}
    (h : s.getItem mem (.tuple (ix.map .int)) = .ok (.val v)) : s.getVal mem ix = .ok v := by
  simp only [Storage.getVal, bind, Except.bind, h, pure, Except.pure]

theorem strided_getVal [DecidableEq V] {s : Strided V} {mem : List V} (h : s.WF mem) (ix : List Int)
    (hi : InBox ix s.shape) : (Storage.strided s).getVal mem ix = .ok (s.val mem ix) := by
  simp only [Storage.getVal, Storage.getItem, Strided.getItem_elem h ix hi, bind, Except.bind, pure, Except.pure]

theorem buffer_getVal [DecidableEq V] {b : Buffer V} {mem : List V} (h : b.WF mem) (i : Int)
    (h0 : 0 ≤ i) (h1 : i < b.size) : (Storage.buffer b).getVal mem [i] = .ok ((b.window mem).getD i.toNat b.unspec) := by
  have := b.getInt_window mem h i.toNat (by omega) b.unspec
  rw [Int.toNat_of_nonneg h0] at this
  simp only [Storage.getVal, Storage.getItem, Storage.bufferGetItem, List.map_cons, List.map_nil, this, bind, Except.bind,
    pure, Except.pure]

theorem dm_getVal [DecidableEq V] {m : DMMeta} {d : Storage V} {mem : List V} (h : m.WF d.shape) (ix : List Int)
    (hi : InBox ix m.shape) :
    (Storage.dm m d).getVal mem ix = d.getVal mem (target m.rdims m.rstrides m.roffset ix) := by
  simp only [Storage.getVal, Storage.getItem, normalize_ints ix m.shape hi, bind, Except.bind, elementIndex_ints,
    h.getDataPosition_ok ix hi]

/-- Reads inside the box succeed. -/
theorem Storage.WF.getVal_ok [DecidableEq V] {s : Storage V} {mem : List V} (h : s.WF mem) (ix : List Int)
    (hi : InBox ix s.shape) : s.getVal mem ix = .ok (s.at mem ix) := by
  induction s generalizing ix with
  | buffer b =>
    cases ix with
    | nil => exact hi.elim
    | cons i ix => cases ix with
      | cons => exact hi.2.elim
      | nil =>
        have := buffer_getVal h i hi.1.1 hi.1.2
        rw [at_of_getVal this, this]
  | strided s =>
    have := strided_getVal h ix hi
    rw [at_of_getVal this, this]
  | coo c =>
    obtain ⟨⟨rows, hr⟩, hb⟩ := h
    have := (Sparse.coo hr).getVal mem hb ix hi
    rw [at_of_getVal this, this]
  | flatcoo f =>
    obtain ⟨⟨rows, hr⟩, hb⟩ := h
    have := (Sparse.flatcoo hr).getVal mem hb ix hi
    rw [at_of_getVal this, this]
  | csr c =>
    obtain ⟨⟨rows, hr⟩, hb⟩ := h
    have := (Sparse.csr hr).getVal mem hb ix hi
    rw [at_of_getVal this, this]
  | dm m d ih =>
    obtain ⟨hm, hd⟩ := h
    have h1 := dm_getVal (mem := mem) hm ix hi
    rw [ih hd _ (hm.into ix hi)] at h1
    rw [at_of_getVal h1, h1]

theorem at_dm [DecidableEq V] {m : DMMeta} {d : Storage V} {mem : List V} (h : m.WF d.shape) (hd : d.WF mem)
    (ix : List Int) (hi : InBox ix m.shape) :
    (Storage.dm m d).at mem ix = d.at mem (target m.rdims m.rstrides m.roffset ix) := by
  apply at_of_getVal
  rw [dm_getVal h ix hi, hd.getVal_ok _ (h.into ix hi)]

theorem at_strided [DecidableEq V] {s : Strided V} {mem : List V} (h : s.WF mem) (ix : List Int)
    (hi : InBox ix s.shape) : (Storage.strided s).at mem ix = s.val mem ix :=
  at_of_getVal (strided_getVal h ix hi)

theorem Sparse.at [DecidableEq V] {s : Storage V} {rows : List (List Int)} {b : Buffer V} (h : Sparse s rows b)
    (mem : List V) (hm : b.WF mem) (ix : List Int) (hi : InBox ix s.shape) :
    s.at mem ix = lookup rows (b.window mem) b.unspec ix :=
  at_of_getVal (h.getVal mem hm ix hi)

theorem Sparse.wf {s : Storage V} {rows : List (List Int)} {b : Buffer V} (h : Sparse s rows b)
    (mem : List V) (hm : b.WF mem) : s.WF mem := by
  cases h with
  | coo h => exact ⟨⟨_, h⟩, hm⟩
  | flatcoo h => exact ⟨⟨_, h⟩, hm⟩
  | csr h => exact ⟨⟨_, h⟩, hm⟩

/-- Well-formedness depends on the list only through its length. -/
theorem Storage.WF.of_length {s : Storage V} {mem mem' : List V} (h : s.WF mem) (hl : mem'.length = mem.length) :
    s.WF mem' := by
  have hb : ∀ b : Buffer V, b.WF mem → b.WF mem' := by
    intro b hb
    unfold Buffer.WF at *
    omega
  induction s with
  | buffer b => exact hb b h
  | strided s => exact ⟨h.len, hb _ h.buf, h.addr⟩
  | coo c => exact ⟨h.1, hb _ h.2⟩
  | flatcoo f => exact ⟨h.1, hb _ h.2⟩
  | csr c => exact ⟨h.1, hb _ h.2⟩
  | dm m d ih => exact ⟨h.1, ih h.2⟩

/-- `s`, on a list with the contents `mem`, is a well-formed object that stands for the array `a` of shape
`shape`. -/
structure Stands [DecidableEq V] (s : Storage V) (mem : List V) (shape : List Nat) (a : List Int → V) : Prop where
  wf : s.WF mem
  shape_eq : s.shape = shape
  reads : ∀ ix, InBox ix shape → s.at mem ix = a ix

/-- The class of a storage object. -/
def Storage.cls : Storage V → Cls
  | .buffer _ => .buffer
  | .strided _ => .strided
  | .coo _ => .coo
  | .flatcoo _ => .flatcoo
  | .csr _ => .csr
  | .dm _ _ => .dm

/-! ## Building from elements -/

theorem buffer_window_map (n : Nat) (u : V) (l : List V) (h : l.length = n) :
    Buffer.window ⟨n, 0, u⟩ l = l := by
  simp [Buffer.window, ← h]

theorem strided_stands [DecidableEq V] (shape : List Nat) (f : List Int → V) (u : V) :
    Stands (.strided ⟨shape, makeStrides shape, ⟨product shape, 0, u⟩⟩) ((indexProduct shape).map f) shape f := by
  obtain ⟨h1, h2⟩ := contiguous_WF shape f u
  refine ⟨h1, rfl, fun ix hi => ?_⟩
  rw [at_strided h1 ix hi, h2 ix hi]

theorem sparse_stands [DecidableEq V] {s : Storage V} {shape : List Nat} {u : V} {f : List Int → V}
    (h : Sparse s (keptRows shape f u) ⟨(keptRows shape f u).length, 0, u⟩) (hs : s.shape = shape) :
    Stands s ((keptRows shape f u).map f) shape f := by
  have hb : Buffer.WF ⟨(keptRows shape f u).length, 0, u⟩ ((keptRows shape f u).map f) := by simp [Buffer.WF]
  refine ⟨h.wf _ hb, hs, fun ix hi => ?_⟩
  rw [h.at _ hb ix (by rw [hs]; exact hi), buffer_window_map _ _ _ (by simp), lookup_kept shape f u ix hi]

/-- For the sparse classes: the stored indices are those where `f` is not `u`. -/
def Kept [DecidableEq V] (s : Storage V) (mem : List V) (f : List Int → V) (u : V) : Prop :=
  match s.cls with
  | .coo | .flatcoo | .csr => ∃ b, Sparse s (keptRows s.shape f u) b ∧ b.WF mem
  | _ => True

/-- The general branch of `fromobject` for the classes other than `DM`. -/
theorem buildFlat_ok [DecidableEq V] (cls : Cls) (shape : List Nat) (value : List Int → PyM V) (su u : V)
    (a : List Int → V) (h : ∀ ix, InBox ix shape → value ix = .ok (a ix))
    (hc : (cls = .buffer ∧ shape.length = 1) ∨ cls = .strided ∨ (cls = .coo ∧ shape ≠ []) ∨ cls = .flatcoo ∨
      (cls = .csr ∧ shape.length = 2 ∧ ∃ ix, InBox ix shape ∧ subst su u (a ix) ≠ u)) :
    ∃ s mem, buildFlat cls shape value su u = .ok (s, mem) ∧ s.cls = cls ∧ s.unspec = u ∧
      Stands s mem shape (fun ix => subst su u (a ix)) ∧ Kept s mem (fun ix => subst su u (a ix)) u := by
  have hbw : Buffer.WF (⟨(keptRows shape (fun ix => subst su u (a ix)) u).length, 0, u⟩ : Buffer V)
      ((keptRows shape (fun ix => subst su u (a ix)) u).map fun ix => subst su u (a ix)) := by simp [Buffer.WF]
  rcases hc with ⟨rfl, hs⟩ | rfl | ⟨rfl, hs⟩ | rfl | ⟨rfl, hs, ix0, hi0, hx0⟩
  · obtain ⟨n, rfl⟩ := List.length_eq_one_iff.1 hs
    refine ⟨.buffer ⟨product [n], 0, u⟩, (indexProduct [n]).map fun ix => subst su u (a ix), ?_, rfl, rfl,
      ⟨?_, ?_, ?_⟩, trivial⟩
    · simp only [buildFlat, bufferBuild_ok _ value su u a h, bind, Except.bind, pure, Except.pure]
    · simp [Storage.WF, Buffer.WF, indexProduct_length]
    · simp [Storage.shape, product]
    · intro ix hi
      have hat := indexProduct_at [n] ix hi
      cases ix with
      | nil => exact hi.elim
      | cons i ix => cases ix with
        | cons => exact hi.2.elim
        | nil =>
          have hb : Buffer.WF ⟨product [n], 0, u⟩ ((indexProduct [n]).map fun ix => subst su u (a ix)) := by
            simp [Buffer.WF, indexProduct_length]
          rw [at_of_getVal (buffer_getVal hb i hi.1.1 (by simpa [product] using hi.1.2)),
            buffer_window_map _ _ _ (by simp [indexProduct_length]), List.getD_eq_getElem?_getD, List.getElem?_map]
          have : address [i] (makeStrides [n]) = i := by simp [address, makeStrides, product]
          rw [this] at hat
          rw [hat]
          rfl
  · refine ⟨.strided _, _, ?_, rfl, ?_, strided_stands shape (fun ix => subst su u (a ix)) u, trivial⟩
    · simp only [buildFlat, stridedBuild_ok _ value su u a h, bind, Except.bind, pure, Except.pure]
    · rfl
  · refine ⟨.coo _, _, ?_, rfl, ?_, sparse_stands (u := u) (.coo (cooOf_rep shape hs _ (keptRows_sorted _ _ _) _ ?_)) rfl,
      ⟨_, .coo (cooOf_rep shape hs _ (keptRows_sorted _ _ _) _ rfl), hbw⟩⟩
    · simp only [buildFlat, cooBuild_ok _ hs value su u a h, bind, Except.bind, pure, Except.pure]
    · rfl
    · rfl
  · refine ⟨.flatcoo _, _, ?_, rfl, ?_, sparse_stands (u := u) (.flatcoo (flatOf_rep shape _ (keptRows_sorted _ _ _) _ ?_)) rfl,
      ⟨_, .flatcoo (flatOf_rep shape _ (keptRows_sorted _ _ _) _ rfl), hbw⟩⟩
    · simp only [buildFlat, flatBuild_ok _ value su u a h, bind, Except.bind, pure, Except.pure]
    · rfl
    · rfl
  · have hne : shape ≠ [] := by intro he; rw [he] at hs; simp at hs
    refine ⟨.csr _, _, ?_, rfl, ?_, sparse_stands (u := u) (.csr (csrOf_rep shape hs _ (keptRows_sorted _ _ _) _ ?_)) rfl,
      ⟨_, .csr (csrOf_rep shape hs _ (keptRows_sorted _ _ _) _ rfl), hbw⟩⟩
    · have hr : keptRows shape (fun ix => subst su u (a ix)) u ≠ [] := by
        intro he
        have := (mem_keptRows shape (fun ix => subst su u (a ix)) u ix0).2 ⟨hi0, hx0⟩
        rw [he] at this
        simp at this
      have hrep := cooOf_rep shape hne _ (keptRows_sorted shape (fun ix => subst su u (a ix)) u)
        (⟨(keptRows shape (fun ix => subst su u (a ix)) u).length, 0, u⟩ : Buffer V) rfl
      simp only [buildFlat, csrBuild, cooBuild_ok _ hne value su u a h, bind, Except.bind]
      rw [cooToCsr_ok hrep hr hs _ (by simp [cooOf, Buffer.WF])]
      simp only [pure, Except.pure, cooOf]
      rw [buffer_window_map _ _ _ (by simp)]
    · rfl
    · rfl

end Gcs
