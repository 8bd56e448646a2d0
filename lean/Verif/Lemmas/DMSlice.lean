import Verif.Lemmas.Den

/-! Slicing of a `DM`: the loop over the groups of axes. -/

namespace Gcs

open Spec

theorem shapeStrided_ok (nix : List NIx) (shape : List Nat) (hn : Normalized nix shape) :
    shapeStrided nix shape = .ok (selShape (nix.map NIx.toIx) shape) := by
  induction nix generalizing shape with
  | nil => cases shape with
    | nil => rfl
    | cons => exact hn.elim
  | cons x nix ih => cases shape with
    | nil => cases x <;> exact hn.elim
    | cons n shape => cases x with
      | int i => simp only [shapeStrided, ih shape hn.2, List.map_cons, NIx.toIx, selShape]
      | slice r =>
        simp only [shapeStrided, ih shape hn.2, (normalized_nitems hn.1.1 hn.1.2).1, List.map_cons, NIx.toIx, selShape,
          bind, Except.bind, pure, Except.pure]
      | none =>
        simp only [shapeStrided, ih shape hn, List.map_cons, NIx.toIx, selShape, bind, Except.bind, pure, Except.pure]

theorem InBox_append {a b : List Int} {s t : List Nat} (ha : InBox a s) (hb : InBox b t) :
    InBox (a ++ b) (s ++ t) := by
  induction a generalizing s with
  | nil => cases s with
    | nil => exact hb
    | cons => exact ha.elim
  | cons x a ih => cases s with
    | nil => exact ha.elim
    | cons n s => exact ⟨ha.1, ih ha.2⟩

/-- Whether an item is an int. -/
def NIx.isInt : NIx → Bool
  | .int _ => true
  | _ => false

theorem isIntAt_cons_zero (x : NIx) (nix : List NIx) : isIntAt (x :: nix) 0 = x.isInt := by
  cases x <;> rfl

theorem isIntAt_cons_succ (x : NIx) (nix : List NIx) (d : Nat) : isIntAt (x :: nix) (d + 1) = isIntAt nix d := rfl

theorem axisMap_zero (nix : List NIx) : axisMap nix 0 = 0 := by simp [axisMap]

theorem axisMap_succ (x : NIx) (nix : List NIx) (d : Nat) :
    axisMap (x :: nix) (d + 1) = axisMap nix d + if x.isInt then 0 else 1 := by
  have hle : ((List.range d).filter fun j => isIntAt nix j).length ≤ d := by
    have := List.length_filter_le (fun j => isIntAt nix j) (List.range d)
    simpa using this
  unfold axisMap
  rw [List.range_succ_eq_map, List.filter_cons, List.filter_map, isIntAt_cons_zero]
  have e : ((fun j => isIntAt (x :: nix) j) ∘ Nat.succ) = fun j => isIntAt nix j := by
    funext j; exact isIntAt_cons_succ x nix j
  rw [e]
  cases x.isInt <;> simp <;> omega

/-- The items of the slice that come from one axis. -/
def axisPart (nix : List NIx) (j : List Int) (d : Nat) : List Int :=
  if isIntAt nix d then [] else [j.getD (axisMap nix d) 0]

theorem axisPart_zero (x : NIx) (nix : List NIx) (j : List Int) :
    axisPart (x :: nix) j 0 = if x.isInt then [] else [j.getD 0 0] := by
  simp only [axisPart, isIntAt_cons_zero, axisMap_zero]

theorem axisPart_int (x : NIx) (nix : List NIx) (j : List Int) (d : Nat) (h : x.isInt = true) :
    axisPart (x :: nix) j (d + 1) = axisPart nix j d := by
  simp only [axisPart, isIntAt_cons_succ, axisMap_succ, h, if_true, Nat.add_zero]

theorem axisPart_keep (x : NIx) (nix : List NIx) (j0 : Int) (j : List Int) (d : Nat) (h : x.isInt = false) :
    axisPart (x :: nix) (j0 :: j) (d + 1) = axisPart nix j d := by
  simp [axisPart, isIntAt_cons_succ, axisMap_succ, h]

/-- One axis of the selected index. -/
theorem axis_ok (nix : List NIx) (shape : List Nat) (hn : Normalized nix shape) (j : List Int)
    (hj : InBox j (selShape (nix.map NIx.toIx) shape)) (d : Nat) (hd : d < shape.length) :
    InBox (axisPart nix j d) (selShape [(nix.getD d .none).toIx] [shape.getD d 0]) ∧
    selSource [(nix.getD d .none).toIx] [shape.getD d 0] (axisPart nix j d)
      = [(selSource (nix.map NIx.toIx) shape j).getD d 0] := by
  induction nix generalizing shape j d with
  | nil => cases shape with
    | nil => simp at hd
    | cons => exact hn.elim
  | cons x nix ih => cases shape with
    | nil => simp at hd
    | cons n shape => cases x with
      | int i =>
        cases d with
        | zero => simp [axisPart_zero, NIx.isInt, NIx.toIx, selShape, selSource, InBox]
        | succ d =>
          have := ih shape hn.2 j hj d (by simpa using hd)
          rw [axisPart_int _ _ _ _ rfl]
          simpa [NIx.toIx, selSource] using this
      | slice r =>
        cases j with
        | nil => exact hj.elim
        | cons j0 j =>
          cases d with
          | zero =>
            have h0 := hj.1
            simpa [axisPart_zero, NIx.isInt, NIx.toIx, selShape, selSource, InBox] using h0
          | succ d =>
            have := ih shape hn.2 j hj.2 d (by simpa using hd)
            rw [axisPart_keep _ _ _ _ _ rfl]
            simpa [NIx.toIx, selSource] using this
      | none =>
        cases j with
        | nil => exact hj.elim
        | cons j0 j =>
          cases d with
          | zero =>
            have h0 := hj.1
            simpa [axisPart_zero, NIx.isInt, NIx.toIx, selShape, selSource, InBox] using h0
          | succ d =>
            have := ih shape hn j hj.2 d (by simpa using hd)
            rw [axisPart_keep _ _ _ _ _ rfl]
            simpa [NIx.toIx, selSource] using this

theorem Normalized.getD {nix : List NIx} {shape : List Nat} (hn : Normalized nix shape) (d : Nat)
    (hd : d < shape.length) : Normalized [nix.getD d .none] [shape.getD d 0] := by
  induction nix generalizing shape d with
  | nil => cases shape with
    | nil => simp at hd
    | cons => exact hn.elim
  | cons x nix ih => cases shape with
    | nil => simp at hd
    | cons n shape =>
      cases d with
      | zero =>
        cases x with
        | int i => exact ⟨hn.1, trivial⟩
        | slice r => exact ⟨hn.1, trivial⟩
        | none => trivial
      | succ d =>
        have hn' : Normalized nix shape := by
          cases x with
          | int i => exact hn.2
          | slice r => exact hn.2
          | none => exact hn
        simpa using ih hn' d (by simpa using hd)

theorem Normalized.append {a b : List NIx} {s t : List Nat} (ha : Normalized a s) (hb : Normalized b t) :
    Normalized (a ++ b) (s ++ t) := by
  induction a generalizing s with
  | nil => cases s with
    | nil => exact hb
    | cons => exact ha.elim
  | cons x a ih => cases s with
    | nil => cases x <;> exact ha.elim
    | cons n s => cases x with
      | int i => exact ⟨ha.1, ih ha.2⟩
      | slice r => exact ⟨ha.1, ih ha.2⟩
      | none => exact ih (s := s) ha

theorem selShape_cons (x : Ix) (n : Nat) (is : List Ix) (sh : List Nat) (h : is.length = sh.length) :
    selShape (x :: is) (n :: sh) = selShape [x] [n] ++ selShape is sh := by
  cases x <;> simp [selShape]

theorem selSource_cons (x : Ix) (n : Nat) (is : List Ix) (sh : List Nat) (jl jj : List Int)
    (h : InBox jl (selShape [x] [n])) :
    selSource (x :: is) (n :: sh) (jl ++ jj) = selSource [x] [n] jl ++ selSource is sh jj := by
  cases x with
  | int i => cases jl with
    | nil => simp [selSource]
    | cons => exact h.elim
  | slice s => cases jl with
    | nil => exact h.elim
    | cons a jl => cases jl with
      | nil => simp [selSource]
      | cons => exact h.2.elim
  | none => cases jl with
    | nil => exact h.elim
    | cons a jl => cases jl with
      | nil => simp [selSource]
      | cons => exact h.2.elim
  | other => cases jl with
    | nil => exact h.elim
    | cons a jl => cases jl with
      | nil => simp [selSource]
      | cons => exact h.2.elim

/-- The axes of a group that are kept, renumbered. -/
def keptAxes (nix : List NIx) (dims : List Nat) : List Nat :=
  (dims.filter fun i => !isIntAt nix i).map (axisMap nix)

theorem keptAxes_cons (nix : List NIx) (d : Nat) (dims : List Nat) :
    keptAxes nix (d :: dims) = (if isIntAt nix d then [] else [axisMap nix d]) ++ keptAxes nix dims := by
  simp only [keptAxes, List.filter_cons]
  cases isIntAt nix d <;> simp

theorem isIntAt_getD (nix : List NIx) (d : Nat) : isIntAt nix d = (nix.getD d .none).isInt := by
  simp only [isIntAt, List.getD_eq_getElem?_getD]
  cases nix[d]? with
  | none => rfl
  | some x => cases x <;> rfl

/-- The items of a group. -/
theorem group_ok (nix : List NIx) (shape : List Nat) (hn : Normalized nix shape) (dims : List Nat)
    (hd : ∀ d ∈ dims, d < shape.length) :
    Normalized (dims.map fun d => nix.getD d .none) (dims.map fun d => shape.getD d 0) ∧
    (selShape ((dims.map fun d => nix.getD d .none).map NIx.toIx) (dims.map fun d => shape.getD d 0)).length
      = (keptAxes nix dims).length ∧
    ∀ j, InBox j (selShape (nix.map NIx.toIx) shape) →
      InBox ((keptAxes nix dims).map fun d => j.getD d 0)
        (selShape ((dims.map fun d => nix.getD d .none).map NIx.toIx) (dims.map fun d => shape.getD d 0)) ∧
      selSource ((dims.map fun d => nix.getD d .none).map NIx.toIx) (dims.map fun d => shape.getD d 0)
          ((keptAxes nix dims).map fun d => j.getD d 0)
        = dims.map fun d => (selSource (nix.map NIx.toIx) shape j).getD d 0 := by
  induction dims with
  | nil => exact ⟨trivial, rfl, fun j _ => ⟨trivial, rfl⟩⟩
  | cons d dims ih =>
    obtain ⟨h1, h2, h3⟩ := ih fun e he => hd e (by simp [he])
    have hd0 := hd d (by simp)
    simp only [List.map_cons]
    rw [selShape_cons _ _ _ _ (by simp), keptAxes_cons]
    refine ⟨(hn.getD d hd0).append h1, ?_, fun j hj => ?_⟩
    · rw [List.length_append, List.length_append, h2, isIntAt_getD]
      congr 1
      cases nix.getD d .none <;> simp [NIx.toIx, selShape, NIx.isInt]
    · obtain ⟨a1, a2⟩ := axis_ok nix shape hn j hj d hd0
      obtain ⟨b1, b2⟩ := h3 j hj
      have e : ((if isIntAt nix d then [] else [axisMap nix d]).map fun d => j.getD d 0) = axisPart nix j d := by
        simp only [axisPart]; cases isIntAt nix d <;> simp
      rw [List.map_append, e]
      refine ⟨InBox_append a1 b1, ?_⟩
      rw [selSource_cons _ _ _ _ _ _ a1, a2, b2]
      rfl

/-- The kept axes are the axes of the selection. -/
theorem axes_ok (nix : List NIx) (shape : List Nat) (hn : Normalized nix shape) (e : Nat) :
    (∃ d < shape.length, isIntAt nix d = false ∧ axisMap nix d = e)
      ↔ e < (selShape (nix.map NIx.toIx) shape).length := by
  induction nix generalizing shape e with
  | nil => cases shape with
    | nil => simp [selShape]
    | cons => exact hn.elim
  | cons x nix ih => cases shape with
    | nil => cases x <;> exact hn.elim
    | cons n shape =>
      have key : (∃ d < (n :: shape).length, isIntAt (x :: nix) d = false ∧ axisMap (x :: nix) d = e)
          ↔ (x.isInt = false ∧ e = 0) ∨ ∃ d < shape.length, isIntAt nix d = false ∧
            (axisMap nix d + if x.isInt then 0 else 1) = e := by
        constructor
        · rintro ⟨d, hd, h1, h2⟩
          cases d with
          | zero =>
            rw [isIntAt_cons_zero] at h1
            rw [axisMap_zero] at h2
            exact .inl ⟨h1, h2.symm⟩
          | succ d =>
            rw [isIntAt_cons_succ] at h1
            rw [axisMap_succ] at h2
            exact .inr ⟨d, by simpa using hd, h1, h2⟩
        · rintro (⟨h1, h2⟩ | ⟨d, hd, h1, h2⟩)
          · exact ⟨0, by simp, by rw [isIntAt_cons_zero]; exact h1, by rw [axisMap_zero]; exact h2.symm⟩
          · exact ⟨d + 1, by simpa using hd, h1, by rw [axisMap_succ]; exact h2⟩
      rw [key]
      cases x with
      | int i =>
        have := ih shape hn.2 e
        simpa [NIx.isInt, NIx.toIx, selShape] using this
      | slice r =>
        cases e with
        | zero => simp [NIx.isInt, NIx.toIx, selShape]
        | succ e =>
          have := ih shape hn.2 e
          simpa [NIx.isInt, NIx.toIx, selShape] using this
      | none =>
        cases e with
        | zero => simp [NIx.isInt, NIx.toIx, selShape]
        | succ e =>
          have := ih shape hn e
          simpa [NIx.isInt, NIx.toIx, selShape] using this

theorem nixItems_mapM (nix : List NIx) (dims : List Nat) (h : ∀ d ∈ dims, d < nix.length) :
    (dims.mapM fun (d : Nat) => pyGet nix d) = .ok (dims.map fun d => nix.getD d .none) :=
  mapM_ok _ _ _ fun d hd => pyGet_natD nix d .none (h d hd)

/-- Groups whose axes are all fixed have the offset `0`. -/
def OffsetsOk (nix : List NIx) : List (List Nat) → List Int → Prop
  | dims :: rdims, off :: roffset => ((∀ d ∈ dims, isIntAt nix d = true) → off = 0) ∧ OffsetsOk nix rdims roffset
  | _, _ => True

/-- Whether a list of items has only ints. -/
def AllInts (is : List Ix) : Prop := ∀ x ∈ is, ∃ i, x = .int i

/-- The items are ints and `None`. -/
def IntsNones (is : List Ix) : Prop := ∀ x ∈ is, x = .none ∨ ∃ i, x = .int i

theorem keptAxes_nil (nix : List NIx) (dims : List Nat) :
    keptAxes nix dims = [] ↔ ∀ d ∈ dims, isIntAt nix d = true := by
  simp [keptAxes, List.filter_eq_nil_iff]

theorem InBox_zeros {j : List Int} {shape : List Nat} (h : InBox j shape) : InBox (j.map fun _ => 0) shape := by
  induction j generalizing shape with
  | nil => exact h
  | cons x j ih => cases shape with
    | nil => exact h.elim
    | cons n shape =>
      have h1 := h.1
      exact ⟨⟨Int.le_refl 0, show (0 : Int) < n by omega⟩, ih h.2⟩

theorem address_zeros (ix st : List Int) (h : ∀ x ∈ ix, x = 0) : address ix st = 0 := by
  induction ix generalizing st with
  | nil => cases st <;> rfl
  | cons x ix ih => cases st with
    | nil => rfl
    | cons s st =>
      have := ih st fun y hy => h y (by simp [hy])
      simp [address, h x (by simp), this]

/-- What the loop over the groups computes, for any offsets; and, for any offsets, what a second index that fixes
the axes `fx` reads. -/
theorem dmSliceLoop_any (nix : List NIx) (shape : List Nat) (hn : Normalized nix shape) (hp : PosShape shape)
    (rdims : List (List Nat)) (rstrides : List (List Int)) (roffset : List Int)
    (hd : ∀ d ∈ rdims.flatten, d < shape.length) (hs : GroupStrides rdims rstrides)
    (ho : roffset.length = rdims.length) :
    ∃ rd rst roff dix, dmSliceLoop nix rdims (groupShapes shape rdims) rstrides roffset = .ok (rd, rst, roff, dix) ∧
      GroupStrides rd rst ∧ roff.length = rd.length ∧
      (∀ e, e ∈ rd.flatten ↔ ∃ d ∈ rdims.flatten, isIntAt nix d = false ∧ axisMap nix d = e) ∧
      dix.length = rdims.length ∧ IntsNones dix ∧
      (∀ inner : List Nat, inner.length = rdims.length → (selShape dix inner).length = rd.length) ∧
      (∀ inner j, InBox j (selShape (nix.map NIx.toIx) shape) →
        InBox (target rdims rstrides roffset (selSource (nix.map NIx.toIx) shape j)) inner →
        InBox (target rd rst roff j) (selShape dix inner) ∧
        selSource dix inner (target rd rst roff j)
          = forgetful (isIntAt nix) rdims rstrides roffset inner (selSource (nix.map NIx.toIx) shape j)) ∧
      (∀ fx inner j, InBox j (selShape (nix.map NIx.toIx) shape) →
        InBox (target rdims rstrides roffset (selSource (nix.map NIx.toIx) shape j)) inner →
        selSource dix inner (forgetful fx rd rst roff (selShape dix inner) j)
          = forgetful2 (isIntAt nix) (fun a => fx (axisMap nix a)) rdims rstrides roffset inner
              (selSource (nix.map NIx.toIx) shape j) (selSource (nix.map NIx.toIx) shape (j.map fun _ => 0))) := by
  induction rdims generalizing rstrides roffset with
  | nil =>
    cases rstrides with
    | cons => exact hs.elim
    | nil => cases roffset with
      | cons => simp at ho
      | nil =>
        refine ⟨[], [], [], [], rfl, trivial, rfl, by simp, rfl, ?_, ?_, ?_, ?_⟩
        · intro x hx; simp at hx
        · intro inner hi; simpa [selShape] using hi
        · intro inner j _ h
          cases inner with
          | nil => exact ⟨h, rfl⟩
          | cons => exact h.elim
        · intro fx inner j _ h
          cases inner with
          | nil => rfl
          | cons => exact h.elim
  | cons dims rdims ih =>
    cases rstrides with
    | nil => exact hs.elim
    | cons st rstrides => cases roffset with
      | nil => simp at ho
      | cons off roffset =>
        have hd1 : ∀ d ∈ dims, d < shape.length := fun d hd' => hd d (by simp [hd'])
        have hd2 : ∀ d ∈ rdims.flatten, d < shape.length := fun d hd' => hd d (by
          simp only [List.flatten_cons, List.mem_append]; exact .inr hd')
        obtain ⟨rd, rst, roff, dix, e1, e2, e3, e4, e5, e6, e7, e8, e9⟩ :=
          ih rstrides roffset hd2 hs.2 (by simpa using ho)
        obtain ⟨g1, g2, g3⟩ := group_ok nix shape hn dims hd1
        have hps : PosShape (dims.map fun d => shape.getD d 0) := by
          intro n hm
          obtain ⟨d, hd3, rfl⟩ := List.mem_map.1 hm
          apply hp
          have := hd1 d hd3
          simp [List.getD_eq_getElem?_getD, this]
        obtain ⟨kst, koff, k1, k2, k3⟩ := indexStrided_ok (dims.map fun d => nix.getD d .none)
          (dims.map fun d => shape.getD d 0) st hps g1 (by simpa using hs.1)
        have hloop : dmSliceLoop nix (dims :: rdims) (groupShapes shape (dims :: rdims)) (st :: rstrides) (off :: roffset)
            = if (keptAxes nix dims).isEmpty then .ok (rd, rst, roff, .int koff :: dix)
              else .ok (keptAxes nix dims :: rd, kst :: rst, (off + koff) :: roff, .none :: dix) := by
          simp only [groupShapes, List.map_cons, dmSliceLoop]
          rw [nixItems_mapM nix dims (by rw [hn.length_eq]; exact hd1)]
          simp only [groupShapes] at e1
          simp only [bind, Except.bind, k1, e1, pure, Except.pure]
          rw [← keptAxes]
          have : (selShape ((dims.map fun d => nix.getD d .none).map NIx.toIx)
              (dims.map fun d => shape.getD d 0)).isEmpty = (keptAxes nix dims).isEmpty := by
            rw [Bool.eq_iff_iff, List.isEmpty_iff_length_eq_zero, List.isEmpty_iff_length_eq_zero, g2]
          rw [this]
          cases (keptAxes nix dims).isEmpty <;> rfl
        have hmem : ∀ e, e ∈ keptAxes nix dims ↔ ∃ d ∈ dims, isIntAt nix d = false ∧ axisMap nix d = e := by
          intro e
          simp [keptAxes, and_assoc]
        have haddr : ∀ j, InBox j (selShape (nix.map NIx.toIx) shape) →
            address ((keptAxes nix dims).map fun d => j.getD d 0) kst + koff
              = address (dims.map fun d => (selSource (nix.map NIx.toIx) shape j).getD d 0) st := by
          intro j hj
          obtain ⟨b1, b2⟩ := g3 j hj
          rw [(k3 _ b1).2, b2]
        have hfirst : ∀ j, InBox j (selShape (nix.map NIx.toIx) shape) →
            koff = address (dims.map fun d =>
              (selSource (nix.map NIx.toIx) shape (j.map fun _ => 0)).getD d 0) st := by
          intro j hj
          have := haddr _ (InBox_zeros hj)
          rw [address_zeros] at this
          · rw [← this, zero_add]
          · intro x hx
            obtain ⟨d, _, rfl⟩ := List.mem_map.1 hx
            rw [List.getD_eq_getElem?_getD, List.getElem?_map]
            cases j[d]? <;> rfl
        rw [hloop]
        by_cases hk : keptAxes nix dims = []
        · refine ⟨rd, rst, roff, .int koff :: dix, by rw [hk]; rfl, e2, e3, ?_, by simp [e5], ?_, ?_, ?_, ?_⟩
          · intro e
            rw [e4]
            simp only [List.flatten_cons, List.mem_append]
            have := hmem e
            rw [hk] at this
            constructor
            · rintro ⟨d, h1, h2⟩; exact ⟨d, .inr h1, h2⟩
            · rintro ⟨d, h1 | h1, h2⟩
              · have := this.2 ⟨d, h1, h2⟩
                simp at this
              · exact ⟨d, h1, h2⟩
          · intro x hx
            rcases List.mem_cons.1 hx with rfl | hx
            · exact .inr ⟨_, rfl⟩
            · exact e6 x hx
          · intro inner hi
            obtain ⟨n, inner, rfl⟩ := List.exists_of_length_succ inner hi
            exact e7 inner (by simpa using hi)
          · intro inner j hj hb
            cases inner with
            | nil => exact hb.elim
            | cons n inner =>
              obtain ⟨f1, f2⟩ := e8 inner j hj hb.2
              have hall : dims.all (isIntAt nix) = true := List.all_eq_true.2 ((keptAxes_nil nix dims).1 hk)
              have ha := haddr j hj
              rw [hk] at ha
              simp only [List.map_nil] at ha
              have ha' : koff = address (dims.map fun d => (selSource (nix.map NIx.toIx) shape j).getD d 0) st := by
                rw [← ha]; cases kst <;> simp [address]
              refine ⟨f1, ?_⟩
              simp only [selSource, forgetful, f2, ← ha', hall, if_true]
          · intro fx inner j hj hb
            cases inner with
            | nil => exact hb.elim
            | cons n inner =>
              have f2 := e9 fx inner j hj hb.2
              have hall : dims.all (isIntAt nix) = true := List.all_eq_true.2 ((keptAxes_nil nix dims).1 hk)
              have ha := haddr j hj
              rw [hk] at ha
              simp only [List.map_nil] at ha
              have ha' : koff = address (dims.map fun d => (selSource (nix.map NIx.toIx) shape j).getD d 0) st := by
                rw [← ha]; cases kst <;> simp [address]
              simp only [selSource, selShape, forgetful2, f2, ← ha', hall, if_true]
        · refine ⟨keptAxes nix dims :: rd, kst :: rst, (off + koff) :: roff, .none :: dix, ?_, ⟨?_, e2⟩, by simp [e3], ?_,
            by simp [e5], ?_, ?_, ?_, ?_⟩
          · rw [if_neg (by simpa using hk)]
          · rw [k2, g2]
          · intro e
            simp only [List.flatten_cons, List.mem_append]
            rw [e4, hmem]
            constructor
            · rintro (⟨d, h1, h2⟩ | ⟨d, h1, h2⟩)
              · exact ⟨d, .inl h1, h2⟩
              · exact ⟨d, .inr h1, h2⟩
            · rintro ⟨d, h1 | h1, h2⟩
              · exact .inl ⟨d, h1, h2⟩
              · exact .inr ⟨d, h1, h2⟩
          · intro x hx
            rcases List.mem_cons.1 hx with rfl | hx
            · exact .inl rfl
            · exact e6 x hx
          · intro inner hi
            obtain ⟨n, inner, rfl⟩ := List.exists_of_length_succ inner hi
            simp [selShape, e7 inner (by simpa using hi)]
          · intro inner j hj hb
            cases inner with
            | nil => exact hb.elim
            | cons n inner =>
              obtain ⟨f1, f2⟩ := e8 inner j hj hb.2
              have hall : dims.all (isIntAt nix) = false := by
                rw [Bool.eq_false_iff]
                intro hc
                exact hk ((keptAxes_nil nix dims).2 (List.all_eq_true.1 hc))
              have ha := haddr j hj
              have e : off + koff + address ((keptAxes nix dims).map fun d => j.getD d 0) kst
                  = off + address (dims.map fun d => (selSource (nix.map NIx.toIx) shape j).getD d 0) st := by
                rw [← ha]; ring
              have hb1 := hb.1
              rw [← e] at hb1
              refine ⟨⟨hb1, f1⟩, ?_⟩
              simp only [selSource, target, forgetful, f2, e, hall, Bool.false_eq_true, if_false]
          · intro fx inner j hj hb
            cases inner with
            | nil => exact hb.elim
            | cons n inner =>
              have f2 := e9 fx inner j hj hb.2
              have hall : dims.all (isIntAt nix) = false := by
                rw [Bool.eq_false_iff]
                intro hc
                exact hk ((keptAxes_nil nix dims).2 (List.all_eq_true.1 hc))
              have hkept : (keptAxes nix dims).all fx = dims.all fun a => isIntAt nix a || fx (axisMap nix a) := by
                rw [Bool.eq_iff_iff]
                simp only [keptAxes, List.all_map, List.all_eq_true, List.mem_filter, Function.comp,
                  Bool.not_eq_true', Bool.or_eq_true]
                constructor
                · intro h1 a ha
                  cases hc : isIntAt nix a
                  · exact .inr (h1 a ⟨ha, hc⟩)
                  · exact .inl rfl
                · rintro h1 a ⟨ha, hc⟩
                  rcases h1 a ha with h2 | h2
                  · rw [hc] at h2; cases h2
                  · exact h2
              have ha := haddr j hj
              simp only [selSource, selShape, forgetful, forgetful2, f2, hall, Bool.false_eq_true, if_false, hkept,
                ← hfirst j hj, ← ha]
              congr 1
              split
              · congr 1; ring
              · ring

theorem forgetful_eq (nix : List NIx) (rdims : List (List Nat)) (rstrides : List (List Int)) (roffset : List Int)
    (inner : List Nat) (ix : List Int) (hof : OffsetsOk nix rdims roffset)
    (hb : InBox (target rdims rstrides roffset ix) inner) :
    forgetful (isIntAt nix) rdims rstrides roffset inner ix = target rdims rstrides roffset ix := by
  induction rdims generalizing rstrides roffset inner with
  | nil => simp [forgetful, target]
  | cons dims rdims ih =>
    cases rstrides with
    | nil => simp [forgetful, target]
    | cons st rstrides => cases roffset with
      | nil => simp [forgetful, target]
      | cons off roffset => cases inner with
        | nil => exact hb.elim
        | cons n inner =>
          simp only [forgetful, target, ih rstrides roffset inner hof.2 hb.2]
          split
          · rename_i hall
            have hoff := hof.1 (List.all_eq_true.1 hall)
            have hb1 := hb.1
            rw [hoff, zero_add] at hb1 ⊢
            rw [Int.emod_eq_of_lt hb1.1 hb1.2]
          · rfl

/-- What the loop over the groups computes. -/
theorem dmSliceLoop_ok (nix : List NIx) (shape : List Nat) (hn : Normalized nix shape) (hp : PosShape shape)
    (rdims : List (List Nat)) (rstrides : List (List Int)) (roffset : List Int)
    (hd : ∀ d ∈ rdims.flatten, d < shape.length) (hs : GroupStrides rdims rstrides)
    (ho : roffset.length = rdims.length) :
    ∃ rd rst roff dix, dmSliceLoop nix rdims (groupShapes shape rdims) rstrides roffset = .ok (rd, rst, roff, dix) ∧
      GroupStrides rd rst ∧ roff.length = rd.length ∧
      (∀ e, e ∈ rd.flatten ↔ ∃ d ∈ rdims.flatten, isIntAt nix d = false ∧ axisMap nix d = e) ∧
      dix.length = rdims.length ∧ IntsNones dix ∧
      (∀ inner : List Nat, inner.length = rdims.length → (selShape dix inner).length = rd.length) ∧
      (∀ inner j, InBox j (selShape (nix.map NIx.toIx) shape) → OffsetsOk nix rdims roffset →
        InBox (target rdims rstrides roffset (selSource (nix.map NIx.toIx) shape j)) inner →
        InBox (target rd rst roff j) (selShape dix inner) ∧
        selSource dix inner (target rd rst roff j)
          = target rdims rstrides roffset (selSource (nix.map NIx.toIx) shape j)) := by
  obtain ⟨rd, rst, roff, dix, e1, e2, e3, e4, e5, e6, e7, e8, _⟩ :=
    dmSliceLoop_any nix shape hn hp rdims rstrides roffset hd hs ho
  refine ⟨rd, rst, roff, dix, e1, e2, e3, e4, e5, e6, e7, fun inner j hj hof hb => ?_⟩
  obtain ⟨f1, f2⟩ := e8 inner j hj hb
  exact ⟨f1, by rw [f2, forgetful_eq nix _ _ _ _ _ hof hb]⟩

end Gcs
