import Verif.Props.Machine
import Verif.Props.Ragged
import Verif.Props.Fullness
import Verif.Props.Indexing

/-!
# C80: programs with statements that raise
-/

namespace Gcs

variable {V : Type}

/-! ## Specification -/

/-- Arguments of `DM.fromobject` for `n` axes that it refuses: the first `n` dimensions are not a permutation of the axes, or
the partitioning is decreasing somewhere, has a cut outside `1, ..., n - 1`, or has too many cuts. -/
def Spec.SplitRefused (n : Nat) (dimensions partitioning : Option (List Nat)) : Prop :=
  (∃ d, dimensions = some d ∧ ¬ (d.take n).Perm (List.range n)) ∨
  ∃ p, partitioning = some p ∧ (¬ p.Pairwise (· ≤ ·) ∨ (∃ k ∈ p, k = 0 ∨ n ≤ k) ∨ n ≤ p.length)

variable [DecidableEq V] [HasNone V]

/-- The statements that raise, and the state of the machine after them.
* `fromobject` of a list that has nothing at an index of the box of its first items.
* `CSR` of an array that does not have two axes, or that has no element other than the unspecified value (C28).
* `DM` with arguments that it refuses.
* `o[index]`, `o[index] = value` and `o[index] = p` with an index that is not for the shape.
* `o[index] = value` for a `Strided` `o` and a value with something missing: the writes before that stay. -/
inductive Spec.Machine.Fails (m : Spec.Machine V) : Op V → Spec.Machine V → Prop
  | missing (cls : Cls) (seq : Nested V) (u : Option V) (ix : List Int) (hne : Spec.dims seq ≠ [])
    (hi : Spec.InBox ix (Spec.dims seq)) (h : Spec.place seq ix = none) : Fails m (.make cls seq u) m
  | missingDM (seq : Nested V) (d p : Option (List Nat)) (cls : Cls) (u : Option V) (ix : List Int)
    (hi : Spec.InBox ix (Spec.dims seq)) (h : Spec.place seq ix = none) : Fails m (.makeDM seq d p cls u) m
  | axes (seq : Nested V) (u : Option V) (h : (Spec.dims seq).length ≠ 2) : Fails m (.make .csr seq u) m
  | axesOf (o : Nat) (v : Spec.View V) (u : Option V) (hv : m.views[o]? = some v) (h : v.shape.length ≠ 2) :
    Fails m (.convert o .csr u) m
  | blank (seq : Nested V) (r k : Nat) (u : Option V) (hs : Spec.HasShape seq [r, k])
    (h : ∀ ix, Spec.InBox ix [r, k] → Spec.listElem seq u ix = u.getD pyNone) : Fails m (.make .csr seq u) m
  | blankOf (o : Nat) (v : Spec.View V) (u : Option V) (hv : m.views[o]? = some v)
    (hk : u = none → v.kind ≠ .coo ∧ v.kind ≠ .flatcoo)
    (h : ∀ ix, Spec.InBox ix v.shape → Spec.replaced v.unspec (u.getD v.unspec) (m.read v ix) = u.getD v.unspec) :
    Fails m (.convert o .csr u) m
  | split (seq : Nested V) (d p : Option (List Nat)) (cls : Cls) (u : Option V)
    (h : Spec.SplitRefused (Spec.dims seq).length d p) : Fails m (.makeDM seq d p cls u) m
  | splitOf (o : Nat) (v : Spec.View V) (d p : Option (List Nat)) (cls : Cls) (u : Option V) (hv : m.views[o]? = some v)
    (h : Spec.SplitRefused v.shape.length d p) : Fails m (.convertDM o d p cls u) m
  | get (o : Nat) (v : Spec.View V) (index : Index) (hv : m.views[o]? = some v) (h : Spec.Refused (Spec.items index) v.shape) :
    Fails m (.get o index) m
  | set (o : Nat) (v : Spec.View V) (index : Index) (value : Nested V) (hv : m.views[o]? = some v)
    (h : Spec.Refused (Spec.items index) v.shape) : Fails m (.set o index value) m
  | setFrom (o : Nat) (v : Spec.View V) (index : Index) (p : Nat) (q : Spec.View V) (hv : m.views[o]? = some v)
    (hq : m.views[p]? = some q) (h : Spec.Refused (Spec.items index) v.shape) : Fails m (.setFrom o index p) m
  | setMissing (o : Nat) (v : Spec.View V) (index : Index) (value : Nested V) (done : List (List Int × List Int))
    (t : List Int × List Int) (rest : List (List Int × List Int)) (hv : m.views[o]? = some v) (hk : v.kind = .strided)
    (hi : Spec.ValidItems (Spec.items index) v.shape) (ht : v.targets index = done ++ t :: rest)
    (hd : ∀ e ∈ done, ∃ x, Spec.item value e.2 = some x) (h : Spec.place value t.2 = none) :
    Fails m (.set o index value)
      (done.foldl (fun m e => m.write v.arr (v.src e.1) ((Spec.item value e.2).getD v.unspec)) m)

/-- The objects that a statement names. -/
def Spec.names : Op V → List Nat
  | .make .. | .makeDM .. => []
  | .get o _ | .convert o .. | .convertDM o .. | .copy o _ | .set o .. => [o]
  | .setFrom o _ p => [o, p]

/-- One statement of the machine: as before, with an exception, or about an object that does not exist. -/
inductive Spec.Machine.Steps (m : Spec.Machine V) : Op V → Option (Outcome V) → Spec.Machine V → Prop
  | fits (op : Op V) (h : m.Fits op) : Steps m op (some (m.step op).2) (m.step op).1
  | fails (op : Op V) (m' : Spec.Machine V) (h : Machine.Fails m op m') : Steps m op none m'
  | unknown (op : Op V) (o : Nat) (ho : o ∈ Spec.names op) (h : m.views[o]? = none) : Steps m op (some .noObject) m

/-- A program of the machine, with what it sees of each statement: `none` is an exception. -/
inductive Spec.Machine.Runs : Spec.Machine V → List (Op V) → List (Option (Outcome V)) → Spec.Machine V → Prop
  | nil (m : Spec.Machine V) : Runs m [] [] m
  | cons (m m' m'' : Spec.Machine V) (op : Op V) (ops : List (Op V)) (out : Option (Outcome V)) (outs : List (Option (Outcome V)))
    (h : Machine.Steps m op out m') (hs : Runs m' ops outs m'') : Runs m (op :: ops) (out :: outs) m''

/-- What the program sees of each statement. -/
def Spec.World.trace (w : World V) : List (Op V) → List (Outcome V)
  | [] => []
  | op :: ops => (w.step op).2 :: trace (w.step op).1 ops

/-- The outcome without the kind of the exception. -/
def Spec.seen : Outcome V → Option (Outcome V)
  | .raised _ => none
  | out => some out

open Spec

/-! ## Proofs -/

omit [HasNone V] in
theorem cooToCsr_two {c : COO V} {mem : List V} {r : CSR V × List V} (h : cooToCsr c mem = .ok r) : c.shape.length = 2 := by
  simp only [cooToCsr, CSR.new, bind_eq_ok, pyAssert_eq_ok, pure_eq_ok] at h
  obtain ⟨_, _, _, _, _, _, _, _, _, _, _, _, _, _, _, _, _, _, _, ⟨_, h, _⟩, _⟩ := h
  simpa using h

omit [HasNone V] in
theorem flatToCoo_shape {f : FlatCOO V} {mem : List V} {r : COO V × List V} (h : flatToCoo f mem = .ok r) :
    r.1.shape = f.shape := by
  simp only [flatToCoo, COO.new, bind_eq_ok, pyAssert_eq_ok, pure_eq_ok] at h
  obtain ⟨_, _, _, _, _, _, _, ⟨_, _, _, _, rfl⟩, rfl⟩ := h
  rfl

theorem fromObject_csr_two {seq : Src V} {u : Option V} {r : Made V} (h : fromObject .csr seq u = .ok r) :
    seq.shape.length = 2 := by
  have general : ∀ su u : V, ((do
      let (s, mem) ← buildFlat .csr seq.shape seq.getValue su u
      return .fresh s mem : PyM (Made V))) = .ok r → seq.shape.length = 2 := by
    intro su u hg
    simp only [bind_eq_ok, pure_eq_ok] at hg
    obtain ⟨⟨s, m⟩, h1, h2⟩ := hg
    have hc := buildFlat_cls h1
    obtain ⟨hw, hs⟩ := buildFlat_wf h1
    cases s with
    | csr c =>
      obtain ⟨⟨rows, hr⟩, _⟩ := hw
      have h2 := hr.two
      rcases hs with hs | hs
      · rw [← hs]; exact h2
      · simp only [Storage.shape] at hs; rw [hs] at h2; simp at h2
    | _ => simp [Storage.cls] at hc
  cases u with
  | some u => exact general _ _ h
  | none =>
    cases seq with
    | nested n => exact general _ _ h
    | store s mem =>
      cases s with
      | coo c =>
        simp only [fromObject, bind_eq_ok, pure_eq_ok] at h
        obtain ⟨_, h, _⟩ := h
        exact cooToCsr_two h
      | flatcoo f =>
        simp only [fromObject, bind_eq_ok, pure_eq_ok] at h
        obtain ⟨_, h1, _, h2, _⟩ := h
        have := cooToCsr_two h2
        rw [flatToCoo_shape h1] at this
        exact this
      | _ => exact general _ _ h

theorem fails_of_ok {α : Type} {x : PyM α} (h : ∀ r, x = .ok r → False) : ∃ e, x = .error e := by
  cases x with
  | error e => exact ⟨e, rfl⟩
  | ok r => exact (h r rfl).elim

omit [HasNone V] in
theorem dmBuild_split {cls : Cls} {shape : List Nat} {dimensions partitioning : Option (List Nat)} {value : List Int → PyM V}
    {su u : V} (h : SplitRefused shape.length dimensions partitioning) :
    ∃ e, dmBuild cls shape dimensions partitioning value su u = .error e := by
  apply fails_of_ok
  intro r hr
  have key : ∀ inner isBuffer, dmBuildWith inner isBuffer shape dimensions partitioning value = .ok r → False := by
    intro inner isBuffer hr
    obtain ⟨m, d, part, G, h1, _, _, h2, h3, h4, h5, h6, _⟩ := dmBuildWith_inv hr
    rcases h with ⟨d', rfl, hd⟩ | ⟨p, rfl, hp⟩
    · rw [h5] at h6
      exact hd h6
    · simp only [dmPartitioning] at h1
      subst h1
      rcases hp with hp | ⟨k, hk, hp⟩ | hp
      · exact hp h2
      · have := h3 k hk
        omega
      · omega
  cases cls <;> (simp only [dmBuild] at hr; exact key _ _ hr)

omit [HasNone V] in
theorem dmBuildWith_reads {inner : List Nat → (List Int → PyM V) → PyM (Storage V × List V)}
    {isBuffer : Bool} {shape : List Nat} {dimensions partitioning : Option (List Nat)} {value : List Int → PyM V}
    (hin : ∀ rshape value' r, inner rshape value' = .ok r → ∀ ix, InBox ix rshape → ∃ v, value' ix = .ok v)
    {r : Storage V × List V} (h : dmBuildWith inner isBuffer shape dimensions partitioning value = .ok r) (ix : List Int)
    (hi : InBox ix shape) : ∃ v, value ix = .ok v := by
  obtain ⟨m, d, part, G, _, _, _, _, _, _, _, h6, h7⟩ := dmBuildWith_inv h
  have hax : ∀ d, d ∈ G.flatten ↔ d < shape.length := fun d => by rw [h6.mem_iff, List.mem_range]
  obtain ⟨rshape, rshapes, rstrides, e1, e2, e3, e4⟩ := C20_reduce_promote shape G (List.replicate G.length 0) h6 (by simp)
  rw [makeReduction_ok shape G fun g' hg' d hd => (hax d).1 (List.mem_flatten.2 ⟨g', hg', hd⟩)] at e1
  simp only [Except.ok.injEq, Prod.mk.injEq] at e1
  obtain ⟨rfl, rfl, rfl⟩ := e1
  obtain ⟨r, r1, r2, r3, r4⟩ := e3 ix hi
  have hz : List.zipWith (· - ·) r (List.replicate G.length 0) = r := by
    have hr : r.length = G.length := by rw [r2]; simp
    apply List.ext_getElem (by simp [hr])
    intro i h1 h2
    simp
  rw [hz] at r3
  obtain ⟨v, hv⟩ := hin _ _ _ h7 r r3
  simp only [r4, bind, Except.bind] at hv
  exact ⟨v, hv⟩

omit [HasNone V] in
theorem buildFlat_reads {cls : Cls} {shape : List Nat} {value : List Int → PyM V} {su u : V} {r : Storage V × List V}
    (h : buildFlat cls shape value su u = .ok r) (ix : List Int) (hi : InBox ix shape) : ∃ v, value ix = .ok v := by
  cases hv : value ix with
  | ok v => exact ⟨v, rfl⟩
  | error e =>
    obtain ⟨e', he⟩ := buildFlat_fail cls shape value su u ix hi e hv
    rw [he] at h
    cases h

omit [HasNone V] in
theorem dmBuild_reads {cls : Cls} {shape : List Nat} {dimensions partitioning : Option (List Nat)} {value : List Int → PyM V}
    {su u : V} {r : Storage V × List V} (h : dmBuild cls shape dimensions partitioning value su u = .ok r) (ix : List Int)
    (hi : InBox ix shape) : ∃ v, value ix = .ok v := by
  cases cls with
  | dm =>
    exact dmBuildWith_reads (fun _ _ _ hr => dmBuildWith_reads (fun _ _ _ hr => buildFlat_reads hr) hr) h ix hi
  | _ => exact dmBuildWith_reads (fun _ _ _ hr => buildFlat_reads hr) h ix hi

omit [HasNone V] in
/-- A matrix without elements other than the unspecified value. -/
theorem csr_blank (shape : List Nat) (hl : shape.length = 2) (value : List Int → PyM V) (su u : V) (f : List Int → V)
    (hv : ∀ ix, InBox ix shape → value ix = .ok (f ix)) (hb : ∀ ix, InBox ix shape → subst su u (f ix) = u) :
    buildFlat .csr shape value su u = .error .index := by
  have hne : shape ≠ [] := by rintro rfl; simp at hl
  have hk : keptRows shape (fun ix => subst su u (f ix)) u = [] := by
    rw [List.eq_nil_iff_forall_not_mem]
    intro ix hx
    obtain ⟨hi, hx⟩ := (mem_keptRows _ _ _ _).1 hx
    exact hx (hb ix hi)
  simp only [buildFlat, csrBuild, cooBuild_ok _ hne _ su u _ hv, hk, bind, Except.bind]
  have : (indicesOf 2 []).getView (imemOf 2 []) (.one (.int 0)) = .error .index := by decide +kernel
  simp only [cooToCsr, cooOf, hl, this, bind, Except.bind]

omit [DecidableEq V] [HasNone V] in
theorem dims_first (n : Nested V) : FirstShape n (dims n) := by
  induction n using Nested.rec (motive_2 := fun xs => ∀ x ∈ xs.head?, FirstShape x (dims x)) with
  | leaf v => exact .leaf v
  | seq xs ih =>
    cases xs with
    | nil => exact .empty
    | cons x xs => exact .seq x xs _ (ih x rfl)
  | nil y hy => simp at hy
  | cons x xs ih _ y hy => simp at hy; subst hy; exact ih

theorem refused_get {s : Storage V} {mem : List V} {index : Index} (hs : s.cls ≠ .buffer) (h : Refused (items index) s.shape) :
    ∃ e, s.getItem mem index = .error e := by
  obtain ⟨e, he⟩ := (C06_normalize_index_raises index s.shape).2 h
  refine ⟨e, ?_⟩
  cases s with
  | buffer b => exact absurd rfl hs
  | strided s => simp only [Storage.shape] at he; simp only [Storage.getItem, Strided.getItem, he, bind, Except.bind]
  | coo s => simp only [Storage.shape] at he; simp only [Storage.getItem, he, bind, Except.bind]
  | flatcoo s => simp only [Storage.shape] at he; simp only [Storage.getItem, he, bind, Except.bind]
  | csr s => simp only [Storage.shape] at he; simp only [Storage.getItem, he, bind, Except.bind]
  | dm m s => simp only [Storage.shape] at he; simp only [Storage.getItem, he, bind, Except.bind]

theorem refused_set {s : Storage V} {mem : List V} {index : Index} (hs : s.cls ≠ .buffer) (h : Refused (items index) s.shape)
    (valueAt : List V → List Int → PyM V) : ∃ e, s.setItem mem index valueAt = ⟨mem, some e⟩ := by
  obtain ⟨e, he⟩ := (C06_normalize_index_raises index s.shape).2 h
  refine ⟨e, ?_⟩
  cases s with
  | buffer b => exact absurd rfl hs
  | strided s => simp only [Storage.shape] at he; simp only [Storage.setItem, Strided.setItem, he, bind, Except.bind]
  | coo s => simp only [Storage.shape] at he; simp only [Storage.setItem, Storage.setPlan, Storage.shape, he, bind, Except.bind]
  | flatcoo s => simp only [Storage.shape] at he; simp only [Storage.setItem, Storage.setPlan, Storage.shape, he, bind, Except.bind]
  | csr s => simp only [Storage.shape] at he; simp only [Storage.setItem, Storage.setPlan, Storage.shape, he, bind, Except.bind]
  | dm m s => simp only [Storage.shape] at he; simp only [Storage.setItem, Storage.dmSetPlan, he, bind, Except.bind]

omit [DecidableEq V] [HasNone V] in
theorem writeAll_upTo {P : Type} (write1 : List V → P → V → Wr V) (valueAt : List V → List Int → PyM V)
    (xs : List (List Int × P)) (e : List Int × P) (ys : List (List Int × P)) (mem mem' : List V) (err : PyErr)
    (h : writeAll write1 valueAt xs mem = ⟨mem', none⟩) (he : valueAt mem' e.1 = .error err) :
    writeAll write1 valueAt (xs ++ e :: ys) mem = ⟨mem', some err⟩ := by
  induction xs generalizing mem with
  | nil =>
    simp only [writeAll, Wr.mk.injEq, and_true] at h
    subst h
    simp only [List.nil_append, writeAll, he]
  | cons x xs ih =>
    simp only [List.cons_append, writeAll] at h ⊢
    cases hv : valueAt mem x.1 with
    | error e => simp [hv] at h
    | ok v =>
      simp only [hv] at h ⊢
      cases hw : (write1 mem x.2 v).err with
      | some e => simp [hw] at h
      | none => simp only [hw] at h ⊢; exact ih _ h

theorem Refines.assign_prefix {w : World V} {m : Machine V} {pos : Nat → List Int → Option Nat} (h : Refines w m pos)
    {o : Nat} {x : Obj V} {v : View V} (hx : w.objs[o]? = some x) (hv : m.views[o]? = some v) (hk : v.kind = .strided)
    (index : Index) (hi : ValidItems (items index) v.shape) (value : Nested V) (done : List (List Int × List Int))
    (t : List Int × List Int) (rest : List (List Int × List Int)) (ht : v.targets index = done ++ t :: rest)
    (hd : ∀ e ∈ done, ∃ x, item value e.2 = some x) (hm : place value t.2 = none) :
    ∃ mem' e, x.desc.setItem (w.list x.addr) index (fun _ vi => value.getValue vi) = ⟨mem', some e⟩ ∧
      Refines (w.put x.addr mem')
        (done.foldl (fun m e => m.write v.arr (v.src e.1) ((item value e.2).getD v.unspec)) m) pos := by
  obtain ⟨h1, h2, h3⟩ := h.obj o x v hx hv
  have had : x.addr < w.lists.length := h.addressed x (List.mem_of_getElem? hx)
  have hkk := h3.kind
  rw [hk] at hkk
  obtain ⟨s, hs⟩ : ∃ s, x.desc = .strided s := by
    cases hd : x.desc with
    | strided s => exact ⟨s, rfl⟩
    | _ => rw [hd] at hkk; simp [KindOk, Storage.cls] at hkk
  have hwf : s.WF (w.list x.addr) := by have := h3.wf; rw [hs] at this; exact this
  have hsh : s.shape = v.shape := by have := h3.shape; rw [hs] at this; exact this
  have hp : PosShape s.shape := by rw [hsh]; exact h3.poss
  have hi' : ValidItems (items index) s.shape := by rw [hsh]; exact hi
  obtain ⟨nix, st, off, g1, g2, g3, g4, g5⟩ := index_ok index s.shape s.strides hp hi' hwf.len
  have hset : x.desc.setItem (w.list x.addr) index (fun _ vi => value.getValue vi) =
      Gcs.writeAll s.data.write1 (fun _ vi => value.getValue vi)
        ((indexProduct (selShape (items index) s.shape)).map fun j => (j, off + address j st)) (w.list x.addr) := by
    rw [hs]
    simp only [Storage.setItem, Strided.setItem, g1, g3, bind, Except.bind, Strided.sliceEntries_ok _ st off g4]
  have hT : v.targets index = (indexProduct (selShape (items index) s.shape)).map fun j =>
      (selSource (items index) s.shape j, j) := by
    simp only [View.targets, hk, ne_eq, not_true, and_false, if_false, boxList_eq, hsh]
  rw [hT, List.map_eq_append_iff] at ht
  obtain ⟨l1, l2, hl, rfl, hl2⟩ := ht
  obtain ⟨j0, l3, rfl, rfl, rfl⟩ := List.map_eq_cons_iff.1 hl2
  have hbox : ∀ j ∈ l1, InBox j (selShape (items index) s.shape) := fun j hj =>
    (mem_indexProduct _ _).1 (by rw [hl]; exact List.mem_append_left _ hj)
  have hbox0 : InBox j0 (selShape (items index) s.shape) := (mem_indexProduct _ _).1 (by rw [hl]; simp)
  obtain ⟨mem', r1, r2⟩ := Refines.writes (w := w) (m := m) (pos := pos) hx s.data.write1 (fun _ vi => value.getValue vi)
    (fun _ j => (item value j).getD v.unspec)
    (fun e => selSource (items index) s.shape e.1) (w.list x.addr).length
    (l1.map fun j => (j, off + address j st)) (w.list x.addr) rfl had
    (by rw [World.put_list]; exact h) hv (by
      intro e he
      obtain ⟨j, hj, rfl⟩ := List.mem_map.1 he
      obtain ⟨a1, a2⟩ := g5 j (hbox j hj)
      have b1 := hwf.addr _ a1
      have b2 := hwf.buf
      unfold Buffer.WF at b2
      refine ⟨by rw [← hsh]; exact a1, s.cell (selSource (items index) s.shape j), by rw [hs]; rfl, ?_⟩
      intro mem' hl val
      rw [Buffer.write1_ok s.data mem' (off + address j st) val (by omega) (by omega)]
      simp only [Strided.cell]
      congr 3
      omega)
    (by
      intro mem' m' hl hr hvs e he
      obtain ⟨j, hj, rfl⟩ := List.mem_map.1 he
      obtain ⟨y, hy⟩ := hd _ (List.mem_map_of_mem hj)
      simp only at hy ⊢
      rw [getValue_of_item value j y hy, hy]
      rfl)
  obtain ⟨err, herr⟩ := getValue_of_no_place value j0 (inBox_nonneg hbox0) hm
  refine ⟨mem', err, ?_, ?_⟩
  · rw [hset, hl, List.map_append, List.map_cons]
    exact writeAll_upTo _ _ _ _ _ _ _ _ r1 herr
  · rw [List.foldl_map] at r2 ⊢
    exact r2

theorem Shows.not_buffer {s : Storage V} {mem : List V} {v : View V} {pos : List Int → Option Nat} (h : Shows s mem v pos) :
    s.cls ≠ .buffer := by
  intro e
  have hk := h.kind
  cases hv : v.kind <;> rw [hv] at hk
  case dm =>
    obtain ⟨_, _, rfl, _⟩ := hk
    simp [Storage.cls] at e
  all_goals simp [KindOk, e] at hk

theorem World.raised_create {w : World V} {r : PyM (Storage V × List V)} (h : ∃ e, r = .error e) :
    ∃ e, w.create r = (w, .raised e) := by
  obtain ⟨e, rfl⟩ := h
  exact ⟨e, rfl⟩

/-- A statement that raises. -/
theorem Refines.fails {w : World V} {m m' : Machine V} {pos : Nat → List Int → Option Nat} (h : Refines w m pos) (op : Op V)
    (hf : Machine.Fails m op m') : Refines (w.step op).1 m' pos ∧ ∃ e, (w.step op).2 = .raised e := by
  have same : (∃ e, w.step op = (w, .raised e)) → Refines (w.step op).1 m pos ∧ ∃ e, (w.step op).2 = .raised e := by
    rintro ⟨e, he⟩
    rw [he]
    exact ⟨h, e, rfl⟩
  have nested : ∀ cls seq u, (∃ e, fromObject cls (.nested seq) u = .error e) →
      ∃ e, w.step (.make cls seq u) = (w, .raised e) := by
    rintro cls seq u ⟨e, he⟩
    refine World.raised_create ⟨e, ?_⟩
    simp only [makeNested, he, bind, Except.bind]
  have converted : ∀ o x cls u, w.objs[o]? = some x → (∃ e, fromObject cls (.store x.desc (w.list x.addr)) u = .error e) →
      ∃ e, w.step (.convert o cls u) = (w, .raised e) := by
    rintro o x cls u hx ⟨e, he⟩
    refine ⟨e, ?_⟩
    rw [w.step_on _ o x rfl hx]
    simp only [World.stepOn, he, World.made]
  have nshape : ∀ seq : Nested V, (Src.nested seq).shape = dims seq := fun seq => firstShape_eq (dims_first seq)
  cases hf with
  | missing cls seq u ix hne hi hm => exact same (nested _ _ _ (C59_missing cls seq _ (dims_first seq) hne ix hi hm u))
  | missingDM seq d p cls u ix hi hm =>
    refine same (World.raised_create (fails_of_ok fun r hr => ?_))
    simp only [fromObjectDM, nshape] at hr
    obtain ⟨v, hv⟩ := dmBuild_reads hr ix hi
    obtain ⟨e, he⟩ := getValue_of_no_place seq ix (inBox_nonneg hi) hm
    simp only [Src.getValue, he] at hv
    cases hv
  | axes seq u hl =>
    exact same (nested _ _ _ (fails_of_ok fun r hr => hl (by have := fromObject_csr_two hr; rwa [nshape] at this)))
  | axesOf o v u hv hl =>
    obtain ⟨x, hx, ha, hal, hs⟩ := h.view hv
    refine same (converted o x _ _ hx (fails_of_ok fun r hr => hl ?_))
    have := fromObject_csr_two hr
    simp only [Src.shape] at this
    rwa [hs.shape] at this
  | blank seq r k u hs hb =>
    obtain ⟨h1, hv⟩ := SrcOk.nested hs
    have := csr_blank [r, k] rfl _ pyNone (u.getD pyNone) (itemD seq) hv hb
    refine same (nested _ _ _ ⟨.index, ?_⟩)
    cases u <;> (simp only [fromObject, h1, Src.unspec]; rw [this]; rfl)
  | blankOf o v u hv hk hb =>
    obtain ⟨x, hx, ha, hal, hs⟩ := h.view hv
    refine same (converted o x _ _ hx ?_)
    rw [general_store hs.kind .csr u (by simp) (by
        rintro ⟨_, e⟩; cases hv : v.kind <;> simp [hv, Kind.same, Kind.ofCls] at e) (by
        rintro ⟨e0, e⟩; have := hk e0; cases hv : v.kind <;> simp [hv, Kind.takes, Kind.ofCls] at e this)]
    have hne : x.desc.shape ≠ [] := by rw [hs.shape]; exact hs.ne
    by_cases hl : x.desc.shape.length = 2
    · have := csr_blank x.desc.shape hl _ x.desc.unspec (u.getD x.desc.unspec) _ (src_value hs.wf hne) (by
        intro ix hi
        have hi' : InBox ix v.shape := by rw [← hs.shape]; exact hi
        rw [h.at_eq hx hv ix hi', hs.unspec]
        exact hb ix hi')
      exact ⟨.index, by simp only [this, bind, Except.bind]⟩
    · refine fails_of_ok fun r hr => hl ?_
      have : fromObject .csr (.store x.desc (w.list x.addr)) (some (u.getD x.desc.unspec)) = .ok r := hr
      exact fromObject_csr_two this
  | split seq d p cls u hr =>
    refine same (World.raised_create ?_)
    simp only [fromObjectDM, nshape]
    exact dmBuild_split hr
  | splitOf o v d p cls u hv hr =>
    obtain ⟨x, hx, ha, hal, hs⟩ := h.view hv
    apply same
    rw [w.step_on _ o x rfl hx]
    refine World.raised_create ?_
    simp only [fromObjectDM, Src.shape]
    exact dmBuild_split (by rw [hs.shape]; exact hr)
  | get o v index hv hr =>
    obtain ⟨x, hx, ha, hal, hs⟩ := h.view hv
    apply same
    obtain ⟨e, he⟩ := refused_get (mem := w.list x.addr) hs.not_buffer (by rw [hs.shape]; exact hr)
    refine ⟨e, ?_⟩
    rw [w.step_on _ o x rfl hx]
    simp only [World.stepOn, he, World.got]
  | set o v index value hv hr =>
    obtain ⟨x, hx, ha, hal, hs⟩ := h.view hv
    apply same
    obtain ⟨e, he⟩ := refused_set (mem := w.list x.addr) hs.not_buffer (by rw [hs.shape]; exact hr) fun _ vi => value.getValue vi
    refine ⟨e, ?_⟩
    rw [w.step_on _ o x rfl hx]
    simp only [World.stepOn, Storage.assign, he, World.write, World.put_list]
  | setFrom o v index p q hv hq hr =>
    obtain ⟨x, hx, ha, hal, hs⟩ := h.view hv
    obtain ⟨y, hy, hya, hyl, hys⟩ := h.view hq
    apply same
    rw [w.step_on _ o x rfl hx]
    simp only [World.stepOn, hy]
    split
    · obtain ⟨e, he⟩ := refused_set (mem := w.list x.addr) hs.not_buffer (by rw [hs.shape]; exact hr)
        fun m vi => if vi = [] then .error .type else y.desc.getVal m vi
      exact ⟨e, by simp only [Storage.assignShared, he, World.write, World.put_list]⟩
    · obtain ⟨e, he⟩ := refused_set (mem := w.list x.addr) hs.not_buffer (by rw [hs.shape]; exact hr)
        fun _ vi => if vi = [] then .error .type else y.desc.getVal (w.list y.addr) vi
      exact ⟨e, by simp only [Storage.assignStore, he, World.write, World.put_list]⟩
  | setMissing o v index value done t rest hv hk hi ht hd hm =>
    obtain ⟨x, hx, ha, hal, hs⟩ := h.view hv
    obtain ⟨mem', e, g1, g2⟩ := h.assign_prefix hx hv hk index hi value done t rest ht hd hm
    rw [w.step_on _ o x rfl hx]
    simp only [World.stepOn, Storage.assign, g1, World.write]
    exact ⟨g2, e, rfl⟩

/-- A statement about an object that does not exist. -/
theorem Refines.unknown {w : World V} {m : Machine V} {pos : Nat → List Int → Option Nat} (h : Refines w m pos) (op : Op V)
    (o : Nat) (ho : o ∈ names op) (hn : m.views[o]? = none) : w.step op = (w, .noObject) := by
  have hw : w.objs[o]? = none := by
    rw [List.getElem?_eq_none_iff] at hn ⊢
    rw [h.objs]; exact hn
  cases op with
  | make => simp [names] at ho
  | makeDM => simp [names] at ho
  | setFrom a index p =>
    simp only [names, List.mem_cons, List.not_mem_nil, or_false] at ho
    rcases ho with rfl | rfl
    · simp only [World.step, Op.on, Option.bind_some, hw]
    · simp only [World.step, Op.on, Option.bind_some]
      cases w.objs[a]? with
      | none => rfl
      | some x => simp only [World.stepOn, hw]
  | _ =>
    simp only [names, List.mem_cons, List.not_mem_nil, or_false] at ho
    subst ho
    simp only [World.step, Op.on, Option.bind_some, hw]

theorem Refines.runs {w : World V} {m m' : Machine V} {pos : Nat → List Int → Option Nat} (h : Refines w m pos)
    {ops : List (Op V)} {outs : List (Option (Outcome V))} (hr : Machine.Runs m ops outs m') :
    (∃ pos', Refines (w.run ops) m' pos') ∧ (World.trace w ops).map seen = outs := by
  induction hr generalizing w pos with
  | nil m => exact ⟨⟨pos, h⟩, rfl⟩
  | cons m m' m'' op ops out outs hs _ ih =>
    have : (∃ pos', Refines (w.step op).1 m' pos') ∧ seen (w.step op).2 = out := by
      cases hs with
      | fits hf =>
        obtain ⟨h1, h2⟩ := h.step op hf
        refine ⟨h1, ?_⟩
        rw [h2]
        cases op <;> simp only [Machine.step] <;> (repeat' split) <;> rfl
      | fails _ hf =>
        obtain ⟨h1, e, h2⟩ := h.fails op hf
        exact ⟨⟨_, h1⟩, by rw [h2]; rfl⟩
      | unknown o ho hn =>
        rw [h.unknown op o ho hn]
        exact ⟨⟨_, h⟩, rfl⟩
    obtain ⟨⟨pos', h1⟩, h2⟩ := this
    obtain ⟨h3, h4⟩ := ih h1
    exact ⟨h3, by simp only [World.trace, List.map_cons, h2, h4]⟩

/-- C80.  A program in which each statement meets the conditions of C73, or is one of those that raise, or is about an object
that does not exist: each statement gives what the machine says, and after the program the objects are those of the machine. -/
theorem C80_programs (ops : List (Op V)) (outs : List (Option (Outcome V))) (m : Machine V)
    (h : Machine.Runs Machine.empty ops outs m) :
    (World.trace World.empty ops).map seen = outs ∧
    (World.empty.run ops).objs.length = m.views.length ∧
    ∀ (o : Nat) (v : View V), m.views[o]? = some v → ∃ x : Obj V, (World.empty.run ops).objs[o]? = some x ∧
      x.desc.cls = v.kind.cls ∧ x.desc.shape = v.shape ∧ x.desc.unspec = v.unspec ∧
      ∀ ix, InBox ix v.shape → Reads x.desc ((World.empty.run ops).list x.addr) ix (m.read v ix) := by
  obtain ⟨⟨pos, h1⟩, h2⟩ := Refines.empty.runs h
  exact ⟨h2, h1.objects⟩

/-- C80, for every state whatsoever: a statement that raises and is not an assignment changes nothing; an assignment changes
the list of its object only, and adds no object. -/
theorem C80_unchanged (w : World V) (op : Op V) (e : PyErr) (h : (w.step op).2 = .raised e) :
    (ReadOnly op → (w.step op).1 = w) ∧
    (w.step op).1.objs = w.objs ∧
    ∀ a, (∀ (o : Nat) x, op.on = some o → w.objs[o]? = some x → x.addr ≠ a) → (w.step op).1.list a = w.list a := by
  have same : (w.step op).1 = w → (ReadOnly op → (w.step op).1 = w) ∧ (w.step op).1.objs = w.objs ∧
      ∀ a, (∀ (o : Nat) x, op.on = some o → w.objs[o]? = some x → x.addr ≠ a) → (w.step op).1.list a = w.list a := by
    intro he
    rw [he]
    exact ⟨fun _ => rfl, rfl, fun _ _ => rfl⟩
  have created : ∀ r : PyM (Storage V × List V), (w.create r).2 = .raised e → (w.create r).1 = w := by
    intro r hr
    cases r with
    | error e => rfl
    | ok r => simp [World.create] at hr
  have made : ∀ x (r : PyM (Made V)), (w.made x r).2 = .raised e → (w.made x r).1 = w := by
    intro x r hr
    match r, hr with
    | .error e, _ => rfl
    | .ok .same, hr => simp [World.made] at hr
    | .ok (.fresh _ _), hr => simp [World.made] at hr
  have got : ∀ x (r : PyM (Res V)), (w.got x r).2 = .raised e → (w.got x r).1 = w := by
    intro x r hr
    match r, hr with
    | .error e, _ => rfl
    | .ok (.val _), hr => simp [World.got] at hr
    | .ok (.view _), hr => simp [World.got] at hr
    | .ok (.fresh _ _), hr => simp [World.got] at hr
  cases hon : op.on with
  | none =>
    cases op <;> simp only [Op.on, reduceCtorEq] at hon
    · exact same (created _ h)
    · exact same (created _ h)
  | some o =>
    rw [hon] at same
    cases hx : w.objs[o]? with
    | none =>
      apply same
      cases op <;> simp only [Op.on, reduceCtorEq, Option.some.injEq] at hon <;> subst hon <;>
        simp only [World.step, Op.on, Option.bind_some, hx]
    | some x =>
      have put : ∀ r : Wr V, (w.write x.addr r).1.objs = w.objs ∧
          ∀ a, (∀ (o' : Nat) x, some o = some o' → w.objs[o']? = some x → x.addr ≠ a) →
            (w.write x.addr r).1.list a = w.list a := by
        intro r
        refine ⟨rfl, fun a ha => ?_⟩
        have := ha o x rfl hx
        simp [World.write, World.put, World.list, List.getD_eq_getElem?_getD, List.getElem?_set_ne this]
      rw [w.step_on op o x hon hx] at h same ⊢
      cases op <;> simp only [Op.on, reduceCtorEq, Option.some.injEq] at hon
      case get => exact same (got _ _ h)
      case convert => exact same (made _ _ h)
      case convertDM => exact same (created _ h)
      case copy => exact same (created _ h)
      case set => exact ⟨False.elim, put _⟩
      case setFrom index p =>
        refine ⟨False.elim, ?_⟩
        simp only [World.stepOn]
        cases w.objs[p]? with
        | none => exact ⟨rfl, fun _ _ => rfl⟩
        | some y =>
          simp only
          split
          · exact put _
          · exact put _

/-- A program with exceptions.
```
o0 = Strided.fromobject([[1, 2], [3, 4]])
o0[0, 0, 0];  CSR.fromobject([[1, 2], [3]]);  o9[0];  o0[:] = [[9, 8], [7]];  o0.as_DM(dimensions=(0, 0))
o1 = o0[1]
``` -/
def raisingProgram : List (Op (Option Int)) :=
  [.make .strided (.seq [.seq [.leaf (some 1), .leaf (some 2)], .seq [.leaf (some 3), .leaf (some 4)]]) none,
   .get 0 (.tuple [.int 0, .int 0, .int 0]),
   .make .csr (.seq [.seq [.leaf (some 1), .leaf (some 2)], .seq [.leaf (some 3)]]) none,
   .get 9 (.one (.int 0)),
   .set 0 (.one (.slice ⟨none, none, none⟩)) (.seq [.seq [.leaf (some 9), .leaf (some 8)], .seq [.leaf (some 7)]]),
   .convertDM 0 (some [0, 0]) none .strided none,
   .get 0 (.one (.int 1))]

theorem raisingProgram_runs : ∃ m, Machine.Runs Machine.empty raisingProgram
    [some .done, none, none, some .noObject, none, none, some .done] m ∧
    ∃ v, m.views[1]? = some v ∧ v.shape = [2] ∧ m.read v [0] = some 7 ∧ m.read v [1] = some 4 := by
  refine ⟨_, .cons _ _ _ _ _ _ _ (.fits _ (fits_sound (by decide +kernel))) (.cons _ _ _ _ _ _ _ (.fails _ _
    (.get 0 _ _ rfl (.inr (.inr trivial)))) (.cons _ _ _ _ _ _ _ (.fails _ _ (.missing _ _ _ [1, 1] (by decide) (by decide) rfl))
    (.cons _ _ _ _ _ _ _ (.unknown _ 9 (by decide) rfl) (.cons _ _ _ _ _ _ _ (.fails _ _ (.setMissing 0 _ _ _
      [([0, 0], [0, 0]), ([0, 1], [0, 1]), ([1, 0], [1, 0])] ([1, 1], [1, 1]) [] rfl rfl (itemsOk_sound _ _ (by decide +kernel)) (by decide +kernel) ?_ rfl))
    (.cons _ _ _ _ _ _ _ (.fails _ _ (.splitOf 0 _ _ _ _ _ rfl (.inl ⟨_, rfl, by decide +kernel⟩)))
    (.cons _ _ _ _ _ _ _ (.fits _ (fits_sound (by decide +kernel))) (.nil _))))))), _, rfl, ?_, ?_, ?_⟩
  · intro e he
    simp only [List.mem_cons, List.not_mem_nil, or_false] at he
    rcases he with rfl | rfl | rfl <;> exact ⟨_, rfl⟩
  · decide +kernel
  · decide +kernel
  · decide +kernel

/-- A case of C80: the writes before the exception of `o0[:] = ...` are seen in `o1`. -/
example : (World.trace World.empty raisingProgram).map seen = [some .done, none, none, some .noObject, none, none, some .done] ∧
    ReadsAt (World.empty.run raisingProgram) 1 [0] (some 7) ∧ ReadsAt (World.empty.run raisingProgram) 1 [1] (some 4) := by
  obtain ⟨m, h, v, hv, hs, h0, h1⟩ := raisingProgram_runs
  obtain ⟨g1, g2, g3⟩ := C80_programs _ _ _ h
  obtain ⟨x, hx, _, _, _, hr⟩ := g3 1 v hv
  refine ⟨g1, ⟨x, hx, ?_⟩, x, hx, ?_⟩
  · rw [← h0]; exact hr _ (by rw [hs]; decide)
  · rw [← h1]; exact hr _ (by rw [hs]; decide)

end Gcs
