import Verif.Lemmas.Convert
import Verif.Lemmas.Elements

/-!
# C25 to C30, C43, C50: building storages and converting them

`Spec.HasShape n shape` says that the nested list `n` is rectangular with that shape, `Spec.item n ix`
is its item at `ix`, and `Spec.Reads s mem ix v` says that `s[ix]` is `v`.
-/

namespace Gcs

open Spec

variable {V : Type} [DecidableEq V] [HasNone V]

/-- The item that `fromobject` stores for an item `v` of a list: a requested `unspecified` replaces `None`. -/
def stored (u : Option V) (v : V) : V := if v = pyNone then u.getD pyNone else v

theorem stored_eq (u : Option V) (v : V) : stored u v = subst pyNone (u.getD pyNone) v := rfl

theorem item_box {n : Nested V} {shape : List Nat} (h : HasShape n shape) {ix : List Int} {v : V}
    (hv : item n ix = some v) : InBox ix shape ∧ itemD n ix = v :=
  ⟨(h.item_iff ix).1 ⟨v, hv⟩, by rw [itemD, hv]; rfl⟩

/-- C25.  `Strided.fromobject(n, unspecified=u)` of a rectangular nested list. -/
theorem C25_strided_reads (n : Nested V) (shape : List Nat) (h : HasShape n shape) (hne : shape ≠ []) (u : Option V) :
    ∃ s mem, fromObject .strided (.nested n) u = .ok (.fresh (.strided s) mem) ∧ s.shape = shape ∧
      s.data.unspec = u.getD pyNone ∧
      ∀ ix v, item n ix = some v → Reads (.strided s) mem ix (stored u v) := by
  obtain ⟨s, mem, h1, h2, h3, _, h4, _⟩ := fromObject_nested .strided n shape hne h u ⟨by simp, by simp⟩
  cases s with
  | strided s =>
    refine ⟨s, mem, h1, h4.shape_eq, h3, fun ix v hv => ?_⟩
    obtain ⟨e1, e2⟩ := item_box h hv
    have := h4.wf.reads ix (by rw [h4.shape_eq]; exact e1)
    rwa [h4.reads ix e1, e2] at this
  | _ => simp [Storage.cls] at h2

/-- The list used in the cases below, with two rows of three items. -/
def sample : Nested (Option Int) :=
  .seq [.seq [.leaf (some 1), .leaf none, .leaf (some 3)], .seq [.leaf none, .leaf (some 5), .leaf none]]

theorem sample_shape : HasShape sample [2, 3] :=
  .seq _ [3] (by simp) (by
    intro x hx
    simp only [List.mem_cons, List.not_mem_nil, or_false] at hx
    rcases hx with rfl | rfl <;> exact .seq _ [] (by simp) (by
      intro y hy
      simp only [List.mem_cons, List.not_mem_nil, or_false] at hy
      rcases hy with rfl | rfl | rfl <;> exact .leaf _))

/-- A case of C25. -/
example : fromObject .strided (.nested sample) (some (some 0))
      = .ok (.fresh (.strided ⟨[2, 3], [3, 1], ⟨6, 0, some 0⟩⟩) [some 1, some 0, some 3, some 0, some 5, some 0]) ∧
    item sample [1, 1] = some (some 5) ∧ item sample [0, 1] = some none := by
  decide +kernel

/-- The conclusion of C26 to C28: the new object has the shape of the list, reads its items, and
`elements()` yields exactly the items different from the unspecified value. -/
def BuiltSparse (n : Nested V) (shape : List Nat) (u : Option V) (s : Storage V) (mem : List V) : Prop :=
  s.shape = shape ∧ s.unspec = u.getD pyNone ∧
  (∀ ix v, item n ix = some v → Reads s mem ix (stored u v)) ∧
  ((∀ k ∈ shape, 0 < k) → Enumerates s mem fun _ v => v ≠ u.getD pyNone)

theorem builtSparse_of {n : Nested V} {shape : List Nat} (h : HasShape n shape) {u : Option V} {s : Storage V}
    {mem : List V} (hu : s.unspec = u.getD pyNone)
    (hs : Stands s mem shape fun ix => subst pyNone (u.getD pyNone) (itemD n ix))
    (hk : ∃ b, Sparse s (keptRows s.shape (fun ix => subst pyNone (u.getD pyNone) (itemD n ix)) (u.getD pyNone)) b ∧
      b.WF mem) : BuiltSparse n shape u s mem := by
  refine ⟨hs.shape_eq, hu, fun ix v hv => ?_, fun hp => ?_⟩
  · obtain ⟨e1, e2⟩ := item_box h hv
    have := hs.wf.reads ix (by rw [hs.shape_eq]; exact e1)
    rwa [hs.reads ix e1, e2] at this
  · obtain ⟨b, hb, hm⟩ := hk
    refine enumerates_of hs.wf _ _ (hb.elements_ok mem hm fun _ => by rw [hs.shape_eq]; exact hp) hb.rows_ok.sorted ?_
    intro ix
    rw [mem_keptRows]
    refine and_congr_right fun hi => ?_
    rw [hs.reads ix (by rw [← hs.shape_eq]; exact hi)]

/-- C26.  `COO.fromobject(n, unspecified=u)` of a rectangular nested list. -/
theorem C26_coo_reads (n : Nested V) (shape : List Nat) (h : HasShape n shape) (hne : shape ≠ []) (u : Option V) :
    ∃ c mem, fromObject .coo (.nested n) u = .ok (.fresh (.coo c) mem) ∧ BuiltSparse n shape u (.coo c) mem := by
  obtain ⟨s, mem, h1, h2, h3, _, h4, h5⟩ := fromObject_nested .coo n shape hne h u ⟨by simp, by simp⟩
  cases s with
  | coo c => exact ⟨c, mem, h1, builtSparse_of h h3 h4 h5⟩
  | _ => simp [Storage.cls] at h2

/-- A case of C26. -/
example : fromObject .coo (.nested sample) none
    = .ok (.fresh (.coo ⟨[2, 3], ⟨[2, 3], [3, 1], ⟨6, 0, none⟩⟩, [some 0, some 0, some 1, some 0, some 2, some 1],
        ⟨3, 0, none⟩⟩) [some 1, some 3, some 5]) := by
  decide +kernel

/-- C27.  `FlatCOO.fromobject(n, unspecified=u)` of a rectangular nested list. -/
theorem C27_flatcoo_reads (n : Nested V) (shape : List Nat) (h : HasShape n shape) (hne : shape ≠ []) (u : Option V) :
    ∃ f mem, fromObject .flatcoo (.nested n) u = .ok (.fresh (.flatcoo f) mem) ∧
      BuiltSparse n shape u (.flatcoo f) mem := by
  obtain ⟨s, mem, h1, h2, h3, _, h4, h5⟩ := fromObject_nested .flatcoo n shape hne h u ⟨by simp, by simp⟩
  cases s with
  | flatcoo c => exact ⟨c, mem, h1, builtSparse_of h h3 h4 h5⟩
  | _ => simp [Storage.cls] at h2

/-- A case of C27. -/
example : fromObject .flatcoo (.nested sample) none
    = .ok (.fresh (.flatcoo ⟨[2, 3], ⟨3, 0, none⟩, [some 0, some 2, some 4], ⟨3, 0, none⟩⟩)
        [some 1, some 3, some 5]) := by
  decide +kernel

/-- C28.  `CSR.fromobject(n, unspecified=u)` of a matrix with an item that is stored. -/
theorem C28_csr_reads (n : Nested V) (r k : Nat) (h : HasShape n [r, k]) (u : Option V)
    (hs : ∃ ix v, item n ix = some v ∧ stored u v ≠ u.getD pyNone) :
    ∃ c mem, fromObject .csr (.nested n) u = .ok (.fresh (.csr c) mem) ∧ BuiltSparse n [r, k] u (.csr c) mem := by
  obtain ⟨ix, v, hv, hx⟩ := hs
  obtain ⟨e1, e2⟩ := item_box h hv
  obtain ⟨s, mem, h1, h2, h3, _, h4, h5⟩ := fromObject_nested .csr n [r, k] (by simp) h u
    ⟨by simp, fun _ => ⟨rfl, ix, e1, by simp only [e2]; exact hx⟩⟩
  cases s with
  | csr c => exact ⟨c, mem, h1, builtSparse_of h h3 h4 h5⟩
  | _ => simp [Storage.cls] at h2

/-- A case of C28, with an unspecified value that occurs in the list. -/
example : fromObject .csr (.nested sample) (some (some 3))
      = .ok (.fresh (.csr ⟨[2, 3], ⟨3, 0, none⟩, [some 0, some 1, some 2], ⟨2, 0, none⟩, [some 0, some 1],
          ⟨2, 0, some 3⟩⟩) [some 1, some 5]) ∧
    item sample [1, 1] = some (some 5) ∧ stored (some (some 3)) (some 5 : Option Int) ≠ some 3 := by
  decide +kernel

/-- C28, the defect: a matrix without such an item raises `IndexError`. -/
theorem C28_csr_empty (n : Nested V) (r k : Nat) (h : HasShape n [r, k]) (u : Option V)
    (hs : ∀ ix v, item n ix = some v → stored u v = u.getD pyNone) :
    fromObject .csr (.nested n) u = .error .index := by
  obtain ⟨h1, hv⟩ := SrcOk.nested h
  have hk : keptRows [r, k] (fun ix => subst pyNone (u.getD pyNone) (itemD n ix)) (u.getD pyNone) = [] := by
    rw [List.eq_nil_iff_forall_not_mem]
    intro ix hx
    obtain ⟨hi, hx⟩ := (mem_keptRows _ _ _ _).1 hx
    obtain ⟨v, hv⟩ := (h.item_iff ix).2 hi
    apply hx
    have := hs ix v hv
    rw [itemD, hv]
    exact this
  have hb : buildFlat .csr [r, k] (Src.nested n).getValue pyNone (u.getD pyNone) = .error .index := by
    simp only [buildFlat, csrBuild, cooBuild_ok _ (by simp) _ pyNone (u.getD pyNone) _ hv, hk, bind, Except.bind]
    have : (indicesOf 2 []).getView (imemOf 2 []) (.one (.int 0)) = .error .index := by decide +kernel
    simp only [cooToCsr, cooOf, List.length_cons, List.length_nil, Nat.zero_add, Nat.reduceAdd, this, bind, Except.bind]
  cases u <;> (simp only [fromObject, h1, Src.unspec]; rw [hb]; rfl)

/-- A case of the defect: `CSR.fromobject([[None, None]])`. -/
example : fromObject .csr (.nested (.seq [.seq [.leaf (none : Option Int), .leaf none]])) none = .error .index := by
  decide +kernel

/-- C29.  `DM.fromobject(n, dimensions=dims, partitioning=part, storage_class=cls, unspecified=u)` with
`dims` a permutation of the axes (default: their order) and `part` strictly increasing cuts between the
first and the last axis (default: before the last axis; none for `Buffer` and for one axis).  `groups`
are the pieces of `dims` between the cuts; the wrapped storage has one axis for each. -/
theorem C29_dm_reads (n : Nested V) (shape : List Nat) (h : HasShape n shape) (hne : shape ≠ []) (u : Option V)
    (dims part : Option (List Nat)) (cls : Cls) (axes cuts : List Nat)
    (hdims : axes = dims.getD (List.range shape.length)) (hperm : axes.Perm (List.range shape.length))
    (hcuts : match part with
      | some p => cuts = p
      | none => cuts = if cls = .buffer ∨ shape.length = 1 then [] else [shape.length - 1])
    (hpart : cuts.Pairwise (· < ·) ∧ ∀ p ∈ cuts, 0 < p ∧ p < shape.length)
    (hbuffer : cls = .buffer → cuts = [])
    (hcsr : cls = .csr → (∃ p, cuts = [p]) ∧ ∃ ix v, item n ix = some v ∧ stored u v ≠ u.getD pyNone) :
    ∃ m st mem, fromObjectDM (.nested n) dims part cls u = .ok (.dm m st, mem) ∧ m.shape = shape ∧ st.cls = cls ∧
      m.rdims = cutAt axes 0 cuts ∧ st.shape = groupSizes shape (cutAt axes 0 cuts) ∧ st.unspec = u.getD pyNone ∧
      ∀ ix v, item n ix = some v → Reads (.dm m st) mem ix (stored u v) := by
  obtain ⟨hs, hv⟩ := SrcOk.nested h
  have hp : dmPartitioning shape.length (cls = .buffer) part = cuts := by
    cases part with
    | some p => exact hcuts.symm
    | none => simp only at hcuts; rw [hcuts]; simp [dmPartitioning]
  have hlen : axes.length = shape.length := by rw [hperm.length_eq]; simp
  subst hdims
  obtain ⟨m, st, mem, h1, ⟨⟨h2, h3⟩, h4, h5⟩, _, h6⟩ := dmBuild_ok cls shape dims part _ pyNone (u.getD pyNone) _
    (by rw [hp]; exact ⟨hperm, hpart.1, fun p hp => (hpart.2 p hp).1, fun p hp => (hpart.2 p hp).2,
          List.length_pos_of_ne_nil hne⟩) hv
    (by
      intro hb
      have := hbuffer hb
      rw [← hp, hb] at this
      simpa using this)
    (by
      intro hc
      obtain ⟨⟨p, e1⟩, ix, v, e2, e3⟩ := hcsr hc
      obtain ⟨i1, i2⟩ := item_box h e2
      refine ⟨?_, ix, i1, by rw [i2]; exact e3⟩
      rw [← hp, hc] at e1
      have : dmPartitioning shape.length false part = [p] := by simpa using e1
      rw [this]; rfl)
  rw [hp] at h4
  have hcut := dmGroups_cut (dims.getD (List.range shape.length)) cuts 0
  rw [hlen] at hcut
  rw [h4, hcut] at h5
  refine ⟨m, st, mem, ?_, h6.shape_eq, h2, by rw [h4, hcut], h5, h3, fun ix v hx => ?_⟩
  · simp only [fromObjectDM, hs, Src.unspec]
    exact h1
  · obtain ⟨e1, e2⟩ := item_box h hx
    have := h6.wf.reads ix (by rw [h6.shape_eq]; exact e1)
    rwa [h6.reads ix e1, e2] at this

/-- A case of C29: the axes swapped, over a `COO`. -/
example : fromObjectDM (.nested sample) (some [1, 0]) (some [1]) .coo none
      = .ok (.dm ⟨[2, 3], [[1], [0]], [[3], [2]], [[1], [1]], [0, 0]⟩
          (.coo ⟨[3, 2], ⟨[2, 3], [3, 1], ⟨6, 0, none⟩⟩, [some 0, some 1, some 2, some 0, some 1, some 0],
            ⟨3, 0, none⟩⟩), [some 1, some 5, some 3]) ∧
    cutAt [1, 0] 0 [1] = [[1], [0]] ∧ groupSizes [2, 3] [[1], [0]] = [3, 2] ∧ [1, 0].Perm (List.range 2) := by
  decide +kernel

/-! ## Conversions -/

/-- What a conversion needs: one axis for `Buffer`; two axes and an element different from the
unspecified value for `CSR`; and no empty axis from `FlatCOO` to `COO`. -/
def Convertible (s : Storage V) (mem : List V) (cls : Cls) (u : Option V) : Prop :=
  (cls = .buffer → s.shape.length = 1) ∧
  (cls = .csr → s.shape.length = 2 ∧
    ∃ ix v, InBox ix s.shape ∧ Reads s mem ix v ∧ v ≠ s.unspec ∧ v ≠ u.getD s.unspec) ∧
  (u = none → s.cls = .flatcoo → cls = .coo → ∀ k ∈ s.shape, 0 < k)

omit [HasNone V] in
theorem Convertible.classOk {s : Storage V} {mem : List V} {cls : Cls} {u : Option V} (h : Convertible s mem cls u) :
    ClassOk cls s.shape (fun ix => subst s.unspec (u.getD s.unspec) (s.at mem ix)) (u.getD s.unspec) := by
  refine ⟨h.1, fun hc => ⟨(h.2.1 hc).1, ?_⟩⟩
  obtain ⟨_, ix, v, h1, h2, h3, h4⟩ := h.2.1 hc
  refine ⟨ix, h1, ?_⟩
  simp only [h2.at_eq, subst, if_neg h3]
  exact h4

/-- C43.  `s.as_X(unspecified=u)` (`u = none` is the default) has the shape of `s` and reads at every
index what `s` reads there, `u` taking the place of the unspecified value of `s`. -/
theorem C43_convert_unspecified (s : Storage V) (mem : List V) (h : s.WF mem) (hne : s.shape ≠ []) (cls : Cls)
    (u : Option V) (hc : Convertible s mem cls u) :
    ∃ r mem', s.convert mem cls u = .ok (r, mem') ∧ r.WF mem' ∧ r.cls = cls ∧ r.shape = s.shape ∧
      r.unspec = u.getD s.unspec ∧
      ∀ ix, InBox ix s.shape → ∃ v, Reads s mem ix v ∧
        Reads r mem' ix (if v = s.unspec then u.getD s.unspec else v) := by
  obtain ⟨r, mem', h1, h2, h3, _, h4⟩ := convert_ok h hne cls u hc.classOk hc.2.2
  refine ⟨r, mem', h1, h4.wf, h2, h4.shape_eq, h3, fun ix hi => ⟨s.at mem ix, h.reads ix hi, ?_⟩⟩
  have := h4.wf.reads ix (by rw [h4.shape_eq]; exact hi)
  rwa [h4.reads ix hi] at this

/-- Conversion to each class of the list in turn, with the default `unspecified`. -/
def convertChain : List Cls → Storage V → List V → PyM (Storage V × List V)
  | [], s, mem => .ok (s, mem)
  | cls :: rest, s, mem => do
    let r ← s.convert mem cls none
    convertChain rest r.1 r.2

/-- C30.  A chain of conversions gives an array of the same shape with the same element at every index.
`CSR` may occur in the chain when there are two axes and an element different from the unspecified
value, `Buffer` when there is one axis. -/
theorem C30_conversions (s : Storage V) (mem : List V) (h : s.WF mem) (hne : s.shape ≠ [])
    (hp : ∀ k ∈ s.shape, 0 < k) (chain : List Cls)
    (hb : .buffer ∈ chain → s.shape.length = 1)
    (hcsr : .csr ∈ chain → s.shape.length = 2 ∧ ∃ ix v, InBox ix s.shape ∧ Reads s mem ix v ∧ v ≠ s.unspec) :
    ∃ r mem', convertChain chain s mem = .ok (r, mem') ∧ r.WF mem' ∧ r.cls = chain.getLastD s.cls ∧
      r.shape = s.shape ∧ r.unspec = s.unspec ∧
      ∀ ix, InBox ix s.shape → ∃ v, Reads s mem ix v ∧ Reads r mem' ix v := by
  induction chain generalizing s mem with
  | nil => exact ⟨s, mem, rfl, h, rfl, rfl, rfl, fun ix hi => ⟨_, h.reads ix hi, h.reads ix hi⟩⟩
  | cons cls rest ih =>
    obtain ⟨r, m, h1, h2, h3, h4, h5, h6⟩ := C43_convert_unspecified s mem h hne cls none
      ⟨fun he => hb (by simp [he]), fun he => by
        obtain ⟨a, ix, v, b, c, d⟩ := hcsr (by simp [he])
        exact ⟨a, ix, v, b, c, d, d⟩, fun _ _ _ => hp⟩
    have h7 : ∀ ix, InBox ix s.shape → ∃ v, Reads s mem ix v ∧ Reads r m ix v := by
      intro ix hi
      obtain ⟨v, v1, v2⟩ := h6 ix hi
      refine ⟨v, v1, ?_⟩
      simp only [Option.getD_none] at v2
      split at v2
      · next e => rw [← e] at v2; exact v2
      · exact v2
    obtain ⟨r', m', g1, g2, g3, g4, g5, g6⟩ := ih r m h2 (by rw [h4]; exact hne) (by rw [h4]; exact hp)
      (fun he => by rw [h4]; exact hb (by simp [he]))
      (fun he => by
        obtain ⟨a, ix, v, b, c, d⟩ := hcsr (by simp [he])
        obtain ⟨w, w1, w2⟩ := h7 ix b
        have : v = w := by
          have := w1.at_eq
          rw [c.at_eq] at this
          exact this
        subst this
        exact ⟨by rw [h4]; exact a, ix, v, by rw [h4]; exact b, w2, by rw [h5]; exact d⟩)
    refine ⟨r', m', ?_, g2, ?_, g4.trans h4, g5.trans h5, fun ix hi => ?_⟩
    · simp only [convertChain, h1, bind, Except.bind, g1]
    · rw [g3, h3]
      cases rest <;> rfl
    · obtain ⟨v, v1, v2⟩ := h7 ix hi
      obtain ⟨w, w1, w2⟩ := g6 ix (by rw [h4]; exact hi)
      have : v = w := by rw [← v2.at_eq, w1.at_eq]
      subst this
      exact ⟨v, v1, w2⟩

/-- A case of C30 and C43: `Strided` to `DM`, `FlatCOO`, `CSR` and `COO`. -/
example :
    let s : Storage (Option Int) := .strided ⟨[2, 2], [2, 1], ⟨4, 0, none⟩⟩
    let mem : List (Option Int) := [some 7, none, none, some 9]
    convertChain [.dm, .flatcoo, .csr, .coo] s mem
      = .ok (.coo ⟨[2, 2], ⟨[2, 2], [2, 1], ⟨4, 0, none⟩⟩, [some 0, some 1, some 0, some 1], ⟨2, 0, none⟩⟩,
          [some 7, some 9]) ∧
    s.convert mem .flatcoo (some (some 7))
      = .ok (.flatcoo ⟨[2, 2], ⟨1, 0, none⟩, [some 3], ⟨1, 0, some 7⟩⟩, [some 9]) := by
  decide +kernel

/-- The index array of a `COO` with `n` stored elements is stored row by row without gaps, as `fromobject`,
slicing and the conversions make it. -/
def PlainIndices (c : COO V) : Prop :=
  ∃ d n, c.indices.shape = [d, n] ∧ c.indices.strides = [(n : Int), 1] ∧ c.indices.data.size = d * n

omit [DecidableEq V] [HasNone V] in
theorem PlainIndices.contiguous {c : COO V} (h : PlainIndices c) : c.Contiguous := by
  obtain ⟨d, n, h1, h2, h3⟩ := h
  refine ⟨by rw [h1, h2]; simp [makeStrides, product, List.range_succ], by rw [h1, h3]; simp [product]⟩

/-- C50.  `c.as_FlatCOO().as_COO() == c`. -/
theorem C50_coo_flatcoo_coo (c : COO V) (mem : List V) (h : (Storage.coo c).WF mem) (hp : ∀ k ∈ c.shape, 0 < k)
    (hi : PlainIndices c) :
    ∃ r m, convertChain [.flatcoo, .coo] (.coo c) mem = .ok (r, m) ∧ (Storage.coo c).eq mem r m = true := by
  obtain ⟨⟨rows, hr⟩, hm⟩ := h
  refine ⟨_, _, ?_, coo_eq_of hr hi.contiguous mem hm⟩
  have hwl : (c.data.window mem).length = rows.length := by rw [c.data.window_length mem hm, hr.size]
  have hb : Buffer.WF (⟨rows.length, 0, c.data.unspec⟩ : Buffer V) (c.data.window mem) := by simp [Buffer.WF, hwl]
  have h2 := flatToCoo_ok (flatOf_rep c.shape rows hr.rows_ok (⟨rows.length, 0, c.data.unspec⟩ : Buffer V) rfl) hp hr.ne
    (c.data.window mem) hb
  simp only [convertChain, Storage.convert, fromObject, cooToFlat_ok hr mem hm, h2, bind, Except.bind, pure, Except.pure]
  simp only [flatOf]
  rw [buffer_window_map _ _ _ hwl]

/-- C50.  `f.as_COO().as_FlatCOO() == f`. -/
theorem C50_flatcoo_coo_flatcoo (f : FlatCOO V) (mem : List V) (h : (Storage.flatcoo f).WF mem) (hne : f.shape ≠ [])
    (hp : ∀ k ∈ f.shape, 0 < k) (hu : f.findices.unspec = none) :
    ∃ r m, convertChain [.coo, .flatcoo] (.flatcoo f) mem = .ok (r, m) ∧ (Storage.flatcoo f).eq mem r m = true := by
  obtain ⟨⟨rows, hr⟩, hm⟩ := h
  refine ⟨_, _, ?_, flat_eq_of hr hu mem hm⟩
  have hwl : (f.data.window mem).length = rows.length := by rw [f.data.window_length mem hm, hr.size]
  have hb : Buffer.WF (⟨rows.length, 0, f.data.unspec⟩ : Buffer V) (f.data.window mem) := by simp [Buffer.WF, hwl]
  have h2 := cooToFlat_ok (cooOf_rep f.shape hne rows hr.rows_ok (⟨rows.length, 0, f.data.unspec⟩ : Buffer V) rfl)
    (f.data.window mem) hb
  simp only [convertChain, Storage.convert, fromObject, flatToCoo_ok hr hp hne mem hm, h2, bind, Except.bind, pure,
    Except.pure]
  simp only [cooOf]
  rw [buffer_window_map _ _ _ hwl]

omit [HasNone V] in
/-- The stored values are those that `elements()` yields. -/
theorem coo_values_ne {c : COO V} {mem : List V} {rows : List (List Int)} (hr : c.Rep rows) (hm : c.data.WF mem)
    {es : List (Storage.Key × V)} (he : (Storage.coo c).elements mem = .ok es) (hs : ∀ e ∈ es, e.2 ≠ c.data.unspec) :
    ∀ v ∈ c.data.window mem, v ≠ c.data.unspec := by
  rw [(Sparse.coo hr).elements_ok mem hm (by simp [Storage.cls])] at he
  simp only [Except.ok.injEq] at he
  subst he
  intro v hv
  obtain ⟨p, hp, rfl⟩ := List.getElem_of_mem hv
  have hp' : p < rows.length := by rw [c.data.window_length mem hm, hr.size] at hp; exact hp
  have := hs (.tuple rows[p], (Storage.coo c).at mem rows[p]) (List.mem_map.2 ⟨_, List.getElem_mem hp', rfl⟩)
  rw [(Sparse.coo hr).at mem hm _ (hr.rows_ok.inbox _ (List.getElem_mem hp')), lookup_at hr.rows_ok.nodup _ _ p hp',
    List.getD_eq_getElem?_getD, List.getElem?_eq_getElem hp] at this
  exact this

/-- C50.  `c.as_CSR().as_COO() == c` for a matrix with a stored element, none of whose stored values is
the unspecified value. -/
theorem C50_coo_csr_coo (c : COO V) (mem : List V) (h : (Storage.coo c).WF mem) (h2 : c.shape.length = 2)
    (hi : PlainIndices c) (es : List (Storage.Key × V)) (he : (Storage.coo c).elements mem = .ok es) (hne : es ≠ [])
    (hs : ∀ e ∈ es, e.2 ≠ c.data.unspec) :
    ∃ r m, convertChain [.csr, .coo] (.coo c) mem = .ok (r, m) ∧ (Storage.coo c).eq mem r m = true := by
  obtain ⟨⟨rows, hr⟩, hm⟩ := h
  refine ⟨_, _, ?_, coo_eq_of hr hi.contiguous mem hm⟩
  have hrn : rows ≠ [] := by
    rintro rfl
    rw [(Sparse.coo hr).elements_ok mem hm (by simp [Storage.cls])] at he
    simp only [Except.ok.injEq] at he
    exact hne he.symm
  have hwl : (c.data.window mem).length = rows.length := by rw [c.data.window_length mem hm, hr.size]
  have hb : Buffer.WF (⟨rows.length, 0, c.data.unspec⟩ : Buffer V) (c.data.window mem) := by simp [Buffer.WF, hwl]
  have hc := Sparse.csr (csrOf_rep c.shape h2 rows hr.rows_ok (⟨rows.length, 0, c.data.unspec⟩ : Buffer V) rfl)
  have := to_coo_ok (hc.wf _ hb) hr.ne (by simp [Storage.cls]) rows (c.data.window mem) hr.rows_ok hwl
    (fun ix hix => by
      rw [hc.at _ hb ix hix]
      congr 1
      exact buffer_window_map _ _ _ hwl)
    (coo_values_ne hr hm he hs)
  have e1 : (Storage.coo c).convert mem .csr none
      = .ok (.csr (csrOf c.shape rows ⟨rows.length, 0, c.data.unspec⟩), c.data.window mem) := by
    simp only [Storage.convert, fromObject, cooToCsr_ok hr hrn h2 mem hm, bind, Except.bind, pure, Except.pure]
  simp only [convertChain, e1, this, bind, Except.bind]
  rfl

/-- C50.  `c.as_Strided().as_COO() == c` when none of the stored values is the unspecified value. -/
theorem C50_coo_strided_coo (c : COO V) (mem : List V) (h : (Storage.coo c).WF mem)
    (hi : PlainIndices c) (es : List (Storage.Key × V)) (he : (Storage.coo c).elements mem = .ok es)
    (hs : ∀ e ∈ es, e.2 ≠ c.data.unspec) :
    ∃ r m, convertChain [.strided, .coo] (.coo c) mem = .ok (r, m) ∧ (Storage.coo c).eq mem r m = true := by
  obtain ⟨r, m, h1, h2, h3, _, h4⟩ := convert_ok h (by obtain ⟨⟨rows, hr⟩, _⟩ := h; exact hr.ne) .strided none
    ⟨by simp, by simp⟩ (by simp)
  obtain ⟨⟨rows, hr⟩, hm⟩ := h
  refine ⟨_, _, ?_, coo_eq_of hr hi.contiguous mem hm⟩
  have hwl : (c.data.window mem).length = rows.length := by rw [c.data.window_length mem hm, hr.size]
  have hsh : r.shape = c.shape := h4.shape_eq
  have hun : r.unspec = c.data.unspec := h3
  have := to_coo_ok h4.wf (by rw [hsh]; exact hr.ne) (by simp [h2]) rows (c.data.window mem)
    (by rw [hsh]; exact hr.rows_ok) hwl
    (fun ix hix => by
      rw [hsh] at hix
      rw [h4.reads ix hix, Option.getD_none, subst_self, (Sparse.coo hr).at mem hm ix hix, hun])
    (by rw [hun]; exact coo_values_ne hr hm he hs)
  simp only [convertChain, h1, this, bind, Except.bind, hsh, hun]

/-- A case of C50, and why the index array has to be plain: the same `COO` with the index array stored
column by column is not equal to its round trip, since `==` compares strides. -/
example :
    let c : COO (Option Int) := ⟨[2, 3], ⟨[2, 2], [2, 1], ⟨4, 0, none⟩⟩, [some 0, some 1, some 2, some 1], ⟨2, 0, none⟩⟩
    let c' : COO (Option Int) := ⟨[2, 3], ⟨[2, 2], [1, 2], ⟨4, 0, none⟩⟩, [some 0, some 2, some 1, some 1], ⟨2, 0, none⟩⟩
    let mem : List (Option Int) := [some 7, some 9]
    (convertChain [.flatcoo, .coo] (.coo c) mem).map (fun r => (Storage.coo c).eq mem r.1 r.2) = .ok true ∧
    (convertChain [.csr, .coo] (.coo c) mem).map (fun r => (Storage.coo c).eq mem r.1 r.2) = .ok true ∧
    (convertChain [.strided, .coo] (.coo c) mem).map (fun r => (Storage.coo c).eq mem r.1 r.2) = .ok true ∧
    (convertChain [.flatcoo, .coo] (.coo c') mem).map (fun r => (Storage.coo c').eq mem r.1 r.2) = .ok false := by
  decide +kernel

end Gcs
