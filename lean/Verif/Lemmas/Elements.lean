import Verif.SpecArray
import Verif.Lemmas.GetItem

/-!
# Lemmas: `elements()`
-/

namespace Gcs

open Spec

variable {V : Type}

theorem Storage.WF.reads [DecidableEq V] {s : Storage V} {mem : List V} (h : s.WF mem) (ix : List Int)
    (hi : InBox ix s.shape) : Reads s mem ix (s.at mem ix) :=
  getItem_of_getVal (h.getVal_ok ix hi)

theorem Spec.Reads.at_eq [DecidableEq V] {s : Storage V} {mem : List V} {ix : List Int} {v : V}
    (h : Reads s mem ix v) : s.at mem ix = v :=
  at_of_getVal (getVal_of_getItem h)

theorem enumerates_of [DecidableEq V] {s : Storage V} {mem : List V} (h : s.WF mem) (rows : List (List Int))
    (keep : List Int → V → Prop) (he : s.elements mem = .ok (rows.map fun r => (.tuple r, s.at mem r)))
    (hs : rows.Pairwise lexLt) (hk : ∀ ix, ix ∈ rows ↔ InBox ix s.shape ∧ keep ix (s.at mem ix)) :
    Enumerates s mem keep := by
  refine ⟨rows.map fun r => (r, s.at mem r), ?_, ?_, ?_⟩
  · rw [he, List.map_map]; rfl
  · rw [List.map_map]; simpa [Function.comp_def] using hs
  · intro ix v
    simp only [List.mem_map, Prod.mk.injEq]
    constructor
    · rintro ⟨r, hr, rfl, rfl⟩
      obtain ⟨h1, h2⟩ := (hk r).1 hr
      exact ⟨h1, h.reads r h1, h2⟩
    · rintro ⟨h1, h2, h3⟩
      have := h2.at_eq
      subst this
      exact ⟨ix, (hk ix).2 ⟨h1, h3⟩, rfl, rfl⟩

theorem withPos_mapM (rows : List (List Int)) (b : Buffer V) (mem : List V) (hb : b.WF mem)
    (hs : b.size = rows.length) (hn : rows.Nodup) :
    ((withPos rows).mapM fun e => do return (Storage.Key.tuple e.1, ← b.getInt mem e.2) : PyM (List (Storage.Key × V)))
      = .ok (rows.map fun r => (.tuple r, lookup rows (b.window mem) b.unspec r)) := by
  have e : (rows.map fun r => (Storage.Key.tuple r, lookup rows (b.window mem) b.unspec r))
      = (withPos rows).map fun e => (.tuple e.1, lookup rows (b.window mem) b.unspec e.1) := by
    conv => lhs; rw [← withPos_fst rows]
    rw [List.map_map]
    congr 1
    rw [withPos_fst]
    rfl
  rw [e]
  apply mapM_ok
  intro x hx
  obtain ⟨q, hq, h1, h2⟩ := (mem_withPos x.1 x.2).1 hx
  rw [h2, ← h1, lookup_at hn _ _ q hq]
  simp only [b.getInt_window mem hb q (by omega) b.unspec, bind, Except.bind, pure, Except.pure]

theorem Sparse.elements_ok [DecidableEq V] {s : Storage V} {rows : List (List Int)} {b : Buffer V} (h : Sparse s rows b)
    (mem : List V) (hm : b.WF mem) (hp : s.cls = .flatcoo → PosShape s.shape) :
    s.elements mem = .ok (rows.map fun r => (.tuple r, s.at mem r)) := by
  have e : (rows.map fun r => (Storage.Key.tuple r, s.at mem r))
      = rows.map fun r => (Storage.Key.tuple r, lookup rows (b.window mem) b.unspec r) := by
    apply List.map_congr_left
    intro r hr
    rw [h.at mem hm r (h.rows_ok.inbox r hr)]
  rw [e]
  have hw := withPos_mapM rows b mem hm h.size h.rows_ok.nodup
  cases h with
  | coo h => simp only [Storage.elements, h.entries_ok, bind, Except.bind]; exact hw
  | flatcoo h => simp only [Storage.elements, h.entries_ok (hp rfl), bind, Except.bind]; exact hw
  | csr h => simp only [Storage.elements, h.entries_ok, bind, Except.bind]; exact hw

theorem strided_elements [DecidableEq V] {s : Strided V} {mem : List V} (h : s.WF mem) :
    (Storage.strided s).elements mem = .ok ((indexProduct s.shape).map fun ix => (.tuple ix, (Storage.strided s).at mem ix)) := by
  simp only [Storage.elements, Strided.elements_ok h, bind, Except.bind, pure, Except.pure, List.map_map]
  congr 1
  apply List.map_congr_left
  intro ix hix
  rw [at_strided h ix ((mem_indexProduct _ _).1 hix)]
  rfl

theorem dm_elements [DecidableEq V] {m : DMMeta} {d : Storage V} {mem : List V} (h : m.WF d.shape) (hd : d.WF mem) :
    (Storage.dm m d).elements mem = .ok ((indexProduct m.shape).map fun ix => (.tuple ix, (Storage.dm m d).at mem ix)) := by
  have e : m.entries = .ok ((indexProduct m.shape).map fun ix => (ix, target m.rdims m.rstrides m.roffset ix)) := by
    apply mapM_ok
    intro ix hix
    simp only [h.getDataPosition_ok ix ((mem_indexProduct _ _).1 hix), bind, Except.bind, pure, Except.pure]
  simp only [Storage.elements, e, bind, Except.bind]
  have e2 : ((indexProduct m.shape).map fun ix => (Storage.Key.tuple ix, (Storage.dm m d).at mem ix))
    = ((indexProduct m.shape).map fun ix => (ix, target m.rdims m.rstrides m.roffset ix)).map
      fun e => (Storage.Key.tuple e.1, d.at mem e.2) := by
    rw [List.map_map]
    apply List.map_congr_left
    intro ix hix
    rw [at_dm h hd ix ((mem_indexProduct _ _).1 hix)]
    rfl
  rw [e2]
  apply mapM_ok
  intro x hx
  obtain ⟨ix, hix, rfl⟩ := List.mem_map.1 hx
  simp only [hd.getVal_ok _ (h.into ix ((mem_indexProduct _ _).1 hix)), pure, Except.pure]

end Gcs
