import Verif.Lemmas.YamlOut
import Verif.Props.C61

/-!
# C66 Table sets as maps

`GetTableSetAsMap` has no bound on the depth of nested tables.  In the model `d` is one; where it is reached, the outcome is `panic`.
`C66_depth` says that any bound that is not reached gives the same map.
-/

namespace Verif
open Table

/-- **C66**: if no table of the set, nor any nested in it, is nested in itself, `GetTableSetAsMap` succeeds and its map describes the set: names, shapes, columns with their
types, all values in their places, and nested tables as maps in turn.  A table may be stored in several cells. -/
theorem C66_map (H : Heap) (hw : HeapWF H) (hc : Closed H) (S : TableSet) (hS : ∀ a ∈ S.tables, a < H.length) (hno : ∀ a ∈ S.tables, NoCycle H a) (d : Nat) (hd : H.length ≤ d) :
    ∃ m, getTableSetAsMap H d S = .ok m ∧ SetMap H d S m :=
  (getTableSetAsMap_spec hw hc hS).1 fun a ha => within_of_noCycle hw hc (hS a ha) (hno a ha) hd

/-- Whenever it succeeds, the map describes the set. -/
theorem C66_sound (H : Heap) (hw : HeapWF H) (hc : Closed H) (S : TableSet) (hS : ∀ a ∈ S.tables, a < H.length) (d : Nat) (m : List (GoStr × GoVal))
    (h : getTableSetAsMap H d S = .ok m) : SetMap H d S m := by
  obtain ⟨h1, h2⟩ := getTableSetAsMap_spec hw hc (d := d) hS
  by_cases hwi : ∀ a ∈ S.tables, Within true H d a
  · obtain ⟨m', e1, e2⟩ := h1 hwi
    rw [h] at e1; cases e1
    exact e2
  · rw [h2 (Classical.byContradiction fun hn => hwi fun a ha => Classical.byContradiction fun h => hn ⟨a, ha, h⟩)] at h
    cases h

/-- If a table of the set, or one nested in it, is nested in itself, there is no end to it: whatever the bound, it is reached.  (Unlike `GetTableSetAsJSON`, which reports an error.) -/
theorem C66_cycle (H : Heap) (hw : HeapWF H) (hc : Closed H) (S : TableSet) (hS : ∀ a ∈ S.tables, a < H.length) (hcy : ∃ a ∈ S.tables, ¬ NoCycle H a) (d : Nat) :
    getTableSetAsMap H d S = .panic := by
  obtain ⟨a, ha, hn⟩ := hcy
  exact (getTableSetAsMap_spec hw hc hS).2 ⟨a, ha, fun h => hn h.noCycleAll⟩

/-- The bound on the depth does not matter. -/
theorem C66_depth (H : Heap) (hw : HeapWF H) (S : TableSet) (d d' : Nat) (hd : d ≤ d') (m : List (GoStr × GoVal)) (h : getTableSetAsMap H d S = .ok m) :
    getTableSetAsMap H d' S = .ok m := getTableSetAsMap_depth hw hd h

/-! ## Examples -/

theorem Ex.shared_noCycle (a : Addr) : NoCycle Ex.shared a := by
  intro x _ hb
  exact Nat.lt_irrefl _ (Below.rank Ex.shared_wf Ex.shared_acyclic hb)

-- a table whose two cells hold the same table: refused as JSON, a map nevertheless
example : ∃ m, getTableSetAsMap Ex.shared 2 ⟨gs! "S", [], [1]⟩ = .ok m ∧ SetMap Ex.shared 2 ⟨gs! "S", [], [1]⟩ m :=
  C66_map Ex.shared Ex.shared_wf Ex.shared_acyclic.closed _ (by simp [Ex.shared]) (fun a _ => Ex.shared_noCycle a) 2 (by decide)

example : getTableSetAsMap Ex.shared 2 ⟨gs! "S", [], [1]⟩ = .ok
    [(gs! "tableSetName", .val (.str (gs! "S"))),
     (gs! "tables", .list [.map [(gs! "tableName", .val (.str (gs! "T"))), (gs! "metadata", .list [.map [(gs! "p", .val (.str (gs! "\"*Table\"")))]]),
       (gs! "data", .list
        [.list [.map [(gs! "tableName", .val (.str (gs! "A"))), (gs! "metadata", .list []), (gs! "data", .list [])]],
         .list [.map [(gs! "tableName", .val (.str (gs! "A"))), (gs! "metadata", .list []), (gs! "data", .list [])]]])]])] := by rfl

-- a table in itself: no end
example (d : Nat) : getTableSetAsMap Ex.selfHeap d ⟨gs! "S", [], [0]⟩ = .panic := by
  refine C66_cycle Ex.selfHeap Ex.self_wf Ex.self_closed _ (by simp [Ex.selfHeap]) ⟨0, by simp, fun h => h 0 (.inl rfl) ?_⟩ d
  exact .direct (c := 0) (r := 0) ⟨_, rfl, by decide +kernel⟩

end Verif
