import Verif.Lemmas.JsonVisit
import Verif.Props.C59
import Verif.Props.C46

/-!
# C61 Which tables can be written as JSON

`GetTableAsJSON` has no bound on the depth of nested tables.  In the model `d` is one; where it is reached, the outcome is `panic`.
`C61_depth` says that any bound that is not reached gives the same outcome.
-/

namespace Verif
open Table

/-- **C61**: a table is written exactly if it is not nested in itself and each table nested in it is stored in one cell only; any other
table is refused with an error.  In particular writing ends, also where tables are nested in themselves. -/
theorem C61_iff (P : PrintEnv) (H : Heap) (hw : HeapWF H) (hc : Closed H) (d : Nat) (a : Addr) (ha : a < H.length) (hd : H.length ≤ d) :
    ((∃ s, getTableAsJSON P H d a = .ok s) ↔ OnceEach H a) ∧ (¬ OnceEach H a → getTableAsJSON P H d a = .err .circular) := by
  obtain ⟨h1, h2⟩ := getTableAsJSON_top (P := P) hw hc ha hd
  refine ⟨⟨?_, h1⟩, h2⟩
  rintro ⟨s, hs⟩
  by_cases h : OnceEach H a
  · exact h
  · rw [h2 h] at hs; cases hs

/-- The bound on the depth does not matter. -/
theorem C61_depth (P : PrintEnv) (H : Heap) (d d' : Nat) (a : Addr) (hd : d ≤ d') (h : getTableAsJSON P H d a ≠ .panic) : getTableAsJSON P H d' a = getTableAsJSON P H d a := by
  obtain ⟨k, rfl⟩ := Nat.exists_eq_add_of_le hd
  exact getTableAsJSON_depth h k

/-- Where a table is written, neither it nor any table nested in it contains itself. -/
theorem C61_noCycle (P : PrintEnv) (H : Heap) (hw : HeapWF H) (hc : Closed H) (d : Nat) (a : Addr) (ha : a < H.length) (hd : H.length ≤ d) (s : GoStr)
    (h : getTableAsJSON P H d a = .ok s) (x : Addr) (hx : x = a ∨ Below H a x) : ¬ Below H x x := by
  have ho := ((C61_iff P H hw hc d a ha hd).1).1 ⟨s, h⟩
  rcases hx with rfl | hx
  · exact ho.notBelow
  · have all : ∀ x, Below H a x → ¬ IsNil H x → OnceEach H x := by
      intro x hx
      induction hx with
      | direct h1 => exact fun hn => ho.kid h1 hn
      | deeper _ h1 ih => exact fun hn => (ih (holds_notNil hw h1)).kid h1 hn
    intro hb
    obtain ⟨c, r, y, hh, _⟩ := hb.first
    exact (all x hx (holds_notNil hw hh)).notBelow hb

/-! ## Examples -/

/-- A table with two rows, both holding the same table. -/
def Ex.twice (b : Addr) : Table Addr := Op.run newNilTable
  [.setName (gs! "T"), .appendCol (fun _ _ => 0) (gs! "p") (gs! "*Table"), .appendRow (fun _ _ => 0), .appendRow (fun _ _ => 0), .setVal (gs! "p") 0 (.tbl (some b)), .setVal (gs! "p") 1 (.tbl (some b))]

def Ex.shared : Heap := [Ex.leaf (gs! "A"), Ex.twice 0]

theorem Ex.twice_wf (b : Addr) : WF (Ex.twice b) := C01_history _ WF.newNilTable _ (by simp [Op.ArgsOK, Cell.Real])

theorem Ex.shared_wf : HeapWF Ex.shared := by
  intro t ht
  simp only [Ex.shared, List.mem_cons, List.not_mem_nil, or_false] at ht
  rcases ht with rfl | rfl
  · exact Ex.leaf_wf _
  · exact Ex.twice_wf _

theorem Ex.shared_holds {a b : Addr} {c r : Nat} (h : HoldsAt Ex.shared a c r b) : a = 1 ∧ b = 0 := by
  obtain ⟨t, h1, h2⟩ := h
  have e1 : (Ex.twice 0).rows = [[.tbl (some 0)], [.tbl (some 0)]] := by decide +kernel
  obtain ⟨row, h3, h4⟩ := nestedAt_some.1 h2
  match a with
  | 0 => cases h1; rw [Ex.leaf_rows] at h3; simp at h3
  | 1 =>
    cases h1
    rw [e1] at h3
    match r with
    | 0 | 1 =>
      cases h3
      match c with
      | 0 => cases h4; exact ⟨rfl, rfl⟩
      | c + 1 => simp at h4
    | r + 2 => simp at h3
  | a + 2 => simp [Ex.shared] at h1

theorem Ex.shared_acyclic : Acyclic Ex.shared (fun a => a) := by
  intro a b h
  obtain ⟨c, r, h⟩ := (nestedIn_iff Ex.shared_wf).1 h
  obtain ⟨rfl, rfl⟩ := Ex.shared_holds h
  decide

/-- "circular reference" is also the answer for tables without any: a table whose two cells hold one and the same table is refused. -/
theorem C61_shared : ¬ (∀ (P : PrintEnv) (H : Heap), HeapWF H → ∀ rank, Acyclic H rank → ∀ d a, H.length ≤ d → a < H.length → ∃ s, getTableAsJSON P H d a = .ok s) := by
  intro hall
  obtain ⟨s, hs⟩ := hall Ex.env Ex.shared Ex.shared_wf _ Ex.shared_acyclic 2 1 (by decide) (by decide)
  have h : getTableAsJSON Ex.env Ex.shared 2 1 = .err .circular := by decide +kernel
  rw [h] at hs
  cases hs

-- a table with two nested tables is written
example : (∃ s, getTableAsJSON Ex.env Ex.tree 3 2 = .ok s) ∧ OnceEach Ex.tree 2 := by
  have h := (C61_iff Ex.env Ex.tree Ex.tree_wf (fun a b h => (Ex.tree_acyclic a b h).2) 3 2 (by decide) (by decide)).1
  have ho : OnceEach Ex.tree 2 := by
    refine ⟨?_, fun x c r x' c' r' b _ _ h1 h2 _ => Ex.tree_noSharing _ _ _ _ _ _ _ h1 h2⟩
    intro hb
    obtain ⟨c, r, y, hh, hr⟩ := hb.first
    obtain ⟨_, _, h1⟩ := Ex.tree_holds hh
    rcases hr with rfl | hr
    · simp at h1
    · obtain ⟨_, _, _, h2, _⟩ := hr.first
      obtain ⟨rfl, _⟩ := Ex.tree_holds h2
      simp at h1
  exact ⟨h.2 ho, ho⟩

-- a table in itself is not, and writing ends
example : getTableAsJSON Ex.env [Ex.holder 0] 7 0 = .err .circular := by decide +kernel
-- a table that stands for "no table" may be stored in many cells
example : getTableAsJSON Ex.env [newNilTable, Ex.twice 0] 2 1 = .ok (gs! "{\"tableSetName\":\"\",\"tables\":[{\"tableName\":\"T\",\"metadata\":[{\"p\":\"*Table\"}],\"data\":[[{\"p\":null}],[{\"p\":null}]]}]}") := by decide +kernel

end Verif
