import Verif.Props.C18

/-!
# C19 SearchLast finds the last matching row or reports absence

False as stated: if the values sort before every row (in particular if the table has no rows) the call panics.
`C19_partial` proves the claim for all other searches and shows that these are exactly the panicking ones.
-/

namespace Verif
open Table

variable {τ : Type}

/-- **C19**, restricted: on a sorted table `SearchLast` answers the greatest matching row if one matches; otherwise it answers an error if some row
does not come after the values, and panics if every row comes after the values.  Missing for the full claim: the error in that
last case, where the code panics instead. -/
theorem C19_partial (lower : GoStr → GoStr) (t : Table τ) (h : SortedTable lower t) (vs : List (Cell τ)) (hv : GoodSearch t vs) :
    (∀ z, t.searchLast lower vs = .ok z ↔
      ∃ r : Nat, z = r ∧ MatchingRow t vs r ∧ ∀ r', MatchingRow t vs r' → r' ≤ r) ∧
    ((∃ e, t.searchLast lower vs = .err e) ↔ (∀ r, ¬ MatchingRow t vs r) ∧
      ∃ r, r < t.rows.length ∧ ¬ ValuesBefore lower t t.sortKeys vs r) ∧
    (t.searchLast lower vs = .panic ↔ ∀ r, r < t.rows.length → ValuesBefore lower t t.sortKeys vs r) := by
  have hs : ∀ k ∈ t.sortKeys, k.colType.Sortable = true := fun k hk => (h.wf.keysOK k hk).1
  have gv := goodVals_of_fit hv.1 hs hv.2
  have excl : ∀ r, MatchingRow t vs r → ¬ ValuesBefore lower t t.sortKeys vs r := by
    intro r hr hb
    obtain ⟨as, h1, h2⟩ := keyCells_exists h.wf hr.1 t.sortKeys h.live hs
    have g := h1.good h2 h.notNaN
    have a := (rowMatches_iff lower h.wf h1 g gv).1 hr.2
    have b := (valuesBefore_iff lower h.wf h1 g gv).1 hb
    omega
  rcases searchLast_spec lower h.wf h.someKey h.live h.notNaN h.sorted hv.1 hv.2 with
    ⟨r, e, h1, h2, h3⟩ | ⟨⟨e, he⟩, ⟨q, hq, hqb⟩, h1⟩ | ⟨e, h1⟩
  · have hmax : ∀ r', MatchingRow t vs r' → r' ≤ r := fun r' hr' => by
      by_cases hlt : r < r'
      · exact absurd hr'.2 (h3 r' hlt hr'.1)
      · omega
    rw [e]
    refine ⟨fun z => ⟨?_, ?_⟩, ⟨?_, ?_⟩, ⟨?_, ?_⟩⟩
    · intro ez; cases ez; exact ⟨r, rfl, ⟨h1, h2⟩, hmax⟩
    · rintro ⟨q, rfl, hq, hq'⟩
      rw [Nat.le_antisymm (hmax q hq) (hq' r ⟨h1, h2⟩)]
    · rintro ⟨_, e'⟩; cases e'
    · rintro ⟨hno, _⟩; exact absurd ⟨h1, h2⟩ (hno r)
    · intro e'; cases e'
    · intro hall; exact absurd (hall r h1) (excl r ⟨h1, h2⟩)
  · rw [he]
    refine ⟨fun z => ⟨?_, ?_⟩, ⟨?_, ?_⟩, ⟨?_, ?_⟩⟩
    · intro e'; cases e'
    · rintro ⟨r, _, hr, _⟩; exact absurd hr.2 (h1 r hr.1)
    · intro _; exact ⟨fun r hr => h1 r hr.1 hr.2, q, hq, hqb⟩
    · intro _; exact ⟨e, rfl⟩
    · intro e'; cases e'
    · intro hall; exact absurd (hall q hq) hqb
  · rw [e]
    refine ⟨fun z => ⟨?_, ?_⟩, ⟨?_, ?_⟩, ⟨?_, ?_⟩⟩
    · intro e'; cases e'
    · rintro ⟨r, _, hr, _⟩; exact absurd (h1 r hr.1) (excl r hr)
    · rintro ⟨_, e'⟩; cases e'
    · rintro ⟨_, r, hr, hb⟩; exact absurd (h1 r hr) hb
    · intro _; exact h1
    · intro _; rfl

/-- **C19.** Values that do not fit the keys are an error. -/
theorem C19_bad_values (lower : GoStr → GoStr) (t : Table τ) (h : WF t) (hl : KeysLive t) (vs : List (Cell τ))
    (hr : ∀ v ∈ vs, v.Real) (hbad : t.sortKeys = [] ∨ ¬ ValuesFit t.sortKeys vs) :
    ∃ e, t.searchLast lower vs = .err e := by
  obtain ⟨e, he⟩ := checkSearchArguments_bad h hl hr (by rintro ⟨h1, h2⟩; rcases hbad with h3 | h3 <;> contradiction)
  exact ⟨e, by simp only [searchLast, he, Out.bind]⟩

/-- **C19** is false: a sorted table of three rows and a well-typed value for which no row matches, and `SearchLast` panics. -/
theorem C19_false : ∃ (t : Table Unit) (vs : List (Cell Unit)), SortedTable Ex.asciiLower t ∧ GoodSearch t vs ∧
    t.rows.length = 3 ∧ t.searchLast Ex.asciiLower vs = .panic :=
  ⟨Ex.sorted, [.int .int (-8)], Ex.sorted_ok, Ex.goodSearch (-8) (by decide), by decide +kernel, by decide +kernel⟩

/-- … and on a table without rows every well-typed search panics. -/
theorem C19_false_empty (lower : GoStr → GoStr) (t : Table τ) (h : SortedTable lower t) (he : t.rows = []) (vs : List (Cell τ))
    (hv : GoodSearch t vs) : t.searchLast lower vs = .panic :=
  (C19_partial lower t h vs hv).2.2.2 (by simp [he])

example : Ex.sorted.searchLast Ex.asciiLower [.int .int 30] = .ok 2 := by decide +kernel
example : Ex.sorted.searchLast Ex.asciiLower [.int .int 29] = .err .notFound := by decide +kernel
example : Ex.sorted.searchLast Ex.asciiLower [.int .int 31] = .err .notFound := by decide +kernel

end Verif
