import Verif.Lemmas.Search
import Verif.Props.C17

/-!
# C18 Search finds the first matching row or reports absence
-/

namespace Verif
open Table

variable {τ : Type}

/-- The table is sorted by its sort keys, which are existing columns without NaN. -/
structure SortedTable (lower : GoStr → GoStr) (t : Table τ) : Prop where
  wf : WF t
  someKey : t.sortKeys ≠ []
  live : KeysLive t
  notNaN : KeysNotNaN t
  sorted : SortedByKeys lower t

/-- One value of the right type per key, none of them NaN. -/
def GoodSearch (t : Table τ) (vs : List (Cell τ)) : Prop := ValuesFit t.sortKeys vs ∧ ∀ v ∈ vs, ¬ v.IsNaN

/-- Row `r` exists and its key cells equal the values. -/
def MatchingRow (t : Table τ) (vs : List (Cell τ)) (r : Nat) : Prop := r < t.rows.length ∧ RowMatches t t.sortKeys vs r

/-- **C18.** On a table sorted by its keys, `SearchFirst` (and `Search`) answers the least matching row; it answers an error exactly
if no row matches; it never panics. -/
theorem C18_searchFirst (lower : GoStr → GoStr) (t : Table τ) (h : SortedTable lower t) (vs : List (Cell τ)) (hv : GoodSearch t vs) :
    (∀ z, t.searchFirst lower vs = .ok z ↔
      ∃ r : Nat, z = r ∧ MatchingRow t vs r ∧ ∀ r', MatchingRow t vs r' → r ≤ r') ∧
    ((∃ e, t.searchFirst lower vs = .err e) ↔ ∀ r, ¬ MatchingRow t vs r) ∧
    t.searchFirst lower vs ≠ .panic := by
  rcases searchFirst_spec lower h.wf h.someKey h.live h.notNaN h.sorted hv.1 hv.2 with ⟨r, e, h1, h2, h3⟩ | ⟨⟨e, he⟩, h1⟩
  · have hmin : ∀ r', MatchingRow t vs r' → r ≤ r' := fun r' hr' => by
      by_cases hlt : r' < r
      · exact absurd hr'.2 (h3 r' hlt)
      · omega
    refine ⟨fun z => ?_, ?_, by rw [e]; simp⟩
    · rw [e]
      constructor
      · intro ez; cases ez; exact ⟨r, rfl, ⟨h1, h2⟩, hmin⟩
      · rintro ⟨q, rfl, hq, hq'⟩
        have a := hmin q hq
        have b := hq' r ⟨h1, h2⟩
        rw [Nat.le_antisymm a b]
    · rw [e]
      constructor
      · rintro ⟨_, e'⟩; cases e'
      · intro hno; exact absurd ⟨h1, h2⟩ (hno r)
  · refine ⟨fun z => ?_, ?_, by rw [he]; simp⟩
    · rw [he]
      constructor
      · intro e'; cases e'
      · rintro ⟨q, _, hq, _⟩; exact absurd hq.2 (h1 q hq.1)
    · exact ⟨fun _ r hr => h1 r hr.1 hr.2, fun _ => ⟨e, he⟩⟩

/-- **C18.** Sorted or not, if there is no sort key, or the values are not one of the right type per key, the answer is an error.
`Real` only says that the values are values of Go integer types. -/
theorem C18_bad_values (lower : GoStr → GoStr) (t : Table τ) (h : WF t) (hl : KeysLive t) (vs : List (Cell τ))
    (hr : ∀ v ∈ vs, v.Real) (hbad : t.sortKeys = [] ∨ ¬ ValuesFit t.sortKeys vs) :
    ∃ e, t.searchFirst lower vs = .err e := by
  obtain ⟨e, he⟩ := checkSearchArguments_bad h hl hr (by rintro ⟨h1, h2⟩; rcases hbad with h3 | h3 <;> contradiction)
  exact ⟨e, by simp only [searchFirst, he, Out.bind]⟩

/-- The example table sorted by age: (Al, -7), (cy, 30), (bob, 30). -/
def Ex.sorted : Table Unit := (Ex.t.sort (insertionSort _) Ex.asciiLower []).1

theorem Ex.sorted_ok : SortedTable Ex.asciiLower Ex.sorted := by
  have hlive : KeysLive Ex.t := by
    intro k hk
    rw [Ex.t_eq] at hk ⊢
    simp only [List.mem_singleton] at hk
    subst hk
    exact ⟨1, rfl, rfl⟩
  have hs := C17_sort (insertionSort _) Ex.asciiLower Ex.t Ex.wf (by decide +kernel) hlive (by
    intro k hk r v hat hn
    have := Ex.wf.At_hasType (hlive k hk) hat
    rw [Ex.t_eq] at hk
    simp only [List.mem_singleton] at hk
    subst hk
    cases v <;> first | exact hn | exact this)
  have hw : WF Ex.sorted := Ex.wf.sort _ _ _
  have hl : KeysLive Ex.sorted := hlive.sort Ex.wf _ _ _
  refine ⟨hw, by decide +kernel, hl, ?_, hs.2.2.2⟩
  intro k hk r v hat hn
  have := hw.At_hasType (hl k hk) hat
  have hk' : k ∈ Ex.t.sortKeys := by
    have := hs.2.1.2.2.2.2.1
    rw [← this]; exact hk
  rw [Ex.t_eq] at hk'
  simp only [List.mem_singleton] at hk'
  subst hk'
  cases v <;> first | exact hn | exact this

theorem Ex.goodSearch (z : Int) (hz : -9223372036854775808 ≤ z ∧ z ≤ 9223372036854775807) : GoodSearch Ex.sorted [.int .int z] := by
  have hk : Ex.sorted.sortKeys = [⟨gs! "age", .int, false⟩] := by decide +kernel
  refine ⟨?_, by simp [Cell.IsNaN]⟩
  rw [hk]
  exact ⟨hz, trivial⟩

-- the hypotheses hold for a table of three rows with a repeated key; both outcomes occur
example : Ex.sorted.searchFirst Ex.asciiLower [.int .int 30] = .ok 1 := by decide +kernel
example : Ex.sorted.searchFirst Ex.asciiLower [.int .int 29] = .err .notFound := by decide +kernel
example : MatchingRow Ex.sorted [.int .int 30] 1 := by
  have e := (C18_searchFirst Ex.asciiLower Ex.sorted Ex.sorted_ok _ (Ex.goodSearch 30 (by decide))).1 1
  obtain ⟨r, hr, hm, _⟩ := e.1 (by decide +kernel)
  have : r = 1 := by omega
  subst this; exact hm
example : ∃ e, Ex.sorted.searchFirst Ex.asciiLower [.str (gs! "30")] = .err e := ⟨.typeMismatch, by decide +kernel⟩

end Verif
