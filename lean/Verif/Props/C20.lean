import Verif.Props.C19

/-!
# C20 SearchRange returns exactly the block of matching rows
-/

namespace Verif
open Table

variable {τ : Type}

/-- **C20.** On a sorted table `SearchRange` answers `first, last` exactly if these are the ends of a nonempty block of rows that are
precisely the matching ones; it answers an error exactly if no row matches; it never panics. -/
theorem C20_searchRange (lower : GoStr → GoStr) (t : Table τ) (h : SortedTable lower t) (vs : List (Cell τ)) (hv : GoodSearch t vs) :
    (∀ x y, t.searchRange lower vs = .ok (x, y) ↔
      ∃ a b : Nat, x = a ∧ y = b ∧ a ≤ b ∧ ∀ r, MatchingRow t vs r ↔ a ≤ r ∧ r ≤ b) ∧
    ((∃ e, t.searchRange lower vs = .err e) ↔ ∀ r, ¬ MatchingRow t vs r) ∧
    t.searchRange lower vs ≠ .panic := by
  have hchk := checkSearchArguments_ok h.wf h.someKey h.live hv.1
  obtain ⟨f1, f2, f3⟩ := C18_searchFirst lower t h vs hv
  obtain ⟨l1, l2, l3⟩ := C19_partial lower t h vs hv
  have hunf : t.searchRange lower vs = (t.searchFirst lower vs).bind fun first =>
      (t.searchLast lower vs).bind fun last => .ok (first, last) := by
    simp only [searchRange, hchk, Out.bind]
  cases ef : t.searchFirst lower vs with
  | panic => exact absurd ef f3
  | err e =>
    have hno := f2.1 ⟨e, ef⟩
    rw [hunf, ef]
    refine ⟨fun x y => ⟨?_, ?_⟩, ⟨fun _ => hno, fun _ => ⟨e, rfl⟩⟩, by simp [Out.bind]⟩
    · intro e'; cases e'
    · rintro ⟨a, b, _, _, hab, hr⟩; exact absurd ((hr a).2 ⟨Nat.le_refl _, hab⟩) (hno a)
  | ok z =>
    obtain ⟨a, rfl, ha, hamin⟩ := (f1 z).1 ef
    cases el : t.searchLast lower vs with
    | panic =>
      have hall := l3.1 el
      have hs : ∀ k ∈ t.sortKeys, k.colType.Sortable = true := fun k hk => (h.wf.keysOK k hk).1
      have gv := goodVals_of_fit hv.1 hs hv.2
      obtain ⟨as, h1, h2⟩ := keyCells_exists h.wf ha.1 t.sortKeys h.live hs
      have g := h1.good h2 h.notNaN
      have p := (rowMatches_iff lower h.wf h1 g gv).1 ha.2
      have q := (valuesBefore_iff lower h.wf h1 g gv).1 (hall a ha.1)
      omega
    | err e => exact absurd ha ((l2.1 ⟨e, el⟩).1 a)
    | ok w =>
      obtain ⟨b, rfl, hb, hbmax⟩ := (l1 w).1 el
      have hblock : ∀ r, MatchingRow t vs r ↔ a ≤ r ∧ r ≤ b := by
        intro r
        constructor
        · exact fun hr => ⟨hamin r hr, hbmax r hr⟩
        · rintro ⟨h1, h2⟩
          have hs : ∀ k ∈ t.sortKeys, k.colType.Sortable = true := fun k hk => (h.wf.keysOK k hk).1
          have gv := goodVals_of_fit hv.1 hs hv.2
          obtain ⟨cells, hc, hmono⟩ := search_setup lower h.wf h.live h.notNaN h.sorted
          have hblt := hb.1
          have hr : r < t.rows.length := by omega
          refine ⟨hr, (rowMatches_iff lower h.wf (hc r hr).1 (hc r hr).2 gv).2 ?_⟩
          have pa := (rowMatches_iff lower h.wf (hc a ha.1).1 (hc a ha.1).2 gv).1 ha.2
          have pb := (rowMatches_iff lower h.wf (hc b hb.1).1 (hc b hb.1).2 gv).1 hb.2
          have e1 := lexCmp_anti lower (hc a ha.1).2.typed gv.typed
          have e2 := lexCmp_anti lower (hc r hr).2.typed gv.typed
          have q1 := lexCmp_trans lower gv (hc a ha.1).2 (hc r hr).2 (by omega) (hmono a r h1 hr)
          have q2 := lexCmp_trans lower (hc r hr).2 (hc b hb.1).2 gv (hmono r b h2 hb.1) (by omega)
          omega
      rw [hunf, ef, el]
      refine ⟨fun x y => ⟨?_, ?_⟩, ⟨?_, ?_⟩, by simp [Out.bind]⟩
      · intro e'; cases e'; exact ⟨a, b, rfl, rfl, hamin b hb, hblock⟩
      · rintro ⟨a', b', rfl, rfl, hab, hr⟩
        have q1 := (hblock a').1 ((hr a').2 ⟨Nat.le_refl _, hab⟩)
        have q2 := (hblock b').1 ((hr b').2 ⟨hab, Nat.le_refl _⟩)
        have q3 := (hr a).1 ((hblock a).2 ⟨Nat.le_refl _, hamin b hb⟩)
        have q4 := (hr b).1 ((hblock b).2 ⟨hamin b hb, Nat.le_refl _⟩)
        have : a = a' := by omega
        have : b = b' := by omega
        subst a' b'; rfl
      · rintro ⟨_, e'⟩; cases e'
      · intro hno; exact absurd ha (hno a)

/-- **C20.** Values that do not fit the keys are an error. -/
theorem C20_bad_values (lower : GoStr → GoStr) (t : Table τ) (h : WF t) (hl : KeysLive t) (vs : List (Cell τ))
    (hr : ∀ v ∈ vs, v.Real) (hbad : t.sortKeys = [] ∨ ¬ ValuesFit t.sortKeys vs) :
    ∃ e, t.searchRange lower vs = .err e := by
  obtain ⟨e, he⟩ := checkSearchArguments_bad h hl hr (by rintro ⟨h1, h2⟩; rcases hbad with h3 | h3 <;> contradiction)
  exact ⟨e, by simp only [searchRange, he, Out.bind]⟩

example : Ex.sorted.searchRange Ex.asciiLower [.int .int 30] = .ok (1, 2) := by decide +kernel
-- before every row: an error here, although `SearchLast` alone would panic
example : Ex.sorted.searchRange Ex.asciiLower [.int .int (-8)] = .err .notFound := by decide +kernel

end Verif
