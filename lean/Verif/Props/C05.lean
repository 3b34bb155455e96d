import Verif.Props.C04

/-!
# C05 Typed getters never panic on a well-formed table
-/

namespace Verif
open Table

variable {τ : Type}

theorem getTyped_cases {t : Table τ} (h : WF t) (vt : ColType) (n : GoStr) (r : Int) :
    (∃ (ri : Nat) (v : Cell τ), r = ri ∧ At t n ri v ∧ v.HasType vt ∧ t.getTyped vt n r = .ok v) ∨
    ((∀ (ri : Nat) (v : Cell τ), r = ri → At t n ri v → ¬ v.HasType vt) ∧ ∃ e, t.getTyped vt n r = .err e) := by
  rcases h.colIndex_cases n with ⟨i, hi, hix⟩ | ⟨hi, hix⟩
  · obtain ⟨ty, hty⟩ := h.type_of_name hi
    have hct : t.colType n = .ok ty := by simp [colType, (h.mapIff n i).2 hi, hty]
    by_cases hm : vt ≠ ty ∧ isAlias ty vt = false
    · right
      refine ⟨?_, .typeMismatch, by simp only [getTyped, hct, Out.bind, if_pos hm]⟩
      intro ri v _ hat hv
      have hv2 := C01_cell_types t h n ty ri v ⟨i, hi, hty⟩ hat
      rcases hasType_types hv hv2 with e | e
      · exact hm.1 e
      · rw [hm.2] at e; cases e
    · rcases hasRow_cases t r with ⟨hr0, hr1, hrow⟩ | ⟨hr, hrow⟩
      · left
        obtain ⟨ri, rfl⟩ := Int.eq_ofNat_of_zero_le hr0
        obtain ⟨v, hat⟩ := At_exists h (List.mem_of_getElem? hi) (r := ri) (by omega)
        have hv := C01_cell_types t h n ty ri v ⟨i, hi, hty⟩ hat
        have hor : vt = ty ∨ isAlias ty vt = true := by
          by_cases h1 : vt = ty
          · exact .inl h1
          · right; cases h2 : isAlias ty vt
            · exact absurd ⟨h1, h2⟩ hm
            · rfl
        have hsym : ty = vt ∨ isAlias vt ty = true := by
          rcases hor with rfl | e
          · exact .inl rfl
          · right; revert e; cases ty <;> cases vt <;> decide
        obtain ⟨j, row, hj, hrow', hx⟩ := hat
        have := h.map_unique hi hj
        subst this
        have h4 : t.getCell? (i : Int) (ri : Int) = some v :=
          getCell?_some.2 ⟨row, by omega, by omega, by simpa using hrow', by simpa using hx⟩
        refine ⟨ri, v, rfl, ⟨i, row, hi, hrow', hx⟩, hasType_congr hsym hv, ?_⟩
        simp only [getTyped, hct, Out.bind, if_neg hm, hix, hrow, h4]
        exact typeAssert_of_hasType hv hor
      · right
        refine ⟨?_, .noRow, by simp only [getTyped, hct, Out.bind, if_neg hm, hix, hrow]⟩
        intro ri v e hat
        have := (At_bound hat).2
        exact absurd ⟨by omega, by omega⟩ hr
  · right
    have hct : t.colType n = .err .noCol := by simp [colType, h.get?_none.2 hi]
    refine ⟨?_, .noCol, by simp [getTyped, hct, Out.bind]⟩
    intro ri v _ hat
    exact absurd (At_bound hat).1 hi

/-- **C05** for `Get<type>`: it returns the value stored in the cell if there is such a cell of that Go type,
otherwise an error; it never panics. -/
theorem C05_getTyped (t : Table τ) (h : WF t) (vt : ColType) (n : GoStr) (r : Int) :
    (∀ v, t.getTyped vt n r = .ok v ↔ ∃ ri : Nat, r = ri ∧ At t n ri v ∧ v.HasType vt) ∧
    t.getTyped vt n r ≠ .panic := by
  rcases getTyped_cases h vt n r with ⟨ri, v, rfl, hat, hv, e⟩ | ⟨hno, e, he⟩
  · rw [e]
    refine ⟨fun w => ⟨?_, ?_⟩, by simp⟩
    · intro e'; cases e'; exact ⟨ri, rfl, hat, hv⟩
    · rintro ⟨ri', e', hat', _⟩
      have : ri = ri' := by omega
      subst this
      rw [At_unique h hat hat']
  · rw [he]
    refine ⟨fun w => ⟨(fun e' => by cases e'), ?_⟩, by simp⟩
    rintro ⟨ri', e', hat', hv⟩
    exact absurd hv (hno ri' w e' hat')

/-- **C05** for `Get<type>ByColIndex`: never panics, whatever the indices; agrees with the getter by name. -/
theorem C05_getTypedByColIndex (t : Table τ) (h : WF t) (vt : ColType) (c r : Int) :
    t.getTypedByColIndex vt c r ≠ .panic ∧
    (∀ (ci : Nat) (n : GoStr), c = ci → t.colNames[ci]? = some n → t.getTypedByColIndex vt c r = t.getTyped vt n r) ∧
    (¬ (0 ≤ c ∧ c < t.colNames.length) → t.getTypedByColIndex vt c r = .err .noCol) := by
  have agree : ∀ (ci : Nat) (n : GoStr), c = ci → t.colNames[ci]? = some n → t.getTypedByColIndex vt c r = t.getTyped vt n r := by
    rintro ci n rfl hn
    obtain ⟨ty, hty⟩ := h.type_of_name hn
    have hct : t.colType n = .ok ty := by simp [colType, (h.mapIff n ci).2 hn, hty]
    have hct2 : t.colTypeByColIndex (ci : Int) = .ok ty := colTypeByColIndex_ok.2 ⟨by omega, by simpa using hty⟩
    simp only [getTypedByColIndex, getTyped, hct, hct2, Out.bind, h.colIndex_ok.2 hn]
  have out : ¬ (0 ≤ c ∧ c < t.colNames.length) → t.getTypedByColIndex vt c r = .err .noCol := by
    intro hno
    have : t.colTypeByColIndex c = .err .noCol := by
      rcases colTypeByColIndex_cases t c with ⟨ty, h0, h1, _, _⟩ | ⟨_, e⟩
      · rw [h.typesLen] at h1; exact absurd ⟨h0, h1⟩ hno
      · exact e
    simp [getTypedByColIndex, this, Out.bind]
  refine ⟨?_, agree, out⟩
  by_cases hin : 0 ≤ c ∧ c < t.colNames.length
  · obtain ⟨ci, rfl⟩ := Int.eq_ofNat_of_zero_le hin.1
    have hlt : ci < t.colNames.length := by omega
    rw [agree ci _ rfl (List.getElem?_eq_getElem hlt)]
    exact (C05_getTyped t h vt _ r).2
  · rw [out hin]; simp

/-- **C05** for `Set<type>`: never panics. -/
theorem C05_setTyped (t : Table τ) (h : WF t) (vt : ColType) (n : GoStr) (r : Int) (v : Cell τ) (hv : v.HasType vt) :
    (t.setTyped vt n r v).2 ≠ .panic := by
  rcases setTyped_cases h vt n r v hv with ⟨ci, ri, ty, hc, rfl, hty, hri, hht, hb, e⟩ | ⟨hno, e, he⟩
  · rw [e]; simp
  · rw [he]; simp

/-- **C05** for `Set<type>ByColIndex`: it panics exactly when the column index is out of range (and the value is not a nil slice). -/
theorem C05_setTypedByColIndex_panics_iff (t : Table τ) (h : WF t) (vt : ColType) (c r : Int) (v : Cell τ) (hv : v.HasType vt) :
    (t.setTypedByColIndex vt c r v).2 = .panic ↔ v ≠ .bytes none ∧ ¬ (0 ≤ c ∧ c < t.colNames.length) := by
  rw [← h.typesLen]
  rcases setTypedByColIndex_cases h vt c r v hv with ⟨ci, ri, ty, rfl, rfl, hty, hri, hht, hb, e⟩ | ⟨hno, hc, e, he⟩ | ⟨hb, hc, he⟩
  · rw [e]
    have hlt := (List.getElem?_eq_some_iff.1 hty).1
    constructor
    · intro e'; cases e'
    · rintro ⟨_, h2⟩; exact absurd ⟨by omega, by omega⟩ h2
  · rw [he]
    constructor
    · intro e'; cases e'
    · rintro ⟨h1, h2⟩
      rcases hc with e' | e'
      · exact absurd e' h1
      · exact absurd e' h2
  · rw [he]; exact ⟨fun _ => ⟨hb, hc⟩, fun _ => rfl⟩

-- The getters succeed, fail on type, row, column; the index setter does panic.
example : Ex.t.getTyped .int (gs! "age") 1 = .ok (.int .int (-7)) := by decide +kernel
example : Ex.t.getTyped .string (gs! "age") 1 = .err .typeMismatch := by decide +kernel
example : Ex.t.getTypedByColIndex .int 7 1 = .err .noCol := by decide +kernel
example : (Ex.t.setTypedByColIndex .int 7 1 (.int .int 1)).2 = .panic := by decide +kernel

end Verif
