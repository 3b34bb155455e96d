import Verif.Lemmas.PlainCalls

/-! # C91: Which names are accepted -/

namespace Verif
open Table

/-- Ascii bytes that are letters for the API are letters. -/
theorem plainName_of_valid {n : GoStr} (ha : Ascii n) (h : isValidName n = true) : PlainName n := by
  have h1 : ∀ c : UInt8, c.toNat < 0x80 → (isLetterByte c || c = 95) = true → NameLetter c := fun c =>
    forall_uint8 (p := fun c => c.toNat < 0x80 → (isLetterByte c || c = 95) = true →
      ((65 ≤ c.toNat ∧ c.toNat ≤ 90) ∨ (97 ≤ c.toNat ∧ c.toNat ≤ 122) ∨ c = 95)) (by decide +kernel) c
  have h2 : ∀ c : UInt8, c.toNat < 0x80 → isNumberByte c = true → (48 ≤ c.toNat ∧ c.toNat ≤ 57) := fun c =>
    forall_uint8 (p := fun c => c.toNat < 0x80 → isNumberByte c = true → (48 ≤ c.toNat ∧ c.toNat ≤ 57)) (by decide +kernel) c
  cases n with
  | nil => simp [isValidName] at h
  | cons c cs =>
    simp only [isValidName, Bool.and_eq_true, List.all_eq_true] at h
    have hc := h1 c (ha c (by simp)) h.1
    refine ⟨⟨c, cs, rfl, hc⟩, ?_⟩
    intro x hx
    rcases List.mem_cons.1 hx with rfl | hx'
    · exact .inl hc
    · have hb := h.2 x hx'
      rw [Bool.or_eq_true] at hb
      rcases hb with hb | hb
      · exact .inl (h1 x (ha x hx) hb)
      · exact .inr (h2 x (ha x hx) hb)

theorem validCol_iff {n : GoStr} (ha : Ascii n) : isValidColName n = true ↔ PlainName n ∧ ∀ ty : ColType, n ≠ ty.name := by
  rw [isValidColName, Bool.and_eq_true, Option.isNone_iff_eq_none, ofName?_none_iff]
  exact ⟨fun h => ⟨plainName_of_valid ha h.1, h.2⟩, fun h => ⟨h.1.valid, h.2⟩⟩

/-- The same names are accepted for tables and for columns. -/
theorem C91_same (n : GoStr) : isValidTableName n = isValidColName n := by
  rw [Bool.eq_iff_iff, Plain.tableName_iff, colName_iff]

/-- C91 for names in ASCII: exactly the identifiers that are not names of types are accepted, by the functions that check names and by the calls that make or
rename something.  Missing: other letters, see `C91_false`. -/
theorem C91_partial {n : GoStr} (ha : Ascii n) :
    (isValidColName n = true ↔ PlainName n ∧ ∀ ty : ColType, n ≠ ty.name) ∧
    (isValidTableName n = true ↔ PlainName n ∧ ∀ ty : ColType, n ≠ ty.name) ∧
    ((∃ t : Table Addr, newTable n = .ok t ∧ t.name = n) ↔ PlainName n ∧ ∀ ty : ColType, n ≠ ty.name) ∧
    ((∃ e, (newTable n : Out (Table Addr)) = .err e) ↔ ¬ (PlainName n ∧ ∀ ty : ColType, n ≠ ty.name)) ∧
    (∀ t : Table Addr, (t.setName n).2 = .ok () ↔ PlainName n ∧ ∀ ty : ColType, n ≠ ty.name) ∧
    (∀ (t : Table Addr) (nt : Nat → Nat → Addr) (ty : ColType), WF t → t.isNilTable = false → n ∉ t.colNames →
      ((t.appendCol nt n ty.name).2 = .ok () ↔ PlainName n ∧ ∀ ty : ColType, n ≠ ty.name)) ∧
    (∀ (t : Table Addr) (old : GoStr), WF t → old ∈ t.colNames → n ∉ t.colNames →
      ((t.renameCol old n).2 = .ok () ↔ PlainName n ∧ ∀ ty : ColType, n ≠ ty.name)) := by
  have hc := validCol_iff ha
  rw [← hc]
  refine ⟨Iff.rfl, by rw [C91_same], ?_, ?_, ?_, ?_, ?_⟩
  · rw [← C91_same]
    exact ⟨fun ⟨t, h, _⟩ => (newTable_ok h).1, fun h => ⟨_, newTable_eq h, rfl⟩⟩
  · rw [← C91_same]
    constructor
    · rintro ⟨e, h⟩ hv
      rw [newTable_eq hv] at h
      cases h
    · intro h
      exact ⟨_, newTable_err (Bool.eq_false_iff.2 h)⟩
  · intro t
    rw [← C91_same]
    unfold setName
    cases hv : isValidTableName n <;> simp
  · intro t nt ty hw hn hm
    rcases appendCol_cases nt hw n ty.name with ⟨_, _, h2, _, _, _, e⟩ | ⟨hno, e, he⟩
    · rw [e]; simp [h2]
    · rw [he]
      refine ⟨fun h => by simp at h, fun h => absurd ?_ hno⟩
      exact ⟨hn, h, hm, ty, ofName?_name ty⟩
  · intro t old hw ho hm
    rcases renameCol_cases hw old n with ⟨_, _, _, h3, e⟩ | ⟨hno, e, he⟩
    · rw [e]; simp [h3]
    · rw [he]
      exact ⟨fun h => by simp at h, fun h => absurd ⟨ho, hm, h⟩ hno⟩

/-- False for other letters: a name of one letter is refused, and one without any letter is accepted. -/
theorem C91_false : isValidColName (gs! "é") = false ∧ isValidTableName (gs! "é") = false ∧
    isValidColName (gs! "½") = true ∧ isValidTableName (gs! "½") = true := by decide +kernel

-- names of each kind
example : (∀ n ∈ [gs! "", gs! "1a", gs! "a b", gs! "int", gs! "a-b", gs! "byte"], Ascii n ∧ isValidColName n = false) ∧
    (∀ n ∈ [gs! "_", gs! "a1", gs! "Int", gs! "integer"], Ascii n ∧ isValidColName n = true) := by unfold Ascii; decide +kernel
example : WF Ex.t ∧ Ex.t.isNilTable = false ∧ gs! "age" ∈ Ex.t.colNames ∧ gs! "years" ∉ Ex.t.colNames := ⟨Ex.wf, by rw [Ex.t_eq]; decide +kernel⟩

end Verif
