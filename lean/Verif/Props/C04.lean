import Verif.Props.C03

/-!
# C04 Writes are accepted exactly when cell exists and type matches
-/

namespace Verif
open Table

variable {τ : Type}

/-- `v` is a non-nil value whose Go type is `ty` or its alias, written out type by type. -/
def Accepts : ColType → Cell τ → Prop
  | .string, v => ∃ s, v = .str s
  | .bool, v => ∃ b, v = .bool b
  | .float32, v => ∃ b, v = .f32 b
  | .float64, v => ∃ b, v = .f64 b
  | .byteSlice, v => ∃ b, v = .bytes b
  | .uint8Slice, v => ∃ b, v = .bytes b
  | .table, v => ∃ x, v = .tbl (some x)
  | .time, v => ∃ x, v = .time x
  | .byte, v => ∃ x, v = .int .uint8 x
  | .uint8, v => ∃ x, v = .int .uint8 x
  | .uint16, v => ∃ x, v = .int .uint16 x
  | .uint32, v => ∃ x, v = .int .uint32 x
  | .uint64, v => ∃ x, v = .int .uint64 x
  | .uint, v => ∃ x, v = .int .uint x
  | .int8, v => ∃ x, v = .int .int8 x
  | .int16, v => ∃ x, v = .int .int16 x
  | .int32, v => ∃ x, v = .int .int32 x
  | .rune, v => ∃ x, v = .int .int32 x
  | .int64, v => ∃ x, v = .int .int64 x
  | .int, v => ∃ x, v = .int .int x

theorem accepts_iff {ty : ColType} {v : Cell τ} (hv : v.Real) : Accepts ty v ↔ v.HasType ty := by
  cases v with
  | int k v => cases k <;> cases ty <;> simp_all [Accepts, Cell.HasType, Cell.Real, IntKind.lo, IntKind.hi]
  | tbl o => cases o <;> cases ty <;> simp [Accepts, Cell.HasType]
  | _ => cases ty <;> simp [Accepts, Cell.HasType]

/-- **C04** for `SetVal`: success iff the column exists, the row is in range and the type matches; it never panics. -/
theorem C04_setVal_iff (t : Table τ) (h : WF t) (n : GoStr) (r : Int) (v : Cell τ) (hv : v.Real) :
    ((t.setVal n r v).2 = .ok () ↔ ∃ ty, HasColT t n ty ∧ 0 ≤ r ∧ r < t.rows.length ∧ Accepts ty v) ∧
    (t.setVal n r v).2 ≠ .panic := by
  rcases setVal_cases h n r v hv with ⟨ci, ri, ty, hc, rfl, hty, hri, hht, e⟩ | ⟨hno, e, he⟩
  · rw [e]
    refine ⟨⟨fun _ => ⟨ty, ⟨ci, hc, hty⟩, by omega, by omega, (accepts_iff hv).2 hht⟩, fun _ => rfl⟩, by simp⟩
  · rw [he]
    refine ⟨⟨fun h' => by simp at h', ?_⟩, by simp⟩
    rintro ⟨ty, ⟨ci, hc, hty⟩, h0, h1, hacc⟩
    obtain ⟨ri, rfl⟩ := Int.eq_ofNat_of_zero_le h0
    exact absurd ⟨ci, ri, ty, hc, rfl, hty, by omega, (accepts_iff hv).1 hacc⟩ hno

/-- **C04** for `SetValByColIndex`. -/
theorem C04_setValByColIndex_iff (t : Table τ) (h : WF t) (c r : Int) (v : Cell τ) (hv : v.Real) :
    ((t.setValByColIndex c r v).2 = .ok () ↔
      ∃ ty, 0 ≤ c ∧ t.colTypes[c.toNat]? = some ty ∧ 0 ≤ r ∧ r < t.rows.length ∧ Accepts ty v) ∧
    (t.setValByColIndex c r v).2 ≠ .panic := by
  rcases setValByColIndex_cases h c r v hv with ⟨ci, ri, ty, rfl, rfl, hty, hri, hht, e⟩ | ⟨hno, e, he⟩
  · rw [e]
    refine ⟨⟨fun _ => ⟨ty, by omega, by simpa using hty, by omega, by omega, (accepts_iff hv).2 hht⟩, fun _ => rfl⟩, by simp⟩
  · rw [he]
    refine ⟨⟨fun h' => by simp at h', ?_⟩, by simp⟩
    rintro ⟨ty, hc0, hty, h0, h1, hacc⟩
    obtain ⟨ri, rfl⟩ := Int.eq_ofNat_of_zero_le h0
    obtain ⟨ci, rfl⟩ := Int.eq_ofNat_of_zero_le hc0
    exact absurd ⟨ci, ri, ty, rfl, rfl, by simpa using hty, by omega, (accepts_iff hv).1 hacc⟩ hno

/-- **C04**: a rejected write leaves the table exactly as it was. -/
theorem C04_rejected (t : Table τ) (h : WF t) (n : GoStr) (c r : Int) (v : Cell τ) (hv : v.Real) :
    ((t.setVal n r v).2 ≠ .ok () → (t.setVal n r v).1 = t) ∧
    ((t.setValByColIndex c r v).2 ≠ .ok () → (t.setValByColIndex c r v).1 = t) := by
  constructor
  · rcases setVal_cases h n r v hv with ⟨ci, ri, ty, hc, rfl, hty, hri, hht, e⟩ | ⟨hno, e, he⟩
    · rw [e]; simp
    · rw [he]; simp
  · rcases setValByColIndex_cases h c r v hv with ⟨ci, ri, ty, rfl, rfl, hty, hri, hht, e⟩ | ⟨hno, e, he⟩
    · rw [e]; simp
    · rw [he]; simp

/-- **C04** for the typed setters: the same, except that a nil slice is refused as well. -/
theorem C04_setTyped_iff (t : Table τ) (h : WF t) (vt : ColType) (n : GoStr) (r : Int) (v : Cell τ) (hv : v.HasType vt) :
    ((t.setTyped vt n r v).2 = .ok () ↔
      ∃ ty, HasColT t n ty ∧ 0 ≤ r ∧ r < t.rows.length ∧ Accepts ty v ∧ v ≠ .bytes none) ∧
    ((t.setTyped vt n r v).2 ≠ .ok () → (t.setTyped vt n r v).1 = t) := by
  rcases setTyped_cases h vt n r v hv with ⟨ci, ri, ty, hc, rfl, hty, hri, hht, hb, e⟩ | ⟨hno, e, he⟩
  · rw [e]
    refine ⟨⟨fun _ => ⟨ty, ⟨ci, hc, hty⟩, by omega, by omega, (accepts_iff (hasType_real hv)).2 hht, hb⟩, fun _ => rfl⟩, by simp⟩
  · rw [he]
    refine ⟨⟨fun h' => by simp at h', ?_⟩, by simp⟩
    rintro ⟨ty, ⟨ci, hc, hty⟩, h0, h1, hacc, hb⟩
    obtain ⟨ri, rfl⟩ := Int.eq_ofNat_of_zero_le h0
    exact absurd ⟨ci, ri, ty, hc, rfl, hty, by omega, (accepts_iff (hasType_real hv)).1 hacc, hb⟩ hno

-- accepted, wrong type, wrong row, alias accepted
example : (Ex.t.setVal (gs! "age") 1 (.int .int 5)).2 = .ok () := by decide +kernel
example : (Ex.t.setVal (gs! "age") 1 (.int .int64 5)).2 = .err .typeMismatch := by decide +kernel
example : (Ex.t.setVal (gs! "age") 3 (.int .int 5)).2 = .err .noRow := by decide +kernel
example : ∃ ty, HasColT Ex.t (gs! "age") ty ∧ Accepts ty (.int .int 5 : Cell Unit) :=
  ⟨.int, ⟨1, by rw [Ex.t_eq]; rfl, by rw [Ex.t_eq]; rfl⟩, 5, rfl⟩

end Verif
