import Verif.Lemmas.Sort
import Verif.Props.Example

/-!
# C16 Comparison functions are total orders
-/

namespace Verif
open Table

variable {τ : Type}

/-- **C16.** On two values of a sortable type the comparison returns -1, 1 or 0 exactly when the first is less, the second is
less, or neither is (`Cell.Less`: the documented order). -/
theorem C16_result (lower : GoStr → GoStr) (ty : ColType) (hs : ty.Sortable = true) (a b : Cell τ)
    (ha : a.HasType ty) (hb : b.HasType ty) :
    ∃ c, compareFn lower ty a b = some c ∧ (c = -1 ∨ c = 0 ∨ c = 1) ∧ (c = -1 ↔ a.Less lower b) ∧ (c = 1 ↔ b.Less lower a) := by
  obtain ⟨c, e, h⟩ := compareFn_spec lower hs ha hb
  refine ⟨c, e, ?_⟩
  rcases h with ⟨rfl, h1, h2⟩ | ⟨rfl, h1, h2⟩ | ⟨rfl, h1, h2⟩ <;> simp [h1, h2]

/-- Comparing with the type's own function never panics, and with any other value type it always does. -/
theorem C16_total (lower : GoStr → GoStr) (ty : ColType) (a b : Cell τ) (hr : a.Real ∧ b.Real) :
    (compareFn lower ty a b).isSome = true ↔ (ty.Sortable = true ∧ a.HasType ty ∧ b.HasType ty) := by
  constructor
  · intro h
    cases ty <;> first
      | (cases a <;> cases b <;> simp [compareFn] at h)
      | skip
    all_goals first
      | (rename_i k v k' v'; cases k <;> cases k' <;> simp [compareFn, Cell.HasType, ColType.Sortable, Cell.Real, IntKind.lo, IntKind.hi] at h hr ⊢ <;> omega)
      | simp [Cell.HasType, ColType.Sortable]
  · rintro ⟨hs, ha, hb⟩
    obtain ⟨c, e, _⟩ := compareFn_spec lower hs ha hb
    simp [e]

/-- **C16.** Antisymmetry, as a sign flip. -/
theorem C16_antisymm (lower : GoStr → GoStr) (ty : ColType) (hs : ty.Sortable = true) (a b : Cell τ)
    (ha : a.HasType ty) (hb : b.HasType ty) :
    ∃ c, compareFn lower ty a b = some c ∧ compareFn lower ty b a = some (-c) := by
  obtain ⟨c, e1, h1⟩ := compareFn_spec lower hs ha hb
  obtain ⟨d, e2, h2⟩ := compareFn_spec lower hs hb ha
  refine ⟨c, e1, ?_⟩
  have : d = -c := by simp only [CmpSpec] at h1 h2; grind
  rw [e2, this]

/-- **C16.** Transitivity on non-NaN values. -/
theorem C16_trans (lower : GoStr → GoStr) (ty : ColType) (hs : ty.Sortable = true) (a b c : Cell τ)
    (ha : a.HasType ty) (hb : b.HasType ty) (hc : c.HasType ty) (na : ¬ a.IsNaN) (nb : ¬ b.IsNaN) (nc : ¬ c.IsNaN)
    (x y : Int) (hx : compareFn lower ty a b = some x) (hy : compareFn lower ty b c = some y) (hx0 : x ≤ 0) (hy0 : y ≤ 0) :
    ∃ z, compareFn lower ty a c = some z ∧ z ≤ 0 ∧ (z = 0 → x = 0 ∧ y = 0) := by
  let k : SortKey := { colName := [], colType := ty, reverse := false }
  have ga : Good k.colType a := ⟨hs, ha, na⟩
  have gb : Good k.colType b := ⟨hs, hb, nb⟩
  have gc : Good k.colType c := ⟨hs, hc, nc⟩
  obtain ⟨z, hz, _⟩ := compareFn_spec lower hs ha hc
  have ex : cmpKey lower k a b = x := by simp [cmpKey, k, hx]
  have ey : cmpKey lower k b c = y := by simp [cmpKey, k, hy]
  have ez : cmpKey lower k a c = z := by simp [cmpKey, k, hz]
  have h1 := cmpKey_trans lower ga gb gc (by omega) (by omega)
  have a1 := cmpKey_anti lower (k := k) hs ha hb
  have a2 := cmpKey_anti lower (k := k) hs hb hc
  have a3 := cmpKey_anti lower (k := k) hs ha hc
  refine ⟨z, hz, by omega, fun hz0 => ?_⟩
  have h2 := cmpKey_trans lower gb gc ga (by omega) (by omega)
  have h3 := cmpKey_trans lower gc ga gb (by omega) (by omega)
  omega

/-- **C16.** Zero means equal as Go values (floats: `==`, so `-0` equals `+0`). -/
theorem C16_zero (lower : GoStr → GoStr) (ty : ColType) (hs : ty.Sortable = true) (a b : Cell τ)
    (ha : a.HasType ty) (hb : b.HasType ty) (na : ¬ a.IsNaN) (nb : ¬ b.IsNaN) :
    compareFn lower ty a b = some 0 ↔ a.EqVal b := by
  obtain ⟨c, e, h⟩ := compareFn_spec lower hs ha hb
  rw [eqVal_iff lower (ty := ty) ⟨hs, ha, na⟩ ⟨hs, hb, nb⟩, e]
  rcases h with ⟨rfl, h1, h2⟩ | ⟨rfl, h1, h2⟩ | ⟨rfl, h1, h2⟩ <;> simp [h1, h2]

/-- **C16.** For every sortable type but the floats, zero means identical. -/
theorem C16_zero_exact (lower : GoStr → GoStr) (ty : ColType) (hs : ty.Sortable = true)
    (hf : ty ≠ .float32 ∧ ty ≠ .float64) (a b : Cell τ) (ha : a.HasType ty) (hb : b.HasType ty) :
    compareFn lower ty a b = some 0 ↔ a = b := by
  have nn : ∀ c : Cell τ, c.HasType ty → ¬ c.IsNaN := by
    intro c hc hn
    cases c <;> first
      | exact hn
      | (cases ty <;> first
          | exact hc
          | simp at hf)
  rw [C16_zero lower ty hs a b ha hb (nn a ha) (nn b hb)]
  have nf : ∀ c : Cell τ, c.HasType ty → (∀ x, c ≠ .f32 x) ∧ (∀ x, c ≠ .f64 x) := by
    intro c hc
    constructor <;> (rintro x rfl; cases ty <;> first
      | exact hc
      | simp at hf)
  have h1 := nf a ha
  cases a <;> simp_all [Cell.EqVal]

/-- With NaN the relation is not transitive: 2 "equals" NaN, NaN "equals" 1, yet 2 is greater than 1. -/
theorem C16_nan_not_transitive : ∃ a b c : Cell τ, a.HasType .float64 ∧ b.HasType .float64 ∧ c.HasType .float64 ∧
    ∀ lower, compareFn lower .float64 a b = some 0 ∧ compareFn lower .float64 b c = some 0 ∧
      compareFn lower .float64 a c = some 1 :=
  ⟨.f64 0x4000000000000000#64, .f64 0x7ff8000000000001#64, .f64 0x3ff0000000000000#64, trivial, trivial, trivial,
    fun _ => ⟨rfl, rfl, rfl⟩⟩

/-- ASCII lower case, for examples. -/
def Ex.asciiLower (s : GoStr) : GoStr := s.map (fun b => if 65 ≤ b ∧ b ≤ 90 then b + 32 else b)

example : compareFn Ex.asciiLower .string (.str (gs! "bob") : Cell Unit) (.str (gs! "Cy")) = some (-1) := by decide
example : compareFn Ex.asciiLower .string (.str (gs! "Bob") : Cell Unit) (.str (gs! "bob")) = some (-1) := by decide
example : (Cell.str (gs! "Bob") : Cell Unit).Less Ex.asciiLower (.str (gs! "bob")) := by
  right; exact ⟨by decide, by decide⟩
-- -0 and +0 compare as equal
example : compareFn id .float64 (.f64 0x8000000000000000#64 : Cell Unit) (.f64 0) = some 0 := by decide
example : (Cell.f64 0x8000000000000000#64 : Cell Unit).EqVal (.f64 0) ∧ ¬ (Cell.f64 0 : Cell Unit).IsNaN := by
  constructor
  · show f64Eq _ _ = true; decide
  · show ¬ (isNaN64 _ = true); decide
example : (Cell.int .uint8 3 : Cell Unit).HasType .uint8 ∧ ColType.uint8.Sortable = true := by simp [Cell.HasType, ColType.Sortable]

end Verif
