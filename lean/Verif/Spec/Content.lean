import Verif.Spec.WF
import Verif.Go.Float

/-!
# Specification: same content
-/

namespace Verif

variable {τ : Type}

/-- Equal cells: floats compare as IEEE floats, slices by their bytes, times as instants, nested tables by `R`. -/
def CellEq (R : τ → τ → Prop) : Cell τ → Cell τ → Prop
  | .str a, .str b => a = b
  | .bool a, .bool b => a = b
  | .int k a, .int l b => k = l ∧ a = b
  | .f32 a, .f32 b => f32Eq a b = true
  | .f64 a, .f64 b => f64Eq a b = true
  | .bytes a, .bytes b => a.getD [] = b.getD []
  | .time a, .time b => a.sec = b.sec ∧ a.nsec = b.nsec
  | .tbl (some a), .tbl (some b) => R a b
  | _, _ => False

/-- Same name, nil-ness, number of rows, the same columns in any order with the same types, and equal cells. -/
def SameContent (R : τ → τ → Prop) (t1 t2 : Table τ) : Prop :=
  t1.isNilTable = t2.isNilTable ∧ t1.name = t2.name ∧ t1.rows.length = t2.rows.length ∧
  (∀ n ty, HasColT t1 n ty ↔ HasColT t2 n ty) ∧
  (∀ n r x y, At t1 n r x → At t2 n r y → CellEq R x y)

/-- No column holds tables. -/
def Flat (t : Table τ) : Prop := ∀ n, ¬ HasColT t n .table

/-- No cell holds a float that is not a number. -/
def NoNaN (t : Table τ) : Prop :=
  ∀ n r, (∀ b, At t n r (.f32 b) → isNaN32 b = false) ∧ (∀ b, At t n r (.f64 b) → isNaN64 b = false)

end Verif
