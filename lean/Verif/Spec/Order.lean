import Verif.Spec.WF
import Verif.Go.Float

/-!
# Specification vocabulary: the order of cells and rows

Nothing here refers to the comparison or sorting functions of the model.  `lower` stands for `strings.ToLower`.
-/

namespace Verif

variable {τ : Type}

/-- The documented order of two values of the same type: false before true, numbers by value (floats as IEEE floats),
strings case-insensitively first, then bytewise (`<` on lists is the lexicographic order). -/
def Cell.Less (lower : GoStr → GoStr) : Cell τ → Cell τ → Prop
  | .bool a, .bool b => a = false ∧ b = true
  | .int _ a, .int _ b => a < b
  | .f32 a, .f32 b => f32Lt a b = true
  | .f64 a, .f64 b => f64Lt a b = true
  | .str a, .str b => lower a < lower b ∨ (lower a = lower b ∧ a < b)
  | _, _ => False

/-- Equal as Go values: floats with `==` of floats, everything else identical. -/
def Cell.EqVal : Cell τ → Cell τ → Prop
  | .f32 a, .f32 b => f32Eq a b = true
  | .f64 a, .f64 b => f64Eq a b = true
  | a, b => a = b

/-- The value is a floating point NaN. -/
def Cell.IsNaN : Cell τ → Prop
  | .f32 a => isNaN32 a = true
  | .f64 a => isNaN64 a = true
  | _ => False

/-- Row `i` comes strictly before row `j` on the single key `k`. -/
def KeyBefore (lower : GoStr → GoStr) (t : Table τ) (k : SortKey) (i j : Nat) : Prop :=
  ∃ a b, At t k.colName i a ∧ At t k.colName j b ∧ (if k.reverse then b.Less lower a else a.Less lower b)

/-- Row `i` comes strictly before row `j` in the lexicographic order of the keys. -/
def RowBefore (lower : GoStr → GoStr) (t : Table τ) : List SortKey → Nat → Nat → Prop
  | [], _, _ => False
  | k :: ks, i, j =>
    KeyBefore lower t k i j ∨ (¬ KeyBefore lower t k i j ∧ ¬ KeyBefore lower t k j i ∧ RowBefore lower t ks i j)

/-- No later row comes before an earlier row. -/
def SortedByKeys (lower : GoStr → GoStr) (t : Table τ) : Prop :=
  ∀ i j, i < j → j < t.rows.length → ¬ RowBefore lower t t.sortKeys j i

/-- The key cells of row `r` equal the values, key by key. -/
def RowMatches (t : Table τ) : List SortKey → List (Cell τ) → Nat → Prop
  | [], [], _ => True
  | k :: ks, v :: vs, r => (∃ a, At t k.colName r a ∧ a.EqVal v) ∧ RowMatches t ks vs r
  | _, _, _ => False

/-- The value `v` comes strictly before the cell of row `r` on the key `k`. -/
def ValBefore (lower : GoStr → GoStr) (t : Table τ) (k : SortKey) (v : Cell τ) (r : Nat) : Prop :=
  ∃ a, At t k.colName r a ∧ (if k.reverse then a.Less lower v else v.Less lower a)

/-- The list of values comes strictly before row `r` in the lexicographic order of the keys. -/
def ValuesBefore (lower : GoStr → GoStr) (t : Table τ) : List SortKey → List (Cell τ) → Nat → Prop
  | k :: ks, v :: vs, r => ValBefore lower t k v r ∨ (RowMatches t [k] [v] r ∧ ValuesBefore lower t ks vs r)
  | _, _, _ => False

/-- The values have the types of the keys. -/
def ValuesFit : List SortKey → List (Cell τ) → Prop
  | [], [] => True
  | k :: ks, v :: vs => v.HasType k.colType ∧ ValuesFit ks vs
  | _, _ => False

/-- Every sort key is an existing column of the key's type. -/
def KeysLive (t : Table τ) : Prop := ∀ k ∈ t.sortKeys, HasColT t k.colName k.colType

/-- No key cell is NaN. -/
def KeysNotNaN (t : Table τ) : Prop := ∀ k ∈ t.sortKeys, ∀ r v, At t k.colName r v → ¬ v.IsNaN

end Verif
