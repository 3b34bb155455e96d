import Verif.Go.Basic

/-!
# Specification: integer literals
-/

namespace Verif

/-- The value of a hexadecimal digit; 99 for other characters. -/
def digitValue (c : UInt8) : Nat :=
  if 48 ≤ c ∧ c ≤ 57 then c.toNat - 48
  else if 97 ≤ c ∧ c ≤ 102 then c.toNat - 87
  else if 65 ≤ c ∧ c ≤ 70 then c.toNat - 55
  else 99

/-- One or more digits in the given base. -/
def Numeral (base : Nat) (ds : GoStr) : Prop := ds ≠ [] ∧ ∀ c ∈ ds, digitValue c < base

/-- The number written by the digits. -/
def numeralValue (base : Nat) (ds : GoStr) : Nat := ds.foldl (fun v c => v * base + digitValue c) 0

/-- Unsigned literals and their values: `0b101`, `0o17`, `0xFf`, `017` (octal), `17`. -/
inductive UintLit : GoStr → Nat → Prop
  | bin {c ds} : c = 98 ∨ c = 66 → Numeral 2 ds → UintLit (48 :: c :: ds) (numeralValue 2 ds)
  | oct {c ds} : c = 111 ∨ c = 79 → Numeral 8 ds → UintLit (48 :: c :: ds) (numeralValue 8 ds)
  | hex {c ds} : c = 120 ∨ c = 88 → Numeral 16 ds → UintLit (48 :: c :: ds) (numeralValue 16 ds)
  | zero {ds} : Numeral 8 ds → UintLit (48 :: ds) (numeralValue 8 ds)
  | dec {c ds} : Numeral 10 (c :: ds) → c ≠ 48 ∨ ds = [] → UintLit (c :: ds) (numeralValue 10 (c :: ds))

/-- Literals with a sign: the sign is followed by decimal digits, also if the first of them is 0. -/
inductive IntLit : GoStr → Int → Prop
  | unsigned {s v} : UintLit s v → IntLit s v
  | plus {ds} : Numeral 10 ds → IntLit (43 :: ds) (numeralValue 10 ds)
  | minus {ds} : Numeral 10 ds → IntLit (45 :: ds) (-(numeralValue 10 ds : Int))

/-- What the parser takes for an integer: the literals, and also digits with a leading 0 that are not octal (those are then rejected).
`minus` says whether a minus sign is allowed. -/
inductive IntToken (minus : Bool) : GoStr → Prop
  | bin {c ds} : c = 98 ∨ c = 66 → Numeral 2 ds → IntToken minus (48 :: c :: ds)
  | oct {c ds} : c = 111 ∨ c = 79 → Numeral 8 ds → IntToken minus (48 :: c :: ds)
  | hex {c ds} : c = 120 ∨ c = 88 → Numeral 16 ds → IntToken minus (48 :: c :: ds)
  | dec {ds} : Numeral 10 ds → IntToken minus ds
  | plus {ds} : Numeral 10 ds → IntToken minus (43 :: ds)
  | minus {ds} : minus = true → Numeral 10 ds → IntToken minus (45 :: ds)

/-- `tok` is the longest integer token at the start of `l`, and `rest` is what follows it. -/
def LongestToken (minus : Bool) (l tok rest : GoStr) : Prop :=
  l = tok ++ rest ∧ IntToken minus tok ∧ ∀ tok' rest', l = tok' ++ rest' → IntToken minus tok' → tok'.length ≤ tok.length

end Verif
