import Verif.Spec.WF
import Verif.Model.Scan

/-!
# Specification: what the text format preserves

`FloatOK` is what is needed of strconv's conversion of floats.  (It is proved of the model of strconv, see C36.)
-/

namespace Verif

/-- Neither infinite nor NaN: the exponent is not all ones. -/
def finite32 (b : BitVec 32) : Prop := b.toNat % 2 ^ 31 < 255 * 2 ^ 23
def finite64 (b : BitVec 64) : Prop := b.toNat % 2 ^ 63 < 2047 * 2 ^ 52

/-- Decimal digits. -/
def Digits (s : GoStr) : Prop := s ≠ [] ∧ ∀ c ∈ s, 48 ≤ c ∧ c ≤ 57

/-- A decimal number: an optional minus sign, digits, and optionally a point and digits. -/
def DecimalText (s : GoStr) : Prop :=
  ∃ sign ds frac, s = sign ++ ds ++ frac ∧ (sign = [] ∨ sign = [45]) ∧ Digits ds ∧ (frac = [] ∨ ∃ fs, frac = 46 :: fs ∧ Digits fs)

/-- `FormatFloat(x, 'f', -1, …)` of a finite float is a decimal number that `ParseFloat` reads back exactly; of a NaN it is "NaN", which is read as some NaN. -/
structure FloatOK (F : FloatText) : Prop where
  shape32 : ∀ b, finite32 b → DecimalText (F.fmt32 b)
  shape64 : ∀ b, finite64 b → DecimalText (F.fmt64 b)
  back32 : ∀ b, finite32 b → F.parse32 (F.fmt32 b) = some b
  back64 : ∀ b, finite64 b → F.parse64 (F.fmt64 b) = some b
  nan32 : ∀ b, isNaN32 b = true → F.fmt32 b = gs! "NaN"
  nan64 : ∀ b, isNaN64 b = true → F.fmt64 b = gs! "NaN"
  nanBack32 : ∃ b, F.parse32 (gs! "NaN") = some b ∧ isNaN32 b = true
  nanBack64 : ∃ b, F.parse64 (gs! "NaN") = some b ∧ isNaN64 b = true

/-- The same value; a NaN may have become another NaN, and a nil slice an empty one. -/
def SameValue {τ : Type} : Cell τ → Cell τ → Prop
  | .f32 x, c => c = .f32 x ∨ (isNaN32 x = true ∧ ∃ y, c = .f32 y ∧ isNaN32 y = true)
  | .f64 x, c => c = .f64 x ∨ (isNaN64 x = true ∧ ∃ y, c = .f64 y ∧ isNaN64 y = true)
  | .bytes x, c => ∃ y, c = .bytes y ∧ y.getD [] = x.getD []
  | x, c => c = x

/-- The value is not one that the text format is known to change or refuse: a rune is a code point, a float is not infinite. -/
def TextSafe {τ : Type} (ty : ColType) : Cell τ → Prop
  | .int _ v => ty = .rune → 0 ≤ v ∧ (v < 0xD800 ∨ (0xE000 ≤ v ∧ v ≤ 0x10FFFF))
  | .f32 b => finite32 b ∨ isNaN32 b = true
  | .f64 b => finite64 b ∨ isNaN64 b = true
  | _ => True

/-- ASCII text. -/
def Ascii (s : GoStr) : Prop := ∀ c ∈ s, c.toNat < 0x80

/-- Lists of the same length whose elements are related one by one. -/
def Pointwise {α β : Type} (R : α → β → Prop) : List α → List β → Prop
  | [], [] => True
  | a :: as, b :: bs => R a b ∧ Pointwise R as bs
  | _, _ => False

/-- The same rows, with the same values. -/
def SameRows {τ : Type} (rows rows' : List (List (Cell τ))) : Prop := Pointwise (Pointwise SameValue) rows rows'

/-- A table that the text format can express, given the types of columns it is asked to write: well-formed, with a name in ASCII and cells that the format
preserves.  (Without columns the rows, being empty lines, would be lost.) -/
structure Writable {τ : Type} (types : ColType → Bool) (t : Table τ) : Prop where
  wf : WF t
  notNil : t.isNilTable = false
  ascii : Ascii t.name
  colTypes : ∀ ty ∈ t.colTypes, types ty = true
  hasCols : t.colNames = [] → t.rows = []
  safe : ∀ row ∈ t.rows, Pointwise (fun ty c => TextSafe ty c) t.colTypes row

/-- The basic column types: `string`, `bool`, `rune`, the integer types and the float types (not `byte`, nor slices, tables and times). -/
def plainType : ColType → Bool
  | .string | .bool | .rune | .int | .int8 | .int16 | .int32 | .int64 | .uint | .uint8 | .uint16 | .uint32 | .uint64 | .float32 | .float64 => true
  | .byte | .byteSlice | .uint8Slice | .table | .time => false

/-- The column types that `String` writes as texts that the parser reads: all but tables. -/
def paddedType : ColType → Bool
  | .table => false
  | _ => true

/-- The same name, columns, types and rows. -/
structure TextSame {τ : Type} (t t' : Table τ) : Prop where
  name : t'.name = t.name
  colNames : t'.colNames = t.colNames
  colTypes : t'.colTypes = t.colTypes
  rows : SameRows t.rows t'.rows

end Verif
