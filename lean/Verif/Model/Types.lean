import Verif.Go.Basic

/-!
# Column types, cells, tables
-/

namespace Verif

/-- The column types of `globalColTypesMap` (parser.go:189-211).
Simplification: the Go table stores the type name as a string; since every name in a table has passed
`IsValidColType` (or was copied from another table) the model stores the enumerated type. -/
inductive ColType where
  | byteSlice | uint8Slice | bool | byte | float32 | float64
  | int | int16 | int32 | rune | int64 | int8 | string
  | uint | uint16 | uint32 | uint64 | uint8 | table | time
  deriving DecidableEq, Repr

namespace ColType

/-- All column types, in the order of `globalColTypesMap` (parser.go:189-211). -/
def all : List ColType :=
  [byteSlice, uint8Slice, bool, byte, float32, float64, int, int16, int32, rune, int64, int8,
   string, uint, uint16, uint32, uint64, uint8, table, time]

/-- The name of a column type in the API and in the text format (parser.go:189-211). -/
def name : ColType → GoStr
  | byteSlice => gs! "[]byte"
  | uint8Slice => gs! "[]uint8"
  | bool => gs! "bool"
  | byte => gs! "byte"
  | float32 => gs! "float32"
  | float64 => gs! "float64"
  | int => gs! "int"
  | int16 => gs! "int16"
  | int32 => gs! "int32"
  | rune => gs! "rune"
  | int64 => gs! "int64"
  | int8 => gs! "int8"
  | string => gs! "string"
  | uint => gs! "uint"
  | uint16 => gs! "uint16"
  | uint32 => gs! "uint32"
  | uint64 => gs! "uint64"
  | uint8 => gs! "uint8"
  | table => gs! "*Table"
  | time => gs! "time.Time"

/-- `IsValidColType` (parser.go:758-768): lookup in `globalColTypesMap`. -/
def ofName? (s : GoStr) : Option ColType :=
  all.find? (fun ty => ty.name = s)

/-- `typeAliasMap` (parser.go:59-67). -/
def alias? : ColType → Option ColType
  | uint8 => some byte
  | byte => some uint8
  | uint8Slice => some byteSlice
  | byteSlice => some uint8Slice
  | int32 => some rune
  | rune => some int32
  | _ => none

end ColType

/-- `isAlias(aliasTypeName, typeName)` (gotables.go:3772-3776): `typeAliasMap[typeName] == aliasTypeName`. -/
def isAlias (aliasTypeName typeName : ColType) : Bool :=
  typeName.alias? = some aliasTypeName

/-- The distinct integer types of Go (`byte` is `uint8`, `rune` is `int32`). -/
inductive IntKind where
  | int | int8 | int16 | int32 | int64 | uint | uint8 | uint16 | uint32 | uint64
  deriving DecidableEq, Repr

namespace IntKind

/-- Least value of the type (64-bit platform). -/
def lo : IntKind → Int
  | int => -9223372036854775808
  | int8 => -128
  | int16 => -32768
  | int32 => -2147483648
  | int64 => -9223372036854775808
  | _ => 0

/-- Greatest value of the type (64-bit platform). -/
def hi : IntKind → Int
  | int => 9223372036854775807
  | int8 => 127
  | int16 => 32767
  | int32 => 2147483647
  | int64 => 9223372036854775807
  | uint => 18446744073709551615
  | uint8 => 255
  | uint16 => 65535
  | uint32 => 4294967295
  | uint64 => 18446744073709551615

end IntKind

/-- A `time.Time`: seconds and nanoseconds since the epoch and zone offset in seconds.
Simplification: location names and monotonic readings are not modelled. -/
structure GoTime where
  sec : Int
  nsec : Nat
  off : Int
  deriving DecidableEq, Repr

/-- A cell: a Go `interface{}` value (gotables.go:525, `type tableRow []interface{}`).
`τ` is the type of references to nested tables.  `bytes none` is a nil slice, `tbl none` a nil `*Table`. -/
inductive Cell (τ : Type) where
  | nil
  | str (s : GoStr)
  | bool (b : Bool)
  | int (k : IntKind) (v : Int)
  | f32 (bits : BitVec 32)
  | f64 (bits : BitVec 64)
  | bytes (b : Option (List UInt8))
  | tbl (t : Option τ)
  | time (t : GoTime)
  deriving DecidableEq, Repr

namespace Cell

/-- `fmt.Sprintf("%T", val)` with "*gotables.Table" read as "*Table" (gotables.go:1975-1979).
A `byte` prints as "uint8", a `rune` as "int32", a `[]byte` as "[]uint8". -/
def dynType {τ : Type} : Cell τ → Option ColType
  | nil => none
  | str _ => some .string
  | bool _ => some .bool
  | int .int _ => some .int
  | int .int8 _ => some .int8
  | int .int16 _ => some .int16
  | int .int32 _ => some .int32
  | int .int64 _ => some .int64
  | int .uint _ => some .uint
  | int .uint8 _ => some .uint8
  | int .uint16 _ => some .uint16
  | int .uint32 _ => some .uint32
  | int .uint64 _ => some .uint64
  | f32 _ => some .float32
  | f64 _ => some .float64
  | bytes _ => some .uint8Slice
  | tbl _ => some .table
  | time _ => some .time

/-- The value is one a Go program can build: integers are in the range of their type. -/
def Real {τ : Type} : Cell τ → Prop
  | int k v => k.lo ≤ v ∧ v ≤ k.hi
  | _ => True

end Cell

/-- `MinTime` (gotables.go:63-72): `time.Time{}`, 1 January of year 1, UTC. -/
def minTime : GoTime := { sec := -62135596800, nsec := 0, off := 0 }

/-- A sort key (sort.go:57-62).  The `sortFunc` field is determined by `colType` (sort.go:238-262). -/
structure SortKey where
  colName : GoStr
  colType : ColType
  reverse : Bool
  deriving DecidableEq, Repr

/-- A table (gotables.go:491-502).  `depth` is only used by the tree builder and is left out. -/
structure Table (τ : Type) where
  name : GoStr
  colNames : List GoStr
  colTypes : List ColType
  colMap : GoMap
  rows : List (List (Cell τ))
  sortKeys : List SortKey
  isStructShape : Bool
  isNilTable : Bool
  parent : Option τ
  deriving DecidableEq, Repr

/-! ## Names -/

/-- `unicode.IsLetter(rune(b))` for a byte, i.e. a Latin-1 code point. -/
def isLetterByte (b : UInt8) : Bool :=
  (65 ≤ b && b ≤ 90) || (97 ≤ b && b ≤ 122) || b = 0xAA || b = 0xB5 || b = 0xBA ||
  (0xC0 ≤ b && b ≤ 0xD6) || (0xD8 ≤ b && b ≤ 0xF6) || (0xF8 ≤ b)

/-- `unicode.IsNumber(rune(b))` for a byte, i.e. a Latin-1 code point. -/
def isNumberByte (b : UInt8) : Bool :=
  (48 ≤ b && b ≤ 57) || b = 0xB2 || b = 0xB3 || b = 0xB9 || b = 0xBC || b = 0xBD || b = 0xBE

/-- `isValidName` (parser.go:806-820). -/
def isValidName (s : GoStr) : Bool :=
  match s with
  | [] => false
  | c :: cs =>
    (isLetterByte c || c = 95) &&
    cs.all (fun b => isLetterByte b || b = 95 || isNumberByte b)

/-- `IsValidColName` (parser.go:823-837). -/
def isValidColName (s : GoStr) : Bool :=
  isValidName s && (ColType.ofName? s).isNone

/-- `IsValidTableName` (parser.go:841-860). -/
def isValidTableName (s : GoStr) : Bool :=
  if s.length < 1 then false
  else isValidName s && (ColType.ofName? s).isNone

end Verif
