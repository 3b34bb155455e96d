import Verif.Model.Parser
import Verif.Model.Util

/-!
# Printing tables as text
-/

namespace Verif

/-- Library functions used by the printers that are not modelled. -/
structure PrintEnv where
  /-- strconv's conversion of floats, and the parsing of times -/
  text : TextEnv
  /-- which code points above U+00FF are printable (`strconv.IsPrint`) -/
  printable : Nat → Bool
  /-- `timeVal.Format(time.RFC3339Nano)` if there are nanoseconds, else `timeVal.Format(time.RFC3339)` (gotables.go:1555-1560) -/
  fmtTime : GoTime → GoStr

/-- Texts with a separator between them. -/
def joinSep (sep : GoStr) : List GoStr → GoStr
  | [] => []
  | [s] => s
  | s :: ss => s ++ sep ++ joinSep sep ss

/-- `fmt.Sprintf("%v", slice)` for a slice of bytes. -/
def fmtBytes (b : Option (List UInt8)) : GoStr := 91 :: joinSep [32] ((b.getD []).map fun x => fmtNat x.toNat) ++ [93]

/-- The text of a cell: the cases of the switches of `StringPadded` (gotables.go:1493-1566), of `_String` (gotables.go:1219-1275, the same texts for
the types it knows) and of `GetValAsStringByColIndex` (gotables.go:2940-3010, except for strings and runes).  A value that is not of the column's
type panics in the type assertion. -/
def cellText (P : PrintEnv) (H : Heap) (ty : ColType) (c : Cell Addr) : Out GoStr :=
  match ty, c with
  | .string, .str s => .ok (strconvQuote P.printable s)
  | .rune, .int .int32 r => .ok (strconvQuoteRune P.printable r)
  | .bool, .bool b => .ok (if b then gs! "true" else gs! "false")
  | .byteSlice, .bytes b => .ok (fmtBytes b)
  | .uint8Slice, .bytes b => .ok (fmtBytes b)
  | .float32, .f32 b => .ok (P.text.float.fmt32 b)
  | .float64, .f64 b => .ok (P.text.float.fmt64 b)
  | .table, .tbl (some a) => .ok (91 :: nameAt H a ++ [93])
  | .table, .tbl none => .ok [91, 93]
  | .time, .time t => .ok (P.fmtTime t)
  | ty, .int k v => if ty.intKind? = some k then .ok (fmtInt v) else .panic
  | _, _ => .panic

/-! ## Without padding -/

/-- The types that `_String` knows (gotables.go:1219-1275); for any other it returns the empty string. -/
def ColType.unpadded : ColType → Bool
  | .byte | .byteSlice | .uint8Slice | .time => false
  | _ => true

/-- The cells of a row of `_String` (gotables.go:1199-1277); `none` is the early `return ""`.  There are as many types as names. -/
def rowUnpadded (P : PrintEnv) (H : Heap) : List ColType → List (Cell Addr) → Out (Option (List GoStr))
  | [], _ => .ok (some [])
  | _ :: _, [] => .panic
  | ty :: types, c :: cells =>
    if ty.unpadded = false then .ok none
    else
      (cellText P H ty c).bind fun s =>
        (rowUnpadded P H types cells).bind fun r => .ok (r.map fun ss => s :: ss)

/-- The rows of `_String` (gotables.go:1196-1280). -/
def rowsUnpadded (P : PrintEnv) (H : Heap) (types : List ColType) : List (List (Cell Addr)) → Out (Option (List (List GoStr)))
  | [] => .ok (some [])
  | row :: rows =>
    (rowUnpadded P H types row).bind fun r =>
      match r with
      | none => .ok none
      | some r => (rowsUnpadded P H types rows).bind fun rs => .ok (rs.map fun rs => r :: rs)

/-- The text of a struct value (gotables.go:1633-1646): strings and runes are written between delimiters but without escapes. -/
def structText (P : PrintEnv) (H : Heap) (ty : ColType) (c : Cell Addr) : Out GoStr :=
  match ty, c with
  | .string, .str s => .ok (34 :: s ++ [34])
  | .rune, .int .int32 r => .ok (39 :: encodeRune (if 0 ≤ r then r.toNat else 0x110000) ++ [39])
  | _, _ => cellText P H ty c

/-- The lines of `printStruct` (gotables.go:1621-1651); the row is `none` if the table has no rows. -/
def structLines (P : PrintEnv) (H : Heap) : List GoStr → List ColType → Option (List (Cell Addr)) → Out GoStr
  | n :: names, ty :: types, none => (structLines P H names types none).bind fun s => .ok (n ++ 32 :: ty.name ++ 10 :: s)
  | n :: names, ty :: types, some (c :: cells) =>
    (structText P H ty c).bind fun v =>
      (structLines P H names types (some cells)).bind fun s => .ok (n ++ 32 :: ty.name ++ gs! " = " ++ v ++ 10 :: s)
  | [], _, _ => .ok []
  | _, _, _ => .panic

/-- `printStruct` (gotables.go:1610-1653). -/
def printStruct (P : PrintEnv) (H : Heap) (t : Table Addr) : Out GoStr :=
  (structLines P H t.colNames t.colTypes t.rows.head?).bind fun s => .ok (91 :: t.name ++ gs! "]\n" ++ s)

/-- A line of texts separated by spaces. -/
def textLine (ss : List GoStr) : GoStr := joinSep [32] ss ++ [10]

/-- `StringUnpadded` (gotables.go:1136-1145), `_String(' ')` (gotables.go:1150-1285). -/
def stringUnpadded (P : PrintEnv) (H : Heap) (t : Table Addr) : Out GoStr :=
  if t.isStructShape ∧ t.rows.length ≤ 1 then printStruct P H t
  else
    (rowsUnpadded P H t.colTypes t.rows).bind fun rows =>
      match rows with
      | none => .ok []
      | some rows =>
        .ok (91 :: t.name ++ gs! "]\n" ++
          (if t.colNames = [] then [] else textLine t.colNames) ++
          (if t.colTypes = [] then [] else textLine (t.colTypes.map ColType.name)) ++
          (rows.map textLine).flatten)

/-- The loop of `TableSet._String(' ')` (gotables.go:343-358) over the tables. -/
def setUnpadded (P : PrintEnv) (H : Heap) : List Addr → Out (List GoStr)
  | [] => .ok []
  | a :: as =>
    match H[a]? with
    | none => .panic
    | some t => (stringUnpadded P H t).bind fun s => (setUnpadded P H as).bind fun ss => .ok (s :: ss)

/-- `TableSet.StringUnpadded` (gotables.go:324-333): the name of the set is not written. -/
def TableSet.stringUnpadded (P : PrintEnv) (H : Heap) (set : TableSet) : Out GoStr :=
  (setUnpadded P H set.tables).bind fun ss => .ok (joinSep [10] ss)

/-! ## With padding -/

/-- `IsNumericColType` (parser.go:775-782) and the table `globalNumericColTypesMap` (parser.go:218-233). -/
def ColType.numeric : ColType → Bool
  | .float32 | .float64 | .int | .int16 | .int32 | .int64 | .int8 | .uint | .uint16 | .uint32 | .uint64 | .uint8 | .byte => true
  | _ => false

/-- The float64 nearest to an integer, ties to even, as an integer (`strconv.ParseFloat` of the decimal text of an integer below 2^64). -/
def nearestDouble (n : Nat) : Nat :=
  if n < 2 ^ 53 then n
  else
    let s := n.log2 - 52
    let q := n / 2 ^ s
    let r := n % 2 ^ s
    let up := 2 ^ s < 2 * r ∨ (2 ^ s = 2 * r ∧ q % 2 = 1)
    (if up then q + 1 else q) * 2 ^ s

/-- `nearestDouble` with a sign. -/
def nearestDoubleInt (v : Int) : Int := if v < 0 then -(nearestDouble v.natAbs : Int) else nearestDouble v.natAbs

/-- The text that `printMatrix` writes for a cell of a numeric column (gotables.go:1333-1361): parsed as a float and formatted again with precision
`prec` (0 in an integer column), for float columns with trailing zeros replaced by spaces.  `none` is the early `return ""`. -/
def numericText (P : PrintEnv) (ty : ColType) (c : Cell Addr) (prec : Nat) : Option GoStr :=
  match ty, c with
  | .float32, .f32 b => (P.text.float.parse32 (P.text.float.fmt32 b)).map fun x => padTrailingZeros (P.text.float.prec32 x prec)
  | .float64, .f64 b => (P.text.float.parse64 (P.text.float.fmt64 b)).map fun x => padTrailingZeros (P.text.float.prec64 x prec)
  | _, .int _ v => some (fmtInt (nearestDoubleInt v))
  | _, _ => none

/-- `preNumberOf`, `pointsOf` and `precisionOf` (gotables.go:1658-1687). -/
def decimalParts (s : GoStr) : Nat × Nat × Nat :=
  match s.findIdx? (· = 46) with
  | some i => (i, 1, s.length - i - 1)
  | none => (s.length, 0, 0)

/-- Greatest of a list. -/
def maxOf (l : List Nat) : Nat := l.foldl max 0

/-- The precision of a column: the most digits after the point (`setWidths`, gotables.go:1689-1695, called for floats and runes). -/
def colPrecision (texts : List GoStr) : Nat := maxOf (texts.map fun s => (decimalParts s).2.2)

/-- The width of a column with the given name, type and texts of cells (gotables.go:1454-1467, 1591 and `setWidths`).  `setWidths` works with the greatest
parts so far; the parts only grow, so its last call decides. -/
def colWidth (name : GoStr) (ty : ColType) (texts : List GoStr) : Nat :=
  let parts :=
    if ty = .float32 ∨ ty = .float64 ∨ ty = .rune then
      maxOf (texts.map fun s => (decimalParts s).1) + maxOf (texts.map fun s => (decimalParts s).2.1) + colPrecision texts
    else 0
  max (max name.length ty.name.length) (max parts (maxOf (texts.map List.length)))

/-- `utf8.RuneCountInString`; the number counts bytes of the current code point still to be skipped. -/
def runeCount : Nat → GoStr → Nat
  | _, [] => 0
  | k + 1, _ :: cs => runeCount k cs
  | 0, c :: cs => 1 + runeCount (charWidth (c :: cs) - 1) cs

/-- The spaces with which `%*s` pads a text. -/
def padding (width : Nat) (s : GoStr) : GoStr := List.replicate (width - runeCount 0 s) 32

/-- One column of the printed matrix: for every line whether it is numeric, and the text. -/
structure PrintCol where
  numeric : Bool
  width : Nat
  /-- name, type and the cells, as written -/
  texts : List GoStr

/-- The texts of the cells of column `c` (the matrix of `StringPadded`, gotables.go:1475-1593). -/
def colTexts (P : PrintEnv) (H : Heap) (ty : ColType) (c : Nat) : List (List (Cell Addr)) → Out (List GoStr)
  | [] => .ok []
  | row :: rows =>
    match row[c]? with
    | none => .panic
    | some cell => (cellText P H ty cell).bind fun s => (colTexts P H ty c rows).bind fun ss => .ok (s :: ss)

/-- The texts of the cells of column `c` as written by `printMatrix`; `none` is the early `return ""`. -/
def colWritten (P : PrintEnv) (ty : ColType) (c : Nat) (prec : Nat) : List (List (Cell Addr)) → List GoStr → Option (List GoStr)
  | row :: rows, s :: ss =>
    match (if ty.numeric then (row[c]?).bind fun cell => numericText P ty cell prec else some s), colWritten P ty c prec rows ss with
    | some x, some xs => some (x :: xs)
    | _, _ => none
  | _, _ => some []

/-- The columns, from column `c` on; `.ok none` is the early `return ""`. -/
def printCols (P : PrintEnv) (H : Heap) (rows : List (List (Cell Addr))) : Nat → List GoStr → List ColType → Out (Option (List PrintCol))
  | c, n :: names, ty :: types =>
    (colTexts P H ty c rows).bind fun ss =>
      (printCols P H rows (c + 1) names types).bind fun cols =>
        .ok (match colWritten P ty c (colPrecision ss) rows ss, cols with
          | some xs, some cols => some ({ numeric := ty.numeric, width := colWidth n ty ss, texts := n :: ty.name :: xs } :: cols)
          | _, _ => none)
  | _, _, _ => .ok (some [])

/-- `strings.TrimRight(s, " ")`. -/
def trimRightSpaces (s : GoStr) : GoStr := (s.reverse.dropWhile (· = 32)).reverse

/-- One line of `printMatrix` (gotables.go:1328-1376): a cell per column, the last one not padded to the right. -/
def matrixLine (r : Nat) : List PrintCol → GoStr
  | [] => []
  | [col] =>
    let s := (col.texts[r]?).getD []
    if col.numeric then trimRightSpaces (padding col.width s ++ s) else s
  | col :: cols =>
    let s := (col.texts[r]?).getD []
    (if col.numeric then padding col.width s ++ s else s ++ padding col.width s) ++ 32 :: matrixLine r cols

/-- `String` and `StringPadded` (gotables.go:1391-1605), `printMatrix` (gotables.go:1311-1380).  (Names and types of float columns also pass through
`padTrailingZeros`, which does nothing to a text without a point.)  The separator before the last cell of a line is trimmed with the
cell if that is empty, which a numeric text never is.  A cell that cannot be formatted makes `printMatrix` return the empty string. -/
def stringPadded (P : PrintEnv) (H : Heap) (t : Table Addr) : Out GoStr :=
  (printCols P H t.rows 0 t.colNames t.colTypes).bind fun cols =>
    if t.isStructShape ∧ t.rows.length ≤ 1 then printStruct P H t
    else
      match cols with
      | none => .ok []
      | some cols =>
        .ok (91 :: t.name ++ gs! "]\n" ++
          (if t.colNames = [] then [] else ((List.range (t.rows.length + 2)).map fun r => matrixLine r cols ++ [10]).flatten))

/-- The loop of `TableSet.StringPadded` (gotables.go:314-320) over the tables. -/
def setPadded (P : PrintEnv) (H : Heap) : List Addr → Out (List GoStr)
  | [] => .ok []
  | a :: as =>
    match H[a]? with
    | none => .panic
    | some t => (stringPadded P H t).bind fun s => (setPadded P H as).bind fun ss => .ok (s :: ss)

/-- `TableSet.String` and `TableSet.StringPadded` (gotables.go:291-322): the name of the set, if it has one, and the tables. -/
def TableSet.stringPadded (P : PrintEnv) (H : Heap) (set : TableSet) : Out GoStr :=
  (setPadded P H set.tables).bind fun ss => .ok ((if set.name = [] then [] else gs! "[[" ++ set.name ++ gs! "]]\n\n") ++ joinSep [10] ss)

end Verif
