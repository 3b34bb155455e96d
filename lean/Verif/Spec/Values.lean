import Verif.Spec.Literal
import Verif.Go.FloatConv
import Verif.Model.Parser

/-!
# Specification: the texts of values

The grammar of the values in a row of a table text, written down as relations between a text and a value.
-/

namespace Verif

/-! ## Characters, strings and runes -/

/-- The text of one character between quotes `q`: the character itself or an escape.  The number is its code point or, if the flag is set, a byte. -/
inductive CharText (q : UInt8) : GoStr → Nat → Bool → Prop
  | ascii {c : UInt8} : c.toNat < 0x80 → c ≠ q → c ≠ 92 → CharText q [c] c.toNat false
  | other {r : Nat} : 0x80 ≤ r → ValidRune r → CharText q (encodeRune r) r false
  | escape {e : UInt8} {v : Nat} : (e, v) ∈ [((97 : UInt8), 7), (98, 8), (102, 12), (110, 10), (114, 13), (116, 9), (118, 11), (92, 92)] → CharText q [92, e] v false
  | quote : CharText q [92, q] q.toNat false
  | hex2 {ds : GoStr} : Numeral 16 ds → ds.length = 2 → CharText q (92 :: 120 :: ds) (numeralValue 16 ds) true
  | hex4 {ds : GoStr} : Numeral 16 ds → ds.length = 4 → ValidRune (numeralValue 16 ds) → CharText q (92 :: 117 :: ds) (numeralValue 16 ds) false
  | hex8 {ds : GoStr} : Numeral 16 ds → ds.length = 8 → ValidRune (numeralValue 16 ds) → CharText q (92 :: 85 :: ds) (numeralValue 16 ds) false
  | oct {ds : GoStr} : Numeral 8 ds → ds.length = 3 → numeralValue 8 ds ≤ 255 → CharText q (92 :: ds) (numeralValue 8 ds) true

/-- The bytes of a character. -/
def charValue (v : Nat) (byte : Bool) : GoStr := if byte then [UInt8.ofNat v] else encodeRune v

/-- The text between the double quotes of a string, and the string.  A byte that does not begin a code point counts as U+FFFD. -/
inductive StringText : GoStr → GoStr → Prop
  | nil : StringText [] []
  | char {t more s : GoStr} {v : Nat} {byte : Bool} : CharText 34 t v byte → StringText more s → StringText (t ++ more) (charValue v byte ++ s)
  | bad {c : UInt8} {more s : GoStr} : (∀ r, ValidRune r → ¬ encodeRune r <+: c :: more) → StringText more s → StringText (c :: more) (encodeRune 0xFFFD ++ s)

/-- The text between the single quotes of a rune, and its number. -/
inductive RuneText : GoStr → Nat → Prop
  | char {t : GoStr} {v : Nat} {byte : Bool} : CharText 39 t v byte → RuneText t v
  | bad {c : UInt8} : 0x80 ≤ c.toNat → RuneText [c] 0xFFFD

/-! ## Floats -/

/-- An optional sign; the flag says whether it is a minus. -/
inductive SignText : GoStr → Bool → Prop
  | none : SignText [] false
  | plus : SignText [43] false
  | minus : SignText [45] true

/-- Digits with at most one point: the digits as a number, and how many of them follow the point. -/
inductive MantissaText : GoStr → Nat → Nat → Prop
  | whole {ds : GoStr} : Numeral 10 ds → MantissaText ds (numeralValue 10 ds) 0
  | point {ds fs : GoStr} : Numeral 10 (ds ++ fs) → MantissaText (ds ++ 46 :: fs) (numeralValue 10 (ds ++ fs)) fs.length

/-- An optional exponent. -/
inductive ExponentText : GoStr → Int → Prop
  | none : ExponentText [] 0
  | plain {c : UInt8} {ds : GoStr} : c = 101 ∨ c = 69 → Numeral 10 ds → ExponentText (c :: ds) (numeralValue 10 ds)
  | plus {c : UInt8} {ds : GoStr} : c = 101 ∨ c = 69 → Numeral 10 ds → ExponentText (c :: 43 :: ds) (numeralValue 10 ds)
  | minus {c : UInt8} {ds : GoStr} : c = 101 ∨ c = 69 → Numeral 10 ds → ExponentText (c :: 45 :: ds) (-(numeralValue 10 ds : Int))

/-- A number: `-1.5e3` is 15 times the power 2 of ten, with a minus. -/
inductive FloatLit : GoStr → Bool → Nat → Int → Prop
  | mk {s m x : GoStr} {neg : Bool} {n k : Nat} {e : Int} : SignText s neg → MantissaText m n k → ExponentText x e → FloatLit (s ++ m ++ x) neg n (e - k)

/-- The text is a number. -/
def IsFloatLit (tok : GoStr) : Prop := ∃ neg n e, FloatLit tok neg n e

/-- `tok` is the longest number at the start of `l`, and `rest` is what follows it. -/
def LongestFloat (l tok rest : GoStr) : Prop :=
  l = tok ++ rest ∧ IsFloatLit tok ∧ ∀ tok' rest', l = tok' ++ rest' → IsFloatLit tok' → tok'.length ≤ tok.length

/-- The letters of "nan", of either case. -/
def NanLetters (w : GoStr) : Prop := ∃ a b c, w = [a, b, c] ∧ (a = 78 ∨ a = 110) ∧ (b = 65 ∨ b = 97) ∧ (c = 78 ∨ c = 110)

/-- The first "nan" of the text, of either case, is "NaN", and `rest` is what follows it. -/
def FirstNaN (l rest : GoStr) : Prop :=
  ∃ skip, l = skip ++ gs! "NaN" ++ rest ∧ ∀ skip' w rest', l = skip' ++ w ++ rest' → NanLetters w → skip.length ≤ skip'.length

/-- Of all floats of the format (without sign) `m` is nearest to `n / d` times the smallest positive float; if another one is just as near, then `m` is even.
(The bits of the floats continue beyond infinity here as if there were no greatest exponent.) -/
def NearestFloat (f : FloatFmt) (n d m : Nat) : Prop :=
  ∀ m', m' ≠ m → ((n : Int) - f.units m * d).natAbs < ((n : Int) - f.units m' * d).natAbs ∨
    (((n : Int) - f.units m * d).natAbs = ((n : Int) - f.units m' * d).natAbs ∧ m % 2 = 0)

/-! ## Other types -/

/-- Texts that look like the pattern, where `d` stands for any digit. -/
def LooksLike (pattern text : GoStr) : Prop :=
  pattern.length = text.length ∧ ∀ pc ∈ pattern.zip text, if pc.1 = 100 then digitValue pc.2 < 10 else pc.2 = pc.1

/-- The form of a time: RFC 3339 with nine digits of a fraction of a second or none. -/
def TimeText (tok : GoStr) : Prop :=
  ∃ a f z, tok = a ++ f ++ z ∧ LooksLike (gs! "dddd-dd-ddTdd:dd:dd") a ∧ (f = [] ∨ LooksLike (gs! ".ddddddddd") f) ∧
    (z = gs! "Z" ∨ LooksLike (gs! "+dd:dd") z ∨ LooksLike (gs! "-dd:dd") z)

/-- `tok` is the first time in the text, and `rest` is what follows it. -/
def FirstTime (l tok rest : GoStr) : Prop :=
  ∃ skip, l = skip ++ tok ++ rest ∧ TimeText tok ∧ ∀ skip' tok' rest', l = skip' ++ tok' ++ rest' → TimeText tok' → skip.length ≤ skip'.length

/-- White characters between the elements of a slice. -/
def SliceBlank (c : UInt8) : Prop := c = 9 ∨ c = 10 ∨ c = 12 ∨ c = 13 ∨ c = 32

/-- The elements of a slice of bytes, one white character between two of them. -/
inductive BytesText : GoStr → List UInt8 → Prop
  | one {s : GoStr} {v : Nat} : UintLit s v → v ≤ 255 → BytesText s [UInt8.ofNat v]
  | cons {s more : GoStr} {v : Nat} {c : UInt8} {vs : List UInt8} : UintLit s v → v ≤ 255 → SliceBlank c → BytesText more vs →
      BytesText (s ++ c :: more) (UInt8.ofNat v :: vs)

/-- A letter or underscore. -/
def NameLetter (c : UInt8) : Prop := (65 ≤ c.toNat ∧ c.toNat ≤ 90) ∨ (97 ≤ c.toNat ∧ c.toNat ≤ 122) ∨ c = 95

/-- A name in ASCII: letters, digits and underscores, not beginning with a digit. -/
def PlainName (n : GoStr) : Prop := (∃ c cs, n = c :: cs ∧ NameLetter c) ∧ ∀ c ∈ n, NameLetter c ∨ (48 ≤ c.toNat ∧ c.toNat ≤ 57)

/-- An integer of the type at the start of the text. -/
def IntReads (k : IntKind) (l : GoStr) (v : Int) (rest : GoStr) : Prop :=
  ∃ tok, LongestToken k.signed l tok rest ∧ (if k.signed then IntLit tok v else ∃ n : Nat, v = n ∧ UintLit tok n) ∧ k.lo ≤ v ∧ v ≤ k.hi

/-! ## Cells and rows -/

/-- The value of a column at the start of a text, and the text after it.  Text before a rune, a "NaN" and a time is skipped.  `H` and `H'` are the memory before and
after: a new table is made for a cell of type `*Table`, its parent is the table `a`. -/
inductive CellReads (env : TextEnv) (a : Addr) : ColType → Heap → GoStr → Heap → Cell Addr → GoStr → Prop
  | int {ty k H l v rest} : ty.intKind? = some k → IntReads k l v rest → CellReads env a ty H l H (.int k v) rest
  | string {H body s rest} : StringText body s → CellReads env a .string H (34 :: body ++ 34 :: rest) H (.str s) rest
  | bool {H b rest} : (∀ c cs, rest = c :: cs → ¬ (NameLetter c ∨ (48 ≤ c.toNat ∧ c.toNat ≤ 57))) →
      CellReads env a .bool H ((if b then gs! "true" else gs! "false") ++ rest) H (.bool b) rest
  | noBytes {ty H rest} : ty = .byteSlice ∨ ty = .uint8Slice → CellReads env a ty H (gs! "[]" ++ rest) H (.bytes (some [])) rest
  | bytes {ty H content vs rest} : ty = .byteSlice ∨ ty = .uint8Slice → BytesText content vs →
      CellReads env a ty H (91 :: content ++ 93 :: rest) H (.bytes (some vs)) rest
  | rune {H skip body v rest} : 39 ∉ skip → RuneText body v → CellReads env a .rune H (skip ++ 39 :: body ++ 39 :: rest) H (.int .int32 v) rest
  | float32 {H l tok b rest} : LongestFloat l tok rest → env.float.parse32 tok = some b → isNaN32 b = false → CellReads env a .float32 H l H (.f32 b) rest
  | float64 {H l tok b rest} : LongestFloat l tok rest → env.float.parse64 tok = some b → isNaN64 b = false → CellReads env a .float64 H l H (.f64 b) rest
  | nan32 {H l b rest} : (¬ ∃ tok rest, l = tok ++ rest ∧ IsFloatLit tok) → FirstNaN l rest → env.float.parse32 (gs! "NaN") = some b →
      CellReads env a .float32 H l H (.f32 b) rest
  | nan64 {H l b rest} : (¬ ∃ tok rest, l = tok ++ rest ∧ IsFloatLit tok) → FirstNaN l rest → env.float.parse64 (gs! "NaN") = some b →
      CellReads env a .float64 H l H (.f64 b) rest
  | noTable {H rest} : CellReads env a .table H (gs! "[]" ++ rest) (H ++ [{ (newNilTable : Table Addr) with parent := some a }]) (.tbl (some H.length)) rest
  | table {H n rest} : PlainName n → ColType.ofName? n = none →
      CellReads env a .table H (91 :: n ++ 93 :: rest) (H ++ [{ (newNilTable : Table Addr) with name := n, isNilTable := false, parent := some a }]) (.tbl (some H.length)) rest
  | time {H l tok t rest} : FirstTime l tok rest → env.parseTime tok = some t → CellReads env a .time H l H (.time t) rest

/-- A row of values: spaces and tabs may follow each of them. -/
inductive RowReads (env : TextEnv) (a : Addr) : List ColType → Heap → GoStr → Heap → List (Cell Addr) → Prop
  | nil {H} : RowReads env a [] H [] H []
  | cons {ty tys H l H1 c blanks more H2 cs} : CellReads env a ty H l H1 c (blanks ++ more) → (∀ b ∈ blanks, b = 32 ∨ b = 9) →
      (∀ b bs, more = b :: bs → b ≠ 32 ∧ b ≠ 9) → RowReads env a tys H1 more H2 cs → RowReads env a (ty :: tys) H l H2 (c :: cs)

/-- The rows of a table, one line after the other: each row is appended to the table `t` at the address `a`. -/
inductive RowsRead (env : TextEnv) (a : Addr) : Table Addr → Heap → List GoStr → Heap → Prop
  | nil {t H} : RowsRead env a t H [] H
  | cons {t H l H1 cells ls H'} : RowReads env a t.colTypes H l H1 cells →
      RowsRead env a { t with rows := t.rows ++ [cells] } (H1.set a { t with rows := t.rows ++ [cells] }) ls H' → RowsRead env a t H (l :: ls) H'

/-- A line that is neither blank nor a comment, without the spaces around it: the first and the last character are visible ASCII. -/
def PlainLine (l : GoStr) : Prop :=
  10 ∉ l ∧ (∃ c cs, l = c :: cs ∧ 33 ≤ c.toNat ∧ c.toNat ≤ 126 ∧ c ≠ 35) ∧ ∃ c, l.getLast? = some c ∧ 33 ≤ c.toNat ∧ c.toNat ≤ 126

end Verif
