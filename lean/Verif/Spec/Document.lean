import Verif.Spec.Values
import Verif.Spec.Text

/-!
# Specification: the text of a table set

The grammar of a whole text: lines, comments, words, table names, the four forms of a table and the name of the set.  `Verif.Spec.Values` has the grammar of the
values.
-/

namespace Verif

/-! ## Lines and words -/

/-- The lines of a text: the pieces between newlines.  There is at least one. -/
inductive LinesOf : GoStr → List GoStr → Prop
  | last {l : GoStr} : 10 ∉ l → LinesOf l [l]
  | cons {l more : GoStr} {ls : List GoStr} : 10 ∉ l → LinesOf more ls → LinesOf (l ++ 10 :: more) (l :: ls)

/-- The code points of white space, of Unicode. -/
def SpaceRune (r : Nat) : Prop :=
  (9 ≤ r ∧ r ≤ 13) ∨ r = 0x20 ∨ r = 0x85 ∨ r = 0xA0 ∨ r = 0x1680 ∨ (0x2000 ≤ r ∧ r ≤ 0x200A) ∨ r = 0x2028 ∨ r = 0x2029 ∨ r = 0x202F ∨ r = 0x205F ∨ r = 0x3000

/-- A text of white space. -/
inductive SpaceText : GoStr → Prop
  | nil : SpaceText []
  | cons {r : Nat} {s : GoStr} : SpaceRune r → SpaceText s → SpaceText (encodeRune r ++ s)

/-- `m` is `l` without the white space around it. -/
def Trimmed (l m : GoStr) : Prop :=
  ∃ before after, l = before ++ m ++ after ∧ SpaceText before ∧ SpaceText after ∧ ∀ r, SpaceRune r → ¬ encodeRune r <+: m ∧ ¬ encodeRune r <:+ m

/-- The words of a line, with white characters between them. -/
inductive Words : GoStr → List GoStr → Prop
  | one {w : GoStr} : w ≠ [] → (∀ c ∈ w, ¬ SliceBlank c) → Words w [w]
  | cons {w gap more : GoStr} {ws : List GoStr} : w ≠ [] → (∀ c ∈ w, ¬ SliceBlank c) → gap ≠ [] → (∀ c ∈ gap, SliceBlank c) → Words more ws →
      Words (w ++ gap ++ more) (w :: ws)

/-- A comment begins with `#`. -/
def isComment (l : GoStr) : Bool := l.head? = some 35

/-- The lines without the comments.  A comment at the very end counts as a blank line. -/
def withoutComments (ls : List GoStr) : List GoStr :=
  ls.filter (fun l => !isComment l) ++ (if ls.getLast?.any isComment then [[]] else [])

/-! ## Names -/

/-- A letter of ISO 8859-1, or an underscore. -/
def WideLetter (c : UInt8) : Prop := NameLetter c ∨ c = 0xAA ∨ c = 0xB5 ∨ c = 0xBA ∨ (0xC0 ≤ c.toNat ∧ c ≠ 0xD7 ∧ c ≠ 0xF7)

/-- A digit or another number of ISO 8859-1: superscripts and fractions. -/
def WideDigit (c : UInt8) : Prop := (48 ≤ c.toNat ∧ c.toNat ≤ 57) ∨ c = 0xB2 ∨ c = 0xB3 ∨ c = 0xB9 ∨ c = 0xBC ∨ c = 0xBD ∨ c = 0xBE

/-- The name of a column: each byte counts as a character of ISO 8859-1. -/
def ColName (n : GoStr) : Prop :=
  (∃ c cs, n = c :: cs ∧ WideLetter c) ∧ (∀ c ∈ n, WideLetter c ∨ WideDigit c) ∧ ∀ ty : ColType, n ≠ ty.name

/-- The name of a table in a text. -/
def TableName (n : GoStr) : Prop := PlainName n ∧ ∀ ty : ColType, n ≠ ty.name

/-! ## Tables -/

/-- A table as it is read: without sort keys and without a parent. -/
def readTableOf (name : GoStr) (cols : List (GoStr × ColType)) (rows : List (List (Cell Addr))) (struct : Bool) : Table Addr :=
  { (newNilTable : Table Addr) with
    name := name, isNilTable := false, colNames := cols.map Prod.fst, colTypes := cols.map Prod.snd, colMap := (cols.map Prod.fst).zipIdx, rows := rows,
    isStructShape := struct }

/-- A line of a struct declares a column.  Only the first two words count. -/
def FieldLine (l : GoStr) (col : GoStr × ColType) : Prop := ColName col.1 ∧ ∃ more, Words l (col.1 :: col.2.name :: more)

/-- The value of a line of a struct: the text after the first equals sign, without blanks before it. -/
def FieldValue (l value : GoStr) : Prop :=
  ∃ front blanks, l = front ++ 61 :: blanks ++ value ∧ 61 ∉ front ∧ (∀ c ∈ blanks, c = 32 ∨ c = 9 ∨ c = 13 ∨ c = 10) ∧
    ∀ c cs, value = c :: cs → ¬ (c = 32 ∨ c = 9 ∨ c = 13 ∨ c = 10)

/-- The lines of a struct with values.  Each line has at least four words, appends a column to the table at the address `a`, and appends the value to its only row.
Each line leaves a spare table in memory: a child of the table for the first line. -/
inductive FieldsRead (env : TextEnv) (a : Addr) (name : GoStr) : List (GoStr × ColType) → List (Cell Addr) → Heap → List GoStr → Heap → Prop
  | nil {cols row H} : FieldsRead env a name cols row H [] H
  | cons {cols row H l n ty w1 w2 more value H1 cell ls H'} : ColName n → Words l (n :: ty.name :: w1 :: w2 :: more) → n ∉ cols.map Prod.fst →
      FieldValue l value →
      RowReads env a [ty] (H ++ [{ (newNilTable : Table Addr) with parent := if cols = [] then some a else none }]) value H1 [cell] →
      FieldsRead env a name (cols ++ [(n, ty)]) (row ++ [cell]) (H1.set a (readTableOf name (cols ++ [(n, ty)]) [row ++ [cell]] true)) ls H' →
      FieldsRead env a name cols row H (l :: ls) H'

/-- The lines of a table, its name, and the memory before and after.  The table gets the next address.  The flag says that no line follows, not even an empty one. -/
inductive BlockReads (env : TextEnv) (H : Heap) : Bool → List GoStr → GoStr → Heap → Prop
  /-- No columns. -/
  | bare {last n} : TableName n → BlockReads env H last [91 :: n ++ [93]] n (H ++ [readTableOf n [] [] false])
  /-- Names of columns at the very end of the text: they are lost. -/
  | lost {n l ns} : TableName n → Words l ns → (∀ x ∈ ns, ColName x) → BlockReads env H true [91 :: n ++ [93], l] n (H ++ [readTableOf n [] [] false])
  /-- A line with names, a line with types, and the rows. -/
  | table {last n l1 l2 cols rows H'} : TableName n → Words l1 (cols.map Prod.fst) → Words l2 (cols.map fun c => c.2.name) → (∀ c ∈ cols, ColName c.1) →
      (cols.map Prod.fst).Nodup →
      RowsRead env H.length (readTableOf n cols [] false) (H ++ [readTableOf n cols [] false]) rows H' →
      BlockReads env H last ((91 :: n ++ [93]) :: l1 :: l2 :: rows) n H'
  /-- A struct without values: the first line has exactly two words. -/
  | struct {last n l col ls cols} : TableName n → ColName col.1 → Words l [col.1, col.2.name] → Pointwise FieldLine ls cols →
      ((col :: cols).map Prod.fst).Nodup →
      BlockReads env H last ((91 :: n ++ [93]) :: l :: ls) n (H ++ [readTableOf n (col :: cols) [] true])
  /-- A struct with values: the third word of the first line is an equals sign. -/
  | values {last n l c ty w more ls H'} : TableName n → Words l (c :: ColType.name ty :: gs! "=" :: w :: more) →
      FieldsRead env H.length n [] [] (H ++ [readTableOf n [] [] false]) (l :: ls) H' →
      BlockReads env H last ((91 :: n ++ [93]) :: l :: ls) n H'

/-- The lines of a text without comments and without the white space around them.  The flag says that the set has been named.  The name of the set may stand between
tables too, but only once.  A blank line or the end of the text ends a table. -/
inductive DocReads (env : TextEnv) : Heap → TableSet → Bool → List GoStr → Heap → TableSet → Prop
  | nil {H set named} : DocReads env H set named [] H set
  | blank {H set named ls H' set'} : DocReads env H set named ls H' set' → DocReads env H set named ([] :: ls) H' set'
  | name {H set n ls H' set'} : PlainName n → DocReads env H { set with name := n } true ls H' set' →
      DocReads env H set false ((91 :: 91 :: n ++ [93, 93]) :: ls) H' set'
  | table {H set named ls n H1 rest H' set'} : BlockReads env H rest.isEmpty ls n H1 → (∀ l ∈ ls, l ≠ []) → (rest = [] ∨ ∃ more, rest = [] :: more) →
      (∀ b ∈ set.tables, nameAt H b ≠ n) → DocReads env H1 { set with tables := set.tables ++ [H.length] } named rest H' set' →
      DocReads env H set named (ls ++ rest) H' set'

/-- A text, the memory before, and the memory and the table set after it is read. -/
def TextReads (env : TextEnv) (H : Heap) (s : GoStr) (H' : Heap) (set : TableSet) : Prop :=
  ∃ ls ms, LinesOf s ls ∧ Pointwise Trimmed ls ms ∧ DocReads env H (newTableSet []) false (withoutComments ms) H' set

end Verif
