import Verif.Model.Json
import Verif.Spec.Text
import Verif.Spec.Tree

/-!
# Specification: what JSON preserves
-/

namespace Verif

/-- A code point that `%q` writes in a way that JSON allows: not a control character (but backspace, tab, line feed, form feed, carriage return), nor an unprintable one above U+FFFF.
`hi` says which code points above U+00FF are printable. -/
def JsonRune (hi : Nat → Bool) (r : Nat) : Prop :=
  ValidRune r ∧ (r = 8 ∨ r = 9 ∨ r = 10 ∨ r = 12 ∨ r = 13 ∨ (32 ≤ r ∧ r ≠ 127 ∧ (r < 0x10000 ∨ hi r = true)))

/-- A text of such code points, in UTF-8. -/
def JsonText (hi : Nat → Bool) (s : GoStr) : Prop := ∃ rs : List Nat, s = (rs.map encodeRune).flatten ∧ ∀ r ∈ rs, JsonRune hi r

/-- At most 53 significant bits: the integers that a `float64` represents. -/
def Bits53 (v : Int) : Prop := ∃ m e : Nat, v.natAbs = m * 2 ^ e ∧ m < 2 ^ 53

/-- `w` has at most 53 significant bits, and no such integer is nearer to `v`. -/
def Nearest53 (v w : Int) : Prop := Bits53 w ∧ ∀ u, Bits53 u → (v - w).natAbs ≤ (v - u).natAbs

/-- A value of the type. -/
def IntKind.Has (k : IntKind) (v : Int) : Prop := k.lo ≤ v ∧ v ≤ k.hi

/-- Plain characters: ASCII, neither control characters nor quotes nor backslashes. -/
def PlainText (s : GoStr) : Prop := ∀ c ∈ s, 32 ≤ c.toNat ∧ c.toNat < 127 ∧ c ≠ 34 ∧ c ≠ 92

/-- A conversion to an integer type gives a value of the type, whichever it be. -/
def CastOK (E : JsonEnv) : Prop := ∀ (k : IntKind) (x : BitVec 64), k.Has (E.cast k x)

/-- A value that JSON is not known to make unreadable or, but for integers, to change.  Of a `float32` it is asked that its text, read as a `float64`, is rounded to it again;
of a time, that the text that `Format` gives is plain and that `time.Parse` reads it back. -/
def JsonSafe (P : PrintEnv) (E : JsonEnv) (ty : ColType) : Cell Addr → Prop
  | .str s => JsonText P.printable s
  | .int _ v => ty = .rune → 0 ≤ v ∧ JsonRune P.printable v.toNat
  | .f32 b => finite32 b ∧ ∃ x, E.text.float.parse64 (P.text.float.fmt32 b) = some x ∧ f64To32 x = b
  | .f64 b => finite64 b
  | .time v => PlainText (P.fmtTime v) ∧ E.text.parseTime (P.fmtTime v) = some v
  | _ => True

/-- A table that JSON can express: well-formed, with ASCII names, and cells as above. -/
structure JsonWritable (P : PrintEnv) (E : JsonEnv) (t : Table Addr) : Prop where
  wf : WF t
  ascii : Ascii t.name
  asciiCols : ∀ n ∈ t.colNames, Ascii n
  safe : ∀ row ∈ t.rows, Pointwise (fun ty c => JsonSafe P E ty c) t.colTypes row

/-- JSON can express the table at `a` and all tables nested in it. -/
def JsonReady (P : PrintEnv) (E : JsonEnv) (H : Heap) (a : Addr) : Prop := ∀ b t, (b = a ∨ Below H a b) → H[b]? = some t → t.isNilTable = false → JsonWritable P E t

/-- All integers have at most 53 significant bits. -/
def SmallInts (t : Table Addr) : Prop := ∀ row ∈ t.rows, ∀ k v, Cell.int k v ∈ row → Bits53 v

/-- … in the table at `a` and in all tables nested in it. -/
def SmallTree (H : Heap) (a : Addr) : Prop := ∀ b t, (b = a ∨ Below H a b) → H[b]? = some t → SmallInts t

/-- A value whose text is valid JSON.  (The text of a code point that is not a valid one is that of U+FFFD.) -/
def JsonSpelled (P : PrintEnv) (ty : ColType) : Cell Addr → Prop
  | .str s => JsonText P.printable s
  | .int _ v => ty = .rune → 0 ≤ v → ValidRune v.toNat → JsonRune P.printable v.toNat
  | .f32 b => finite32 b
  | .f64 b => finite64 b
  | _ => True

/-- All names are ASCII, in the table at `a` and in all tables nested in it. -/
def AsciiTree (H : Heap) (a : Addr) : Prop := ∀ b t, (b = a ∨ Below H a b) → H[b]? = some t → t.isNilTable = false → Ascii t.name ∧ ∀ n ∈ t.colNames, Ascii n

/-- The texts of all values are valid JSON, in the table at `a` and in all tables nested in it. -/
def SpelledTree (P : PrintEnv) (H : Heap) (a : Addr) : Prop :=
  ∀ b t, (b = a ∨ Below H a b) → H[b]? = some t → t.isNilTable = false → ∀ row ∈ t.rows, Pointwise (JsonSpelled P) t.colTypes row

/-- The texts of all times can be parsed, in the table at `a` and in all tables nested in it. -/
def TimesParse (P : PrintEnv) (E : JsonEnv) (H : Heap) (a : Addr) : Prop :=
  ∀ b t, (b = a ∨ Below H a b) → H[b]? = some t → ∀ row ∈ t.rows, ∀ v, Cell.time v ∈ row → ∃ w, E.text.parseTime (P.fmtTime v) = some w

/-- What becomes of a value: an integer is replaced by a nearest one of 53 significant bits (or by any integer, if that is not one of the type); the others are the same. -/
def JsonValue : Cell Addr → Cell Addr → Prop
  | .int k v, c => ∃ w, c = .int k w ∧ k.Has w ∧ (Nearest53 v w ∨ ∃ n, Nearest53 v n ∧ ¬ k.Has n)
  | x, c => SameValue x c

/-- … of any value that is read at all: a code point that is not a valid one becomes U+FFFD, a `float32` is rounded twice, a time is what its text is parsed as. -/
def JsonRead (P : PrintEnv) (E : JsonEnv) : Cell Addr → Cell Addr → Prop
  | .int k v, c => JsonValue (.int k v) c ∨ (k = .int32 ∧ ¬ (0 ≤ v ∧ ValidRune v.toNat) ∧ c = .int k 0xFFFD)
  | .f32 b, c => ∃ x, E.text.float.parse64 (P.text.float.fmt32 b) = some x ∧ c = .f32 (f64To32 x)
  | .time v, c => ∃ w, E.text.parseTime (P.fmtTime v) = some w ∧ c = .time w
  | x, c => SameValue x c

/-- Corresponding cells: of nested tables, both stand for "no table" or they are related by `R`; other values are related by `V`. -/
def SameCell (V : Cell Addr → Cell Addr → Prop) (H H' : Heap) (lo : Addr) (R : Addr → Addr → Prop) : Cell Addr → Cell Addr → Prop
  | .tbl (some b), c => ∃ b', c = .tbl (some b') ∧ lo ≤ b' ∧ ((IsNil H b ∧ IsNil H' b') ∨ R b b')
  | x, c => V x c

/-- The tree of tables at `a'` in memory `H'` corresponds to that at `a` in memory `H`: the same names, shapes, columns and numbers of rows, with values related by `V` and
nested tables that correspond in turn; and it consists of well-formed tables at addresses from `lo` on, without sort keys.  `d` bounds the depth of the trees. -/
def JsonTree (V : Cell Addr → Cell Addr → Prop) (H H' : Heap) (lo : Addr) : Nat → Addr → Addr → Prop
  | 0, _, _ => False
  | d + 1, a, a' => lo ≤ a' ∧ ∃ t t', H[a]? = some t ∧ H'[a']? = some t' ∧ t.isNilTable = false ∧ t'.isNilTable = false ∧ WF t' ∧ t'.sortKeys = [] ∧
      t'.name = t.name ∧ t'.isStructShape = t.isStructShape ∧ t'.colNames = t.colNames ∧ t'.colTypes = t.colTypes ∧
      Pointwise (Pointwise (SameCell V H H' lo (JsonTree V H H' lo d))) t.rows t'.rows

/-- The table at `a` is not nested in itself, and every table nested in it (other than those that stand for "no table") is stored in one cell only. -/
structure OnceEach (H : Heap) (a : Addr) : Prop where
  notBelow : ¬ Below H a a
  once : ∀ x c r x' c' r' b, (x = a ∨ Below H a x) → (x' = a ∨ Below H a x') → HoldsAt H x c r b → HoldsAt H x' c' r' b → ¬ IsNil H b → x = x' ∧ c = c' ∧ r = r'

/-- The object `m'` stands for the table that `m` stands for, or for one nested in it. -/
inductive TableWithin (m : List (GoStr × JVal)) : List (GoStr × JVal) → Prop
  | self : TableWithin m m
  | nested {m' data cells o k m''} : TableWithin m m' → jsonGet m' (gs! "data") = some (.arr data) → .arr cells ∈ data → .obj o ∈ cells → (k, .obj m'') ∈ o → TableWithin m m''

/-- The object `m` has the form of a table, nested tables aside.  Nothing is asked of names, types and values but that strings for columns of type `rune` are not empty. -/
structure TableShape (m : List (GoStr × JVal)) : Prop where
  /-- columns are objects -/
  columns : ∀ metadata, jsonGet m (gs! "metadata") = some (.arr metadata) → ∀ v ∈ metadata, ∃ o, v = .obj o
  /-- rows are arrays, not longer than there are columns -/
  rows : ∀ metadata data, jsonGet m (gs! "metadata") = some (.arr metadata) → jsonGet m (gs! "data") = some (.arr data) → ∀ v ∈ data, ∃ cells, v = .arr cells ∧ cells.length ≤ metadata.length
  /-- cells are objects -/
  cells : ∀ data cells, jsonGet m (gs! "data") = some (.arr data) → .arr cells ∈ data → ∀ v ∈ cells, ∃ o, v = .obj o
  /-- arrays in cells are of numbers -/
  bytes : ∀ data cells o k l, jsonGet m (gs! "data") = some (.arr data) → .arr cells ∈ data → .obj o ∈ cells → (k, .arr l) ∈ o → ∀ v ∈ l, ∃ text, v = .num text
  /-- strings for runes are not empty -/
  runes : ∀ metadata data cells (i : Nat) c n o k, jsonGet m (gs! "metadata") = some (.arr metadata) → jsonGet m (gs! "data") = some (.arr data) → .arr cells ∈ data →
    metadata[i]? = some (.obj c) → (n, .str (gs! "rune")) ∈ c → cells[i]? = some (.obj o) → (k, .str []) ∉ o

/-- The text is read as an object with the form of a set of tables. -/
def JsonShape (s : GoStr) : Prop := ∀ m tables, jsonDecode s = some m → jsonGet m (gs! "tables") = some (.arr tables) → ∀ v ∈ tables, ∃ o, v = .obj o ∧ ∀ o', TableWithin o o' → TableShape o'

end Verif
