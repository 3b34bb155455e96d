import Verif.Model.Yaml
import Verif.Spec.Json

/-!
# Specification: tables as maps, and what YAML preserves
-/

namespace Verif

/-- The text for the type of a column: the name of the type, with quotes if it is "*Table". -/
def typeText : ColType → GoStr
  | .table => gs! "\"*Table\""
  | ty => ty.name

/-- What stands for a value: the value itself; for a nested table a map, related to it by `R`. -/
def CellMap (R : Addr → List (GoStr × GoVal) → Prop) : Cell Addr → GoVal → Prop
  | .tbl (some b), v => ∃ m, v = .map m ∧ R b m
  | c, v => v = .val c

/-- The map `m` describes table `t`: its name, its shape if it is a struct, its columns as maps from name to type, its rows as slices of values, and nothing else. -/
structure TableEntries (R : Addr → List (GoStr × GoVal) → Prop) (t : Table Addr) (m : List (GoStr × GoVal)) : Prop where
  name : mapGet m (gs! "tableName") = some (.val (.str t.name))
  shape : mapGet m (gs! "isStructShape") = if t.isStructShape then some (.val (.bool true)) else none
  metadata : ∃ cols, mapGet m (gs! "metadata") = some (.list cols) ∧
    Pointwise (fun (p : GoStr × ColType) v => v = .map [(p.1, .val (.str (typeText p.2)))]) (t.colNames.zip t.colTypes) cols
  data : ∃ rows, mapGet m (gs! "data") = some (.list rows) ∧ Pointwise (fun row v => ∃ cells, v = .list cells ∧ Pointwise (CellMap R) row cells) t.rows rows
  keys : (m.map Prod.fst).Nodup ∧ ∀ k ∈ m.map Prod.fst, k ∈ [gs! "tableName", gs! "isStructShape", gs! "metadata", gs! "data"]

/-- The map `m` describes the table at `a` and the tables nested in it.  `d` bounds the depth. -/
def TableMap (H : Heap) : Nat → Addr → List (GoStr × GoVal) → Prop
  | 0, _, _ => False
  | d + 1, a, m => ∃ t, H[a]? = some t ∧ TableEntries (TableMap H d) t m

/-- The map `m` describes the table set. -/
structure SetMap (H : Heap) (d : Nat) (S : TableSet) (m : List (GoStr × GoVal)) : Prop where
  name : mapGet m (gs! "tableSetName") = some (.val (.str S.name))
  tables : ∃ vs, mapGet m (gs! "tables") = some (.list vs) ∧ Pointwise (fun a v => ∃ o, v = .map o ∧ TableMap H d a o) S.tables vs
  keys : (m.map Prod.fst).Nodup ∧ ∀ k ∈ m.map Prod.fst, k ∈ [gs! "tableSetName", gs! "tables"]

/-- Neither the table at `a` nor any table nested in it is nested in itself. -/
def NoCycle (H : Heap) (a : Addr) : Prop := ∀ x, (x = a ∨ Below H a x) → ¬ Below H x x

/-! ## What YAML preserves -/

/-- What yaml.v3 makes of a float with the digits `text`, the value of which is `x`: a whole number below a million is written without a point or an exponent, and read as an `int`. -/
def backFloat (text : GoStr) (x : BitVec 64) : Cell Addr :=
  match f64Trunc x with
  | some v => if v.natAbs < 1000000 ∧ (text = fmtInt v ∨ (v = 0 ∧ text = gs! "-0")) then .int .int v else .f64 x
  | none => .f64 x

/-- What a value of a cell is read as: an integer as an `int`, or as a `uint64` if it is too great for that; a float as the `float64` nearest to its digits, or
as above; bytes as `int`s. -/
def backCell : Cell Addr → GoVal
  | .int _ v => .val (if v ≤ 2 ^ 63 - 1 then .int .int v else .int .uint64 v)
  | .f32 b => .val (backFloat (goFloat.fmt32 b) ((goFloat.parse64 (goFloat.fmt32 b)).getD (if 2 ^ 31 ≤ b.toNat then 0xFFF0000000000000#64 else 0x7FF0000000000000#64)))
  | .f64 b => .val (backFloat (goFloat.fmt64 b) ((goFloat.parse64 (goFloat.fmt64 b)).getD b))
  | .bytes b => .list ((b.getD []).map fun x => .val (.int .int x.toNat))
  | c => .val c

mutual

/-- What a value is read as. -/
def GoVal.back : GoVal → GoVal
  | .val c => backCell c
  | .list l => .list (backList l)
  | .map m => .map (backMap m)

def backList : List GoVal → List GoVal
  | [] => []
  | v :: l => v.back :: backList l

def backMap : List (GoStr × GoVal) → List (GoStr × GoVal)
  | [] => []
  | (k, v) :: m => (k, v.back) :: backMap m

end

mutual

/-- Values of strings in `okStr` and times in `okTime`, and no pointers. -/
def GoVal.Kept (okStr : GoStr → Prop) (okTime : GoTime → Prop) : GoVal → Prop
  | .val (.str s) => okStr s
  | .val (.time t) => okTime t
  | .val (.tbl _) => False
  | .val _ => True
  | .list l => KeptList okStr okTime l
  | .map m => (m.map Prod.fst).Nodup ∧ KeptMap okStr okTime m

def KeptList (okStr : GoStr → Prop) (okTime : GoTime → Prop) : List GoVal → Prop
  | [] => True
  | v :: l => v.Kept okStr okTime ∧ KeptList okStr okTime l

def KeptMap (okStr : GoStr → Prop) (okTime : GoTime → Prop) : List (GoStr × GoVal) → Prop
  | [] => True
  | (k, v) :: m => okStr k ∧ v.Kept okStr okTime ∧ KeptMap okStr okTime m

end

/-- The texts in every document that the package writes. -/
def yamlWords : List GoStr :=
  [[], gs! "tableSetName", gs! "tables", gs! "tableName", gs! "isStructShape", gs! "metadata", gs! "data", gs! "string", gs! "bool", gs! "int", gs! "int8", gs! "int16", gs! "int32", gs! "int64",
   gs! "uint", gs! "uint8", gs! "uint16", gs! "uint32", gs! "uint64", gs! "float32", gs! "float64", gs! "byte", gs! "rune", gs! "[]byte", gs! "[]uint8", gs! "time.Time", gs! "\"*Table\""]

/-- What is assumed of yaml.v3: a map is written as a text that is not empty, and the text is read as said above, if its strings (and the keys of maps) are in `okStr` and its times in `okTime`. -/
structure YamlOK {Doc : Type} (Y : YamlLib Doc) (okStr : GoStr → Prop) (okTime : GoTime → Prop) : Prop where
  words : ∀ s ∈ yamlWords, okStr s
  back : ∀ m, (m.map Prod.fst).Nodup → KeptMap okStr okTime m → ∃ d, Y.marshal m = some d ∧ Y.isEmpty d = false ∧ Y.unmarshal d = some (backMap m)

/-- A value that is read back: a string or a time that yaml.v3 preserves, a `float64` that is not a whole number below a million, a `float32` that is not -0 and
that the `float64` nearest to its digits is rounded to. -/
def YamlSafe (okStr : GoStr → Prop) (okTime : GoTime → Prop) : Cell Addr → Prop
  | .str s => okStr s
  | .time t => okTime t
  | .f32 b => goFloat.fmt32 b ≠ gs! "-0" ∧ (finite32 b → ∃ x, goFloat.parse64 (goFloat.fmt32 b) = some x ∧ f64To32 x = b)
  | .f64 b => goFloat.fmt64 b ≠ gs! "-0" ∧ ∀ v : Int, v.natAbs < 1000000 → goFloat.fmt64 b ≠ fmtInt v
  | _ => True

/-- Names that yaml.v3 preserves and values that are read back, in the table at `a` and in all tables nested in it; a table that stands for "no table" has no name. -/
def YamlReady (okStr : GoStr → Prop) (okTime : GoTime → Prop) (H : Heap) (a : Addr) : Prop :=
  ∀ b t, (b = a ∨ Below H a b) → H[b]? = some t →
    (t.isNilTable = true → t.name = []) ∧ okStr t.name ∧ (∀ n ∈ t.colNames, okStr n) ∧ ∀ row ∈ t.rows, ∀ c ∈ row, YamlSafe okStr okTime c

/-- The same without regard to numbers: it can be written and read, but a float may not be read as it was. -/
def YamlWritable (okStr : GoStr → Prop) (okTime : GoTime → Prop) (H : Heap) (a : Addr) : Prop :=
  ∀ b t, (b = a ∨ Below H a b) → H[b]? = some t →
    okStr t.name ∧ (∀ n ∈ t.colNames, okStr n) ∧ ∀ row ∈ t.rows, (∀ s, .str s ∈ row → okStr s) ∧ (∀ v, .time v ∈ row → okTime v)

/-- A `float64` that is a whole number below a million. -/
def SmallWhole (b : BitVec 64) : Prop := ∃ v : Int, v.natAbs < 1000000 ∧ (goFloat.fmt64 b = fmtInt v ∨ (v = 0 ∧ goFloat.fmt64 b = gs! "-0"))

/-- The table at `a`, or one nested in it, has such a value. -/
def HasSmallWhole (H : Heap) (a : Addr) : Prop :=
  ∃ b t row x, (b = a ∨ Below H a b) ∧ H[b]? = some t ∧ row ∈ t.rows ∧ Cell.f64 x ∈ row ∧ SmallWhole x

mutual

/-- The integers in a value are of their types. -/
def GoVal.Real : GoVal → Prop
  | .val (.int k v) => k.Has v
  | .val _ => True
  | .list l => RealList l
  | .map m => RealMap m

def RealList : List GoVal → Prop
  | [] => True
  | v :: l => v.Real ∧ RealList l

def RealMap : List (GoStr × GoVal) → Prop
  | [] => True
  | (_, v) :: m => v.Real ∧ RealMap m

end

end Verif
