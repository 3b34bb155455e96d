import Verif.Model.Core
import Verif.Spec.Accessors

/-!
# The part of the Go language in which the generated functions are written

`GenerateTypeStruct`, `GenerateTypeStructSliceFromTable` and `GenerateTypeStructSliceToTable` write Go source text.  To say what that text
means, this file has the syntax of the statements and expressions that occur in it, how they are written down (`Func.text`), when the compiler
accepts them (`Program.compiles`) and what they do (`Func.run`).  It is a specification: it follows the Go language specification, not /repo,
and knows nothing of the generators.  Identifiers are those of ASCII letters, digits and `_` (Go has others too).
-/

namespace Verif.GoLang

open Verif

/-! ## Syntax -/

/-- Expressions (and types, which Go writes like expressions). -/
inductive Expr where
  /-- `x` -/
  | id (x : GoStr)
  /-- `"s"` -/
  | str (s : GoStr)
  /-- `[]string{"a","b"}` -/
  | strs (l : List GoStr)
  /-- `[]e` -/
  | sliceOf (e : Expr)
  /-- `*e` -/
  | ptrTo (e : Expr)
  /-- `e.f` -/
  | sel (e : Expr) (f : GoStr)
  /-- `e[i]` -/
  | idx (e i : Expr)
  /-- `f()`, `f(a)`, `f(a, b)`, `f(a, b, c)` -/
  | call0 (f : Expr)
  | call1 (f a : Expr)
  | call2 (f a b : Expr)
  | call3 (f a b c : Expr)
  /-- `a == b` and `a != b` -/
  | eq (a b : Expr)
  | ne (a b : Expr)
  deriving DecidableEq, Repr

/-- Statement lists: each statement is followed by the rest of its block. -/
inductive Code where
  /-- the end of the block -/
  | done
  /-- an empty line -/
  | gap (rest : Code)
  /-- `var x T` -/
  | var (x : GoStr) (type : Expr) (rest : Code)
  /-- `var x T = e` -/
  | varInit (x : GoStr) (type e : Expr) (rest : Code)
  /-- `x, y := e` -/
  | define (x y : GoStr) (e : Expr) (rest : Code)
  /-- `lhs = e` -/
  | assign (lhs e : Expr) (rest : Code)
  /-- `x, y = e` -/
  | assign2 (x y : GoStr) (e : Expr) (rest : Code)
  /-- `if c { body }` -/
  | ifThen (c : Expr) (body rest : Code)
  /-- `for x := 0; x < lim; x++ { body }` -/
  | forUp (x : GoStr) (lim : Expr) (body rest : Code)
  /-- `return a, b` -/
  | ret (a b : Expr) (rest : Code)
  deriving DecidableEq, Repr

/-- `func name(param type) (res1, res2) { body }` -/
structure Func where
  name : GoStr
  param : GoStr
  type : Expr
  res1 : Expr
  res2 : Expr
  body : Code
  deriving DecidableEq, Repr

/-- `type name struct { field type … }`; the type of a field is a column type, written as the library spells it. -/
structure Struct where
  name : GoStr
  fields : List (GoStr × ColType)
  deriving DecidableEq, Repr

/-! ## Text -/

/-- Items with commas between. -/
def commas : List GoStr → GoStr
  | [] => []
  | [x] => x
  | x :: y :: l => x ++ gs! "," ++ commas (y :: l)

/-- `"s"`, for a text in which nothing needs an escape. -/
def strText (s : GoStr) : GoStr := gs! "\"" ++ s ++ gs! "\""

/-- The text of an expression. -/
def Expr.text : Expr → GoStr
  | id x => x
  | str s => strText s
  | strs l => gs! "[]string{" ++ commas (l.map strText) ++ gs! "}"
  | sliceOf e => gs! "[]" ++ e.text
  | ptrTo e => gs! "*" ++ e.text
  | sel e f => e.text ++ gs! "." ++ f
  | idx e i => e.text ++ gs! "[" ++ i.text ++ gs! "]"
  | call0 f => f.text ++ gs! "()"
  | call1 f a => f.text ++ gs! "(" ++ a.text ++ gs! ")"
  | call2 f a b => f.text ++ gs! "(" ++ a.text ++ gs! ", " ++ b.text ++ gs! ")"
  | call3 f a b c => f.text ++ gs! "(" ++ a.text ++ gs! ", " ++ b.text ++ gs! ", " ++ c.text ++ gs! ")"
  | eq a b => a.text ++ gs! " == " ++ b.text
  | ne a b => a.text ++ gs! " != " ++ b.text

/-- `n` tabulators. -/
def tabs (n : Nat) : GoStr := List.replicate n 9

/-- The text of statements that are indented by `n`, a line each. -/
def Code.text (n : Nat) : Code → GoStr
  | done => []
  | gap rest => gs! "\n" ++ rest.text n
  | var x t rest => tabs n ++ gs! "var " ++ x ++ gs! " " ++ t.text ++ gs! "\n" ++ rest.text n
  | varInit x t e rest => tabs n ++ gs! "var " ++ x ++ gs! " " ++ t.text ++ gs! " = " ++ e.text ++ gs! "\n" ++ rest.text n
  | define x y e rest => tabs n ++ x ++ gs! ", " ++ y ++ gs! " := " ++ e.text ++ gs! "\n" ++ rest.text n
  | assign l e rest => tabs n ++ l.text ++ gs! " = " ++ e.text ++ gs! "\n" ++ rest.text n
  | assign2 x y e rest => tabs n ++ x ++ gs! ", " ++ y ++ gs! " = " ++ e.text ++ gs! "\n" ++ rest.text n
  | ifThen c body rest => tabs n ++ gs! "if " ++ c.text ++ gs! " {\n" ++ body.text (n + 1) ++ tabs n ++ gs! "}\n" ++ rest.text n
  | forUp x lim body rest =>
    tabs n ++ gs! "for " ++ x ++ gs! " := 0; " ++ x ++ gs! " < " ++ lim.text ++ gs! "; " ++ x ++ gs! "++ {\n" ++
      body.text (n + 1) ++ tabs n ++ gs! "}\n" ++ rest.text n
  | ret a b rest => tabs n ++ gs! "return " ++ a.text ++ gs! ", " ++ b.text ++ gs! "\n" ++ rest.text n

/-- The text of a function. -/
def Func.text (f : Func) : GoStr :=
  gs! "func " ++ f.name ++ gs! "(" ++ f.param ++ gs! " " ++ f.type.text ++ gs! ") (" ++ f.res1.text ++ gs! ", " ++ f.res2.text ++
    gs! ") {\n" ++ f.body.text 1 ++ gs! "}\n"

/-- The text of a type declaration. -/
def Struct.text (s : Struct) : GoStr :=
  gs! "type " ++ s.name ++ gs! " struct {\n" ++ (s.fields.map fun f => gs! "\t" ++ f.1 ++ gs! " " ++ f.2.name ++ gs! "\n").flatten ++ gs! "}\n"

/-- A comment. -/
def comment (s : GoStr) : GoStr := gs! "/*\n" ++ s ++ gs! "*/\n"

/-! ## What the compiler accepts -/

/-- The types of values. -/
inductive Ty where
  | table | tablePtr | error | record | records | strs
  | col (ty : ColType)
  deriving DecidableEq, Repr

/-- What an expression can stand for: a value, a function, a type, a package, a predeclared function, `nil`, or the two results of a call. -/
inductive Kind where
  | val (t : Ty)
  | fn (args res : List Ty)
  | typ (t : Ty)
  | pkg (p : GoStr)
  | builtin (f : GoStr)
  | nil
  | pair (a b : Ty)
  deriving DecidableEq, Repr

/-- The keywords of Go. -/
def keywords : List GoStr :=
  [gs! "break", gs! "case", gs! "chan", gs! "const", gs! "continue", gs! "default", gs! "defer", gs! "else", gs! "fallthrough", gs! "for",
   gs! "func", gs! "go", gs! "goto", gs! "if", gs! "import", gs! "interface", gs! "map", gs! "package", gs! "range", gs! "return",
   gs! "select", gs! "struct", gs! "switch", gs! "type", gs! "var"]

/-- The blank identifier. -/
def blank : GoStr := gs! "_"

/-- An ASCII letter or `_`. -/
def letter (b : UInt8) : Bool := (65 ≤ b && b ≤ 90) || (97 ≤ b && b ≤ 122) || b = 95

/-- An identifier of ASCII characters: a letter or `_`, then letters, digits and `_`; not a keyword. -/
def isIdent (s : GoStr) : Bool :=
  (match s with
   | [] => false
   | c :: cs => letter c && cs.all fun b => letter b || (48 ≤ b && b ≤ 57)) && !keywords.contains s

/-- The names declared in a block. -/
abbrev Scope := List (GoStr × Kind)

/-- What a name means: the innermost block counts. -/
def meaning : List Scope → GoStr → Option Kind
  | [], _ => none
  | sc :: out, x =>
    match sc.lookup x with
    | some k => some k
    | none => meaning out x

/-- The predeclared names that matter here.  The types without a name of one word are not names. -/
def predeclared : Scope :=
  [(gs! "nil", .nil), (gs! "len", .builtin (gs! "len")), (gs! "make", .builtin (gs! "make")), (gs! "error", .typ .error),
   (gs! "bool", .typ (.col .bool)), (gs! "byte", .typ (.col .byte)), (gs! "float32", .typ (.col .float32)), (gs! "float64", .typ (.col .float64)),
   (gs! "int", .typ (.col .int)), (gs! "int16", .typ (.col .int16)), (gs! "int32", .typ (.col .int32)), (gs! "rune", .typ (.col .rune)),
   (gs! "int64", .typ (.col .int64)), (gs! "int8", .typ (.col .int8)), (gs! "string", .typ (.col .string)), (gs! "uint", .typ (.col .uint)),
   (gs! "uint16", .typ (.col .uint16)), (gs! "uint32", .typ (.col .uint32)), (gs! "uint64", .typ (.col .uint64)), (gs! "uint8", .typ (.col .uint8))]

/-- The imports of the file into which the generated text is copied. -/
def imports : Scope := [(gs! "fmt", .pkg (gs! "fmt")), (gs! "gotables", .pkg (gs! "gotables"))]

/-- What is exported by a package, as far as it is used. -/
def exported (p f : GoStr) : Option Kind :=
  if p = gs! "fmt" ∧ f = gs! "Errorf" then some (.fn [.col .string] [.error])
  else if p = gs! "gotables" ∧ f = gs! "Table" then some (.typ .table)
  else if p = gs! "gotables" ∧ f = gs! "NewTableFromMetadata" then some (.fn [.col .string, .strs, .strs] [.tablePtr, .error])
  else none

/-- The methods of `*gotables.Table`, as far as they are used: the accessors of helpers.go, `RowCount` and `AppendRow`. -/
def method (m : GoStr) : Option Kind :=
  match getters.lookup m with
  | some ty => some (.fn [.col .string, .col .int] [.col ty, .error])
  | none =>
    match setters.lookup m with
    | some ty => some (.fn [.col .string, .col .int, .col ty] [.error])
    | none =>
      if m = gs! "RowCount" then some (.fn [] [.col .int])
      else if m = gs! "AppendRow" then some (.fn [] [.error])
      else none

/-- The types that have `nil` as a value. -/
def Ty.nilable : Ty → Bool
  | .tablePtr | .error | .records | .strs | .col .byteSlice | .col .uint8Slice => true
  | _ => false

/-- A value of this kind can be assigned to a variable of type `t`.  (Stricter than Go, where `byte` and `uint8` are one type.) -/
def assignable (t : Ty) : Kind → Bool
  | .val t' => t' = t
  | .nil => t.nilable
  | _ => false

/-- The kind of a call. -/
def callKind : Option Kind → List (Option Kind) → Option Kind
  | some (.fn args res), actual =>
    if actual.length = args.length ∧ (args.zip actual).all (fun p => match p.2 with | some k => assignable p.1 k | none => false) then
      match res with
      | [t] => some (.val t)
      | [a, b] => some (.pair a b)
      | _ => none
    else none
  | some (.builtin f), [some (.val t)] => if f = gs! "len" ∧ (t = .records ∨ t = .strs) then some (.val (.col .int)) else none
  | some (.builtin f), [some (.typ t), some (.val n)] => if f = gs! "make" ∧ t = .records ∧ n = .col .int then some (.val .records) else none
  | _, _ => none

/-- The kind of an expression in a program whose struct type has the given fields; `none` if the compiler refuses it. -/
def kindOf (fields : List (GoStr × ColType)) (scopes : List Scope) : Expr → Option Kind
  | .id x => if isIdent x then meaning scopes x else none
  | .str _ => some (.val (.col .string))
  | .strs _ => if meaning scopes (gs! "string") = some (.typ (.col .string)) then some (.val .strs) else none
  | .sliceOf e =>
    match kindOf fields scopes e with
    | some (.typ .record) => some (.typ .records)
    | some (.typ (.col .string)) => some (.typ .strs)
    | some (.typ (.col .byte)) => some (.typ (.col .byteSlice))
    | some (.typ (.col .uint8)) => some (.typ (.col .uint8Slice))
    | _ => none
  | .ptrTo e =>
    match kindOf fields scopes e with
    | some (.typ .table) => some (.typ .tablePtr)
    | _ => none
  | .sel e f =>
    if isIdent f = false ∨ f = blank then none
    else
      match kindOf fields scopes e with
      | some (.pkg p) => exported p f
      | some (.val .tablePtr) => method f
      | some (.val .record) => (fields.lookup f).map fun ty => .val (.col ty)
      | _ => none
  | .idx e i =>
    match kindOf fields scopes e, kindOf fields scopes i with
    | some (.val .records), some (.val (.col .int)) => some (.val .record)
    | some (.val .strs), some (.val (.col .int)) => some (.val (.col .string))
    | _, _ => none
  | .call0 f => callKind (kindOf fields scopes f) []
  | .call1 f a => callKind (kindOf fields scopes f) [kindOf fields scopes a]
  | .call2 f a b => callKind (kindOf fields scopes f) [kindOf fields scopes a, kindOf fields scopes b]
  | .call3 f a b c => callKind (kindOf fields scopes f) [kindOf fields scopes a, kindOf fields scopes b, kindOf fields scopes c]
  | .eq a b | .ne a b =>
    match kindOf fields scopes a, kindOf fields scopes b with
    | some (.val t), some .nil => if t.nilable then some (.val (.col .bool)) else none
    | _, _ => none

/-- The variable `x` occurs in the expression. -/
def Expr.uses (x : GoStr) : Expr → Bool
  | id y => x = y
  | str _ | strs _ => false
  | sliceOf e | ptrTo e | sel e _ | call0 e => e.uses x
  | idx a b | call1 a b | eq a b | ne a b => a.uses x || b.uses x
  | call2 a b c => a.uses x || b.uses x || c.uses x
  | call3 a b c d => a.uses x || b.uses x || c.uses x || d.uses x

/-- The variable `x` is used in the statements (an assignment to it alone is no use).  Stricter than Go: uses after another `:=` with `x` do not count. -/
def Code.uses (x : GoStr) : Code → Bool
  | done => false
  | gap rest => rest.uses x
  | var y t rest => t.uses x || (x ≠ y && rest.uses x)
  | varInit y t e rest => t.uses x || e.uses x || (x ≠ y && rest.uses x)
  | define y z e rest => e.uses x || (x ≠ y && x ≠ z && rest.uses x)
  | assign l e rest => (match l with | .id _ => false | _ => l.uses x) || e.uses x || rest.uses x
  | assign2 _ _ e rest => e.uses x || rest.uses x
  | ifThen c body rest => c.uses x || body.uses x || rest.uses x
  | forUp y lim body rest => (x ≠ y && (lim.uses x || body.uses x)) || rest.uses x
  | ret a b rest => a.uses x || b.uses x || rest.uses x

/-- The block ends in `return`. -/
def Code.returns : Code → Bool
  | done => false
  | gap rest | var _ _ rest | varInit _ _ _ rest | define _ _ _ rest | assign _ _ rest | assign2 _ _ _ rest | ifThen _ _ rest
  | forUp _ _ _ rest => rest.returns
  | ret _ _ done => true
  | ret _ _ rest => rest.returns

/-- `x` may be on the left of `:=` with a value of type `t`: it is new in the block, or a variable of that type, or blank. -/
def definable (sc : Scope) (x : GoStr) (t : Ty) : Bool :=
  isIdent x && (x = blank || (match sc.lookup x with | none => true | some k => k = .val t))

/-- `x` is a new variable for the block. -/
def fresh (sc : Scope) (x : GoStr) : Bool := x ≠ blank && (sc.lookup x).isNone

/-- The block with `x` declared, unless it is blank or was there before. -/
def declare (sc : Scope) (x : GoStr) (t : Ty) : Scope := if fresh sc x then (x, .val t) :: sc else sc

/-- The compiler accepts the statements as the rest of the block `sc`, inside the blocks `out`, in a function with the given result types. -/
def Code.accepted (fields : List (GoStr × ColType)) (res : Ty × Ty) : Code → Scope → List Scope → Bool
  | done, _, _ => true
  | gap rest, sc, out => rest.accepted fields res sc out
  | var x type rest, sc, out =>
    isIdent x && fresh sc x &&
    match kindOf fields (sc :: out) type with
    | some (.typ t) => rest.uses x && rest.accepted fields res ((x, .val t) :: sc) out
    | _ => false
  | varInit x type e rest, sc, out =>
    isIdent x && fresh sc x &&
    match kindOf fields (sc :: out) type, kindOf fields (sc :: out) e with
    | some (.typ t), some k => assignable t k && rest.uses x && rest.accepted fields res ((x, .val t) :: sc) out
    | _, _ => false
  | define x y e rest, sc, out =>
    match kindOf fields (sc :: out) e with
    | some (.pair a b) =>
      definable sc x a && definable sc y b && (x ≠ y || x = blank) && (fresh sc x || fresh sc y) &&
      (!fresh sc x || rest.uses x) && (!fresh sc y || rest.uses y) &&
      rest.accepted fields res (declare (declare sc x a) y b) out
    | _ => false
  | assign l e rest, sc, out =>
    (match l with | .id _ => true | .sel (.idx _ _) _ => true | _ => false) &&
    match kindOf fields (sc :: out) l, kindOf fields (sc :: out) e with
    | some (.val t), some k => assignable t k && rest.accepted fields res sc out
    | _, _ => false
  | assign2 x y e rest, sc, out =>
    match kindOf fields (sc :: out) (.id x), kindOf fields (sc :: out) (.id y), kindOf fields (sc :: out) e with
    | some (.val t), some (.val u), some (.pair a b) => a = t && b = u && rest.accepted fields res sc out
    | _, _, _ => false
  | ifThen c body rest, sc, out =>
    kindOf fields (sc :: out) c = some (.val (.col .bool)) && body.accepted fields res [] (sc :: out) && rest.accepted fields res sc out
  | forUp x lim body rest, sc, out =>
    isIdent x && x ≠ blank &&
    kindOf fields ([(x, .val (.col .int))] :: sc :: out) lim = some (.val (.col .int)) &&
    body.accepted fields res [] ([(x, .val (.col .int))] :: sc :: out) && rest.accepted fields res sc out
  | ret a b rest, sc, out =>
    match kindOf fields (sc :: out) a, kindOf fields (sc :: out) b with
    | some k, some k' => assignable res.1 k && assignable res.2 k' && rest.accepted fields res sc out
    | _, _ => false

/-- The compiler accepts the function.  The parameter is declared in the outermost block of the body. -/
def Func.accepted (f : Func) (fields : List (GoStr × ColType)) (scopes : List Scope) : Bool :=
  isIdent f.name && isIdent f.param && f.param ≠ blank &&
  match kindOf fields scopes f.type, kindOf fields scopes f.res1, kindOf fields scopes f.res2 with
  | some (.typ t), some (.typ a), some (.typ b) => f.body.returns && f.body.accepted fields (a, b) [(f.param, .val t)] scopes
  | _, _, _ => false

/-- How a column type reads as a Go type. -/
def typeExpr : ColType → Expr
  | .byteSlice => .sliceOf (.id (gs! "byte"))
  | .uint8Slice => .sliceOf (.id (gs! "uint8"))
  | .table => .ptrTo (.id (gs! "Table"))
  | .time => .sel (.id (gs! "time")) (gs! "Time")
  | ty => .id ty.name

/-- The compiler accepts the type declaration: distinct field names (but for `_`), and types that mean what they should. -/
def Struct.accepted (s : Struct) (scopes : List Scope) : Bool :=
  s.fields.all (fun f => isIdent f.1 && kindOf [] scopes (typeExpr f.2) = some (.typ (.col f.2))) &&
  ((s.fields.map Prod.fst).filter (· ≠ blank)).Pairwise (· ≠ ·)

/-- A file that imports `fmt` and `gotables` and consists of a struct type and functions. -/
structure Program where
  struct : Struct
  funcs : List Func

/-- The names declared by a program. -/
def Program.scopes (p : Program) : List Scope := [[(p.struct.name, .typ .record)], imports, predeclared]

/-- The compiler accepts the program: what is declared has a name that is an identifier, not an import, declared once, and not `init` or `main`,
which must be functions without parameters; and each declaration is accepted.  The other functions of the program are not called. -/
def Program.compiles (p : Program) : Bool :=
  let names := p.struct.name :: p.funcs.map Func.name
  names.all (fun n => isIdent n && n ≠ blank && n ≠ gs! "init" && n ≠ gs! "main" && (imports.lookup n).isNone) &&
  decide (names.Pairwise (· ≠ ·)) &&
  p.struct.accepted p.scopes && p.funcs.all fun f => f.accepted p.struct.fields p.scopes

/-! ## What the functions do -/

variable {τ : Type}

/-- Values: `nil`, an error, a value of a column type, a list of strings, a table, a record (field by field), a list of records. -/
inductive Val (τ : Type) where
  | nil
  | err (e : Err)
  | cell (c : Cell τ)
  | strs (l : List GoStr)
  | tbl (t : Table τ)
  | record (r : List (GoStr × Cell τ))
  | recs (l : List (List (GoStr × Cell τ)))
  deriving DecidableEq, Repr

/-- An `int`. -/
def Val.int (n : Int) : Val τ := .cell (.int .int n)

/-- How a computation ends; `stuck` stands for programs that do not compile. -/
inductive Run (α : Type) where
  | ok (a : α)
  | panic
  | stuck
  deriving DecidableEq, Repr

def Run.bind {α β : Type} : Run α → (α → Run β) → Run β
  | .ok a, f => f a
  | .panic, _ => .panic
  | .stuck, _ => .stuck

/-- The variables of a block. -/
abbrev Frame (τ : Type) := List (GoStr × Val τ)

/-- The value of a variable. -/
def find : List (Frame τ) → GoStr → Option (Val τ)
  | [], _ => none
  | fr :: out, x =>
    match fr.lookup x with
    | some v => some v
    | none => find out x

/-- The field or variable `x` set to `v` in a list that has it. -/
def setKey {β : Type} (x : GoStr) (v : β) : List (GoStr × β) → List (GoStr × β)
  | [] => []
  | (y, w) :: l => if x = y then (y, v) :: l else (y, w) :: setKey x v l

/-- `x = v`: the innermost variable of that name changes. -/
def store : List (Frame τ) → GoStr → Val τ → List (Frame τ)
  | [], _, _ => []
  | fr :: out, x, v => if (fr.lookup x).isSome then setKey x v fr :: out else fr :: store out x v

/-- `x := v` in the innermost block: a new variable, unless the block has it or `x` is blank. -/
def bindVar : List (Frame τ) → GoStr → Val τ → List (Frame τ)
  | [], _, _ => []
  | fr :: out, x, v => if x = blank then fr :: out else if (fr.lookup x).isSome then setKey x v fr :: out else ((x, v) :: fr) :: out

/-- The zero value of a field: a slice is `nil`. -/
def zeroField : ColType → Cell τ
  | .byteSlice | .uint8Slice => .bytes none
  | .bool => .bool false
  | .byte | .uint8 => .int .uint8 0
  | .float32 => .f32 0
  | .float64 => .f64 0
  | .int => .int .int 0
  | .int16 => .int .int16 0
  | .int32 | .rune => .int .int32 0
  | .int64 => .int .int64 0
  | .int8 => .int .int8 0
  | .string => .str []
  | .uint => .int .uint 0
  | .uint16 => .int .uint16 0
  | .uint32 => .int .uint32 0
  | .uint64 => .int .uint64 0
  | .table => .tbl none
  | .time => .time minTime

/-- The zero value of the struct type. -/
def zeroRecord (fields : List (GoStr × ColType)) : List (GoStr × Cell τ) := fields.map fun f => (f.1, zeroField f.2)

/-- The value of an expression without side effects. -/
def eval (fields : List (GoStr × ColType)) (fs : List (Frame τ)) : Expr → Run (Val τ)
  | .id x =>
    match find fs x with
    | some v => .ok v
    | none => if x = gs! "nil" then .ok .nil else .stuck
  | .str s => .ok (.cell (.str s))
  | .strs l => .ok (.strs l)
  | .idx e i =>
    (eval fields fs e).bind fun v => (eval fields fs i).bind fun n =>
      match v, n with
      | .recs l, .cell (.int .int n) =>
        match goGet? l n with
        | some r => .ok (.record r)
        | none => .panic
      | _, _ => .stuck
  | .sel e f =>
    (eval fields fs e).bind fun v =>
      match v with
      | .record r =>
        match r.lookup f with
        | some c => .ok (.cell c)
        | none => .stuck
      | _ => .stuck
  | .eq a b =>
    (eval fields fs a).bind fun v => (eval fields fs b).bind fun w =>
      match w with
      | .nil => .ok (.cell (.bool (match v with | .nil => true | _ => false)))
      | _ => .stuck
  | .ne a b =>
    (eval fields fs a).bind fun v => (eval fields fs b).bind fun w =>
      match w with
      | .nil => .ok (.cell (.bool (match v with | .nil => false | _ => true)))
      | _ => .stuck
  | .call0 (.sel e m) =>
    (eval fields fs e).bind fun v =>
      match v with
      | .tbl t => if m = gs! "RowCount" then .ok (.int t.rowCount) else .stuck
      | _ => .stuck
  | .call1 (.id f) a =>
    if f = gs! "len" ∧ (find fs f).isNone then
      (eval fields fs a).bind fun v =>
        match v with
        | .recs l => .ok (.int l.length)
        | .strs l => .ok (.int l.length)
        | .nil => .ok (.int 0)
        | _ => .stuck
    else .stuck
  | .call1 (.sel (.id p) m) _ => if p = gs! "fmt" ∧ m = gs! "Errorf" ∧ (find fs p).isNone then .ok (.err .other) else .stuck
  | .call2 (.id f) (.sliceOf _) n =>
    if f = gs! "make" ∧ (find fs f).isNone then
      (eval fields fs n).bind fun v =>
        match v with
        | .cell (.int .int n) => if n < 0 then .panic else .ok (.recs (List.replicate n.toNat (zeroRecord fields)))
        | _ => .stuck
    else .stuck
  | _ => .stuck

/-- An error result as a value. -/
def errVal : Out Unit → Run (Val τ)
  | .ok () => .ok .nil
  | .err e => .ok (.err e)
  | .panic => .panic

/-- The results of a call (or the value of another expression) and the variables after it.  A table is the value of the one variable that points to
it; a method that changes the table changes that variable.  `nt` gives the addresses of new nested tables. -/
def perform (nt : Nat → Nat → τ) (fields : List (GoStr × ColType)) (fs : List (Frame τ)) (e : Expr) : Run (List (Val τ) × List (Frame τ)) :=
  match e with
  | .call0 (.sel (.id x) m) =>
    if m = gs! "AppendRow" then
      match find fs x with
      | some (.tbl t) => (errVal (t.appendRow nt).2).bind fun v => .ok ([v], store fs x (.tbl (t.appendRow nt).1))
      | _ => .stuck
    else (eval fields fs e).bind fun v => .ok ([v], fs)
  | .call2 (.sel (.id x) m) a b =>
    match find fs x, getters.lookup m with
    | some (.tbl t), some ty =>
      (eval fields fs a).bind fun v => (eval fields fs b).bind fun w =>
        match v, w with
        | .cell (.str n), .cell (.int .int r) =>
          match t.getTyped ty n r with
          | .ok c => .ok ([.cell c, .nil], fs)
          | .err e => .ok ([.cell (zeroField ty), .err e], fs)
          | .panic => .panic
        | _, _ => .stuck
    | _, _ => .stuck
  | .call3 (.sel (.id x) m) a b c =>
    (eval fields fs a).bind fun u => (eval fields fs b).bind fun v => (eval fields fs c).bind fun w =>
      match find fs x with
      | some (.tbl t) =>
        match setters.lookup m, u, v, w with
        | some ty, .cell (.str n), .cell (.int .int r), .cell val =>
          (errVal (t.setTyped ty n r val).2).bind fun e => .ok ([e], store fs x (.tbl (t.setTyped ty n r val).1))
        | _, _, _, _ => .stuck
      | some _ => .stuck
      | none =>
        if x = gs! "gotables" ∧ m = gs! "NewTableFromMetadata" then
          match u, v, w with
          | .cell (.str n), .strs names, .strs types =>
            match Table.newTableFromMetadata nt n names types with
            | .ok t => .ok ([.tbl t, .nil], fs)
            | .err e => .ok ([.nil, .err e], fs)
            | .panic => .panic
          | _, _, _ => .stuck
        else .stuck
  | _ => (eval fields fs e).bind fun v => .ok ([v], fs)

/-- How statements end: at the end of the block, or with `return`. -/
inductive Exit (τ : Type) where
  | next (fs : List (Frame τ))
  | returned (a b : Val τ)
  deriving DecidableEq, Repr

/-- `lhs = v`. -/
def assignTo (fields : List (GoStr × ColType)) (fs : List (Frame τ)) (v : Val τ) : Expr → Run (List (Frame τ))
  | .id x => if (find fs x).isSome then .ok (store fs x v) else .stuck
  | .sel (.idx (.id x) i) f =>
    (eval fields fs i).bind fun n =>
      match find fs x, n, v with
      | some (.recs l), .cell (.int .int n), .cell c =>
        match goGet? l n with
        | some r => .ok (store fs x (.recs (l.set n.toNat (setKey f c r))))
        | none => .panic
      | _, _, _ => .stuck
  | _ => .stuck

/-- The rounds of a loop: `body` is run with the loop variable in a block of its own. -/
def rounds (body : List (Frame τ) → Run (Exit τ)) (x : GoStr) : List Nat → List (Frame τ) → Run (Exit τ)
  | [], fs => .ok (.next fs)
  | i :: is, fs =>
    (body ([] :: [(x, Val.int i)] :: fs)).bind fun ex =>
      match ex with
      | .next fs' => rounds body x is (fs'.drop 2)
      | .returned a b => .ok (.returned a b)

/-- What statements do.  The limit of a loop is computed once: the loops of the generated functions change neither it nor the loop variable
(a variable declared by the body is another one, even if its name is the same). -/
def Code.exec (nt : Nat → Nat → τ) (fields : List (GoStr × ColType)) : Code → List (Frame τ) → Run (Exit τ)
  | done, fs => .ok (.next fs)
  | gap rest, fs => rest.exec nt fields fs
  | var x _ rest, fs => rest.exec nt fields (bindVar fs x .nil)
  | varInit x _ e rest, fs => (eval fields fs e).bind fun v => rest.exec nt fields (bindVar fs x v)
  | define x y e rest, fs =>
    (perform nt fields fs e).bind fun r =>
      match r with
      | ([a, b], fs') => rest.exec nt fields (bindVar (bindVar fs' x a) y b)
      | _ => .stuck
  | assign l e rest, fs =>
    (perform nt fields fs e).bind fun r =>
      match r with
      | ([a], fs') => (assignTo fields fs' a l).bind fun fs'' => rest.exec nt fields fs''
      | _ => .stuck
  | assign2 x y e rest, fs =>
    (perform nt fields fs e).bind fun r =>
      match r with
      | ([a, b], fs') => (assignTo fields fs' a (.id x)).bind fun fs1 => (assignTo fields fs1 b (.id y)).bind fun fs2 => rest.exec nt fields fs2
      | _ => .stuck
  | ifThen c body rest, fs =>
    (eval fields fs c).bind fun v =>
      match v with
      | .cell (.bool true) =>
        (body.exec nt fields ([] :: fs)).bind fun ex =>
          match ex with
          | .next fs' => rest.exec nt fields (fs'.drop 1)
          | .returned a b => .ok (.returned a b)
      | .cell (.bool false) => rest.exec nt fields fs
      | _ => .stuck
  | forUp x lim body rest, fs =>
    (eval fields fs lim).bind fun v =>
      match v with
      | .cell (.int .int n) =>
        (rounds (body.exec nt fields) x (List.range n.toNat) fs).bind fun ex =>
          match ex with
          | .next fs' => rest.exec nt fields fs'
          | .returned a b => .ok (.returned a b)
      | _ => .stuck
  | ret a b _, fs => (eval fields fs a).bind fun v => (eval fields fs b).bind fun w => .ok (.returned v w)

/-- A call of the function. -/
def Func.run (nt : Nat → Nat → τ) (fields : List (GoStr × ColType)) (f : Func) (arg : Val τ) : Run (Val τ × Val τ) :=
  (f.body.exec nt fields [[(f.param, arg)]]).bind fun ex =>
    match ex with
    | .next _ => .stuck
    | .returned a b => .ok (a, b)

end Verif.GoLang
