import Verif.Model.Tree

/-!
# Errors about circular references
-/

namespace Verif

/-- `CircRefError` (errors.go:22-26), as made by `NewCircRefError` (errors.go:32-47) and read by `RootTable` and `CircTable`
(errors.go:64-70).  The text of the message is left out.  The one value with a nil table (tree.go:329) is overwritten before it is returned. -/
structure CircRefError where
  rootTable : Addr
  circTable : Addr
  deriving DecidableEq, Repr

/-- An error as its caller sees it: one that wraps a `CircRefError` (`fmt.Errorf` with `%w`, tree.go:356), or one that wraps nothing. -/
inductive GoErr where
  | plain (e : Err)
  | wraps (c : CircRefError)
  deriving DecidableEq, Repr

/-- What the error is about. -/
def GoErr.kind : GoErr → Err
  | .plain e => e
  | .wraps _ => .circular

/-- `GetCircRefError` (errors.go:58-62). -/
def getCircRefError : GoErr → Option CircRefError
  | .plain _ => none
  | .wraps c => some c

/-- `HasCircRefError` (errors.go:50-55). -/
def hasCircRefError : GoErr → Bool
  | .plain _ => false
  | .wraps _ => true

/-- The visitor of `IsValidTableNesting` (tree.go:337-363) with the errors it returns: `user` is `refMap` and the `CircRefError` that the
returned error wraps, if it wraps one.  (A walk returns the error of a visitor as it is, tree.go:132-137.) -/
def visitNestingErr (rootTable : Addr) : Event → WalkStep (List Addr × Option CircRefError)
  | .cell a colIndex rowIndex => fun s =>
    match s.heap[a]? with
    | none => (s, .panic)
    | some table =>
      if table.colTypes[colIndex]? = some .table then
        match s.heap[rootTable]? with
        | none => (s, .panic)
        | some root =>
          match root.getTypedByColIndex .table colIndex rowIndex with
          | .err e => (s, .err e)
          | .panic => (s, .panic)
          | .ok (.tbl (some b)) =>
            if b ∈ s.user.1 then ({ s with user := (s.user.1, some ⟨rootTable, b⟩) }, .err .circular)
            else ({ s with user := (b :: s.user.1, s.user.2) }, .ok ())
          | .ok _ => (s, .panic)
      else (s, .ok ())
  | _ => fun s => (s, .ok ())

/-- The error that `IsValidTableNesting` returns (tree.go:317-374); `none` is nil.  The error of `Walk` itself (tree.go:164-166) is made with
`%s`, so it wraps nothing. -/
def nestingError (H : Heap) (depth : Nat) (rootTable : Addr) : Out (Option GoErr) :=
  match walk (visitNestingErr rootTable) true depth rootTable { heap := H, safe := [], user := ([rootTable], none) } with
  | (_, .ok ()) => .ok none
  | (_, .panic) => .panic
  | (s, .err e) => .ok (some (match s.user.2 with | some c => .wraps c | none => .plain e))

/-- The error that `HasCircularReference` returns (tree.go:298-312): the text of the other, made with `%s` (tree.go:307). -/
def circularError (H : Heap) (depth : Nat) (rootTable : Addr) : Out (Option GoErr) :=
  match nestingError H depth rootTable with
  | .ok none => .ok none
  | .ok (some e) => .ok (some (.plain e.kind))
  | .err e => .err e
  | .panic => .panic

end Verif
