import Verif.Model.Equals

/-!
# Tables that hold tables

A `*Table` is an address; the heap maps addresses to tables.
-/

namespace Verif

/-- The address of a table. -/
abbrev Addr := Nat

/-- The tables in memory; the address is the position. -/
abbrev Heap := List (Table Addr)

/-- `Equals` (gotables.go:3273-3438) on tables in memory: the recursive call is made with the nested tables.
`depth` bounds the depth of the recursion; the Go program overflows its stack where the model runs out of depth. -/
def equalsAt (H : Heap) : Nat → Addr → Addr → Out Unit
  | 0, _, _ => .panic
  | depth + 1, a, b =>
    match H[a]?, H[b]? with
    | some t1, some t2 => Table.equals (equalsAt H depth) t1 t2
    | _, _ => .err .notEqual

end Verif
