import Verif.Lemmas.Reorder
import Verif.Model.History

/-!
# A concrete table used to show that hypotheses are met
-/

namespace Verif.Ex
open Verif Table

/-- The calls that build the example table. -/
def ops : List (Op Unit) :=
  [ .setName (gs! "T"),
    .appendCol (fun _ _ => ()) (gs! "name") (gs! "string"),
    .appendCol (fun _ _ => ()) (gs! "age") (gs! "int"),
    .appendCol (fun _ _ => ()) (gs! "w") (gs! "float64"),
    .appendRows (fun _ _ => ()) 3,
    .setVal (gs! "name") 0 (.str (gs! "bob")),
    .setVal (gs! "name") 1 (.str (gs! "Al")),
    .setVal (gs! "name") 2 (.str (gs! "cy")),
    .setVal (gs! "age") 0 (.int .int 30),
    .setVal (gs! "age") 1 (.int .int (-7)),
    .setVal (gs! "age") 2 (.int .int 30),
    .setVal (gs! "w") 1 (.f64 0x3ff0000000000000#64),
    .setSortKeys [gs! "age"] ]

/-- Three rows: ("bob", 30, 0.0), ("Al", -7, 1.0), ("cy", 30, 0.0), sort key "age". -/
def t : Table Unit := Op.run newNilTable ops

theorem t_eq : t =
    { name := gs! "T", colNames := [gs! "name", gs! "age", gs! "w"], colTypes := [.string, .int, .float64],
      colMap := [(gs! "name", 0), (gs! "age", 1), (gs! "w", 2)],
      rows := [[.str (gs! "bob"), .int .int 30, .f64 0], [.str (gs! "Al"), .int .int (-7), .f64 0x3ff0000000000000#64],
               [.str (gs! "cy"), .int .int 30, .f64 0]],
      sortKeys := [{ colName := gs! "age", colType := .int, reverse := false }],
      isStructShape := false, isNilTable := false, parent := none } := by
  decide +kernel

end Verif.Ex
