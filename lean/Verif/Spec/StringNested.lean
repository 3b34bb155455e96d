import Verif.Spec.Tree
import Verif.Go.Strconv

/-!
# Specification: a table printed with all the tables in it
-/

namespace Verif

/-- The tables are the same, except perhaps for their names and whether they stand for "no table". -/
def OnlyNames (H H' : Heap) : Prop :=
  H'.length = H.length ∧ ∀ (x : Addr) t, H[x]? = some t → ∃ n nil, H'[x]? = some { t with name := n, isNilTable := nil }

/-- A table that stands for "no table" has no name. -/
def NilUnnamed (H : Heap) : Prop := ∀ t ∈ H, t.isNilTable = true → t.name = []

/-- What a table found below table `a` is called after its name: for every step down the name of the table, the column and the row, the last step first. -/
inductive TailName (H : Heap) (a : Addr) : Addr → GoStr → Prop
  | top : TailName H a a []
  | down {b c r d t col tail} : TailName H a b tail → H[b]? = some t → t.colNames[c]? = some col → nestedAt t c r = some d →
      TailName H a d (gs! "__FROM_TABLE_" ++ t.name ++ gs! "_COL_" ++ col ++ gs! "_row_" ++ fmtNat r ++ tail)

/-- The tables nested in `a` to depth `d`, each before those nested in it, column by column. -/
def belowOrder (H : Heap) : Nat → Addr → List Addr
  | 0, _ => []
  | d + 1, a =>
    match H[a]? with
    | none => []
    | some t =>
      (List.range t.colNames.length).flatMap fun c =>
        (List.range t.rows.length).flatMap fun r =>
          match nestedAt t c r with
          | some b => b :: belowOrder H d b
          | none => []

/-- A table printed on the way: its place, what was added to its name, its text. -/
structure NestedPart where
  addr : Addr
  tail : GoStr
  text : GoStr

/-- The texts of the parts, each followed by a line break. -/
def partsText (parts : List NestedPart) : GoStr := (parts.map fun e => e.text ++ [10]).flatten

end Verif
