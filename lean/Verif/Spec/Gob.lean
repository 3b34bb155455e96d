import Verif.Model.Gob
import Verif.Spec.Text
import Verif.Spec.Tree

/-!
# What is asked of `encoding/gob`, and what a user of the gob functions expects
-/

namespace Verif

/-- A cell that `encoding/gob` can encode (the package documents that tables and times are not supported). -/
def GobCell : Cell Addr → Prop
  | .nil | .tbl _ | .time _ => False
  | _ => True

/-- `encoding/gob` decodes what it has encoded: the same names, types and flags, the entries of the map in any order, and the same values in the cells (`SameValue`: a
nil slice may become an empty one).  Its limit on the size of a message is left out. -/
structure GobOK {B : Type} (G : Gob B) : Prop where
  table : ∀ x : TableExported, (∀ row ∈ x.rows, ∀ c ∈ row, GobCell c) →
    ∃ b y, G.encTable x = .ok b ∧ G.decTable b = .ok y ∧ y.tableName = x.tableName ∧ y.colNames = x.colNames ∧ y.colTypes = x.colTypes ∧
      List.Perm x.colNamesMap y.colNamesMap ∧ SameRows x.rows y.rows ∧ y.sortKeys = x.sortKeys ∧ y.structShape = x.structShape
  header : ∀ h : TableSetExported, ∃ b, G.encHeader h = .ok b ∧ G.decHeader b = .ok h

/-- A table that the gob functions are meant for: well-formed, not a nil table, and without tables and times. -/
structure GobTable (t : Table Addr) : Prop where
  wf : WF t
  notNil : t.isNilTable = false
  types : ∀ ty ∈ t.colTypes, ty ≠ .table ∧ ty ≠ .time

/-- The same table: name, columns, shape and cells. -/
def GobSame {τ : Type} (t t' : Table τ) : Prop :=
  t'.name = t.name ∧ t'.isNilTable = t.isNilTable ∧ t'.colNames = t.colNames ∧ t'.colTypes = t.colTypes ∧ SameRows t.rows t'.rows ∧
  t'.isStructShape = t.isStructShape

end Verif
