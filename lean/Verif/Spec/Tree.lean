import Verif.Spec.Content
import Verif.Model.Heap

/-!
# Specification: tables that hold tables
-/

namespace Verif

/-- Every table in memory is well-formed. -/
def HeapWF (H : Heap) : Prop := ∀ t ∈ H, WF t

/-- `b` is the content of a cell of table `a`. -/
def NestedIn (H : Heap) (a b : Addr) : Prop := ∃ t n r, H[a]? = some t ∧ At t n r (.tbl (some b))

/-- No table contains itself: nesting goes down a rank, and nested tables exist. -/
def Acyclic (H : Heap) (rank : Addr → Nat) : Prop := ∀ a b, NestedIn H a b → rank b < rank a ∧ b < H.length

/-- Nested tables exist. -/
def Closed (H : Heap) : Prop := ∀ a b, NestedIn H a b → b < H.length

/-- The table in column `c`, row `r`. -/
def nestedAt (t : Table Addr) (c r : Nat) : Option Addr :=
  match t.rows[r]? with
  | none => none
  | some row =>
    match row[c]? with
    | some (.tbl (some b)) => some b
    | _ => none

/-- Table `b` is stored in the cell of table `a` in column `c`, row `r`. -/
def HoldsAt (H : Heap) (a : Addr) (c r : Nat) (b : Addr) : Prop := ∃ t, H[a]? = some t ∧ nestedAt t c r = some b

/-- `b` is nested in `a`, at any depth (at least one). -/
inductive Below (H : Heap) (a : Addr) : Addr → Prop
  | direct {c r b} : HoldsAt H a c r b → Below H a b
  | deeper {b c r d} : Below H a b → HoldsAt H b c r d → Below H a d

/-- No table is stored in two cells. -/
def NoSharing (H : Heap) : Prop :=
  ∀ a c r a' c' r' b, HoldsAt H a c r b → HoldsAt H a' c' r' b → a = a' ∧ c = c' ∧ r = r'

/-- `b` is a table that stands for "no table". -/
def IsNil (H : Heap) (b : Addr) : Prop := ∃ t, H[b]? = some t ∧ t.isNilTable = true

end Verif
