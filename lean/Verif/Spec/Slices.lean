import Verif.Model.Slices
import Verif.Spec.Text

/-!
# What tables in memory contain
-/

namespace Verif

variable {τ : Type}

/-- In the memory `st` the table `t` has the contents `v`. -/
structure Rep (st : Store τ) (t : MTable τ) (v : Table τ) : Prop where
  name : t.name = v.name
  isStructShape : t.isStructShape = v.isStructShape
  isNilTable : t.isNilTable = v.isNilTable
  parent : t.parent = v.parent
  colNames : st.names.read t.colNames = some v.colNames
  colTypes : st.types.read t.colTypes = some v.colTypes
  colMap : st.maps[t.colMap]? = some v.colMap
  sortKeys : st.keys.read t.sortKeys = some v.sortKeys
  rows : ∃ hs, st.rows.read t.rows = some hs ∧ Pointwise (fun h row => st.cells.read h = some row) hs v.rows

/-- The tables have the contents `vs`. -/
def World.Shows (w : World τ) (vs : List (Table τ)) : Prop := Pointwise (Rep w.store) w.tables vs

/-- No array is used twice: not by two tables, and not by two rows of a table. -/
structure World.Separate (w : World τ) : Prop where
  colNames : ∀ (i j : Nat) t u, w.tables[i]? = some t → w.tables[j]? = some u → t.colNames.addr = u.colNames.addr → i = j
  colTypes : ∀ (i j : Nat) t u, w.tables[i]? = some t → w.tables[j]? = some u → t.colTypes.addr = u.colTypes.addr → i = j
  colMap : ∀ (i j : Nat) t u, w.tables[i]? = some t → w.tables[j]? = some u → t.colMap = u.colMap → i = j
  sortKeys : ∀ (i j : Nat) t u, w.tables[i]? = some t → w.tables[j]? = some u → t.sortKeys.addr = u.sortKeys.addr → i = j
  rows : ∀ (i j : Nat) t u, w.tables[i]? = some t → w.tables[j]? = some u → t.rows.addr = u.rows.addr → i = j
  rowsOf : ∀ (i : Nat) t hs, w.tables[i]? = some t → w.store.rows.read t.rows = some hs → (hs.map Slice.addr).Nodup
  cells : ∀ (i j : Nat) t u hs ks, w.tables[i]? = some t → w.tables[j]? = some u → w.store.rows.read t.rows = some hs → w.store.rows.read u.rows = some ks →
    ∀ h ∈ hs, ∀ k ∈ ks, h.addr = k.addr → i = j

/-- A call of the API, or the creation of a table. -/
inductive Call (τ : Type) where
  | new
  | op (i : Nat) (o : Op τ)

/-- What the calls do if every table is a value of its own. -/
def Call.apply (vs : List (Table τ)) : Call τ → List (Table τ)
  | .new => vs ++ [newNilTable]
  | .op i o =>
    match vs[i]? with
    | none => vs
    | some v => vs.set i (o.step v).1

def Call.applyAll (vs : List (Table τ)) (calls : List (Call τ)) : List (Table τ) := calls.foldl Call.apply vs

/-- What the calls do in memory: a call is some sequence of assignments that have the effect of the call. -/
inductive Call.Run (spare : Nat → Nat) : World τ → List (Table τ) → List (Call τ) → World τ → Prop
  | done {w vs} : Call.Run spare w vs [] w
  | new {w vs cs w'} : Call.Run spare w.new (vs ++ [newNilTable]) cs w' → Call.Run spare w vs (.new :: cs) w'
  | op {w vs cs w1 w' i o v ps} : vs[i]? = some v → Prim.vals ps v = some (o.step v).1 → w.steps spare i ps = some w1 →
      Call.Run spare w1 (vs.set i (o.step v).1) cs w' → Call.Run spare w vs (.op i o :: cs) w'

/-- No memory, no tables. -/
def World.empty : World τ := ⟨⟨[], [], [], [], [], []⟩, []⟩

/-- The calls are to tables that exist; `n` of them exist before the first call. -/
def Call.InRange : Nat → List (Call τ) → Prop
  | _, [] => True
  | n, .new :: cs => Call.InRange (n + 1) cs
  | n, .op i _ :: cs => i < n ∧ Call.InRange n cs

/-- The call is not to the table `j`. -/
def Call.NotTo (j : Nat) : Call τ → Prop
  | .new => True
  | .op i _ => i ≠ j

end Verif
