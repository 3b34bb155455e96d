import Verif.Model.History

/-!
# Tables in memory

In the other modules a slice is a list, so that no table can share a slice with another.  Here slices are what they are in Go: an address, a length, and an array
at the address that other slices may share.  A table consists of slices, and its rows are a slice of slices.  `Prim` has one constructor for each sort of
assignment by which the package changes a table.
-/

namespace Verif

variable {τ α : Type}

/-- A slice that starts at the beginning of its array (all slices that the package keeps do): the address of the array and the length of the slice. -/
structure Slice where
  addr : Nat
  len : Nat
  deriving DecidableEq

/-- Memory for arrays of elements of type `α`: the array at each address.  The length of an array is the capacity of the slices of it. -/
abbrev Mem (α : Type) := List (List α)

namespace Mem

/-- The elements of a slice. -/
def read (m : Mem α) (s : Slice) : Option (List α) :=
  match m[s.addr]? with
  | none => none
  | some arr => if s.len ≤ arr.length then some (arr.take s.len) else none

/-- `make` or a slice literal: a new array. -/
def alloc (m : Mem α) (l : List α) : Mem α × Slice := (m ++ [l], ⟨m.length, l.length⟩)

/-- `append(s, x)`: in place if there is room, otherwise the elements move to a new array with `spare` elements to spare (which are never
read, and whose value therefore does not matter). -/
def append (spare : Nat → Nat) (m : Mem α) (s : Slice) (x : α) : Option (Mem α × Slice) :=
  match m[s.addr]? with
  | none => none
  | some arr =>
    if s.len < arr.length then some (m.set s.addr (arr.set s.len x), ⟨s.addr, s.len + 1⟩)
    else some (m ++ [arr.take s.len ++ x :: List.replicate (spare s.len) x], ⟨m.length, s.len + 1⟩)

/-- `append(s[:a], s[b:]...)` for `a ≤ b`: in place, as there is room.  The elements beyond the new length stay behind in the array.  `none` is the panic
when `b` is out of range. -/
def cut (m : Mem α) (s : Slice) (a b : Nat) : Option (Mem α × Slice) :=
  match m[s.addr]? with
  | none => none
  | some arr =>
    if a ≤ b ∧ b ≤ s.len ∧ s.len ≤ arr.length then
      some (m.set s.addr (arr.take a ++ (arr.take s.len).drop b ++ arr.drop (a + (s.len - b))), ⟨s.addr, a + (s.len - b)⟩)
    else none

/-- `s[i] = x`; `none` is an index panic. -/
def put (m : Mem α) (s : Slice) (i : Nat) (x : α) : Option (Mem α) :=
  match m[s.addr]? with
  | none => none
  | some arr => if i < s.len then some (m.set s.addr (arr.set i x)) else none

end Mem

/-- A table (gotables.go:491-502) in memory.  `colMap` is the address of the map. -/
structure MTable (τ : Type) where
  name : GoStr
  colNames : Slice
  colTypes : Slice
  colMap : Nat
  rows : Slice
  sortKeys : Slice
  isStructShape : Bool
  isNilTable : Bool
  parent : Option τ

/-- Memory for arrays of each element type, and for maps. -/
structure Store (τ : Type) where
  names : Mem GoStr
  types : Mem ColType
  maps : List GoMap
  cells : Mem (Cell τ)
  rows : Mem Slice
  keys : Mem SortKey

/-- The assignments by which a table is changed. -/
inductive Prim (τ : Type) where
  /-- Fields that are no slices: name (gotables.go:2559-2560), struct shape (gotables.go:3061), parent (helpers.go:872, 1615, 5000). -/
  | head (name : GoStr) (isStructShape isNilTable : Bool) (parent : Option τ)
  /-- `table.colNames = append(table.colNames, colName)` (gotables.go:1820). -/
  | appendName (n : GoStr)
  /-- `table.colTypes = append(table.colTypes, colType)` (gotables.go:1821). -/
  | appendType (ty : ColType)
  /-- `table.colNames = append(table.colNames[:i], table.colNames[i+1:]...)` (gotables.go:1858). -/
  | cutName (i : Nat)
  /-- `table.colTypes = append(table.colTypes[:i], table.colTypes[i+1:]...)` (gotables.go:1867). -/
  | cutType (i : Nat)
  /-- `table.colNames[i] = n` (gotables.go:2652, 4210; sort.go:939, 984). -/
  | setColName (i : Nat) (n : GoStr)
  /-- `table.colTypes[i] = ty` (gotables.go:4217; sort.go:941, 986). -/
  | setColType (i : Nat) (ty : ColType)
  /-- `table.colNamesMap[n] = i` (gotables.go:1824, 1863, 2656, 4211; sort.go:953, 988). -/
  | mapInsert (n : GoStr) (i : Nat)
  /-- `delete(table.colNamesMap, n)` (gotables.go:1861, 2655). -/
  | mapErase (n : GoStr)
  /-- `table.rows = append(table.rows, row)` where `row` is a new slice (gotables.go:750-751, 978). -/
  | appendRow (row : List (Cell τ))
  /-- `table.rows[r] = append(table.rows[r], nil)` (gotables.go:1828). -/
  | extendRow (r : Nat)
  /-- `table.rows[r] = append(row[:c], row[c+1:]...)` (gotables.go:1871-1874). -/
  | cutRow (r c : Nat)
  /-- `table.rows[r][c] = v` (gotables.go:1993, 4149, 4224; helpers.go:110-1669, 4863-5000). -/
  | setCell (r c : Nat) (v : Cell τ)
  /-- `table.rows = append(table.rows[:a], table.rows[b:]...)` (gotables.go:1109). -/
  | cutRows (a b : Nat)
  /-- `table.rows[i], table.rows[j] = table.rows[j], table.rows[i]` (gotables.go:4283, 4304, 4321; sort.go:562-564, all that `sort.Sort` does). -/
  | swapRows (i j : Nat)
  /-- `table.sortKeys = newSortKeys()` (sort.go:174). -/
  | newKeys
  /-- `table.sortKeys = append(table.sortKeys, key)` (sort.go:259). -/
  | appendKey (k : SortKey)
  /-- `table.sortKeys = append(table.sortKeys[:i], table.sortKeys[i+1:]...)` (sort.go:278). -/
  | cutKey (i : Nat)
  /-- `table.sortKeys[i].reverse = true` (sort.go:221). -/
  | setReverse (i : Nat)

/-- The assignment if slices are lists, as in the other modules. -/
def Prim.val (t : Table τ) : Prim τ → Option (Table τ)
  | .head n s b p => some { t with name := n, isStructShape := s, isNilTable := b, parent := p }
  | .appendName n => some { t with colNames := t.colNames ++ [n] }
  | .appendType ty => some { t with colTypes := t.colTypes ++ [ty] }
  | .cutName i => if i < t.colNames.length then some { t with colNames := t.colNames.eraseIdx i } else none
  | .cutType i => if i < t.colTypes.length then some { t with colTypes := t.colTypes.eraseIdx i } else none
  | .setColName i n => if i < t.colNames.length then some { t with colNames := t.colNames.set i n } else none
  | .setColType i ty => if i < t.colTypes.length then some { t with colTypes := t.colTypes.set i ty } else none
  | .mapInsert n i => some { t with colMap := t.colMap.insert n i }
  | .mapErase n => some { t with colMap := t.colMap.erase n }
  | .appendRow row => some { t with rows := t.rows ++ [row] }
  | .extendRow r =>
    match t.rows[r]? with
    | none => none
    | some row => some { t with rows := t.rows.set r (row ++ [.nil]) }
  | .cutRow r c =>
    match t.rows[r]? with
    | none => none
    | some row => if c < row.length then some { t with rows := t.rows.set r (row.eraseIdx c) } else none
  | .setCell r c v =>
    match t.rows[r]? with
    | none => none
    | some row => if c < row.length then some { t with rows := t.rows.set r (row.set c v) } else none
  | .cutRows a b => if a ≤ b ∧ b ≤ t.rows.length then some { t with rows := t.rows.take a ++ t.rows.drop b } else none
  | .swapRows i j =>
    match t.rows[i]?, t.rows[j]? with
    | some x, some y => some { t with rows := (t.rows.set i y).set j x }
    | _, _ => none
  | .newKeys => some { t with sortKeys := [] }
  | .appendKey k => some { t with sortKeys := t.sortKeys ++ [k] }
  | .cutKey i => if i < t.sortKeys.length then some { t with sortKeys := t.sortKeys.eraseIdx i } else none
  | .setReverse i =>
    match t.sortKeys[i]? with
    | none => none
    | some k => some { t with sortKeys := t.sortKeys.set i { k with reverse := true } }

/-- The assignment in memory; `none` is a panic. -/
def Prim.mem (spare : Nat → Nat) (st : Store τ) (t : MTable τ) : Prim τ → Option (Store τ × MTable τ)
  | .head n s b p => some (st, { t with name := n, isStructShape := s, isNilTable := b, parent := p })
  | .appendName n => (st.names.append spare t.colNames n).map fun (m, s) => ({ st with names := m }, { t with colNames := s })
  | .appendType ty => (st.types.append spare t.colTypes ty).map fun (m, s) => ({ st with types := m }, { t with colTypes := s })
  | .cutName i => (st.names.cut t.colNames i (i + 1)).map fun (m, s) => ({ st with names := m }, { t with colNames := s })
  | .cutType i => (st.types.cut t.colTypes i (i + 1)).map fun (m, s) => ({ st with types := m }, { t with colTypes := s })
  | .setColName i n => (st.names.put t.colNames i n).map fun m => ({ st with names := m }, t)
  | .setColType i ty => (st.types.put t.colTypes i ty).map fun m => ({ st with types := m }, t)
  | .mapInsert n i =>
    match st.maps[t.colMap]? with
    | none => none
    | some m => some ({ st with maps := st.maps.set t.colMap (m.insert n i) }, t)
  | .mapErase n =>
    match st.maps[t.colMap]? with
    | none => none
    | some m => some ({ st with maps := st.maps.set t.colMap (m.erase n) }, t)
  | .appendRow row =>
    let (cells, h) := st.cells.alloc row
    (st.rows.append spare t.rows h).map fun (m, s) => ({ st with cells := cells, rows := m }, { t with rows := s })
  | .extendRow r =>
    match (st.rows.read t.rows).bind (·[r]?) with
    | none => none
    | some h =>
      match st.cells.append spare h .nil with
      | none => none
      | some (cells, h') => (st.rows.put t.rows r h').map fun m => ({ st with cells := cells, rows := m }, t)
  | .cutRow r c =>
    match (st.rows.read t.rows).bind (·[r]?) with
    | none => none
    | some h =>
      match st.cells.cut h c (c + 1) with
      | none => none
      | some (cells, h') => (st.rows.put t.rows r h').map fun m => ({ st with cells := cells, rows := m }, t)
  | .setCell r c v =>
    match (st.rows.read t.rows).bind (·[r]?) with
    | none => none
    | some h => (st.cells.put h c v).map fun cells => ({ st with cells := cells }, t)
  | .cutRows a b => (st.rows.cut t.rows a b).map fun (m, s) => ({ st with rows := m }, { t with rows := s })
  | .swapRows i j =>
    match (st.rows.read t.rows).bind (·[i]?), (st.rows.read t.rows).bind (·[j]?) with
    | some x, some y => ((st.rows.put t.rows i y).bind fun m => m.put t.rows j x).map fun m => ({ st with rows := m }, t)
    | _, _ => none
  | .newKeys => let (m, s) := st.keys.alloc []; some ({ st with keys := m }, { t with sortKeys := s })
  | .appendKey k => (st.keys.append spare t.sortKeys k).map fun (m, s) => ({ st with keys := m }, { t with sortKeys := s })
  | .cutKey i => (st.keys.cut t.sortKeys i (i + 1)).map fun (m, s) => ({ st with keys := m }, { t with sortKeys := s })
  | .setReverse i =>
    match (st.keys.read t.sortKeys).bind (·[i]?) with
    | none => none
    | some k => (st.keys.put t.sortKeys i { k with reverse := true }).map fun m => ({ st with keys := m }, t)

/-- Several assignments to one table, slices as lists. -/
def Prim.vals : List (Prim τ) → Table τ → Option (Table τ)
  | [], t => some t
  | p :: ps, t => (p.val t).bind (Prim.vals ps)

/-- The memory, and the tables a program has pointers to. -/
structure World (τ : Type) where
  store : Store τ
  tables : List (MTable τ)

/-- One assignment to the `i`th table. -/
def World.step (spare : Nat → Nat) (w : World τ) (i : Nat) (p : Prim τ) : Option (World τ) :=
  match w.tables[i]? with
  | none => none
  | some t => (p.mem spare w.store t).map fun (st, t') => ⟨st, w.tables.set i t'⟩

/-- Several assignments to the `i`th table. -/
def World.steps (spare : Nat → Nat) (i : Nat) : List (Prim τ) → World τ → Option (World τ)
  | [], w => some w
  | p :: ps, w => (w.step spare i p).bind (World.steps spare i ps)

/-- `NewNilTable` (gotables.go:555-566): new slices and a new map.  (The slice of sort keys is nil, which is an empty slice without room.) -/
def World.new (w : World τ) : World τ :=
  let st := w.store
  let (names, s1) := st.names.alloc []
  let (types, s2) := st.types.alloc []
  let (rows, s3) := st.rows.alloc []
  let (keys, s4) := st.keys.alloc []
  { store := { names := names, types := types, maps := st.maps ++ [[]], cells := st.cells, rows := rows, keys := keys }
    tables := w.tables ++ [{ name := [], colNames := s1, colTypes := s2, colMap := st.maps.length, rows := s3, sortKeys := s4, isStructShape := false, isNilTable := true, parent := none }] }

end Verif
