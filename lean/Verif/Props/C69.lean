import Verif.Lemmas.YamlShape
import Verif.Props.C68

/-!
# C69 Reading YAML that the package did not write

`RealMap`: the integers of the document are integers of their Go types.
-/

namespace Verif
open Table

variable {Doc : Type}

/-- **C69**, what is true of it: whatever YAML is read, tables that existed are unchanged, all new tables are well-formed, a table nested in a new table is a newer one (so nothing is nested
in itself), and the tables of the set are new ones with distinct names. -/
theorem C69_read_partial (Y : YamlLib Doc) (K : Heap) (s : Doc) (hreal : ∀ m, Y.unmarshal s = some m → RealMap m) (K' : Heap) (S : TableSet)
    (h : newTableSetFromYAML Y K s = .ok (K', S)) :
    (∀ x, x < K.length → K'[x]? = K[x]?) ∧ (∀ x t, K.length ≤ x → K'[x]? = some t → WF t) ∧
    (∀ x c r b, K.length ≤ x → HoldsAt K' x c r b → x < b ∧ b < K'.length) ∧
    (∀ a ∈ S.tables, K.length ≤ a ∧ a < K'.length) ∧ (S.tables.map (nameAt K')).Nodup := by
  have hs : YamlSet K (K', S) := by
    unfold newTableSetFromYAML at h
    split at h
    · cases h
    · split at h
      · cases h
      · rename_i m hm
        exact readYamlSet_new (hreal m hm) h
  refine ⟨hs.grown.old, fun x t hx ht => (hs.grown.new x t hx ht).1, ?_, hs.tables, hs.names⟩
  rintro x c r b hx ⟨t, ht, hk⟩
  obtain ⟨row, h4, h5⟩ := nestedAt_some.1 hk
  exact (hs.grown.new x t hx ht).2 row (List.mem_of_getElem? h4) b (List.mem_of_getElem? h5)

/-- What is not YAML, and YAML that is no map of strings, gives an error. -/
theorem C69_notYAML (Y : YamlLib Doc) (K : Heap) (s : Doc) (h : Y.isEmpty s = true ∨ Y.unmarshal s = none) : ∃ e, newTableSetFromYAML Y K s = .err e := by
  unfold newTableSetFromYAML
  split
  · exact ⟨_, rfl⟩
  · rw [h.resolve_left (by assumption)]
    exact ⟨_, rfl⟩

/-! ## Where the reader panics -/

/-- The document `tableSetName: S`, `tables: …`. -/
def Ex.yamlSet (tables : GoVal) : List (GoStr × GoVal) := [(gs! "tableSetName", .val (.str (gs! "S"))), (gs! "tables", tables)]

/-- The document of one table T with one column. -/
def Ex.yamlTable (colName colType : GoStr) (data : GoVal) : List (GoStr × GoVal) :=
  Ex.yamlSet (.list [.map [(gs! "tableName", .val (.str (gs! "T"))), (gs! "metadata", .list [.map [(colName, .val (.str colType))]]), (gs! "data", data)]])

def Ex.panics (m : List (GoStr × GoVal)) : Bool :=
  match readYamlSet [] m with
  | .panic => true
  | _ => false

/-- **C69 is false of the code**: each of these documents is valid YAML and makes `NewTableSetFromYAML` panic, instead of returning an error. -/
theorem C69_false : ∀ m ∈ [
    -- no tables
    [(gs! "tableSetName", .val (.str (gs! "S")))],
    -- tables that are no list: `tables:`
    Ex.yamlSet (.val .nil),
    -- a table that is not a map
    Ex.yamlSet (.list [.val (.int .int 1)]),
    -- a column that is not a map
    Ex.yamlSet (.list [.map [(gs! "tableName", .val (.str (gs! "T"))), (gs! "metadata", .list [.val (.str (gs! "i"))])]]),
    -- a row that is not a list
    Ex.yamlTable (gs! "i") (gs! "int") (.list [.val (.int .int 1)]),
    -- a row longer than the columns
    Ex.yamlTable (gs! "i") (gs! "int") (.list [.list [.val (.int .int 1), .val (.int .int 2)]]),
    -- a number where a time belongs
    Ex.yamlTable (gs! "t") (gs! "time.Time") (.list [.list [.val (.int .int 2020)]]),
    -- a list where a number belongs
    Ex.yamlTable (gs! "i") (gs! "int64") (.list [.list [.list []]]),
    -- a byte that is no number
    Ex.yamlTable (gs! "b") (gs! "[]byte") (.list [.list [.list [.val (.str (gs! "x"))]]]),
    -- a list where a table belongs
    Ex.yamlTable (gs! "p") (gs! "*Table") (.list [.list [.list []]])],
    RealMap m ∧ Ex.panics m = true := by
  intro m hm
  constructor
  · simp only [List.mem_cons, List.not_mem_nil, or_false] at hm
    rcases hm with rfl | rfl | rfl | rfl | rfl | rfl | rfl | rfl | rfl | rfl <;>
      simp [RealMap, RealList, GoVal.Real, Ex.yamlSet, Ex.yamlTable, IntKind.Has, IntKind.lo, IntKind.hi]
  · revert hm m
    decide +kernel

/-! ## Numbers that the column's type does not have -/

/-- An integer that is too great for the column is read without an error, as another number: 300 in a column of type `int8`. -/
theorem C69_wraps : Ex.readRows (readYamlSet [] (Ex.yamlTable (gs! "i") (gs! "int8") (.list [.list [.val (.int .int 300)]]))) = some [[.int .int8 44]] := by
  decide +kernel

/-! ## Examples -/

/-- A document whose second table has an unknown shape and a nested table. -/
def Ex.doc69 : List (GoStr × GoVal) := Ex.yamlSet (.list
  [.map [(gs! "tableName", .val (.str (gs! "A"))), (gs! "metadata", .list [])],
   .map [(gs! "tableName", .val (.str (gs! "T"))), (gs! "isStructShape", .val (.int .int 1)), (gs! "metadata", .list [.map [(gs! "p", .val (.str (gs! "*Table")))]]),
     (gs! "data", .list [.list [.map [(gs! "tableName", .val (.str (gs! "A"))), (gs! "metadata", .list [])]]])]])

theorem Ex.doc69_real : RealMap Ex.doc69 := by
  simp [RealMap, RealList, GoVal.Real, Ex.doc69, Ex.yamlSet, IntKind.Has, IntKind.lo, IntKind.hi]

def Ex.lib69 : YamlLib Bool := { empty := false, isEmpty := fun b => !b, marshal := fun _ => none, unmarshal := fun _ => some Ex.doc69 }

-- two tables in the set and one nested in the second (address 3 is the table that the new row had first)
example : ∃ K', newTableSetFromYAML Ex.lib69 [Ex.leaf67] true = .ok (K', ⟨gs! "S", [], [1, 2]⟩) ∧ K'.length = 5 ∧ HoldsAt K' 2 0 0 4 :=
  ⟨_, rfl, by decide +kernel, _, rfl, by decide +kernel⟩

example (K' : Heap) (S : TableSet) (h : newTableSetFromYAML Ex.lib69 [Ex.leaf67] true = .ok (K', S)) :=
  C69_read_partial Ex.lib69 [Ex.leaf67] true (fun m e => by cases e; exact Ex.doc69_real) K' S h

example (K : Heap) : ∃ e, newTableSetFromYAML Ex.yaml K none = .err e := C69_notYAML Ex.yaml K none (.inl rfl)

/-! ## Errors of writing are dropped -/

-- `GetTableSetAsYAML` never returns an error: if the library cannot write the document, the text is empty
example (Y : YamlLib Doc) (H : Heap) (d : Nat) (S : TableSet) (m : List (GoStr × GoVal)) (h1 : getTableSetAsMap H d S = .ok m) (h2 : Y.marshal m = none) :
    getTableSetAsYAML Y H d S = .ok Y.empty := by
  simp only [getTableSetAsYAML, h1, h2]

end Verif
