import Verif.Lemmas.JsonShape
import Verif.Props.C44

/-!
# C60 Reading JSON: panics, and what is read

`CastOK E`: converting a float that an integer type cannot represent gives some value of the type (Go leaves open which).
-/

namespace Verif
open Table

/-- **C60**, what is true of it: text that has the form of a set of tables (`JsonShape`; in particular any text that is not JSON, and any JSON without tables)
never makes the readers panic, whatever the names, types and values in it. -/
theorem C60_noPanic_partial (E : JsonEnv) (hE : CastOK E) (K : Heap) (s : GoStr) (h : JsonShape s) :
    newTableSetFromJSON E K s ≠ .panic ∧ newTableFromJSON E K s ≠ .panic := by
  obtain ⟨h1, h2⟩ := set_read hE K s
  refine ⟨h1 h, ?_⟩
  unfold newTableFromJSON
  cases hr : newTableSetFromJSON E K s with
  | panic => exact absurd hr (h1 h)
  | err e => simp [Out.bind]
  | ok p =>
    obtain ⟨K', S⟩ := p
    simp only [Out.bind]
    by_cases hc : S.tableCount = 1
    · rw [if_neg (by simpa using hc)]
      unfold TableSet.getTableByTableIndex
      rw [hc]
      simp only [TableSet.tableCount] at hc
      match ht : S.tables, hc with
      | [a], _ => simp [goGet?]
    · rw [if_pos hc]; simp

/-- Whatever is read, from any JSON: tables that existed are unchanged, all new tables are well-formed, a table nested in a new table is a
newer one (so nothing is nested in itself), and the tables of the set are new ones with distinct names. -/
theorem C60_read (E : JsonEnv) (hE : CastOK E) (K : Heap) (s : GoStr) (K' : Heap) (S : TableSet) (h : newTableSetFromJSON E K s = .ok (K', S)) :
    (∀ x, x < K.length → K'[x]? = K[x]?) ∧ (∀ x t, K.length ≤ x → K'[x]? = some t → WF t) ∧
    (∀ x c r b, K.length ≤ x → HoldsAt K' x c r b → x < b ∧ b < K'.length) ∧
    (∀ a ∈ S.tables, K.length ≤ a ∧ ∃ t, K'[a]? = some t ∧ t.isNilTable = false) ∧ (S.tables.map (nameAt K')).Nodup := by
  obtain ⟨h1, h2, h3⟩ := (set_read hE K s).2 K' S h
  refine ⟨h1.old, fun x t hx ht => (h1.new x t hx ht).1, ?_, h2, h3⟩
  rintro x c r b hx ⟨t, ht, hk⟩
  obtain ⟨row, h4, h5⟩ := nestedAt_some.1 hk
  exact (h1.new x t hx ht).2 row (List.mem_of_getElem? h4) b (List.mem_of_getElem? h5)

/-! ## Where the readers panic -/

/-- A set with one table of the given members. -/
def Ex.jsonTable (members : GoStr) : GoStr := gs! "{\"tableSetName\":\"\",\"tables\":[{\"tableName\":\"T\"," ++ members ++ gs! "}]}"

/-- **C60 is false of the code**: each of these texts is valid JSON and makes `NewTableFromJSON` panic, instead of returning an error. -/
theorem C60_false : ∀ s ∈ [
    -- a table that is not an object
    gs! "{\"tableSetName\":\"\",\"tables\":[1]}",
    -- a column that is not an object
    Ex.jsonTable (gs! "\"metadata\":[\"i\"]"),
    -- a row that is not an array
    Ex.jsonTable (gs! "\"metadata\":[{\"i\":\"int\"}],\"data\":[{\"i\":1}]"),
    -- a cell that is not an object
    Ex.jsonTable (gs! "\"metadata\":[{\"i\":\"int\"}],\"data\":[[1]]"),
    -- a row longer than the columns
    Ex.jsonTable (gs! "\"metadata\":[{\"i\":\"int\"}],\"data\":[[{\"i\":1},{\"j\":2}]]"),
    -- an empty string in a column of type rune
    Ex.jsonTable (gs! "\"metadata\":[{\"r\":\"rune\"}],\"data\":[[{\"r\":\"\"}]]"),
    -- an array of something else than numbers
    Ex.jsonTable (gs! "\"metadata\":[{\"b\":\"[]byte\"}],\"data\":[[{\"b\":[null]}]]")],
    newTableFromJSON Ex.jsonEnv [] s = .panic := by
  decide +kernel

/-! ## Examples -/

/-- A table nested in another one; its column has no known type. -/
def Ex.inner60 : List (GoStr × JVal) := [(gs! "tableName", .str (gs! "U")), (gs! "metadata", .arr [.obj [(gs! "i", .str (gs! "integer"))]])]

def Ex.outer60 : List (GoStr × JVal) := [(gs! "tableName", .str (gs! "T")), (gs! "metadata", .arr [.obj [(gs! "r", .str (gs! "rune"))], .obj [(gs! "p", .str (gs! "*Table"))]]),
  (gs! "data", .arr [.arr [.obj [(gs! "r", .str (gs! "x"))], .obj [(gs! "p", .obj Ex.inner60)]]])]

def Ex.text60 : GoStr := gs! "{\"tableSetName\":\"\",\"tables\":[{\"tableName\":\"T\",\"metadata\":[{\"r\":\"rune\"},{\"p\":\"*Table\"}],\"data\":[[{\"r\":\"x\"},{\"p\":{\"tableName\":\"U\",\"metadata\":[{\"i\":\"integer\"}]}}]]}]}"

set_option maxRecDepth 100000 in
theorem Ex.text60_decode : jsonDecode Ex.text60 = some [(gs! "tableSetName", .str []), (gs! "tables", .arr [.obj Ex.outer60])] := by rfl

theorem Ex.within60 {m : List (GoStr × JVal)} (h : TableWithin Ex.outer60 m) : m = Ex.outer60 ∨ m = Ex.inner60 := by
  induction h with
  | self => exact .inl rfl
  | nested _ h1 h2 h3 h4 ih =>
    rcases ih with rfl | rfl
    · have e : jsonGet Ex.outer60 (gs! "data") = some (.arr [.arr [.obj [(gs! "r", .str (gs! "x"))], .obj [(gs! "p", .obj Ex.inner60)]]]) := rfl
      rw [e] at h1
      cases h1
      simp only [List.mem_cons, JVal.arr.injEq, List.not_mem_nil, or_false] at h2
      subst h2
      simp only [List.mem_cons, JVal.obj.injEq, List.not_mem_nil, or_false] at h3
      rcases h3 with rfl | rfl <;> simp at h4
      exact .inr h4.2
    · have e : jsonGet Ex.inner60 (gs! "data") = none := rfl
      rw [e] at h1
      cases h1

theorem Ex.shape60 : JsonShape Ex.text60 := by
  intro m tables hm ht v hv
  rw [Ex.text60_decode] at hm
  cases hm
  have e : jsonGet [(gs! "tableSetName", .str []), (gs! "tables", .arr [.obj Ex.outer60])] (gs! "tables") = some (.arr [.obj Ex.outer60]) := rfl
  rw [e] at ht
  cases ht
  rw [List.mem_singleton] at hv
  refine ⟨_, hv, ?_⟩
  intro o' ho
  rcases Ex.within60 ho with rfl | rfl
  · have e1 : jsonGet Ex.outer60 (gs! "data") = some (.arr [.arr [.obj [(gs! "r", .str (gs! "x"))], .obj [(gs! "p", .obj Ex.inner60)]]]) := rfl
    have e2 : jsonGet Ex.outer60 (gs! "metadata") = some (.arr [.obj [(gs! "r", .str (gs! "rune"))], .obj [(gs! "p", .str (gs! "*Table"))]]) := rfl
    constructor
    · intro md h v hv
      rw [e2] at h; cases h
      simp only [List.mem_cons, List.not_mem_nil, or_false] at hv
      rcases hv with rfl | rfl <;> exact ⟨_, rfl⟩
    · intro md d h h' v hv
      rw [e2] at h; cases h
      rw [e1] at h'; cases h'
      rw [List.mem_singleton] at hv
      exact ⟨_, hv, by simp⟩
    · intro d cs h hcs v hv
      rw [e1] at h; cases h
      simp only [List.mem_cons, JVal.arr.injEq, List.not_mem_nil, or_false] at hcs
      subst hcs
      simp only [List.mem_cons, List.not_mem_nil, or_false] at hv
      rcases hv with rfl | rfl <;> exact ⟨_, rfl⟩
    · intro d cs o k l h hcs ho hl
      rw [e1] at h; cases h
      simp only [List.mem_cons, JVal.arr.injEq, List.not_mem_nil, or_false] at hcs
      subst hcs
      simp only [List.mem_cons, JVal.obj.injEq, List.not_mem_nil, or_false] at ho
      rcases ho with rfl | rfl <;> simp at hl
    · intro md d cs i c n o k h h' hcs hc hn ho hk
      rw [e1] at h'; cases h'
      simp only [List.mem_cons, JVal.arr.injEq, List.not_mem_nil, or_false] at hcs
      subst hcs
      have := List.mem_of_getElem? ho
      simp only [List.mem_cons, JVal.obj.injEq, List.not_mem_nil, or_false] at this
      rcases this with rfl | rfl <;> simp at hk
  · have e1 : jsonGet Ex.inner60 (gs! "data") = none := rfl
    have e2 : jsonGet Ex.inner60 (gs! "metadata") = some (.arr [.obj [(gs! "i", .str (gs! "integer"))]]) := rfl
    constructor
    · intro md h v hv
      rw [e2] at h; cases h
      rw [List.mem_singleton] at hv
      exact ⟨_, hv⟩
    · intro md d h h'
      rw [e1] at h'; cases h'
    · intro d cs h
      rw [e1] at h; cases h
    · intro d cs o k l h
      rw [e1] at h; cases h
    · intro md d cs i c n o k h h'
      rw [e1] at h'; cases h'

example : newTableFromJSON Ex.jsonEnv [] Ex.text60 ≠ .panic := (C60_noPanic_partial Ex.jsonEnv Ex.castOK [] _ Ex.shape60).2
-- it is refused because of the type of the nested table's column
example : newTableFromJSON Ex.jsonEnv [] Ex.text60 = .err .badColType := by decide +kernel
-- a text that is read: names of columns in the data do not matter, and rows may be shorter
example : (newTableFromJSON Ex.jsonEnv [] (Ex.jsonTable (gs! "\"metadata\":[{\"i\":\"int\"},{\"s\":\"string\"}],\"data\":[[{\"s\":7}],[]]")) ).bind (fun p => .ok (p.1.map (·.rows))) =
  .ok ([[[.int .int 7, .str []], [.int .int 0, .str []]], [], [], [], []] : List (List (List (Cell Addr)))) := by decide +kernel

end Verif
