import Verif.Lemmas.Generated
import Verif.Lemmas.GeneratedRun

/-!
# C81 The generated struct type and functions compile and carry tables to structs and back
-/

namespace Verif
open Table GoLang

variable {τ : Type}

/-- The columns of a table with their types. -/
abbrev columnsOf (t : Table τ) : List (GoStr × ColType) := t.colNames.zip t.colTypes

theorem columnsOf_names {t : Table τ} (hw : WF t) : (columnsOf t).map Prod.fst = t.colNames :=
  List.map_fst_zip (by rw [hw.typesLen]; exact Nat.le_refl _)

theorem columnsOf_types {t : Table τ} (hw : WF t) : (columnsOf t).map Prod.snd = t.colTypes :=
  List.map_snd_zip (by rw [hw.typesLen]; exact Nat.le_refl _)

theorem columnsOf_has {t : Table τ} : ∀ c ∈ columnsOf t, HasColT t c.1 c.2 := by
  intro c hc
  obtain ⟨i, hi⟩ := List.mem_iff_getElem?.1 hc
  have := List.getElem?_zip_eq_some.1 hi
  exact ⟨i, this.1, this.2⟩

theorem columnsOf_valid {t : Table τ} (hw : WF t) : ∀ c ∈ columnsOf t, isValidColName c.1 = true :=
  fun _ hc => hw.namesValid _ (List.of_mem_zip hc).1

/-- **C81**, the text.  The three generators write, after a comment with the time, the texts of the struct type of the table and of the functions
`fromTableFunc` and `toTableFunc` (`Spec/Generated.lean`), for every table whose names are identifiers. -/
theorem C81_text (hi : Nat → Bool) (now : GoStr) (t : Table τ) (hw : WF t) (hnil : t.isNilTable = false) (hn : isIdent t.name = true)
    (hc : ∀ n ∈ t.colNames, isIdent n = true) :
    generateTypeStruct now t =
      .ok (generatedAt now (gs! "type " ++ t.name ++ gs! " struct generated from *gotables.Table [" ++ t.name ++ gs! "]") ++
        (programOf t.name (columnsOf t)).struct.text) ∧
    generateTypeStructSliceFromTable hi now t =
      .ok (generatedAt now (gs! "Generate a slice of type " ++ t.name ++ gs! " struct from *gotables.Table [" ++ t.name ++ gs! "]") ++
        (fromTableFunc t.name (columnsOf t)).text) ∧
    generateTypeStructSliceToTable hi now t =
      .ok (generatedAt now (gs! "Generate a gotables Table [" ++ t.name ++ gs! "] from a slice of type struct []" ++ t.name) ++
        (toTableFunc t.name (columnsOf t)).text) :=
  ⟨struct_text now hw, fromTable_text hi now hw hc, toTable_text hi now hw hnil hn hc⟩

/-- **C81**, the Go compiler accepts the struct type and the functions, if the names do not clash with the generated text.
What is missing is other names, for which it is false (`C81_columnTaken`, `C81_tableTaken`), and columns of type `*Table` and `time.Time` (`C81_types`). -/
theorem C81_compiles_partial (t : Table τ) (hw : WF t) (hnil : t.isNilTable = false) (hu : Usable t.name (columnsOf t)) :
    (programOf t.name (columnsOf t)).compiles = true := by
  refine program_compiles hu ?_ (by rw [columnsOf_names hw]; exact hw.namesNodup)
  have := hw.nameValid hnil
  revert this
  simp only [isValidTableName, isValidColName]
  cases ColType.ofName? t.name <;> simp

/-- **C81**, from a table.  The generated function, given any table that has the columns, returns as many structs as the table has rows, each with
the values of its row, and no error.  What is missing is names that clash. -/
theorem C81_fromTable_partial (nt : Nat → Nat → τ) (name : GoStr) (cols : List (GoStr × ColType)) (hu : Usable name cols)
    (hnd : (cols.map Prod.fst).Nodup) (t : Table τ) (hw : WF t) (hcols : ∀ c ∈ cols, HasColT t c.1 c.2) :
    ∃ l : List (List (GoStr × Cell τ)), (fromTableFunc name cols).run nt cols (.tbl t) = .ok (.recs l, .nil) ∧ l.length = t.rows.length ∧
      ∀ (r : Nat) rec, l[r]? = some rec → RecordAt t cols r rec :=
  fromTable_run nt hu hnd hw hcols

/-- **C81**, from another table.  The generated function, given a table with rows in which a column is missing or has other values, returns an
error and no structs.  What is missing is names that clash. -/
theorem C81_otherTable_partial (nt : Nat → Nat → τ) (name : GoStr) (cols : List (GoStr × ColType)) (hu : Usable name cols)
    (t : Table τ) (hw : WF t) (hr : 0 < t.rows.length) (hbad : ∃ c ∈ cols, ∀ v, At t c.1 0 v → ¬ v.HasType c.2) :
    ∃ e, (fromTableFunc name cols).run nt cols (.tbl t) = .ok (.nil, .err e) :=
  fromTable_fails nt hu hw hr hbad

/-- **C81**, to a table.  The generated function, given structs without nil byte slices, returns a valid table with the name, the columns and the
types of the table that it was generated from, and a row for each struct, and no error.  What is missing is names that clash, and nil byte slices,
for which it is false (`C81_nilBytes`). -/
theorem C81_toTable_partial (nt : Nat → Nat → τ) (t : Table τ) (hw : WF t) (hnil : t.isNilTable = false) (hu : Usable t.name (columnsOf t))
    (l : List (List (GoStr × Cell τ))) (hl : ∀ rec ∈ l, RecordOK (columnsOf t) rec ∧ ∀ x ∈ rec, x.2 ≠ .bytes none) :
    ∃ t' : Table τ, (toTableFunc t.name (columnsOf t)).run nt (columnsOf t) (.recs l) = .ok (.tbl t', .nil) ∧ WF t' ∧ t'.isNilTable = false ∧
      t'.name = t.name ∧ t'.colNames = t.colNames ∧ t'.colTypes = t.colTypes ∧ t'.rows = l.map fun rec => rec.map Prod.snd := by
  obtain ⟨t', e, h1, h2, h3, h4, h5, h6⟩ := toTable_run nt hu (hw.nameValid hnil) (columnsOf_valid hw)
    (by rw [columnsOf_names hw]; exact hw.namesNodup) l hl
  exact ⟨t', e, h1, h2, h3, by rw [h4, columnsOf_names hw], by rw [h5, columnsOf_types hw], h6⟩

/-- **C81**, `nil` arguments give an error and `nil`. -/
theorem C81_nil (nt : Nat → Nat → τ) (name : GoStr) (cols : List (GoStr × ColType)) :
    (fromTableFunc name cols).run nt cols (.nil : Val τ) = .ok (.nil, .err .other) ∧
    (toTableFunc name cols).run nt cols (.nil : Val τ) = .ok (.nil, .err .other) :=
  ⟨fromTable_nil nt, toTable_nil nt⟩

/-- A struct that holds a row of a table with just these columns. -/
theorem recordAt_row {t : Table τ} (hw : WF t) {cols : List (GoStr × ColType)} (hn : t.colNames = cols.map Prod.fst) {r : Nat}
    {row : List (Cell τ)} (hr : t.rows[r]? = some row) {rec : List (GoStr × Cell τ)} (h : RecordAt t cols r rec) :
    rec = (cols.map Prod.fst).zip row := by
  have hrow : row.length = cols.length := by
    have := (hw.rowsOK row (List.mem_of_getElem? hr)).1
    rw [this, hw.typesLen, hn, List.length_map]
  apply List.ext_getElem?
  intro i
  cases hi : cols[i]? with
  | none =>
    have h1 := List.getElem?_eq_none_iff.1 hi
    rw [List.getElem?_eq_none (by rw [h.1]; exact h1), List.getElem?_eq_none (by simp; omega)]
  | some c =>
    obtain ⟨n, ty⟩ := c
    obtain ⟨c, hc, j, row', hj, hrow', hcj⟩ := h.2 i n ty hi
    rw [hr] at hrow'
    simp only [Option.some.injEq] at hrow'
    subst hrow'
    have hni : t.colNames[i]? = some n := by rw [hn, List.getElem?_map, hi]; rfl
    have := hw.map_unique hj hni
    subst this
    rw [hc, eq_comm, List.getElem?_zip_eq_some]
    exact ⟨by rw [List.getElem?_map, hi]; rfl, hcj⟩

/-- **C81**, there and back.  The structs made from a table without nil byte slices, made into a table again, give a table with the same name,
columns, types and rows.  What is missing is names that clash, and nil byte slices. -/
theorem C81_roundTrip_partial (nt : Nat → Nat → τ) (t : Table τ) (hw : WF t) (hnil : t.isNilTable = false) (hu : Usable t.name (columnsOf t))
    (hb : ∀ row ∈ t.rows, Cell.bytes none ∉ row) :
    ∃ (l : List (List (GoStr × Cell τ))) (t' : Table τ),
      (fromTableFunc t.name (columnsOf t)).run nt (columnsOf t) (.tbl t) = .ok (.recs l, .nil) ∧
      (toTableFunc t.name (columnsOf t)).run nt (columnsOf t) (.recs l) = .ok (.tbl t', .nil) ∧
      t'.name = t.name ∧ t'.colNames = t.colNames ∧ t'.colTypes = t.colTypes ∧ t'.rows = t.rows := by
  obtain ⟨l, e, hlen, hrec⟩ := C81_fromTable_partial nt t.name (columnsOf t) hu (by rw [columnsOf_names hw]; exact hw.namesNodup) t hw columnsOf_has
  have hl : l = t.rows.map fun row => ((columnsOf t).map Prod.fst).zip row := by
    apply List.ext_getElem?
    intro r
    rw [List.getElem?_map]
    cases hr : l[r]? with
    | none =>
      rw [List.getElem?_eq_none_iff] at hr
      rw [List.getElem?_eq_none (by omega)]
      rfl
    | some rec =>
      have hlt := (List.getElem?_eq_some_iff.1 hr).1
      have hrow : t.rows[r]? = some t.rows[r] := List.getElem?_eq_getElem (by omega)
      rw [hrow, recordAt_row hw (columnsOf_names hw).symm hrow (hrec r rec hr)]
      rfl
  have hzip : ∀ row ∈ t.rows, (((columnsOf t).map Prod.fst).zip row).map Prod.snd = row := by
    intro row hrow
    refine List.map_snd_zip ?_
    rw [columnsOf_names hw, (hw.rowsOK row hrow).1, hw.typesLen]
    exact Nat.le_refl _
  obtain ⟨t', e', _, _, h1, h2, h3, h4⟩ := C81_toTable_partial nt t hw hnil hu l (by
    intro rec hrec'
    obtain ⟨r, hr⟩ := List.mem_iff_getElem?.1 hrec'
    have hat := hrec r rec hr
    refine ⟨⟨hat.1, ?_⟩, ?_⟩
    · intro i n ty hi
      obtain ⟨c, hc, hatc⟩ := hat.2 i n ty hi
      exact ⟨c, hc, C01_cell_types t hw n ty r c (columnsOf_has _ (List.mem_of_getElem? hi)) hatc⟩
    · intro x hx hxe
      rw [hl] at hrec'
      obtain ⟨row, hrow, rfl⟩ := List.mem_map.1 hrec'
      exact hb row hrow (hxe ▸ (List.of_mem_zip hx).2))
  refine ⟨l, t', e, e', h1, h2, h3, ?_⟩
  rw [h4, hl, List.map_map]
  have : t.rows.map ((fun rec => rec.map Prod.snd) ∘ fun row => ((columnsOf t).map Prod.fst).zip row) = t.rows.map id :=
    List.map_congr_left fun row hrow => hzip row hrow
  rw [this, List.map_id]

/-- **C81**, structs and back.  Structs without nil byte slices, made into a table and read from it again, are the same structs.
What is missing is names that clash, and nil byte slices. -/
theorem C81_structs_partial (nt : Nat → Nat → τ) (t : Table τ) (hw : WF t) (hnil : t.isNilTable = false) (hu : Usable t.name (columnsOf t))
    (l : List (List (GoStr × Cell τ))) (hl : ∀ rec ∈ l, RecordOK (columnsOf t) rec ∧ ∀ x ∈ rec, x.2 ≠ .bytes none) :
    ∃ t' : Table τ, (toTableFunc t.name (columnsOf t)).run nt (columnsOf t) (.recs l) = .ok (.tbl t', .nil) ∧
      (fromTableFunc t.name (columnsOf t)).run nt (columnsOf t) (.tbl t') = .ok (.recs l, .nil) := by
  obtain ⟨t', e, hw', _, _, hn, hty, hrows⟩ := C81_toTable_partial nt t hw hnil hu l hl
  have hcols : columnsOf t' = columnsOf t := by simp only [columnsOf, hn, hty]
  obtain ⟨l', e', hlen, hrec⟩ := C81_fromTable_partial nt t.name (columnsOf t) hu (by rw [columnsOf_names hw]; exact hw.namesNodup) t' hw'
    (by rw [← hcols]; exact columnsOf_has)
  refine ⟨t', e, ?_⟩
  rw [e']
  have : l' = l := by
    rw [hrows, List.length_map] at hlen
    apply List.ext_getElem?
    intro r
    cases hr : l[r]? with
    | none => rw [List.getElem?_eq_none_iff] at hr ⊢; omega
    | some rec =>
      have hlt := (List.getElem?_eq_some_iff.1 hr).1
      have hr' : l'[r]? = some l'[r] := List.getElem?_eq_getElem (by omega)
      have hrow : t'.rows[r]? = some (rec.map Prod.snd) := by rw [hrows, List.getElem?_map, hr]; rfl
      have hok := (hl rec (List.mem_of_getElem? hr)).1
      rw [hr', recordAt_row hw' (by rw [hn, columnsOf_names hw]) hrow (hrec r _ hr')]
      congr 1
      apply List.ext_getElem?
      intro i
      cases hi : (columnsOf t)[i]? with
      | none =>
        have h1 := List.getElem?_eq_none_iff.1 hi
        have h2 := hok.1
        rw [List.getElem?_eq_none (by rw [List.length_zip, List.length_map]; omega), List.getElem?_eq_none (by omega)]
      | some c =>
        obtain ⟨n, ty⟩ := c
        obtain ⟨c, hc, _⟩ := hok.2 i n ty hi
        rw [hc, List.getElem?_zip_eq_some]
        exact ⟨by rw [List.getElem?_map, hi]; rfl, by rw [List.getElem?_map, hc]; rfl⟩
  rw [this]

/-! ## Cases -/

/-- A table with three columns and two rows. -/
def exGen : Table Nat where
  name := gs! "MyTable"
  colNames := [gs! "f", gs! "flag", gs! "data"]
  colTypes := [.float32, .bool, .byteSlice]
  colMap := [(gs! "f", 0), (gs! "flag", 1), (gs! "data", 2)]
  rows := [[.f32 0, .bool true, .bytes (some [1])], [.f32 1065353216, .bool false, .bytes (some [])]]
  sortKeys := []
  isStructShape := false
  isNilTable := false
  parent := none

theorem exGen_wf : WF exGen := by
  have h : exGen = Op.run newNilTable
      [.setName (gs! "MyTable"), .appendCol (fun _ _ => 0) (gs! "f") (gs! "float32"), .appendCol (fun _ _ => 0) (gs! "flag") (gs! "bool"),
       .appendCol (fun _ _ => 0) (gs! "data") (gs! "[]byte"), .appendRow (fun _ _ => 0), .appendRow (fun _ _ => 0),
       .setVal (gs! "flag") 0 (.bool true), .setVal (gs! "data") 0 (.bytes (some [1])), .setVal (gs! "f") 1 (.f32 1065353216)] := by decide +kernel
  rw [h]
  exact C01_history _ WF.newNilTable _ (by simp [Op.ArgsOK, Cell.Real])

theorem exGen_usable : Usable exGen.name (columnsOf exGen) where
  nameOK := by decide +kernel
  colsOK := by decide +kernel

/-- The theorems' hypotheses hold of this table, and the functions generated from it carry it there and back. -/
example : (programOf exGen.name (columnsOf exGen)).compiles = true := C81_compiles_partial exGen exGen_wf rfl exGen_usable

example : (fromTableFunc exGen.name (columnsOf exGen)).run (fun _ _ => 0) (columnsOf exGen) (.tbl exGen) =
    .ok (.recs [[(gs! "f", .f32 0), (gs! "flag", .bool true), (gs! "data", .bytes (some [1]))],
      [(gs! "f", .f32 1065353216), (gs! "flag", .bool false), (gs! "data", .bytes (some []))]], .nil) := by decide +kernel

example : (toTableFunc exGen.name (columnsOf exGen)).run (fun _ _ => 0) (columnsOf exGen)
    (.recs [[(gs! "f", .f32 0), (gs! "flag", .bool true), (gs! "data", .bytes (some [1]))],
      [(gs! "f", .f32 1065353216), (gs! "flag", .bool false), (gs! "data", .bytes (some []))]]) = .ok (.tbl exGen, .nil) := by decide +kernel

/-- A table of another kind: the function gives an error. -/
example : ∃ e, (fromTableFunc (gs! "MyTable") [(gs! "flag", .int)]).run (fun _ _ => 0) [(gs! "flag", .int)] (.tbl exGen) = .ok (.nil, .err e) := by
  refine C81_otherTable_partial _ _ _ ⟨by decide +kernel, by decide +kernel⟩ exGen exGen_wf (by decide) ⟨_, List.mem_singleton_self _, ?_⟩
  intro v hat hty
  have := C01_cell_types exGen exGen_wf (gs! "flag") .bool 0 v ⟨1, rfl, rfl⟩ hat
  cases v <;> simp [Cell.HasType] at this hty

/-- The text of the struct type. -/
example : (structOf exGen.name (columnsOf exGen)).text = gs! "type MyTable struct {\n\tf float32\n\tflag bool\n\tdata []byte\n}\n" := by decide +kernel

/-! ## Where it is false -/

/-- **C81** is false of columns named like what the generated text uses: `table` before another column, `err`, `nil`, `_`, a keyword, the name of the
table itself.  All are valid column names; the text does not compile. -/
theorem C81_columnTaken :
    (∀ n ∈ [gs! "table", gs! "err", gs! "nil", gs! "_", gs! "for", gs! "T"], isValidColName n = true ∧
      (programOf (gs! "T") [(n, .int), (gs! "b", .bool)]).compiles = false) := by decide +kernel

/-- **C81** is false of tables named like what the generated text uses, or like a keyword.  All are valid table names. -/
theorem C81_tableTaken :
    (∀ n ∈ [gs! "table", gs! "err", gs! "nil", gs! "rowIndex", gs! "_", gs! "for", gs! "fmt", gs! "len", gs! "make", gs! "error"],
      isValidTableName n = true ∧ (programOf n [(gs! "a", .int), (gs! "b", .bool)]).compiles = false) := by decide +kernel

/-- **C81** is false of tables with columns of type `*Table` or `time.Time`: `Table` is not a type of the package, `time` is not imported. -/
theorem C81_types : (∀ ty ∈ [ColType.table, .time], (programOf (gs! "T") [(gs! "a", .int), (gs! "b", ty)]).compiles = false) := by decide +kernel

/-- Two rows of a column named `rowIndex`. -/
def exRowIndex (a b : Int) : Table Nat :=
  { exGen with name := gs! "T", colNames := [gs! "rowIndex", gs! "s"], colTypes := [.int, .string], colMap := [(gs! "rowIndex", 0), (gs! "s", 1)],
               rows := [[.int .int a, .str (gs! "x")], [.int .int b, .str (gs! "y")]] }

/-- **C81** is false of a column named `rowIndex` of type `int`: the text compiles, but the function takes the value of the column for the number of
the row.  Values go into other structs, and a value that is no row number makes the program panic. -/
theorem C81_rowIndex :
    (programOf (gs! "T") [(gs! "rowIndex", .int), (gs! "s", .string)]).compiles = true ∧
    (fromTableFunc (gs! "T") [(gs! "rowIndex", .int), (gs! "s", .string)]).run (fun _ _ => 0) [(gs! "rowIndex", .int), (gs! "s", .string)]
        (.tbl (exRowIndex 1 0)) =
      .ok (.recs [[(gs! "rowIndex", .int .int 0), (gs! "s", .str (gs! "x"))], [(gs! "rowIndex", .int .int 1), (gs! "s", .str (gs! "y"))]], .nil) ∧
    (fromTableFunc (gs! "T") [(gs! "rowIndex", .int), (gs! "s", .string)]).run (fun _ _ => 0) [(gs! "rowIndex", .int), (gs! "s", .string)]
        (.tbl (exRowIndex 7 0)) = .panic := by decide +kernel

/-- **C81** is false of structs with a nil byte slice, which is the zero value of the field: they are refused. -/
theorem C81_nilBytes :
    ∃ e, (toTableFunc (gs! "T") [(gs! "a", .byteSlice)]).run (fun _ _ => (0 : Nat)) [(gs! "a", .byteSlice)] (.recs [zeroRecord [(gs! "a", .byteSlice)]]) =
      .ok (.nil, .err e) := by
  refine ⟨_, rfl⟩

end Verif
