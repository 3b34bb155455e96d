import Verif.Lemmas.DocumentLoop
import Verif.Lemmas.ValuesNear
import Verif.Props.C36
import Verif.Props.C39

/-!
# C83: a text is read by a grammar

`Spec/Document.lean` has the grammar of whole texts: `TextReads env H s H' set` says that `s` is the text of the table set `set`, and that the memory becomes `H'` when
the tables are added to `H`.
-/

namespace Verif
open Table

/-- **C83**: `NewTableSetFromString` returns a table set if and only if the text is one by the grammar, and then it is this table set.
(`NanOK` says that the letters of "nan" are read as a NaN, see `C82_floats`.) -/
theorem C83_text (env : TextEnv) (hF : NanOK env.float) (H : Heap) (s : GoStr) (H' : Heap) (set : TableSet) :
    newTableSetFromString env H s = .ok (H', set) ↔ TextReads env H s H' set := textReads_iff hF H s H' set

/-- **C83**: otherwise there is an error, not a panic. -/
theorem C83_error (env : TextEnv) (hF : NanOK env.float) (H : Heap) (hw : HeapWF H) (hcl : Closed H) (s : GoStr) :
    (∃ e, newTableSetFromString env H s = .err e) ↔ ¬ ∃ H' set, TextReads env H s H' set := by
  have hp := (C39_parser env H hw hcl s).1
  constructor
  · rintro ⟨e, he⟩ ⟨H', set, h⟩
    rw [(C83_text env hF H s H' set).2 h] at he
    simp at he
  · intro h
    cases hx : newTableSetFromString env H s with
    | ok r => exact absurd ⟨r.1, r.2, (C83_text env hF H s r.1 r.2).1 hx⟩ h
    | err e => exact ⟨e, rfl⟩
    | panic => exact absurd hx hp

/-- **C83**: `NewTableFromString` returns the table of a text with exactly one. -/
theorem C83_oneTable (env : TextEnv) (hF : NanOK env.float) (H : Heap) (s : GoStr) (H' : Heap) (a : Addr) :
    newTableFromString env H s = .ok (H', a) ↔ ∃ set, TextReads env H s H' set ∧ set.tables = [a] := by
  unfold newTableFromString
  constructor
  · intro h
    obtain ⟨⟨H1, set⟩, h1, h2⟩ := Out.bind_ok h
    simp only at h2
    split at h2
    · simp at h2
    · next hc =>
      simp only [TableSet.tableCount] at hc
      match hx : set.tables with
      | [] => rw [hx] at hc; simp at hc
      | _ :: _ :: _ => rw [hx] at hc; simp at hc
      | [b] =>
        simp only [TableSet.getTableByTableIndex, TableSet.tableCount, hx, goGet?, Out.bind] at h2
        simp at h2
        obtain ⟨rfl, rfl⟩ := h2
        exact ⟨set, (C83_text env hF H s _ set).1 h1, hx⟩
  · rintro ⟨set, h, hx⟩
    rw [(C83_text env hF H s H' set).2 h]
    simp [Out.bind, TableSet.tableCount, TableSet.getTableByTableIndex, hx, goGet?]

/-! ## What the grammar is for -/

/-- What one sees of a table. -/
structure Ex.Shown where
  name : GoStr
  cols : List (GoStr × ColType)
  rows : List (List (Cell Addr))
  struct : Bool
deriving DecidableEq

/-- The tables of a set, and the name of the set. -/
def Ex.shown (s : GoStr) : Out (List Ex.Shown × GoStr) :=
  (newTableSetFromString Ex.env.text [] s).bind fun (H, set) =>
    .ok (set.tables.filterMap fun a => H[a]?.map fun t => ⟨t.name, t.colNames.zip t.colTypes, t.rows, t.isStructShape⟩, set.name)

/-- Whether a text is read. -/
def Ex.isRead (s : GoStr) : Bool := match newTableSetFromString Ex.env.text [] s with | .ok _ => true | _ => false

/-- **C83**, text that is lost without an error.  The names of the columns in the last line of a text are lost, but with a newline after them they are an error.  After the first line of a struct
without values, everything after the type is lost.  In a struct with values, so is everything between the type and the equals sign. -/
theorem C83_lost :
    Ex.shown (gs! "[T]\na b") = .ok ([⟨gs! "T", [], [], false⟩], []) ∧ Ex.isRead (gs! "[T]\na b\n") = false ∧
    Ex.shown (gs! "[T]\na int\nb int = 5") = .ok ([⟨gs! "T", [(gs! "a", .int), (gs! "b", .int)], [], true⟩], []) ∧
    Ex.shown (gs! "[T]\na int = 4\nb int x y = 5") = .ok ([⟨gs! "T", [(gs! "a", .int), (gs! "b", .int)], [[.int .int 4, .int .int 5]], true⟩], []) := by
  decide +kernel

/-- A text with comments, white space of Unicode, the name of the set, a table with a row, a struct without values, a struct with values and a table without columns. -/
def Ex.text83 : GoStr := gs! "# a comment\n\n  [[Set]]\n[T]\n i\t s \nint string\n # another\n 7  \"x\" \n\n\n[S]\na int\nb string\n\n[V]\nc int = 5\nd []byte = [1 2]\n\n [E]\n#"

set_option maxRecDepth 20000 in
example : Ex.shown Ex.text83 = .ok ([⟨gs! "T", [(gs! "i", .int), (gs! "s", .string)], [[.int .int 7, .str (gs! "x")]], false⟩,
    ⟨gs! "S", [(gs! "a", .int), (gs! "b", .string)], [], true⟩, ⟨gs! "V", [(gs! "c", .int), (gs! "d", .byteSlice)], [[.int .int 5, .bytes (some [1, 2])]], true⟩,
    ⟨gs! "E", [], [], false⟩], gs! "Set") := by decide +kernel

set_option maxRecDepth 20000 in
example : ∃ H' set, TextReads Ex.env.text [] Ex.text83 H' set := by
  have h : Ex.isRead Ex.text83 = true := by decide +kernel
  unfold Ex.isRead at h
  split at h
  · next r hr => exact ⟨r.1, r.2, (C83_text _ NanOK.goFloat [] _ r.1 r.2).1 hr⟩
  · simp at h

example : TextReads Ex.env.text [] (gs! "[T]\n# c") [readTableOf (gs! "T") [] [] false] { newTableSet [] with tables := [0] } :=
  ⟨[gs! "[T]", gs! "# c"], [gs! "[T]", gs! "# c"], .cons (l := gs! "[T]") (by decide) (.last (by decide)),
    (pointwise_trimmed _ _).2 (by decide),
    .table (ls := [gs! "[T]"]) (rest := [[]]) (n := gs! "T") (.bare ⟨⟨⟨84, [], rfl, by simp [NameLetter]⟩, by simp [NameLetter]⟩, by
      intro ty h
      have := ofName?_name ty
      rw [← h] at this
      exact absurd this (by simp [show ColType.ofName? (gs! "T") = none by decide +kernel])⟩) (by simp) (.inr ⟨_, rfl⟩) (by simp [newTableSet]) (.blank .nil)⟩

/-- Texts that are not read: no types, two tables of one name, two columns of one name, the name of a type as the name of a column, two names of the set, the name of the set directly after a table,
values for some fields only, no value, no brackets. -/
example : Ex.isRead (gs! "[T]\na\n\n") = false ∧ Ex.isRead (gs! "[T]\n\n[T]\n") = false ∧ Ex.isRead (gs! "[T]\na a\nint int\n") = false ∧ Ex.isRead (gs! "[T]\nint a\nint int\n") = false ∧
    Ex.isRead (gs! "[[A]]\n[[B]]\n") = false ∧ Ex.isRead (gs! "[T]\n[[A]]\n") = false ∧ Ex.isRead (gs! "[T]\na int = 5\nb int\n") = false ∧
    Ex.isRead (gs! "[T]\na int =\n") = false ∧ Ex.isRead (gs! "T\n") = false := by decide +kernel

end Verif
