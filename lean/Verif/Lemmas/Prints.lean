import Verif.Model.Printer
import Verif.Spec.Tree
import Verif.Lemmas.Core

/-!
# Which tables have a text, and what it depends on
-/

namespace Verif
open Table

variable {P : PrintEnv} {H H' : Heap}

/-! ## There is a text -/

theorem cellText_ok (P : PrintEnv) (H : Heap) {ty : ColType} {c : Cell Addr} (h : c.HasType ty) : ∃ s, cellText P H ty c = .ok s := by
  cases ty <;> cases c <;> first
    | exact ⟨_, rfl⟩
    | (rename_i k v; cases k <;> first | exact ⟨_, rfl⟩ | exact (h : False).elim | exact absurd (h : _ ∧ _).1 (by decide))
    | (rename_i b; cases b <;> first | exact ⟨_, rfl⟩ | exact (h : False).elim)
    | exact (h : False).elim

theorem structText_ok (P : PrintEnv) (H : Heap) {ty : ColType} {c : Cell Addr} (h : c.HasType ty) : ∃ s, structText P H ty c = .ok s := by
  obtain ⟨s, hs⟩ := cellText_ok P H h
  unfold structText
  split
  · exact ⟨_, rfl⟩
  · exact ⟨_, rfl⟩
  · exact ⟨s, hs⟩

theorem RowOK.split {ty : ColType} {types : List ColType} {c : Cell Addr} {cells : List (Cell Addr)} (h : RowOK (ty :: types) (c :: cells)) :
    c.HasType ty ∧ RowOK types cells :=
  ⟨h.2 0 ty c rfl rfl, by simpa using h.1, fun i ty' c' h1 h2 => h.2 (i + 1) ty' c' (by simpa using h1) (by simpa using h2)⟩

theorem structLines_none_ok (P : PrintEnv) (H : Heap) (names : List GoStr) (types : List ColType) (h : types.length = names.length) :
    ∃ s, structLines P H names types none = .ok s := by
  induction names generalizing types with
  | nil => exact ⟨[], by cases types <;> rfl⟩
  | cons n names ih =>
    cases types with
    | nil => simp at h
    | cons ty types =>
      obtain ⟨s, hs⟩ := ih types (by simpa using h)
      simp only [structLines, hs, Out.bind]
      exact ⟨_, rfl⟩

theorem structLines_some_ok (P : PrintEnv) (H : Heap) (names : List GoStr) (types : List ColType) (cells : List (Cell Addr)) (h : types.length = names.length)
    (hr : RowOK types cells) : ∃ s, structLines P H names types (some cells) = .ok s := by
  induction names generalizing types cells with
  | nil => exact ⟨[], by cases types <;> cases cells <;> rfl⟩
  | cons n names ih =>
    cases types with
    | nil => simp at h
    | cons ty types =>
      cases cells with
      | nil => have := hr.1; simp at this
      | cons c cells =>
        obtain ⟨s, hs⟩ := ih types cells (by simpa using h) hr.split.2
        obtain ⟨v, hv⟩ := structText_ok P H hr.split.1
        simp only [structLines, hs, hv, Out.bind]
        exact ⟨_, rfl⟩

theorem printStruct_ok (P : PrintEnv) (H : Heap) {t : Table Addr} (hw : WF t) : ∃ s, printStruct P H t = .ok s ∧ s ≠ [] := by
  have : ∃ s, structLines P H t.colNames t.colTypes t.rows.head? = .ok s := by
    cases hr : t.rows with
    | nil => exact structLines_none_ok P H _ _ hw.typesLen
    | cons row rows => exact structLines_some_ok P H _ _ row hw.typesLen (hw.rowsOK row (by rw [hr]; simp))
  obtain ⟨s, hs⟩ := this
  simp only [printStruct, hs, Out.bind]
  exact ⟨_, rfl, by simp⟩

theorem colTexts_ok (P : PrintEnv) (H : Heap) {types : List ColType} {c : Nat} {ty : ColType} (hc : types[c]? = some ty) (rows : List (List (Cell Addr)))
    (hr : ∀ row ∈ rows, RowOK types row) : ∃ ss, colTexts P H ty c rows = .ok ss := by
  induction rows with
  | nil => exact ⟨[], rfl⟩
  | cons row rows ih =>
    obtain ⟨ss, hss⟩ := ih fun x hx => hr x (by simp [hx])
    have hrow := hr row (by simp)
    have hlt : c < row.length := by rw [hrow.1]; exact (List.getElem?_eq_some_iff.1 hc).1
    have e := List.getElem?_eq_getElem hlt
    obtain ⟨s, hs⟩ := cellText_ok P H (hrow.2 c ty _ hc e)
    simp only [colTexts, e, hs, hss, Out.bind]
    exact ⟨_, rfl⟩

theorem printCols_ok (P : PrintEnv) (H : Heap) {all : List ColType} (rows : List (List (Cell Addr))) (hr : ∀ row ∈ rows, RowOK all row) (names : List GoStr)
    (types : List ColType) (c : Nat) (hall : ∀ i ty, types[i]? = some ty → all[c + i]? = some ty) : ∃ cols, printCols P H rows c names types = .ok cols := by
  induction names generalizing types c with
  | nil => exact ⟨some [], by cases types <;> rfl⟩
  | cons n names ih =>
    cases types with
    | nil => exact ⟨some [], rfl⟩
    | cons ty types =>
      obtain ⟨cols, hcols⟩ := ih types (c + 1) (fun i ty' h => by have := hall (i + 1) ty' (by simpa using h); rw [show c + 1 + i = c + (i + 1) by omega]; exact this)
      obtain ⟨ss, hss⟩ := colTexts_ok P H (show all[c]? = some ty from hall 0 ty rfl) rows hr
      simp only [printCols, hss, hcols, Out.bind]
      exact ⟨_, rfl⟩

theorem stringPadded_ok (P : PrintEnv) (H : Heap) {t : Table Addr} (hw : WF t) : ∃ s, stringPadded P H t = .ok s := by
  obtain ⟨cols, hcols⟩ := printCols_ok P H t.rows hw.rowsOK t.colNames t.colTypes 0 (fun i ty h => by simpa using h)
  simp only [stringPadded, hcols, Out.bind]
  split
  · obtain ⟨s, hs, _⟩ := printStruct_ok P H hw
    exact ⟨s, hs⟩
  · cases cols with
    | none => exact ⟨[], rfl⟩
    | some cols => exact ⟨_, rfl⟩

/-! ## What the text depends on -/

/-- The tables in these rows have the same names in both memories. -/
def SameNames (H H' : Heap) (rows : List (List (Cell Addr))) : Prop := ∀ row ∈ rows, ∀ b, Cell.tbl (some b) ∈ row → nameAt H b = nameAt H' b

theorem cellText_congr (P : PrintEnv) (ty : ColType) (c : Cell Addr) (h : ∀ b, c = .tbl (some b) → nameAt H b = nameAt H' b) :
    cellText P H ty c = cellText P H' ty c := by
  cases ty <;> cases c <;> first
    | rfl
    | (rename_i k v; cases k <;> rfl)
    | (rename_i b; cases b <;> first | rfl | exact congrArg (fun n => Out.ok (91 :: n ++ [93])) (h _ rfl))

theorem structText_congr (P : PrintEnv) (ty : ColType) (c : Cell Addr) (h : ∀ b, c = .tbl (some b) → nameAt H b = nameAt H' b) :
    structText P H ty c = structText P H' ty c := by
  have := cellText_congr P ty c h
  unfold structText
  split
  · rfl
  · rfl
  · exact this

theorem structLines_congr (P : PrintEnv) (names : List GoStr) (types : List ColType) (row : Option (List (Cell Addr)))
    (h : ∀ cells, row = some cells → ∀ b, Cell.tbl (some b) ∈ cells → nameAt H b = nameAt H' b) : structLines P H names types row = structLines P H' names types row := by
  induction names generalizing types row with
  | nil => cases types <;> cases row <;> rfl
  | cons n names ih =>
    cases types with
    | nil => cases row <;> rfl
    | cons ty types =>
      cases row with
      | none => simp only [structLines, ih types none (fun _ h => nomatch h)]
      | some cells =>
        cases cells with
        | nil => rfl
        | cons c cells =>
          have hall := h _ rfl
          simp only [structLines, structText_congr P ty c (fun b hb => hall b (by rw [hb]; simp)),
            ih types (some cells) (fun cells' e b hb => by cases e; exact hall b (by simp [hb]))]

theorem colTexts_congr (P : PrintEnv) (ty : ColType) (c : Nat) (rows : List (List (Cell Addr))) (h : SameNames H H' rows) :
    colTexts P H ty c rows = colTexts P H' ty c rows := by
  induction rows with
  | nil => rfl
  | cons row rows ih =>
    simp only [colTexts, ih fun x hx => h x (by simp [hx])]
    cases hc : row[c]? with
    | none => rfl
    | some cell => simp only [cellText_congr P ty cell fun b hb => h row (by simp) b (by rw [← hb]; exact List.mem_of_getElem? hc)]

theorem printCols_congr (P : PrintEnv) (rows : List (List (Cell Addr))) (h : SameNames H H' rows) (c : Nat) (names : List GoStr) (types : List ColType) :
    printCols P H rows c names types = printCols P H' rows c names types := by
  induction names generalizing types c with
  | nil => cases types <;> rfl
  | cons n names ih =>
    cases types with
    | nil => rfl
    | cons ty types => simp only [printCols, colTexts_congr P ty c rows h, ih]

theorem stringPadded_congr (P : PrintEnv) (t : Table Addr) (h : SameNames H H' t.rows) : stringPadded P H t = stringPadded P H' t := by
  have hs : printStruct P H t = printStruct P H' t := by
    simp only [printStruct, structLines_congr P t.colNames t.colTypes t.rows.head? (fun cells e => h cells (List.mem_of_mem_head? e))]
  simp only [stringPadded, printCols_congr P t.rows h, hs]

end Verif
