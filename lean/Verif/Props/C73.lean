import Verif.Model.Columns
import Verif.Props.C45

/-!
# C73: the values of a column as texts

`t.getColValsAsStrings P H n` is `t.GetColValsAsStrings(n)`, and `t.joinColVals P H n sep` is `t.JoinColVals(n, sep)`.
-/

namespace Verif
open Table

/-- The text of a value in a column of the given type: a string is itself, a code point is its UTF-8 encoding, an integer is in decimal, a table is its name in brackets, bytes are in
decimal between brackets; floats and times are written by the library.  (No cell of a well-formed table is `nil`.) -/
def Shown (P : PrintEnv) (H : Heap) (ty : ColType) : Cell Addr → GoStr
  | .str s => s
  | .bool b => if b then gs! "true" else gs! "false"
  | .int _ v => if ty = .rune then encodeRune (if 0 ≤ v then v.toNat else 0x110000) else fmtInt v
  | .f32 b => P.text.float.fmt32 b
  | .f64 b => P.text.float.fmt64 b
  | .bytes b => gs! "[" ++ (gs! " ").intercalate ((b.getD []).map fun x => fmtInt x.toNat) ++ gs! "]"
  | .tbl (some a) => gs! "[" ++ nameAt H a ++ gs! "]"
  | .tbl none => gs! "[]"
  | .time t => P.fmtTime t
  | .nil => []

theorem joinSep_intercalate (sep : GoStr) (l : List GoStr) : joinSep sep l = sep.intercalate l := by
  induction l with
  | nil => rfl
  | cons a l ih =>
    match l, ih with
    | [], _ => simp [joinSep, List.intercalate]
    | b :: l, ih =>
      simp only [joinSep]
      rw [ih]
      simp [List.intercalate, List.intersperse]

theorem Shown_int (P : PrintEnv) (H : Heap) {ty : ColType} (h : ty ≠ .rune) (k : IntKind) (v : Int) : Shown P H ty (.int k v) = fmtInt v := if_neg h

theorem Shown_rune (P : PrintEnv) (H : Heap) (k : IntKind) (v : Int) : Shown P H .rune (.int k v) = encodeRune (if 0 ≤ v then v.toNat else 0x110000) := by
  simp only [Shown, if_true]

theorem plainText_int (P : PrintEnv) (H : Heap) {ty : ColType} (h : ty ≠ .rune) {k : IntKind} (hk : ty.intKind? = some k) (v : Int) : plainText P H ty (.int k v) = .ok (fmtInt v) := by
  cases ty with
  | rune => exact absurd rfl h
  | int | int8 | int16 | int32 | int64 | uint | uint8 | uint16 | uint32 | uint64 | byte => exact if_pos hk
  | _ => exact absurd hk (by simp [ColType.intKind?])

theorem shown_bytes (P : PrintEnv) (H : Heap) (ty : ColType) (v : Option (List UInt8)) : fmtBytes v = Shown P H ty (.bytes v) := by
  simp only [Shown]
  rw [← joinSep_intercalate]
  rfl

theorem hasType_int {ty : ColType} {k : IntKind} {v : Int} (h : (Cell.int k v : Cell Addr).HasType ty) : (ty = .rune ∧ k = .int32) ∨ (ty ≠ .rune ∧ ty.intKind? = some k) := by
  cases ty <;> cases k <;> first
    | exact .inl ⟨rfl, rfl⟩
    | exact .inr ⟨nofun, rfl⟩
    | exact False.elim h

theorem plainText_shown (P : PrintEnv) (H : Heap) {ty : ColType} {c : Cell Addr} (h : c.HasType ty) : plainText P H ty c = .ok (Shown P H ty c) := by
  cases c with
  | int k v =>
    rcases hasType_int h with ⟨rfl, rfl⟩ | ⟨h1, h2⟩
    · rw [Shown_rune]; rfl
    · rw [Shown_int P H h1, plainText_int P H h1 h2]
  | tbl v => cases ty <;> cases v <;> first | exact False.elim h | rfl
  | bytes v =>
    cases ty <;> first
      | exact False.elim h
      | exact congrArg Out.ok (shown_bytes P H _ v)
  | str v => cases ty <;> first | exact False.elim h | rfl
  | bool v => cases ty <;> first | exact False.elim h | rfl
  | f32 v => cases ty <;> first | exact False.elim h | rfl
  | f64 v => cases ty <;> first | exact False.elim h | rfl
  | time v => cases ty <;> first | exact False.elim h | rfl
  | nil => cases ty <;> exact False.elim h

theorem getValAsString_ok (P : PrintEnv) (H : Heap) {t : Table Addr} (hw : WF t) {n : GoStr} {r : Nat} {c : Cell Addr} {ty : ColType}
    (hat : At t n r c) (hty : HasColT t n ty) : t.getValAsString P H n r = .ok (Shown P H ty c) := by
  obtain ⟨i, row, h1, h2, h3⟩ := hat
  obtain ⟨j, g1, g2⟩ := hty
  have hlr := (List.getElem?_eq_some_iff.1 h2).1
  have hlc := (List.getElem?_eq_some_iff.1 h1).1
  have hij : i = j := nodup_inj hw.namesNodup h1 g1
  subst hij
  have hnil : t.isNilTable = false := by
    cases hn : t.isNilTable with
    | false => rfl
    | true => rw [(hw.nilEmpty hn).1] at h1; simp at h1
  obtain ⟨row', v, e1, e2, e3⟩ := getValByColIndex_nat hw hlc hlr
  rw [h2] at e1; cases e1
  rw [h3] at e2; cases e2
  have hht := (hw.rowsOK row (List.mem_of_getElem? h2)).2 i ty c g2 h3
  simp only [getValAsString, hnil, Bool.false_eq_true, if_false, hw.colIndex_ok.2 h1, Out.bind, getValAsStringByColIndex, e3, goGet?_nat, g2, plainText_shown P H hht]

theorem colValsLoop_ok (P : PrintEnv) (H : Heap) {t : Table Addr} (hw : WF t) {n : GoStr} {ty : ColType} (hty : HasColT t n ty) (k m : Nat) (h : k + m ≤ t.rows.length) :
    ∃ ss, t.colValsLoop P H n (List.range' k m) = .ok ss ∧ ss.length = m ∧ ∀ (r : Nat) c, r < m → At t n (k + r) c → ss[r]? = some (Shown P H ty c) := by
  induction m generalizing k with
  | zero => exact ⟨[], rfl, rfl, by simp⟩
  | succ m ih =>
    obtain ⟨ss, h1, h2, h3⟩ := ih (k + 1) (by omega)
    obtain ⟨j, g1, g2⟩ := hty
    have hj := (List.getElem?_eq_some_iff.1 g1).1
    have hlt : k < t.rows.length := by omega
    have hrow : t.rows[k]? = some t.rows[k] := List.getElem?_eq_getElem hlt
    have hlen := hw.rowLen hrow
    have hat : At t n k t.rows[k][j] := ⟨j, _, g1, hrow, List.getElem?_eq_getElem (by omega)⟩
    refine ⟨Shown P H ty t.rows[k][j] :: ss, ?_, by simp [h2], ?_⟩
    · rw [List.range'_succ]
      simp only [colValsLoop, getValAsString_ok P H hw hat ⟨j, g1, g2⟩, h1, Out.bind]
    · intro r c hr hc
      match r with
      | 0 =>
        obtain ⟨i, row, e1, e2, e3⟩ := hc
        have hij : i = j := nodup_inj hw.namesNodup e1 g1
        subst hij
        simp only [Nat.add_zero] at e2
        rw [hrow] at e2
        cases e2
        rw [List.getElem?_eq_getElem (by omega)] at e3
        cases e3
        rfl
      | r + 1 => exact h3 r c (by omega) (by rw [show k + 1 + r = k + (r + 1) by omega]; exact hc)

/-- **C73**, a column: there is one text for each row, in the order of the rows, and it is the text of the cell; a cell by itself has the same text. -/
theorem C73_column (P : PrintEnv) (H : Heap) (t : Table Addr) (hw : WF t) (n : GoStr) (ty : ColType) (hty : HasColT t n ty) :
    ∃ ss, t.getColValsAsStrings P H n = .ok ss ∧ ss.length = t.rows.length ∧
      ∀ (r : Nat) c, At t n r c → ss[r]? = some (Shown P H ty c) ∧ t.getValAsString P H n r = .ok (Shown P H ty c) := by
  have hnil : t.isNilTable = false := by
    cases hn : t.isNilTable with
    | false => rfl
    | true => obtain ⟨j, g1, g2⟩ := hty; rw [(hw.nilEmpty hn).1] at g1; simp at g1
  obtain ⟨ss, h1, h2, h3⟩ := colValsLoop_ok P H hw hty 0 t.rows.length (by omega)
  refine ⟨ss, ?_, h2, fun r c hat => ⟨h3 r c ?_ (by simpa using hat), getValAsString_ok P H hw hat hty⟩⟩
  · simp only [getColValsAsStrings, hnil, Bool.false_eq_true, if_false, rowCount, List.range_eq_range', h1]
  · obtain ⟨i, row, e1, e2, e3⟩ := hat
    exact (List.getElem?_eq_some_iff.1 e2).1

/-- **C73**, joined: the texts of the column with the separator between them, by name and by index. -/
theorem C73_join (P : PrintEnv) (H : Heap) (t : Table Addr) (hw : WF t) (i : Nat) (n sep : GoStr) (hi : t.colNames[i]? = some n) :
    ∃ ss, t.getColValsAsStrings P H n = .ok ss ∧ t.joinColVals P H n sep = .ok (sep.intercalate ss) ∧ t.joinColValsByColIndex P H i sep = .ok (sep.intercalate ss) := by
  obtain ⟨ty, hty⟩ := hw.type_of_name hi
  obtain ⟨ss, h1, _, _⟩ := C73_column P H t hw n ty ⟨i, hi, hty⟩
  refine ⟨ss, h1, ?_, ?_⟩
  · simp only [joinColVals, h1, Out.bind, joinSep_intercalate]
  · simp only [joinColValsByColIndex, colName_nat hi, joinColVals, h1, Out.bind, joinSep_intercalate]

/-- **C73**, no such column: an error if the table has rows, and always by index.  Missing for the full claim: a name that is no column of a table without rows, where there is none (`C73_empty`). -/
theorem C73_missing_partial (P : PrintEnv) (H : Heap) (t : Table Addr) (hw : WF t) (n sep : GoStr) :
    (n ∉ t.colNames → t.rows ≠ [] → (∃ e, t.getColValsAsStrings P H n = .err e) ∧ ∃ e, t.joinColVals P H n sep = .err e) ∧
    (∀ i : Int, ¬ (0 ≤ i ∧ i < t.colNames.length) → ∃ e, t.joinColValsByColIndex P H i sep = .err e) := by
  refine ⟨fun hn hr => ?_, fun i hi => ?_⟩
  · have key : ∃ e, t.getColValsAsStrings P H n = .err e := by
      unfold getColValsAsStrings
      split
      · exact ⟨_, rfl⟩
      · rename_i hnil
        match hrows : t.rows, hr with
        | row :: rows, _ =>
          simp only [rowCount, hrows, List.length_cons, List.range_eq_range', List.range'_succ, colValsLoop, getValAsString, hnil, hw.colIndex_err hn, Out.bind]
          exact ⟨_, rfl⟩
    obtain ⟨e, he⟩ := key
    exact ⟨⟨e, he⟩, e, by simp only [joinColVals, he, Out.bind]⟩
  · refine ⟨.noCol, ?_⟩
    have : t.colName i = .err .noCol := if_pos (by simp only [colCount]; omega)
    simp only [joinColValsByColIndex, this, Out.bind]

/-- A table without rows has no error for a column it does not have. -/
theorem C73_empty : ∃ t : Table Addr, WF t ∧ t.isNilTable = false ∧ gs! "x" ∉ t.colNames ∧ t.getColValsAsStrings Ex.env [] (gs! "x") = .ok [] ∧
    t.joinColVals Ex.env [] (gs! "x") (gs! ",") = .ok [] :=
  ⟨{ (newNilTable : Table Addr) with name := gs! "T", isNilTable := false }, WF.newTable (newTable_eq (by decide)), rfl, by simp [newNilTable], rfl, rfl⟩

/-! ## A concrete case -/

example : WF Ex.tbl36 ∧ HasColT Ex.tbl36 (gs! "i") .int := ⟨Ex.writable_tbl36.wf, 1, rfl, rfl⟩

end Verif
