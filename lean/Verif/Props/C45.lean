import Verif.Lemmas.Csv
import Verif.Lemmas.GoFloat
import Verif.Lemmas.PrintTable
import Verif.Lemmas.Write
import Verif.Spec.Order
import Verif.Model.Csv
import Verif.Props.C36

/-!
# C45: CSV

`t.getTableAsCSV P H headings` is `t.GetTableAsCSV(headings...)`, and `csvRead` reads CSV as Go's `csv.Reader` does (`Verif.Spec.Csv`).
-/

namespace Verif
open Table

/-- The heading and the records that stand for a table: a field for each column; a NaN is the empty field, and any other cell is what `GetValAsStringByColIndex` returns. -/
structure CsvOf (P : PrintEnv) (H : Heap) (t : Table Addr) (headings heading : List GoStr) (records : List (List GoStr)) : Prop where
  headingLen : heading.length = t.colNames.length
  headingNames : ∀ (i : Nat) n, t.colNames[i]? = some n → heading[i]? = some (if headings[i]?.getD [] = [] then n else headings[i]?.getD [])
  count : records.length = t.rows.length
  fields : ∀ (r : Nat) rec, records[r]? = some rec → rec.length = t.colNames.length
  cells : ∀ (r c : Nat) rec f, records[r]? = some rec → rec[c]? = some f →
    ∃ row cell, t.rows[r]? = some row ∧ row[c]? = some cell ∧ (cell.IsNaN → f = []) ∧ (¬ cell.IsNaN → t.getValAsStringByColIndex P H c r = .ok f)

theorem plainText_ok (P : PrintEnv) (H : Heap) {ty : ColType} {c : Cell Addr} (h : c.HasType ty) : ∃ s, plainText P H ty c = .ok s := by
  cases c with
  | int k v => cases ty <;> cases k <;> simp only [Cell.HasType] at h <;> exact ⟨_, rfl⟩
  | tbl v => cases ty <;> cases v <;> simp only [Cell.HasType] at h <;> exact ⟨_, rfl⟩
  | _ => cases ty <;> simp only [Cell.HasType] at h <;> exact ⟨_, rfl⟩

theorem plainText_f32 (P : PrintEnv) (H : Heap) (b : BitVec 32) : plainText P H .float32 (.f32 b) = .ok (P.text.float.fmt32 b) := rfl
theorem plainText_f64 (P : PrintEnv) (H : Heap) (b : BitVec 64) : plainText P H .float64 (.f64 b) = .ok (P.text.float.fmt64 b) := rfl

theorem goFloat_nan64 (b : BitVec 64) : goFloat.fmt64 b = gs! "NaN" ↔ isNaN64 b = true := by
  constructor
  · intro h
    by_cases hf : finite64 b
    · exact absurd h (decimal_good _ (floatOK_go.shape64 b hf)).2.2.2
    · cases hn : isNaN64 b with
      | true => rfl
      | false =>
        exfalso
        unfold finite64 at hf
        simp only [goFloat, FloatFmt.format] at h
        simp only [isNaN64, isNaNBits] at hn
        have e : FloatFmt.f64.inf = 2047 * 2 ^ 52 := rfl
        simp only [decide_eq_false_iff_not] at hn
        rw [e, if_neg (by omega), if_pos (by omega)] at h
        split at h <;> exact absurd h (by decide)
  · exact floatOK_go.nan64 b

theorem goFloat_nan32 (b : BitVec 32) : goFloat.fmt32 b = gs! "NaN" ↔ isNaN32 b = true := by
  constructor
  · intro h
    by_cases hf : finite32 b
    · exact absurd h (decimal_good _ (floatOK_go.shape32 b hf)).2.2.2
    · cases hn : isNaN32 b with
      | true => rfl
      | false =>
        exfalso
        unfold finite32 at hf
        simp only [goFloat, FloatFmt.format] at h
        simp only [isNaN32, isNaNBits] at hn
        have e : FloatFmt.f32.inf = 255 * 2 ^ 23 := rfl
        simp only [decide_eq_false_iff_not] at hn
        rw [e, if_neg (by omega), if_pos (by omega)] at h
        split at h <;> exact absurd h (by decide)
  · exact floatOK_go.nan32 b

theorem csvCell_ok (P : PrintEnv) (hP : P.text.float = goFloat) (H : Heap) {t : Table Addr} (hw : WF t) (hnil : t.isNilTable = false) {r c : Nat} {row : List (Cell Addr)}
    {cell : Cell Addr} {ty : ColType} (hr : t.rows[r]? = some row) (hc : row[c]? = some cell) (hty : t.colTypes[c]? = some ty) :
    ∃ f, t.csvCell P H r c = .ok (some f) ∧ (cell.IsNaN → f = []) ∧ (¬ cell.IsNaN → t.getValAsStringByColIndex P H c r = .ok f) := by
  have hlr := (List.getElem?_eq_some_iff.1 hr).1
  have hlc := (List.getElem?_eq_some_iff.1 hty).1
  rw [hw.typesLen] at hlc
  obtain ⟨row', v, h1, h2, h3⟩ := getValByColIndex_nat hw hlc hlr
  rw [hr] at h1; cases h1
  rw [hc] at h2; cases h2
  have hht := (hw.rowsOK row (List.mem_of_getElem? hr)).2 c ty cell hty hc
  obtain ⟨s, hs⟩ := plainText_ok P H hht
  have hg : goGet? t.colTypes (c : Int) = some ty := by simp [goGet?, hty]
  have hval : t.getValAsStringByColIndex P H c r = .ok s := by
    simp only [getValAsStringByColIndex, hnil, h3, Out.bind, hg, hs]
    rfl
  refine ⟨if (ty = .float32 ∨ ty = .float64) ∧ s = gs! "NaN" then [] else s, by simp only [csvCell, hval, hg], ?_, ?_⟩
  · intro hn
    cases cell <;> simp only [Cell.IsNaN] at hn
    · cases ty <;> simp only [Cell.HasType] at hht
      have : s = gs! "NaN" := by
        rw [plainText_f32, hP, (goFloat_nan32 _).2 hn] at hs
        simpa using hs.symm
      rw [if_pos ⟨.inl rfl, this⟩]
    · cases ty <;> simp only [Cell.HasType] at hht
      have : s = gs! "NaN" := by
        rw [plainText_f64, hP, (goFloat_nan64 _).2 hn] at hs
        simpa using hs.symm
      rw [if_pos ⟨.inr rfl, this⟩]
  · intro hn
    rw [hval, if_neg]
    rintro ⟨h | h, e⟩
    · subst h
      cases cell <;> simp only [Cell.HasType] at hht
      rw [plainText_f32, hP, e, Out.ok.injEq] at hs
      exact hn ((goFloat_nan32 _).1 hs)
    · subst h
      cases cell <;> simp only [Cell.HasType] at hht
      rw [plainText_f64, hP, e, Out.ok.injEq] at hs
      exact hn ((goFloat_nan64 _).1 hs)

theorem csvCells_ok (P : PrintEnv) (H : Heap) (t : Table Addr) (r : Nat) (Q : Nat → GoStr → Prop) (l : List Nat) (h : ∀ c ∈ l, ∃ f, t.csvCell P H r c = .ok (some f) ∧ Q c f) :
    ∃ fs, t.csvCells P H r l = .ok (some fs) ∧ Pointwise Q l fs := by
  induction l with
  | nil => exact ⟨[], rfl, trivial⟩
  | cons c cs ih =>
    obtain ⟨f, h1, h2⟩ := h c (by simp)
    obtain ⟨fs, h3, h4⟩ := ih fun x hx => h x (by simp [hx])
    exact ⟨f :: fs, by simp only [csvCells, h1, h3, Out.bind, Option.map], h2, h4⟩

theorem csvRows_ok (P : PrintEnv) (H : Heap) (t : Table Addr) (Q : Nat → List GoStr → Prop) (l : List Nat)
    (h : ∀ r ∈ l, ∃ fs, t.csvCells P H r (List.range t.colNames.length) = .ok (some fs) ∧ Q r fs) :
    ∃ rs, t.csvRows P H l = .ok (some ((rs.map csvRecord).flatten)) ∧ Pointwise Q l rs := by
  induction l with
  | nil => exact ⟨[], rfl, trivial⟩
  | cons r l ih =>
    obtain ⟨fs, h1, h2⟩ := h r (by simp)
    obtain ⟨rs, h3, h4⟩ := ih fun x hx => h x (by simp [hx])
    exact ⟨fs :: rs, by simp only [csvRows, h1, h3, Out.bind, Option.map, List.map_cons, List.flatten_cons], h2, h4⟩

theorem csvHeadings_ok {t : Table Addr} {headings : List GoStr} (hh : headings = [] ∨ headings.length = t.colNames.length) :
    ∃ heading, t.csvHeadings headings = .ok heading ∧ heading.length = t.colNames.length ∧
      ∀ (i : Nat) n, t.colNames[i]? = some n → heading[i]? = some (if headings[i]?.getD [] = [] then n else headings[i]?.getD []) := by
  rcases hh with rfl | hh
  · exact ⟨t.colNames, rfl, rfl, fun i n hi => by simp [hi]⟩
  · by_cases h0 : headings.length > 0
    · refine ⟨(headings.zip t.colNames).map fun (h, n) => if h.length > 0 then h else n, ?_, by simp [hh], fun i n hi => ?_⟩
      · rw [csvHeadings, if_pos h0, if_neg (by simp [hh, colCount])]
      have hl := (List.getElem?_eq_some_iff.1 hi).1
      rw [← hh] at hl
      have hx := List.getElem?_eq_getElem hl
      rw [List.getElem?_map, List.getElem?_zip_eq_some (z := (_, n)).2 ⟨hx, hi⟩, hx]
      simp only [Option.map, Option.getD_some, List.length_pos_iff, ne_eq]
      split <;> simp_all
    · have : headings = [] := List.eq_nil_of_length_eq_zero (by omega)
      subst this
      exact ⟨t.colNames, rfl, rfl, fun i n hi => by simp [hi]⟩

theorem sameLengths_of {rs : List (List GoStr)} {n : Nat} (h : ∀ r ∈ rs, r.length = n) : sameLengths rs = true := by
  match rs, h with
  | [], _ => rfl
  | r :: rs, h =>
    simp only [sameLengths, List.all_eq_true, decide_eq_true_eq]
    intro x hx
    rw [h x (by simp [hx]), h r (by simp)]

/-- **C45**, as far as it holds: the text is CSV, with the heading and a record for each row, except that those written as a blank line are missing (a record of a single empty
field; a table without columns has no fields at all), and that CR LF in a text is read as LF.  The full claim, that the heading and all records are read back, follows
for two or more columns (`C45_columns`) and is false otherwise (`C45_lost`, `C45_changed`). -/
theorem C45_read_partial (P : PrintEnv) (hP : P.text.float = goFloat) (H : Heap) (t : Table Addr) (hw : WF t) (hnil : t.isNilTable = false) (headings : List GoStr)
    (hh : headings = [] ∨ headings.length = t.colNames.length) :
    ∃ s heading records, t.getTableAsCSV P H headings = .ok s ∧ CsvOf P H t headings heading records ∧
      csvRead s = some ((csvVisible (heading :: records)).map fun r => r.map crlf) := by
  obtain ⟨heading, h1, h2, h3⟩ := csvHeadings_ok hh
  let QC : Nat → Nat → GoStr → Prop := fun r c f => ∃ row cell, t.rows[r]? = some row ∧ row[c]? = some cell ∧ (cell.IsNaN → f = []) ∧ (¬ cell.IsNaN → t.getValAsStringByColIndex P H c r = .ok f)
  obtain ⟨records, r1, r2⟩ := csvRows_ok P H t (fun r fs => Pointwise (QC r) (List.range t.colNames.length) fs) (List.range t.rows.length) fun r hr => by
    refine csvCells_ok P H t r (QC r) _ fun c hc => ?_
    have hlr := List.mem_range.1 hr
    have hlc := List.mem_range.1 hc
    have hrow := List.getElem?_eq_getElem hlr
    have hlen := (hw.rowsOK _ (List.getElem_mem hlr)).1
    have hty := List.getElem?_eq_getElem (l := t.colTypes) (i := c) (by rw [hw.typesLen]; exact hlc)
    have hcell := List.getElem?_eq_getElem (l := t.rows[r]) (i := c) (by rw [hlen, hw.typesLen]; exact hlc)
    obtain ⟨f, f1, f2, f3⟩ := csvCell_ok P hP H hw hnil hrow hcell hty
    exact ⟨f, f1, _, _, hrow, hcell, f2, f3⟩
  have hlen : ∀ (r : Nat) rec, records[r]? = some rec → rec.length = t.colNames.length := by
    intro r rec hr
    obtain ⟨k, _, hk⟩ := r2.back r rec hr
    have := hk.length
    simp at this
    exact this.symm
  refine ⟨csvRecord heading ++ (records.map csvRecord).flatten, heading, records, ?_, ⟨h2, h3, ?_, hlen, ?_⟩, ?_⟩
  · have e : t.rowCount = t.rows.length := rfl
    simp only [getTableAsCSV, hnil, h1, Out.bind, e, r1]
    rfl
  · have := r2.length
    simp at this
    exact this.symm
  · intro r c rec f hr hc
    obtain ⟨k, hk, hq⟩ := r2.back r rec hr
    obtain ⟨j, hj, hq⟩ := hq.back c f hc
    have e1 : k = r := by
      obtain ⟨hl, e⟩ := List.getElem?_eq_some_iff.1 hk
      simpa using e.symm
    have e2 : j = c := by
      obtain ⟨hl, e⟩ := List.getElem?_eq_some_iff.1 hj
      simpa using e.symm
    rw [e1, e2] at hq
    exact hq
  · have e : csvRecord heading ++ (records.map csvRecord).flatten = ((heading :: records).map csvRecord).flatten := rfl
    rw [e, csvRead, scan_records]
    simp only
    rw [if_pos]
    refine sameLengths_of (n := t.colNames.length) fun r hr => ?_
    obtain ⟨r', hr', rfl⟩ := List.mem_map.1 hr
    rw [List.length_map]
    rcases List.mem_cons.1 (List.mem_filter.1 hr').1 with rfl | hm
    · exact h2
    · obtain ⟨i, hi⟩ := List.mem_iff_getElem?.1 hm
      exact hlen i _ hi

/-- **C45** for two or more columns: the heading and all records are read back, one for each row, with CR LF in a text read as LF. -/
theorem C45_columns (P : PrintEnv) (hP : P.text.float = goFloat) (H : Heap) (t : Table Addr) (hw : WF t) (hnil : t.isNilTable = false) (headings : List GoStr)
    (hh : headings = [] ∨ headings.length = t.colNames.length) (hcols : 2 ≤ t.colNames.length) :
    ∃ s heading records, t.getTableAsCSV P H headings = .ok s ∧ CsvOf P H t headings heading records ∧
      csvRead s = some ((heading.map crlf) :: records.map fun r => r.map crlf) := by
  obtain ⟨s, heading, records, h1, h2, h3⟩ := C45_read_partial P hP H t hw hnil headings hh
  refine ⟨s, heading, records, h1, h2, ?_⟩
  rw [h3]
  have : csvVisible (heading :: records) = heading :: records := by
    refine List.filter_eq_self.2 fun r hr => ?_
    have hl : r.length = t.colNames.length := by
      rcases List.mem_cons.1 hr with rfl | hm
      · exact h2.headingLen
      · obtain ⟨i, hi⟩ := List.mem_iff_getElem?.1 hm
        exact h2.fields i _ hi
    simp only [ne_eq, decide_eq_true_eq]
    constructor <;> rintro rfl <;> simp at hl <;> omega
  rw [this]
  rfl

/-- A wrong number of headings is an error, and so is a table without name. -/
theorem C45_refused (P : PrintEnv) (H : Heap) (t : Table Addr) (headings : List GoStr)
    (h : t.isNilTable = true ∨ (headings ≠ [] ∧ headings.length ≠ t.colNames.length)) : ∃ e, t.getTableAsCSV P H headings = .err e := by
  rcases h with h | ⟨h1, h2⟩
  · exact ⟨.nilTable, by simp only [getTableAsCSV, h, if_true]⟩
  · cases hn : t.isNilTable with
    | true => exact ⟨.nilTable, by simp only [getTableAsCSV, hn, if_true]⟩
    | false =>
      refine ⟨.other, ?_⟩
      have : t.csvHeadings headings = .err .other := by
        rw [csvHeadings, if_pos (by simpa [List.length_pos_iff] using h1)]
        exact if_pos h2
      simp only [getTableAsCSV, hn, this, Out.bind]
      rfl

/-! ## Concrete cases -/

-- quotes, commas, newlines and a NaN
example : Ex.tbl36.getTableAsCSV Ex.env [] [[], gs! "a,b", [], [], []] = .ok (gs! "s,\"a,b\",r,f,b\n\"x \"\"y\"\"\n\",-7,',,true\n,9223372036854775807," ++ [244, 143, 191, 191] ++ gs! ",0,false\n") := by decide +kernel
example : csvRead (gs! "s,\"a,b\",r,f,b\n\"x \"\"y\"\"\n\",-7,',,true\n") =
    some [[gs! "s", gs! "a,b", gs! "r", gs! "f", gs! "b"], [gs! "x \"y\"\n", gs! "-7", gs! "'", [], gs! "true"]] := by decide +kernel
example : ∃ s heading records, Ex.tbl36.getTableAsCSV Ex.env [] [] = .ok s ∧ CsvOf Ex.env [] Ex.tbl36 [] heading records ∧
    csvRead s = some ((heading.map crlf) :: records.map fun r => r.map crlf) :=
  C45_columns Ex.env rfl [] Ex.tbl36 Ex.wf_tbl36 rfl [] (.inl rfl) (by decide)

/-- A table with one column of strings. -/
def Ex.oneString (s : GoStr) : Table Addr :=
  { (newNilTable : Table Addr) with name := gs! "T", isNilTable := false, colNames := [gs! "s"], colTypes := [.string], colMap := [(gs! "s", 0)], rows := [[.str s], [.str (gs! "x")]] }

/-- The claim is false for one column: the row with the empty text is lost. -/
theorem C45_lost : ∃ s, (Ex.oneString []).getTableAsCSV Ex.env [] [] = .ok s ∧ csvRead s = some [[gs! "s"], [gs! "x"]] :=
  ⟨gs! "s\n\nx\n", by decide +kernel, by decide +kernel⟩

/-- The claim is false for texts with CR LF. -/
theorem C45_changed : ∃ s, (Ex.oneString (gs! "a\r\nb")).getTableAsCSV Ex.env [] [] = .ok s ∧ csvRead s = some [[gs! "s"], [gs! "a\nb"], [gs! "x"]] :=
  ⟨gs! "s\n\"a\r\nb\"\nx\n", by decide +kernel, by decide +kernel⟩

end Verif
