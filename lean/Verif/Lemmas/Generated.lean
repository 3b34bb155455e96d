import Verif.Spec.Generated
import Verif.Lemmas.Lines
import Verif.Lemmas.Core

/-!
# Lemmas: the text of generated programs
-/

namespace Verif.GoLang

open Verif

variable {τ : Type}

/-! ## Quoting of names -/

/-- A printable ASCII character that needs no escape in a string. -/
def plainByte (c : UInt8) : Bool := 32 ≤ c && c ≤ 126 && c ≠ 34 && c ≠ 92

theorem escape_plain (hi : Nat → Bool) (c : UInt8) (h : plainByte c = true) : escapeRune hi 34 c.toNat = [c] := by
  simp only [plainByte, Bool.and_eq_true, decide_eq_true_eq, ne_eq] at h
  obtain ⟨⟨⟨h1, h2⟩, h3⟩, h4⟩ := h
  have e1 : 32 ≤ c.toNat := by simpa [UInt8.le_iff_toNat_le] using h1
  have e2 : c.toNat ≤ 126 := by simpa [UInt8.le_iff_toNat_le] using h2
  have e3 : c.toNat ≠ 34 := fun e => h3 (UInt8.toNat_inj.1 (by simpa using e))
  have e4 : c.toNat ≠ 92 := fun e => h4 (UInt8.toNat_inj.1 (by simpa using e))
  have hp : isPrint hi c.toNat = true := by
    unfold isPrint
    rw [if_pos (by omega)]
    simp only [decide_eq_true_eq]
    omega
  unfold escapeRune
  rw [if_neg (by omega), if_pos hp]
  have hv : ValidRune c.toNat := by unfold ValidRune; omega
  simp only [encodeRune, if_pos hv]
  rw [if_pos (by omega)]
  simp

theorem quoteLoop_plain (hi : Nat → Bool) (s : GoStr) (h : ∀ c ∈ s, plainByte c = true) : quoteLoop hi 0 s = s := by
  induction s with
  | nil => rfl
  | cons c s ih =>
    have hc := h c (by simp)
    have h2 : c.toNat < 0x80 := by
      simp only [plainByte, Bool.and_eq_true, decide_eq_true_eq, ne_eq] at hc
      have : c.toNat ≤ 126 := by simpa [UInt8.le_iff_toNat_le] using hc.1.1.2
      omega
    simp only [quoteLoop, decodeRune?_ascii h2]
    rw [escape_plain hi c hc, ih fun d hd => h d (by simp [hd])]
    rfl

theorem quote_plain (hi : Nat → Bool) (s : GoStr) (h : ∀ c ∈ s, plainByte c = true) : strconvQuote hi s = strText s := by
  simp only [strconvQuote, quoteLoop_plain hi s h, strText]
  rfl

theorem letter_plain (c : UInt8) (h : (letter c || (48 ≤ c && c ≤ 57)) = true) : plainByte c = true := by
  revert c
  have : ∀ n : Fin 256, (letter (UInt8.ofNat n) || (48 ≤ UInt8.ofNat n && UInt8.ofNat n ≤ 57)) = true → plainByte (UInt8.ofNat n) = true := by decide +kernel
  intro c h
  have e : UInt8.ofNat c.toNat = c := by simp
  have := this ⟨c.toNat, c.toNat_lt⟩
  simp only [e] at this
  exact this h

theorem ident_plain {s : GoStr} (h : isIdent s = true) : ∀ c ∈ s, plainByte c = true := by
  intro c hc
  simp only [isIdent, Bool.and_eq_true] at h
  obtain ⟨h, _⟩ := h
  cases s with
  | nil => simp at hc
  | cons d ds =>
    simp only [Bool.and_eq_true, List.all_eq_true] at h
    rcases List.mem_cons.1 hc with rfl | hc
    · exact letter_plain c (by rw [h.1]; rfl)
    · exact letter_plain c (h.2 c hc)

theorem typeName_plain (ty : ColType) : ∀ c ∈ ty.name, plainByte c = true := by
  cases ty <;> decide +kernel

/-! ## The loops of the generators -/

/-- The text of the pieces for the columns. -/
def piecesText (piece : GoStr → ColType → GoStr) (sep' : GoStr) : GoStr → List (GoStr × ColType) → GoStr
  | _, [] => []
  | sep, (n, ty) :: rest => sep ++ piece n ty ++ piecesText piece sep' sep' rest

theorem colName_ok {t : Table τ} {i : Nat} {n : GoStr} (h : t.colNames[i]? = some n) : t.colName (i : Int) = .ok n := by
  have hl := (List.getElem?_eq_some_iff.1 h).1
  unfold Table.colName
  rw [if_neg (by simp only [Table.colCount]; omega)]
  simp [goGet?, h]

theorem eachColText_from {t : Table τ} (ht : t.colTypes.length = t.colNames.length) (piece : GoStr → ColType → GoStr) (sep' : GoStr) (m : Nat) :
    ∀ k sep, k + m = t.colNames.length →
      eachColText t piece sep' sep (List.range' k m) = .ok (piecesText piece sep' sep ((t.colNames.zip t.colTypes).drop k)) := by
  induction m with
  | zero =>
    intro k sep hk
    have : (t.colNames.zip t.colTypes).drop k = [] := List.drop_eq_nil_of_le (by simp; omega)
    simp [this, piecesText, eachColText]
  | succ m ih =>
    intro k sep hk
    have hn : t.colNames[k]? = some t.colNames[k] := List.getElem?_eq_getElem (by omega)
    have hy : t.colTypes[k]? = some t.colTypes[k] := List.getElem?_eq_getElem (by omega)
    have hd : (t.colNames.zip t.colTypes).drop k = (t.colNames[k], t.colTypes[k]) :: (t.colNames.zip t.colTypes).drop (k + 1) := by
      rw [List.drop_eq_getElem_cons (by simp; omega)]
      simp
    have h2 : t.colTypeByColIndex (k : Int) = .ok t.colTypes[k] := by
      unfold Table.colTypeByColIndex
      rw [if_neg (by omega)]
      simp [goGet?, hy]
    simp only [List.range'_succ, eachColText, colName_ok hn, Out.bind, h2, ih (k + 1) sep' (by omega), hd, piecesText]

theorem eachColText_all {t : Table τ} (ht : t.colTypes.length = t.colNames.length) (piece : GoStr → ColType → GoStr) (sep' sep : GoStr) :
    eachColText t piece sep' sep (List.range t.colCount) = .ok (piecesText piece sep' sep (t.colNames.zip t.colTypes)) := by
  rw [List.range_eq_range']
  have := eachColText_from ht piece sep' t.colCount 0 sep (by simp [Table.colCount])
  simpa using this

theorem colInfoLoop_from {t : Table τ} (hw : WF t) (m : Nat) :
    ∀ k, k + m = t.colNames.length →
      colInfoLoop t (List.range' k m) = .ok (t.colNames.drop k, (t.colTypes.drop k).map ColType.name) := by
  have ht := hw.typesLen
  induction m with
  | zero =>
    intro k hk
    have h1 : t.colNames.drop k = [] := List.drop_eq_nil_of_le (by omega)
    have h2 : t.colTypes.drop k = [] := List.drop_eq_nil_of_le (by omega)
    simp [h1, h2, colInfoLoop]
  | succ m ih =>
    intro k hk
    have hn : t.colNames[k]? = some t.colNames[k] := List.getElem?_eq_getElem (by omega)
    have hy : t.colTypes[k]? = some t.colTypes[k] := List.getElem?_eq_getElem (by omega)
    have hi : t.getColInfo t.colNames[k] = .ok (t.colNames[k], t.colTypes[k]) := by
      simp only [Table.getColInfo, (hw.mapIff _ k).2 hn, hy]
    simp only [List.range'_succ, colInfoLoop, colName_ok hn, Out.bind, hi, ih (k + 1) (by omega)]
    rw [List.drop_eq_getElem_cons (i := k) (l := t.colNames) (by omega), List.drop_eq_getElem_cons (i := k) (l := t.colTypes) (by omega)]
    rfl

theorem getColInfoAsSlices_eq {t : Table τ} (hw : WF t) (hnil : t.isNilTable = false) :
    getColInfoAsSlices t = .ok (t.colNames, t.colTypes.map ColType.name) := by
  simp only [getColInfoAsSlices, hnil]
  rw [if_neg (by simp), List.range_eq_range']
  have := colInfoLoop_from hw t.colCount 0 (by simp [Table.colCount])
  simpa using this

theorem literalLoop_plain (hi : Nat → Bool) (l : List GoStr) (h : ∀ s ∈ l, ∀ c ∈ s, plainByte c = true) :
    literalLoop hi [] l = commas (l.map strText) ∧ (l ≠ [] → literalLoop hi (gs! ",") l = gs! "," ++ commas (l.map strText)) := by
  induction l with
  | nil => exact ⟨rfl, fun h => absurd rfl h⟩
  | cons s l ih =>
    have ih := ih fun s hs => h s (by simp [hs])
    have hq := quote_plain hi s (h s (by simp))
    cases l with
    | nil => simp [literalLoop, hq, commas]
    | cons s' l =>
      have e := ih.2 (by simp)
      simp only [literalLoop, hq] at e ⊢
      simp only [List.map_cons, commas] at e ⊢
      rw [e]
      simp

theorem literal_plain (hi : Nat → Bool) (l : List GoStr) (h : ∀ s ∈ l, ∀ c ∈ s, plainByte c = true) :
    stringSliceToLiteral hi l = (Expr.strs l).text := by
  simp only [stringSliceToLiteral, (literalLoop_plain hi l h).1, Expr.text]

/-! ## The texts of the loop bodies -/

theorem getCols_text (hi : Nat → Bool) (name : GoStr) (cols : List (GoStr × ColType)) (h : ∀ c ∈ cols, isIdent c.1 = true) (sep : GoStr) :
    piecesText (fun colName colType =>
      (gs! "\t\t" ++ colName ++ gs! ", err := table." ++ getterName colType.name ++ gs! "(" ++ strconvQuote hi colName ++ gs! ", rowIndex)\n") ++
      gs! "\t\tif err != nil {\n" ++ gs! "\t\t\treturn nil, err\n" ++ gs! "\t\t}\n" ++
      (gs! "\t\t" ++ name ++ gs! "[rowIndex]." ++ colName ++ gs! " = " ++ colName ++ gs! "\n")) (gs! "\n") sep cols =
      (if cols.isEmpty then [] else sep) ++ (getCols name cols).text 2 := by
  induction cols generalizing sep with
  | nil => rfl
  | cons c cols ih =>
    obtain ⟨n, ty⟩ := c
    have ih := ih (fun c hc => h c (by simp [hc])) (gs! "\n")
    have hq := quote_plain hi n (ident_plain (h (n, ty) (by simp)))
    simp only [piecesText, ih, hq, getCols, orReturn, gapUnlessLast, Code.text, Expr.text]
    cases cols <;> simp [Code.text, tabs, getCols]

theorem setCols_text (hi : Nat → Bool) (cols : List (GoStr × ColType)) (h : ∀ c ∈ cols, isIdent c.1 = true) (sep : GoStr) :
    piecesText (fun colName colType =>
      (gs! "\t\terr = table." ++ setterName colType.name ++ gs! "(" ++ strconvQuote hi colName ++ gs! ", rowIndex, slice[rowIndex]." ++ colName ++
        gs! ")\n") ++
      gs! "\t\tif err != nil {\n" ++ gs! "\t\t\treturn nil, err\n" ++ gs! "\t\t}\n") (gs! "\n") sep cols =
      (if cols.isEmpty then [] else sep) ++ (setCols cols).text 2 := by
  induction cols generalizing sep with
  | nil => rfl
  | cons c cols ih =>
    obtain ⟨n, ty⟩ := c
    have ih := ih (fun c hc => h c (by simp [hc])) (gs! "\n")
    have hq := quote_plain hi n (ident_plain (h (n, ty) (by simp)))
    simp only [piecesText, ih, hq, setCols, orReturn, gapUnlessLast, Code.text, Expr.text]
    cases cols <;> simp [Code.text, tabs, setCols]

theorem fields_text (cols : List (GoStr × ColType)) :
    piecesText (fun colName colType => gs! "\t" ++ colName ++ gs! " " ++ colType.name ++ gs! "\n") [] [] cols =
      (cols.map fun f => gs! "\t" ++ f.1 ++ gs! " " ++ f.2.name ++ gs! "\n").flatten := by
  induction cols with
  | nil => rfl
  | cons c cols ih =>
    simp only [piecesText, ih, List.map_cons, List.flatten_cons, List.nil_append]

/-! ## The texts -/

set_option maxRecDepth 20000 in
theorem struct_text (now : GoStr) {t : Table τ} (hw : WF t) :
    generateTypeStruct now t =
      .ok (generatedAt now (gs! "type " ++ t.name ++ gs! " struct generated from *gotables.Table [" ++ t.name ++ gs! "]") ++
        (structOf t.name (t.colNames.zip t.colTypes)).text) := by
  simp only [generateTypeStruct, eachColText_all hw.typesLen, Out.bind, fields_text, Struct.text, structOf, generatedAt, comment]
  simp

set_option maxRecDepth 20000 in
theorem fromTable_text (hi : Nat → Bool) (now : GoStr) {t : Table τ} (hw : WF t) (h : ∀ n ∈ t.colNames, isIdent n = true) :
    generateTypeStructSliceFromTable hi now t =
      .ok (generatedAt now (gs! "Generate a slice of type " ++ t.name ++ gs! " struct from *gotables.Table [" ++ t.name ++ gs! "]") ++
        (fromTableFunc t.name (t.colNames.zip t.colTypes)).text) := by
  have e := getCols_text hi t.name (t.colNames.zip t.colTypes) (fun c hc => h _ (List.of_mem_zip hc).1) []
  simp only [generateTypeStructSliceFromTable, eachColText_all hw.typesLen, Out.bind]
  rw [e]
  simp [fromTableFunc, Func.text, Code.text, Expr.text, tablePtrType, generatedAt, comment, tabs, strText]

set_option maxRecDepth 20000 in
theorem toTable_text (hi : Nat → Bool) (now : GoStr) {t : Table τ} (hw : WF t) (hnil : t.isNilTable = false) (hn : isIdent t.name = true)
    (h : ∀ n ∈ t.colNames, isIdent n = true) :
    generateTypeStructSliceToTable hi now t =
      .ok (generatedAt now (gs! "Generate a gotables Table [" ++ t.name ++ gs! "] from a slice of type struct []" ++ t.name) ++
        (toTableFunc t.name (t.colNames.zip t.colTypes)).text) := by
  have e := setCols_text hi (t.colNames.zip t.colTypes) (fun c hc => h _ (List.of_mem_zip hc).1) []
  have e1 : (t.colNames.zip t.colTypes).map Prod.fst = t.colNames := by
    exact List.map_fst_zip (by rw [hw.typesLen]; exact Nat.le_refl _)
  have e2 : ((t.colNames.zip t.colTypes).map fun c => c.2.name) = t.colTypes.map ColType.name := by
    have : (t.colNames.zip t.colTypes).map Prod.snd = t.colTypes := List.map_snd_zip (by rw [hw.typesLen]; exact Nat.le_refl _)
    have e : ((t.colNames.zip t.colTypes).map fun c => c.2.name) = ((t.colNames.zip t.colTypes).map Prod.snd).map ColType.name := by
      rw [List.map_map]; rfl
    rw [e, this]
  have l1 := literal_plain hi t.colNames fun s hs => ident_plain (h s hs)
  have l2 := literal_plain hi (t.colTypes.map ColType.name) (by
    intro s hs
    obtain ⟨ty, _, rfl⟩ := List.mem_map.1 hs
    exact typeName_plain ty)
  simp only [generateTypeStructSliceToTable, eachColText_all hw.typesLen, getColInfoAsSlices_eq hw hnil, Out.bind, l1, l2,
    quote_plain hi t.name (ident_plain hn)]
  rw [e]
  simp [toTableFunc, Func.text, Code.text, orReturn, Expr.text, tablePtrType, generatedAt, comment, tabs, strText, e1, e2]

end Verif.GoLang
