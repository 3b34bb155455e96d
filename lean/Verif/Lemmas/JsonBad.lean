import Verif.Lemmas.JsonTable
import Verif.Lemmas.JsonVisit
import Verif.Lemmas.FloatNear

/-!
# Lemmas: texts that are not JSON
-/

namespace Verif
open Table FloatFmt

variable {P : PrintEnv} {E : JsonEnv} {H : Heap}

/-! ## Values one of whose parts cannot be read -/

/-- A text in the place of a number that is not the text of a value, whatever follows. -/
def NotNum (t : GoStr) : Prop :=
  (∃ c cs, t = c :: cs ∧ (c = 78 ∨ c = 43 ∨ c = 45)) ∧ ∀ rest, jsonNumber (t ++ rest) = none

mutual

/-- Every number is one or is not the text of a value at all; keys can be read back. -/
def JVal.Told (hi : Nat → Bool) : JVal → Prop
  | .null => True
  | .bool _ => True
  | .num t => JsonNum t ∨ NotNum t
  | .str _ => True
  | .arr l => ToldElems hi l
  | .obj m => ToldMembers hi m

def ToldElems (hi : Nat → Bool) : List JVal → Prop
  | [] => True
  | v :: vs => v.Told hi ∧ ToldElems hi vs

def ToldMembers (hi : Nat → Bool) : List (GoStr × JVal) → Prop
  | [] => True
  | (k, v) :: m => JsonText hi k ∧ v.Told hi ∧ ToldMembers hi m

end

theorem toldElems_iff (hi : Nat → Bool) (l : List JVal) : ToldElems hi l ↔ ∀ v ∈ l, v.Told hi := by
  induction l with
  | nil => simp [ToldElems]
  | cons v vs ih => simp [ToldElems, ih]

theorem head_facts {c : UInt8} (h : c = 78 ∨ c = 43 ∨ c = 45) :
    ¬ (c = 32 ∨ c = 9 ∨ c = 10 ∨ c = 13) ∧ c ≠ 123 ∧ c ≠ 91 ∧ c ≠ 34 ∧ c ≠ 116 ∧ c ≠ 102 ∧ c ≠ 110 ∧ c ≠ 93 ∧ c ≠ 125 := by
  rcases h with rfl | rfl | rfl <;> decide

theorem told_head (hi : Nat → Bool) (v : JVal) (h : v.Told hi) : ∃ c cs, v.render hi = c :: cs ∧ ¬ (c = 32 ∨ c = 9 ∨ c = 10 ∨ c = 13) ∧ c ≠ 93 := by
  cases v with
  | num t =>
    rcases h with h | h
    · obtain ⟨c, cs, e, h1, _, h93⟩ := render_head hi (.num t) h
      exact ⟨c, cs, e, h1, h93⟩
    · obtain ⟨⟨c, cs, e, hc⟩, _⟩ := h
      obtain ⟨h1, _, _, _, _, _, _, h93, _⟩ := head_facts hc
      exact ⟨c, cs, e, h1, h93⟩
  | null => exact ⟨110, _, rfl, by decide, by decide⟩
  | bool b => cases b <;> exact ⟨_, _, rfl, by decide, by decide⟩
  | str s => exact ⟨34, _, strconvQuote_eq hi s, by decide, by decide⟩
  | arr l => exact ⟨91, _, rfl, by decide, by decide⟩
  | obj m => exact ⟨123, _, rfl, by decide, by decide⟩

mutual

/-- If some part of a value cannot be read, its text cannot. -/
theorem jsonValue_bad (hi : Nat → Bool) : (v : JVal) → v.Told hi → ¬ v.Good hi → ∀ (n : Nat) (rest : GoStr), 2 * (v.render hi).length + 1 ≤ n →
    jsonValue n (v.render hi ++ rest) = none
  | .null, _, h, _, _, _ => absurd trivial h
  | .bool _, _, h, _, _, _ => absurd trivial h
  | .num t, ht, h, n + 1, rest, _ => by
    rcases ht with ht | ⟨⟨c, cs, e, hc⟩, hnum⟩
    · exact absurd ht h
    have := hnum rest
    simp only [JVal.render, jsonValue]
    rw [e, List.cons_append] at this ⊢
    obtain ⟨h1, h2, h3, h4, h5, h6, h7, _, _⟩ := head_facts hc
    rw [jsonSpace_cons h1]
    simp only [if_neg h2, if_neg h3, if_neg h4, if_neg h5, if_neg h6, if_neg h7, this]
    rfl
  | .str s, _, h, n + 1, rest, _ => by
    simp only [JVal.render, strconvQuote_eq, List.cons_append, jsonValue]
    rw [jsonSpace_cons (by decide)]
    simp only [List.append_assoc, List.cons_append, List.nil_append]
    simp only [show ¬ ((34 : UInt8) = 123) by decide, show ¬ ((34 : UInt8) = 91) by decide, if_false, if_true, jsonChars_not hi s h]
    rfl
  | .arr [], _, h, _, _, _ => absurd trivial h
  | .arr (v :: vs), ht, h, n + 1, rest, hn => by
    obtain ⟨c, cs, e, h1, h93⟩ := told_head hi v ht.1
    have := jsonElems_bad hi v vs ht.1 ht.2 h n rest (by
      simp only [JVal.render, List.length_cons, List.length_append, List.length_nil] at hn; omega)
    simp only [JVal.render, List.cons_append, jsonValue, List.append_assoc, List.nil_append]
    rw [jsonSpace_cons (by decide)]
    simp only [show ¬ ((91 : UInt8) = 123) by decide, if_false, if_true]
    simp only [renderElems, List.append_assoc] at this ⊢
    rw [e, List.cons_append] at this ⊢
    rw [jsonSpace_cons h1]
    split
    · rename_i heq; simp only [List.cons.injEq] at heq; exact absurd heq.1 h93
    · rw [this]; rfl
  | .obj [], _, h, _, _, _ => absurd trivial h
  | .obj ((k, v) :: m), ht, h, n + 1, rest, hn => by
    have := jsonMembers_bad hi k v m ht.1 ht.2.1 ht.2.2 (fun hg => h ⟨ht.1, hg⟩) n rest (by
      simp only [JVal.render, List.length_cons, List.length_append, List.length_nil] at hn; omega)
    simp only [JVal.render, List.cons_append, jsonValue, List.append_assoc, List.nil_append]
    rw [jsonSpace_cons (by decide)]
    simp only [if_true]
    simp only [renderMembers, strconvQuote_eq, List.append_assoc, List.cons_append] at this ⊢
    rw [jsonSpace_cons (by decide)]
    split
    · rename_i heq; simp at heq
    · rw [this]; rfl
termination_by v => sizeOf v

theorem jsonElems_bad (hi : Nat → Bool) : (v : JVal) → (vs : List JVal) → v.Told hi → ToldElems hi vs → ¬ (v.Good hi ∧ GoodElems hi vs) → ∀ (n : Nat) (rest : GoStr),
    2 * (renderElems hi (v :: vs)).length + 2 ≤ n → jsonElems n (renderElems hi (v :: vs) ++ 93 :: rest) = none
  | v, vs, hv, hvs, h, n + 1, rest, hn => by
    by_cases hg : v.Good hi
    · match vs, hvs, h, hn with
      | [], _, h, _ => exact absurd ⟨hg, trivial⟩ h
      | w :: ws, hvs, h, hn =>
        have := jsonElems_bad hi w ws hvs.1 hvs.2 (fun h2 => h ⟨hg, h2⟩) n rest (by
          simp only [renderElems, renderMore, List.length_append, List.length_cons] at hn ⊢; omega)
        simp only [renderElems, renderMore, List.append_assoc, List.cons_append, List.length_append, List.length_cons] at hn this ⊢
        rw [jsonElems, jsonValue_render hi v hg n _ (by omega) (ends_cons (by simp))]
        simp only
        rw [jsonSpace_cons (by decide)]
        simp [this]
    · simp only [renderElems, List.append_assoc, List.length_append] at hn ⊢
      rw [jsonElems, jsonValue_bad hi v hv hg n _ (by omega)]
termination_by v vs => sizeOf v + sizeOf vs + 1

theorem jsonMembers_bad (hi : Nat → Bool) : (k : GoStr) → (v : JVal) → (m : List (GoStr × JVal)) → JsonText hi k → v.Told hi → ToldMembers hi m →
    ¬ (v.Good hi ∧ GoodMembers hi m) → ∀ (n : Nat) (rest : GoStr), 2 * (renderMembers hi ((k, v) :: m)).length + 2 ≤ n →
    jsonMembers n (renderMembers hi ((k, v) :: m) ++ 125 :: rest) = none
  | k, v, m, hk, hv, hm, h, n + 1, rest, hn => by
    by_cases hg : v.Good hi
    · match m, hm, h, hn with
      | [], _, h, _ => exact absurd ⟨hg, trivial⟩ h
      | (k2, w) :: ws, hm, h, hn =>
        have := jsonMembers_bad hi k2 w ws hm.1 hm.2.1 hm.2.2 (fun h2 => h ⟨hg, hm.1, h2⟩) n rest (by
          simp only [renderMembers, renderMoreMembers, List.length_append, List.length_cons] at hn ⊢; omega)
        simp only [renderMembers, renderMoreMembers, List.length_append, List.length_cons] at hn
        simp only [renderMembers, renderMoreMembers, strconvQuote_eq, List.append_assoc, List.cons_append, List.nil_append] at this ⊢
        rw [jsonMembers, jsonSpace_cons (by decide)]
        simp only [if_true]
        rw [jsonChars_quote hi k hk]
        simp only
        rw [jsonSpace_cons (by decide)]
        simp only [if_true]
        rw [jsonValue_render hi v hg n _ (by omega) (ends_cons (by simp))]
        simp only
        rw [jsonSpace_cons (by decide)]
        simp [this]
    · simp only [renderMembers, List.length_append, List.length_cons] at hn
      simp only [renderMembers, strconvQuote_eq, List.append_assoc, List.cons_append, List.nil_append]
      rw [jsonMembers, jsonSpace_cons (by decide)]
      simp only [if_true]
      rw [jsonChars_quote hi k hk]
      simp only
      rw [jsonSpace_cons (by decide)]
      simp only [if_true]
      rw [jsonValue_bad hi v hv hg n _ (by omega)]
termination_by _ v m => sizeOf v + sizeOf m + 1

end

/-- The text of an object is decoded exactly if all its parts can be read. -/
theorem jsonDecode_iff (hi : Nat → Bool) (m : List (GoStr × JVal)) (ht : ToldMembers hi m) : jsonDecode ((JVal.obj m).render hi) ≠ none ↔ GoodMembers hi m := by
  constructor
  · intro h
    refine Classical.byContradiction fun hg => h ?_
    have := jsonValue_bad hi (.obj m) ht hg (2 * ((JVal.obj m).render hi).length + 2) [] (by omega)
    rw [List.append_nil] at this
    rw [jsonDecode, this]
  · intro h
    rw [jsonDecode_render hi m h]
    simp

/-! ## What is written for a cell -/

theorem notNum_lit {t : GoStr} (ht : t = gs! "NaN" ∨ t = gs! "-Inf" ∨ t = gs! "+Inf") : NotNum t := by
  rcases ht with rfl | rfl | rfl
  · exact ⟨⟨78, _, rfl, by simp⟩, fun rest => by simp [jsonNumber, jsonWhole, jsonDigits, isDigit]⟩
  · exact ⟨⟨45, _, rfl, by simp⟩, fun rest => by simp [jsonNumber, jsonWhole, jsonDigits, isDigit]⟩
  · exact ⟨⟨43, _, rfl, by simp⟩, fun rest => by simp [jsonNumber, jsonWhole, jsonDigits, isDigit]⟩

theorem format_not (f : FloatFmt) (g : Nat → GoStr) (neg : Bool) (b : Nat) (h : ¬ b < f.inf) : NotNum (f.format g neg b) := by
  apply notNum_lit
  unfold format
  split
  · exact .inl rfl
  · rw [if_pos (by omega)]
    cases neg
    · exact .inr (.inr rfl)
    · exact .inr (.inl rfl)

theorem notNum_num {t : GoStr} (h : NotNum t) : ¬ JsonNum t := by
  intro h2
  have h3 := h2.2 [] (.inl rfl)
  rw [h.2 []] at h3
  cases h3

theorem jsonText_rune {hi : Nat → Bool} {r : Nat} (hv : ValidRune r) (h : JsonText hi (encodeRune r)) : JsonRune hi r := by
  obtain ⟨rs, e, hrs⟩ := h
  have h1 := decode_encode hv []
  rw [List.append_nil] at h1
  cases rs with
  | nil =>
    rw [e] at h1
    simp [decodeRune?] at h1
  | cons r2 rs =>
    have h2 := decode_encode (hrs r2 (by simp)).1 ((rs.map encodeRune).flatten)
    rw [List.map_cons, List.flatten_cons] at e
    rw [e, h2] at h1
    have := (Prod.mk.inj (Option.some.inj h1)).1
    rw [← this]
    exact hrs r2 (by simp)

/-- What is written of a table: valid JSON exactly if `Q`. -/
def WritesTold (hi : Nat → Bool) (Q : Prop) (s : GoStr) : Prop := ∃ m, s = renderMembers hi m ∧ ToldMembers hi m ∧ (GoodMembers hi m ↔ Q)

/-- The text written for a cell: valid JSON exactly if the value can be spelled in JSON and so can nested tables. -/
theorem jsonCell_told (hP : P.text.float = goFloat) (hT : ∀ v, PlainText (P.fmtTime v)) {nestedW : List Addr → Addr → Out (GoStr × List Addr)}
    {t : Table Addr} (hw : WF t) (hnil : t.isNilTable = false) {r j : Nat} {row : List (Cell Addr)}
    {c : Cell Addr} {ty : ColType} (hr : t.rows[r]? = some row) (hc : row[j]? = some c) (hty : t.colTypes[j]? = some ty)
    {Q : Addr → Prop} {refs refs' : List Addr} {s : GoStr} (hok : jsonCell P H nestedW refs t r j = .ok (s, refs'))
    (hnest : ∀ b s' refs' , c = .tbl (some b) → ¬ IsNil H b → nestedW refs b = .ok (s', refs') → WritesTold P.printable (Q b) s') :
    ∃ v : JVal, s = v.render P.printable ∧ v.Told P.printable ∧ (v.Good P.printable ↔ JsonSpelled P ty c ∧ ∀ b, c = .tbl (some b) → ¬ IsNil H b → Q b) := by
  obtain ⟨hval, hht⟩ := getVal_ok hw hr hc hty
  have hg : goGet? t.colTypes (j : Int) = some ty := by simp [goGet?, hty]
  have hstr : ∀ s, plainText P H ty c = .ok s → t.getValAsStringByColIndex P H j r = .ok s := by
    intro s hs
    simp only [getValAsStringByColIndex, hnil, hval, Out.bind, hg, hs]
    rfl
  cases c with
  | nil => cases ty <;> exact absurd hht (by simp [Cell.HasType])
  | str s0 =>
    cases ty <;> simp only [Cell.HasType] at hht
    simp only [jsonCell, hval, Out.bind, Out.ok.injEq, Prod.mk.injEq] at hok
    refine ⟨.str s0, hok.1.symm, trivial, ?_⟩
    simp [JVal.Good, JsonSpelled]
  | bool b =>
    cases ty <;> simp only [Cell.HasType] at hht
    simp only [jsonCell, hval, Out.bind, hstr _ (rfl : plainText P H .bool (.bool b) = .ok _), Out.ok.injEq, Prod.mk.injEq] at hok
    refine ⟨.bool b, hok.1.symm, trivial, ?_⟩
    simp [JVal.Good, JsonSpelled]
  | f32 b =>
    cases ty <;> simp only [Cell.HasType] at hht
    simp only [jsonCell, hval, Out.bind, hstr _ (rfl : plainText P H .float32 (.f32 b) = .ok _), Out.ok.injEq, Prod.mk.injEq] at hok
    rw [hP] at hok
    have hdec : finite32 b ∧ JsonNum (goFloat.fmt32 b) ∨ ¬ finite32 b ∧ NotNum (goFloat.fmt32 b) := by
      by_cases hf : finite32 b
      · exact .inl ⟨hf, jsonNum_f32 b hf⟩
      · exact .inr ⟨hf, format_not f32 _ _ _ hf⟩
    refine ⟨.num (goFloat.fmt32 b), hok.1.symm, hdec.imp And.right And.right, ?_⟩
    simp only [JVal.Good, JsonSpelled, reduceCtorEq, false_implies, implies_true, and_true]
    rcases hdec with h | h
    · simp [h.1, h.2]
    · simp [h.1, notNum_num h.2]
  | f64 b =>
    cases ty <;> simp only [Cell.HasType] at hht
    simp only [jsonCell, hval, Out.bind, hstr _ (rfl : plainText P H .float64 (.f64 b) = .ok _), Out.ok.injEq, Prod.mk.injEq] at hok
    rw [hP] at hok
    have hdec : finite64 b ∧ JsonNum (goFloat.fmt64 b) ∨ ¬ finite64 b ∧ NotNum (goFloat.fmt64 b) := by
      by_cases hf : finite64 b
      · exact .inl ⟨hf, jsonNum_f64 b hf⟩
      · exact .inr ⟨hf, format_not f64 _ _ _ hf⟩
    refine ⟨.num (goFloat.fmt64 b), hok.1.symm, hdec.imp And.right And.right, ?_⟩
    simp only [JVal.Good, JsonSpelled, reduceCtorEq, false_implies, implies_true, and_true]
    rcases hdec with h | h
    · simp [h.1, h.2]
    · simp [h.1, notNum_num h.2]
  | time v =>
    cases ty <;> simp only [Cell.HasType] at hht
    simp only [jsonCell, hval, Out.bind, Out.ok.injEq, Prod.mk.injEq] at hok
    refine ⟨.str (P.fmtTime v), ?_, trivial, ?_⟩
    · rw [← hok.1, JVal.render, strconvQuote_eq, quoteLoop_plain _ _ (hT v)]
      rfl
    simp [JVal.Good, JsonSpelled, (hT v).jsonText]
  | bytes b =>
    have htext : plainText P H ty (.bytes b) = .ok (fmtBytes b) := by
      cases ty <;> simp only [Cell.HasType] at hht <;> rfl
    simp only [jsonCell, hval, Out.bind, hstr _ htext, Out.ok.injEq, Prod.mk.injEq] at hok
    have hnum : ∀ x : UInt8, JsonNum (fmtNat x.toNat) := by
      intro x
      have := jsonNum_decimal false x.toNat 0
      simpa [decimal] using this
    refine ⟨.arr ((b.getD []).map fun x => .num (fmtNat x.toNat)), ?_, ?_, ?_⟩
    · rw [← hok.1]; exact bytes_render _ b
    · rw [JVal.Told, toldElems_iff]
      intro v hv
      obtain ⟨x, _, rfl⟩ := List.mem_map.1 hv
      exact .inl (hnum x)
    · have : JVal.Good P.printable (.arr ((b.getD []).map fun x => .num (fmtNat x.toNat))) := by
        rw [JVal.Good, goodElems_iff]
        intro v hv
        obtain ⟨x, _, rfl⟩ := List.mem_map.1 hv
        exact hnum x
      simp [this, JsonSpelled]
  | int k v =>
    by_cases hrune : ty = .rune
    · subst hrune
      cases k <;> simp only [Cell.HasType] at hht
      simp only [jsonCell, hval, Out.bind, hstr _ (plainText_rune P H v), hg, Out.ok.injEq, Prod.mk.injEq] at hok
      refine ⟨.str (encodeRune (runeText v)), hok.1.symm, trivial, ?_⟩
      simp only [JVal.Good, JsonSpelled, reduceCtorEq, false_implies, implies_true, and_true, true_implies]
      constructor
      · intro h h0 hv
        have := jsonText_rune (runeText_valid v) h
        rwa [runeText, if_pos ⟨h0, hv⟩] at this
      · intro h
        refine ⟨[runeText v], by simp, ?_⟩
        intro r hr
        rw [List.mem_singleton.1 hr]
        by_cases h0 : 0 ≤ v ∧ ValidRune v.toNat
        · rw [runeText, if_pos h0]; exact h h0.1 h0.2
        · rw [runeText, if_neg h0]; exact ⟨.inr (by omega), by omega⟩
    · obtain ⟨h1, h2, h3, h4, h5, h6⟩ := jsonInt_type (P := P) (H := H) (E := ⟨P.text, fun _ _ => 0⟩) hht hrune
      have hs : s = fmtInt v := by
        cases k with
        | int32 =>
          have : ty = .int32 := by cases ty <;> simp_all [Cell.HasType]
          subst this
          simp only [jsonCell, hval, Out.bind, hstr _ h5, hg, Out.ok.injEq, Prod.mk.injEq] at hok
          exact hok.1.symm
        | _ =>
          simp only [jsonCell, hval, Out.bind, hstr _ h5, Out.ok.injEq, Prod.mk.injEq] at hok
          exact hok.1.symm
      refine ⟨.num (fmtInt v), hs, .inl (jsonNum_int v), ?_⟩
      simp [JVal.Good, JsonSpelled, jsonNum_int v, hrune]
  | tbl o =>
    cases ty <;> cases o <;> simp only [Cell.HasType] at hht
    rename_i b
    have hget := getTypedByColIndex_table hty hr hc
    simp only [jsonCell, hval, Out.bind, hget] at hok
    split at hok
    · simp at hok
    split at hok
    · simp at hok
    rename_i hb
    split at hok
    · next hn =>
      simp only [Out.ok.injEq, Prod.mk.injEq] at hok
      refine ⟨.null, hok.1.symm, trivial, ?_⟩
      simp only [JVal.Good, JsonSpelled, true_and, true_iff]
      intro b' e hnb
      cases e
      exact absurd ⟨_, hb, hn⟩ hnb
    · next hn =>
      split at hok
      · next p hnw =>
        obtain ⟨s', refs1⟩ := p
        simp only [Out.ok.injEq, Prod.mk.injEq] at hok
        have hnb : ¬ IsNil H b := by rintro ⟨t2, h1, h2⟩; rw [hb] at h1; cases h1; exact hn h2
        obtain ⟨m, e, hm, hq⟩ := hnest b s' refs1 rfl hnb hnw
        refine ⟨.obj m, ?_, hm, ?_⟩
        · rw [← hok.1, e]; rfl
        · show GoodMembers _ _ ↔ _
          rw [hq]
          simp only [JsonSpelled, true_and]
          constructor
          · intro h b' e _; cases e; exact h
          · intro h; exact h b rfl hnb
      · simp at hok
      · simp at hok

/-! ## What is written for a table -/

theorem tableMembers_told {hi : Nat → Bool} (t : Table Addr) (arrs : List JVal) (hn : PlainText t.name) (h : ∀ p ∈ t.colNames.zip t.colTypes, PlainText p.1)
    (ha : ∀ v ∈ arrs, v.Told hi) : ToldMembers hi (tableMembers t arrs) := by
  have hm : ToldElems hi ((t.colNames.zip t.colTypes).map fun x => .obj [(x.1, .str x.2.name)]) := by
    rw [toldElems_iff]
    intro v hv
    obtain ⟨p, hp, rfl⟩ := List.mem_map.1 hv
    exact ⟨(h p hp).jsonText, trivial, trivial⟩
  have ha := (toldElems_iff hi arrs).2 ha
  cases hs : t.isStructShape
  · simp only [tableMembers, hs]
    exact ⟨plain_lit1.jsonText, trivial, plain_lit3.jsonText, hm, plain_lit4.jsonText, ha, trivial⟩
  · simp only [tableMembers, hs]
    exact ⟨plain_lit1.jsonText, trivial, plain_lit2.jsonText, trivial, plain_lit3.jsonText, hm, plain_lit4.jsonText, ha, trivial⟩

theorem tableMembers_goodArrs {hi : Nat → Bool} (t : Table Addr) (arrs : List JVal) (h : GoodMembers hi (tableMembers t arrs)) : ∀ v ∈ arrs, v.Good hi := by
  have := ((goodMembers_iff hi _).1 h (gs! "data", .arr arrs) (by simp [tableMembers])).2
  exact (goodElems_iff hi arrs).1 this

theorem table_told (hP : P.text.float = goFloat) (hT : ∀ v, PlainText (P.fmtTime v)) (hw : HeapWF H) : ∀ (d : Nat) (refs : List Addr) (a : Addr) (s : GoStr) (refs' : List Addr),
    jsonTable P H d refs a = .ok (s, refs') → AsciiTree H a → ¬ IsNil H a → WritesTold P.printable (SpelledTree P H a) s := by
  intro d
  induction d with
  | zero => intro refs a s refs' h; cases h
  | succ d ih =>
    intro refs a s refs' h hwr hnn
    rw [jsonTable] at h
    cases hH : H[a]? with
    | none => simp only [hH] at h; cases h
    | some t =>
    simp only [hH] at h
    have hnil : t.isNilTable = false := by
      cases e : t.isNilTable with
      | false => rfl
      | true => exact absurd ⟨t, hH, e⟩ hnn
    obtain ⟨hasc, hascc⟩ := hwr a t (.inl rfl) hH hnil
    have hwt := hw t (List.mem_of_getElem? hH)
    have hname := hwt.nameValid hnil
    cases hrow : jsonRows P H (jsonTable P H d) t (a :: refs) (List.range t.rows.length) with
    | err e => rw [hrow] at h; cases h
    | panic => rw [hrow] at h; cases h
    | ok pr =>
    obtain ⟨rows, refs1⟩ := pr
    rw [hrow] at h
    simp only [Out.bind, Out.ok.injEq, Prod.mk.injEq] at h
    obtain ⟨hs, -⟩ := h
    have hplain : ∀ p ∈ t.colNames.zip t.colTypes, PlainText p.1 := fun p hp => by
      have := (List.of_mem_zip hp).1
      exact plain_name (isValidColName_name (hwt.namesValid _ this)).1 (hascc _ this)
    obtain ⟨arrs, ha1, ha2⟩ := jsonRows_writes (Q := fun r j v => v.Told P.printable ∧ ∀ row c ty, t.rows[r]? = some row → row[j]? = some c → t.colTypes[j]? = some ty →
        (v.Good P.printable ↔ JsonSpelled P ty c ∧ ∀ b, c = .tbl (some b) → ¬ IsNil H b → SpelledTree P H b)) _ _ _ _ hrow (by
      intro r hr p hp refs2 s2 refs3 hcell
      have hr := List.mem_range.1 hr
      have hj := List.mem_range.1 (List.of_mem_zip hp).1
      have hrr := List.getElem?_eq_getElem hr
      have hro := hwt.rowsOK _ (List.getElem_mem hr)
      have hj2 : p.1 < t.colTypes.length := by rw [hwt.typesLen]; exact hj
      have hj3 : p.1 < t.rows[r].length := by rw [hro.1]; exact hj2
      have hcc := List.getElem?_eq_getElem hj3
      have htt := List.getElem?_eq_getElem hj2
      obtain ⟨v, v1, v2, v3⟩ := jsonCell_told (Q := SpelledTree P H) hP hT hwt hnil hrr hcc htt hcell (by
        intro b s' refs' hcb hbn hbw
        have hold : HoldsAt H a p.1 r b := ⟨t, hH, by simp only [nestedAt, hrr, hcc, hcb]⟩
        refine ih _ _ _ _ hbw (fun x tx hx => hwr x tx (.inr ?_)) hbn
        rcases hx with rfl | hx
        · exact .direct hold
        · exact .cons hold hx)
      refine ⟨v, v1, v2, ?_⟩
      intro row c' ty e1 e2 e3
      rw [hrr] at e1; cases e1
      rw [hcc] at e2; cases e2
      rw [htt] at e3; cases e3
      exact v3)
    have hkeys : ∀ (k : Nat) p, ((List.range t.colNames.length).zip t.colNames)[k]? = some p → p.1 = k ∧ JsonText P.printable p.2 := by
      intro k p hp
      have hm := (List.of_mem_zip (List.mem_of_getElem? hp)).2
      rw [List.getElem?_zip_eq_some] at hp
      obtain ⟨h1, h2⟩ := List.getElem?_eq_some_iff.1 hp.1
      exact ⟨by simpa using h2.symm, (plain_name (isValidColName_name (hwt.namesValid _ hm)).1 (hascc _ hm)).jsonText⟩
    have htold : ∀ v ∈ arrs, v.Told P.printable := by
      intro v hv
      obtain ⟨i, hi⟩ := List.mem_iff_getElem?.1 hv
      obtain ⟨r, -, os, rfl, hos⟩ := ha2.back i v hi
      show ToldElems _ os
      rw [toldElems_iff]
      intro o ho
      obtain ⟨k, hk⟩ := List.mem_iff_getElem?.1 ho
      obtain ⟨p, hp, w, rfl, hw2, -⟩ := hos.back k o hk
      exact ⟨(hkeys k p hp).2, hw2, trivial⟩
    have hidx : ∀ (i : Nat) r, (List.range t.rows.length)[i]? = some r → r = i ∧ i < t.rows.length := by
      intro i r hr
      obtain ⟨h1, h2⟩ := List.getElem?_eq_some_iff.1 hr
      exact ⟨by simpa using h2.symm, by simpa using h1⟩
    rw [ha1, tableMembers_render t arrs hplain] at hs
    refine ⟨tableMembers t arrs, hs.symm, tableMembers_told t arrs (plain_name (isValidTableName_name hname) hasc) hplain htold, ?_⟩
    have cells : GoodMembers P.printable (tableMembers t arrs) ↔ ∀ (r k : Nat) row c ty, t.rows[r]? = some row → row[k]? = some c → t.colTypes[k]? = some ty →
        JsonSpelled P ty c ∧ ∀ b, c = .tbl (some b) → ¬ IsNil H b → SpelledTree P H b := by
      constructor
      · intro hg r k row c ty hr hc hty
        have hga := tableMembers_goodArrs t arrs hg
        have hrl := (List.getElem?_eq_some_iff.1 hr).1
        have hkl : k < t.colNames.length := by rw [← hwt.typesLen]; exact (List.getElem?_eq_some_iff.1 hty).1
        obtain ⟨arr, harr, os, rfl, hos⟩ := ha2.get r r (by simp [hrl])
        have hz : ((List.range t.colNames.length).zip t.colNames)[k]? = some (k, t.colNames[k]) := by
          rw [List.getElem?_zip_eq_some]
          exact ⟨by simp [hkl], List.getElem?_eq_getElem hkl⟩
        obtain ⟨o, ho, v, rfl, -, hv⟩ := hos.get k _ hz
        have h1 := (goodElems_iff _ os).1 (hga _ (List.mem_of_getElem? harr)) _ (List.mem_of_getElem? ho)
        exact (hv row c ty hr hc hty).1 h1.2.1
      · intro hall
        refine tableMembers_good t arrs (plain_name (isValidTableName_name hname) hasc) hplain fun v hv => ?_
        obtain ⟨i, hi⟩ := List.mem_iff_getElem?.1 hv
        obtain ⟨r, hr, os, rfl, hos⟩ := ha2.back i v hi
        obtain ⟨rfl, hil⟩ := hidx i r hr
        show GoodElems _ os
        rw [goodElems_iff]
        intro o ho
        obtain ⟨k, hk⟩ := List.mem_iff_getElem?.1 ho
        obtain ⟨p, hp, w, rfl, -, hv2⟩ := hos.back k o hk
        obtain ⟨e, htxt⟩ := hkeys k p hp
        rw [e] at hv2
        have hkl : k < t.colTypes.length := by
          rw [hwt.typesLen]
          have := (List.getElem?_eq_some_iff.1 hp).1
          rw [List.length_zip, List.length_range, Nat.min_self] at this
          exact this
        have hrr := List.getElem?_eq_getElem hil
        have hkr : k < t.rows[r].length := by rw [(hwt.rowsOK _ (List.getElem_mem hil)).1]; exact hkl
        have hcc := List.getElem?_eq_getElem hkr
        have htt := List.getElem?_eq_getElem hkl
        exact ⟨htxt, (hv2 _ _ _ hrr hcc htt).2 (hall _ _ _ _ _ hrr hcc htt), trivial⟩
    rw [cells]
    constructor
    · intro hall b tb hb hHb hnb
      rcases hb with rfl | hb
      · rw [hH] at hHb; cases hHb
        intro row hr
        obtain ⟨r, hr⟩ := List.mem_iff_getElem?.1 hr
        apply pointwise_of (hwt.rowsOK row (List.mem_of_getElem? hr)).1.symm
        intro k ty c hty hc
        exact (hall r k row c ty hr hc hty).1
      · obtain ⟨c, r, x, hx, hxb⟩ := Below.first hb
        have hxn : ¬ IsNil H x := by
          rcases hxb with rfl | hxb
          · rintro ⟨t2, h1, h2⟩
            rw [hHb] at h1; cases h1
            rw [hnb] at h2; cases h2
          · obtain ⟨_, _, _, h2, _⟩ := Below.first hxb
            exact holds_notNil hw h2
        obtain ⟨t2, h1, h2⟩ := hx
        rw [hH] at h1; cases h1
        obtain ⟨row, hr, hc⟩ := nestedAt_some.1 h2
        have hcl := (List.getElem?_eq_some_iff.1 hc).1
        have hkl : c < t.colTypes.length := by rw [← (hwt.rowsOK row (List.mem_of_getElem? hr)).1]; exact hcl
        exact (hall r c row _ _ hr hc (List.getElem?_eq_getElem hkl)).2 x rfl hxn b tb hxb hHb hnb
    · intro hall r k row c ty hr hc hty
      refine ⟨?_, ?_⟩
      · obtain ⟨c', hc', hs'⟩ := (hall a t (.inl rfl) hH hnil row (List.mem_of_getElem? hr)).get k ty hty
        rw [hc] at hc'; cases hc'
        exact hs'
      · intro b e _ x tx hx
        have hold : HoldsAt H a k r b := ⟨t, hH, by simp only [nestedAt, hr, hc, e]⟩
        exact hall x tx (.inr (Reached.of_holds hold hx))

/-! ## Sets of tables -/

theorem tables_told (hP : P.text.float = goFloat) (hT : ∀ v, PlainText (P.fmtTime v)) (hw : HeapWF H) {d : Nat} :
    ∀ (as : List Addr) (ss : List GoStr), jsonTables P H d as = .ok ss → (∀ a ∈ as, AsciiTree H a ∧ ¬ IsNil H a) →
      ∃ os : List JVal, ss = os.map (fun o => o.render P.printable) ∧ ToldElems P.printable os ∧ (GoodElems P.printable os ↔ ∀ a ∈ as, SpelledTree P H a)
  | [], ss, h, _ => by
    simp only [jsonTables, Out.ok.injEq] at h
    exact ⟨[], by rw [← h]; rfl, trivial, by simp [GoodElems]⟩
  | a :: as, ss, h, hwr => by
    rw [jsonTables, jsonTablePrivate] at h
    cases h1 : jsonTable P H d [] a with
    | err e => rw [h1] at h; cases h
    | panic => rw [h1] at h; cases h
    | ok pr =>
      obtain ⟨s1, refs1⟩ := pr
      rw [h1] at h
      simp only [Out.bind] at h
      cases h2 : jsonTables P H d as with
      | err e => rw [h2] at h; cases h
      | panic => rw [h2] at h; cases h
      | ok ss2 =>
        rw [h2] at h
        simp only [Out.ok.injEq] at h
        obtain ⟨hasc, hnn⟩ := hwr a (by simp)
        obtain ⟨m, m1, m2, m3⟩ := table_told hP hT hw d [] a s1 refs1 h1 hasc hnn
        obtain ⟨os, o1, o2, o3⟩ := tables_told hP hT hw as ss2 h2 fun x hx => hwr x (by simp [hx])
        refine ⟨.obj m :: os, by rw [← h, o1, m1]; rfl, ⟨m2, o2⟩, ?_⟩
        simp only [GoodElems, JVal.Good, m3, o3, List.forall_mem_cons]

/-- The text of a set of tables is valid JSON exactly if its name and all values can be spelled. -/
theorem set_told (hP : P.text.float = goFloat) (hT : ∀ v, PlainText (P.fmtTime v)) (hw : HeapWF H) {d : Nat} {S : TableSet} {s : GoStr} (h : getTableSetAsJSON P H d S = .ok s)
    (hwr : ∀ a ∈ S.tables, AsciiTree H a ∧ ¬ IsNil H a) : jsonDecode s ≠ none ↔ JsonText P.printable S.name ∧ ∀ a ∈ S.tables, SpelledTree P H a := by
  unfold getTableSetAsJSON at h
  cases h1 : jsonTables P H d S.tables with
  | err e => rw [h1] at h; cases h
  | panic => rw [h1] at h; cases h
  | ok ss =>
    rw [h1] at h
    simp only [Out.bind, Out.ok.injEq] at h
    obtain ⟨os, o1, o2, o3⟩ := tables_told hP hT hw S.tables ss h1 hwr
    have hs : s = (JVal.obj (setMembers S.name os)).render P.printable := by
      rw [← h, o1, joinSep_render]
      simp [setMembers, JVal.render, renderMembers, renderMoreMembers, quote_plain plain_lit5, quote_plain plain_lit6]
    rw [hs, jsonDecode_iff P.printable _ (show ToldMembers _ (setMembers S.name os) from ⟨plain_lit5.jsonText, trivial, plain_lit6.jsonText, o2, trivial⟩)]
    show JsonText _ _ ∧ JsonText _ _ ∧ JsonText _ _ ∧ GoodElems _ _ ∧ True ↔ _
    rw [o3]
    simp [plain_lit5.jsonText, plain_lit6.jsonText]

/-! ## What can be spelled is read -/

theorem nearest_lt {f : FloatFmt} {n d B : Nat} (hd : 0 < d) (h : f.nearest n d < B) : n < f.units B * d := by
  obtain ⟨b0, _, k2, k3⟩ := nearest_between f n d hd
  have hle : b0 + 1 ≤ B := by
    split at k3
    · omega
    · split at k3
      · omega
      · split at k3 <;> omega
  refine Nat.lt_of_lt_of_le k2 (Nat.mul_le_mul_right _ ?_)
  rcases Nat.lt_or_eq_of_le hle with h | h
  · exact Nat.le_of_lt (units_mono f h)
  · rw [h]; exact Nat.le_refl _

theorem nearest_le {f : FloatFmt} {n d B : Nat} (hd : 0 < d) (h : n < f.units B * d) : f.nearest n d ≤ B := by
  obtain ⟨b0, k1, _, k3⟩ := nearest_between f n d hd
  have hlt : b0 < B := units_lt f (Nat.lt_of_mul_lt_mul_right (Nat.lt_of_le_of_lt k1 h))
  rw [k3]
  split
  · omega
  · split
    · omega
    · split <;> omega

/-- The text of a `float32` can be read as a `float64`. -/
theorem parse64_fmt32 (b : BitVec 32) (h : finite32 b) : ∃ x, goFloat.parse64 (goFloat.fmt32 b) = some x := by
  have hb : b.toNat % 2 ^ 31 < f32.inf := h
  obtain ⟨c, k, h1, h2⟩ := formatShortest_decimal f32 (b.toNat % 2 ^ 31)
  have hp : 0 < 10 ^ k := Nat.pow_pos (by omega)
  have hn := nearest_lt hp (show f32.nearest (c * 2 ^ f32.scale) (10 ^ k) < f32.inf by rw [h2]; exact hb)
  have e1 : f32.units f32.inf = 2 ^ 277 := by
    have := units_at f32 254 (2 ^ 23) (.inr (Nat.le_refl _)) (by decide)
    rw [← Nat.pow_add] at this
    exact this
  have e2 : f64.units (1151 * 2 ^ 52) = 2 ^ 1202 := by
    have := units_at f64 1150 (2 ^ 52) (.inr (Nat.le_refl _)) (by decide)
    rw [← Nat.pow_add] at this
    rw [← this]
    rfl
  rw [e1, show f32.scale = 149 from rfl] at hn
  have hn2 : c * 2 ^ f64.scale < f64.units (1151 * 2 ^ 52) * 10 ^ k := by
    rw [e2, show f64.scale = 1074 from rfl]
    have h3 : (c * 2 ^ 149) * 2 ^ 925 < (2 ^ 277 * 10 ^ k) * 2 ^ 925 := Nat.mul_lt_mul_of_pos_right hn (Nat.two_pow_pos _)
    rw [Nat.mul_assoc, ← Nat.pow_add, Nat.mul_comm (2 ^ 277), Nat.mul_assoc, ← Nat.pow_add, Nat.mul_comm (10 ^ k)] at h3
    exact h3
  have hlt : f64.nearest (c * 2 ^ f64.scale) (10 ^ k) < f64.inf :=
    Nat.lt_of_le_of_lt (nearest_le hp hn2) (show 1151 * 2 ^ 52 < f64.inf by decide)
  have hparse : f64.parse (f32.format f32.formatShortest (decide (2 ^ 31 ≤ b.toNat)) (b.toNat % 2 ^ 31)) = some (decide (2 ^ 31 ≤ b.toNat), f64.nearest (c * 2 ^ f64.scale) (10 ^ k)) := by
    rw [format, if_neg (Nat.not_lt.2 (Nat.le_of_lt hb)), if_neg (Nat.ne_of_lt hb), h1, parse_decimal f64 _ c k hlt]
  refine ⟨BitVec.ofNat 64 (f64.nearest (c * 2 ^ f64.scale) (10 ^ k) + if decide (2 ^ 31 ≤ b.toNat) then 2 ^ 63 else 0), ?_⟩
  show Option.map _ (f64.parse (f32.format f32.formatShortest (decide (2 ^ 31 ≤ b.toNat)) (b.toNat % 2 ^ 31))) = _
  rw [hparse]
  rfl

theorem spelled_safe (hP : P.text.float = goFloat) (hE : E.text.float = goFloat) (hT : ∀ v, PlainText (P.fmtTime v)) (hc : CastOK E) {ty : ColType} {c : Cell Addr}
    (hht : c.HasType ty) (hs : JsonSpelled P ty c) (htime : ∀ v, c = .time v → ∃ w, E.text.parseTime (P.fmtTime v) = some w) : CellSafe (JsonRead P E) P E ty c := by
  cases c with
  | int k v =>
    have hh := has_of hht
    simp only [CellSafe]
    split
    · next e =>
      have hk : k = .int32 := by
        subst e
        cases k <;> simp_all [Cell.HasType]
      by_cases h0 : 0 ≤ v ∧ ValidRune v.toNat
      · have hjr := hs e h0.1 h0.2
        rw [runeText, if_pos h0, Int.toNat_of_nonneg h0.1]
        exact ⟨hjr, .inl ⟨v, rfl, hh, .inl (rune_small h0.1 hjr).nearest⟩⟩
      · rw [runeText, if_neg h0]
        exact ⟨⟨.inr (by omega), by omega⟩, .inr ⟨hk, h0, rfl⟩⟩
    · obtain ⟨x, n, h1, h2, h3, h4⟩ := castInt_near hh hc
      refine ⟨x, h1, .inl ⟨_, rfl, h3, ?_⟩, h3⟩
      by_cases hn : k.Has n
      · rw [h4 hn]; exact .inl h2
      · exact .inr ⟨n, h2, hn⟩
  | f32 b =>
    obtain ⟨x, hx⟩ := parse64_fmt32 b hs
    exact ⟨hs, x, hx, x, by rw [hE, hP]; exact hx, rfl⟩
  | time v =>
    obtain ⟨w, hw⟩ := htime v rfl
    exact ⟨hT v, w, hw, w, hw, rfl⟩
  | f64 b => exact ⟨hs, fun _ h => h⟩
  | str s => exact ⟨hs, fun _ h => h⟩
  | nil => exact ⟨trivial, fun _ h => h⟩
  | bool b => exact ⟨trivial, fun _ h => h⟩
  | bytes b => exact ⟨trivial, fun _ h => h⟩
  | tbl o => exact ⟨trivial, fun _ h => h⟩

theorem spelledTree_safe (hP : P.text.float = goFloat) (hE : E.text.float = goFloat) (hT : ∀ v, PlainText (P.fmtTime v)) (hc : CastOK E) (hw : HeapWF H) {a : Addr}
    (ha : AsciiTree H a) (hs : SpelledTree P H a) (ht : TimesParse P E H a) : ∀ b t, (b = a ∨ Below H a b) → H[b]? = some t → t.isNilTable = false → TableSafe (JsonRead P E) P E t := by
  intro b t hb hH hn
  have hwt := hw t (List.mem_of_getElem? hH)
  refine ⟨hwt, (ha b t hb hH hn).1, (ha b t hb hH hn).2, fun row hr => ?_⟩
  have hp := hs b t hb hH hn row hr
  apply pointwise_of hp.length
  intro i ty c hty hcell
  obtain ⟨c', hc', hs'⟩ := hp.get i ty hty
  rw [hcell] at hc'; cases hc'
  exact spelled_safe hP hE hT hc ((hwt.rowsOK row hr).2 i ty _ hty hcell) hs' fun v e => ht b t hb hH row hr v (by rw [← e]; exact List.mem_of_getElem? hcell)

end Verif
