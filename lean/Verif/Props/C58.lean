import Verif.Lemmas.BadRow
import Verif.Props.C36

/-!
# C58: rows with too many or too few values are refused

The text of a table, as `StringUnpadded` writes it, is followed by one more row.  `Texts P H types cells texts` says that `texts` are the texts of the values `cells` of the types `types`.
-/

namespace Verif
open Table

/-- The texts of the values of a row. -/
def Texts (P : PrintEnv) (H : Heap) (types : List ColType) (cells : List (Cell Addr)) (texts : List GoStr) : Prop :=
  Pointwise (fun (x : ColType × Cell Addr) s => cellText P H x.1 x.2 = .ok s) (types.zip cells) texts

/-- The parser's state after the text of a table, when a row follows. -/
theorem afterTable (P : PrintEnv) (hF : FloatOK P.text.float) (H H0 : Heap) (t : Table Addr) (h : Writable plainType t) (hshape : t.isStructShape = false)
    (hcols : t.colNames ≠ []) :
    ∃ ls p, stringUnpadded P H t = .ok (unlines ls) ∧ (∀ l ∈ ls, 10 ∉ l) ∧ runLines P.text (startState H0) ls = .ok p ∧
      p.expecting = .colRows ∧ p.colNames = t.colNames ∧ p.colTypes = t.colTypes.map ColType.name := by
  obtain ⟨ls, rows', h1, h2, h3, h4, h5⟩ := stringUnpadded_lines P hF H h (.inl hshape)
  obtain ⟨p', t', r1, _, _, _, _, _, _, _, _, _, _, r2⟩ := runTableState P.text h2 (h.wf.nameValid h.notNil) h.ascii h.wf.typesLen h.wf.namesValid h.wf.namesNodup
    (startState H0) rfl (by simp [startState, newTableSet]) (by simp [startState, newTableSet, setNames])
  obtain ⟨q1, _, q3, q4⟩ := r2 hcols
  exact ⟨ls, p', h1, h5, r1, q1, q3, q4⟩

theorem pointwise_texts {P : PrintEnv} {H : Heap} : ∀ {xs : List (ColType × Cell Addr)} {texts : List GoStr} {items : List RowItem},
    Pointwise (fun (x : ColType × Cell Addr) s => cellText P H x.1 x.2 = .ok s) xs texts →
    Pointwise (fun (x : ColType × Cell Addr) (y : RowItem) => cellText P H x.1 x.2 = .ok y.2.1) xs items → texts = items.map fun y => y.2.1
  | [], [], [], _, _ => rfl
  | [], [], _ :: _, _, h => by simp [Pointwise] at h
  | [], _ :: _, _, h, _ => by simp [Pointwise] at h
  | _ :: _, [], _, h, _ => by simp [Pointwise] at h
  | _ :: _, _ :: _, [], _, h => by simp [Pointwise] at h
  | x :: xs, s :: texts, y :: items, h1, h2 => by
    have e := h1.1.symm.trans h2.1
    simp only [Out.ok.injEq] at e
    rw [List.map_cons, e, pointwise_texts h1.2 h2.2]

/-- **C58**, too many values: after a complete row no text is ignored.  `junk` is any text on the same line that is not blank (it has a visible ASCII character), and `more` is whatever follows. -/
theorem C58_tooMany (P : PrintEnv) (hF : FloatOK P.text.float) (H H0 : Heap) (t : Table Addr) (h : Writable plainType t) (hshape : t.isStructShape = false)
    (hcols : t.colNames ≠ []) (row : List (Cell Addr)) (hrow : RowOK t.colTypes row) (hsafe : Pointwise (fun ty c => TextSafe ty c) t.colTypes row)
    (texts : List GoStr) (htexts : Texts P H t.colTypes row texts) (junk more : GoStr) (hnl : 10 ∉ junk)
    (hjunk : ∃ c ∈ junk, 33 ≤ c.toNat ∧ c.toNat ≤ 126) :
    ∃ s e, stringUnpadded P H t = .ok s ∧ newTableFromString P.text H0 (s ++ joinSep [32] texts ++ gs! " " ++ junk ++ gs! "\n" ++ more) = .err e := by
  obtain ⟨ls, p, e1, e2, e3, e4, e5, e6⟩ := afterTable P hF H H0 t h hshape hcols
  obtain ⟨items, i1, i2, _, i4⟩ := row_items P hF H t.colTypes row (fun ty hty => (plainType_facts (h.colTypes ty hty)).2) hrow.1 hrow.2 hsafe
  have htx := pointwise_texts htexts i1
  obtain ⟨c, hc, hc1, hc2⟩ := hjunk
  have hlen : items.length = t.colNames.length := by rw [← h.wf.typesLen, ← i2]; simp
  match items, hlen, i2, i4, htx with
  | [], hlen, _, _, _ => exact absurd (List.eq_nil_of_length_eq_zero hlen.symm) hcols
  | x :: xs, hlen, i2, i4, htx =>
    have hj : joinSep [32] texts = spaced x.2.1 ((xs.map fun y => y.2.1).map fun s => (0, s)) := by
      rw [htx, List.map_cons, joinSep_spaced]
    have hgood := fun y hy => (i4 y hy).1
    have hst := spaced_starts x.2.1 ((xs.map fun y => y.2.1).map fun s => (0, s)) (hgood x (by simp)).starts
    obtain ⟨mo, htrim, hmo⟩ := trimSpace_surplus 0 0 (joinSep [32] texts) junk (by rw [hj]; exact hst) c hc hc1 hc2
    have hnl2 : 10 ∉ joinSep [32] texts := by
      rw [hj]
      refine spaced_noNewline _ _ fun z hz => ?_
      simp only [List.map_map, List.mem_cons, List.mem_map, Function.comp_apply] at hz
      rcases hz with rfl | ⟨y, hy, rfl⟩
      · exact (hgood x (by simp)).2.2
      · exact (hgood y (by simp [hy])).2.2
    refine ⟨_, .syntaxErr, e1, ?_⟩
    have hbad : 10 ∉ joinSep [32] texts ++ 32 :: junk := by
      simp only [List.mem_append, List.mem_cons, not_or]
      exact ⟨hnl2, by decide, hnl⟩
    have hsp : sp 0 = [] := rfl
    have hstep : step P.text p (trimSpace (joinSep [32] texts ++ 32 :: junk)) = .err .syntaxErr := by
      simp only [hsp, List.nil_append, List.append_nil] at htrim
      rw [htrim]
      obtain ⟨⟨d, ds, hd, _, _, h35⟩, _⟩ := hgood x (by simp)
      have hline : ∃ d ds, joinSep [32] texts ++ 32 :: mo = d :: ds ∧ d ≠ 35 := by
        obtain ⟨d', ds', e, e'⟩ := spaced_head x.2.1 ((xs.map fun y => y.2.1).map fun s => (0, s)) (by simp [hd])
        refine ⟨d', ds' ++ 32 :: mo, by rw [hj, e]; rfl, ?_⟩
        rw [hd] at e'
        simp only [List.head?_cons, Option.some.injEq] at e'
        rw [← e']; exact h35
      rw [step_line P.text p hline]
      simp only [e4, stepColRows, e5, e6]
      have hread := readRow_prefix P.text p.heap p.table x xs ((xs.map fun y => y.2.1).map fun s => (0, s)) t.colNames [] (32 :: mo) (.inr rfl)
        (by simp [List.map_map, Function.comp_def]) (by rw [← hlen]; simp) (fun y hy => ⟨(i4 y hy).2, by
          obtain ⟨⟨d, ds, hd, _, hs, _⟩, _⟩ := hgood y hy
          exact ⟨d, ds, hd, notBlank_of hs⟩⟩)
      have hty : ((x :: xs).map fun y => y.1.name) ++ [] = t.colTypes.map ColType.name := by
        rw [← i2, List.append_nil, List.map_map]; rfl
      rw [hty, ← hj] at hread
      rw [hread, readRow, if_pos (trimBlanks_visible _ c (by simp [hmo]) hc1)]
      rfl
    have := (parseLines_fails P.text H0 ls _ more e2 hbad e3 hstep).2
    simpa using this

/-- **C58**, too few values: a row with at least one value and fewer values than there are columns is refused, whatever follows on further lines. -/
theorem C58_tooFew (P : PrintEnv) (hF : FloatOK P.text.float) (H H0 : Heap) (t : Table Addr) (h : Writable plainType t) (hshape : t.isStructShape = false)
    (k : Nat) (hk : 0 < k) (hk2 : k < t.colNames.length) (row : List (Cell Addr)) (hrow : RowOK (t.colTypes.take k) row)
    (hsafe : Pointwise (fun ty c => TextSafe ty c) (t.colTypes.take k) row) (texts : List GoStr) (htexts : Texts P H (t.colTypes.take k) row texts) (more : GoStr) :
    ∃ s e, stringUnpadded P H t = .ok s ∧ newTableFromString P.text H0 (s ++ joinSep [32] texts ++ gs! "\n" ++ more) = .err e := by
  have hcols : t.colNames ≠ [] := by rintro e; rw [e] at hk2; simp at hk2
  obtain ⟨ls, p, e1, e2, e3, e4, e5, e6⟩ := afterTable P hF H H0 t h hshape hcols
  obtain ⟨items, i1, i2, _, i4⟩ := row_items P hF H (t.colTypes.take k) row (fun ty hty => (plainType_facts (h.colTypes ty (List.mem_of_mem_take hty))).2) hrow.1 hrow.2 hsafe
  have htx := pointwise_texts htexts i1
  have hl2 := h.wf.typesLen
  have hlen : items.length = k := by
    have := congrArg List.length i2
    rw [List.length_map, List.length_take] at this
    omega
  match items, hlen, i2, i4, htx with
  | [], hlen, _, _, _ => simp at hlen; omega
  | x :: xs, hlen, i2, i4, htx =>
    have hj : joinSep [32] texts = spaced x.2.1 ((xs.map fun y => y.2.1).map fun s => (0, s)) := by
      rw [htx, List.map_cons, joinSep_spaced]
    have hgood := fun y hy => (i4 y hy).1
    obtain ⟨l1, hnl2⟩ := lineToks_row P.text (line := joinSep [32] texts) (items := x :: xs) (by rw [htx]; exact lineToks_join (by simp)) i4
    obtain ⟨x', xs', r, q1, q2, q3, q4, ⟨d, ds, hd, h35⟩, q5⟩ := l1
    refine ⟨_, .syntaxErr, e1, ?_⟩
    have hlen' : xs'.length + 1 = k := by
      have := congrArg List.length q3
      simp only [List.length_map, List.length_cons] at this
      simp only [List.length_cons] at hlen
      omega
    have hstep : step P.text p (trimSpace (joinSep [32] texts)) = .err .syntaxErr := by
      rw [q1]
      have hline : ∃ d ds, spaced x'.2.1 r = d :: ds ∧ d ≠ 35 := by
        obtain ⟨d', ds', e, e'⟩ := spaced_head x'.2.1 r (by simp [hd])
        refine ⟨d', ds', e, ?_⟩
        rw [hd] at e'
        simp only [List.head?_cons, Option.some.injEq] at e'
        rw [← e']; exact h35
      rw [step_line P.text p hline]
      simp only [e4, stepColRows, e5, e6]
      have hread := readRow_prefix P.text p.heap p.table x' xs' r t.colNames ((t.colTypes.drop k).map ColType.name) [] (.inl rfl) q2 (by omega) q5
      have hty : ((x' :: xs').map fun y => y.1.name) ++ (t.colTypes.drop k).map ColType.name = t.colTypes.map ColType.name := by
        have : ((x' :: xs').map fun y => y.1.name) = (t.colTypes.take k).map ColType.name := by
          rw [← i2, ← q3, List.map_map]; rfl
        rw [this, ← List.map_append, List.take_append_drop]
      rw [hty, List.append_nil] at hread
      rw [hread]
      have hdrop : (t.colTypes.drop k).map ColType.name ≠ [] := by
        intro e
        have := congrArg List.length e
        simp only [List.length_map, List.length_drop, List.length_nil] at this
        omega
      match hds : (t.colTypes.drop k).map ColType.name, hdrop with
      | ty :: tys, _ =>
        rw [readRow, if_pos (by simp [trimBlanks])]
        rfl
    have := (parseLines_fails P.text H0 ls _ more e2 hnl2 e3 hstep).2
    simpa using this

/-! ## Concrete cases -/

-- the hypotheses: the second row of the table of C36, repeated, with another value after it, and without its last two values
example : ∃ s e, stringUnpadded Ex.env [] Ex.tbl36 = .ok s ∧
    newTableFromString Ex.env.text [] (s ++ joinSep [32] [gs! "\"\"", gs! "9", gs! "'x'", gs! "0", gs! "false"] ++ gs! " " ++ gs! "  7\t" ++ gs! "\n" ++ gs! "# end") = .err e :=
  C58_tooMany Ex.env C36_floats [] [] Ex.tbl36 Ex.writable_tbl36 rfl (by decide) [.str [], .int .int 9, .int .int32 120, .f64 0#64, .bool false]
    (by
      refine ⟨rfl, fun i ty c h1 h2 => ?_⟩
      match i, h1, h2 with
      | 0, h1, h2 | 1, h1, h2 | 2, h1, h2 | 3, h1, h2 | 4, h1, h2 =>
        simp [Ex.tbl36] at h1 h2
        subst h1 h2
        simp [Cell.HasType])
    (by simp [Ex.tbl36, Pointwise, TextSafe, finite64]) [gs! "\"\"", gs! "9", gs! "'x'", gs! "0", gs! "false"]
    (by refine ⟨?_, ?_, ?_, ?_, ?_, trivial⟩ <;> decide +kernel) _ _ (by decide) ⟨55, by decide, by decide⟩
example : ∃ s e, stringUnpadded Ex.env [] Ex.tbl36 = .ok s ∧ newTableFromString Ex.env.text [] (s ++ joinSep [32] [gs! "\"\"", gs! "9", gs! "'x'"] ++ gs! "\n" ++ []) = .err e :=
  C58_tooFew Ex.env C36_floats [] [] Ex.tbl36 Ex.writable_tbl36 rfl 3 (by decide) (by decide) [.str [], .int .int 9, .int .int32 120]
    (by
      refine ⟨rfl, fun i ty c h1 h2 => ?_⟩
      match i, h1, h2 with
      | 0, h1, h2 | 1, h1, h2 | 2, h1, h2 =>
        simp [Ex.tbl36] at h1 h2
        subst h1 h2
        simp [Cell.HasType])
    (by simp [Ex.tbl36, Pointwise, TextSafe]) [gs! "\"\"", gs! "9", gs! "'x'"] (by refine ⟨?_, ?_, ?_, trivial⟩ <;> decide +kernel) _
-- a complete row is accepted
example : (newTableFromString Ex.env.text [] (gs! "[T]\na b\nint int\n1 2\n 3\t4 \n")).isOk = true := by decide +kernel

end Verif
