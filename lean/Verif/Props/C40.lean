import Verif.Props.C36
import Verif.Props.C39

/-!
# C40: which names the API and the text format accept

`Table.newTable n` is `NewTable(n)`; `newTableFromString env [] s` is `NewTableFromString(s)`; `t.appendCol nt n ty` is `t.AppendCol(n, ty)`.
-/

namespace Verif
open Table

theorem parseBlock_one (env : TextEnv) (b : Block) (hb : b.OK env) :
    ∃ t', newTableFromString env [] (unlines b.lines) = .ok ([t'], 0) ∧ Parsed b t' := by
  obtain ⟨ts, e, hts⟩ := parseBlocks env [] [b] (by simpa using hb) (by simp)
  match ts, hts with
  | [t'], hts =>
    refine ⟨t', ?_, hts.1⟩
    have e : newTableSetFromString env [] (unlines b.lines) = _ := e
    simp only [newTableFromString, e, Out.bind]
    simp [TableSet.tableCount, TableSet.getTableByTableIndex, goGet?, newTableSet, Out.bind]

theorem scanName_eq {l n rest : GoStr} (h : scanName l = some (n, rest)) : l = n ++ rest ∧ ∀ c ∈ n, isNameChar c = true := by
  match l with
  | [] => simp [scanName] at h
  | c :: cs =>
    simp only [scanName] at h
    split at h
    · rename_i hc
      simp only [Option.some.injEq, Prod.mk.injEq] at h
      obtain ⟨rfl, rfl⟩ := h
      refine ⟨by simp, fun x hx => ?_⟩
      rcases List.mem_cons.1 hx with rfl | hx
      · simp [isNameChar, hc]
      · exact List.all_eq_true.1 (List.all_takeWhile (p := isNameChar)) x hx
    · simp at h

theorem getTableName_ascii {n m : GoStr} (h : isValidTableName n = true) (hg : getTableName (headerLine n) = .ok m) : Ascii n := by
  simp only [getTableName] at hg
  split at hg
  · simp at hg
  · split at hg
    · simp at hg
    · rename_i x hx
      simp only [headerLine, List.cons_append, scanTableName] at hx
      split at hx
      · rename_i n' rest hs
        obtain ⟨e, hc⟩ := scanName_eq hs
        have hb := (isValidName_bytes (isValidTableName_name h)).2
        have h93 : 93 ∉ n := fun hm => absurd (hb 93 hm) (by decide)
        have h93' : 93 ∉ n' := fun hm => absurd (hc 93 hm) (by decide)
        have hnn : n = n' := by
          have e1 := congrArg (List.takeWhile (fun c => c != 93)) e
          rw [List.takeWhile_append_of_pos (by intro c hc; simp; rintro rfl; exact h93 hc),
            List.takeWhile_append_of_pos (by intro c hc; simp; rintro rfl; exact h93' hc)] at e1
          simpa using e1
        intro c hm
        have := u8_all (fun c => !isNameChar c || decide (c.toNat < 0x80)) (by decide +kernel) c
        simpa [hc c (hnn ▸ hm)] using this
      · simp at hx

theorem accepted_ascii {env : TextEnv} {n : GoStr} {r : Heap × Addr} (hn : isValidTableName n = true)
    (h : newTableFromString env [] (gs! "[" ++ n ++ gs! "]\n") = .ok r) : Ascii n := by
  obtain ⟨⟨H, set⟩, h, _⟩ := Out.bind_ok h
  obtain ⟨p, h, _⟩ := Out.bind_ok h
  have hs := splitLines_lines [headerLine n] [] (by simpa using headerLine_noNewline hn)
  have e : gs! "[" ++ n ++ gs! "]\n" = ([headerLine n].map fun l => l ++ [10]).flatten ++ [] := by simp [headerLine]
  rw [e, hs] at h
  simp only [List.cons_append, List.nil_append, parseLines, trimSpace_header] at h
  obtain ⟨q, h, _⟩ := Out.bind_ok h
  rw [step_line _ _ (line := headerLine n) ⟨91, n ++ [93], rfl, by decide⟩] at h
  simp only [startState, stepTableName, getTableSetName_header hn, Bool.false_eq_true, if_false] at h
  obtain ⟨m, hm, _⟩ := Out.bind_ok h
  exact getTableName_ascii hn hm

/-- **C40**, table names: the text of a table with the name `n` is read as a table with that name if and only if `NewTable` accepts the name and it is in ASCII.
(So the claim holds of ASCII names; it fails for all others that `NewTable` accepts, see `C40_notAscii`.) -/
theorem C40_tableName_partial (env : TextEnv) (n : GoStr) :
    (∃ H a t, newTableFromString env [] (gs! "[" ++ n ++ gs! "]\n") = .ok (H, a) ∧ H[a]? = some t ∧ t.name = n) ↔
      (∃ t : Table Addr, newTable n = .ok t) ∧ Ascii n := by
  constructor
  · rintro ⟨H, a, t, h1, h2, rfl⟩
    obtain ⟨_, _, _, ⟨t', e, _, hv⟩, _⟩ := (C39_oneTable env [] (by simp [HeapWF]) (by rintro a b ⟨t, _, _, h, _⟩; simp at h) _).2 H a h1
    rw [h2] at e
    cases e
    exact ⟨⟨_, newTable_eq hv⟩, accepted_ascii hv h1⟩
  · rintro ⟨⟨t, ht⟩, ha⟩
    have hn : isValidTableName n = true := (newTable_ok ht).1
    obtain ⟨t', h1, h2⟩ := parseBlock_one env { name := n, names := [], types := [], rows := [], lines := [headerLine n] }
      ⟨.noCols, hn, ha, rfl, by simp, by simp, by simp, by simpa using headerLine_noNewline hn⟩
    refine ⟨[t'], 0, t', ?_, rfl, h2.name⟩
    rw [← h1]
    simp [unlines, headerLine]

/-- **C40**, column names: whatever its bytes, a name is accepted by `AppendCol` for a table without columns if and only if the text of a table with a column of that name is read as a table
with that column. -/
theorem C40_colName (env : TextEnv) (nt : Nat → Nat → Addr) (t0 : Table Addr) (ht0 : newTable (gs! "T") = .ok t0) (n : GoStr) :
    (t0.appendCol nt n (gs! "int")).2 = .ok () ↔
      ∃ H a t, newTableFromString env [] (gs! "[T]\n" ++ n ++ gs! "\nint\n") = .ok (H, a) ∧ H[a]? = some t ∧ t.colNames = [n] := by
  have ht := (newTable_ok ht0).2
  have hw0 := WF.newTable ht0
  constructor
  · intro h
    have hn : isValidColName n = true := by
      rcases appendCol_cases nt hw0 n (gs! "int") with ⟨ty, _, hn, _⟩ | ⟨_, e, he⟩
      · exact hn
      · rw [he] at h; simp at h
    obtain ⟨n1, n2⟩ := lineToks_names (lineToks_join (toks := [n]) (by simp)) (by simpa using hn)
    obtain ⟨t1, t2⟩ := lineToks_types (lineToks_join (toks := [ColType.int].map ColType.name) (by simp))
    obtain ⟨t', h1, h2⟩ := parseBlock_one env
      ⟨gs! "T", [n], [.int], [], [headerLine (gs! "T"), joinSep [32] [n], joinSep [32] ([ColType.int].map ColType.name)]⟩
      ⟨.cols n1 t1 trivial, (by decide : isValidTableName (gs! "T") = true), (by unfold Ascii; decide : Ascii (gs! "T")), rfl, by simpa using hn, by simp, by simp, by
        intro l hl
        simp only [List.mem_cons, List.not_mem_nil, or_false] at hl
        rcases hl with rfl | rfl | rfl
        · decide
        · exact n2
        · exact t2⟩
    refine ⟨[t'], 0, t', ?_, rfl, h2.colNames⟩
    rw [← h1]
    simp [unlines, headerLine, joinSep, ColType.name]
  · rintro ⟨H, a, t, h1, h2, h3⟩
    obtain ⟨hw, _⟩ := (C39_oneTable env [] (by simp [HeapWF]) (by rintro a b ⟨t, _, _, h, _⟩; simp at h) _).2 H a h1
    have hn := (hw t (List.mem_of_getElem? h2)).namesValid n (by simp [h3])
    have e := appendCol_eq nt (t := t0) (by rw [ht]) hw0.typesLen (by rw [ht]; simp [newNilTable]) (ty := .int) hn (by rw [ht]; rfl)
    rw [show gs! "int" = ColType.int.name from rfl, e]

/-- Both sides hold of a name with a digit, and neither of a type name. -/
example : isValidTableName (gs! "T1") = true ∧ isValidColName (gs! "int") = false := by decide

/-- The claim is false of names outside ASCII: the bytes of "ê" are accepted by `NewTable` (each byte, taken as a Latin-1 character, is a letter), but the parser, which reads ASCII only, refuses it. -/
theorem C40_notAscii : ∃ n, (∃ t : Table Addr, newTable n = .ok t) ∧ (newTableFromString Ex.noFloats [] (gs! "[" ++ n ++ gs! "]\n")).isOk = false :=
  ⟨[0xC3, 0xAA], ⟨_, newTable_eq (by decide)⟩, by decide +kernel⟩

/-- As a column name it is accepted by both. -/
example : isValidColName [0xC3, 0xAA] = true ∧ ((newTableFromString Ex.noFloats [] (gs! "[T]\n" ++ [0xC3, 0xAA] ++ gs! "\nint\n")).bind fun (H, a) => .ok ((H[a]?).map (·.colNames))) =
    .ok (some [[0xC3, 0xAA]]) := by decide +kernel

/-- Names that both refuse, and names that both accept. -/
example : (∀ n ∈ [gs! "", gs! "1a", gs! "a b", gs! "int", gs! "a-b"], isValidColName n = false) ∧ (∀ n ∈ [gs! "_", gs! "a1", gs! "Int"], isValidColName n = true) := by decide +kernel

end Verif
