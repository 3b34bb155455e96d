import Verif.Lemmas.ParserPos
import Verif.Props.C83

/-!
# C84: the line that an error names

`lineOfError env H s` is the number of the line that the error of `NewTableSetFromString` of the text `s` names: `none` if there is no error, `some none` if the error names no line.
-/

namespace Verif
open Table

/-- **C84**: there is a line, or an error without one, exactly if there is an error. -/
theorem C84_error (env : TextEnv) (H : Heap) (s : GoStr) : lineOfError env H s = none ↔ ∃ r, newTableSetFromString env H s = .ok r := by
  unfold lineOfError newTableSetFromString
  rw [errorLine_none]
  constructor
  · rintro ⟨p, h⟩
    rw [h]
    exact ⟨_, rfl⟩
  · rintro ⟨r, h⟩
    obtain ⟨p, h, _⟩ := Out.bind_ok h
    exact ⟨p, h⟩

/-- **C84**: the text cannot be saved after the line that the error names.  Whatever follows the first `k` lines, the error remains and names the same line.  (If the last line of the text is a comment, the
error may name the line after it.) -/
theorem C84_hopeless (env : TextEnv) (H : Heap) {s : GoStr} {ls : List GoStr} (hl : LinesOf s ls) {k : Nat} (h : lineOfError env H s = some (some k)) :
    1 ≤ k ∧
    (k ≤ ls.length → ∀ s' ls', LinesOf s' ls' → ls'.take k = ls.take k → lineOfError env H s' = some (some k) ∧ ∀ r, newTableSetFromString env H s' ≠ .ok r) ∧
    (k > ls.length → k = ls.length + 1 ∧ ∃ front l m, ls = front ++ [l] ∧ Trimmed l m ∧ isComment m = true) := by
  unfold lineOfError at h
  rw [hl.splitLines] at h
  rcases errorLine_some h with ⟨front, l, rest, p1, rfl, h1, h2, h3⟩ | ⟨p1, h1, h2, ⟨front, l, rfl, h3⟩, h4⟩
  · have hk : k = 1 + front.length ∧ reportsLine p1 (trimSpace l) = true := by
      split at h3
      · next hr => exact ⟨by simpa using h3, hr⟩
      · simp at h3
    refine ⟨by omega, fun _ s' ls' hl' ht => ?_, fun hgt => ?_⟩
    · have hshape : ∃ rest', ls' = front ++ l :: rest' := by
        refine ⟨ls'.drop k, ?_⟩
        have h5 : (front ++ l :: rest).take k = front ++ [l] := by
          rw [hk.1, List.take_append, List.take_of_length_le (by omega), show 1 + front.length - front.length = 1 by omega]
          rfl
        have := List.take_append_drop k ls'
        rw [ht, h5] at this
        simpa using this.symm
      obtain ⟨rest', rfl⟩ := hshape
      have hline : lineOfError env H s' = some (some k) := by
        unfold lineOfError
        rw [hl'.splitLines, errorLine_at h1 h2, if_pos hk.2, hk.1]
      refine ⟨hline, fun r hr => ?_⟩
      rw [(C84_error env H s').2 ⟨r, hr⟩] at hline
      simp at hline
    · simp only [List.length_append, List.length_cons] at hgt
      omega
  · simp only [Option.some.injEq] at h4
    refine ⟨by omega, fun hle => by omega, fun _ => ⟨by omega, front, l, trimSpace l, rfl, Trimmed.trim l, h3⟩⟩

/-- The last line that is not a comment has a word twice. -/
def NamesTwice (ls : List GoStr) : Prop :=
  ∃ front l comments m ws, ls = front ++ l :: comments ∧ (∀ c ∈ comments, ∃ m, Trimmed c m ∧ isComment m = true) ∧ Trimmed l m ∧ Words m ws ∧ ¬ ws.Nodup

theorem startState_inv {H : Heap} (hw : HeapWF H) (hcl : Closed H) : PInv H (startState H) ∧ FreshInv (startState H) := by
  refine ⟨⟨⟨⟨[], by simp [startState]⟩, hw, ?_, by simp [startState, newTableSet], by simp [startState, newTableSet, setNames]⟩, by simp [startState],
      by simp [startState], by simp [startState], by simp [startState]⟩, by simp [FreshInv, startState]⟩
  intro t ht row hr b hb
  obtain ⟨a, ha⟩ := List.mem_iff_getElem?.1 ht
  obtain ⟨r, hr⟩ := List.mem_iff_getElem?.1 hr
  obtain ⟨i, hi⟩ := List.mem_iff_getElem?.1 hb
  have hlen := ((hw t ht).rowsOK row (List.mem_of_getElem? hr)).1
  have hlt := (List.getElem?_eq_some_iff.1 hi).1
  rw [hlen, (hw t ht).typesLen] at hlt
  exact hcl a b ⟨t, _, r, ha, i, row, List.getElem?_eq_getElem hlt, hr, hi⟩

/-- In the state after the names of columns. -/
theorem colTypes_names {env : TextEnv} {H : Heap} {ls : List GoStr} {p : PState} (h : runLines env (startState H) ls = .ok p) (he : p.expecting = .colTypes) :
    p.colNames ≠ [] ∧ (¬ p.colNames.Nodup → NamesTwice ls) := by
  obtain ⟨front, l, cs, rfl, h1, h2, h3⟩ := runLines_names _ rfl (by simp [startState]) h he
  have hw := (words_iff ((Trimmed.trim l).cleanEnds h2) _).2 rfl
  rw [h3]
  refine ⟨fun e => ?_, fun hn => ⟨front, l, cs, trimSpace l, whiteSplit (trimSpace l), rfl, fun c hc => ⟨_, Trimmed.trim c, h1 c hc⟩, Trimmed.trim l, hw, hn⟩⟩
  exact hw.ne_nil e

/-- **C84**: before the line that the error names the text could still be saved: some text that begins with the same first `k - 1` lines is read.  So `k` is the first line that makes the text hopeless.
Missing: a name of a column that stands twice is noticed only in the line with the types, see `C84_late`. -/
theorem C84_first_partial (env : TextEnv) (H : Heap) (hw : HeapWF H) (hcl : Closed H) {s : GoStr} {ls : List GoStr} (hl : LinesOf s ls) {k : Nat}
    (h : lineOfError env H s = some (some k)) (hnt : ¬ NamesTwice (ls.take (k - 1))) :
    ∃ s' ls' r, LinesOf s' ls' ∧ ls'.take (k - 1) = ls.take (k - 1) ∧ newTableSetFromString env H s' = .ok r := by
  obtain ⟨hp, hf⟩ := startState_inv hw hcl
  unfold lineOfError at h
  rw [hl.splitLines] at h
  have hnl := hl.noNewline
  have key : ∀ (front : List GoStr) (p1 : PState), front = ls.take (k - 1) → front.length = k - 1 → runLines env (startState H) front = .ok p1 →
      ∃ s' ls' r, LinesOf s' ls' ∧ ls'.take (k - 1) = ls.take (k - 1) ∧ newTableSetFromString env H s' = .ok r := by
    intro front p1 hfr hlen hrun
    obtain ⟨x, hx, q, hq⟩ := runLines_viable hp hf hrun (fun he => by
      have := colTypes_names hrun he
      refine ⟨?_, this.1⟩
      apply Decidable.byContradiction
      intro hn
      exact hnt (hfr ▸ this.2 hn))
    obtain ⟨s', hs'⟩ := linesOf_exists (front ++ [x]) (by simp) (by
      intro l hm
      rcases List.mem_append.1 hm with hm | hm
      · rw [hfr] at hm
        exact hnl l (List.mem_of_mem_take hm)
      · simp only [List.mem_singleton] at hm
        subst hm
        exact hx)
    refine ⟨s', front ++ [x], (q.heap, q.set), hs', ?_, ?_⟩
    · rw [← hlen, List.take_left, hlen, ← hfr]
    · unfold newTableSetFromString
      rw [hs'.splitLines, hq]
      rfl
  rcases errorLine_some h with ⟨front, l, rest, p1, rfl, h1, h2, h3⟩ | ⟨p1, h1, h2, _, h4⟩
  · have hk : k = 1 + front.length := by
      split at h3
      · simpa using h3
      · simp at h3
    exact key front p1 (by rw [hk, show 1 + front.length - 1 = front.length by omega, List.take_left]) (by omega) h1
  · simp only [Option.some.injEq] at h4
    exact key ls p1 (by rw [h4, show 1 + ls.length - 1 = ls.length by omega, List.take_length]) (by omega) h1

/-- **C84**: an error names no line only if a column is named twice. -/
theorem C84_unnamed (env : TextEnv) (H : Heap) (hw : HeapWF H) (hcl : Closed H) {s : GoStr} {ls : List GoStr} (hl : LinesOf s ls) (h : lineOfError env H s = some none) :
    ∃ front l rest, ls = front ++ l :: rest ∧ NamesTwice front := by
  obtain ⟨hp, hf⟩ := startState_inv hw hcl
  unfold lineOfError at h
  rw [hl.splitLines] at h
  rcases errorLine_some h with ⟨front, l, rest, p1, rfl, h1, h2, h3⟩ | ⟨p1, _, _, _, h4⟩
  · refine ⟨front, l, rest, rfl, ?_⟩
    split at h3
    · simp at h3
    · next hr =>
      simp only [reportsLine, Bool.not_eq_true, Bool.not_eq_false', Bool.and_eq_true, decide_eq_true_eq] at hr
      obtain ⟨⟨⟨he, hne⟩, hall⟩, hlen⟩ := hr
      obtain ⟨hp1, hf1⟩ := runLines_fresh hp hf h1
      obtain ⟨⟨H1, n, hn, hh, ht⟩, hc⟩ := hf1.2 he
      apply (colTypes_names h1 he).2
      intro hnd
      have htypes : ∃ tys : List ColType, whiteSplit (trimSpace l) = tys.map ColType.name := by
        generalize whiteSplit (trimSpace l) = ws at hall
        clear hlen
        induction ws with
        | nil => exact ⟨[], rfl⟩
        | cons w ws ih =>
          simp only [List.all_cons, Bool.and_eq_true, Option.isSome_iff_exists] at hall
          obtain ⟨⟨ty, hty⟩, hall⟩ := hall
          obtain ⟨tys, rfl⟩ := ih hall
          exact ⟨ty :: tys, by rw [ofName?_eq hty]; rfl⟩
      obtain ⟨tys, hty⟩ := htypes
      have hlen' : tys.length = p1.colNames.length := by rw [hty] at hlen; simpa using hlen
      have hstep := (stepColTypes_iff (p := p1) hn hh ht (whiteSplit (trimSpace l)) _).2
        ⟨p1.colNames.zip tys, by rw [List.map_fst_zip (by omega)], by
          rw [hty]
          have := List.map_snd_zip (l₁ := p1.colNames) (l₂ := tys) (by omega)
          conv => lhs; rw [← this]
          rw [List.map_map]
          rfl, fun c hm => hc _ (List.of_mem_zip hm).1, by rw [List.map_fst_zip (by omega)]; exact hnd, rfl⟩
      obtain ⟨c, cs, hm⟩ := List.exists_cons_of_ne_nil hne
      have hcom : c ≠ 35 := by
        rintro rfl
        exact h2 _ (by rw [hm, step_comment])
      refine h2 ({ p1 with heap := H1 ++ [readTableOf n (p1.colNames.zip tys) [] false], colTypes := whiteSplit (trimSpace l), expecting := .colRows }, false) ?_
      rw [step_line env p1 ⟨c, cs, hm, hcom⟩, he]
      simp only [hstep, Out.bind]
  · simp at h4

/-! ## Late, missing and wrong numbers -/

/-- The line that an error names. -/
def Ex.errorIn (s : GoStr) : Option (Option Nat) := lineOfError Ex.env.text [] s

/-- The claim that the error names the first line that makes a text hopeless is false if a column is named twice: in the first text nothing can save the line `a a`, but the error names the line after it.
In the second text, where the types fit, the error names no line.  In the third text, which ends with a comment, the error names a line that does not exist. -/
theorem C84_late :
    Ex.errorIn (gs! "[T]\na a\nint\n") = some (some 3) ∧ Ex.errorIn (gs! "[T]\na a\nint int\n") = some none ∧ Ex.errorIn (gs! "[T]\na\n#") = some (some 4) := by
  decide +kernel

/-- Nothing can save a line with a name twice, whatever follows it. -/
theorem C84_lateHopeless (env : TextEnv) (H : Heap) (more : GoStr) (r : Heap × TableSet) : newTableSetFromString env H (gs! "[T]\na a\n" ++ more) ≠ .ok r := by
  intro hr
  have hs : splitLines (gs! "[T]\na a\n" ++ more) = [gs! "[T]", gs! "a a"] ++ splitLines more := by
    have h1 := splitLines_line (gs! "[T]") (gs! "a a\n" ++ more) (by decide)
    have h2 := splitLines_line (gs! "a a") more (by decide)
    exact h1.trans (by rw [show gs! "a a\n" ++ more = gs! "a a" ++ 10 :: more from rfl, h2]; rfl)
  unfold newTableSetFromString at hr
  rw [hs, parseLines_append _ _ _ _ (splitLines_ne more)] at hr
  obtain ⟨q, hq, _⟩ := Out.bind_ok hr
  obtain ⟨p, hp1, hp2⟩ := Out.bind_ok hq
  obtain ⟨⟨p1, b1⟩, h1, hp1⟩ := Out.bind_ok hp1
  obtain ⟨⟨p2, b2⟩, h2, hp1⟩ := Out.bind_ok hp1
  simp only [runLines, Out.ok.injEq] at hp1
  subst hp1
  have ht1 : trimSpace (gs! "[T]") = gs! "[T]" := by decide
  have ht2 : trimSpace (gs! "a a") = gs! "a a" := by decide
  rw [ht1, step_line env _ ⟨91, gs! "T]", rfl, by decide⟩] at h1
  rcases (stepTableName_iff (p := startState H) (by simp [startState, newTableSet]) (gs! "[T]") _).1 h1 with ⟨_, n, _, e, _⟩ | ⟨n, hn, e, _, e2⟩
  · simp at e
  · simp only [Prod.mk.injEq] at e2
    obtain ⟨rfl, _⟩ := e2
    rcases step_state h2 with ⟨hc, _⟩ | ⟨_, e3⟩ | ⟨_, _, e3, _⟩ | ⟨_, e3, e4⟩ | ⟨_, _, _, _, e5, e6, e7, e8, _⟩
    · rw [ht2] at hc; simp [isComment] at hc
    · rw [ht2, step_line env _ ⟨97, gs! " a", rfl, by decide⟩] at h2
      obtain ⟨p3, h3, h2⟩ := Out.bind_ok h2
      simp only [Out.ok.injEq, Prod.mk.injEq] at h2
      rw [h2.1] at h3
      rcases stepColNames_state rfl h3 with ⟨e4, _⟩ | ⟨_, e4, _⟩ <;> rw [e4] at e3 <;> simp at e3
    · simp at e3
    · rw [ht2, step_line env _ ⟨97, gs! " a", rfl, by decide⟩] at h2
      have hsplit : whiteSplit (gs! "a a") = [gs! "a", gs! "a"] := by decide
      have hsh : getTableShape [gs! "a", gs! "a"] = .ok (.table, false) := by decide
      simp only [hsplit, stepColNames, if_true, hsh, Out.bind] at h2
      rw [if_neg (by simp), if_pos (by decide)] at h2
      simp only [Out.ok.injEq, Prod.mk.injEq] at h2
      rw [← h2.1] at e3
      simp at e3
    · refine namedTwice_hopeless ⟨H, n, hn, e7, e8⟩ e5 ?_ (splitLines more) (splitLines_ne more) q hp2
      rw [e6, ht2]
      decide

example : LinesOf (gs! "[T]\na b\nint string\n1 2\n") [gs! "[T]", gs! "a b", gs! "int string", gs! "1 2", []] ∧
    Ex.errorIn (gs! "[T]\na b\nint string\n1 2\n") = some (some 4) ∧ Ex.isRead (gs! "[T]\na b\nint string\n1 \"2\"") = true := by
  refine ⟨?_, by decide +kernel, by decide +kernel⟩
  have := LinesOf.split (gs! "[T]\na b\nint string\n1 2\n")
  rwa [show splitLines (gs! "[T]\na b\nint string\n1 2\n") = [gs! "[T]", gs! "a b", gs! "int string", gs! "1 2", []] by decide] at this

example : NamesTwice [gs! "[T]", gs! "a a", gs! " # comment"] ∧ ¬ NamesTwice [gs! "[T]", gs! "a b", gs! "int string"] := by
  constructor
  · refine ⟨[gs! "[T]"], gs! "a a", [gs! " # comment"], gs! "a a", [gs! "a", gs! "a"], rfl, ?_, ?_, (words_iff (by
      exact ⟨⟨97, _, rfl, by decide⟩, 97, by decide, by decide⟩) _).2 (by decide), by decide⟩
    · intro c hc
      simp only [List.mem_singleton] at hc
      subst hc
      exact ⟨_, Trimmed.trim _, by decide⟩
    · exact Trimmed.trim (gs! "a a")
  · rintro ⟨front, l, cs, m, ws, h1, h2, h3, h4, h5⟩
    have hcs : cs = [] := by
      cases cs with
      | nil => rfl
      | cons c cs =>
        exfalso
        obtain ⟨x, hx⟩ : ∃ x, (c :: cs).getLast? = some x := by simp [List.getLast?_cons]
        have hm : x ∈ c :: cs := List.mem_of_getLast? hx
        have hlast : ([gs! "[T]", gs! "a b", gs! "int string"] : List GoStr).getLast? = some x := by
          rw [h1, List.getLast?_append, List.getLast?_cons_cons, hx]
          rfl
        simp only [List.getLast?_cons_cons, List.getLast?_singleton, Option.some.injEq] at hlast
        obtain ⟨m', t1, t2⟩ := h2 x hm
        rw [← t1.trimSpace, ← hlast] at t2
        exact absurd t2 (by decide)
    subst hcs
    have hl : l = gs! "int string" := by
      have := congrArg List.getLast? h1
      simpa using this.symm
    subst hl
    have hm : m = gs! "int string" := by rw [← h3.trimSpace]; decide
    subst hm
    rw [← h4.split] at h5
    exact h5 (by decide)

end Verif
