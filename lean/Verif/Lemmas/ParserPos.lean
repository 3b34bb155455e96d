import Verif.Model.ParserPos
import Verif.Lemmas.DocumentLoop
import Verif.Lemmas.Parser

/-!
# Lemmas: the position in an error of the parser
-/

namespace Verif
open Table

theorem errorLine_none {env : TextEnv} {p : PState} {n : Nat} {ls : List GoStr} : errorLine env p n ls = none ↔ ∃ p', parseLines env p ls = .ok p' := by
  induction ls generalizing p n with
  | nil => simp [errorLine, parseLines]
  | cons l ls ih =>
    simp only [errorLine, parseLines]
    cases step env p (trimSpace l) with
    | err e => simp [Out.bind]
    | panic => simp [Out.bind]
    | ok x =>
      obtain ⟨p', b⟩ := x
      simp only [Out.bind]
      by_cases he : ls = []
      · simp only [if_pos he]
        cases b with
        | false => simp
        | true =>
          simp only [if_true]
          cases step env p' [] with
          | err e => simp
          | panic => simp
          | ok y => simp
      · simp only [if_neg he]
        exact ih

theorem errorLine_at {env : TextEnv} {p p1 : PState} {n : Nat} {front rest : List GoStr} {l : GoStr} (h1 : runLines env p front = .ok p1)
    (h2 : ∀ x, step env p1 (trimSpace l) ≠ .ok x) :
    errorLine env p n (front ++ l :: rest) = some (if reportsLine p1 (trimSpace l) then some (n + front.length) else none) := by
  induction front generalizing p n with
  | nil =>
    simp only [runLines, Out.ok.injEq] at h1
    subst h1
    simp only [List.nil_append, errorLine, List.length_nil, Nat.add_zero]
    split
    · next hx => exact absurd hx (h2 _)
    · rfl
  | cons a front ih =>
    obtain ⟨⟨p', b⟩, h3, h4⟩ := Out.bind_ok h1
    simp only [List.cons_append, errorLine, h3]
    rw [if_neg (by simp), ih h4]
    simp only [List.length_cons]
    rw [show n + 1 + front.length = n + (front.length + 1) by omega]

theorem errorLine_some {env : TextEnv} {p : PState} {n : Nat} {ls : List GoStr} {r : Option Nat} (h : errorLine env p n ls = some r) :
    (∃ front l rest p1, ls = front ++ l :: rest ∧ runLines env p front = .ok p1 ∧ (∀ x, step env p1 (trimSpace l) ≠ .ok x) ∧
      r = if reportsLine p1 (trimSpace l) then some (n + front.length) else none) ∨
    ∃ p1, runLines env p ls = .ok p1 ∧ p1.expecting = .colTypes ∧ (∃ front l, ls = front ++ [l] ∧ isComment (trimSpace l) = true) ∧ r = some (n + ls.length) := by
  induction ls generalizing p n with
  | nil => simp [errorLine] at h
  | cons l ls ih =>
    simp only [errorLine] at h
    split at h
    · next p' b hs =>
      by_cases he : ls = []
      · rw [if_pos he] at h
        cases b with
        | false => simp at h
        | true =>
          simp only [if_true] at h
          split at h
          · simp at h
          · next hx =>
            simp only [Option.some.injEq] at h
            subst he
            have hexp : p'.expecting = .colTypes := by
              apply Decidable.byContradiction
              intro hn
              exact hx _ (by simp only [step, if_neg hn]; rfl)
            refine .inr ⟨p', by simp [runLines, hs, Out.bind], hexp, ⟨[], l, rfl, ?_⟩, by simp [h]⟩
            cases hc : isComment (trimSpace l) with
            | true => rfl
            | false =>
              have := step_skipped hc hs
              rw [this] at hexp
              simp at hexp
      · rw [if_neg he] at h
        rcases ih h with ⟨front, l', rest, p1, rfl, h1, h2, h3⟩ | ⟨p1, h1, h2, ⟨front, l', rfl, h3⟩, h4⟩
        · refine .inl ⟨l :: front, l', rest, p1, rfl, by simp [runLines, hs, Out.bind, h1], h2, ?_⟩
          rw [h3, List.length_cons, show n + 1 + front.length = n + (front.length + 1) by omega]
        · refine .inr ⟨p1, by simp only [runLines, hs, Out.bind]; exact h1, h2, ⟨l :: front, l', rfl, h3⟩, ?_⟩
          rw [h4, List.length_cons, show n + 1 + (front ++ [l']).length = n + ((front ++ [l']).length + 1) by omega]
    · next hx =>
      simp only [Option.some.injEq] at h
      refine .inl ⟨[], l, ls, p, rfl, rfl, fun x e => hx x.1 x.2 e, by simp [← h]⟩

/-! ## States -/

/-- The current table is new. -/
def Fresh (p : PState) : Prop := ∃ H n, TableName n ∧ p.heap = H ++ [readTableOf n [] [] false] ∧ p.table = H.length

def FreshInv (p : PState) : Prop :=
  (p.expecting = .colNames ∧ p.shape = .undefined → Fresh p) ∧ (p.expecting = .colTypes → Fresh p ∧ ∀ c ∈ p.colNames, ColName c)

theorem stepStruct_state {env : TextEnv} {p p' : PState} {line : GoStr} {ws : List GoStr} (h : stepStruct env p line ws = .ok p') :
    p'.expecting = p.expecting ∧ p'.shape = p.shape := by
  unfold stepStruct at h
  split at h
  · simp at h
  · split at h
    · split at h
      · simp at h
      · split at h
        · simp at h
        · obtain ⟨H1, _, h⟩ := Out.bind_ok h
          split at h
          · obtain ⟨H2, _, h⟩ := Out.bind_ok h
            simp only [Out.ok.injEq] at h
            rw [← h]
            exact ⟨rfl, rfl⟩
          · simp only [Out.ok.injEq] at h
            rw [← h]
            exact ⟨rfl, rfl⟩
    · simp at h

theorem stepColNames_state {env : TextEnv} {p p' : PState} {line : GoStr} {ws : List GoStr} (he : p.expecting = .colNames) (h : stepColNames env p line ws = .ok p') :
    (p'.expecting = .colNames ∧ p'.shape = .struct) ∨
    (p.shape ≠ .struct ∧ p'.expecting = .colTypes ∧ p'.colNames = ws ∧ p'.heap = p.heap ∧ p'.table = p.table ∧ ws.all isValidColName = true) := by
  unfold stepColNames at h
  obtain ⟨p1, h1, h⟩ := Out.bind_ok h
  have hp1 : p1.expecting = p.expecting ∧ p1.heap = p.heap ∧ p1.table = p.table ∧ (p.shape = .struct → p1.shape = .struct) := by
    split at h1
    · next hu =>
      obtain ⟨x, _, h1⟩ := Out.bind_ok h1
      simp only [Out.ok.injEq] at h1
      rw [← h1]
      exact ⟨rfl, rfl, rfl, fun e => by rw [hu] at e; simp at e⟩
    · simp only [Out.ok.injEq] at h1
      rw [← h1]
      exact ⟨rfl, rfl, rfl, id⟩
  split at h
  · next hs =>
    obtain ⟨h2, h3⟩ := stepStruct_state h
    exact .inl ⟨by rw [h2, hp1.1, he], by rw [h3, hs]⟩
  · next hs =>
    split at h
    · next hall =>
      simp only [Out.ok.injEq] at h
      rw [← h]
      exact .inr ⟨fun e => hs (hp1.2.2.2 e), rfl, rfl, hp1.2.1, hp1.2.2.1, hall⟩
    · simp at h

/-- What a step does to the state, as far as it is needed. -/
theorem step_state {env : TextEnv} {p p' : PState} {m : GoStr} {b : Bool} (h : step env p m = .ok (p', b)) :
    (isComment m = true ∧ p' = p) ∨
    (isComment m = false ∧ (p'.expecting = .tableName ∨ p'.expecting = .colRows)) ∨
    (isComment m = false ∧ m ≠ [] ∧ p.expecting = .tableName ∧ stepTableName p m = .ok (p', b)) ∨
    (isComment m = false ∧ p'.expecting = .colNames ∧ p'.shape = .struct) ∨
    (isComment m = false ∧ m ≠ [] ∧ p.expecting = .colNames ∧ p.shape ≠ .struct ∧ p'.expecting = .colTypes ∧ p'.colNames = whiteSplit m ∧ p'.heap = p.heap ∧ p'.table = p.table ∧
      (whiteSplit m).all isValidColName = true) := by
  cases m with
  | nil =>
    simp only [step] at h
    split at h
    · simp at h
    · simp only [Out.ok.injEq, Prod.mk.injEq] at h
      rw [← h.1]
      exact .inr (.inl ⟨rfl, .inl rfl⟩)
  | cons c cs =>
    by_cases hc : c = 35
    · subst hc
      rw [step_comment] at h
      simp only [Out.ok.injEq, Prod.mk.injEq] at h
      exact .inl ⟨rfl, h.1.symm⟩
    · have hcm : isComment (c :: cs) = false := by simp [isComment, hc]
      rw [step_line env p ⟨c, cs, rfl, hc⟩] at h
      split at h
      · next he => exact .inr (.inr (.inl ⟨hcm, by simp, he, h⟩))
      · next he =>
        obtain ⟨p1, h1, h⟩ := Out.bind_ok h
        simp only [Out.ok.injEq, Prod.mk.injEq] at h
        rw [h.1] at h1
        rcases stepColNames_state he h1 with h2 | h2
        · exact .inr (.inr (.inr (.inl ⟨hcm, h2⟩)))
        · exact .inr (.inr (.inr (.inr ⟨hcm, by simp, he, h2⟩)))
      · obtain ⟨p1, h1, h⟩ := Out.bind_ok h
        simp only [Out.ok.injEq, Prod.mk.injEq] at h
        rw [h.1] at h1
        refine .inr (.inl ⟨hcm, .inr ?_⟩)
        unfold stepColTypes at h1
        split at h1
        · simp at h1
        · split at h1
          · simp at h1
          · obtain ⟨_, _, h1⟩ := Out.bind_ok h1
            simp only [Out.ok.injEq] at h1
            rw [← h1]
      · next he =>
        obtain ⟨p1, h1, h⟩ := Out.bind_ok h
        simp only [Out.ok.injEq, Prod.mk.injEq] at h
        rw [h.1] at h1
        refine .inr (.inl ⟨hcm, .inr ?_⟩)
        obtain ⟨x, _, h1⟩ := Out.bind_ok h1
        simp only at h1
        split at h1
        · simp at h1
        · split at h1
          · simp at h1
          · simp only [Out.ok.injEq] at h1
            rw [← h1]
            exact he

theorem step_fresh {env : TextEnv} {H0 : Heap} {p p' : PState} {m : GoStr} {b : Bool} (hp : PInv H0 p) (hf : FreshInv p) (h : step env p m = .ok (p', b)) : FreshInv p' := by
  rcases step_state h with ⟨_, rfl⟩ | ⟨_, h1⟩ | ⟨_, _, h1, h2⟩ | ⟨_, h1, h2⟩ | ⟨_, _, h1, h2, h3, h4, h5, h6, h7⟩
  · exact hf
  · constructor
    · rintro ⟨e, _⟩
      rcases h1 with h1 | h1 <;> rw [h1] at e <;> simp at e
    · intro e
      rcases h1 with h1 | h1 <;> rw [h1] at e <;> simp at e
  · rcases (stepTableName_iff (fun b hb => (hp.inv.get hb).2.1) m _).1 h2 with ⟨_, n, _, _, e⟩ | ⟨n, hn, _, _, e⟩
    · simp only [Prod.mk.injEq] at e
      rw [e.1]
      constructor
      · rintro ⟨e, _⟩
        simp [h1] at e
      · intro e
        simp [h1] at e
    · simp only [Prod.mk.injEq] at e
      rw [e.1]
      exact ⟨fun _ => ⟨p.heap, n, hn, rfl, rfl⟩, fun e => by simp at e⟩
  · constructor
    · rintro ⟨_, e⟩
      rw [h2] at e; simp at e
    · intro e
      rw [h1] at e; simp at e
  · constructor
    · rintro ⟨e, _⟩
      rw [h3] at e; simp at e
    · intro _
      have hu : p.shape = .undefined := by
        have := hp.shape h1
        cases hs : p.shape with
        | undefined => rfl
        | struct => exact absurd hs h2
        | table => exact absurd hs this
      obtain ⟨H, n, hn, hh, ht⟩ := hf.1 ⟨h1, hu⟩
      refine ⟨⟨H, n, hn, by rw [h5, hh], by rw [h6, ht]⟩, fun c hc => ?_⟩
      rw [h4] at hc
      exact (colName_iff c).2 (List.all_eq_true.1 h7 c hc)

theorem runLines_fresh {env : TextEnv} {H0 : Heap} {ls : List GoStr} {p p' : PState} (hp : PInv H0 p) (hf : FreshInv p) (h : runLines env p ls = .ok p') :
    PInv H0 p' ∧ FreshInv p' := by
  induction ls generalizing p with
  | nil =>
    simp only [runLines, Out.ok.injEq] at h
    subst h
    exact ⟨hp, hf⟩
  | cons l ls ih =>
    obtain ⟨⟨p1, b⟩, h1, h2⟩ := Out.bind_ok h
    exact ih ((step_ok env hp _).2 _ _ h1) (step_fresh hp hf h1) h2

theorem Words.ne_nil {l : GoStr} {ws : List GoStr} (h : Words l ws) : ws ≠ [] := by
  cases h <;> simp

theorem eq_snoc {α : Type} (l : List α) (h : l ≠ []) : ∃ init x, l = init ++ [x] :=
  ⟨l.dropLast, l.getLast h, (List.dropLast_concat_getLast h).symm⟩

/-- The names of columns come from the last line that is not a comment. -/
theorem runLines_names {env : TextEnv} (k : Nat) {ls : List GoStr} (hk : ls.length = k) {p p' : PState} (h0 : p.expecting ≠ .colTypes) (h : runLines env p ls = .ok p')
    (h1 : p'.expecting = .colTypes) :
    ∃ front l cs, ls = front ++ l :: cs ∧ (∀ c ∈ cs, isComment (trimSpace c) = true) ∧ trimSpace l ≠ [] ∧ p'.colNames = whiteSplit (trimSpace l) := by
  induction k generalizing ls p' with
  | zero =>
    rw [List.length_eq_zero_iff] at hk
    subst hk
    simp only [runLines, Out.ok.injEq] at h
    subst h
    exact absurd h1 h0
  | succ k ih =>
    obtain ⟨init, x, rfl⟩ := eq_snoc ls (by rintro rfl; simp at hk)
    simp only [List.length_append, List.length_singleton, Nat.add_right_cancel_iff] at hk
    rw [runLines_append] at h
    obtain ⟨p1, h2, h3⟩ := Out.bind_ok h
    obtain ⟨⟨p2, b⟩, h4, h5⟩ := Out.bind_ok h3
    simp only [runLines, Out.ok.injEq] at h5
    subst h5
    rcases step_state h4 with ⟨hc, rfl⟩ | ⟨_, e⟩ | ⟨_, _, e1, e2⟩ | ⟨_, e, _⟩ | ⟨_, hne, _, _, _, hn, _⟩
    · obtain ⟨front, l, cs, rfl, h6, h7, h8⟩ := ih hk h2 h1
      refine ⟨front, l, cs ++ [x], by simp, fun c hm => ?_, h7, h8⟩
      rcases List.mem_append.1 hm with hm | hm
      · exact h6 c hm
      · simp only [List.mem_singleton] at hm
        subst hm
        exact hc
    · rcases e with e | e <;> rw [e] at h1 <;> simp at h1
    · have : p2.expecting ≠ .colTypes := by
        unfold stepTableName at e2
        split at e2
        · simp only [Out.ok.injEq, Prod.mk.injEq] at e2
          rw [← e2.1]
          simp [e1]
        · obtain ⟨n, _, e2⟩ := Out.bind_ok e2
          obtain ⟨t, _, e2⟩ := Out.bind_ok e2
          simp only at e2
          split at e2
          · simp only [Out.ok.injEq, Prod.mk.injEq] at e2
            rw [← e2.1]
            simp
          · simp at e2
          · simp at e2
      exact absurd h1 this
    · rw [e] at h1; simp at h1
    · exact ⟨init, x, [], by simp, by simp, hne, hn⟩

theorem linesOf_exists (ls : List GoStr) (h : ls ≠ []) (hn : ∀ l ∈ ls, 10 ∉ l) : ∃ s, LinesOf s ls := by
  induction ls with
  | nil => exact absurd rfl h
  | cons l ls ih =>
    cases ls with
    | nil => exact ⟨l, .last (hn l (by simp))⟩
    | cons x xs =>
      obtain ⟨s, hs⟩ := ih (by simp) (fun y hy => hn y (by simp [hy]))
      exact ⟨_, .cons (hn l (by simp)) hs⟩

/-- After lines that are read something can follow, unless a column has been named twice. -/
theorem runLines_viable {env : TextEnv} {H0 : Heap} {ls : List GoStr} {p p' : PState} (hp : PInv H0 p) (hf : FreshInv p) (h : runLines env p ls = .ok p')
    (hnd : p'.expecting = .colTypes → p'.colNames.Nodup ∧ p'.colNames ≠ []) : ∃ x, 10 ∉ x ∧ ∃ q, parseLines env p (ls ++ [x]) = .ok q := by
  obtain ⟨hp', hf'⟩ := runLines_fresh hp hf h
  by_cases he : p'.expecting = .colTypes
  · obtain ⟨⟨H, n, hn, hh, ht⟩, hc⟩ := hf'.2 he
    obtain ⟨hnd, hne⟩ := hnd he
    let types : List ColType := p'.colNames.map fun _ => .int
    have hty : types.map ColType.name ≠ [] := by simpa [types] using hne
    obtain ⟨t1, t2⟩ := lineToks_types (lineToks_join hty)
    refine ⟨_, t2, ?_⟩
    rw [parseLines_append _ _ _ _ (by simp), h]
    obtain ⟨w1, w2⟩ := t1.whiteSplit
    have hstep := (stepColTypes_iff (p := p') hn hh ht (types.map ColType.name) _).2
      ⟨p'.colNames.map fun c => (c, .int), by simp [Function.comp_def], by simp [types], by simpa using hc, by simpa [Function.comp_def] using hnd, rfl⟩
    simp only [Out.bind, parseLines]
    rw [step_line env p' w2, he, w1]
    simp only [hstep, Out.bind]
    exact ⟨_, rfl⟩
  · refine ⟨[], by simp, ?_⟩
    rw [parseLines_append _ _ _ _ (by simp), h]
    have ht : trimSpace [] = [] := rfl
    exact ⟨{ p' with expecting := .tableName }, by simp [Out.bind, parseLines, ht, step, he]⟩

/-- After a line with a name twice nothing can follow. -/
theorem namedTwice_hopeless {env : TextEnv} {p : PState} (hf : Fresh p) (he : p.expecting = .colTypes) (hnd : ¬ p.colNames.Nodup) (ls : List GoStr) (hne : ls ≠ [])
    (q : PState) : parseLines env p ls ≠ .ok q := by
  induction ls with
  | nil => exact absurd rfl hne
  | cons l ls ih =>
    intro h
    rw [parseLines] at h
    obtain ⟨⟨p', b⟩, h1, h2⟩ := Out.bind_ok h
    simp only at h2
    by_cases hc : isComment (trimSpace l) = true
    · obtain ⟨cs, e⟩ := (isComment_iff _).1 hc
      rw [e, step_comment] at h1
      simp only [Out.ok.injEq, Prod.mk.injEq] at h1
      obtain ⟨rfl, rfl⟩ := h1
      split at h2
      · simp [step, he, Out.bind] at h2
      · next hls => exact ih hls h2
    · cases hm : trimSpace l with
      | nil =>
        rw [hm] at h1
        simp [step, he] at h1
      | cons c cs =>
        have hc35 : c ≠ 35 := by
          rintro rfl
          exact hc ((isComment_iff _).2 ⟨cs, hm⟩)
        rw [hm, step_line env p ⟨c, cs, rfl, hc35⟩, he] at h1
        simp only at h1
        obtain ⟨p1, h3, _⟩ := Out.bind_ok h1
        obtain ⟨H, n, hn, hh, ht⟩ := hf
        obtain ⟨cols, e, _, _, h4, _⟩ := (stepColTypes_iff hn hh ht _ _).1 h3
        rw [e] at hnd
        exact hnd h4

end Verif
