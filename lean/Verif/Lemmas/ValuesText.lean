import Verif.Lemmas.ValuesRow
import Verif.Lemmas.PrintTable

/-!
# Lemmas: the rows of a table text
-/

namespace Verif

theorem CellReads.grows {env : TextEnv} {a : Addr} {ty : ColType} {H : Heap} {l : GoStr} {H' : Heap} {c : Cell Addr} {rest : GoStr}
    (h : CellReads env a ty H l H' c rest) : ∃ K, H' = H ++ K := by
  cases h with
  | noTable => exact ⟨_, rfl⟩
  | table => exact ⟨_, rfl⟩
  | _ => exact ⟨[], by simp⟩

theorem RowReads.grows {env : TextEnv} {a : Addr} {tys : List ColType} {H : Heap} {l : GoStr} {H' : Heap} {cs : List (Cell Addr)}
    (h : RowReads env a tys H l H' cs) : (∃ K, H' = H ++ K) ∧ cs.length = tys.length := by
  induction h with
  | nil => exact ⟨⟨[], by simp⟩, rfl⟩
  | cons hc _ _ _ ih =>
    obtain ⟨K, rfl⟩ := hc.grows
    obtain ⟨⟨K', rfl⟩, e⟩ := ih
    exact ⟨⟨K ++ K', by simp⟩, by simp [e]⟩

theorem plainByte_facts (c : UInt8) (h1 : 33 ≤ c.toNat) (h2 : c.toNat ≤ 126) : c.toNat < 0x80 ∧ isSpaceRune c.toNat = false ∧ endByte c = true := by
  have := u8_all (fun c => !(33 ≤ c.toNat && c.toNat ≤ 126) || (c.toNat < 0x80 && !isSpaceRune c.toNat && endByte c)) (by decide +kernel) c
  simp only [Bool.or_eq_true, Bool.not_eq_true', Bool.and_eq_true, Bool.and_eq_false_iff, decide_eq_true_eq, decide_eq_false_iff_not, Bool.not_eq_eq_eq_not, Bool.not_true] at this
  rcases this with h | h
  · omega
  · exact ⟨h.1.1, h.1.2, h.2⟩

theorem PlainLine.trim {l : GoStr} (h : PlainLine l) (a b : Nat) : trimSpace (sp a ++ l ++ sp b) = l := by
  obtain ⟨_, ⟨c, cs, rfl, h1, h2, _⟩, d, hd, h3, h4⟩ := h
  have hc := plainByte_facts c h1 h2
  exact trimSpace_core a b _ (starts_ascii hc.1 hc.2.1 cs) hd (plainByte_facts d h3 h4).2.2

/-- The lines of the rows, with spaces around them. -/
def rowLines (lines : List (Nat × GoStr × Nat)) : List GoStr := lines.map fun x => sp x.1 ++ x.2.1 ++ sp x.2.2

theorem runRowLines {env : TextEnv} (hF : NanOK env.float) (a : Addr) (lines : List (Nat × GoStr × Nat)) (hlines : ∀ x ∈ lines, PlainLine x.2.1)
    (p : PState) (t : Table Addr) (hlen : p.colNames.length = t.colTypes.length) (hget : p.heap[a]? = some t) (hpt : p.table = a)
    (hpty : p.colTypes = t.colTypes.map ColType.name) (hpe : p.expecting = .colRows) :
    (∀ p', runLines env p (rowLines lines) = .ok p' → p' = { p with heap := p'.heap } ∧ RowsRead env a t p.heap (lines.map fun x => x.2.1) p'.heap) ∧
    (∀ H', RowsRead env a t p.heap (lines.map fun x => x.2.1) H' → runLines env p (rowLines lines) = .ok { p with heap := H' }) ∧
    runLines env p (rowLines lines) ≠ .panic := by
  induction lines generalizing p t with
  | nil =>
    refine ⟨?_, ?_, by simp [rowLines, runLines]⟩
    · intro p' h
      simp only [rowLines, List.map_nil, runLines, Out.ok.injEq] at h
      subst h
      exact ⟨rfl, .nil⟩
    · intro H' h
      cases h
      rfl
  | cons x lines ih =>
    have hp := hlines x (by simp)
    obtain ⟨hn, ⟨c, cs, hc, h1, h2, h35⟩, _⟩ := hp
    have hstep : step env p (trimSpace (sp x.1 ++ x.2.1 ++ sp x.2.2)) =
        (readRow env a p.heap p.colNames (t.colTypes.map ColType.name) x.2.1).bind fun (H, row) =>
          match H[a]? with
          | none => .panic
          | some t' => if (t.colTypes.map ColType.name).length ≠ row.length then .err .syntaxErr else
            .ok ({ p with heap := H.set a { t' with rows := t'.rows ++ [row] } }, false) := by
      rw [(hlines x (by simp)).trim, step_line env p ⟨c, cs, hc, h35⟩]
      simp only [hpe, stepColRows, hpt, hpty]
      cases readRow env a p.heap p.colNames (t.colTypes.map ColType.name) x.2.1 with
      | err e => rfl
      | panic => rfl
      | ok r =>
        simp only [Out.bind]
        cases r.1[a]? with
        | none => rfl
        | some t' =>
          simp only
          by_cases hl : (t.colTypes.map ColType.name).length ≠ r.2.length
          · simp only [if_pos hl]
          · simp only [if_neg hl]
    have hiff := readRow_iff hF a p.colNames t.colTypes hlen p.heap x.2.1 hn
    have hnp := (readRow_ok env a p.heap p.colNames (t.colTypes.map ColType.name) x.2.1 (by simpa using hlen)).1
    have hrun : runLines env p (rowLines (x :: lines)) = (step env p (trimSpace (sp x.1 ++ x.2.1 ++ sp x.2.2))).bind fun (p', _) => runLines env p' (rowLines lines) := rfl
    cases hr : readRow env a p.heap p.colNames (t.colTypes.map ColType.name) x.2.1 with
    | panic => exact absurd hr hnp
    | err e =>
      rw [hrun, hstep, hr]
      simp only [Out.bind]
      refine ⟨by simp, ?_, by simp⟩
      intro H' h
      cases h with
      | cons hrow _ =>
        rw [(hiff _ _).2 hrow] at hr
        simp at hr
    | ok r =>
      obtain ⟨H1, cells⟩ := r
      have hrr := (hiff _ _).1 hr
      obtain ⟨⟨K, hK⟩, hl⟩ := hrr.grows
      have ha : a < p.heap.length := by
        rcases Nat.lt_or_ge a p.heap.length with h | h
        · exact h
        · rw [List.getElem?_eq_none h] at hget; simp at hget
      have hget1 : H1[a]? = some t := by rw [hK, List.getElem?_append_left ha, hget]
      have hs : step env p (trimSpace (sp x.1 ++ x.2.1 ++ sp x.2.2)) = .ok ({ p with heap := H1.set a { t with rows := t.rows ++ [cells] } }, false) := by
        rw [hstep, hr]
        simp only [Out.bind, hget1]
        rw [if_neg (by simp [hl])]
      rw [hrun, hs]
      simp only [Out.bind]
      have ha1 : a < H1.length := by rw [hK, List.length_append]; exact Nat.lt_add_right _ ha
      obtain ⟨i1, i2, i3⟩ := ih (fun y hy => hlines y (by simp [hy])) { p with heap := H1.set a { t with rows := t.rows ++ [cells] } } { t with rows := t.rows ++ [cells] }
        hlen (by simp [ha1]) hpt hpty hpe
      refine ⟨?_, ?_, i3⟩
      · intro p' h
        obtain ⟨e, hrows⟩ := i1 p' h
        exact ⟨e, .cons hrr hrows⟩
      · intro H' h
        cases h with
        | cons hrow hrows =>
          have := (hiff _ _).2 hrow
          rw [hr] at this
          simp only [Out.ok.injEq, Prod.mk.injEq] at this
          obtain ⟨rfl, rfl⟩ := this
          exact i2 H' hrows

end Verif
