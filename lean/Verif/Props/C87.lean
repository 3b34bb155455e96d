import Verif.Lemmas.CircRef
import Verif.Props.C47

/-!
# C87: the error about a circular reference tells which tables it is about

`nestingError H d a` is the error that `IsValidTableNesting()` of table `a` returns, `circularError H d a` that of `HasCircularReference()`;
`GetCircRefError` finds a `CircRefError` in an error if it wraps one.
-/

namespace Verif
open Table

/-- **C87**, the verdict: the functions return an error exactly where the nesting is not valid (which C47 is about), and both do or neither. -/
theorem C87_verdict (H : Heap) (d : Nat) (a : Addr) :
    (nestingError H d a = .ok none ↔ isValidTableNesting H d a = .ok ()) ∧
    ((∃ g, nestingError H d a = .ok (some g)) ↔ ∃ e, isValidTableNesting H d a = .err e) ∧
    ((∃ g, circularError H d a = .ok (some g)) ↔ ∃ e, isValidTableNesting H d a = .err e) := by
  have h := Sim.walk (sim_nesting a) true d a { heap := H, safe := [], user := ([a], none) }
  have e : isValidTableNesting H d a = (walk (visitNestingErr a) true d a { heap := H, safe := [], user := ([a], none) }).2 := congrArg Prod.snd h
  unfold circularError nestingError
  rw [e]
  rcases walk (visitNestingErr a) true d a { heap := H, safe := [], user := ([a], none) } with ⟨s', (_ | er | _)⟩ <;> simp

/-- The visitor looks up tables in the cells of the table. -/
theorem visitNestingErr_stays (H : Heap) (hw : HeapWF H) (a : Addr) (e : Event) :
    Stays (fun s : WalkState (List Addr × Option CircRefError) =>
      s.heap = H ∧ ∀ x, s.user.2 = some x → x.rootTable = a ∧ ∃ c r, HoldsAt H a c r x.circTable) (visitNestingErr a e) := by
  intro s hs
  cases e with
  | table b => exact hs
  | row b r => exact hs
  | cell b c r =>
    unfold visitNestingErr
    dsimp only
    split
    · exact hs
    · split
      · split
        · exact hs
        · rename_i rt hrt
          rw [hs.1] at hrt
          have hwr := hw rt (List.mem_of_getElem? hrt)
          split
          · exact hs
          · exact hs
          · rename_i x hx
            split
            · refine ⟨hs.1, fun y hy => ?_⟩
              simp only [Option.some.injEq] at hy
              subst hy
              refine ⟨rfl, c, r, rt, hrt, ?_⟩
              cases hn : nestedAt rt c r with
              | none =>
                obtain ⟨e, he⟩ := getTyped_none hwr hn
                rw [he] at hx; cases hx
              | some y =>
                rw [getTyped_nestedAt hwr hn] at hx
                cases hx; rfl
            · exact hs
          · exact hs
      · exact hs

/-- **C87**, where there is a `CircRefError` in the error of `IsValidTableNesting`: it names the table the function was called on, and a table
stored in one of its cells.
Missing: that there is one in every error about a circular reference, which is false of the code (`C87_false`, `C87_false_has`); and that the
table named is the one stored twice, which holds where the nested tables hold no tables (`C87_partial_flat`). -/
theorem C87_partial (H : Heap) (hw : HeapWF H) (d : Nat) (a : Addr) (g : GoErr) (hg : nestingError H d a = .ok (some g)) (x : CircRefError)
    (hx : getCircRefError g = some x) : x.rootTable = a ∧ ∃ c r, HoldsAt H a c r x.circTable := by
  have h := Stays.walk (fun s l h => h) (visitNestingErr_stays H hw a) true d a { heap := H, safe := [], user := ([a], none) }
    ⟨rfl, fun x hx => by cases hx⟩
  unfold nestingError at hg
  rcases hr : walk (visitNestingErr a) true d a { heap := H, safe := [], user := ([a], none) } with ⟨s', (_ | er | _)⟩
  · rw [hr] at hg; cases hg
  · rw [hr] at hg h
    refine h.2 x ?_
    cases ho : s'.user.2 with
    | none => simp only [ho] at hg; cases hg; cases hx
    | some y => simp only [ho] at hg; cases hg; cases hx; rfl
  · rw [hr] at hg; cases hg

/-- Walking a table that holds no tables does nothing. -/
theorem walk_noTables {H : Heap} {a b : Addr} {n : Table Addr} (hb : H[b]? = some n) (hwf : WF n) (hno : ∀ c r x, nestedAt n c r ≠ some x)
    (d : Nat) (s0 : WalkState (List Addr × Option CircRefError)) (hH : s0.heap = H) :
    walk (visitNestingErr a) true (d + 1) b s0 = (s0, .ok ()) := by
  have key : Leads (fun s => s = s0) (fun s => s = s0) (fun _ => False) (walk (visitNestingErr a) true (d + 1) b) := by
    intro s hs
    unfold walk
    rw [hs, hH, hb]
    refine Leads.andThen (I := fun s => s = s0) (J := fun s => s = s0) (K := fun s => s = s0) (Q := fun _ => False)
      (fun s hs => .inl ⟨rfl, hs⟩) ?_ s0 rfl
    refine Leads.range (I := fun _ s => s = s0) n.rowCount fun r hr => ?_
    refine Leads.andThen (I := fun s => s = s0) (J := fun s => s = s0) (K := fun s => s = s0) (Q := fun _ => False)
      (fun s hs => .inl ⟨rfl, hs⟩) ?_
    refine Leads.range (I := fun _ s => s = s0) n.colCount fun c hc => ?_
    intro s hs
    subst hs
    have hct : c < n.colTypes.length := by rw [hwf.typesLen]; exact hc
    have ect := List.getElem?_eq_getElem hct
    have ecn : n.colName (c : Int) = .ok n.colNames[c] := colName_nat (List.getElem?_eq_getElem hc)
    have hty : n.colTypes[c]? ≠ some .table := by
      intro h
      obtain ⟨x, hx⟩ := nestedAt_of_table hwf h hr
      exact hno _ _ _ hx
    have hty' : ¬ n.colTypes[c] = .table := fun h => hty (by rw [ect, h])
    have hv : visitNestingErr a (.cell b c r) s = (s, .ok ()) := by
      simp only [visitNestingErr, hH, hb, hty, if_false]
    left
    have e : walkCell (visitNestingErr a) true (walk (visitNestingErr a) true d) b r c s = (s, .ok ()) := by
      simp only [walkCell, hH, hb, ect, ecn]
      rw [if_neg (fun h => hty' h.2)]
      simp only [andThen, hv]
    rw [e]
    exact ⟨rfl, rfl⟩
  rcases key s0 rfl with h | h
  · exact Prod.ext h.2 h.1
  · exact h.2.elim

/-- **C87**, complete where the tables nested in the table (other than the table itself) hold no tables: in every error of
`IsValidTableNesting` there is a `CircRefError`, which names the table the function was called on and either that table again, which is then
stored in one of its own cells, or a table stored in two of its cells.
Missing: nested tables that hold tables, where this is false of the code (`C87_false`); the error of `HasCircularReference`, for which it is
always false (`C87_false_has`). -/
theorem C87_partial_flat (H : Heap) (hw : HeapWF H) (hcl : Closed H) (d : Nat) (hd : 2 ≤ d) (a : Addr) (ha : a < H.length)
    (hflat : ∀ c r b, HoldsAt H a c r b → b ≠ a → ∀ c' r' x, ¬ HoldsAt H b c' r' x) (g : GoErr) (hg : nestingError H d a = .ok (some g)) :
    hasCircRefError g = true ∧ ∃ x, getCircRefError g = some x ∧ x.rootTable = a ∧
      ((x.circTable = a ∧ ∃ c r, HoldsAt H a c r a) ∨
        ∃ c r c' r', HoldsAt H a c r x.circTable ∧ HoldsAt H a c' r' x.circTable ∧ ¬ (c = c' ∧ r = r')) := by
  obtain ⟨D, rfl⟩ : ∃ D, d = D + 2 := ⟨d - 2, by omega⟩
  have ea : H[a]? = some H[a] := List.getElem?_eq_getElem ha
  have hwf := hw _ (List.getElem_mem ha)
  generalize H[a] = t at ea hwf
  let I : Nat → Nat → WalkState (List Addr × Option CircRefError) → Prop := fun r c s =>
    s.heap = H ∧ s.user.2 = none ∧ a ∈ s.user.1 ∧ (∀ x ∈ s.safe, x ∈ s.user.1) ∧
      ∀ x ∈ s.user.1, x = a ∨ ∃ c' r', HoldsAt H a c' r' x ∧ (r' < r ∨ r' = r ∧ c' < c)
  let Q : WalkState (List Addr × Option CircRefError) → Prop := fun s =>
    ∃ x, s.user.2 = some x ∧ x.rootTable = a ∧
      ((x.circTable = a ∧ ∃ c r, HoldsAt H a c r a) ∨
        ∃ c r c' r', HoldsAt H a c r x.circTable ∧ HoldsAt H a c' r' x.circTable ∧ ¬ (c = c' ∧ r = r'))
  have hcell : ∀ r c, r < t.rowCount → c < t.colCount →
      Leads (I r c) (I r (c + 1)) Q (walkCell (visitNestingErr a) true (walk (visitNestingErr a) true (D + 1)) a r c) := by
    rintro r c hr hc ⟨heap, safe, u, o⟩ ⟨hH, ho, hau, hsafe, hu⟩
    dsimp only at hH ho hau hsafe hu
    subst hH; subst ho
    have hct : c < t.colTypes.length := by rw [hwf.typesLen]; exact hc
    have ect := List.getElem?_eq_getElem hct
    have ecn : t.colName (c : Int) = .ok t.colNames[c] := colName_nat (List.getElem?_eq_getElem hc)
    have hmono : ∀ x ∈ u, x = a ∨ ∃ c' r', HoldsAt heap a c' r' x ∧ (r' < r ∨ r' = r ∧ c' < c + 1) := by
      intro x hx
      rcases hu x hx with h | ⟨c', r', h, h'⟩
      · exact .inl h
      · exact .inr ⟨c', r', h, by omega⟩
    simp only [walkCell, ea, ect, ecn]
    by_cases hty : t.colTypes[c] = .table
    · rw [if_pos ⟨trivial, hty⟩]
      have hty' : t.colTypes[c]? = some .table := by rw [ect, hty]
      obtain ⟨b, hb⟩ := nestedAt_of_table hwf hty' hr
      have hhold : HoldsAt heap a c r b := ⟨t, ea, hb⟩
      by_cases hbu : b ∈ u
      · right
        have hv : visitNestingErr a (.cell a c r) ⟨heap, safe, u, none⟩ = (⟨heap, safe, u, some ⟨a, b⟩⟩, .err .circular) := by
          simp only [visitNestingErr, ea, hty', if_true, getTyped_nestedAt hwf hb, hbu]
        simp only [andThen, hv]
        refine ⟨⟨_, rfl⟩, ⟨a, b⟩, rfl, rfl, ?_⟩
        rcases hu b hbu with h | ⟨c', r', h, h'⟩
        · subst h; exact .inl ⟨rfl, c, r, hhold⟩
        · exact .inr ⟨c, r, c', r', hhold, h, by omega⟩
      · left
        have hv : visitNestingErr a (.cell a c r) ⟨heap, safe, u, none⟩ = (⟨heap, safe, b :: u, none⟩, .ok ()) := by
          simp only [visitNestingErr, ea, hty', if_true, getTyped_nestedAt hwf hb, hbu, if_false]
        have hba : b ≠ a := fun h => hbu (h ▸ hau)
        have hbl : b < heap.length := hcl a b (hhold.nestedIn hw)
        have eb : heap[b]? = some heap[b] := List.getElem?_eq_getElem hbl
        have hwb := hw _ (List.getElem_mem hbl)
        have hno : ∀ c' r' x, nestedAt heap[b] c' r' ≠ some x := fun c' r' x h => hflat c r b hhold hba c' r' x ⟨_, eb, h⟩
        have hbs : b ∉ safe := fun h => hbu (hsafe b h)
        have hn : ∃ safe', walkNested (walk (visitNestingErr a) true (D + 1)) a c r ⟨heap, safe, b :: u, none⟩ =
            (⟨heap, safe', b :: u, none⟩, .ok ()) ∧ ∀ x ∈ safe', x ∈ b :: u := by
          simp only [walkNested, ea, getTyped_nestedAt hwf hb, eb]
          by_cases hnil : heap[b].isNilTable = false
          · rw [if_pos hnil, if_neg hbs]
            refine ⟨b :: safe, walk_noTables eb hwb hno D _ rfl, fun x hx => ?_⟩
            rcases List.mem_cons.1 hx with h | h
            · simp [h]
            · simp [hsafe x h]
          · rw [if_neg hnil]
            exact ⟨safe, walk_noTables eb hwb hno D _ rfl, fun x hx => by simp [hsafe x hx]⟩
        obtain ⟨safe', hn, hs'⟩ := hn
        simp only [andThen, hv, hn]
        refine ⟨trivial, rfl, rfl, by simp [hau], hs', fun x hx => ?_⟩
        rcases List.mem_cons.1 hx with h | h
        · subst h; exact .inr ⟨c, r, hhold, by omega⟩
        · exact hmono x h
    · rw [if_neg (fun h => hty h.2)]
      left
      have hv : visitNestingErr a (.cell a c r) ⟨heap, safe, u, none⟩ = (⟨heap, safe, u, none⟩, .ok ()) := by
        have : t.colTypes[c]? ≠ some .table := by rw [ect]; simpa using hty
        simp only [visitNestingErr, ea, this, if_false]
      simp only [andThen, hv]
      exact ⟨trivial, rfl, rfl, hau, hsafe, hmono⟩
  have hrow : ∀ r, r < t.rowCount → Leads (I r 0) (I (r + 1) 0) Q
      (walkRow (visitNestingErr a) true (walk (visitNestingErr a) true (D + 1)) a t.colCount r) := by
    intro r hr
    refine Leads.andThen (J := I r 0) (fun s hs => .inl ⟨rfl, hs⟩) ?_
    refine (Leads.range (I := I r) t.colCount fun c hc => hcell r c hr hc).imp (fun s h => h) ?_
    rintro s ⟨h1, h2, h3, h4, h5⟩
    refine ⟨h1, h2, h3, h4, fun x hx => ?_⟩
    rcases h5 x hx with h | ⟨c', r', h, h'⟩
    · exact .inl h
    · exact .inr ⟨c', r', h, by omega⟩
  have hwalk : Leads (I 0 0) (I t.rowCount 0) Q (walk (visitNestingErr a) true (D + 2) a) := by
    intro s hs
    unfold walk
    rw [hs.1, ea]
    refine Leads.andThen (J := I 0 0) (fun s hs => .inl ⟨rfl, hs⟩) ?_ s hs
    exact Leads.range (I := fun r => I r 0) t.rowCount hrow
  have h := hwalk { heap := H, safe := [], user := ([a], none) } ⟨rfl, rfl, by simp, by simp, by simp⟩
  unfold nestingError at hg
  rcases hr : walk (visitNestingErr a) true (D + 2) a { heap := H, safe := [], user := ([a], none) } with ⟨s', (_ | er | _)⟩
  · rw [hr] at hg; cases hg
  · rw [hr] at hg h
    rcases h with h | ⟨_, x, hx, h1, h2⟩
    · cases h.1
    · dsimp only at hx
      simp only [hx] at hg
      cases hg
      exact ⟨rfl, x, rfl, h1, h2⟩
  · rw [hr] at hg; cases hg

/-! ## The counterexamples -/

/-- A table (1) that holds itself, inside another table (0) with two tables. -/
def Ex.hidden : Heap :=
  [Op.run newNilTable [.setName (gs! "R"), .appendCol (fun _ _ => 0) (gs! "p") (gs! "*Table"), .appendCol (fun _ _ => 0) (gs! "q") (gs! "*Table"),
    .appendRow (fun _ _ => 0), .setVal (gs! "p") 0 (.tbl (some 1)), .setVal (gs! "q") 0 (.tbl (some 2))],
   Op.run newNilTable [.setName (gs! "A"), .appendCol (fun _ _ => 0) (gs! "i") (gs! "int"), .appendCol (fun _ _ => 0) (gs! "q") (gs! "*Table"),
    .appendRow (fun _ _ => 0), .setVal (gs! "q") 0 (.tbl (some 1))],
   Ex.leaf (gs! "B")]

theorem Ex.hidden_wf : HeapWF Ex.hidden := by
  intro t ht
  simp only [Ex.hidden, List.mem_cons, List.not_mem_nil, or_false] at ht
  rcases ht with rfl | rfl | rfl
  · exact C01_history _ WF.newNilTable _ (by simp [Op.ArgsOK, Cell.Real])
  · exact C01_history _ WF.newNilTable _ (by simp [Op.ArgsOK, Cell.Real])
  · exact Ex.leaf_wf _

theorem Ex.hidden_closed : Closed Ex.hidden := by
  intro a b h
  obtain ⟨c, r, t, h1, h2⟩ := (nestedIn_iff Ex.hidden_wf).1 h
  obtain ⟨row, h3, h4⟩ := nestedAt_some.1 h2
  match a with
  | 0 =>
    have e : t.rows = [[.tbl (some 1), .tbl (some 2)]] := by
      simp only [Ex.hidden, List.getElem?_cons_zero, Option.some.injEq] at h1
      rw [← h1]; decide +kernel
    rw [e] at h3
    cases r with
    | succ r => simp at h3
    | zero =>
      cases h3
      match c with
      | 0 => cases h4; decide
      | 1 => cases h4; decide
      | c + 2 => simp at h4
  | 1 =>
    have e : t.rows = [[.int .int 0, .tbl (some 1)]] := by
      simp only [Ex.hidden, List.getElem?_cons_zero, List.getElem?_cons_succ, Option.some.injEq] at h1
      rw [← h1]; decide +kernel
    rw [e] at h3
    cases r with
    | succ r => simp at h3
    | zero =>
      cases h3
      match c with
      | 0 => cases h4
      | 1 => cases h4; decide
      | c + 2 => simp at h4
  | 2 => cases h1; rw [Ex.leaf_rows] at h3; simp at h3
  | a + 3 => simp [Ex.hidden] at h1

/-- **C87 is false of the code**: a table that holds itself, found by `Walk` before the visitor comes to it, is reported by an error without
a `CircRefError` in it. -/
theorem C87_false : ¬ (∀ (H : Heap), HeapWF H → Closed H → ∀ d a g, H.length + 2 ≤ d → nestingError H d a = .ok (some g) → g.kind = .circular →
    hasCircRefError g = true) := by
  intro hall
  have h := hall Ex.hidden Ex.hidden_wf Ex.hidden_closed 5 0 (.plain .circular) (by decide) (by decide +kernel) rfl
  cases h

/-- **C87 is false of the code**, for `HasCircularReference` already with a table that is simply stored in its own cell: the error of
`IsValidTableNesting` has a `CircRefError` in it, that of `HasCircularReference` has not. -/
theorem C87_false_has : ¬ (∀ (H : Heap), HeapWF H → Closed H → ∀ d a g g', H.length + 2 ≤ d → nestingError H d a = .ok (some g) →
    circularError H d a = .ok (some g') → hasCircRefError g' = hasCircRefError g) := by
  intro hall
  have h := hall Ex.selfHeap Ex.self_wf Ex.self_closed 3 0 (.wraps ⟨0, 0⟩) (.plain .circular) (by decide) (by decide +kernel) (by decide +kernel)
  cases h

/-! ## Cases -/

/-- A table (0) with the same table (1) in two cells. -/
def Ex.twice87 : Heap :=
  [Op.run newNilTable [.setName (gs! "R"), .appendCol (fun _ _ => 0) (gs! "p") (gs! "*Table"), .appendCol (fun _ _ => 0) (gs! "q") (gs! "*Table"),
    .appendRow (fun _ _ => 0), .setVal (gs! "p") 0 (.tbl (some 1)), .setVal (gs! "q") 0 (.tbl (some 1))], Ex.leaf (gs! "B")]

theorem Ex.twice87_wf : HeapWF Ex.twice87 := by
  intro t ht
  simp only [Ex.twice87, List.mem_cons, List.not_mem_nil, or_false] at ht
  rcases ht with rfl | rfl
  · exact C01_history _ WF.newNilTable _ (by simp [Op.ArgsOK, Cell.Real])
  · exact Ex.leaf_wf _

theorem Ex.twice87_holds {a b : Addr} {c r : Nat} (h : HoldsAt Ex.twice87 a c r b) : a = 0 ∧ b = 1 := by
  obtain ⟨t, h1, h2⟩ := h
  obtain ⟨row, h3, h4⟩ := nestedAt_some.1 h2
  match a with
  | 0 =>
    have e : t.rows = [[.tbl (some 1), .tbl (some 1)]] := by
      simp only [Ex.twice87, List.getElem?_cons_zero, Option.some.injEq] at h1
      rw [← h1]; decide +kernel
    rw [e] at h3
    cases r with
    | succ r => simp at h3
    | zero =>
      cases h3
      match c with
      | 0 => cases h4; simp
      | 1 => cases h4; simp
      | c + 2 => simp at h4
  | 1 => cases h1; rw [Ex.leaf_rows] at h3; simp at h3
  | a + 2 => simp [Ex.twice87] at h1

theorem Ex.twice87_closed : Closed Ex.twice87 := by
  intro a b h
  obtain ⟨c, r, h⟩ := (nestedIn_iff Ex.twice87_wf).1 h
  rw [(Ex.twice87_holds h).2]; decide

-- the hypotheses of `C87_partial_flat` and `C87_partial` hold of it, and its error names the table stored twice
example : nestingError Ex.twice87 4 0 = .ok (some (.wraps ⟨0, 1⟩)) := by decide +kernel
example := C87_partial_flat Ex.twice87 Ex.twice87_wf Ex.twice87_closed 4 (by decide) 0 (by decide)
  (fun c r b h _ c' r' x h' => by rw [(Ex.twice87_holds h).2] at h'; exact absurd (Ex.twice87_holds h').1 (by decide)) (.wraps ⟨0, 1⟩) (by decide +kernel)
example := C87_partial Ex.twice87 Ex.twice87_wf 4 0 (.wraps ⟨0, 1⟩) (by decide +kernel) ⟨0, 1⟩ rfl
-- a table that holds itself; one with two different tables
example : nestingError Ex.selfHeap 3 0 = .ok (some (.wraps ⟨0, 0⟩)) := by decide +kernel
example : nestingError Ex.tree 5 2 = .ok none := by decide +kernel

end Verif
