import Verif.Lemmas.StringNested
import Verif.Props.C36
import Verif.Props.C47

/-!
# C79: `StringNested`

`stringNested P H depth a` is what `StringNested` of the table `a` returns, and the memory afterwards; `depth` bounds the stack.  One would expect the texts of
the table and of the tables in it, and no change.
-/

namespace Verif
open Table

/-- **C79, the text.**  The text of the table, then the text of every table nested in it, at any depth, each exactly once, each before those nested in it, column by
column; each under its name followed by the way to it, but with the tables in its cells called by their own names. -/
theorem C79_text (P : PrintEnv) (H : Heap) (hw : HeapWF H) (hnil : NilUnnamed H) (hns : NoSharing H) (rank : Addr → Nat) (hac : Acyclic H rank)
    (a : Addr) (t : Table Addr) (ha : H[a]? = some t) (depth : Nat) (hd : rank a < depth) :
    ∃ H' text parts, stringNested P H depth a = .ok (H', text ++ [10] ++ partsText parts) ∧ stringPadded P H t = .ok text ∧
      parts.map NestedPart.addr = belowOrder H depth a ∧ (belowOrder H depth a).Nodup ∧ (∀ x, x ∈ belowOrder H depth a ↔ Below H a x) ∧
      ∀ e ∈ parts, TailName H a e.addr e.tail ∧
        ∃ t, H[e.addr]? = some t ∧ stringPadded P H { t with name := t.name ++ e.tail, isNilTable := false } = .ok e.text := by
  obtain ⟨H', text, parts, h1, _, _, _, h2, h3, h4⟩ := rec_does (P := P) (root := a) hw hns hac hnil depth a hd t t [] H [] ha .top (.refl H) hw ha (fun _ _ => rfl)
  have hname : nameAt H a = t.name := by simp [nameAt, ha]
  refine ⟨H', text, parts, ?_, h2, h3, belowOrder_nodup hw hns hac depth a, fun x => ⟨belowOrder_below, below_belowOrder hw hac hd⟩, fun e he => ?_⟩
  · rw [stringNested, hname, h1]; simp
  · obtain ⟨g1, u, g2, g3, _⟩ := h4 e he
    exact ⟨g1, u, g2, g3⟩

/-- **C79, what is changed.**  Every nested table has the name under which it was printed, and is no longer nil; nothing else is different. -/
theorem C79_renamed (P : PrintEnv) (H : Heap) (hw : HeapWF H) (hnil : NilUnnamed H) (hns : NoSharing H) (rank : Addr → Nat) (hac : Acyclic H rank)
    (a : Addr) (ha : a < H.length) (depth : Nat) (hd : rank a < depth) :
    ∃ H' s, stringNested P H depth a = .ok (H', s) ∧ OnlyNames H H' ∧ HeapWF H' ∧ (∀ x, ¬ Below H a x → H'[x]? = H[x]?) ∧
      ∀ x, Below H a x → ∃ t tail, H[x]? = some t ∧ TailName H a x tail ∧ H'[x]? = some { t with name := t.name ++ tail, isNilTable := false } := by
  have e := List.getElem?_eq_getElem ha
  obtain ⟨H', text, parts, h1, h2, h3, h4, _, h5, h6⟩ := rec_does (P := P) (root := a) hw hns hac hnil depth a hd H[a] H[a] [] H [] e .top (.refl H) hw e (fun _ _ => rfl)
  have hname : nameAt H a = H[a].name := by simp [nameAt, e]
  refine ⟨H', _, by rw [stringNested, hname, h1], h2, h3, h4, fun x hx => ?_⟩
  have := below_belowOrder hw hac hd hx
  rw [← h5, List.mem_map] at this
  obtain ⟨p, hp, rfl⟩ := this
  obtain ⟨g1, u, g2, _, g4⟩ := h6 p hp
  exact ⟨u, p.tail, g2, g1, g4⟩

/-- **C79, what is kept, whatever the memory.**  Also if tables are stored in several cells: if the call returns, then tables not nested in the table are as they were, and
the others differ at most in their names and in being nil.  (That nothing changes at all is false, see `C79_changed`.) -/
theorem C79_kept_partial (P : PrintEnv) (H : Heap) (hw : HeapWF H) (hnil : NilUnnamed H) (hcl : Closed H) (a : Addr) (ha : a < H.length) (depth : Nat) :
    ((∃ H' s, stringNested P H depth a = .ok (H', s) ∧ OnlyNames H H' ∧ HeapWF H' ∧ NilUnnamed H' ∧ ∀ x, ¬ Below H a x → H'[x]? = H[x]?) ∨
      stringNested P H depth a = .panic) := by
  have e := List.getElem?_eq_getElem ha
  have hname : nameAt H a = H[a].name := by simp [nameAt, e]
  have hm := List.getElem_mem ha
  rcases rec_any P hw hcl depth a ha (nameAt H a) [] H [] (by rw [hname]; exact (hw _ hm).name_bytes (hnil _ hm)) (by simp) ⟨.refl H, hw, hnil⟩ with
    ⟨H', s, h1, h2, h3, _⟩ | h
  · exact .inl ⟨H', s, h1, h2.only, h2.wf, h2.nil, h3⟩
  · exact .inr h

/-- **C79, no end.**  If the table holds, at any depth, a table that holds itself, then however large the stack, it overflows. -/
theorem C79_endless (P : PrintEnv) (H : Heap) (hw : HeapWF H) (hnil : NilUnnamed H) (hcl : Closed H) (a x : Addr) (ha : a < H.length) (hx : a = x ∨ Below H a x)
    (hxx : Below H x x) (depth : Nat) : stringNested P H depth a = .panic := by
  have e := List.getElem?_eq_getElem ha
  have hname : nameAt H a = H[a].name := by simp [nameAt, e]
  have hm := List.getElem_mem ha
  rcases rec_any P hw hcl depth a ha (nameAt H a) [] H [] (by rw [hname]; exact (hw _ hm).name_bytes (hnil _ hm)) (by simp) ⟨.refl H, hw, hnil⟩ with
    ⟨H', s, _, _, _, hno⟩ | h
  · exact absurd ⟨x, by rcases hx with rfl | hx; exact .inl rfl; exact .inr hx, hxx⟩ hno
  · exact h

/-! ## The expected is false -/

/-- Printing a table changes the names of the tables in it, so that printing it again gives another text. -/
theorem C79_changed : ∃ H' s H'' s', stringNested Ex.env Ex.chain 5 2 = .ok (H', s) ∧ nameAt Ex.chain 0 = gs! "A" ∧
    nameAt H' 0 = gs! "A__FROM_TABLE_T_COL_p_row_0__FROM_TABLE_T_COL_p_row_0" ∧ stringNested Ex.env H' 5 2 = .ok (H'', s') ∧ s ≠ s' := by
  have h : (match stringNested Ex.env Ex.chain 5 2 with
    | .ok (H', s) => decide (nameAt H' 0 = gs! "A__FROM_TABLE_T_COL_p_row_0__FROM_TABLE_T_COL_p_row_0") &&
        match stringNested Ex.env H' 5 2 with
        | .ok (_, s') => decide (s ≠ s')
        | _ => false
    | _ => false) = true := by decide +kernel
  split at h
  · rename_i H' s e
    simp only [Bool.and_eq_true, decide_eq_true_eq] at h
    obtain ⟨h1, h2⟩ := h
    split at h2
    · rename_i H'' s' e'
      exact ⟨H', s, H'', s', e, by decide +kernel, h1, e', by simpa using h2⟩
    · simp at h2
  · simp at h

/-- A table in whose cells two tables lie that are printed under the same name. -/
def Ex.clash : Heap :=
  [Ex.leaf (gs! "c"), Ex.leaf (gs! "c__FROM_TABLE_T_COL_x"),
    Op.run newNilTable [.setName (gs! "T"), .appendCol (fun _ _ => 0) (gs! "x__FROM_TABLE_T_COL_y") (gs! "*Table"), .appendCol (fun _ _ => 0) (gs! "y") (gs! "*Table"),
      .appendRow (fun _ _ => 0), .setVal (gs! "x__FROM_TABLE_T_COL_y") 0 (.tbl (some 0)), .setVal (gs! "y") 0 (.tbl (some 1))]]

/-- The names under which tables are printed need not differ, even if the names of the tables do: the text cannot then be read as a set of tables. -/
theorem C79_clash : HoldsAt Ex.clash 2 0 0 0 ∧ HoldsAt Ex.clash 2 1 0 1 ∧ nameAt Ex.clash 0 ≠ nameAt Ex.clash 1 ∧
    ∃ H' s, stringNested Ex.env Ex.clash 5 2 = .ok (H', s) ∧ nameAt H' 0 = nameAt H' 1 ∧ newTableSetFromString Ex.env.text [] s = .err .dupTable := by
  refine ⟨⟨_, rfl, by decide +kernel⟩, ⟨_, rfl, by decide +kernel⟩, by decide +kernel, ?_⟩
  have h : (match stringNested Ex.env Ex.clash 5 2 with
    | .ok (H', s) => decide (nameAt H' 0 = nameAt H' 1) &&
        match newTableSetFromString Ex.env.text [] s with
        | .err .dupTable => true
        | _ => false
    | _ => false) = true := by decide +kernel
  split at h
  · rename_i H' s e
    simp only [Bool.and_eq_true, decide_eq_true_eq] at h
    obtain ⟨h1, h2⟩ := h
    split at h2
    · rename_i e'
      exact ⟨H', s, e, h1, e'⟩
    · simp at h2
  · simp at h

/-! ## The hypotheses can be met -/

theorem Ex.chain_nil : NilUnnamed Ex.chain := by
  intro t ht
  simp only [Ex.chain, List.mem_cons, List.not_mem_nil, or_false] at ht
  rcases ht with rfl | rfl | rfl <;> decide +kernel

example := C79_text Ex.env Ex.chain Ex.chain_wf Ex.chain_nil Ex.chain_noSharing _ Ex.chain_acyclic 2 _ rfl 5 (by decide)
example := C79_renamed Ex.env Ex.chain Ex.chain_wf Ex.chain_nil Ex.chain_noSharing _ Ex.chain_acyclic 2 (by decide) 5 (by decide)
example : belowOrder Ex.chain 5 2 = [1, 0] := by decide +kernel
example : (match stringNested Ex.env Ex.chain 5 2 with | .ok (_, s) => s | _ => []) =
    gs! "[T]\np\n*Table\n[T]\n\n[T__FROM_TABLE_T_COL_p_row_0]\np\n*Table\n[A]\n\n[A__FROM_TABLE_T_COL_p_row_0__FROM_TABLE_T_COL_p_row_0]\n\n" := by decide +kernel
-- tables side by side come column by column
example : belowOrder Ex.tree 5 2 = [0, 1] := by decide +kernel
-- a table that holds itself
example (depth : Nat) : stringNested Ex.env Ex.selfHeap depth 0 = .panic :=
  C79_endless Ex.env Ex.selfHeap Ex.self_wf (by intro t ht; simp only [Ex.selfHeap, List.mem_cons, List.not_mem_nil, or_false] at ht; subst ht; decide +kernel)
    Ex.self_closed 0 0 (by decide) (.inl rfl) (.direct (c := 0) (r := 0) ⟨_, rfl, by decide +kernel⟩) depth

end Verif
