import Verif.Lemmas.Nesting
import Verif.Props.C46

/-!
# C47 HasCircularReference

`isValidTableNesting H d a` is `ok` where `HasCircularReference()` returns `(false, nil)` and an error where it returns `true` (with an
error).
-/

namespace Verif
open Table

theorem length_grid_add {α β γ : Type} (R C : Nat) (F : Nat → Nat → List α) (f : Nat → Nat → List β) (g : Nat → Nat → List γ)
    (h : ∀ c r, (F c r).length = (f c r).length + (g c r).length) :
    ((List.range R).flatMap fun r => (List.range C).flatMap fun c => F c r).length =
      ((List.range R).flatMap fun r => (List.range C).flatMap fun c => f c r).length +
      ((List.range R).flatMap fun r => (List.range C).flatMap fun c => g c r).length := by
  have key : ∀ {α β γ : Type} (l : List Nat) (F : Nat → List α) (f : Nat → List β) (g : Nat → List γ),
      (∀ i, (F i).length = (f i).length + (g i).length) → (l.flatMap F).length = (l.flatMap f).length + (l.flatMap g).length := by
    intro α β γ l F f g h
    induction l with
    | nil => rfl
    | cons i l ih => simp only [List.flatMap_cons, List.length_append, ih, h]; omega
  exact key _ _ _ _ fun r => key _ _ _ _ fun c => h c r

/-- **C47**, what the function decides: it reports no circular reference exactly if the tables in the cells of the table are all
different, are not the table itself, and hold no tables themselves.  It does not panic. -/
theorem C47_exact (H : Heap) (hw : HeapWF H) (hcl : Closed H) (d : Nat) (hd : H.length + 2 ≤ d) (a : Addr) (ha : a < H.length) :
    (isValidTableNesting H d a = .ok () ↔
      (∀ c r b, HoldsAt H a c r b → b ≠ a ∧ ∀ c' r' x, ¬ HoldsAt H b c' r' x) ∧
      (∀ c r c' r' b, HoldsAt H a c r b → HoldsAt H a c' r' b → c = c' ∧ r = r')) ∧
    isValidTableNesting H d a ≠ .panic := by
  have ea : H[a]? = some H[a] := List.getElem?_eq_getElem ha
  have hwf := hw _ (List.getElem_mem ha)
  generalize hta : H[a] = t at ea hwf
  refine ⟨?_, walk_noPanic hw hcl (reads_nesting a) (fun e u he => visNest_noPanic ea hwf e u he) true d a ha hd [a]⟩
  obtain ⟨D, rfl⟩ : ∃ D, d = D + 2 := ⟨d - 2, by omega⟩
  have hex := walk_exact hw hcl (reads_nesting a) true (D + 2) a ha [] [a] (by simp)
  have hev : ∀ e ∈ treeTrace true H (D + 2) a, e.addr < H.length := by
    intro e he
    rcases treeTrace_reached hw he with h | h
    · rw [h]; exact ha
    · exact h.lt hw hcl
  rw [forEach_visNest ea hwf _ [a] (by simp) hev, tableCells_eq ea hwf] at hex
  have hholds : ∀ c r b, HoldsAt H a c r b ↔ nestedAt t c r = some b := by
    intro c r b
    constructor
    · rintro ⟨t', h1, h2⟩; rw [ea] at h1; cases h1; exact h2
    · intro h; exact ⟨t, ea, h⟩
  -- the tables held by `b`, as cells looked at
  have hextra : ∀ b, b < H.length → ((treeTrace true H (D + 1) b).flatMap (tableCell H) = [] ↔ ∀ c' r' x, ¬ HoldsAt H b c' r' x) := by
    intro b hb
    have eb : H[b]? = some H[b] := List.getElem?_eq_getElem hb
    have hwb := hw _ (List.getElem_mem hb)
    rw [tableCells_eq eb hwb]
    simp only [List.flatMap_eq_nil_iff, List.append_eq_nil_iff, List.mem_range]
    constructor
    · rintro h c r x ⟨t', h1, h2⟩
      rw [eb] at h1; cases h1
      obtain ⟨_, _, _, _, hc, hr⟩ := nestedAt_At hwb h2
      have := (h r hr c hc).1
      rw [h2] at this; simp at this
    · intro h r _ c _
      have : nestedAt H[b] c r = none := by
        cases hn : nestedAt H[b] c r with
        | none => rfl
        | some x => exact absurd ⟨_, eb, hn⟩ (h c r x)
      simp [this]
  have hownmap : (((List.range t.rows.length).flatMap fun r => (List.range t.colNames.length).flatMap fun c =>
      (nestedAt t c r).toList.map (fun _ => (c, r))).map fun p => nestedAt t p.1 p.2) = (ownNested t).map some := by
    simp only [ownNested, List.map_flatMap]
    refine flatMap_congr_mem fun r _ => flatMap_congr_mem fun c _ => ?_
    cases h : nestedAt t c r <;> simp [h]
  have hownlen : ((List.range t.rows.length).flatMap fun r => (List.range t.colNames.length).flatMap fun c =>
      (nestedAt t c r).toList.map (fun _ => (c, r))).length = (ownNested t).length := by
    have := congrArg List.length hownmap
    simpa using this
  have hdrop : (∀ c r b, HoldsAt H a c r b → ∀ c' r' x, ¬ HoldsAt H b c' r' x) →
      ((List.range t.rows.length).flatMap fun r => (List.range t.colNames.length).flatMap fun c =>
        (nestedAt t c r).toList.map (fun _ => (c, r)) ++
          (nestedAt t c r).toList.flatMap fun b => (treeTrace true H (D + 1) b).flatMap (tableCell H)) =
      ((List.range t.rows.length).flatMap fun r => (List.range t.colNames.length).flatMap fun c =>
        (nestedAt t c r).toList.map (fun _ => (c, r))) := by
    intro h
    refine flatMap_congr_mem fun r _ => flatMap_congr_mem fun c _ => ?_
    cases hn : nestedAt t c r with
    | none => rfl
    | some b =>
      have := (hextra b (hcl _ _ (HoldsAt.nestedIn hw ((hholds c r b).2 hn)))).2 (h c r b ((hholds c r b).2 hn))
      simp [this]
  have hnest : (isValidTableNesting H (D + 2) a = .ok ()) = ((walk (visitNesting a) true (D + 2) a ⟨H, [], [a]⟩).2 = .ok ()) := rfl
  constructor
  · intro hok
    rw [hnest] at hok
    obtain ⟨_, _, xs, hxs, hnd⟩ := hex.2 hok
    have hlen : xs.length ≤ (ownNested t).length := by
      refine nodup_subset_length ?_ ?_
      · exact nodup_reverse.1 (List.nodup_append.1 hnd).1
      · intro x hx
        have : some x ∈ xs.map some := List.mem_map.2 ⟨x, hx, rfl⟩
        rw [← hxs] at this
        obtain ⟨p, _, hp⟩ := List.mem_map.1 this
        exact (mem_ownNested hwf).2 ⟨_, _, hp⟩
    have hlen2 := congrArg List.length hxs
    rw [List.length_map, List.length_map, length_grid_add _ _ _ _ _ (fun c r => List.length_append), hownlen] at hlen2
    have hnil := List.eq_nil_of_length_eq_zero (l := (List.range t.rows.length).flatMap fun r => (List.range t.colNames.length).flatMap fun c =>
      (nestedAt t c r).toList.flatMap fun b => (treeTrace true H (D + 1) b).flatMap (tableCell H)) (by omega)
    have hflat : ∀ c r b, HoldsAt H a c r b → ∀ c' r' x, ¬ HoldsAt H b c' r' x := by
      intro c r b hb
      refine (hextra b (hcl _ _ (hb.nestedIn hw))).1 ?_
      rw [hholds] at hb
      obtain ⟨_, _, _, _, hc, hr⟩ := nestedAt_At hwf hb
      rw [List.flatMap_eq_nil_iff] at hnil
      have h1 := hnil r (List.mem_range.2 hr)
      rw [List.flatMap_eq_nil_iff] at h1
      have h2 := h1 c (List.mem_range.2 hc)
      rw [List.flatMap_eq_nil_iff] at h2
      exact h2 b (by simp [hb])
    rw [hdrop hflat, hownmap] at hxs
    have hx : xs = ownNested t := by
      have := List.map_inj_right (f := (some : Addr → Option Addr)) (fun x y h => Option.some.inj h) |>.1 hxs
      exact this.symm
    subst hx
    rw [List.nodup_append] at hnd
    refine ⟨fun c r b hb => ⟨?_, hflat c r b hb⟩, ?_⟩
    · rintro rfl
      exact hnd.2.2 b (by rw [List.mem_reverse, mem_ownNested hwf]; exact ⟨c, r, (hholds _ _ _).1 hb⟩) b (by simp) rfl
    · intro c r c' r' b h h'
      exact (ownNested_nodup hwf).1 (nodup_reverse.1 hnd.1) c r c' r' b ((hholds _ _ _).1 h) ((hholds _ _ _).1 h')
  · rintro ⟨h1, h2⟩
    have hflat : ∀ c r b, HoldsAt H a c r b → ∀ c' r' x, ¬ HoldsAt H b c' r' x := fun c r b hb => (h1 c r b hb).2
    rw [hnest]
    have hnoseq : ∀ c r b, nestedAt t c r = some b → nestedSeq true H (D + 1) b = [] := by
      intro c r b hb
      cases hs : nestedSeq true H (D + 1) b with
      | nil => rfl
      | cons x l =>
        have : x ∈ nestedSeq true H (D + 1) b := by rw [hs]; simp
        obtain ⟨c', r', b', h3, _⟩ := (mem_nestedSeq_below this).first
        exact absurd h3 (hflat c r b ((hholds _ _ _).2 hb) c' r' b')
    have hchunk : ∀ c r x, x ∈ (match nestedAt t c r with
          | some b =>
            if true = true then
              (match H[b]? with
              | some n => if n.isNilTable then [] else [b]
              | none => []) ++ nestedSeq true H (D + 1) b
            else []
          | none => []) → nestedAt t c r = some x := by
      intro c r x hx
      cases hn : nestedAt t c r with
      | none => rw [hn] at hx; simp at hx
      | some b =>
        rw [hn] at hx
        simp only [if_true, hnoseq c r b hn, List.append_nil] at hx
        split at hx
        · split at hx
          · simp at hx
          · simp only [List.mem_singleton] at hx; rw [hx]
        · simp at hx
    have hseq : (nestedSeq true H (D + 2) a).Nodup := by
      unfold nestedSeq
      rw [ea]
      simp only
      rw [nodup_grid]
      refine ⟨?_, ?_⟩
      · intro r _ c _
        cases hn : nestedAt t c r with
        | none => simp
        | some b =>
          simp only [if_true, hnoseq c r b hn, List.append_nil]
          split
          · split <;> simp
          · simp
      · intro r _ c _ r' _ c' _ hne x hx hx'
        exact hne (h2 c r c' r' x ((hholds _ _ _).2 (hchunk c r x hx)) ((hholds _ _ _).2 (hchunk c' r' x hx')))
    rw [hex.1 ⟨?_, ?_, ?_⟩]
    · intro c r b _ hb
      intro c' r' x _ hx
      exact absurd hx (hflat c r b hb c' r' x)
    · rw [List.append_nil]; exact nodup_reverse.2 hseq
    · refine ⟨ownNested t, ?_, ?_⟩
      · rw [hdrop hflat, hownmap]
      · rw [List.nodup_append]
        refine ⟨nodup_reverse.2 ((ownNested_nodup hwf).2 fun c r c' r' b h h' => h2 c r c' r' b ((hholds _ _ _).2 h) ((hholds _ _ _).2 h')),
          by simp, ?_⟩
        intro x hx y hy e
        subst e
        rw [List.mem_reverse, mem_ownNested hwf] at hx
        obtain ⟨c, r, hb⟩ := hx
        simp only [List.mem_singleton] at hy
        exact (h1 c r x ((hholds _ _ _).2 hb)).1 hy

/-- **C47**, no false negatives: where `HasCircularReference` returns false, no table within reach contains itself, and no table is stored
in two cells within reach.
Missing: the converse, which is false of the code (`C47_false`); it holds where the nested tables hold no tables (`C47_partial_flat`). -/
theorem C47_partial (H : Heap) (hw : HeapWF H) (hcl : Closed H) (d : Nat) (hd : H.length + 2 ≤ d) (a : Addr) (ha : a < H.length)
    (hok : isValidTableNesting H d a = .ok ()) :
    (∀ x, x = a ∨ Below H a x → ¬ Below H x x) ∧
    (∀ p c r p' c' r' b, (p = a ∨ Below H a p) → (p' = a ∨ Below H a p') → HoldsAt H p c r b → HoldsAt H p' c' r' b →
      p = p' ∧ c = c' ∧ r = r') := by
  obtain ⟨h1, h2⟩ := (C47_exact H hw hcl d hd a ha).1.1 hok
  have honly : ∀ p c r b, (p = a ∨ Below H a p) → HoldsAt H p c r b → p = a := by
    intro p c r b hp hb
    rcases hp with hp | hp
    · exact hp
    · exfalso
      obtain ⟨c0, r0, b0, h3, h4⟩ := hp.first
      rcases h4 with rfl | h4
      · exact (h1 _ _ _ h3).2 c r b hb
      · obtain ⟨c', r', b', h5, _⟩ := h4.first
        exact (h1 _ _ _ h3).2 c' r' b' h5
  refine ⟨?_, ?_⟩
  · intro x hx hxx
    obtain ⟨c, r, b, h3, h4⟩ := hxx.first
    have hxa := honly x c r b hx h3
    subst hxa
    rcases h4 with h4 | h4
    · exact (h1 _ _ _ h3).1 h4.symm
    · obtain ⟨c', r', b', h5, _⟩ := h4.first
      exact (h1 _ _ _ h3).2 c' r' b' h5
  · intro p c r p' c' r' b hp hp' hb hb'
    have e1 := honly p c r b hp hb
    have e2 := honly p' c' r' b hp' hb'
    subst e1; subst e2
    exact ⟨rfl, h2 c r c' r' b hb hb'⟩

/-- **C47**, exact where the tables nested in the table (other than the table itself) hold no tables: a circular reference is reported
exactly if the table contains itself or a table is stored in two of its cells. -/
theorem C47_partial_flat (H : Heap) (hw : HeapWF H) (hcl : Closed H) (d : Nat) (hd : H.length + 2 ≤ d) (a : Addr) (ha : a < H.length)
    (hflat : ∀ c r b, HoldsAt H a c r b → b ≠ a → ∀ c' r' x, ¬ HoldsAt H b c' r' x) :
    (∃ e, isValidTableNesting H d a = .err e) ↔
      Below H a a ∨ ∃ c r c' r' b, HoldsAt H a c r b ∧ HoldsAt H a c' r' b ∧ ¬ (c = c' ∧ r = r') := by
  obtain ⟨h1, h2⟩ := C47_exact H hw hcl d hd a ha
  have hcases : (∃ e, isValidTableNesting H d a = .err e) ↔ ¬ isValidTableNesting H d a = .ok () := by
    cases h : isValidTableNesting H d a with
    | ok _ => simp
    | err e => simp
    | panic => exact absurd h h2
  rw [hcases, h1]
  constructor
  · intro h
    by_cases hsh : ∃ c r c' r' b, HoldsAt H a c r b ∧ HoldsAt H a c' r' b ∧ ¬ (c = c' ∧ r = r')
    · exact .inr hsh
    · left
      apply Classical.byContradiction
      intro hna
      refine h ⟨fun c r b hb => ?_, fun c r c' r' b hb hb' => Classical.byContradiction fun hne => hsh ⟨c, r, c', r', b, hb, hb', hne⟩⟩
      have hba : b ≠ a := by rintro rfl; exact hna (.direct hb)
      exact ⟨hba, hflat c r b hb hba⟩
  · rintro (h | ⟨c, r, c', r', b, hb, hb', hne⟩) ⟨h3, h4⟩
    · obtain ⟨c, r, b, h5, h6⟩ := h.first
      rcases h6 with h6 | h6
      · exact (h3 _ _ _ h5).1 h6.symm
      · obtain ⟨c', r', b', h7, _⟩ := h6.first
        exact (h3 _ _ _ h5).2 _ _ _ h7
    · exact hne (h4 _ _ _ _ _ hb hb')

/-! ## The counterexample -/

/-- A table holding one table, given by address. -/
def Ex.holder (b : Addr) : Table Addr := Op.run newNilTable
  [.setName (gs! "T"), .appendCol (fun _ _ => 0) (gs! "p") (gs! "*Table"), .appendRow (fun _ _ => 0), .setVal (gs! "p") 0 (.tbl (some b))]

/-- Two levels: 2 holds 1, 1 holds 0. -/
def Ex.chain : Heap := [Ex.leaf (gs! "A"), Ex.holder 0, Ex.holder 1]

theorem Ex.holder_wf (b : Addr) : WF (Ex.holder b) := C01_history _ WF.newNilTable _ (by simp [Op.ArgsOK, Cell.Real])

theorem Ex.chain_wf : HeapWF Ex.chain := by
  intro t ht
  simp only [Ex.chain, List.mem_cons, List.not_mem_nil, or_false] at ht
  rcases ht with rfl | rfl | rfl
  · exact Ex.leaf_wf _
  · exact Ex.holder_wf _
  · exact Ex.holder_wf _

theorem Ex.chain_holds {a b : Addr} {c r : Nat} (h : HoldsAt Ex.chain a c r b) : c = 0 ∧ r = 0 ∧ ((a = 1 ∧ b = 0) ∨ (a = 2 ∧ b = 1)) := by
  obtain ⟨t, h1, h2⟩ := h
  have e1 : (Ex.holder 0).rows = [[.tbl (some 0)]] := by decide +kernel
  have e2 : (Ex.holder 1).rows = [[.tbl (some 1)]] := by decide +kernel
  obtain ⟨row, h3, h4⟩ := nestedAt_some.1 h2
  match a with
  | 0 => cases h1; rw [Ex.leaf_rows] at h3; simp at h3
  | 1 =>
    cases h1; rw [e1] at h3
    cases r with
    | succ r => simp at h3
    | zero =>
      cases h3
      match c with
      | 0 => cases h4; simp
      | c + 1 => simp at h4
  | 2 =>
    cases h1; rw [e2] at h3
    cases r with
    | succ r => simp at h3
    | zero =>
      cases h3
      match c with
      | 0 => cases h4; simp
      | c + 1 => simp at h4
  | a + 3 => simp [Ex.chain] at h1

theorem Ex.chain_acyclic : Acyclic Ex.chain (fun a => a) := by
  intro a b h
  obtain ⟨c, r, h⟩ := (nestedIn_iff Ex.chain_wf).1 h
  obtain ⟨rfl, rfl, ⟨rfl, rfl⟩ | ⟨rfl, rfl⟩⟩ := Ex.chain_holds h <;> decide

theorem Ex.chain_noSharing : NoSharing Ex.chain := by
  intro a c r a' c' r' b h h'
  obtain ⟨rfl, rfl, ⟨rfl, rfl⟩ | ⟨rfl, rfl⟩⟩ := Ex.chain_holds h <;>
    obtain ⟨rfl, rfl, ⟨rfl, h⟩ | ⟨rfl, h⟩⟩ := Ex.chain_holds h' <;> simp at h ⊢

/-- **C47 is false of the code**: a table holding a table holding a table, with no cycle and no sharing, is reported as circular. -/
theorem C47_false : ¬ (∀ (H : Heap), HeapWF H → ∀ rank, Acyclic H rank → NoSharing H → ∀ d a, H.length + 2 ≤ d → a < H.length →
    isValidTableNesting H d a = .ok ()) := by
  intro hall
  have h1 := hall Ex.chain Ex.chain_wf _ Ex.chain_acyclic Ex.chain_noSharing 5 2 (by decide) (by decide)
  revert h1
  decide +kernel

-- a table with two flat tables is accepted; a table that holds itself is not
example : isValidTableNesting Ex.tree 5 2 = .ok () := by decide +kernel
example : ∃ e, isValidTableNesting Ex.selfHeap 3 0 = .err e := by
  refine (C47_partial_flat Ex.selfHeap Ex.self_wf Ex.self_closed 3 (by decide) 0 (by decide) ?_).2
    (.inl (.direct (c := 0) (r := 0) ⟨_, rfl, by decide +kernel⟩))
  intro c r b h hb
  have := Ex.self_closed 0 b (h.nestedIn Ex.self_wf)
  have hl : Ex.selfHeap.length = 1 := rfl
  rw [hl] at this
  exact absurd (Nat.lt_one_iff.1 this) hb

end Verif
