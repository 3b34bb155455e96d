import Verif.Lemmas.WalkDepth
import Verif.Props.C26

/-!
# C46 Walk terminates and visits each cell once

`walk visit deep depth a` is the call `a.Walk(deep, …)`.  `depth` bounds the recursion; a result other than `panic` is the result for
every larger bound (`C46_depth`).
-/

namespace Verif
open Table

variable {σ : Type}

/-- The bound on the recursion does not matter once it is large enough. -/
theorem C46_depth (visit : Event → WalkStep σ) (deep : Bool) {d d' : Nat} (hd : d ≤ d') (a : Addr) (s : WalkState σ)
    (h : (walk visit deep d a s).2 ≠ .panic) : walk visit deep d' a s = walk visit deep d a s :=
  walk_mono visit deep hd a s h

/-- **C46**, termination: on any graph of tables, cyclic or not, the recursion of `Walk` is not deeper than the number of tables plus two
and there is no panic, for visitors that do not panic and do not change the tables. -/
theorem C46_terminates (H : Heap) (hw : HeapWF H) (hcl : Closed H) (visit : Event → WalkStep σ) (vis : Event → σ → σ × Out Unit)
    (hv : Reads H visit vis) (hp : ∀ e u, e.addr < H.length → (vis e u).2 ≠ .panic) (deep : Bool) (d : Nat) (hd : H.length + 2 ≤ d)
    (a : Addr) (ha : a < H.length) (u : σ) : (walk visit deep d a ⟨H, [], u⟩).2 ≠ .panic :=
  walk_noPanic hw hcl hv hp deep d a ha hd u

theorem nodup_reverse {α : Type} {l : List α} : l.reverse.Nodup ↔ l.Nodup := by
  unfold List.Nodup
  rw [List.pairwise_reverse]
  exact ⟨fun h => h.imp fun h => Ne.symm h, fun h => h.imp fun h => Ne.symm h⟩

/-- A visitor that writes down the calls. -/
def record : Event → WalkStep (List Event) := fun e s => ({ s with user := s.user ++ [e] }, .ok ())

theorem forEach_record (l u : List Event) : forEach (fun e (u : List Event) => (u ++ [e], Out.ok ())) l u = (u ++ l, .ok ()) := by
  induction l generalizing u with
  | nil => simp [forEach]
  | cons e l ih => simp [forEach, ih]

theorem reads_record (H : Heap) : Reads H record (fun e u => (u ++ [e], .ok ())) := fun _ _ _ => rfl

/-- **C46**, trees: if no table contains itself and no table is stored in two cells, `Walk` succeeds, and the calls that concern any
table `x` are: if `x` is the top table or nested in it, one for the table, then for each row in order one for the row and one for each of
its cells in order (`ownEvents`); otherwise none.  The tables are left alone. -/
theorem C46_visits (H : Heap) (hw : HeapWF H) (rank : Addr → Nat) (hac : Acyclic H rank) (hns : NoSharing H)
    (d : Nat) (hd : H.length + 2 ≤ d) (a : Addr) (ha : a < H.length) :
    ∃ s, walk record true d a ⟨H, [], []⟩ = (s, .ok ()) ∧ s.heap = H ∧
      ∀ x, ((x = a ∨ Below H a x) → about x s.user = ownEvents H x) ∧ (¬ (x = a ∨ Below H a x) → about x s.user = []) := by
  have hcl := hac.closed
  have hnp := C46_terminates H hw hcl record _ (reads_record H) (by simp) true d hd a ha []
  have hm := walk_mono record true (Nat.le_max_left d (rank a + 1)) a ⟨H, [], []⟩ hnp
  generalize hD : max d (rank a + 1) = D at hm
  have hr : rank a < D := by omega
  have := ((walk_exact hw hcl (reads_record H) true D a ha) [] [] (by simp)).1
    ⟨within_of_rank hw hac true hr, by rw [List.append_nil]; exact nodup_reverse.2 (nestedSeq_nodup hw hns hac true D a), by rw [forEach_record]⟩
  rw [← hm, this, forEach_record]
  refine ⟨_, rfl, rfl, fun x => ⟨fun hx => ?_, fun hx => ?_⟩⟩
  · simpa using about_treeTrace hw hns hac hr hx
  · simpa using about_eq_nil hw hx

/-- **C46**, without descending: `Walk` visits the table's own cells only, on any graph. -/
theorem C46_shallow (H : Heap) (hw : HeapWF H) (hcl : Closed H) (d : Nat) (a : Addr) (ha : a < H.length) :
    ∃ s, walk record false (d + 1) a ⟨H, [], []⟩ = (s, .ok ()) ∧ s.heap = H ∧ s.user = ownEvents H a := by
  have ea : H[a]? = some H[a] := List.getElem?_eq_getElem ha
  have e1 : nestedSeq false H (d + 1) a = [] := by
    simp only [nestedSeq, ea, List.flatMap_eq_nil_iff]
    intro r _ c _
    split <;> simp
  have e2 : treeTrace false H (d + 1) a = ownEvents H a := by
    simp only [treeTrace, ea, ownEvents, List.map_eq_flatMap]
    congr 1; congr 1; funext r; congr 1; congr 1; funext c
    split <;> simp
  have := ((walk_exact hw hcl (reads_record H) false (d + 1) a ha) [] [] (by simp)).1
    ⟨by intro c r b h; simp at h, by simp [e1], by rw [forEach_record]⟩
  rw [this, forEach_record]
  exact ⟨_, rfl, rfl, by simp [e2]⟩

/-- **C46**, revisits: if a table contains itself, directly or through others, or a table (other than a placeholder for "no table") is
stored in two cells, and the walk can get there, `Walk` returns an error, for every visitor that does not panic and does not change the
tables. -/
theorem C46_revisit (H : Heap) (hw : HeapWF H) (hcl : Closed H) (visit : Event → WalkStep σ) (vis : Event → σ → σ × Out Unit)
    (hv : Reads H visit vis) (hp : ∀ e u, e.addr < H.length → (vis e u).2 ≠ .panic) (d : Nat) (hd : H.length + 2 ≤ d)
    (a : Addr) (ha : a < H.length) (u : σ)
    (hbad : (∃ x, (x = a ∨ Below H a x) ∧ Below H x x) ∨
      (∃ p c r p' c' r' b, (p = a ∨ Below H a p) ∧ (p' = a ∨ Below H a p') ∧ HoldsAt H p c r b ∧ HoldsAt H p' c' r' b ∧
        ¬ (p = p' ∧ c = c' ∧ r = r') ∧ ¬ IsNil H b)) :
    ∃ e, (walk visit true d a ⟨H, [], u⟩).2 = .err e := by
  have hnp := C46_terminates H hw hcl visit vis hv hp true d hd a ha u
  have hex := ((walk_exact hw hcl hv true d a ha) [] u (by simp)).2
  cases h : (walk visit true d a ⟨H, [], u⟩).2 with
  | err e => exact ⟨e, rfl⟩
  | panic => exact absurd h hnp
  | ok _ =>
    exfalso
    obtain ⟨hwi, hnd, _⟩ := hex h
    have hnd : (nestedSeq true H d a).Nodup := by
      rw [List.append_nil] at hnd
      exact nodup_reverse.1 hnd
    rcases hbad with ⟨x, hx, hxx⟩ | ⟨p, c, r, p', c', r', b, h1, h2, h3, h4, h5, h6⟩
    · rcases hx with rfl | hx
      · exact hwi.noCycle hxx
      · obtain ⟨d', _, hwi'⟩ := hwi.below hx
        exact hwi'.noCycle hxx
    · exact h5 (holds_unique_of_nodup hw hcl hwi hnd h1 h3 h2 h4 h6)

/-! ## Cases -/

/-- The two leaf tables and the table holding them. -/
def Ex.tree : Heap := [Ex.leaf (gs! "A"), Ex.leaf (gs! "B"), Ex.nest]

theorem Ex.tree_wf : HeapWF Ex.tree := by
  intro t ht
  simp only [Ex.tree, List.mem_cons, List.not_mem_nil, or_false] at ht
  rcases ht with rfl | rfl | rfl
  · exact Ex.leaf_wf _
  · exact Ex.leaf_wf _
  · exact Ex.nest_wf

theorem Ex.leaf_rows (nm : GoStr) : (Ex.leaf nm).rows = [] := by
  simp only [Ex.leaf, Op.run, Op.step, setName]
  split <;> rfl

theorem Ex.tree_holds {a b : Addr} {c r : Nat} (h : HoldsAt Ex.tree a c r b) : a = 2 ∧ r = 0 ∧ ((c = 0 ∧ b = 0) ∨ (c = 1 ∧ b = 1)) := by
  obtain ⟨t, h1, h2⟩ := h
  have e1 : Ex.nest.rows = [[.tbl (some 0), .tbl (some 1)]] := by decide +kernel
  obtain ⟨row, h3, h4⟩ := nestedAt_some.1 h2
  match a with
  | 0 => cases h1; rw [Ex.leaf_rows] at h3; simp at h3
  | 1 => cases h1; rw [Ex.leaf_rows] at h3; simp at h3
  | 2 =>
    cases h1
    rw [e1] at h3
    cases r with
    | succ r => simp at h3
    | zero =>
      cases h3
      match c with
      | 0 => cases h4; simp
      | 1 => cases h4; simp
      | c + 2 => simp at h4
  | a + 3 => simp [Ex.tree] at h1

theorem Ex.tree_acyclic : Acyclic Ex.tree (fun a => a) := by
  intro a b h
  obtain ⟨c, r, h⟩ := (nestedIn_iff Ex.tree_wf).1 h
  obtain ⟨rfl, rfl, ⟨rfl, rfl⟩ | ⟨rfl, rfl⟩⟩ := Ex.tree_holds h <;> decide

theorem Ex.tree_noSharing : NoSharing Ex.tree := by
  intro a c r a' c' r' b h h'
  obtain ⟨rfl, rfl, ⟨rfl, rfl⟩ | ⟨rfl, rfl⟩⟩ := Ex.tree_holds h <;>
    obtain ⟨rfl, rfl, ⟨rfl, h⟩ | ⟨rfl, h⟩⟩ := Ex.tree_holds h' <;> simp at h ⊢

-- the hypotheses of `C46_visits` hold of a table with two nested tables
example := C46_visits Ex.tree Ex.tree_wf _ Ex.tree_acyclic Ex.tree_noSharing 5 (by decide) 2 (by decide)
example : ownEvents Ex.tree 2 = [.table 2, .row 2 0, .cell 2 0 0, .cell 2 1 0] := by decide +kernel
example : Below Ex.tree 2 1 := .direct (c := 1) (r := 0) ⟨Ex.nest, rfl, by decide +kernel⟩

/-- A table that holds itself. -/
def Ex.selfHeap : Heap := [Op.run newNilTable
  [.setName (gs! "T"), .appendCol (fun _ _ => 0) (gs! "p") (gs! "*Table"), .appendRow (fun _ _ => 0)]]

theorem Ex.self_wf : HeapWF Ex.selfHeap := by
  intro t ht
  simp only [Ex.selfHeap, List.mem_cons, List.not_mem_nil, or_false] at ht
  subst ht
  exact C01_history _ WF.newNilTable _ (by simp [Op.ArgsOK])

theorem Ex.self_closed : Closed Ex.selfHeap := by
  intro a b h
  obtain ⟨c, r, t, h1, h2⟩ := (nestedIn_iff Ex.self_wf).1 h
  obtain ⟨row, h3, h4⟩ := nestedAt_some.1 h2
  match a with
  | 0 =>
    simp only [Ex.selfHeap, List.getElem?_cons_zero, Option.some.injEq] at h1
    have e : t.rows = [[.tbl (some 0)]] := by rw [← h1]; decide +kernel
    rw [e] at h3
    cases r with
    | succ r => simp at h3
    | zero =>
      cases h3
      match c with
      | 0 => cases h4; decide
      | c + 1 => simp at h4
  | a + 1 => simp [Ex.selfHeap] at h1

-- … and those of `C46_revisit` of a table that holds itself
example : ∃ e, (walk record true 3 0 ⟨Ex.selfHeap, [], []⟩).2 = .err e :=
  C46_revisit Ex.selfHeap Ex.self_wf Ex.self_closed record _ (reads_record _) (by simp) 3 (by decide) 0 (by decide) []
    (.inl ⟨0, .inl rfl, .direct (c := 0) (r := 0) ⟨_, rfl, by decide +kernel⟩⟩)

end Verif
