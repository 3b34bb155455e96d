import Verif.Lemmas.Walk

/-!
# Nested tables: reachability and the order of a walk
-/

namespace Verif
open Table

variable {σ : Type} {H : Heap}

/-- `x` is `a` or nested in it. -/
def Reached (H : Heap) (a x : Addr) : Prop := x = a ∨ Below H a x

theorem HoldsAt.unique {a b b' : Addr} {c r : Nat} (h : HoldsAt H a c r b) (h' : HoldsAt H a c r b') : b = b' := by
  obtain ⟨t, h1, h2⟩ := h
  obtain ⟨t', h3, h4⟩ := h'
  rw [h1] at h3; cases h3
  rw [h2] at h4; cases h4; rfl

/-- The other way to build a path: the first step first. -/
theorem Below.cons {a b x : Addr} {c r : Nat} (h : HoldsAt H a c r b) (hx : Below H b x) : Below H a x := by
  induction hx with
  | direct h2 => exact .deeper (.direct h) h2
  | deeper _ h2 ih => exact .deeper ih h2

theorem Below.trans {a b x : Addr} (h : Below H a b) (hx : Below H b x) : Below H a x := by
  induction hx with
  | direct h2 => exact .deeper h h2
  | deeper _ h2 ih => exact .deeper ih h2

theorem Below.first {a x : Addr} (h : Below H a x) : ∃ c r b, HoldsAt H a c r b ∧ Reached H b x := by
  induction h with
  | direct h2 => exact ⟨_, _, _, h2, .inl rfl⟩
  | deeper _ h2 ih =>
    obtain ⟨c, r, b, h3, h4⟩ := ih
    refine ⟨c, r, b, h3, .inr ?_⟩
    rcases h4 with rfl | h4
    · exact .direct h2
    · exact .deeper h4 h2

theorem Reached.of_holds {a b x : Addr} {c r : Nat} (h : HoldsAt H a c r b) (hx : Reached H b x) : Below H a x := by
  rcases hx with rfl | hx
  · exact .direct h
  · exact hx.cons h

theorem Below.rank (hw : HeapWF H) {rank : Addr → Nat} (hac : Acyclic H rank) {a x : Addr} (h : Below H a x) : rank x < rank a := by
  induction h with
  | direct h2 => exact (hac _ _ (h2.nestedIn hw)).1
  | deeper _ h2 ih => have := (hac _ _ (h2.nestedIn hw)).1; omega

theorem Below.lt (hw : HeapWF H) (hcl : Closed H) {a x : Addr} (h : Below H a x) : x < H.length := by
  cases h with
  | direct h2 => exact hcl _ _ (h2.nestedIn hw)
  | deeper _ h2 => exact hcl _ _ (h2.nestedIn hw)

theorem Acyclic.closed {rank : Addr → Nat} (hac : Acyclic H rank) : Closed H := fun a b h => (hac a b h).2

/-- The cell holding a nested table lies in its top table or in a table nested in it. -/
theorem Below.parent (hns : NoSharing H) {a x p : Addr} {c r : Nat} (h : Below H a x) (hp : HoldsAt H p c r x) : Reached H a p := by
  cases h with
  | direct h2 => exact .inl (hns _ _ _ _ _ _ _ hp h2).1
  | deeper h1 h2 => have := (hns _ _ _ _ _ _ _ hp h2).1; subst this; exact .inr h1

/-- Two tables above the same table lie on one path. -/
theorem Reached.comparable (hns : NoSharing H) {b b' x : Addr} (h : Reached H b x) (h' : Reached H b' x) :
    b = b' ∨ Below H b b' ∨ Below H b' b := by
  rcases h with rfl | h
  · rcases h' with rfl | h'
    · exact .inl rfl
    · exact .inr (.inr h')
  · induction h with
    | direct h2 =>
      rcases h' with rfl | h'
      · exact .inr (.inl (.direct h2))
      · rcases h'.parent hns h2 with rfl | h3
        · exact .inl rfl
        · exact .inr (.inr h3)
    | deeper h1 h2 ih =>
      rcases h' with rfl | h'
      · exact .inr (.inl (.deeper h1 h2))
      · exact ih (h'.parent hns h2)

/-- Different cells hold separate trees. -/
theorem disjoint_cells (hw : HeapWF H) (hns : NoSharing H) {rank : Addr → Nat} (hac : Acyclic H rank) {a b b' x : Addr} {c r c' r' : Nat}
    (h : HoldsAt H a c r b) (h' : HoldsAt H a c' r' b') (hne : ¬ (c = c' ∧ r = r')) (hx : Reached H b x) (hx' : Reached H b' x) : False := by
  have hlast : ∀ {p q : Addr} {c r c' r' : Nat}, HoldsAt H a c r p → HoldsAt H a c' r' q → Below H p q → False := by
    intro p q c r c' r' hp hq hpq
    have h1 := (Below.direct hp).rank hw hac
    rcases hpq.parent hns hq with rfl | h3
    · omega
    · have := h3.rank hw hac; omega
  rcases hx.comparable hns hx' with rfl | h1 | h1
  · exact hne (hns _ _ _ _ _ _ _ h h').2
  · exact hlast h h' h1
  · exact hlast h' h h1

/-! ## Lists over a grid -/

theorem nodup_grid {α : Type} (R C : Nat) (F : Nat → Nat → List α) :
    ((List.range R).flatMap fun r => (List.range C).flatMap fun c => F c r).Nodup ↔
      (∀ r < R, ∀ c < C, (F c r).Nodup) ∧
      (∀ r < R, ∀ c < C, ∀ r' < R, ∀ c' < C, ¬ (c = c' ∧ r = r') → ∀ x ∈ F c r, x ∉ F c' r') := by
  unfold List.Nodup
  rw [List.pairwise_flatMap]
  simp only [List.pairwise_flatMap, List.mem_range, List.mem_flatMap]
  rw [List.pairwise_iff_getElem]
  simp only [List.pairwise_iff_getElem, List.length_range, List.getElem_range]
  constructor
  · rintro ⟨h1, h2⟩
    refine ⟨fun r hr c hc => (by have := (h1 r hr).1 c hc; intro i j hi hj hij; exact this i j hi hj hij), ?_⟩
    intro r hr c hc r' hr' c' hc' hne x hx hx'
    rcases Nat.lt_trichotomy r r' with h | h | h
    · exact h2 r r' hr hr' h x ⟨c, hc, hx⟩ x ⟨c', hc', hx'⟩ rfl
    · subst h
      rcases Nat.lt_trichotomy c c' with h | h | h
      · exact (h1 r hr).2 c c' hc hc' h x hx x hx' rfl
      · exact hne ⟨h, rfl⟩
      · exact (h1 r hr).2 c' c hc' hc h x hx' x hx rfl
    · exact h2 r' r hr' hr h x ⟨c', hc', hx'⟩ x ⟨c, hc, hx⟩ rfl
  · rintro ⟨h1, h2⟩
    refine ⟨fun r hr => ⟨fun c hc i j hi hj hij => h1 r hr c hc i j hi hj hij, ?_⟩, ?_⟩
    · intro c c' hc hc' hlt x hx y hy e
      subst e
      exact h2 r hr c hc r hr c' hc' (by omega) x hx hy
    · rintro r r' hr hr' hlt x ⟨c, hc, hx⟩ y ⟨c', hc', hy⟩ e
      subst e
      exact h2 r hr c hc r' hr' c' hc' (by omega) x hx hy

/-- A concatenation in which only one piece is not empty. -/
theorem flatMap_single {α : Type} (n i : Nat) (hi : i < n) (F : Nat → List α) (h : ∀ j < n, j ≠ i → F j = []) :
    (List.range n).flatMap F = F i := by
  induction n with
  | zero => omega
  | succ n ih =>
    rw [List.range_succ, List.flatMap_append]
    simp only [List.flatMap_cons, List.flatMap_nil, List.append_nil]
    by_cases hin : i = n
    · subst hin
      have : (List.range i).flatMap F = [] := by
        rw [List.flatMap_eq_nil_iff]
        intro j hj
        exact h j (by have := List.mem_range.1 hj; omega) (by have := List.mem_range.1 hj; omega)
      rw [this, List.nil_append]
    · rw [ih (by omega) (fun j hj => h j (by omega)), h n (by omega) (by omega), List.append_nil]

/-! ## Events -/

/-- The table an event is about. -/
def Event.addr : Event → Addr
  | .table a => a
  | .row a _ => a
  | .cell a _ _ => a

/-- The calls for one table, without its nested tables. -/
def ownEvents (H : Heap) (a : Addr) : List Event :=
  match H[a]? with
  | none => []
  | some t =>
    .table a :: (List.range t.rows.length).flatMap fun r => .row a r :: (List.range t.colNames.length).map fun c => .cell a c r

/-- The calls of `l` that concern table `x`. -/
def about (x : Addr) (l : List Event) : List Event := l.filter (fun e => e.addr = x)

theorem about_append (x : Addr) (l1 l2 : List Event) : about x (l1 ++ l2) = about x l1 ++ about x l2 := by simp [about]

theorem about_flatMap {ι : Type} (x : Addr) (l : List ι) (F : ι → List Event) : about x (l.flatMap F) = l.flatMap fun i => about x (F i) := by
  induction l with
  | nil => rfl
  | cons i is ih => simp only [List.flatMap_cons, about_append, ih]

theorem treeTrace_reached (hw : HeapWF H) {deep : Bool} {d : Nat} {a : Addr} {e : Event} (h : e ∈ treeTrace deep H d a) : Reached H a e.addr := by
  induction d generalizing a with
  | zero => simp [treeTrace] at h
  | succ d ih =>
    unfold treeTrace at h
    split at h
    · simp at h
    · rename_i t ht
      simp only [List.mem_cons, List.mem_flatMap, List.mem_range] at h
      rcases h with rfl | ⟨r, hr, rfl | ⟨c, hc, rfl | h⟩⟩
      · exact .inl rfl
      · exact .inl rfl
      · exact .inl rfl
      · split at h
        · rename_i b hb
          split at h
          · exact .inr (Reached.of_holds (c := c) (r := r) ⟨t, ht, hb⟩ (ih h))
          · simp at h
        · simp at h

theorem about_eq_nil (hw : HeapWF H) {deep : Bool} {d : Nat} {a x : Addr} (h : ¬ Reached H a x) : about x (treeTrace deep H d a) = [] := by
  unfold about
  rw [List.filter_eq_nil_iff]
  intro e he hx
  have := treeTrace_reached hw he
  rw [of_decide_eq_true hx] at this
  exact h this

theorem about_treeTrace (hw : HeapWF H) (hns : NoSharing H) {rank : Addr → Nat} (hac : Acyclic H rank) {d : Nat} {a x : Addr}
    (hd : rank a < d) (h : Reached H a x) : about x (treeTrace true H d a) = ownEvents H x := by
  induction d generalizing a with
  | zero => omega
  | succ d ih =>
    cases ht : H[a]? with
    | none =>
      rcases h with rfl | h
      · simp [treeTrace, ht, about, ownEvents]
      · obtain ⟨c, r, b, ⟨t, h1, _⟩, _⟩ := h.first
        rw [h1] at ht; simp at ht
    | some t =>
      have hwf := hw t (List.mem_of_getElem? ht)
      by_cases hxa : x = a
      · subst hxa
        have hsub : ∀ b c r, nestedAt t c r = some b → about x (treeTrace true H d b) = [] := by
          intro b c r hb
          apply about_eq_nil hw
          intro hr
          have := Below.rank hw hac (Reached.of_holds (c := c) (r := r) ⟨t, ht, hb⟩ hr)
          omega
        simp only [treeTrace, ht, ownEvents]
        have e1 : ∀ e l, e.addr = x → about x (e :: l) = e :: about x l := by intro e l h; simp [about, h]
        rw [e1 _ _ rfl, about_flatMap]
        congr 1
        congr 1
        funext r
        rw [e1 _ _ rfl, about_flatMap]
        congr 1
        rw [List.map_eq_flatMap]
        congr 1
        funext c
        rw [e1 _ _ rfl]
        congr 1
        cases hb : nestedAt t c r with
        | none => rfl
        | some b => simpa using hsub b c r hb
      · have hbelow : Below H a x := h.resolve_left hxa
        obtain ⟨c0, r0, b0, hb0, hx0⟩ := hbelow.first
        obtain ⟨t', ht', hn0⟩ := hb0
        rw [ht] at ht'; cases ht'
        have hb0 : HoldsAt H a c0 r0 b0 := ⟨t, ht, hn0⟩
        obtain ⟨_, _, _, _, hc0, hr0⟩ := nestedAt_At hwf hn0
        have e1 : ∀ e l, e.addr = a → about x (e :: l) = about x l := by
          intro e l h; simp [about, h, Ne.symm hxa]
        simp only [treeTrace, ht]
        rw [e1 _ _ rfl, about_flatMap]
        have hcell : ∀ c r, ¬ (c = c0 ∧ r = r0) → about x (match nestedAt t c r with
            | some b => if true = true then treeTrace true H d b else []
            | none => []) = [] := by
          intro c r hne
          cases hb : nestedAt t c r with
          | none => rfl
          | some b =>
            simp only [if_true]
            apply about_eq_nil hw
            intro hr
            exact disjoint_cells hw hns hac (c := c) (r := r) ⟨t, ht, hb⟩ hb0 hne hr hx0
        rw [flatMap_single _ r0 hr0, e1 _ _ rfl, about_flatMap, flatMap_single _ c0 hc0, e1 _ _ rfl]
        · simp only [hn0, if_true]
          refine ih ?_ hx0
          have := (Below.direct hb0).rank hw hac
          omega
        · intro c _ hne
          rw [e1 _ _ rfl]
          exact hcell c r0 (by omega)
        · intro r _ hne
          rw [e1 _ _ rfl, about_flatMap, List.flatMap_eq_nil_iff]
          intro c _
          rw [e1 _ _ rfl]
          exact hcell c r (by omega)

/-! ## Depth -/

theorem Within.below {d : Nat} {a x : Addr} (h : Within true H d a) (hx : Below H a x) : ∃ d' < d, Within true H d' x := by
  induction hx with
  | direct h2 =>
    cases d with
    | zero => exact h.elim
    | succ d => exact ⟨d, by omega, h _ _ _ rfl h2⟩
  | deeper _ h2 ih =>
    obtain ⟨d', h3, h4⟩ := ih
    cases d' with
    | zero => exact h4.elim
    | succ d' => exact ⟨d', by omega, h4 _ _ _ rfl h2⟩

theorem Within.noCycle {d : Nat} {x : Addr} (h : Within true H d x) : ¬ Below H x x := by
  intro hx
  induction d using Nat.strongRecOn with
  | _ d ih =>
    obtain ⟨d', h1, h2⟩ := h.below hx
    exact ih d' h1 h2

theorem within_of_rank (hw : HeapWF H) {rank : Addr → Nat} (hac : Acyclic H rank) (deep : Bool) {d : Nat} {a : Addr} (h : rank a < d) :
    Within deep H d a := by
  induction d generalizing a with
  | zero => omega
  | succ d ih =>
    intro c r b _ hb
    have := (Below.direct hb).rank hw hac
    exact ih (by omega)

/-! ## The nested tables met -/

theorem mem_nestedSeq_below {deep : Bool} {d : Nat} {a x : Addr} (h : x ∈ nestedSeq deep H d a) : Below H a x := by
  induction d generalizing a with
  | zero => simp [nestedSeq] at h
  | succ d ih =>
    unfold nestedSeq at h
    split at h
    · simp at h
    · rename_i t ht
      simp only [List.mem_flatMap, List.mem_range] at h
      obtain ⟨r, hr, c, hc, h⟩ := h
      split at h
      · rename_i b hb
        have hh : HoldsAt H a c r b := ⟨t, ht, hb⟩
        split at h
        · rcases List.mem_append.1 h with h | h
          · split at h
            · split at h
              · simp at h
              · simp only [List.mem_singleton] at h; subst h; exact .direct hh
            · simp at h
          · exact (ih h).cons hh
        · simp at h
      · simp at h

theorem nestedSeq_nodup (hw : HeapWF H) (hns : NoSharing H) {rank : Addr → Nat} (hac : Acyclic H rank) (deep : Bool) (d : Nat) (a : Addr) :
    (nestedSeq deep H d a).Nodup := by
  induction d generalizing a with
  | zero => simp [nestedSeq]
  | succ d ih =>
    unfold nestedSeq
    split
    · simp
    · rename_i t ht
      rw [nodup_grid]
      have hmem : ∀ c r x, x ∈ (match nestedAt t c r with
          | some b =>
            if deep then
              (match H[b]? with
              | some n => if n.isNilTable then [] else [b]
              | none => []) ++ nestedSeq deep H d b
            else []
          | none => []) → ∃ b, nestedAt t c r = some b ∧ Reached H b x := by
        intro c r x hx
        split at hx
        · rename_i b hb
          refine ⟨b, hb, ?_⟩
          split at hx
          · rcases List.mem_append.1 hx with h | h
            · split at h
              · split at h
                · simp at h
                · simp only [List.mem_singleton] at h; exact .inl h
              · simp at h
            · exact .inr (mem_nestedSeq_below h)
          · simp at hx
        · simp at hx
      constructor
      · intro r hr c hc
        split
        · rename_i b hb
          split
          · rw [List.nodup_append]
            refine ⟨?_, ih b, ?_⟩
            · split
              · split <;> simp
              · simp
            · intro x hx y hy e
              subst e
              have h1 := (mem_nestedSeq_below hy).rank hw hac
              split at hx
              · split at hx
                · simp at hx
                · simp only [List.mem_singleton] at hx; subst hx; omega
              · simp at hx
          · simp
        · simp
      · intro r hr c hc r' hr' c' hc' hne x hx hx'
        obtain ⟨b, hb, h1⟩ := hmem c r x hx
        obtain ⟨b', hb', h1'⟩ := hmem c' r' x hx'
        exact disjoint_cells hw hns hac ⟨t, ht, hb⟩ ⟨t, ht, hb'⟩ hne h1 h1'

/-- Every table that is not a placeholder and is stored within reach is met. -/
theorem mem_nestedSeq (hw : HeapWF H) (hcl : Closed H) {d : Nat} {a p b : Addr} {c r : Nat} (hwi : Within true H d a) (hp : Reached H a p) (hb : HoldsAt H p c r b)
    (hnil : ¬ IsNil H b) : b ∈ nestedSeq true H d a := by
  induction d generalizing a with
  | zero => exact hwi.elim
  | succ d ih =>
    have hfirst : ∃ c0 r0 b0, HoldsAt H a c0 r0 b0 ∧ ((b0 = b) ∨ Reached H b0 p) := by
      rcases hp with rfl | hp
      · exact ⟨c, r, b, hb, .inl rfl⟩
      · obtain ⟨c0, r0, b0, h1, h2⟩ := hp.first
        exact ⟨c0, r0, b0, h1, .inr h2⟩
    obtain ⟨c0, r0, b0, ⟨t, ht, hn⟩, hcase⟩ := hfirst
    have hwf := hw t (List.mem_of_getElem? ht)
    obtain ⟨_, _, _, _, hc0, hr0⟩ := nestedAt_At hwf hn
    simp only [nestedSeq, ht, List.mem_flatMap, List.mem_range]
    refine ⟨r0, hr0, c0, hc0, ?_⟩
    simp only [hn, if_true, List.mem_append]
    rcases hcase with rfl | hcase
    · left
      have hl : b0 < H.length := hcl _ _ (hb.nestedIn hw)
      have eb := List.getElem?_eq_getElem hl
      simp only [eb]
      split
      · rename_i h; exact absurd ⟨_, eb, h⟩ hnil
      · simp
    · right
      exact ih (hwi c0 r0 b0 rfl ⟨t, ht, hn⟩) hcase

/-- If no table is met twice, no table but a placeholder is stored in two cells. -/
theorem holds_unique_of_nodup (hw : HeapWF H) (hcl : Closed H) {d : Nat} {a p p' b : Addr} {c r c' r' : Nat} (hwi : Within true H d a)
    (hnd : (nestedSeq true H d a).Nodup)
    (hp : Reached H a p) (hb : HoldsAt H p c r b) (hp' : Reached H a p') (hb' : HoldsAt H p' c' r' b) (hnil : ¬ IsNil H b) :
    p = p' ∧ c = c' ∧ r = r' := by
  induction d generalizing a with
  | zero => exact hwi.elim
  | succ d ih =>
    have hfirst : ∀ {p c r}, Reached H a p → HoldsAt H p c r b → ∃ c0 r0 b0, HoldsAt H a c0 r0 b0 ∧
        ((p = a ∧ c0 = c ∧ r0 = r ∧ b0 = b) ∨ Reached H b0 p) := by
      intro p c r hp hb
      rcases hp with rfl | hp
      · exact ⟨c, r, b, hb, .inl ⟨rfl, rfl, rfl, rfl⟩⟩
      · obtain ⟨c0, r0, b0, h1, h2⟩ := hp.first
        exact ⟨c0, r0, b0, h1, .inr h2⟩
    obtain ⟨c0, r0, b0, ⟨t, ht, hn⟩, hcase⟩ := hfirst hp hb
    obtain ⟨c1, r1, b1, ⟨t', ht', hn'⟩, hcase'⟩ := hfirst hp' hb'
    rw [ht] at ht'; cases ht'
    have hwf := hw t (List.mem_of_getElem? ht)
    obtain ⟨_, _, _, _, hc0, hr0⟩ := nestedAt_At hwf hn
    obtain ⟨_, _, _, _, hc1, hr1⟩ := nestedAt_At hwf hn'
    simp only [nestedSeq, ht] at hnd
    rw [nodup_grid] at hnd
    obtain ⟨hn1, hn2⟩ := hnd
    have hl : b < H.length := hcl _ _ (hb.nestedIn hw)
    have eb := List.getElem?_eq_getElem hl
    have hnf : H[b].isNilTable = false := by
      cases h : H[b].isNilTable with
      | false => rfl
      | true => exact absurd ⟨_, eb, h⟩ hnil
    have hin : ∀ {c0 r0 b0 p c r}, nestedAt t c0 r0 = some b0 → HoldsAt H p c r b →
        ((p = a ∧ c0 = c ∧ r0 = r ∧ b0 = b) ∨ Reached H b0 p) → b ∈ (match nestedAt t c0 r0 with
          | some b =>
            if true = true then
              (match H[b]? with
              | some n => if n.isNilTable then [] else [b]
              | none => []) ++ nestedSeq true H d b
            else []
          | none => []) := by
      intro c0 r0 b0 p c r h1 h2 h3
      simp only [h1, if_true, List.mem_append]
      rcases h3 with ⟨rfl, rfl, rfl, rfl⟩ | h3
      · left; simp [eb, hnf]
      · right; exact mem_nestedSeq hw hcl (hwi _ _ _ rfl ⟨t, ht, h1⟩) h3 h2 hnil
    have hsame : c0 = c1 ∧ r0 = r1 := by
      by_cases h : c0 = c1 ∧ r0 = r1
      · exact h
      · exact absurd (hin hn' hb' hcase') (hn2 r0 hr0 c0 hc0 r1 hr1 c1 hc1 h b (hin hn hb hcase))
    obtain ⟨rfl, rfl⟩ := hsame
    rw [hn] at hn'; cases hn'
    have hchunk := hn1 r0 hr0 c0 hc0
    simp only [hn, if_true] at hchunk
    rw [List.nodup_append] at hchunk
    have hwi0 := hwi _ _ _ rfl (⟨t, ht, hn⟩ : HoldsAt H a c0 r0 b0)
    rcases hcase with ⟨rfl, rfl, rfl, rfl⟩ | hcase
    · rcases hcase' with ⟨rfl, rfl, rfl, _⟩ | hcase'
      · exact ⟨rfl, rfl, rfl⟩
      · exact absurd rfl (hchunk.2.2 b0 (by simp [eb, hnf]) b0 (mem_nestedSeq hw hcl hwi0 hcase' hb' hnil))
    · rcases hcase' with ⟨rfl, rfl, rfl, rfl⟩ | hcase'
      · exact absurd rfl (hchunk.2.2 b0 (by simp [eb, hnf]) b0 (mem_nestedSeq hw hcl hwi0 hcase hb hnil))
      · exact ih hwi0 hchunk.2.1 hcase hcase'

end Verif
