import Verif.Lemmas.Tree

/-!
# Walk: the depth of the recursion is bounded
-/

namespace Verif
open Table

variable {σ : Type} {H : Heap} {vis : Event → σ → σ × Out Unit} {visit : Event → WalkStep σ}

/-- The tables are those of `H`, and at least `L` different nested tables have been met. -/
def Met (H : Heap) (L : Nat) (s : WalkState σ) : Prop :=
  s.heap = H ∧ s.safe.Nodup ∧ (∀ x ∈ s.safe, x < H.length) ∧ L ≤ s.safe.length

/-- A step that does not panic and keeps `P`. -/
def Keeps (P : WalkState σ → Prop) (step : WalkStep σ) : Prop := ∀ s, P s → (step s).2 ≠ .panic ∧ P (step s).1

theorem Keeps.andThen {P : WalkState σ → Prop} {s1 s2 : WalkStep σ} (h1 : Keeps P s1) (h2 : Keeps P s2) : Keeps P (andThen s1 s2) := by
  intro s hs
  have := h1 s hs
  unfold Verif.andThen
  rcases e : s1 s with ⟨s', (_ | er | _)⟩ <;> rw [e] at this
  · exact h2 s' this.2
  · exact ⟨by simp, this.2⟩
  · simp at this

theorem Keeps.forEach {ι : Type} {P : WalkState σ → Prop} {f : ι → WalkStep σ} (l : List ι) (h : ∀ i ∈ l, Keeps P (f i)) :
    Keeps P (forEach f l) := by
  induction l with
  | nil => intro s hs; exact ⟨by simp [Verif.forEach], hs⟩
  | cons i is ih =>
    rw [forEach_andThen]
    exact (h i (by simp)).andThen (ih fun j hj => h j (by simp [hj]))

theorem Met.length_le {L : Nat} {s : WalkState σ} (h : Met H L s) : s.safe.length ≤ H.length := by
  have := nodup_subset_length (l2 := List.range H.length) h.2.1 (fun x hx => List.mem_range.2 (h.2.2.1 x hx))
  simpa using this

theorem Met.mono {L L' : Nat} {s : WalkState σ} (h : Met H L s) (hl : L' ≤ L) : Met H L' s :=
  ⟨h.1, h.2.1, h.2.2.1, by have := h.2.2.2; omega⟩

theorem keeps_visit (hv : Reads H visit vis) (hp : ∀ e u, e.addr < H.length → (vis e u).2 ≠ .panic) (L : Nat) (e : Event) (he : e.addr < H.length) : Keeps (Met H L) (visit e) := by
  rintro ⟨H', safe, u⟩ ⟨rfl, h2⟩
  rw [hv]
  exact ⟨hp e u he, rfl, h2⟩

theorem walk_keeps (hw : HeapWF H) (hcl : Closed H) (hv : Reads H visit vis) (hp : ∀ e u, e.addr < H.length → (vis e u).2 ≠ .panic) (deep : Bool)
    (d L : Nat) (a : Addr) (ha : a < H.length) (hd : H.length + 2 ≤ d + L) : Keeps (Met H L) (walk visit deep d a) := by
  induction d generalizing a L with
  | zero =>
    intro s hs
    have := hs.length_le
    have := hs.2.2.2
    omega
  | succ d ih =>
    have ea : H[a]? = some H[a] := List.getElem?_eq_getElem ha
    have hwf := hw _ (List.getElem_mem ha)
    generalize hta : H[a] = t at ea hwf
    have hcell : ∀ r ∈ List.range t.rows.length, ∀ c ∈ List.range t.colNames.length,
        Keeps (Met H L) (walkCell visit deep (walk visit deep d) a r c) := by
      intro r hr c hc
      rw [List.mem_range] at hr hc
      have hct : c < t.colTypes.length := by rw [hwf.typesLen]; exact hc
      have ect := List.getElem?_eq_getElem hct
      have ecn : t.colName (c : Int) = .ok t.colNames[c] := colName_nat (List.getElem?_eq_getElem hc)
      have hmain : Keeps (Met H L) (andThen (visit (.cell a c r)) (if deep = true ∧ t.colTypes[c] = .table
          then walkNested (walk visit deep d) a c r else fun s => (s, .ok ()))) := by
        refine (keeps_visit hv hp L (.cell a c r) ha).andThen ?_
        split
        · rename_i hcond
          obtain ⟨b, hb⟩ := nestedAt_of_table hwf (c := c) (r := r) (by rw [ect, hcond.2]) hr
          have hbl : b < H.length := hcl a b (HoldsAt.nestedIn hw (c := c) (r := r) ⟨t, ea, hb⟩)
          have eb := List.getElem?_eq_getElem hbl
          intro s hs
          have hn : walkNested (walk visit deep d) a c r s =
              if H[b].isNilTable = false then
                if b ∈ s.safe then (s, .err .circular) else walk visit deep d b { s with safe := b :: s.safe }
              else walk visit deep d b s := by
            simp only [walkNested, hs.1, ea, getTyped_nestedAt hwf hb, eb]
          rw [hn]
          split
          · split
            · exact ⟨by simp, hs⟩
            · rename_i hmem
              have := ih (L + 1) b hbl (by omega) { s with safe := b :: s.safe }
                ⟨hs.1, List.nodup_cons.2 ⟨hmem, hs.2.1⟩, by
                  intro x hx
                  rcases List.mem_cons.1 hx with rfl | hx
                  · exact hbl
                  · exact hs.2.2.1 x hx, by have := hs.2.2.2; simp only [List.length_cons]; omega⟩
              exact ⟨this.1, this.2.mono (by omega)⟩
          · rename_i hnil
            have hnil : H[b].isNilTable = true := by simpa using hnil
            have hrows := ((hw _ (List.getElem_mem hbl)).nilEmpty hnil).2
            have h1 := hs.length_le
            have h2 := hs.2.2.2
            obtain ⟨d', rfl⟩ : ∃ d', d = d' + 1 := ⟨d - 1, by omega⟩
            have e : walk visit deep (d' + 1) b s = andThen (visit (.table b)) (fun s => (s, .ok ())) s := by
              simp only [walk, hs.1, eb, rowCount, hrows, List.length_nil, List.range_zero]
              rfl
            rw [e]
            exact ((keeps_visit hv hp L (.table b) hbl).andThen (fun s hs => ⟨by simp, hs⟩)) s hs
        · intro s hs; exact ⟨by simp, hs⟩
      intro s hs
      have e : walkCell visit deep (walk visit deep d) a r c s = andThen (visit (.cell a c r)) (if deep = true ∧ t.colTypes[c] = .table
          then walkNested (walk visit deep d) a c r else fun s => (s, .ok ())) s := by
        simp only [walkCell, hs.1, ea, ect, ecn]
      rw [e]
      exact hmain s hs
    have hall := (keeps_visit hv hp L (.table a) ha).andThen (Keeps.forEach (List.range t.rows.length) fun r hr =>
      (keeps_visit hv hp L (.row a r) ha).andThen (Keeps.forEach (List.range t.colNames.length) fun c hc => hcell r hr c hc))
    intro s hs
    have e : walk visit deep (d + 1) a s = andThen (visit (.table a))
        (forEach (walkRow visit deep (walk visit deep d) a t.colNames.length) (List.range t.rows.length)) s := by
      simp only [walk, hs.1, ea, colCount, rowCount]
    rw [e]
    exact hall s hs

/-- On any graph of tables the recursion is not deeper than the number of tables. -/
theorem walk_noPanic (hw : HeapWF H) (hcl : Closed H) (hv : Reads H visit vis) (hp : ∀ e u, e.addr < H.length → (vis e u).2 ≠ .panic) (deep : Bool)
    (d : Nat) (a : Addr) (ha : a < H.length) (hd : H.length + 2 ≤ d) (u : σ) : (walk visit deep d a ⟨H, [], u⟩).2 ≠ .panic :=
  (walk_keeps hw hcl hv hp deep d 0 a ha (by omega) ⟨H, [], u⟩ ⟨rfl, by simp, by simp, by simp⟩).1

/-! ## More depth changes nothing -/

/-- `s2` does what `s1` does, where `s1` does not panic. -/
def Extends (s1 s2 : WalkStep σ) : Prop := ∀ s, (s1 s).2 ≠ .panic → s2 s = s1 s

theorem Extends.refl (s1 : WalkStep σ) : Extends s1 s1 := fun _ _ => rfl

theorem Extends.andThen {s1 s2 t1 t2 : WalkStep σ} (h1 : Extends s1 t1) (h2 : Extends s2 t2) : Extends (andThen s1 s2) (andThen t1 t2) := by
  intro s hs
  unfold Verif.andThen at hs ⊢
  have h := h1 s
  rcases e : s1 s with ⟨s', (_ | er | _)⟩ <;> rw [e] at h hs
  · rw [h (by simp)]
    exact h2 s' hs
  · rw [h (by simp)]
  · simp at hs

theorem Extends.forEach {ι : Type} {f g : ι → WalkStep σ} (l : List ι) (h : ∀ i ∈ l, Extends (f i) (g i)) :
    Extends (forEach f l) (forEach g l) := by
  induction l with
  | nil => exact fun _ _ => rfl
  | cons i is ih =>
    rw [forEach_andThen, forEach_andThen]
    exact (h i (by simp)).andThen (ih fun j hj => h j (by simp [hj]))

theorem walk_extends (visit : Event → WalkStep σ) (deep : Bool) (d : Nat) (a : Addr) :
    Extends (walk visit deep d a) (walk visit deep (d + 1) a) := by
  induction d generalizing a with
  | zero => intro s hs; simp [walk] at hs
  | succ d ih =>
    intro s hs
    unfold walk at hs ⊢
    cases ha : s.heap[a]? with
    | none => rfl
    | some t =>
      simp only [ha] at hs ⊢
      refine (Extends.refl _).andThen (Extends.forEach _ fun r _ => (Extends.refl _).andThen (Extends.forEach _ fun c _ => ?_)) s hs
      intro s hs
      unfold walkCell at hs ⊢
      cases h1 : s.heap[a]? with
      | none => rfl
      | some t =>
        simp only [h1] at hs ⊢
        cases h2 : t.colTypes[c]? with
        | none => rfl
        | some ty =>
          simp only [h2] at hs ⊢
          cases h3 : t.colName (c : Int) with
          | err e => rfl
          | panic => rfl
          | ok n =>
            simp only [h3] at hs ⊢
            refine (Extends.refl _).andThen ?_ s hs
            split
            · intro s hs
              unfold walkNested at hs ⊢
              cases h4 : s.heap[a]? with
              | none => rfl
              | some t =>
                simp only [h4] at hs ⊢
                split at hs
                · rfl
                · simp at hs
                · rename_i b hb
                  cases h5 : s.heap[b]? with
                  | none => rfl
                  | some n =>
                    simp only [h5] at hs ⊢
                    split
                    · rename_i c1
                      rw [if_pos c1] at hs
                      split
                      · rfl
                      · rename_i c2
                        rw [if_neg c2] at hs
                        exact ih b _ hs
                    · rename_i c1
                      rw [if_neg c1] at hs
                      exact ih b _ hs
                · rfl
            · exact Extends.refl _

theorem walk_mono (visit : Event → WalkStep σ) (deep : Bool) {d d' : Nat} (hd : d ≤ d') (a : Addr) (s : WalkState σ)
    (h : (walk visit deep d a s).2 ≠ .panic) : walk visit deep d' a s = walk visit deep d a s := by
  induction d' with
  | zero => have : d = 0 := by omega
            subst this; rfl
  | succ d' ih =>
    by_cases he : d = d' + 1
    · subst he; rfl
    · have := ih (by omega)
      rw [walk_extends visit deep d' a s (by rw [this]; exact h), this]

end Verif
