import Verif.Go.Basic

/-! # Helper lemmas about the Go fragment -/

namespace Verif

theorem goGet?_nat {α : Type} (l : List α) (i : Nat) : goGet? l (i : Int) = l[i]? := by
  simp [goGet?]

theorem goGet?_neg {α : Type} (l : List α) {i : Int} (h : i < 0) : goGet? l i = none := by
  simp only [goGet?]; rw [if_neg]; omega

theorem goGet?_some {α : Type} {l : List α} {i : Int} {a : α} :
    goGet? l i = some a ↔ 0 ≤ i ∧ l[i.toNat]? = some a := by
  simp only [goGet?]; split
  · rename_i h; simp [h]
  · rename_i h; simp [h]

theorem goGet?_isSome_iff {α : Type} (l : List α) (i : Int) :
    (goGet? l i).isSome = true ↔ 0 ≤ i ∧ i < l.length := by
  simp only [goGet?]; split
  · simp; omega
  · simp; omega

theorem goGet?_none {α : Type} {l : List α} {i : Int} :
    goGet? l i = none ↔ ¬ (0 ≤ i ∧ i < l.length) := by
  rw [← goGet?_isSome_iff]; cases goGet? l i <;> simp

theorem goSet?_some {α : Type} {l l' : List α} {i : Int} {a : α} :
    goSet? l i a = some l' ↔ 0 ≤ i ∧ i.toNat < l.length ∧ l' = l.set i.toNat a := by
  simp only [goSet?]; split
  · rename_i h
    constructor
    · intro e; exact ⟨h.1, h.2, by simpa [eq_comm] using e⟩
    · rintro ⟨_, _, e⟩; rw [e]
  · rename_i h
    constructor
    · intro e; cases e
    · rintro ⟨h1, h2, _⟩; exact absurd ⟨h1, h2⟩ h

theorem goSet?_nat {α : Type} (l : List α) (i : Nat) (a : α) (h : i < l.length) :
    goSet? l (i : Int) a = some (l.set i a) := by
  simp [goSet?, h]

theorem goSet?_none {α : Type} {l : List α} {i : Int} {a : α} :
    goSet? l i a = none ↔ ¬ (0 ≤ i ∧ i < l.length) := by
  simp only [goSet?]; split
  · simp; omega
  · simp; omega

section forEach
variable {ι σ : Type}

theorem forEach_nil (f : ι → σ → σ × Out Unit) (s : σ) : forEach f [] s = (s, .ok ()) := rfl

theorem forEach_cons_ok {f : ι → σ → σ × Out Unit} {i : ι} {is : List ι} {s s' : σ}
    (h : f i s = (s', .ok ())) : forEach f (i :: is) s = forEach f is s' := by
  simp [forEach, h]

theorem forEach_append (f : ι → σ → σ × Out Unit) (l1 l2 : List ι) (s : σ) :
    forEach f (l1 ++ l2) s =
      match forEach f l1 s with
      | (s', .ok ()) => forEach f l2 s'
      | (s', .err e) => (s', .err e)
      | (s', .panic) => (s', .panic) := by
  induction l1 generalizing s with
  | nil => simp [forEach]
  | cons i is ih =>
    simp only [List.cons_append, forEach]
    rcases h : f i s with ⟨s', (_ | e | _)⟩ <;> simp [ih]

/-- A predicate kept by each step is kept by the loop, whatever its outcome. -/
theorem forEach_inv {f : ι → σ → σ × Out Unit} {P : σ → Prop} (l : List ι)
    (step : ∀ i ∈ l, ∀ s, P s → P (f i s).1) (s : σ) (h : P s) : P (forEach f l s).1 := by
  induction l generalizing s with
  | nil => exact h
  | cons i is ih =>
    simp only [forEach]
    have h1 := step i (by simp) s h
    rcases hf : f i s with ⟨s', (_ | e | _)⟩ <;> rw [hf] at h1
    · exact ih (fun j hj => step j (by simp [hj])) s' h1
    · exact h1
    · exact h1

theorem forEach_noPanic {f : ι → σ → σ × Out Unit} {P : σ → Prop} (l : List ι)
    (step : ∀ i ∈ l, ∀ s, P s → P (f i s).1 ∧ (f i s).2 ≠ .panic) (s : σ) (h : P s) :
    (forEach f l s).2 ≠ .panic := by
  induction l generalizing s with
  | nil => simp [forEach]
  | cons i is ih =>
    simp only [forEach]
    have h1 := step i (by simp) s h
    rcases hf : f i s with ⟨s', (_ | e | _)⟩ <;> rw [hf] at h1
    · exact ih (fun j hj => step j (by simp [hj])) s' h1.1
    · simp
    · simp at h1

/-- Progress of a counting loop through an indexed invariant. -/
theorem forEach_range_ok {f : Nat → σ → σ × Out Unit} (I : Nat → σ → Prop) (n : Nat)
    (step : ∀ k, k < n → ∀ s, I k s → ∃ s', f k s = (s', .ok ()) ∧ I (k + 1) s')
    (s : σ) (h : I 0 s) : ∃ s', forEach f (List.range n) s = (s', .ok ()) ∧ I n s' := by
  induction n with
  | zero => exact ⟨s, by simp [forEach], h⟩
  | succ n ih =>
    obtain ⟨s1, h1, i1⟩ := ih (fun k hk => step k (by omega))
    obtain ⟨s2, h2, i2⟩ := step n (by omega) s1 i1
    refine ⟨s2, ?_, i2⟩
    rw [List.range_succ, forEach_append, h1]
    simp [forEach, h2]

/-- A loop over a list in which every step succeeds, with an invariant indexed by the elements done. -/
theorem forEach_list_ok {f : ι → σ → σ × Out Unit} (I : List ι → σ → Prop) (l : List ι)
    (step : ∀ pre i post, l = pre ++ i :: post → ∀ s, I pre s →
      ∃ s', f i s = (s', .ok ()) ∧ I (pre ++ [i]) s')
    (s : σ) (h : I [] s) : ∃ s', forEach f l s = (s', .ok ()) ∧ I l s' := by
  suffices H : ∀ post pre s, l = pre ++ post → I pre s →
      ∃ s', forEach f post s = (s', .ok ()) ∧ I l s' from H l [] s rfl h
  intro post
  induction post with
  | nil => intro pre s e hs; exact ⟨s, rfl, by simpa [e] using hs⟩
  | cons i is ih =>
    intro pre s e hs
    obtain ⟨s', h1, h2⟩ := step pre i is e s hs
    rw [forEach_cons_ok h1]
    exact ih (pre ++ [i]) s' (by simp [e]) h2

end forEach

namespace GoMap

theorem get?_insert_self (m : GoMap) (k : GoStr) (v : Nat) : (m.insert k v).get? k = some v := by
  induction m with
  | nil => simp [insert, get?]
  | cons p m ih =>
    obtain ⟨k', v'⟩ := p
    simp only [insert]
    split
    · simp [get?]
    · rename_i h; simp [get?, h, ih]

theorem get?_insert_ne (m : GoMap) {k k' : GoStr} (v : Nat) (h : k' ≠ k) :
    (m.insert k v).get? k' = m.get? k' := by
  induction m with
  | nil => simp [insert, get?, h.symm]
  | cons p m ih =>
    obtain ⟨k2, v2⟩ := p
    simp only [insert]
    split
    · rename_i e; subst e; simp [get?, h.symm]
    · simp [get?, ih]

theorem get?_insert (m : GoMap) (k k' : GoStr) (v : Nat) :
    (m.insert k v).get? k' = if k' = k then some v else m.get? k' := by
  split
  · rename_i h; subst h; exact get?_insert_self m _ v
  · rename_i h; exact get?_insert_ne m v h

theorem get?_erase (m : GoMap) (k k' : GoStr) :
    (m.erase k).get? k' = if k' = k then none else m.get? k' := by
  induction m with
  | nil => simp [erase, get?]
  | cons p m ih =>
    obtain ⟨k2, v2⟩ := p
    simp only [erase]
    split
    · rename_i e; subst e
      rw [ih]; split
      · rfl
      · rename_i h; simp only [get?]; rw [if_neg (Ne.symm h)]
    · rename_i e
      simp only [get?]
      split
      · rename_i e2; subst e2; rw [if_neg e]
      · exact ih

theorem get?_none_of_not_mem {m : GoMap} {k : GoStr} (h : k ∉ m.map Prod.fst) : m.get? k = none := by
  induction m with
  | nil => rfl
  | cons p m ih =>
    obtain ⟨k2, v2⟩ := p
    simp only [List.map_cons, List.mem_cons, not_or] at h
    simp only [get?]; rw [if_neg (Ne.symm h.1)]; exact ih h.2

theorem get?_isSome_iff_mem {m : GoMap} {k : GoStr} : (∃ v, m.get? k = some v) ↔ k ∈ m.map Prod.fst := by
  induction m with
  | nil => simp [get?]
  | cons p m ih =>
    obtain ⟨k2, v2⟩ := p
    simp only [List.map_cons, List.mem_cons, get?]
    split
    · rename_i e; simp [e]
    · rename_i e; rw [ih]
      constructor
      · exact Or.inr
      · rintro (h | h)
        · exact absurd h.symm e
        · exact h

theorem keys_insert (m : GoMap) (k : GoStr) (v : Nat) :
    (m.insert k v).map Prod.fst = if k ∈ m.map Prod.fst then m.map Prod.fst else m.map Prod.fst ++ [k] := by
  induction m with
  | nil => simp [insert]
  | cons p m ih =>
    obtain ⟨k2, v2⟩ := p
    simp only [insert]
    split
    · rename_i e; subst e; simp
    · rename_i e
      simp only [List.map_cons, ih, List.mem_cons]
      have : ¬ k = k2 := fun h => e h.symm
      simp only [this, false_or]
      split <;> simp

theorem keys_insert_nodup {m : GoMap} (k : GoStr) (v : Nat) (h : (m.map Prod.fst).Nodup) :
    ((m.insert k v).map Prod.fst).Nodup := by
  rw [keys_insert]; split
  · exact h
  · rename_i hk
    rw [List.nodup_append]
    refine ⟨h, by simp, ?_⟩
    intro a ha b hb
    simp at hb; subst hb
    intro e; subst e; exact hk ha

theorem keys_erase (m : GoMap) (k : GoStr) :
    (m.erase k).map Prod.fst = (m.map Prod.fst).filter (fun x => x ≠ k) := by
  induction m with
  | nil => simp [erase]
  | cons p m ih =>
    obtain ⟨k2, v2⟩ := p
    simp only [erase]
    split
    · rename_i e; subst e; simp [ih]
    · rename_i e; simp [ih, e]

theorem keys_erase_nodup {m : GoMap} (k : GoStr) (h : (m.map Prod.fst).Nodup) :
    ((m.erase k).map Prod.fst).Nodup := by
  rw [keys_erase]; exact h.filter _

end GoMap
end Verif
