import Verif.Lemmas.Reorder

/-! # Which draws give which order of the rows -/

namespace Verif
open Table

theorem swapRows?_map {α β : Type} (f : α → β) (l : List α) (i j : Nat) : swapRows? (l.map f) i j = (swapRows? l i j).map (·.map f) := by
  simp only [swapRows?, List.getElem?_map]
  cases l[i]? <;> cases l[j]? <;> simp [List.map_set]

theorem shuffleLoop_map {α β : Type} (f : α → β) (c : Nat → Nat) (i : Nat) (l : List α) :
    shuffleLoop c i (l.map f) = (shuffleLoop c i l).map (·.map f) := by
  induction i generalizing l with
  | zero => rfl
  | succ i ih =>
    simp only [shuffleLoop, swapRows?_map]
    cases swapRows? l (i + 1) (c (i + 1) % (i + 2)) with
    | none => rfl
    | some l' => exact ih l'

/-- Later steps leave the end of the list alone. -/
theorem shuffleLoop_above {α : Type} {c : Nat → Nat} {i : Nat} {l l' : List α} (h : shuffleLoop c i l = some l') {k : Nat} (hk : i < k) :
    l'[k]? = l[k]? := by
  induction i generalizing l with
  | zero => cases h; rfl
  | succ i ih =>
    simp only [shuffleLoop] at h
    have hj := Nat.mod_lt (c (i + 1)) (show i + 2 > 0 by omega)
    cases hs : swapRows? l (i + 1) (c (i + 1) % (i + 2)) with
    | none => rw [hs] at h; cases h
    | some m =>
      rw [hs] at h
      rw [ih h (by omega)]
      simp only [swapRows?] at hs
      split at hs
      · cases hs
        rw [List.getElem?_set_ne (by omega), List.getElem?_set_ne (by omega)]
      · cases hs

/-- The draws decide the order. -/
theorem shuffleLoop_congr {α : Type} {c d : Nat → Nat} {i : Nat} (h : ∀ k, 0 < k → k ≤ i → c k % (k + 1) = d k % (k + 1)) (l : List α) :
    shuffleLoop c i l = shuffleLoop d i l := by
  induction i generalizing l with
  | zero => rfl
  | succ i ih =>
    simp only [shuffleLoop]
    rw [show c (i + 1) % (i + 2) = d (i + 1) % (i + 2) from h (i + 1) (by omega) (by omega)]
    cases swapRows? l (i + 1) (d (i + 1) % (i + 2)) with
    | none => rfl
    | some m => exact ih (fun k h1 h2 => h k h1 (by omega)) m

/-- After the first step the last element is the one drawn. -/
theorem shuffleLoop_head {α : Type} {c : Nat → Nat} {i : Nat} {l l' : List α} (h : shuffleLoop c (i + 1) l = some l') :
    l'[i + 1]? = l[c (i + 1) % (i + 2)]? := by
  simp only [shuffleLoop] at h
  cases hs : swapRows? l (i + 1) (c (i + 1) % (i + 2)) with
  | none => rw [hs] at h; cases h
  | some m =>
    rw [hs] at h
    rw [shuffleLoop_above h (by omega)]
    simp only [swapRows?] at hs
    split at hs
    · rename_i a b ha hb
      cases hs
      have h1 := (List.getElem?_eq_some_iff.1 ha).1
      by_cases e : c (i + 1) % (i + 2) = i + 1
      · rw [e] at hb ⊢
        rw [ha] at hb ⊢
        simp [h1]
      · rw [List.getElem?_set_ne e, hb]
        simp [h1]
    · cases hs

/-- Of distinct elements, every order comes from some draws. -/
theorem shuffleLoop_reach {α : Type} (i : Nat) (l p : List α) (hi : i < l.length ∨ i = 0) (hl : l.Nodup) (hp : p.Perm l) (ht : ∀ k, i < k → p[k]? = l[k]?) :
    ∃ c : Nat → Nat, (∀ k, c k ≤ k) ∧ shuffleLoop c i l = some p := by
  induction i generalizing l with
  | zero =>
    refine ⟨fun _ => 0, fun k => Nat.zero_le k, ?_⟩
    have : l = p := by
      cases l with
      | nil => rw [List.perm_nil.1 hp]
      | cons a l =>
        cases p with
        | nil => have := hp.length_eq; simp at this
        | cons b p =>
          have e : p = l := by
            apply List.ext_getElem?
            intro k
            have := ht (k + 1) (by omega)
            simpa using this
          subst e
          have : b ∈ a :: p := hp.mem_iff.1 (by simp)
          have hnd : (b :: p).Nodup := hp.nodup_iff.2 hl
          rcases List.mem_cons.1 this with rfl | hb
          · rfl
          · exact absurd hb (List.nodup_cons.1 hnd).1
    rw [this]; rfl
  | succ i ih =>
    have hlen : i + 1 < l.length := by omega
    have hplen : i + 1 < p.length := by rw [hp.length_eq]; exact hlen
    have hmem : p[i + 1] ∈ l := hp.mem_iff.1 (List.getElem_mem hplen)
    obtain ⟨j, hj, ej⟩ := List.getElem_of_mem hmem
    have hji : j ≤ i + 1 := by
      refine Decidable.byContradiction fun hc => ?_
      have h1 := ht j (by omega)
      rw [List.getElem?_eq_getElem hj, ej] at h1
      obtain ⟨h2, h3⟩ := List.getElem?_eq_some_iff.1 h1
      have := (List.getElem_inj (hp.nodup_iff.2 hl)).1 h3
      omega
    have hs := swapRows?_some hlen hj
    have hperm := swapRows?_perm hs
    obtain ⟨c, h1, h2⟩ := ih ((l.set (i + 1) l[j]).set j l[i + 1]) (by left; simp; omega) (hperm.nodup_iff.2 hl) (hp.trans hperm.symm) (by
      intro k hk
      by_cases e : k = i + 1
      · subst e
        by_cases e2 : j = i + 1
        · subst e2
          rw [List.getElem?_set_self (by simpa using hlen), ej, List.getElem?_eq_getElem hplen]
        · rw [List.getElem?_set_ne e2, List.getElem?_set_self hlen, ej, List.getElem?_eq_getElem hplen]
      · rw [List.getElem?_set_ne (by omega), List.getElem?_set_ne (by omega)]
        exact ht k (by omega))
    refine ⟨fun k => if k = i + 1 then j else c k, fun k => ?_, ?_⟩
    · show (if k = i + 1 then j else c k) ≤ k
      split
      · omega
      · exact h1 k
    · simp only [shuffleLoop, if_true]
      rw [Nat.mod_eq_of_lt (show j < i + 2 by omega), hs]
      simp only
      rw [← h2]
      refine shuffleLoop_congr (fun k _ hk => ?_) _
      rw [if_neg (by omega)]

/-- Of distinct elements, an order comes from one sequence of draws only. -/
theorem shuffleLoop_unique {α : Type} {c d : Nat → Nat} (i : Nat) (l p : List α) (hi : i < l.length ∨ i = 0) (hl : l.Nodup)
    (h1 : shuffleLoop c i l = some p) (h2 : shuffleLoop d i l = some p) : ∀ k, 0 < k → k ≤ i → c k % (k + 1) = d k % (k + 1) := by
  induction i generalizing l with
  | zero => intro k _ _; omega
  | succ i ih =>
    have e1 := shuffleLoop_head h1
    have e2 := shuffleLoop_head h2
    rw [e1] at e2
    have hc := Nat.mod_lt (c (i + 1)) (show i + 2 > 0 by omega)
    have hd := Nat.mod_lt (d (i + 1)) (show i + 2 > 0 by omega)
    have hcl : c (i + 1) % (i + 2) < l.length := by omega
    have hdl : d (i + 1) % (i + 2) < l.length := by omega
    rw [List.getElem?_eq_getElem hcl, List.getElem?_eq_getElem hdl] at e2
    have e := (List.getElem_inj hl).1 (Option.some.inj e2)
    intro k h0 hk
    by_cases hki : k = i + 1
    · subst hki; exact e
    · simp only [shuffleLoop] at h1 h2
      rw [← e] at h2
      have hs := swapRows?_some (l := l) (show i + 1 < l.length by omega) hcl
      rw [hs] at h1 h2
      exact ih _ (by left; simp; omega) ((swapRows?_perm hs).nodup_iff.2 hl) h1 h2 k h0 (by omega)

end Verif
