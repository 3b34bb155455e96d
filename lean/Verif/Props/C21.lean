import Verif.Lemmas.Sort

/-!
# C21 SearchFirst(n,f) and SearchLast(n,f) are correct on monotone predicates

`f` may panic (`none`) outside `0..n-1`, so the theorems also say that it is only called inside.
-/

namespace Verif

/-- **C21.** `SearchFirst(n, f)` on a false-then-true predicate. -/
theorem C21_first (n : Nat) (f : Nat → Option Bool) (p : Nat → Bool) (hf : ∀ i, i < n → f i = some (p i))
    (hmono : ∀ i j, i ≤ j → j < n → p i = true → p j = true) :
    ∃ r, searchFirstFn n f = some r ∧ r ≤ n ∧ (∀ i, i < n → (p i = true ↔ r ≤ i)) := by
  obtain ⟨r, e, _, h2, h3, h4⟩ := searchLoop_spec f 0 n (by omega) (fun m _ h => by simp [hf m h])
    (fun a b _ hab hb h => by
      rw [hf a (by omega)] at h; rw [hf b hb]
      exact congrArg some (hmono a b hab hb (Option.some.inj h)))
  refine ⟨r, e, h2, fun i hi => ?_⟩
  constructor
  · intro h
    apply Decidable.byContradiction
    intro hlt
    have := h3 i (by omega) (by omega)
    rw [hf i hi, h] at this; simp at this
  · intro h
    have := h4 i h hi
    rw [hf i hi] at this; exact Option.some.inj this

/-- **C21.** `SearchLast(n, f)` on a true-then-false predicate. -/
theorem C21_last (n : Nat) (f : Nat → Option Bool) (p : Nat → Bool) (hf : ∀ i, i < n → f i = some (p i))
    (hmono : ∀ i j, i ≤ j → j < n → p j = true → p i = true) :
    ∃ r, searchLastFn n f = some r ∧ -1 ≤ r ∧ r < n ∧ (∀ i : Nat, i < n → (p i = true ↔ (i : Int) ≤ r)) := by
  obtain ⟨r, e, h1, h2, h3, h4⟩ := searchLastLoop_spec f (-1) n (by omega) (by omega) (fun m _ h => by simp [hf m (by omega)])
    (fun a b _ hab hb h => by
      rw [hf b (by omega)] at h; rw [hf a (by omega)]
      exact congrArg some (hmono a b hab (by omega) (Option.some.inj h)))
  refine ⟨r, e, h1, h2, fun i hi => ?_⟩
  constructor
  · intro h
    apply Decidable.byContradiction
    intro hlt
    have := h4 i (by omega) (by omega)
    rw [hf i hi, h] at this; simp at this
  · intro h
    have := h3 i (by omega) h
    rw [hf i hi] at this; exact Option.some.inj this

/-- **C21.** On any predicate at all, both return an index in range and call `f` only with arguments in `0..n-1`:
what `f` does elsewhere has no effect. -/
theorem C21_calls_inside (n : Nat) (f g : Nat → Option Bool) (hfg : ∀ i, i < n → f i = g i) :
    searchFirstFn n f = searchFirstFn n g ∧ searchLastFn n f = searchLastFn n g := by
  constructor
  · simp only [searchFirstFn]
    suffices H : ∀ i j, j ≤ n → searchLoop f i j = searchLoop g i j from H 0 n (Nat.le_refl n)
    intro i j
    fun_induction searchLoop f i j with
    | case1 i j h m hm => intro hj; rw [searchLoop]; simp only [h, ↓reduceDIte]; rw [← hfg m (by omega), hm]
    | case2 i j h m hm ih => intro hj; rw [searchLoop.eq_1 g i j]; simp only [h, ↓reduceDIte]; rw [← hfg m (by omega), hm]; exact ih hj
    | case3 i j h m hm ih => intro hj; rw [searchLoop.eq_1 g i j]; simp only [h, ↓reduceDIte]; rw [← hfg m (by omega), hm]; exact ih (by omega)
    | case4 i j h => intro hj; rw [searchLoop]; simp only [h, ↓reduceDIte]
  · simp only [searchLastFn]
    suffices H : ∀ i j : Int, -1 ≤ i → j ≤ n → searchLastLoop f i j = searchLastLoop g i j from H (-1) n (by omega) (by omega)
    intro i j
    fun_induction searchLastLoop f i j with
    | case1 i j h m hm => intro hi hj; rw [searchLastLoop]; simp only [h, ↓reduceDIte]; rw [← hfg m.toNat (by omega), hm]
    | case2 i j h m hm ih => intro hi hj; rw [searchLastLoop.eq_1 g i j]; simp only [h, ↓reduceDIte]; rw [← hfg m.toNat (by omega), hm]; exact ih hi (by omega)
    | case3 i j h m hm ih => intro hi hj; rw [searchLastLoop.eq_1 g i j]; simp only [h, ↓reduceDIte]; rw [← hfg m.toNat (by omega), hm]; exact ih (by omega) hj
    | case4 i j h => intro hi hj; rw [searchLastLoop]; simp only [h, ↓reduceDIte]

/-- **C21.** If `f` never panics inside, neither do the searches, whether or not `f` is monotone. -/
theorem C21_terminates (n : Nat) (f : Nat → Option Bool) (hf : ∀ i, i < n → (f i).isSome = true) :
    (∃ r, searchFirstFn n f = some r ∧ r ≤ n) ∧ (∃ r, searchLastFn n f = some r ∧ -1 ≤ r ∧ (r < n ∨ r = -1)) := by
  constructor
  · simp only [searchFirstFn]
    suffices H : ∀ i j, i ≤ j → j ≤ n → ∃ r, searchLoop f i j = some r ∧ r ≤ n from H 0 n (by omega) (Nat.le_refl n)
    intro i j
    fun_induction searchLoop f i j with
    | case1 i j h m hm => intro hij hj; have := hf m (by omega); simp [hm] at this
    | case2 i j h m hm ih => intro hij hj; exact ih (by omega) hj
    | case3 i j h m hm ih => intro hij hj; exact ih (by omega) (by omega)
    | case4 i j h => intro hij hj; exact ⟨i, rfl, by omega⟩
  · simp only [searchLastFn]
    suffices H : ∀ i j : Int, -1 ≤ i → i < j → j ≤ n → ∃ r, searchLastLoop f i j = some r ∧ -1 ≤ r ∧ (r < n ∨ r = -1) from
      H (-1) n (by omega) (by omega) (by omega)
    intro i j
    fun_induction searchLastLoop f i j with
    | case1 i j h m hm => intro hi hij hj; have := hf m.toNat (by omega); simp [hm] at this
    | case2 i j h m hm ih => intro hi hij hj; exact ih hi (by omega) (by omega)
    | case3 i j h m hm ih => intro hi hij hj; exact ih (by omega) (by omega) hj
    | case4 i j h => intro hi hij hj; exact ⟨i, rfl, hi, by omega⟩

-- squares: the first i below 10 with i*i ≥ 20, and the last with i*i ≤ 20; outside 0..9 the predicate panics
example : searchFirstFn 10 (fun i => if i < 10 then some (decide (20 ≤ i * i)) else none) = some 5 := by decide +kernel
example : searchLastFn 10 (fun i => if i < 10 then some (decide (i * i ≤ 20)) else none) = some 4 := by decide +kernel
example : searchLastFn 10 (fun _ => some false) = some (-1) := by decide +kernel
example : ∀ i j : Nat, i ≤ j → j < 10 → decide (20 ≤ i * i) = true → decide (20 ≤ j * j) = true := by
  intro i j h _ h2
  simp only [decide_eq_true_eq] at *
  exact Nat.le_trans h2 (Nat.mul_le_mul h h)

end Verif
