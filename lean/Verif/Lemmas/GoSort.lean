import Verif.Model.Sort

/-! # The contract of `sort.Sort` can be met: insertion sort -/

namespace Verif

variable {α : Type}

/-- Insert `x` before the first element it is less than. -/
def insSorted (less : α → α → Option Bool) (x : α) : List α → Option (List α)
  | [] => some [x]
  | y :: ys =>
    match less x y with
    | none => none
    | some true => some (x :: y :: ys)
    | some false => (insSorted less x ys).map (y :: ·)

/-- Insertion sort. -/
def insSort (less : α → α → Option Bool) : List α → Option (List α)
  | [] => some []
  | x :: xs => (insSort less xs).bind (insSorted less x)

theorem insSorted_perm {less : α → α → Option Bool} {x : α} {l l' : List α} (h : insSorted less x l = some l') :
    l'.Perm (x :: l) := by
  induction l generalizing l' with
  | nil => simp [insSorted] at h; subst h; exact List.Perm.refl _
  | cons y ys ih =>
    simp only [insSorted] at h
    split at h
    · cases h
    · cases h; exact List.Perm.refl _
    · simp only [Option.map_eq_some_iff] at h
      obtain ⟨m, hm, rfl⟩ := h
      exact ((ih hm).cons y).trans (List.Perm.swap x y ys)

theorem insSort_perm {less : α → α → Option Bool} {l l' : List α} (h : insSort less l = some l') : l'.Perm l := by
  induction l generalizing l' with
  | nil => simp [insSort] at h; subst h; exact List.Perm.refl _
  | cons x xs ih =>
    simp only [insSort, Option.bind_eq_some_iff] at h
    obtain ⟨m, hm, h⟩ := h
    exact (insSorted_perm h).trans ((ih hm).cons x)

theorem insSorted_noPanic {less : α → α → Option Bool} {x : α} {l : List α} (h : ∀ b ∈ l, (less x b).isSome = true) :
    (insSorted less x l).isSome = true := by
  induction l with
  | nil => rfl
  | cons y ys ih =>
    have hy := h y (by simp)
    have := ih (fun b hb => h b (List.mem_cons_of_mem _ hb))
    simp only [insSorted]
    cases e : less x y with
    | none => simp [e] at hy
    | some v => cases v <;> simp [this]

theorem insSort_noPanic {less : α → α → Option Bool} {l : List α} (h : ∀ a ∈ l, ∀ b ∈ l, (less a b).isSome = true) :
    (insSort less l).isSome = true := by
  induction l with
  | nil => rfl
  | cons x xs ih =>
    have h1 := ih (fun a ha b hb => h a (List.mem_cons_of_mem _ ha) b (List.mem_cons_of_mem _ hb))
    simp only [insSort]
    cases e : insSort less xs with
    | none => simp [e] at h1
    | some m =>
      simp only [Option.bind_some]
      exact insSorted_noPanic fun b hb =>
        h x (by simp) b (List.mem_cons_of_mem _ ((insSort_perm e).mem_iff.1 hb))

theorem insSorted_sorted {less : α → α → Option Bool} {x : α} {l l' : List α} (h : insSorted less x l = some l')
    (hasym : ∀ b ∈ l, less x b = some true → less b x = some false)
    (htr : ∀ a ∈ l, ∀ b ∈ l, less a b = some false → less b x = some false → less a x = some false)
    (hs : l.Pairwise (fun a b => less b a = some false)) : l'.Pairwise (fun a b => less b a = some false) := by
  induction l generalizing l' with
  | nil => simp [insSorted] at h; subst h; simp
  | cons y ys ih =>
    rw [List.pairwise_cons] at hs
    simp only [insSorted] at h
    split at h
    · cases h
    · rename_i e
      cases h
      have hyx := hasym y (by simp) e
      refine List.pairwise_cons.2 ⟨?_, List.pairwise_cons.2 hs⟩
      intro b hb
      rcases List.mem_cons.1 hb with rfl | hb
      · exact hyx
      · exact htr b (by simp [hb]) y (by simp) (hs.1 b hb) hyx
    · rename_i e
      simp only [Option.map_eq_some_iff] at h
      obtain ⟨m, hm, rfl⟩ := h
      refine List.pairwise_cons.2 ⟨?_, ih hm (fun b hb => hasym b (by simp [hb]))
        (fun a ha b hb => htr a (by simp [ha]) b (by simp [hb])) hs.2⟩
      intro b hb
      rcases List.mem_cons.1 ((insSorted_perm hm).mem_iff.1 hb) with rfl | hb
      · exact e
      · exact hs.1 b hb

/-- Insertion sort meets the contract of `sort.Sort`. -/
def insertionSort (α : Type) : GoSort α where
  run := insSort
  perm _ _ _ h := insSort_perm h
  noPanic _ _ h := insSort_noPanic h
  sorted := by
    intro less l l' h htot hasym htr
    clear htot
    induction l generalizing l' with
    | nil => simp [insSort] at h; subst h; simp
    | cons x xs ih =>
      simp only [insSort, Option.bind_eq_some_iff] at h
      obtain ⟨m, hm, h⟩ := h
      have hmem : ∀ b ∈ m, b ∈ x :: xs := fun b hb => List.mem_cons_of_mem _ ((insSort_perm hm).mem_iff.1 hb)
      exact insSorted_sorted h (fun b hb => hasym x (by simp) b (hmem b hb))
        (fun a ha b hb => htr a (hmem a ha) b (hmem b hb) x (by simp))
        (ih m hm (fun a ha b hb => hasym a (by simp [ha]) b (by simp [hb]))
          (fun a ha b hb c hc => htr a (by simp [ha]) b (by simp [hb]) c (by simp [hc])))
  panics := by
    intro less l hl hn
    match l, hl with
    | x :: y :: ys, _ =>
      simp only [insSort, Option.bind_eq_none_iff]
      intro m hm
      have hp := insSort_perm (l := y :: ys) (l' := m) hm
      cases m with
      | nil => exact absurd hp.length_eq (by simp)
      | cons z zs =>
        have : z ∈ y :: ys := hp.mem_iff.1 (by simp)
        simp [insSorted, hn x (by simp) z (List.mem_cons_of_mem _ this)]

end Verif
