import Verif.Model.Util

/-!
# C51 Uint8SliceEquals is equality
-/

namespace Verif

theorem bytesLoop_spec (l1 l2 : List UInt8) (hl : l1.length = l2.length) (is : List Nat) (his : ∀ i ∈ is, i < l1.length) :
    ((∀ i ∈ is, l1[i]? = l2[i]?) → bytesLoop l1 l2 is = .ok ()) ∧
    (¬ (∀ i ∈ is, l1[i]? = l2[i]?) → bytesLoop l1 l2 is = .err .notEqual) := by
  induction is with
  | nil => simp [bytesLoop]
  | cons i is ih =>
    have hi := his i (by simp)
    have ih := ih (fun j hj => his j (by simp [hj]))
    have e1 := List.getElem?_eq_getElem hi
    have e2 := List.getElem?_eq_getElem (show i < l2.length by omega)
    by_cases he : l1[i] = l2[i]
    · have hst : bytesLoop l1 l2 (i :: is) = bytesLoop l1 l2 is := by simp [bytesLoop, e1, e2, he]
      rw [hst]
      have : (∀ j ∈ i :: is, l1[j]? = l2[j]?) ↔ ∀ j ∈ is, l1[j]? = l2[j]? := by
        simp [e1, e2, he]
      rw [this]
      exact ih
    · have hst : bytesLoop l1 l2 (i :: is) = .err .notEqual := by simp [bytesLoop, e1, e2, he]
      refine ⟨fun h => ?_, fun _ => hst⟩
      have := h i (by simp)
      rw [e1, e2] at this
      exact absurd (by simpa using this) he

/-- **C51**: true exactly if the slices are the same (nil only equals nil); otherwise false with an error; never a panic. -/
theorem C51_uint8SliceEquals (a b : Option (List UInt8)) :
    (a = b → uint8SliceEquals a b = .ok ()) ∧ (a ≠ b → ∃ e, uint8SliceEquals a b = .err e) := by
  match a, b with
  | none, none => simp [uint8SliceEquals, bytesLoop]
  | none, some y => simp [uint8SliceEquals]
  | some x, none => simp [uint8SliceEquals]
  | some x, some y =>
    simp only [uint8SliceEquals, Option.isNone_some, Option.getD_some]
    by_cases hl : x.length = y.length
    · obtain ⟨h1, h2⟩ := bytesLoop_spec x y hl (List.range x.length) (by simp)
      have hiff : (∀ i ∈ List.range x.length, x[i]? = y[i]?) ↔ x = y := by
        constructor
        · intro h
          apply List.ext_getElem?
          intro i
          by_cases hi : i < x.length
          · exact h i (List.mem_range.2 hi)
          · rw [List.getElem?_eq_none (by omega), List.getElem?_eq_none (by omega)]
        · rintro rfl; simp
      rw [hiff] at h1 h2
      simp [hl]
      rw [hl] at h1 h2
      exact ⟨h1, fun h => ⟨_, h2 h⟩⟩
    · simp [hl]
      rintro rfl; exact hl rfl

example : uint8SliceEquals (some [1, 2, 3]) (some [1, 2, 3]) = .ok () := (C51_uint8SliceEquals _ _).1 rfl
example : ∃ e, uint8SliceEquals (some [1, 2, 3]) (some [1, 2, 4]) = .err e := (C51_uint8SliceEquals _ _).2 (by decide)
example : ∃ e, uint8SliceEquals none (some []) = .err e := (C51_uint8SliceEquals _ _).2 (by decide)

end Verif
