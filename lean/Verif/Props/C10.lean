import Verif.Props.C03

/-!
# C10 RenameCol changes only the name
-/

namespace Verif
open Table

variable {τ : Type}

/-- `t'` is `t` with column `a` called `b`. -/
def ColRenamed (t t' : Table τ) (a b : GoStr) : Prop :=
  t'.colNames = t.colNames.map (fun m => if m = a then b else m) ∧ t'.colTypes = t.colTypes ∧ t'.rows = t.rows ∧
  (∀ r c, At t' b r c ↔ At t a r c) ∧ (∀ r c, ¬ At t' a r c) ∧
  (∀ m r c, m ≠ a → m ≠ b → (At t' m r c ↔ At t m r c)) ∧
  t'.name = t.name ∧ t'.sortKeys = t.sortKeys ∧ t'.isStructShape = t.isStructShape ∧ t'.isNilTable = t.isNilTable

theorem set_eq_map {l : List GoStr} (hnd : l.Nodup) {i : Nat} {a b : GoStr} (hi : l[i]? = some a) :
    l.set i b = l.map (fun m => if m = a then b else m) := by
  apply List.ext_getElem?
  intro k
  rw [List.getElem?_set, List.getElem?_map]
  have hlt := (List.getElem?_eq_some_iff.1 hi).1
  by_cases hk : i = k
  · subst hk; rw [if_pos rfl, if_pos hlt, hi]; simp
  · rw [if_neg hk]
    rcases hx : l[k]? with _ | x
    · rfl
    · have : x ≠ a := by rintro rfl; exact hk (nodup_inj hnd hi hx)
      simp [this]

theorem col_renamed {t : Table τ} (h : WF t) {i : Nat} {a b : GoStr} (hi : t.colNames[i]? = some a) (hb : b ∉ t.colNames)
    (m : GoMap) : ColRenamed t { t with colNames := t.colNames.set i b, colMap := m } a b := by
  have hlt := (List.getElem?_eq_some_iff.1 hi).1
  have hab : a ≠ b := by rintro rfl; exact hb (List.mem_of_getElem? hi)
  refine ⟨set_eq_map h.namesNodup hi, rfl, rfl, ?_, ?_, ?_, rfl, rfl, rfl, rfl⟩
  · intro r c
    constructor
    · rintro ⟨j, row, hj, hrow, hc⟩
      simp only [List.getElem?_set] at hj
      split at hj
      · rename_i e; subst e; exact ⟨i, row, hi, hrow, hc⟩
      · exact absurd (List.mem_of_getElem? hj) hb
    · rintro ⟨j, row, hj, hrow, hc⟩
      have := h.map_unique hi hj
      subst this
      exact ⟨i, row, by simp [hlt], hrow, hc⟩
  · rintro r c ⟨j, row, hj, hrow, hc⟩
    simp only [List.getElem?_set] at hj
    split at hj
    · exact hab (Option.some.inj hj).symm
    · rename_i hne; exact hne (h.map_unique hi hj)
  · intro n r c h1 h2
    constructor
    · rintro ⟨j, row, hj, hrow, hc⟩
      simp only [List.getElem?_set] at hj
      split at hj
      · exact absurd (Option.some.inj hj).symm h2
      · exact ⟨j, row, hj, hrow, hc⟩
    · rintro ⟨j, row, hj, hrow, hc⟩
      have : i ≠ j := by rintro rfl; rw [hi] at hj; exact h1 (Option.some.inj hj).symm
      exact ⟨j, row, by simp [this, hj], hrow, hc⟩

/-- **C10** for `RenameCol`. -/
theorem C10_renameCol (t : Table τ) (h : WF t) (a b : GoStr) :
    (a ∈ t.colNames ∧ b ∉ t.colNames ∧ isValidColName b = true →
      (t.renameCol a b).2 = .ok () ∧ ColRenamed t (t.renameCol a b).1 a b ∧ WF (t.renameCol a b).1) ∧
    (¬ (a ∈ t.colNames ∧ b ∉ t.colNames ∧ isValidColName b = true) →
      (∃ e, (t.renameCol a b).2 = .err e) ∧ (t.renameCol a b).1 = t) := by
  have hw := h.renameCol a b
  rcases renameCol_cases h a b with ⟨i, h1, h2, h3, e⟩ | ⟨hno, e, he⟩
  · refine ⟨fun _ => ⟨by rw [e], ?_, hw⟩, fun hno => absurd ⟨List.mem_of_getElem? h1, h2, h3⟩ hno⟩
    rw [e]; exact col_renamed h h1 h2 _
  · exact ⟨fun h' => absurd h' hno, fun _ => by rw [he]; exact ⟨⟨e, rfl⟩, rfl⟩⟩

/-- **C10** for `RenameColByColIndex`: it renames the column at that index, and fails outside the range. -/
theorem C10_renameColByColIndex (t : Table τ) (c : Int) (b : GoStr) :
    (∀ (i : Nat) (a : GoStr), c = i → t.colNames[i]? = some a → t.renameColByColIndex c b = t.renameCol a b) ∧
    (¬ (0 ≤ c ∧ c < t.colNames.length) → t.renameColByColIndex c b = (t, .err .noCol)) := by
  constructor
  · rintro i a rfl hi
    simp [renameColByColIndex, colName_nat hi]
  · intro hno
    have : t.colName c = .err .noCol := if_pos (by simp only [colCount]; omega)
    simp [renameColByColIndex, this]

example : gs! "age" ∈ Ex.t.colNames ∧ gs! "years" ∉ Ex.t.colNames ∧ isValidColName (gs! "years") = true := by
  rw [Ex.t_eq]; decide +kernel
example : (Ex.t.renameCol (gs! "age") (gs! "years")).1.getVal (gs! "years") 1 = .ok (.int .int (-7)) := by decide +kernel
example : (Ex.t.renameCol (gs! "age") (gs! "w")).2 = .err .dupCol := by decide +kernel

end Verif
