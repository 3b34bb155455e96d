import Verif.Props.C03

/-!
# C09 DeleteCol removes exactly one column
-/

namespace Verif
open Table

variable {τ : Type}

/-- `t'` is `t` without the column `n`. -/
def ColRemoved (t t' : Table τ) (n : GoStr) : Prop :=
  t'.colNames = t.colNames.filter (fun m => m ≠ n) ∧
  (∀ m ty, m ≠ n → (HasColT t' m ty ↔ HasColT t m ty)) ∧
  (∀ m r c, m ≠ n → (At t' m r c ↔ At t m r c)) ∧
  t'.rows.length = t.rows.length ∧
  t'.name = t.name ∧ t'.sortKeys = t.sortKeys ∧ t'.isStructShape = t.isStructShape ∧ t'.isNilTable = t.isNilTable

theorem eraseIdx_eq_filter {l : List GoStr} (hnd : l.Nodup) {c : Nat} {n : GoStr} (hc : l[c]? = some n) :
    l.eraseIdx c = l.filter (fun m => m ≠ n) := by
  induction l generalizing c with
  | nil => simp at hc
  | cons a l ih =>
    rw [List.nodup_cons] at hnd
    cases c with
    | zero =>
      simp only [List.getElem?_cons_zero, Option.some.injEq] at hc
      subst hc
      simp only [List.eraseIdx_zero, List.tail_cons, ne_eq, decide_not]
      rw [List.filter_cons]
      simp only [decide_true, Bool.not_true, Bool.false_eq_true, if_false]
      rw [List.filter_eq_self.2]
      intro x hx
      simp only [Bool.not_eq_true', decide_eq_false_iff_not]
      rintro rfl; exact hnd.1 hx
    | succ c =>
      simp only [List.getElem?_cons_succ] at hc
      have hne : a ≠ n := by rintro rfl; exact hnd.1 (List.mem_of_getElem? hc)
      rw [List.eraseIdx_cons_succ, ih hnd.2 hc, List.filter_cons]
      simp [hne]

theorem col_removed {t : Table τ} (h : WF t) {c : Nat} {n : GoStr} (hc : t.colNames[c]? = some n) (m : GoMap) :
    ColRemoved t { t with colNames := t.colNames.eraseIdx c, colTypes := t.colTypes.eraseIdx c, colMap := m,
                          rows := t.rows.map (fun row => row.eraseIdx c) } n := by
  have idx : ∀ {i : Nat} {a : GoStr}, a ≠ n → t.colNames[i]? = some a → i ≠ c := by
    rintro i a hne hi rfl
    rw [hc] at hi; exact hne (Option.some.inj hi).symm
  refine ⟨eraseIdx_eq_filter h.namesNodup hc, ?_, ?_, by simp, rfl, rfl, rfl, rfl⟩
  · intro a ty hne
    constructor
    · rintro ⟨i, hi, hty⟩
      simp only [List.getElem?_eraseIdx] at hi hty
      split at hi
      · rename_i hlt; rw [if_pos hlt] at hty; exact ⟨i, hi, hty⟩
      · rename_i hlt; rw [if_neg hlt] at hty; exact ⟨i + 1, hi, hty⟩
    · rintro ⟨i, hi, hty⟩
      have := idx hne hi
      by_cases hlt : i < c
      · exact ⟨i, by simp [List.getElem?_eraseIdx, hlt, hi], by simp [List.getElem?_eraseIdx, hlt, hty]⟩
      · refine ⟨i - 1, ?_, ?_⟩
        · simp only [List.getElem?_eraseIdx]; rw [if_neg (by omega), show i - 1 + 1 = i by omega]; exact hi
        · simp only [List.getElem?_eraseIdx]; rw [if_neg (by omega), show i - 1 + 1 = i by omega]; exact hty
  · intro a r x hne
    constructor
    · rintro ⟨i, row, hi, hrow, hx⟩
      simp only [List.getElem?_map, Option.map_eq_some_iff] at hrow
      obtain ⟨row', h1, rfl⟩ := hrow
      simp only [List.getElem?_eraseIdx] at hi hx
      split at hi
      · rename_i hlt; rw [if_pos hlt] at hx; exact ⟨i, row', hi, h1, hx⟩
      · rename_i hlt; rw [if_neg hlt] at hx; exact ⟨i + 1, row', hi, h1, hx⟩
    · rintro ⟨i, row, hi, hrow, hx⟩
      have := idx hne hi
      by_cases hlt : i < c
      · exact ⟨i, row.eraseIdx c, by simp [List.getElem?_eraseIdx, hlt, hi], by simp [hrow],
          by simp [List.getElem?_eraseIdx, hlt, hx]⟩
      · refine ⟨i - 1, row.eraseIdx c, ?_, by simp [hrow], ?_⟩
        · simp only [List.getElem?_eraseIdx]; rw [if_neg (by omega), show i - 1 + 1 = i by omega]; exact hi
        · simp only [List.getElem?_eraseIdx]; rw [if_neg (by omega), show i - 1 + 1 = i by omega]; exact hx

/-- **C09** for `DeleteCol`. -/
theorem C09_deleteCol (t : Table τ) (h : WF t) (n : GoStr) :
    (n ∈ t.colNames → (t.deleteCol n).2 = .ok () ∧ ColRemoved t (t.deleteCol n).1 n ∧ WF (t.deleteCol n).1) ∧
    (n ∉ t.colNames → (∃ e, (t.deleteCol n).2 = .err e) ∧ (t.deleteCol n).1 = t) := by
  have hw := h.deleteCol n
  rcases h.colIndex_cases n with ⟨i, hi, hix⟩ | ⟨hi, hix⟩
  · have hlt := (List.getElem?_eq_some_iff.1 hi).1
    refine ⟨fun _ => ?_, fun hn => absurd (List.mem_of_getElem? hi) hn⟩
    obtain ⟨n', hn', e⟩ := deleteColByColIndex_eq h hlt
    rw [hi] at hn'; cases hn'
    have e1 : t.deleteCol n = t.deleteColByColIndex i := by simp [deleteCol, hix]
    rw [e1] at hw ⊢
    refine ⟨by rw [e], ?_, hw⟩
    rw [e]; exact col_removed h hi _
  · refine ⟨fun hn => absurd hn hi, fun _ => ?_⟩
    have e : t.deleteCol n = (t, .err .noCol) := by simp [deleteCol, hix]
    rw [e]; exact ⟨⟨_, rfl⟩, rfl⟩

/-- **C09** for `DeleteColByColIndex`. -/
theorem C09_deleteColByColIndex (t : Table τ) (h : WF t) (c : Int) :
    (0 ≤ c ∧ c < t.colNames.length → ∃ n, t.colName c = .ok n ∧
      (t.deleteColByColIndex c).2 = .ok () ∧ ColRemoved t (t.deleteColByColIndex c).1 n) ∧
    (¬ (0 ≤ c ∧ c < t.colNames.length) →
      (∃ e, (t.deleteColByColIndex c).2 = .err e) ∧ (t.deleteColByColIndex c).1 = t) := by
  constructor
  · rintro ⟨h0, h1⟩
    obtain ⟨ci, rfl⟩ := Int.eq_ofNat_of_zero_le h0
    obtain ⟨n, hn, e⟩ := deleteColByColIndex_eq h (c := ci) (by omega)
    refine ⟨n, colName_nat hn, by rw [e], ?_⟩
    rw [e]; exact col_removed h hn _
  · intro hno
    have e : t.deleteColByColIndex c = (t, .err .noCol) := if_pos (by simp only [colCount]; omega)
    rw [e]; exact ⟨⟨_, rfl⟩, rfl⟩

example : gs! "age" ∈ Ex.t.colNames ∧ gs! "x" ∉ Ex.t.colNames := by rw [Ex.t_eq]; decide +kernel
example : (Ex.t.deleteCol (gs! "age")).1.getVal (gs! "w") 1 = .ok (.f64 0x3ff0000000000000#64) := by decide +kernel
example : (Ex.t.deleteCol (gs! "age")).1.getVal (gs! "age") 1 = .err .noCol := by decide +kernel

end Verif
