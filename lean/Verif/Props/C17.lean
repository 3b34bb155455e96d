import Verif.Lemmas.GoSort
import Verif.Props.C23
import Verif.Props.C16

/-!
# C17 Sort yields a permutation sorted by the keys
-/

namespace Verif
open Table

variable {τ : Type}

theorem lessByKeys_congr (lower : GoStr → GoStr) (t : Table τ) (rows : List (List (Cell τ))) (ks : List SortKey) (a b : List (Cell τ)) :
    ({ t with rows := rows } : Table τ).lessByKeys lower ks a b = t.lessByKeys lower ks a b := by
  induction ks with
  | nil => rfl
  | cons k ks ih => simp only [lessByKeys, colIndex, ih]

theorem sortByKeys_ok (srt : GoSort (List (Cell τ))) (lower : GoStr → GoStr) (t : Table τ) (h : WF t)
    (hlive : KeysLive t) (hnan : KeysNotNaN t) :
    ∃ rows, t.sortByKeys srt lower = ({ t with rows := rows }, .ok ()) ∧ rows.Perm t.rows ∧
      SortedByKeys lower { t with rows := rows } := by
  have hs : ∀ k ∈ t.sortKeys, k.colType.Sortable = true := fun k hk => (h.keysOK k hk).1
  have key : ∀ a ∈ t.rows, ∃ i as, t.rows[i]? = some a ∧ KeyCells t i t.sortKeys as ∧ GoodVals t.sortKeys as := by
    intro a ha
    obtain ⟨i, hi⟩ := List.getElem?_of_mem ha
    obtain ⟨as, h1, h2⟩ := keyCells_exists h (List.getElem?_eq_some_iff.1 hi).1 t.sortKeys hlive hs
    exact ⟨i, as, hi, h1, h1.good h2 hnan⟩
  have htot : ∀ a ∈ t.rows, ∀ b ∈ t.rows, (t.lessByKeys lower t.sortKeys a b).isSome = true := by
    intro a ha b hb
    obtain ⟨i, as, hi, h1, h2⟩ := key a ha
    obtain ⟨j, bs, hj, g1, g2⟩ := key b hb
    rw [lessByKeys_eq lower h hi hj h1 g1 h2.typed g2.typed]; rfl
  have hnp := srt.noPanic _ _ htot
  cases hrun : srt.run (t.lessByKeys lower t.sortKeys) t.rows with
  | none => rw [hrun] at hnp; cases hnp
  | some rows =>
    have hperm := srt.perm _ _ _ hrun
    have hsorted := srt.sorted _ _ _ hrun htot
      (by
        intro a ha b hb hab
        obtain ⟨i, as, hi, h1, h2⟩ := key a ha
        obtain ⟨j, bs, hj, g1, g2⟩ := key b hb
        rw [lessByKeys_eq lower h hi hj h1 g1 h2.typed g2.typed] at hab
        rw [lessByKeys_eq lower h hj hi g1 h1 g2.typed h2.typed]
        have := lexCmp_anti lower h2.typed g2.typed
        simp only [Option.some.injEq, decide_eq_true_eq, decide_eq_false_iff_not] at hab ⊢
        omega)
      (by
        intro a ha b hb c hc hab hbc
        obtain ⟨i, as, hi, h1, h2⟩ := key a ha
        obtain ⟨j, bs, hj, g1, g2⟩ := key b hb
        obtain ⟨l, cs, hl, f1, f2⟩ := key c hc
        rw [lessByKeys_eq lower h hi hj h1 g1 h2.typed g2.typed] at hab
        rw [lessByKeys_eq lower h hj hl g1 f1 g2.typed f2.typed] at hbc
        rw [lessByKeys_eq lower h hi hl h1 f1 h2.typed f2.typed]
        have e1 := lexCmp_anti lower h2.typed g2.typed
        have e2 := lexCmp_anti lower g2.typed f2.typed
        have e3 := lexCmp_anti lower h2.typed f2.typed
        simp only [Option.some.injEq, decide_eq_false_iff_not] at hab hbc ⊢
        have := lexCmp_trans lower f2 g2 h2 (by omega) (by omega)
        omega)
    refine ⟨rows, by simp only [sortByKeys, hrun], hperm, ?_⟩
    have hw : WF { t with rows := rows } := h.subRows (fun r hr => hperm.mem_iff.1 hr)
    intro i j hij hj
    simp only at hj
    have hl : ∀ k ∈ t.sortKeys, HasColT { t with rows := rows } k.colName k.colType := hlive
    obtain ⟨as, a1, a2⟩ := keyCells_exists hw (r := i) (by simp only; omega) t.sortKeys hl hs
    obtain ⟨bs, b1, b2⟩ := keyCells_exists hw (r := j) hj t.sortKeys hl hs
    rw [rowBefore_iff lower hw b1 a1 b2 a2]
    have hp := List.pairwise_iff_getElem.1 hsorted i j (by omega) hj hij
    rw [← lessByKeys_congr lower t rows, lessByKeys_eq lower hw (List.getElem?_eq_getElem hj) (List.getElem?_eq_getElem (Nat.lt_trans hij hj)) b1 a1 b2 a2] at hp
    simpa using hp

/-- **C17.** `Sort()`: a permutation of the rows, sorted by the keys; nothing else changes.  `srt` is any implementation of
`sort.Sort` meeting its contract, `lower` is `strings.ToLower`. -/
theorem C17_sort (srt : GoSort (List (Cell τ))) (lower : GoStr → GoStr) (t : Table τ) (h : WF t)
    (hne : t.sortKeys ≠ []) (hlive : KeysLive t) (hnan : KeysNotNaN t) :
    (t.sort srt lower []).2 = .ok () ∧ SameHeader t (t.sort srt lower []).1 ∧
    (t.sort srt lower []).1.rows.Perm t.rows ∧ SortedByKeys lower (t.sort srt lower []).1 := by
  obtain ⟨rows, e, h1, h2⟩ := sortByKeys_ok srt lower t h hlive hnan
  have : t.sort srt lower [] = ({ t with rows := rows }, .ok ()) := by
    simp only [sort, List.length_nil, Nat.lt_irrefl, gt_iff_lt, if_false]
    rw [if_neg (by simpa using hne), e]
  rw [this]
  exact ⟨rfl, by simp [SameHeader], h1, h2⟩

/-- **C17.** `Sort(cols...)` and `SortSimple(cols...)`: the named columns become the ascending keys, and the table is sorted by them. -/
theorem C17_sort_cols (srt : GoSort (List (Cell τ))) (lower : GoStr → GoStr) (t : Table τ) (h : WF t) (names : List GoStr)
    (hne : names ≠ []) (hcols : ∀ n ∈ names, SortableCol t n)
    (hnan : ∀ n ∈ names, ∀ r v, At t n r v → ¬ v.IsNaN) :
    ∃ t', t.sort srt lower names = (t', .ok ()) ∧ t.sortSimple srt lower names = (t', .ok ()) ∧
      AscendingKeys t names t'.sortKeys ∧ t'.rows.Perm t.rows ∧ SortedByKeys lower t' ∧
      SameHeader { t with sortKeys := t'.sortKeys } t' := by
  obtain ⟨h1, h2, _⟩ := C23_setSortKeys t h names
  have hok := h1.2 hcols
  obtain ⟨keys, e, hk⟩ := h2 hok
  have e2 : t.setSortKeys names = ({ t with sortKeys := keys }, .ok ()) := by rw [← e, ← hok]
  have hw : WF { t with sortKeys := keys } := e ▸ h.setSortKeys names
  have hmem : ∀ k ∈ keys, k.colName ∈ names := fun k hk' => by
    rw [← hk.1]; exact List.mem_map.2 ⟨k, hk', rfl⟩
  obtain ⟨rows, e3, g1, g2⟩ := sortByKeys_ok srt lower { t with sortKeys := keys } hw
    (fun k hk' => (hk.2 k hk').1) (fun k hk' => hnan k.colName (hmem k hk'))
  have hkne : keys ≠ [] := by rintro rfl; exact hne hk.1.symm
  have hlen : names.length > 0 := List.length_pos_iff.2 hne
  refine ⟨{ t with sortKeys := keys, rows := rows }, ?_, ?_, hk, g1, g2, by simp [SameHeader]⟩
  · simp only [sort, hlen, if_true, e2]
    rw [if_neg (by simpa using hkne), e3]
  · simp only [sortSimple]
    rw [if_neg (by omega)]
    simp only [e2, e3]

/-- **C17.** `Sort()` on a table without sort keys is an error and changes nothing; so is `SortSimple()` without columns. -/
theorem C17_no_keys (srt : GoSort (List (Cell τ))) (lower : GoStr → GoStr) (t : Table τ) (hno : t.sortKeys = []) :
    t.sort srt lower [] = (t, .err .noSortKeys) ∧ t.sortSimple srt lower [] = (t, .err .noSortKeys) := by
  constructor
  · simp [sort, hno]
  · simp [sortSimple]

-- the example table meets the hypotheses; sorted by age, descending age, and by name
example : Ex.t.sortKeys ≠ [] ∧ KeysLive Ex.t ∧ KeysNotNaN Ex.t := by
  refine ⟨by decide +kernel, ?_, ?_⟩
  · intro k hk
    rw [Ex.t_eq] at hk ⊢
    simp only [List.mem_singleton] at hk
    subst hk
    exact ⟨1, rfl, rfl⟩
  · intro k hk r v ⟨i, row, h1, h2, h3⟩ hn
    rw [Ex.t_eq] at hk h1 h2
    simp only [List.mem_singleton] at hk
    subst hk
    have hi : i = 1 := by
      match i, h1 with
      | 0, h1 => exact absurd h1 (by decide)
      | 1, _ => rfl
      | 2, h1 => exact absurd h1 (by decide)
      | i + 3, h1 => simp at h1
    subst hi
    match r, h2 with
    | 0, h2 => cases h2; cases h3; exact hn
    | 1, h2 => cases h2; cases h3; exact hn
    | 2, h2 => cases h2; cases h3; exact hn
    | r + 3, h2 => simp at h2
example : (Ex.t.sort (insertionSort _) Ex.asciiLower []).1.rows.map (·.take 2) =
    [[.str (gs! "Al"), .int .int (-7)], [.str (gs! "cy"), .int .int 30], [.str (gs! "bob"), .int .int 30]] := by decide +kernel
example : (Ex.t.sort (insertionSort _) Ex.asciiLower [gs! "w", gs! "name"]).1.rows.map (·.take 1) =
    [[.str (gs! "bob")], [.str (gs! "cy")], [.str (gs! "Al")]] := by decide +kernel

end Verif
