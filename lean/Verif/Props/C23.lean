import Verif.Lemmas.Sort
import Verif.Props.Example

/-!
# C23 SetSortKeys sets exactly the requested keys, and C49 what happens when it fails
-/

namespace Verif
open Table

variable {τ : Type}

/-- `n` is a column of a sortable type. -/
def SortableCol (t : Table τ) (n : GoStr) : Prop := ∃ ty, HasColT t n ty ∧ ty.Sortable = true

/-- `keys` are ascending keys for exactly the columns `names`, in this order. -/
def AscendingKeys (t : Table τ) (names : List GoStr) (keys : List SortKey) : Prop :=
  keys.map (·.colName) = names ∧ ∀ k ∈ keys, HasColT t k.colName k.colType ∧ k.colType.Sortable = true ∧ k.reverse = false

theorem appendSortKey_cases {t : Table τ} (h : WF t) (n : GoStr) :
    (∃ ty, HasColT t n ty ∧ ty.Sortable = true ∧
      t.appendSortKey n = ({ t with sortKeys := t.sortKeys ++ [{ colName := n, colType := ty, reverse := false }] }, .ok ())) ∨
    (¬ SortableCol t n ∧ ∃ e, t.appendSortKey n = (t, .err e)) := by
  simp only [appendSortKey]
  rcases getColInfo_cases h n with ⟨i, ty, hi, hty, e⟩ | ⟨hn, e⟩
  · rw [e]
    simp only [hasCompareFn_eq]
    cases hs : ty.Sortable with
    | true => left; exact ⟨ty, ⟨i, hi, hty⟩, hs, by simp [hs]⟩
    | false =>
      right
      refine ⟨?_, _, if_pos rfl⟩
      rintro ⟨ty', h1, h2⟩
      rw [HasColT.unique h h1 ⟨i, hi, hty⟩, hs] at h2
      cases h2
  · rw [e]; right
    refine ⟨?_, _, rfl⟩
    rintro ⟨ty, ⟨i, hi, _⟩, _⟩
    exact hn (List.mem_of_getElem? hi)

/-- The loop of `SetSortKeys` up to its end or its first error. -/
theorem appendKeys_cases {t : Table τ} (h : WF t) (names : List GoStr) :
    (∃ keys, AscendingKeys t names keys ∧
      forEach (fun (n : GoStr) (t : Table τ) => t.appendSortKey n) names t = ({ t with sortKeys := t.sortKeys ++ keys }, .ok ())) ∨
    (∃ pre n post keys e, names = pre ++ n :: post ∧ ¬ SortableCol t n ∧ AscendingKeys t pre keys ∧
      forEach (fun (n : GoStr) (t : Table τ) => t.appendSortKey n) names t = ({ t with sortKeys := t.sortKeys ++ keys }, .err e)) := by
  induction names generalizing t with
  | nil => left; exact ⟨[], ⟨rfl, by simp⟩, by simp [forEach]⟩
  | cons n ns ih =>
    rcases appendSortKey_cases h n with ⟨ty, h1, h2, e⟩ | ⟨hno, x, e⟩
    · have hw : WF (t.appendSortKey n).1 := h.appendSortKey n
      rw [e] at hw
      rcases ih hw with ⟨keys, hk, e'⟩ | ⟨pre, m, post, keys, x, rfl, hno, hk, e'⟩
      · left
        refine ⟨⟨n, ty, false⟩ :: keys, ⟨by simp [hk.1], ?_⟩, ?_⟩
        · intro k hk'
          rcases List.mem_cons.1 hk' with rfl | hk'
          · exact ⟨h1, h2, rfl⟩
          · exact hk.2 k hk'
        · rw [forEach_cons_ok e, e']; simp
      · right
        refine ⟨n :: pre, m, post, ⟨n, ty, false⟩ :: keys, x, by simp, hno, ⟨by simp [hk.1], ?_⟩, ?_⟩
        · intro k hk'
          rcases List.mem_cons.1 hk' with rfl | hk'
          · exact ⟨h1, h2, rfl⟩
          · exact hk.2 k hk'
        · rw [forEach_cons_ok e, e']; simp
    · right
      exact ⟨[], n, ns, [], x, rfl, hno, ⟨rfl, by simp⟩, by simp [forEach, e]⟩

/-- **C23.** `SetSortKeys(names)` succeeds iff every name is a column of a sortable type; then the keys are exactly these columns
in this order, ascending, and nothing else changes. -/
theorem C23_setSortKeys (t : Table τ) (h : WF t) (names : List GoStr) :
    ((t.setSortKeys names).2 = .ok () ↔ ∀ n ∈ names, SortableCol t n) ∧
    ((t.setSortKeys names).2 = .ok () →
      ∃ keys, (t.setSortKeys names).1 = { t with sortKeys := keys } ∧ AscendingKeys t names keys) ∧
    (t.setSortKeys names).2 ≠ .panic := by
  have hw : WF { t with sortKeys := [] } := h.withKeys (by simp)
  rcases appendKeys_cases hw names with ⟨keys, hk, e⟩ | ⟨pre, m, post, keys, x, rfl, hno, hk, e⟩
  · simp only [setSortKeys, e]
    refine ⟨⟨fun _ n hn => ?_, fun _ => trivial⟩, fun _ => ⟨keys, by simp, hk⟩, by simp⟩
    rw [← hk.1] at hn
    obtain ⟨k, hk1, rfl⟩ := List.mem_map.1 hn
    exact ⟨k.colType, (hk.2 k hk1).1, (hk.2 k hk1).2.1⟩
  · simp only [setSortKeys, e]
    refine ⟨⟨fun h => (by cases h), fun hall => ?_⟩, fun h => (by cases h), by simp⟩
    exact absurd (hall m (by simp)) hno

/-- A key with the named keys turned descending. -/
def reverseNamed (names : List GoStr) (k : SortKey) : SortKey := if k.colName ∈ names then { k with reverse := true } else k

theorem setSortKeysReverse_ok (t : Table τ) (names : List GoStr)
    (hall : ∀ n ∈ names, ∃ k ∈ t.sortKeys, k.colName = n) :
    t.setSortKeysReverse names = ({ t with sortKeys := t.sortKeys.map (reverseNamed names) }, .ok ()) := by
  induction names generalizing t with
  | nil =>
    have : (reverseNamed [] : SortKey → SortKey) = id := by funext k; simp [reverseNamed]
    simp [setSortKeysReverse, forEach, this]
  | cons n ns ih =>
    obtain ⟨k, hk, hkn⟩ := hall n (by simp)
    have e : t.setSortKeyReverse n = ({ t with sortKeys := t.sortKeys.map (fun k => if k.colName = n then { k with reverse := true } else k) }, .ok ()) := by
      simp only [setSortKeyReverse]
      rw [if_neg (by intro h0; rw [List.length_eq_zero_iff] at h0; rw [h0] at hk; cases hk), if_pos]
      simp only [List.any_eq_true, decide_eq_true_eq]
      exact ⟨k, hk, hkn⟩
    simp only [setSortKeysReverse] at ih ⊢
    rw [forEach_cons_ok e, ih]
    · simp only [List.map_map]
      congr 2
      apply List.map_congr_left
      intro k' _
      simp only [Function.comp, reverseNamed, List.mem_cons]
      by_cases h1 : k'.colName = n <;> by_cases h2 : k'.colName ∈ ns <;> simp [h1, h2]
      all_goals (rw [h1] at h2; simp [h2])
    · intro m hm
      obtain ⟨k', hk', hkn'⟩ := hall m (by simp [hm])
      refine ⟨if k'.colName = n then { k' with reverse := true } else k', List.mem_map.2 ⟨k', hk', rfl⟩, ?_⟩
      split <;> exact hkn'

/-- **C23.** `SetSortKeysReverse(names)`: if every name is a sort key, exactly the keys with these names become descending. -/
theorem C23_setSortKeysReverse (t : Table τ) (names : List GoStr) (hall : ∀ n ∈ names, ∃ k ∈ t.sortKeys, k.colName = n) :
    ∃ keys, t.setSortKeysReverse names = ({ t with sortKeys := keys }, .ok ()) ∧ keys.length = t.sortKeys.length ∧
      ∀ (i : Nat) (k : SortKey), t.sortKeys[i]? = some k →
        ∃ k', keys[i]? = some k' ∧ k'.colName = k.colName ∧ k'.colType = k.colType ∧
          (k'.reverse = true ↔ k.reverse = true ∨ k.colName ∈ names) := by
  refine ⟨_, setSortKeysReverse_ok t names hall, by simp, ?_⟩
  intro i k hk
  refine ⟨reverseNamed names k, by simp [hk], ?_⟩
  simp only [reverseNamed]
  split <;> simp_all

/-- **C23.** If some name is not a sort key, `SetSortKeysReverse` reports an error. -/
theorem C23_setSortKeysReverse_err (t : Table τ) (names : List GoStr) (n : GoStr) (hn : n ∈ names)
    (hno : ∀ k ∈ t.sortKeys, k.colName ≠ n) : ∃ e, (t.setSortKeysReverse names).2 = .err e := by
  induction names generalizing t with
  | nil => cases hn
  | cons m ms ih =>
    simp only [setSortKeysReverse] at ih ⊢
    by_cases hex : ∃ k ∈ t.sortKeys, k.colName = m
    · obtain ⟨k, hk, hkn⟩ := hex
      have e : t.setSortKeyReverse m = ({ t with sortKeys := t.sortKeys.map (fun k => if k.colName = m then { k with reverse := true } else k) }, .ok ()) := by
        simp only [setSortKeyReverse]
        rw [if_neg (by intro h0; rw [List.length_eq_zero_iff] at h0; rw [h0] at hk; cases hk), if_pos]
        simp only [List.any_eq_true, decide_eq_true_eq]
        exact ⟨k, hk, hkn⟩
      rw [forEach_cons_ok e]
      have hmn : n ≠ m := by rintro rfl; exact hno k hk hkn
      refine ih _ ((List.mem_cons.1 hn).resolve_left hmn) ?_
      intro k' hk'
      obtain ⟨k0, hk0, rfl⟩ := List.mem_map.1 hk'
      have := hno k0 hk0
      split <;> exact this
    · have : ∃ e, (t.setSortKeyReverse m).2 = .err e := by
        simp only [setSortKeyReverse]
        split
        · exact ⟨_, rfl⟩
        · rw [if_neg]
          · exact ⟨_, rfl⟩
          · simpa only [List.any_eq_true, decide_eq_true_eq] using hex
      obtain ⟨e, he⟩ := this
      refine ⟨e, ?_⟩
      rcases hs : t.setSortKeyReverse m with ⟨t1, o⟩
      rw [hs] at he
      simp only at he
      simp [forEach, hs, he]

/-- Keys of the same column have the same direction. -/
def ConsistentDirections (keys : List SortKey) : Prop :=
  ∀ k ∈ keys, ∀ k' ∈ keys, k.colName = k'.colName → k.reverse = k'.reverse

/-- **C23.** `SetSortKeysFromTable` copies names, order and directions. -/
theorem C23_setSortKeysFromTable (t f : Table τ) (h : WF t) (hne : f.sortKeys ≠ [])
    (hall : ∀ k ∈ f.sortKeys, SortableCol t k.colName) (hdir : ConsistentDirections f.sortKeys) :
    ∃ keys, t.setSortKeysFromTable f = ({ t with sortKeys := keys }, .ok ()) ∧
      keys.map (fun k => (k.colName, k.reverse)) = f.sortKeys.map (fun k => (k.colName, k.reverse)) ∧
      ∀ k ∈ keys, HasColT t k.colName k.colType := by
  obtain ⟨h1, h2, _⟩ := C23_setSortKeys t h (f.sortKeys.map (·.colName))
  have hok := h1.2 (by intro n hn; obtain ⟨k, hk, rfl⟩ := List.mem_map.1 hn; exact hall k hk)
  obtain ⟨keys, e, hk⟩ := h2 hok
  have e2 : t.setSortKeys (f.sortKeys.map (·.colName)) = ({ t with sortKeys := keys }, .ok ()) := by
    rw [← e, ← hok]
  have hlen : f.sortKeys.length ≠ 0 := by simpa using hne
  have hrev := setSortKeysReverse_ok { t with sortKeys := keys } ((f.sortKeys.filter (·.reverse)).map (·.colName)) (by
    intro n hn
    obtain ⟨k, hk1, rfl⟩ := List.mem_map.1 hn
    have : k.colName ∈ keys.map (·.colName) := by rw [hk.1]; exact List.mem_map.2 ⟨k, (List.mem_filter.1 hk1).1, rfl⟩
    obtain ⟨k', hk', e'⟩ := List.mem_map.1 this
    exact ⟨k', hk', e'⟩)
  refine ⟨keys.map (reverseNamed ((f.sortKeys.filter (·.reverse)).map (·.colName))), ?_, ?_, ?_⟩
  · simp only [setSortKeysFromTable, hlen, if_false, e2, hrev]
  · apply List.ext_getElem?
    intro i
    simp only [List.getElem?_map, Option.map_map]
    have hnm : (keys[i]?).map (·.colName) = (f.sortKeys[i]?).map (·.colName) := by
      rw [← List.getElem?_map, hk.1, List.getElem?_map]
    cases hki : keys[i]? with
    | none => rw [hki] at hnm; cases hfi : f.sortKeys[i]? with
      | none => rfl
      | some k => rw [hfi] at hnm; cases hnm
    | some k =>
      rw [hki] at hnm
      cases hfi : f.sortKeys[i]? with
      | none => rw [hfi] at hnm; cases hnm
      | some kf =>
        rw [hfi] at hnm
        have hname : k.colName = kf.colName := by simpa using hnm
        have hasc := (hk.2 k (List.mem_of_getElem? hki)).2.2
        have hmem := List.mem_of_getElem? hfi
        simp only [Option.map_some, Function.comp, reverseNamed, Option.some.injEq, Prod.mk.injEq]
        by_cases hin : k.colName ∈ (f.sortKeys.filter (·.reverse)).map (·.colName)
        · rw [if_pos hin]
          obtain ⟨k2, hk2, e2⟩ := List.mem_map.1 hin
          have := List.mem_filter.1 hk2
          have := hdir k2 this.1 kf hmem (by rw [e2, hname])
          refine ⟨hname, ?_⟩
          rw [← this]; simpa using (List.mem_filter.1 hk2).2.symm
        · rw [if_neg hin]
          refine ⟨hname, ?_⟩
          rw [hasc]
          cases hr : kf.reverse with
          | false => rfl
          | true => exact absurd (List.mem_map.2 ⟨kf, List.mem_filter.2 ⟨hmem, hr⟩, hname.symm⟩) hin
  · intro k hk'
    obtain ⟨k0, hk0, rfl⟩ := List.mem_map.1 hk'
    have := (hk.2 k0 hk0).1
    simp only [reverseNamed]; split <;> exact this

/-- Without consistent directions (SetSortKeys(a); SetSortKeysReverse(a); AppendSortKey(a)) the copy differs: both keys become
descending. -/
theorem C23_mixed_directions_not_copied :
    ((Ex.t.setSortKeysReverse [gs! "age"]).1.appendSortKey (gs! "age")).1.sortKeys.map (·.reverse) = [true, false] ∧
    (Ex.t.setSortKeysFromTable ((Ex.t.setSortKeysReverse [gs! "age"]).1.appendSortKey (gs! "age")).1).1.sortKeys.map (·.reverse)
      = [true, true] := by decide +kernel

/-- **C49** as stated is false: the old key is gone after a failed `SetSortKeys`. -/
theorem C49_false : ∃ t : Table Unit, Ex.t = t ∧ t.sortKeys ≠ [] ∧ (t.setSortKeys [gs! "nosuch"]).2 = .err .noCol ∧
    (t.setSortKeys [gs! "nosuch"]).1.sortKeys ≠ t.sortKeys :=
  ⟨Ex.t, rfl, by decide +kernel, by decide +kernel, by decide +kernel⟩

/-- **C49**, what holds instead: when `SetSortKeys` fails, the keys are replaced by the (ascending) keys for the names before the
first bad one, and everything but the sort keys is unchanged.  Missing for the full claim: that the keys themselves are kept. -/
theorem C49_partial (t : Table τ) (h : WF t) (names : List GoStr) (e : Err) (he : (t.setSortKeys names).2 = .err e) :
    ∃ pre n post keys, names = pre ++ n :: post ∧ (∀ m ∈ pre, SortableCol t m) ∧ ¬ SortableCol t n ∧
      AscendingKeys t pre keys ∧ (t.setSortKeys names).1 = { t with sortKeys := keys } := by
  have hw : WF { t with sortKeys := [] } := h.withKeys (by simp)
  rcases appendKeys_cases hw names with ⟨keys, hk, e'⟩ | ⟨pre, m, post, keys, x, rfl, hno, hk, e'⟩
  · simp only [setSortKeys, e'] at he; cases he
  · refine ⟨pre, m, post, keys, rfl, ?_, hno, hk, by simp only [setSortKeys, e']; simp⟩
    intro n hn
    rw [← hk.1] at hn
    obtain ⟨k, hk1, rfl⟩ := List.mem_map.1 hn
    exact ⟨k.colType, (hk.2 k hk1).1, (hk.2 k hk1).2.1⟩

example : (Ex.t.setSortKeys [gs! "w", gs! "name"]).2 = .ok () ∧
    (Ex.t.setSortKeys [gs! "w", gs! "name"]).1.sortKeys = [⟨gs! "w", .float64, false⟩, ⟨gs! "name", .string, false⟩] := by
  decide +kernel
example : SortableCol Ex.t (gs! "w") := ⟨.float64, ⟨2, by decide +kernel, by decide +kernel⟩, rfl⟩
example : ((Ex.t.setSortKeys [gs! "w", gs! "name"]).1.setSortKeysReverse [gs! "name"]).1.sortKeys =
    [⟨gs! "w", .float64, false⟩, ⟨gs! "name", .string, true⟩] := by decide +kernel

end Verif
