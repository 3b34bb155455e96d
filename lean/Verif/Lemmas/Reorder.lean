import Verif.Lemmas.Preserve

/-! # Reordering columns, reversing and shuffling rows -/

namespace Verif
open Table

variable {τ : Type}

/-! ## `sort.Ints` and the permutation check -/

theorem insertInt_perm (x : Int) (l : List Int) : (insertInt x l).Perm (x :: l) := by
  induction l with
  | nil => exact .refl _
  | cons y ys ih =>
    simp only [insertInt]; split
    · exact .refl _
    · exact (List.Perm.cons y ih).trans (.swap x y ys)

theorem sortInts_perm (l : List Int) : (sortInts l).Perm l := by
  induction l with
  | nil => exact .refl _
  | cons x xs ih => exact (insertInt_perm x _).trans (ih.cons x)

theorem insertInt_sorted (x : Int) (l : List Int) (h : l.Pairwise (· ≤ ·)) : (insertInt x l).Pairwise (· ≤ ·) := by
  induction l with
  | nil => simp [insertInt]
  | cons y ys ih =>
    simp only [insertInt]; split
    · rename_i hxy
      rw [List.pairwise_cons]
      refine ⟨?_, h⟩
      intro z hz
      simp only [List.mem_cons] at hz
      rcases hz with rfl | hz
      · exact hxy
      · have := (List.pairwise_cons.1 h).1 z hz; omega
    · rename_i hxy
      rw [List.pairwise_cons] at h ⊢
      refine ⟨?_, ih h.2⟩
      intro z hz
      have := (insertInt_perm x ys).mem_iff.1 hz
      simp only [List.mem_cons] at this
      rcases this with rfl | hz
      · omega
      · exact h.1 z hz

theorem sortInts_sorted (l : List Int) : (sortInts l).Pairwise (· ≤ ·) := by
  induction l with
  | nil => simp [sortInts]
  | cons x xs ih => exact insertInt_sorted x _ ih

theorem checkConsecutive_iff (l : List Int) (i : Nat) :
    checkConsecutive l i = true ↔ l = (List.range' i l.length).map Int.ofNat := by
  induction l generalizing i with
  | nil => simp [checkConsecutive]
  | cons x xs ih =>
    simp only [checkConsecutive]
    have h1 : ((i : Int) + 1) = ((i + 1 : Nat) : Int) := by omega
    rw [h1]
    split
    · rename_i h
      simp only [List.length_cons, List.range'_succ, List.map_cons, List.cons.injEq]
      constructor
      · intro h'; cases h'
      · intro h'; exact absurd h'.1 h
    · rename_i h
      rw [ih]
      simp only [List.length_cons, List.range'_succ, List.map_cons, List.cons.injEq]
      have : x = Int.ofNat i := by simpa using h
      simp [this]

/-- The check of the reorder functions accepts exactly the permutations of `0..n-1`. -/
theorem orderOK_iff (order : List Int) :
    checkConsecutive (sortInts order) 0 = true ↔ order.Perm ((List.range order.length).map Int.ofNat) := by
  have hl : (sortInts order).length = order.length := (sortInts_perm order).length_eq
  have := checkConsecutive_iff (sortInts order) 0
  simp only [Int.ofNat_zero] at this
  have this : checkConsecutive (sortInts order) 0 = true ↔ _ := this
  rw [this, hl, ← List.range_eq_range']
  constructor
  · intro h
    rw [← h]; exact (sortInts_perm order).symm
  · intro h
    refine List.Perm.eq_of_pairwise (le := (· ≤ ·)) (fun a b _ _ h1 h2 => by omega) (sortInts_sorted order) ?_ ((sortInts_perm order).trans h)
    rw [List.pairwise_map]
    have := List.pairwise_lt_range (n := order.length)
    exact this.imp (fun h => by simp only [Int.ofNat_eq_natCast]; omega)

/-- A permutation given as integers, as naturals. -/
theorem order_nat {order : List Int} {n : Nat} (h : order.Perm ((List.range n).map Int.ofNat)) :
    ∃ σ : List Nat, order = σ.map Int.ofNat ∧ σ.Perm (List.range n) := by
  refine ⟨order.map Int.toNat, ?_, ?_⟩
  · rw [List.map_map]
    conv => lhs; rw [← List.map_id order]
    apply List.map_congr_left
    intro x hx
    have := h.mem_iff.1 hx
    simp only [List.mem_map] at this
    obtain ⟨a, _, rfl⟩ := this
    simp
  · have := h.map Int.toNat
    rw [List.map_map] at this
    have e : (Int.toNat ∘ Int.ofNat) = id := by funext x; simp
    rw [e, List.map_id] at this
    exact this

/-! ## Picking positions -/

/-- The elements of `l` at positions `σ`. -/
def pick {α : Type} (σ : List Nat) (l : List α) : List α := σ.filterMap (fun i => l[i]?)

theorem mapM_goGet? {α : Type} (σ : List Nat) (l : List α) (h : ∀ i ∈ σ, i < l.length) :
    (σ.map Int.ofNat).mapM (fun i => goGet? l i) = some (pick σ l) := by
  induction σ with
  | nil => simp [pick]
  | cons i σ ih =>
    have hi : i < l.length := h i (by simp)
    have h1 : l[i]? = some l[i] := List.getElem?_eq_getElem hi
    have h2 : goGet? l (Int.ofNat i) = some l[i] := by rw [Int.ofNat_eq_natCast, goGet?_nat, h1]
    simp only [List.map_cons, List.mapM_cons, h2, pick, List.filterMap_cons, h1]
    rw [ih (fun j hj => h j (by simp [hj]))]
    rfl

theorem permute?_eq {α : Type} (σ : List Nat) (l : List α) (h : ∀ i ∈ σ, i < l.length) (hl : l.length = σ.length) :
    permute? (σ.map Int.ofNat) l = some (pick σ l) := by
  simp only [permute?, List.length_map, hl, if_true]
  exact mapM_goGet? σ l h

theorem pick_length {α : Type} (σ : List Nat) (l : List α) (h : ∀ i ∈ σ, i < l.length) : (pick σ l).length = σ.length := by
  induction σ with
  | nil => rfl
  | cons i σ ih =>
    have hi : i < l.length := h i (by simp)
    have h1 : l[i]? = some l[i] := List.getElem?_eq_getElem hi
    simp only [pick, List.filterMap_cons, h1, List.length_cons]
    have := ih (fun j hj => h j (by simp [hj]))
    simp only [pick] at this; omega

theorem pick_getElem? {α : Type} (σ : List Nat) (l : List α) (h : ∀ i ∈ σ, i < l.length) (k : Nat) :
    (pick σ l)[k]? = σ[k]?.bind (fun i => l[i]?) := by
  induction σ generalizing k with
  | nil => simp [pick]
  | cons i σ ih =>
    have hi : i < l.length := h i (by simp)
    have h1 : l[i]? = some l[i] := List.getElem?_eq_getElem hi
    simp only [pick, List.filterMap_cons, h1]
    cases k with
    | zero => simp [h1]
    | succ k =>
      simp only [List.getElem?_cons_succ]
      exact ih (fun j hj => h j (by simp [hj])) k

theorem pick_perm {α : Type} {σ : List Nat} {l : List α} (h : σ.Perm (List.range l.length)) : (pick σ l).Perm l := by
  have h1 : (pick σ l).Perm (pick (List.range l.length) l) := h.filterMap _
  have h2 : pick (List.range l.length) l = l := by
    apply List.ext_getElem?
    intro k
    rw [pick_getElem? _ _ (fun i hi => by simpa using hi)]
    by_cases hk : k < l.length
    · simp [hk]
    · simp [hk]
  rw [h2] at h1; exact h1

theorem permuteRows_eq {α : Type} (σ : List Nat) (rows : List (List α))
    (h : ∀ row ∈ rows, row.length = σ.length) (hσ : ∀ i ∈ σ, i < σ.length) :
    permuteRows (σ.map Int.ofNat) rows = (rows.map (pick σ), .ok ()) := by
  induction rows with
  | nil => rfl
  | cons row rows ih =>
    have h1 := permute?_eq σ row (fun i hi => by rw [h row (by simp)]; exact hσ i hi) (h row (by simp))
    simp [permuteRows, h1, ih (fun r hr => h r (by simp [hr]))]

/-- The table with its columns in the order `σ`. -/
def reorderTable (t : Table τ) (σ : List Nat) : Table τ :=
  { t with
    colNames := pick σ t.colNames
    colTypes := pick σ t.colTypes
    colMap := reindexFrom (pick σ t.colNames) 0 t.colMap
    rows := t.rows.map (pick σ) }

theorem perm_range_lt {σ : List Nat} {n : Nat} (h : σ.Perm (List.range n)) : ∀ i ∈ σ, i < n := by
  intro i hi; simpa using h.mem_iff.1 hi

theorem perm_range_length {σ : List Nat} {n : Nat} (h : σ.Perm (List.range n)) : σ.length = n := by
  simpa using h.length_eq

theorem reorderColsByColIndex_eq {t : Table τ} (h : WF t) {σ : List Nat} (hσ : σ.Perm (List.range t.colNames.length)) :
    t.reorderColsByColIndex (σ.map Int.ofNat) = (reorderTable t σ, .ok ()) := by
  have hlen := perm_range_length hσ
  have hlt := perm_range_lt hσ
  have hck : checkConsecutive (sortInts (σ.map Int.ofNat)) 0 = true := by
    rw [orderOK_iff]
    simp only [List.length_map, hlen]
    exact hσ.map _
  have h1 := permute?_eq σ t.colNames hlt hlen.symm
  have h2 := permute?_eq σ t.colTypes (by rw [h.typesLen]; exact hlt) (by rw [h.typesLen, hlen])
  have h3 := permuteRows_eq σ t.rows (by
    intro row hrow
    rw [(h.rowsOK row hrow).1, h.typesLen, hlen]) (by rw [hlen]; exact hlt)
  simp [Table.reorderColsByColIndex, colCount, hlen, hck, h1, h2, h3, reorderTable]

theorem reorderColsByColIndex_cases {t : Table τ} (h : WF t) (order : List Int) :
    (∃ σ : List Nat, order = σ.map Int.ofNat ∧ σ.Perm (List.range t.colNames.length) ∧
      t.reorderColsByColIndex order = (reorderTable t σ, .ok ())) ∨
    (¬ order.Perm ((List.range t.colNames.length).map Int.ofNat) ∧ t.reorderColsByColIndex order = (t, .err .badOrder)) := by
  by_cases hp : order.Perm ((List.range t.colNames.length).map Int.ofNat)
  · left
    obtain ⟨σ, rfl, hσ⟩ := order_nat hp
    exact ⟨σ, rfl, hσ, reorderColsByColIndex_eq h hσ⟩
  · right
    refine ⟨hp, ?_⟩
    simp only [Table.reorderColsByColIndex, colCount]
    by_cases hl : order.length = t.colNames.length
    · have hck : checkConsecutive (sortInts order) 0 = false := by
        cases hc : checkConsecutive (sortInts order) 0
        · rfl
        · rw [orderOK_iff, hl] at hc; exact absurd hc hp
      simp [hl, hck]
    · simp [hl]

theorem WF.reorderTable {t : Table τ} (h : WF t) {σ : List Nat} (hσ : σ.Perm (List.range t.colNames.length)) :
    WF (reorderTable t σ) := by
  have hlt := perm_range_lt hσ
  have hp : (pick σ t.colNames).Perm t.colNames := pick_perm hσ
  have hnd : (pick σ t.colNames).Nodup := hp.nodup_iff.2 h.namesNodup
  exact {
    namesNodup := hnd
    namesValid := fun n hn => h.namesValid n (hp.mem_iff.1 hn)
    typesLen := by
      simp only [Verif.reorderTable]
      rw [pick_length _ _ hlt, pick_length _ _ (by rw [h.typesLen]; exact hlt)]
    mapKeys := reindexFrom_keys_nodup _ _ _ h.mapKeys
    mapIff := by
      intro n i
      have hr := reindexFrom_get? (pick σ t.colNames) hnd 0 t.colMap n
      simp only [Verif.reorderTable]
      constructor
      · intro hg
        by_cases hm : n ∈ pick σ t.colNames
        · obtain ⟨j, hj⟩ := List.getElem?_of_mem hm
          rw [hr.1 j hj] at hg
          simp at hg; subst hg; exact hj
        · rw [hr.2 hm] at hg
          exact absurd (hp.mem_iff.2 (List.mem_of_getElem? ((h.mapIff n i).1 hg))) hm
      · intro hj; rw [hr.1 i hj]; simp
    rowsOK := by
      intro row hrow
      simp only [Verif.reorderTable, List.mem_map] at hrow
      obtain ⟨row', hr, rfl⟩ := hrow
      have hok := h.rowsOK row' hr
      have hlt' : ∀ i ∈ σ, i < row'.length := by rw [hok.1, h.typesLen]; exact hlt
      have hlt2 : ∀ i ∈ σ, i < t.colTypes.length := by rw [h.typesLen]; exact hlt
      refine ⟨by simp only [Verif.reorderTable]; rw [pick_length _ _ hlt', pick_length _ _ hlt2], ?_⟩
      intro i ty c hty hc
      simp only [Verif.reorderTable] at hty
      rw [pick_getElem? _ _ hlt2] at hty
      rw [pick_getElem? _ _ hlt'] at hc
      rcases hk : σ[i]? with _ | k
      · simp [hk] at hc
      · simp only [hk, Option.bind_some] at hty hc
        exact hok.2 k ty c hty hc
    nilEmpty := by
      intro h'
      have := h.nilEmpty h'
      simp [Verif.reorderTable, this.1, this.2] at hσ ⊢
      subst hσ; rfl
    nameValid := h.nameValid
    keysOK := h.keysOK }

theorem WF.reorderColsByColIndex {t : Table τ} (h : WF t) (order : List Int) : WF (t.reorderColsByColIndex order).1 := by
  rcases reorderColsByColIndex_cases h order with ⟨σ, _, hσ, e⟩ | ⟨_, e⟩
  · rw [e]; exact h.reorderTable hσ
  · rw [e]; exact h

theorem namesToIndices_ok {t : Table τ} (h : WF t) (ns : List GoStr) (hn : ∀ n ∈ ns, n ∈ t.colNames) :
    ∃ σ : List Nat, t.namesToIndices ns = .ok (σ.map Int.ofNat) ∧ σ.length = ns.length ∧
      ∀ k i : Nat, σ[k]? = some i → ∃ n, ns[k]? = some n ∧ t.colNames[i]? = some n := by
  induction ns with
  | nil => exact ⟨[], rfl, rfl, by simp⟩
  | cons n ns ih =>
    obtain ⟨σ, h1, h2, h3⟩ := ih (fun m hm => hn m (by simp [hm]))
    rcases h.colIndex_cases n with ⟨i, hi, hix⟩ | ⟨hi, _⟩
    · refine ⟨i :: σ, by simp [Table.namesToIndices, hix, h1, Out.bind], by simp [h2], ?_⟩
      intro k j hk
      cases k with
      | zero => simp at hk; subst hk; exact ⟨n, rfl, hi⟩
      | succ k => simpa using h3 k j (by simpa using hk)
    · exact absurd (hn n (by simp)) hi

theorem namesToIndices_err {t : Table τ} (h : WF t) (ns : List GoStr) (hn : ¬ ∀ n ∈ ns, n ∈ t.colNames) :
    t.namesToIndices ns = .err .noCol := by
  induction ns with
  | nil => exact absurd (by simp) hn
  | cons n ns ih =>
    rcases h.colIndex_cases n with ⟨i, hi, hix⟩ | ⟨_, hix⟩
    · have : ¬ ∀ m ∈ ns, m ∈ t.colNames := by
        intro h'; apply hn
        intro m hm
        simp only [List.mem_cons] at hm
        rcases hm with rfl | hm
        · exact List.mem_of_getElem? hi
        · exact h' m hm
      simp [Table.namesToIndices, hix, ih this, Out.bind]
    · simp [Table.namesToIndices, hix, Out.bind]

/-- Positions of names: if the names are a rearrangement of the column names, the positions are a permutation. -/
theorem positions_perm {l ns : List GoStr} {σ : List Nat} (hnd : l.Nodup) (hlen : σ.length = ns.length)
    (hσ : ∀ k i : Nat, σ[k]? = some i → ∃ n, ns[k]? = some n ∧ l[i]? = some n) :
    σ.Perm (List.range l.length) ↔ ns.Perm l := by
  have hlt : ∀ i ∈ σ, i < l.length := by
    intro i hi
    obtain ⟨k, hk⟩ := List.getElem?_of_mem hi
    obtain ⟨n, _, hn⟩ := hσ k i hk
    exact (List.getElem?_eq_some_iff.1 hn).1
  have hpick : pick σ l = ns := by
    apply List.ext_getElem?
    intro k
    rw [pick_getElem? _ _ hlt]
    rcases hk : σ[k]? with _ | i
    · have : ns[k]? = none := by
        rw [List.getElem?_eq_none_iff] at hk ⊢; omega
      simp [this]
    · obtain ⟨n, h1, h2⟩ := hσ k i hk
      simp [h1, h2]
  constructor
  · intro hp; rw [← hpick]; exact pick_perm hp
  · intro hp
    have hns : ns.Nodup := hp.nodup_iff.2 hnd
    have hσnd : σ.Nodup := by
      rw [List.nodup_iff_pairwise_ne, List.pairwise_iff_getElem]
      intro i j hi hj hij e
      obtain ⟨n, h1, h2⟩ := hσ i σ[i] (List.getElem?_eq_getElem hi)
      obtain ⟨n', h1', h2'⟩ := hσ j σ[j] (List.getElem?_eq_getElem hj)
      rw [e, h2'] at h2; cases h2
      have := nodup_inj hns h1 h1'; omega
    refine (List.perm_ext_iff_of_nodup hσnd List.nodup_range).2 ?_
    intro i
    constructor
    · intro hi; simpa using hlt i hi
    · intro hi
      have hil : i < l.length := by simpa using hi
      have hmem : l[i] ∈ ns := hp.mem_iff.2 (List.getElem_mem hil)
      obtain ⟨k, hk⟩ := List.getElem?_of_mem hmem
      have hkl := (List.getElem?_eq_some_iff.1 hk).1
      have hks : σ[k]? = some (σ[k]'(by omega)) := List.getElem?_eq_getElem (by omega)
      obtain ⟨n, h1, h2⟩ := hσ k _ hks
      rw [hk] at h1; cases h1
      have := nodup_inj hnd (List.getElem?_eq_getElem hil) h2
      rw [this]; exact List.getElem_mem _

theorem pick_positions {l ns : List GoStr} {σ : List Nat} (hlen : σ.length = ns.length)
    (hσ : ∀ k i : Nat, σ[k]? = some i → ∃ n, ns[k]? = some n ∧ l[i]? = some n) : pick σ l = ns := by
  have hlt : ∀ i ∈ σ, i < l.length := by
    intro i hi
    obtain ⟨k, hk⟩ := List.getElem?_of_mem hi
    obtain ⟨n, _, hn⟩ := hσ k i hk
    exact (List.getElem?_eq_some_iff.1 hn).1
  apply List.ext_getElem?
  intro k
  rw [pick_getElem? _ _ hlt]
  rcases hk : σ[k]? with _ | i
  · have : ns[k]? = none := by
      rw [List.getElem?_eq_none_iff] at hk ⊢; omega
    simp [this]
  · obtain ⟨n, h1, h2⟩ := hσ k i hk
    simp [h1, h2]

theorem reorderCols_cases {t : Table τ} (h : WF t) (ns : List GoStr) :
    (∃ σ : List Nat, ns.Perm t.colNames ∧ σ.Perm (List.range t.colNames.length) ∧ pick σ t.colNames = ns ∧
      t.reorderCols ns = (reorderTable t σ, .ok ())) ∨
    (¬ ns.Perm t.colNames ∧ ∃ e, t.reorderCols ns = (t, .err e)) := by
  by_cases hl : ns.length = t.colNames.length
  · by_cases hn : ∀ n ∈ ns, n ∈ t.colNames
    · obtain ⟨σ, h1, h2, h3⟩ := namesToIndices_ok h ns hn
      have e0 : t.reorderCols ns = t.reorderColsByColIndex (σ.map Int.ofNat) := by
        simp [Table.reorderCols, colCount, hl, h1]
      have hiff := positions_perm h.namesNodup h2 h3
      by_cases hp : ns.Perm t.colNames
      · left
        have hσ := hiff.2 hp
        exact ⟨σ, hp, hσ, pick_positions h2 h3, by rw [e0, reorderColsByColIndex_eq h hσ]⟩
      · right
        refine ⟨hp, .badOrder, ?_⟩
        rw [e0]
        rcases reorderColsByColIndex_cases h (σ.map Int.ofNat) with ⟨σ', e, hσ', _⟩ | ⟨_, e⟩
        · have : σ = σ' := by
            have := congrArg (List.map Int.toNat) e
            simpa [List.map_map, Function.comp_def] using this
          subst this
          exact absurd (hiff.1 hσ') hp
        · exact e
    · right
      refine ⟨?_, .noCol, by simp [Table.reorderCols, colCount, hl, namesToIndices_err h ns hn]⟩
      intro hp; exact hn (fun n hn' => hp.mem_iff.1 hn')
  · right
    exact ⟨fun hp => hl hp.length_eq, .badOrder, by simp [Table.reorderCols, colCount, hl]⟩

theorem WF.reorderCols {t : Table τ} (h : WF t) (ns : List GoStr) : WF (t.reorderCols ns).1 := by
  rcases reorderCols_cases h ns with ⟨σ, _, hσ, _, e⟩ | ⟨_, _, e⟩
  · rw [e]; exact h.reorderTable hσ
  · rw [e]; exact h

theorem WF.orderColsBySortKeys {t : Table τ} (h : WF t) : WF t.orderColsBySortKeys.1 := by
  simp only [Table.orderColsBySortKeys]
  split
  · exact h
  · split
    · exact h
    · exact h
    · exact h.reorderCols _

/-! ## Rows -/

theorem swapRows?_perm {α : Type} {l l' : List α} {i j : Nat} (h : swapRows? l i j = some l') : l'.Perm l := by
  simp only [swapRows?] at h
  split at h
  · rename_i a b ha hb
    cases h
    have hi := List.getElem?_eq_some_iff.1 ha
    have hj := List.getElem?_eq_some_iff.1 hb
    obtain ⟨hi1, hi2⟩ := hi
    obtain ⟨hj1, hj2⟩ := hj
    subst hi2 hj2
    exact List.set_set_perm hi1 hj1
  · cases h

theorem swapRows?_some {α : Type} {l : List α} {i j : Nat} (hi : i < l.length) (hj : j < l.length) :
    swapRows? l i j = some ((l.set i l[j]).set j l[i]) := by
  simp [swapRows?, hi, hj]

theorem reverseLoop_eq {α : Type} (l : List α) (left : Nat) (right : Int)
    (h : (left : Int) + right + 1 = l.length) (hr : (left : Int) ≤ right + 1) :
    ∃ l', reverseLoop l left right = some l' ∧ l'.length = l.length ∧
      ∀ k, k < l.length → l'[k]? = if left ≤ k ∧ (k : Int) ≤ right then l[l.length - 1 - k]? else l[k]? := by
  fun_induction reverseLoop l left right with
  | case1 l left right hlt hsw =>
    have := swapRows?_some (l := l) (i := left) (j := right.toNat) (by omega) (by omega)
    rw [this] at hsw; cases hsw
  | case2 l left right hlt l1 hsw ih =>
    have hs := swapRows?_some (l := l) (i := left) (j := right.toNat) (by omega) (by omega)
    rw [hs] at hsw; cases hsw
    have hl1 : ((l.set left l[right.toNat]).set right.toNat l[left]).length = l.length := by simp
    obtain ⟨l', h1, h2, h3⟩ := ih (by rw [hl1]; omega) (by omega)
    refine ⟨l', h1, by rw [h2, hl1], ?_⟩
    intro k hk
    rw [h3 k (by rw [hl1]; exact hk), hl1]
    simp only [List.getElem?_set, List.length_set]
    have e1 : l.length - 1 - left = right.toNat := by omega
    have e2 : l.length - 1 - right.toNat = left := by omega
    by_cases hk1 : k = left
    · subst hk1
      rw [if_neg (show ¬ (k + 1 ≤ k ∧ (k : Int) ≤ right - 1) by omega), if_pos (show k ≤ k ∧ (k : Int) ≤ right by omega),
        e1, if_neg (show right.toNat ≠ k by omega), if_pos rfl, if_pos (by omega), List.getElem?_eq_getElem (by omega)]
    · by_cases hk2 : k = right.toNat
      · subst hk2
        rw [if_neg (show ¬ (left + 1 ≤ right.toNat ∧ (right.toNat : Int) ≤ right - 1) by omega),
          if_pos (show left ≤ right.toNat ∧ (right.toNat : Int) ≤ right by omega),
          e2, if_pos rfl, if_pos (by omega), List.getElem?_eq_getElem (by omega)]
      · by_cases hk3 : left ≤ k ∧ (k : Int) ≤ right
        · rw [if_pos (by omega), if_pos hk3, if_neg (by omega), if_neg (by omega)]
        · rw [if_neg (by omega), if_neg hk3, if_neg (by omega), if_neg (by omega)]
  | case3 l left right hge =>
    refine ⟨l, rfl, rfl, ?_⟩
    intro k hk
    split
    · have : k = l.length - 1 - k := by omega
      rw [← this]
    · rfl

theorem reverse_eq (t : Table τ) : t.reverse = ({ t with rows := t.rows.reverse }, .ok ()) := by
  obtain ⟨l', h1, h2, h3⟩ := reverseLoop_eq t.rows 0 ((t.rows.length : Int) - 1) (by omega) (by omega)
  have : l' = t.rows.reverse := by
    apply List.ext_getElem?
    intro k
    by_cases hk : k < t.rows.length
    · rw [h3 k hk, if_pos (by omega), List.getElem?_reverse hk]
    · rw [List.getElem?_eq_none (by omega), List.getElem?_eq_none (by simp; omega)]
  simp only [Table.reverse, h1, this]

theorem shuffleLoop_some {α : Type} (choose : Nat → Nat) (i : Nat) (l : List α) (h : i < l.length ∨ i = 0) :
    ∃ l', shuffleLoop choose i l = some l' ∧ l'.Perm l := by
  induction i generalizing l with
  | zero => exact ⟨l, rfl, .refl _⟩
  | succ i ih =>
    have hlt : i + 1 < l.length := by omega
    have hj : choose (i + 1) % (i + 2) < l.length := by
      have := Nat.mod_lt (choose (i + 1)) (show i + 2 > 0 by omega); omega
    have hs := swapRows?_some hlt hj
    obtain ⟨l', h1, h2⟩ := ih ((l.set (i + 1) l[choose (i + 1) % (i + 2)]).set (choose (i + 1) % (i + 2)) l[i + 1])
      (by left; simp; omega)
    exact ⟨l', by simp only [shuffleLoop, hs, h1], h2.trans (swapRows?_perm hs)⟩

theorem shuffle_eq (choose : Nat → Nat) (t : Table τ) :
    ∃ rows, rows.Perm t.rows ∧ t.shuffle choose = ({ t with rows := rows }, .ok ()) := by
  obtain ⟨l', h1, h2⟩ := shuffleLoop_some choose (t.rows.length - 1) t.rows (by omega)
  exact ⟨l', h2, by simp [Table.shuffle, h1]⟩

theorem WF.reverse {t : Table τ} (h : WF t) : WF t.reverse.1 := by
  rw [reverse_eq]; exact h.permRows (List.reverse_perm _)

theorem WF.shuffle {t : Table τ} (h : WF t) (choose : Nat → Nat) : WF (t.shuffle choose).1 := by
  obtain ⟨rows, hp, e⟩ := shuffle_eq choose t
  rw [e]; exact h.permRows hp

end Verif
