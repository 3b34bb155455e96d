import Verif.Lemmas.Live

/-!
# Lemmas about searching
-/

namespace Verif
open Table

variable {τ : Type}

/-! ## Argument checks -/

theorem colType_of {t : Table τ} (h : WF t) {n : GoStr} {ty : ColType} (hc : HasColT t n ty) : t.colType n = .ok ty := by
  obtain ⟨i, h1, h2⟩ := hc
  simp only [colType, (h.mapIff n i).2 h1, h2]

theorem colType_noPanic {t : Table τ} (h : WF t) (n : GoStr) : t.colType n ≠ .panic := by
  simp only [colType]
  cases e : t.colMap.get? n with
  | none => simp
  | some i =>
    obtain ⟨ty, h2⟩ := h.type_of_name ((h.mapIff n i).1 e)
    simp [h2]

theorem isValidCellValue_ok {t : Table τ} (h : WF t) {n : GoStr} {ty : ColType} (hc : HasColT t n ty) (hs : ty.Sortable = true)
    {v : Cell τ} (hv : v.HasType ty) : t.isValidCellValue n v = .ok () := by
  have e : t.colType n = .ok ty := colType_of h hc
  simp only [isValidCellValue, e, Out.bind]
  cases ty <;> first
    | (exact absurd hs (by decide))
    | (cases v <;> first
        | exact hv.elim
        | rfl
        | (rename_i k v; cases k <;> first
            | exact hv.elim
            | rfl))

theorem isValidCellValue_fit {t : Table τ} (h : WF t) {n : GoStr} {ty : ColType} (hc : HasColT t n ty)
    {v : Cell τ} (hr : v.Real) (hv : t.isValidCellValue n v = .ok ()) : v.HasType ty := by
  have e : t.colType n = .ok ty := colType_of h hc
  simp only [isValidCellValue, e, Out.bind] at hv
  cases v <;> first
    | (simp at hv; done)
    | (rename_i k x; cases k <;> cases ty <;> first
        | (simp [Cell.dynType] at hv; done)
        | exact hr)
    | (cases ty <;> first
        | (simp [Cell.dynType] at hv; done)
        | trivial)

theorem isValidCellValue_noPanic {t : Table τ} (h : WF t) (n : GoStr) (v : Cell τ) : t.isValidCellValue n v ≠ .panic := by
  have := colType_noPanic h n
  simp only [isValidCellValue]
  cases e : t.colType n with
  | ok ty =>
    simp only [Out.bind]
    cases v <;> simp only <;> (try simp) <;> split <;> simp
  | err _ => simp [Out.bind]
  | panic => exact absurd e this

theorem checkSearchValues_ok {t : Table τ} (h : WF t) {ks : List SortKey} {vs : List (Cell τ)}
    (hk : ∀ k ∈ ks, HasColT t k.colName k.colType ∧ k.colType.Sortable = true) (hv : ValuesFit ks vs) :
    t.checkSearchValues ks vs = .ok () := by
  induction ks generalizing vs with
  | nil => rfl
  | cons k ks ih =>
    cases vs with
    | nil => exact hv.elim
    | cons v vs =>
      have := hk k (by simp)
      simp only [checkSearchValues, isValidCellValue_ok h this.1 this.2 hv.1, Out.bind]
      exact ih (fun k' h' => hk k' (by simp [h'])) hv.2

theorem checkSearchValues_fit {t : Table τ} (h : WF t) {ks : List SortKey} {vs : List (Cell τ)}
    (hk : ∀ k ∈ ks, HasColT t k.colName k.colType) (hlen : vs.length = ks.length) (hr : ∀ v ∈ vs, v.Real)
    (hv : t.checkSearchValues ks vs = .ok ()) : ValuesFit ks vs := by
  induction ks generalizing vs with
  | nil => cases vs <;> simp_all [ValuesFit]
  | cons k ks ih =>
    cases vs with
    | nil => simp at hlen
    | cons v vs =>
      simp only [checkSearchValues] at hv
      cases e : t.isValidCellValue k.colName v with
      | ok u =>
        rw [e] at hv
        exact ⟨isValidCellValue_fit h (hk k (by simp)) (hr v (by simp)) e,
          ih (fun k' h' => hk k' (by simp [h'])) (by simpa using hlen) (fun v' h' => hr v' (by simp [h'])) hv⟩
      | err e' => rw [e] at hv; cases hv
      | panic => rw [e] at hv; cases hv

theorem checkSearchValues_noPanic {t : Table τ} (h : WF t) {ks : List SortKey} {vs : List (Cell τ)}
    (hlen : vs.length = ks.length) : t.checkSearchValues ks vs ≠ .panic := by
  induction ks generalizing vs with
  | nil => simp [checkSearchValues]
  | cons k ks ih =>
    cases vs with
    | nil => simp at hlen
    | cons v vs =>
      simp only [checkSearchValues]
      have := isValidCellValue_noPanic h k.colName v
      cases e : t.isValidCellValue k.colName v with
      | ok u => exact ih (by simpa using hlen)
      | err e' => simp [Out.bind]
      | panic => exact absurd e this

theorem ValuesFit.length {ks : List SortKey} {vs : List (Cell τ)} (h : ValuesFit ks vs) : vs.length = ks.length := by
  induction ks generalizing vs with
  | nil => cases vs <;> simp_all [ValuesFit]
  | cons k ks ih =>
    cases vs with
    | nil => exact h.elim
    | cons v vs => simp [ih h.2]

theorem checkSearchArguments_ok {t : Table τ} (h : WF t) (hne : t.sortKeys ≠ []) (hl : KeysLive t) {vs : List (Cell τ)}
    (hv : ValuesFit t.sortKeys vs) : t.checkSearchArguments vs = .ok () := by
  have hlen := hv.length
  have hpos := List.length_pos_iff.2 hne
  simp only [checkSearchArguments]
  rw [if_neg (by omega), if_neg (by omega), if_neg (by omega), if_neg (by omega)]
  exact checkSearchValues_ok h (fun k hk => ⟨hl k hk, (h.keysOK k hk).1⟩) hv

/-- Values that do not fit the keys are an error of the argument check. -/
theorem checkSearchArguments_bad {t : Table τ} (h : WF t) (hl : KeysLive t) {vs : List (Cell τ)} (hr : ∀ v ∈ vs, v.Real)
    (hv : ¬ (t.sortKeys ≠ [] ∧ ValuesFit t.sortKeys vs)) : ∃ e, t.checkSearchArguments vs = .err e := by
  simp only [checkSearchArguments]
  split
  · exact ⟨_, rfl⟩
  · split
    · exact ⟨_, rfl⟩
    · split
      · exact ⟨_, rfl⟩
      · split
        · exact ⟨_, rfl⟩
        · rename_i h1 h2 _ h3
          have hlen : vs.length = t.sortKeys.length := by omega
          have hnp := checkSearchValues_noPanic (ks := t.sortKeys) h hlen
          cases e : t.checkSearchValues t.sortKeys vs with
          | ok u =>
            exact absurd ⟨by intro e'; rw [e'] at h2; simp at h2, checkSearchValues_fit h hl hlen hr e⟩ hv
          | err e' => exact ⟨_, rfl⟩
          | panic => exact absurd e hnp

/-! ## The two searches -/

/-- The key cells of every row, and their order. -/
theorem search_setup (lower : GoStr → GoStr) {t : Table τ} (h : WF t) (hl : KeysLive t) (hnan : KeysNotNaN t)
    (hsorted : SortedByKeys lower t) :
    ∃ cells : Nat → List (Cell τ), (∀ r, r < t.rows.length → KeyCells t r t.sortKeys (cells r) ∧ GoodVals t.sortKeys (cells r)) ∧
      ∀ a b, a ≤ b → b < t.rows.length → lexCmp lower t.sortKeys (cells a) (cells b) ≤ 0 := by
  have hs : ∀ k ∈ t.sortKeys, k.colType.Sortable = true := fun k hk => (h.keysOK k hk).1
  have ex : ∀ r, ∃ as, r < t.rows.length → KeyCells t r t.sortKeys as ∧ GoodVals t.sortKeys as := by
    intro r
    by_cases hr : r < t.rows.length
    · obtain ⟨as, h1, h2⟩ := keyCells_exists h hr t.sortKeys hl hs
      exact ⟨as, fun _ => ⟨h1, h1.good h2 hnan⟩⟩
    · exact ⟨[], fun h' => absurd h' hr⟩
  refine ⟨fun r => (ex r).choose, fun r hr => (ex r).choose_spec hr, ?_⟩
  intro a b hab hb
  show lexCmp lower t.sortKeys (ex a).choose (ex b).choose ≤ 0
  have ha := (ex a).choose_spec (by omega)
  have hb' := (ex b).choose_spec hb
  have hanti := lexCmp_anti lower ha.2.typed hb'.2.typed
  by_cases e : a = b
  · subst e; omega
  · have := hsorted a b (by omega) hb
    rw [rowBefore_iff lower h hb'.1 ha.1 hb'.2.typed ha.2.typed] at this
    omega

theorem valuesBefore_iff (lower : GoStr → GoStr) {t : Table τ} (h : WF t) {r : Nat}
    {ks : List SortKey} {as vs : List (Cell τ)}
    (ha : KeyCells t r ks as) (hga : GoodVals ks as) (hgv : GoodVals ks vs) :
    ValuesBefore lower t ks vs r ↔ 0 < lexCmp lower ks as vs := by
  induction ks generalizing as vs with
  | nil => cases vs <;> simp [ValuesBefore, lexCmp]
  | cons k ks ih =>
    cases as with
    | nil => exact ha.elim
    | cons a as =>
      cases vs with
      | nil => exact hgv.elim
      | cons v vs =>
        rw [lexCmp_cons]
        have i := ih ha.2 hga.2 hgv.2
        have m := rowMatches_iff lower h (ks := [k]) (as := [a]) (vs := [v]) ⟨ha.1, trivial⟩ ⟨hga.1, trivial⟩ ⟨hgv.1, trivial⟩
        have m' : lexCmp lower [k] [a] [v] = cmpKey lower k a v := by
          rw [lexCmp_cons]; simp only [lexCmp]; split <;> omega
        have b : ValBefore lower t k v r ↔ 0 < cmpKey lower k a v := by
          have e := cmpKey_lt lower (k := k) hga.1.1 hgv.1.2.1 hga.1.2.1
          rw [cmpKey_anti lower hga.1.1 hga.1.2.1 hgv.1.2.1] at e
          have e' : 0 < cmpKey lower k a v ↔ - cmpKey lower k a v < 0 := by omega
          rw [e', e]
          constructor
          · rintro ⟨a', h1, h2⟩
            rw [At_unique h h1 ha.1] at h2
            exact h2
          · exact fun h2 => ⟨a, ha.1, h2⟩
        rw [m'] at m
        simp only [ValuesBefore, m, b, i]
        split <;> omega

theorem searchFirst_spec (lower : GoStr → GoStr) {t : Table τ} (h : WF t) (hne : t.sortKeys ≠ []) (hl : KeysLive t)
    (hnan : KeysNotNaN t) (hsorted : SortedByKeys lower t) {vs : List (Cell τ)} (hv : ValuesFit t.sortKeys vs)
    (hvn : ∀ v ∈ vs, ¬ v.IsNaN) :
    (∃ r : Nat, t.searchFirst lower vs = .ok r ∧ r < t.rows.length ∧ RowMatches t t.sortKeys vs r ∧
      ∀ r', r' < r → ¬ RowMatches t t.sortKeys vs r') ∨
    ((∃ e, t.searchFirst lower vs = .err e) ∧ ∀ r, r < t.rows.length → ¬ RowMatches t t.sortKeys vs r) := by
  obtain ⟨cells, hc, hmono⟩ := search_setup lower h hl hnan hsorted
  have hs : ∀ k ∈ t.sortKeys, k.colType.Sortable = true := fun k hk => (h.keysOK k hk).1
  have gv := goodVals_of_fit hv hs hvn
  have hf : ∀ r, r < t.rows.length → t.geByKeys lower r t.sortKeys vs = some (decide (0 ≤ lexCmp lower t.sortKeys (cells r) vs)) :=
    fun r hr => geByKeys_eq lower h hne (hc r hr).1 (hc r hr).2.typed gv.typed
  have hm : ∀ r, r < t.rows.length → (RowMatches t t.sortKeys vs r ↔ lexCmp lower t.sortKeys (cells r) vs = 0) :=
    fun r hr => rowMatches_iff lower h (hc r hr).1 (hc r hr).2 gv
  obtain ⟨r, e, _, h2, h3, h4⟩ := searchLoop_spec (fun r => t.geByKeys lower r t.sortKeys vs) 0 t.rows.length (by omega)
    (fun m _ hm => by rw [hf m hm]; rfl)
    (fun a b _ hab hb => by
      rw [hf a (by omega), hf b hb]
      simp only [Option.some.injEq, decide_eq_true_eq]
      intro h0
      have := hmono a b hab hb
      have e1 := lexCmp_anti lower (hc a (by omega)).2.typed gv.typed
      have e2 := lexCmp_anti lower (hc b hb).2.typed gv.typed
      have := lexCmp_trans lower gv (hc a (by omega)).2 (hc b hb).2 (by omega) this
      omega)
  have hunf : t.searchFirst lower vs = if r < t.rows.length then
      (match t.searchValuesMatch lower (r : Int) t.sortKeys vs with
        | none => .panic
        | some true => .ok (r : Int)
        | some false => .err .notFound) else .err .notFound := by
    simp only [searchFirst, checkSearchArguments_ok h hne hl hv, Out.bind, searchByKeysFirst, searchFirstFn, rowCount, e]
    rfl
  have hno : ∀ r', r' < r → ¬ RowMatches t t.sortKeys vs r' := by
    intro r' hr'
    have hlt : r' < t.rows.length := by omega
    have := h3 r' (by omega) hr'
    rw [hf r' hlt] at this
    simp only [Option.some.injEq, decide_eq_false_iff_not] at this
    rw [hm r' hlt]; omega
  by_cases hr : r < t.rows.length
  · rw [if_pos hr, searchValuesMatch_eq lower h (hc r hr).1 (hc r hr).2.typed gv.typed] at hunf
    by_cases hz : lexCmp lower t.sortKeys (cells r) vs = 0
    · left
      rw [hunf]
      exact ⟨r, by simp [hz], hr, (hm r hr).2 hz, hno⟩
    · right
      rw [hunf]
      refine ⟨⟨.notFound, by simp [hz]⟩, ?_⟩
      intro r' hr'
      by_cases hlt : r' < r
      · exact hno r' hlt
      · rw [hm r' hr']
        intro h0
        have h5 := h4 r (Nat.le_refl _) hr
        rw [hf r hr] at h5
        simp only [Option.some.injEq, decide_eq_true_eq] at h5
        have e0 := lexCmp_anti lower (hc r' hr').2.typed gv.typed
        have := lexCmp_trans lower (hc r hr).2 (hc r' hr').2 gv (hmono r r' (by omega) hr') (by omega)
        omega
  · right
    rw [if_neg hr] at hunf
    exact ⟨⟨_, hunf⟩, fun r' hr' => hno r' (by omega)⟩

theorem searchLast_spec (lower : GoStr → GoStr) {t : Table τ} (h : WF t) (hne : t.sortKeys ≠ []) (hl : KeysLive t)
    (hnan : KeysNotNaN t) (hsorted : SortedByKeys lower t) {vs : List (Cell τ)} (hv : ValuesFit t.sortKeys vs)
    (hvn : ∀ v ∈ vs, ¬ v.IsNaN) :
    (∃ r : Nat, t.searchLast lower vs = .ok r ∧ r < t.rows.length ∧ RowMatches t t.sortKeys vs r ∧
      ∀ r', r < r' → r' < t.rows.length → ¬ RowMatches t t.sortKeys vs r') ∨
    ((∃ e, t.searchLast lower vs = .err e) ∧ (∃ r, r < t.rows.length ∧ ¬ ValuesBefore lower t t.sortKeys vs r) ∧
      ∀ r, r < t.rows.length → ¬ RowMatches t t.sortKeys vs r) ∨
    (t.searchLast lower vs = .panic ∧ ∀ r, r < t.rows.length → ValuesBefore lower t t.sortKeys vs r) := by
  obtain ⟨cells, hc, hmono⟩ := search_setup lower h hl hnan hsorted
  have hs : ∀ k ∈ t.sortKeys, k.colType.Sortable = true := fun k hk => (h.keysOK k hk).1
  have gv := goodVals_of_fit hv hs hvn
  have hf : ∀ r, r < t.rows.length → t.leByKeys lower r t.sortKeys vs = some (decide (lexCmp lower t.sortKeys (cells r) vs ≤ 0)) :=
    fun r hr => leByKeys_eq lower h hne (hc r hr).1 (hc r hr).2.typed gv.typed
  have hm : ∀ r, r < t.rows.length → (RowMatches t t.sortKeys vs r ↔ lexCmp lower t.sortKeys (cells r) vs = 0) :=
    fun r hr => rowMatches_iff lower h (hc r hr).1 (hc r hr).2 gv
  have hb : ∀ r, r < t.rows.length → (ValuesBefore lower t t.sortKeys vs r ↔ 0 < lexCmp lower t.sortKeys (cells r) vs) :=
    fun r hr => valuesBefore_iff lower h (hc r hr).1 (hc r hr).2 gv
  obtain ⟨r, e, h1, h2, h3, h4⟩ := searchLastLoop_spec (fun r => t.leByKeys lower r t.sortKeys vs) (-1) t.rows.length (by omega) (by omega)
    (fun m _ hm => by rw [hf m (by omega)]; rfl)
    (fun a b _ hab hb => by
      have hb : b < t.rows.length := by omega
      rw [hf a (by omega), hf b hb]
      simp only [Option.some.injEq, decide_eq_true_eq]
      intro h0
      have := hmono a b hab hb
      exact lexCmp_trans lower (hc a (by omega)).2 (hc b hb).2 gv this h0)
  have hunf : t.searchLast lower vs = 
      (match t.searchValuesMatch lower r t.sortKeys vs with
        | none => .panic
        | some true => .ok r
        | some false => .err .notFound) := by
    simp only [searchLast, checkSearchArguments_ok h hne hl hv, Out.bind, searchByKeysLast, searchLastFn, rowCount, e]
    exact if_pos h2
  have hgt : ∀ r' : Nat, r < r' → r' < t.rows.length → 0 < lexCmp lower t.sortKeys (cells r') vs := by
    intro r' hr' hlt
    have := h4 r' (by omega) (by omega)
    rw [hf r' hlt] at this
    simp only [Option.some.injEq, decide_eq_false_iff_not] at this
    omega
  by_cases hr : r = -1
  · right; right
    subst hr
    constructor
    · rw [hunf]
      cases hk : t.sortKeys with
      | nil => exact absurd hk hne
      | cons k ks =>
        cases vs with
        | nil => rw [hk] at hv; exact hv.elim
        | cons v vs =>
          have : t.getVal k.colName (-1) = .err _ := getVal_outside h (by omega)
          simp only [searchValuesMatch, this]
    · intro r hr
      exact (hb r hr).2 (hgt r (by omega) hr)
  · obtain ⟨q, rfl⟩ : ∃ q : Nat, r = q := ⟨r.toNat, by omega⟩
    have hq : q < t.rows.length := by omega
    have hle := h3 q (by omega) (by omega)
    rw [hf q hq] at hle
    simp only [Option.some.injEq, decide_eq_true_eq] at hle
    rw [searchValuesMatch_eq lower h (hc q hq).1 (hc q hq).2.typed gv.typed] at hunf
    have hno : ∀ r', q < r' → r' < t.rows.length → ¬ RowMatches t t.sortKeys vs r' := by
      intro r' hr' hlt
      rw [hm r' hlt]
      have := hgt r' (by omega) hlt
      omega
    by_cases hz : lexCmp lower t.sortKeys (cells q) vs = 0
    · left
      rw [hunf]
      exact ⟨q, by simp [hz], hq, (hm q hq).2 hz, hno⟩
    · right; left
      rw [hunf]
      refine ⟨⟨.notFound, by simp [hz]⟩, ⟨q, hq, by rw [hb q hq]; omega⟩, ?_⟩
      intro r' hr'
      by_cases hlt : q < r'
      · exact hno r' hlt hr'
      · rw [hm r' hr']
        intro h0
        have e0 := lexCmp_anti lower (hc r' hr').2.typed gv.typed
        have := hmono r' q (by omega) hq
        have e1 := lexCmp_anti lower (hc q hq).2.typed gv.typed
        have := lexCmp_trans lower gv (hc r' hr').2 (hc q hq).2 (by omega) this
        omega

end Verif
