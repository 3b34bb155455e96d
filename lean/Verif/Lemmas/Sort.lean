import Verif.Lemmas.Order
import Verif.Lemmas.Preserve

/-! # Rows compared by sort keys -/

namespace Verif
open Table

variable {τ : Type}

/-- `as` are the cells of row `r` in the key columns. -/
def KeyCells (t : Table τ) (r : Nat) : List SortKey → List (Cell τ) → Prop
  | [], [] => True
  | k :: ks, a :: as => At t k.colName r a ∧ KeyCells t r ks as
  | _, _ => False

theorem WF.At_hasType {t : Table τ} (h : WF t) {n : GoStr} {ty : ColType} {r : Nat} {a : Cell τ}
    (hc : HasColT t n ty) (ha : At t n r a) : a.HasType ty := by
  obtain ⟨i, h1, h2⟩ := hc
  obtain ⟨j, row, g1, g2, g3⟩ := ha
  have := h.map_unique h1 g1
  subst this
  exact (h.rowsOK row (List.mem_of_getElem? g2)).2 i ty a h2 g3

theorem keyCells_exists {t : Table τ} (h : WF t) {r : Nat} (hr : r < t.rows.length) (ks : List SortKey)
    (hk : ∀ k ∈ ks, HasColT t k.colName k.colType) (hs : ∀ k ∈ ks, k.colType.Sortable = true) :
    ∃ as, KeyCells t r ks as ∧ Typed ks as := by
  induction ks with
  | nil => exact ⟨[], trivial, trivial⟩
  | cons k ks ih =>
    obtain ⟨as, h1, h2⟩ := ih (fun k' h' => hk k' (List.mem_cons_of_mem _ h')) (fun k' h' => hs k' (List.mem_cons_of_mem _ h'))
    have hc := hk k (by simp)
    obtain ⟨i, hi, _⟩ := id hc
    obtain ⟨a, ha⟩ := At_exists h (List.mem_of_getElem? hi) hr
    exact ⟨a :: as, ⟨ha, h1⟩, hs k (by simp), h.At_hasType hc ha, h2⟩

theorem KeyCells.good {t : Table τ} {r : Nat} {ks : List SortKey} {as : List (Cell τ)} (h : KeyCells t r ks as)
    (ht : Typed ks as) (hn : ∀ k ∈ ks, ∀ r v, At t k.colName r v → ¬ v.IsNaN) : GoodVals ks as := by
  induction ks generalizing as with
  | nil => cases as <;> simp_all [KeyCells, GoodVals]
  | cons k ks ih =>
    cases as with
    | nil => exact h.elim
    | cons a as =>
      exact ⟨⟨ht.1, ht.2.1, hn k (by simp) r a h.1⟩,
        ih h.2 ht.2.2 (fun k' h' => hn k' (List.mem_cons_of_mem _ h'))⟩

theorem compareFn_getD (lower : GoStr → GoStr) {k : SortKey} {a b : Cell τ} (hs : k.colType.Sortable = true)
    (ha : a.HasType k.colType) (hb : b.HasType k.colType) :
    ∃ c, compareFn lower k.colType a b = some c ∧ cmpKey lower k a b = (if k.reverse then c * (-1) else c) := by
  obtain ⟨c, e, _⟩ := compareFn_spec lower hs ha hb
  exact ⟨c, e, by simp only [cmpKey, e, Option.getD_some]⟩

theorem lexCmp_cons (lower : GoStr → GoStr) (k : SortKey) (ks : List SortKey) (a b : Cell τ) (as bs : List (Cell τ)) :
    lexCmp lower (k :: ks) (a :: as) (b :: bs) =
      if cmpKey lower k a b ≠ 0 then cmpKey lower k a b else lexCmp lower ks as bs := rfl

theorem lessByKeys_eq (lower : GoStr → GoStr) {t : Table τ} (h : WF t) {i j : Nat} {ri rj : List (Cell τ)}
    (hi : t.rows[i]? = some ri) (hj : t.rows[j]? = some rj) {ks : List SortKey} {as bs : List (Cell τ)}
    (ha : KeyCells t i ks as) (hb : KeyCells t j ks bs) (hta : Typed ks as) (htb : Typed ks bs) :
    t.lessByKeys lower ks ri rj = some (decide (lexCmp lower ks as bs < 0)) := by
  induction ks generalizing as bs with
  | nil => simp [lessByKeys, lexCmp]
  | cons k ks ih =>
    cases as with
    | nil => exact ha.elim
    | cons a as =>
      cases bs with
      | nil => exact hb.elim
      | cons b bs =>
        obtain ⟨c1, row1, x1, x2, x3⟩ := ha.1
        obtain ⟨c2, row2, y1, y2, y3⟩ := hb.1
        have := h.map_unique x1 y1
        subst this
        rw [hi] at x2; cases x2
        rw [hj] at y2; cases y2
        obtain ⟨c, e1, e2⟩ := compareFn_getD lower hta.1 hta.2.1 htb.2.1
        simp only [lessByKeys, h.colIndex_ok.2 x1, goGet?_nat, x3, y3, e1, lexCmp, ← e2]
        split
        · rfl
        · exact ih ha.2 hb.2 hta.2.2 htb.2.2

theorem geByKeys_eq (lower : GoStr → GoStr) {t : Table τ} (h : WF t) {r : Nat}
    {ks : List SortKey} {as vs : List (Cell τ)} (hne : ks ≠ [])
    (ha : KeyCells t r ks as) (hta : Typed ks as) (htv : Typed ks vs) :
    t.geByKeys lower r ks vs = some (decide (0 ≤ lexCmp lower ks as vs)) := by
  induction ks generalizing as vs with
  | nil => exact absurd rfl hne
  | cons k ks ih =>
    cases as with
    | nil => exact ha.elim
    | cons a as =>
      cases vs with
      | nil => exact htv.elim
      | cons v vs =>
        have hg : t.getVal k.colName r = .ok a := (getVal_ok_iff h).2 ⟨r, rfl, ha.1⟩
        obtain ⟨c, e1, e2⟩ := compareFn_getD lower hta.1 hta.2.1 htv.2.1
        rw [lexCmp_cons]
        simp only [geByKeys, hg, e1, ← e2]
        cases ks with
        | nil =>
          simp only [List.length_nil, if_true]
          congr 1
          cases as with
          | nil => simp only [lexCmp]; split <;> simp <;> omega
          | cons => exact ha.2.elim
        | cons k2 ks =>
          rw [if_neg (by simp)]
          have := ih (by simp) ha.2 hta.2.2 htv.2.2
          split
          · rw [if_pos (by omega)]; simp; omega
          · split
            · rw [if_pos (by omega)]; simp; omega
            · rw [if_neg (by omega)]; exact this

theorem leByKeys_eq (lower : GoStr → GoStr) {t : Table τ} (h : WF t) {r : Nat}
    {ks : List SortKey} {as vs : List (Cell τ)} (hne : ks ≠ [])
    (ha : KeyCells t r ks as) (hta : Typed ks as) (htv : Typed ks vs) :
    t.leByKeys lower r ks vs = some (decide (lexCmp lower ks as vs ≤ 0)) := by
  induction ks generalizing as vs with
  | nil => exact absurd rfl hne
  | cons k ks ih =>
    cases as with
    | nil => exact ha.elim
    | cons a as =>
      cases vs with
      | nil => exact htv.elim
      | cons v vs =>
        have hg : t.getVal k.colName r = .ok a := (getVal_ok_iff h).2 ⟨r, rfl, ha.1⟩
        obtain ⟨c, e1, e2⟩ := compareFn_getD lower hta.1 hta.2.1 htv.2.1
        rw [lexCmp_cons]
        simp only [leByKeys, hg, e1, ← e2]
        cases ks with
        | nil =>
          simp only [List.length_nil, if_true]
          congr 1
          cases as with
          | nil => simp only [lexCmp]; split <;> simp <;> omega
          | cons => exact ha.2.elim
        | cons k2 ks =>
          rw [if_neg (by simp)]
          have := ih (by simp) ha.2 hta.2.2 htv.2.2
          split
          · rw [if_pos (by omega)]; simp; omega
          · split
            · rw [if_pos (by omega)]; simp; omega
            · rw [if_neg (by omega)]; exact this

theorem searchValuesMatch_eq (lower : GoStr → GoStr) {t : Table τ} (h : WF t) {r : Nat}
    {ks : List SortKey} {as vs : List (Cell τ)}
    (ha : KeyCells t r ks as) (hta : Typed ks as) (htv : Typed ks vs) :
    t.searchValuesMatch lower r ks vs = some (decide (lexCmp lower ks as vs = 0)) := by
  induction ks generalizing as vs with
  | nil => cases vs <;> simp [searchValuesMatch, lexCmp]
  | cons k ks ih =>
    cases as with
    | nil => exact ha.elim
    | cons a as =>
      cases vs with
      | nil => exact htv.elim
      | cons v vs =>
        have hg : t.getVal k.colName r = .ok a := (getVal_ok_iff h).2 ⟨r, rfl, ha.1⟩
        obtain ⟨c, e1, e2⟩ := compareFn_getD lower hta.1 hta.2.1 htv.2.1
        have hz : c = 0 ↔ cmpKey lower k a v = 0 := by rw [e2]; split <;> omega
        rw [lexCmp_cons]
        simp only [searchValuesMatch, hg, e1]
        by_cases hc : c = 0
        · rw [if_neg (by omega), if_neg (by omega)]
          exact ih ha.2 hta.2.2 htv.2.2
        · rw [if_pos hc, if_pos (by omega)]
          have : cmpKey lower k a v ≠ 0 := fun e => hc (hz.2 e)
          simp [this]

/-! ## The specification in terms of `lexCmp` -/

theorem keyBefore_iff (lower : GoStr → GoStr) {t : Table τ} (h : WF t) {i j : Nat} {k : SortKey} {a b : Cell τ}
    (ha : At t k.colName i a) (hb : At t k.colName j b) (hs : k.colType.Sortable = true)
    (hta : a.HasType k.colType) (htb : b.HasType k.colType) :
    KeyBefore lower t k i j ↔ cmpKey lower k a b < 0 := by
  rw [cmpKey_lt lower hs hta htb]
  constructor
  · rintro ⟨a', b', h1, h2, h3⟩
    rw [At_unique h ha h1, At_unique h hb h2]; exact h3
  · intro h3; exact ⟨a, b, ha, hb, h3⟩

theorem rowBefore_iff (lower : GoStr → GoStr) {t : Table τ} (h : WF t) {i j : Nat}
    {ks : List SortKey} {as bs : List (Cell τ)}
    (ha : KeyCells t i ks as) (hb : KeyCells t j ks bs) (hta : Typed ks as) (htb : Typed ks bs) :
    RowBefore lower t ks i j ↔ lexCmp lower ks as bs < 0 := by
  induction ks generalizing as bs with
  | nil => simp [RowBefore, lexCmp]
  | cons k ks ih =>
    cases as with
    | nil => exact ha.elim
    | cons a as =>
      cases bs with
      | nil => exact hb.elim
      | cons b bs =>
        have h1 := keyBefore_iff lower h ha.1 hb.1 hta.1 hta.2.1 htb.2.1
        have h2 := keyBefore_iff lower h hb.1 ha.1 hta.1 htb.2.1 hta.2.1
        have h3 := cmpKey_anti lower hta.1 hta.2.1 htb.2.1
        have h4 := ih ha.2 hb.2 hta.2.2 htb.2.2
        simp only [RowBefore, h1, h2, h4, lexCmp]
        split <;> omega

theorem cmpKey_zero (lower : GoStr → GoStr) {k : SortKey} {a b : Cell τ} (ha : Good k.colType a) (hb : Good k.colType b) :
    cmpKey lower k a b = 0 ↔ a.EqVal b := by
  have e1 := cmpKey_lt lower ha.1 ha.2.1 hb.2.1
  have e2 := cmpKey_lt lower ha.1 hb.2.1 ha.2.1
  rw [cmpKey_anti lower ha.1 ha.2.1 hb.2.1] at e2
  rw [eqVal_iff lower ha hb]
  have : cmpKey lower k a b = 0 ↔ (¬ cmpKey lower k a b < 0 ∧ ¬ - cmpKey lower k a b < 0) := by omega
  rw [this, e1, e2]
  cases k.reverse <;> simp [and_comm]

theorem rowMatches_iff (lower : GoStr → GoStr) {t : Table τ} (h : WF t) {r : Nat}
    {ks : List SortKey} {as vs : List (Cell τ)}
    (ha : KeyCells t r ks as) (hta : GoodVals ks as) (htv : GoodVals ks vs) :
    RowMatches t ks vs r ↔ lexCmp lower ks as vs = 0 := by
  induction ks generalizing as vs with
  | nil => cases vs <;> simp_all [RowMatches, lexCmp, GoodVals]
  | cons k ks ih =>
    cases as with
    | nil => exact ha.elim
    | cons a as =>
      cases vs with
      | nil => exact htv.elim
      | cons v vs =>
        have h4 := ih ha.2 hta.2 htv.2
        have h5 := cmpKey_zero lower hta.1 htv.1
        have h6 : (∃ a', At t k.colName r a' ∧ a'.EqVal v) ↔ a.EqVal v := by
          constructor
          · rintro ⟨a', g1, g2⟩; rw [At_unique h ha.1 g1]; exact g2
          · intro g; exact ⟨a, ha.1, g⟩
        simp only [RowMatches, lexCmp, h6, ← h5, h4]
        split <;> simp_all

theorem goodVals_of_fit {ks : List SortKey} {vs : List (Cell τ)} (h : ValuesFit ks vs)
    (hs : ∀ k ∈ ks, k.colType.Sortable = true) (hn : ∀ v ∈ vs, ¬ v.IsNaN) : GoodVals ks vs := by
  induction ks generalizing vs with
  | nil => cases vs <;> simp_all [ValuesFit, GoodVals]
  | cons k ks ih =>
    cases vs with
    | nil => exact h.elim
    | cons v vs =>
      exact ⟨⟨hs k (by simp), h.1, hn v (by simp)⟩,
        ih h.2 (fun k' h' => hs k' (List.mem_cons_of_mem _ h')) (fun v' h' => hn v' (List.mem_cons_of_mem _ h'))⟩

theorem typed_of_fit {ks : List SortKey} {vs : List (Cell τ)} (h : ValuesFit ks vs)
    (hs : ∀ k ∈ ks, k.colType.Sortable = true) : Typed ks vs := by
  induction ks generalizing vs with
  | nil => cases vs <;> simp_all [ValuesFit, Typed]
  | cons k ks ih =>
    cases vs with
    | nil => exact h.elim
    | cons v vs => exact ⟨hs k (by simp), h.1, ih h.2 (fun k' h' => hs k' (List.mem_cons_of_mem _ h'))⟩

/-! ## Binary search -/

theorem searchLoop_spec (f : Nat → Option Bool) (i j : Nat) (hij : i ≤ j)
    (htot : ∀ m, i ≤ m → m < j → (f m).isSome = true)
    (hmono : ∀ a b, i ≤ a → a ≤ b → b < j → f a = some true → f b = some true) :
    ∃ r, searchLoop f i j = some r ∧ i ≤ r ∧ r ≤ j ∧ (∀ m, i ≤ m → m < r → f m = some false) ∧
      (∀ m, r ≤ m → m < j → f m = some true) := by
  fun_induction searchLoop f i j with
  | case1 i j h m hm =>
    have := htot m (by omega) (by omega)
    simp [hm] at this
  | case2 i j h m hm ih =>
    obtain ⟨r, e, h1, h2, h3, h4⟩ := ih (by omega) (fun m' a b => htot m' (by omega) b)
      (fun a b ha hab hb => hmono a b (by omega) hab hb)
    refine ⟨r, e, by omega, h2, fun m' hm1 hm2 => ?_, h4⟩
    by_cases hle : m + 1 ≤ m'
    · exact h3 m' hle hm2
    · have := htot m' hm1 (by omega)
      cases hv : f m' with
      | none => simp [hv] at this
      | some v =>
        cases v with
        | false => rfl
        | true =>
          have := hmono m' m hm1 (by omega) (by omega) hv
          rw [hm] at this; cases this
  | case3 i j h m hm ih =>
    obtain ⟨r, e, h1, h2, h3, h4⟩ := ih (by omega) (fun m' a b => htot m' a (by omega))
      (fun a b ha hab hb => hmono a b ha hab (by omega))
    refine ⟨r, e, h1, by omega, h3, fun m' hm1 hm2 => ?_⟩
    by_cases hlt : m' < m
    · exact h4 m' hm1 hlt
    · exact hmono m m' (by omega) (by omega) hm2 hm
  | case4 i j h =>
    exact ⟨i, rfl, by omega, hij, fun m a b => by omega, fun m a b => by omega⟩

theorem searchLastLoop_spec (f : Nat → Option Bool) (i j : Int) (hij : i < j) (hi : -1 ≤ i)
    (htot : ∀ m : Nat, i < m → (m : Int) < j → (f m).isSome = true)
    (hmono : ∀ a b : Nat, i < a → a ≤ b → (b : Int) < j → f b = some true → f a = some true) :
    ∃ r, searchLastLoop f i j = some r ∧ i ≤ r ∧ r < j ∧ (∀ m : Nat, i < m → (m : Int) ≤ r → f m = some true) ∧
      (∀ m : Nat, r < m → (m : Int) < j → f m = some false) := by
  fun_induction searchLastLoop f i j with
  | case1 i j h m hm =>
    have := htot m.toNat (by omega) (by omega)
    simp [hm] at this
  | case2 i j h m hm ih =>
    obtain ⟨r, e, h1, h2, h3, h4⟩ := ih (by omega) hi (fun m' a b => htot m' a (by omega))
      (fun a b ha hab hb => hmono a b ha hab (by omega))
    refine ⟨r, e, h1, by omega, h3, fun m' hm1 hm2 => ?_⟩
    by_cases hlt : (m' : Int) < m
    · exact h4 m' hm1 hlt
    · have := htot m' (by omega) (by omega)
      cases hv : f m' with
      | none => simp [hv] at this
      | some v =>
        cases v with
        | false => rfl
        | true =>
          have := hmono m.toNat m' (by omega) (by omega) (by omega) hv
          rw [hm] at this; cases this
  | case3 i j h m hm ih =>
    obtain ⟨r, e, h1, h2, h3, h4⟩ := ih (by omega) (by omega) (fun m' a b => htot m' (by omega) b)
      (fun a b ha hab hb => hmono a b (by omega) hab hb)
    refine ⟨r, e, by omega, h2, fun m' hm1 hm2 => ?_, h4⟩
    by_cases hle : m < m'
    · exact h3 m' hle hm2
    · exact hmono m' m.toNat (by omega) (by omega) (by omega) hm
  | case4 i j h =>
    exact ⟨i, rfl, by omega, by omega, fun m a b => by omega, fun m a b => by omega⟩

end Verif
