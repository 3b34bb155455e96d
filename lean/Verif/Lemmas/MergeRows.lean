import Verif.Spec.Merge
import Verif.Props.C22

/-! Merging neighbouring rows of a sorted list of rows: which rows are left and where their cells come from. -/

namespace Verif

variable {τ : Type}

open Table

/-! ## Two cells, two rows -/

/-- The lower cell after the merge of two cells. -/
def pickCell (v w : Cell τ) : Cell τ :=
  if v.weight = 2 then v else if w.weight = 2 then w else if v.weight = 0 then w else if w.weight = 0 then v else w

/-- The lower row after the merge of two rows in their first `C` columns. -/
def pickRow (C : Nat) (a b : List (Cell τ)) : List (Cell τ) :=
  b.mapIdx (fun c w => if c < C then (match a[c]? with | some v => pickCell v w | none => w) else w)

theorem Cell.weight_le (v : Cell τ) : v.weight ≤ 2 := by
  cases v <;> simp only [Cell.weight] <;> (repeat' split) <;> omega

theorem pickCell_or (v w : Cell τ) : pickCell v w = v ∨ pickCell v w = w := by
  unfold pickCell; repeat' split
  all_goals simp

theorem pickCell_weight (v w : Cell τ) : v.weight ≤ (pickCell v w).weight ∧ w.weight ≤ (pickCell v w).weight := by
  have := v.weight_le; have := w.weight_le
  unfold pickCell; repeat' split
  all_goals omega

theorem pickCell_first {v w : Cell τ} (h : v.weight = 2) : pickCell v w = v := by simp [pickCell, h]

theorem pickRow_length (C : Nat) (a b : List (Cell τ)) : (pickRow C a b).length = b.length := by simp [pickRow]

theorem pickRow_get (C : Nat) (a b : List (Cell τ)) (c : Nat) {v w : Cell τ} (hv : a[c]? = some v) (hw : b[c]? = some w) :
    (pickRow C a b)[c]? = some (if c < C then pickCell v w else w) := by
  simp [pickRow, List.getElem?_mapIdx, hw, hv]

theorem pickRow_ge (C : Nat) (a b : List (Cell τ)) (c : Nat) (hc : C ≤ c) : (pickRow C a b)[c]? = b[c]? := by
  rw [pickRow, List.getElem?_mapIdx]
  cases b[c]? <;> simp [Nat.not_lt.2 hc]

/-- The cells of the row `s` are the best of the rows `grp`, column by column: a cell of one of them, none tells more, and of those that
are neither zero nor NaN it is the first. -/
def Best (C : Nat) (grp : List (List (Cell τ))) (s : List (Cell τ)) : Prop :=
  ∀ c, c < C → ∃ (j : Nat) (row : List (Cell τ)) (v : Cell τ), grp[j]? = some row ∧ row[c]? = some v ∧ s[c]? = some v ∧
    ∀ (j' : Nat) (row' : List (Cell τ)) (w : Cell τ), grp[j']? = some row' → row'[c]? = some w →
      w.weight ≤ v.weight ∧ (w.weight = 2 → j ≤ j')

theorem Best.single {C : Nat} {b : List (Cell τ)} (h : C ≤ b.length) : Best C [b] b := by
  intro c hc
  have hlt : c < b.length := by omega
  refine ⟨0, b, b[c], rfl, List.getElem?_eq_getElem hlt, List.getElem?_eq_getElem hlt, ?_⟩
  intro j' row' w hj hw
  cases j' with
  | zero =>
    simp only [List.getElem?_cons_zero, Option.some.injEq] at hj; subst hj
    rw [List.getElem?_eq_getElem hlt] at hw; cases hw; exact ⟨Nat.le_refl _, fun _ => Nat.le_refl _⟩
  | succ j => simp at hj

theorem Best.snoc {C : Nat} {grp : List (List (Cell τ))} {s b : List (Cell τ)} (h : Best C grp s) (hb : C ≤ b.length) :
    Best C (grp ++ [b]) (pickRow C s b) := by
  intro c hc
  obtain ⟨j, row, v, hj, hv, hs, hmax⟩ := h c hc
  have hlt : c < b.length := by omega
  have hw : b[c]? = some b[c] := List.getElem?_eq_getElem hlt
  generalize b[c] = w at hw
  have hp : (pickRow C s b)[c]? = some (pickCell v w) := by rw [pickRow_get C s b c hs hw, if_pos hc]
  have hjlt : j < grp.length := (List.getElem?_eq_some_iff.1 hj).1
  have hwt := pickCell_weight v w
  have hall : ∀ (j' : Nat) (row' : List (Cell τ)) (x : Cell τ), (grp ++ [b])[j']? = some row' → row'[c]? = some x →
      (j' < grp.length ∧ grp[j']? = some row') ∨ (j' = grp.length ∧ x = w) := by
    intro j' row' x hj' hx
    by_cases hl : j' < grp.length
    · rw [List.getElem?_append_left hl] at hj'; exact .inl ⟨hl, hj'⟩
    · rw [List.getElem?_append_right (by omega)] at hj'
      have h0 : j' - grp.length = 0 := by
        cases h1 : j' - grp.length with
        | zero => rfl
        | succ n => rw [h1] at hj'; simp at hj'
      rw [h0] at hj'; simp only [List.getElem?_cons_zero, Option.some.injEq] at hj'
      subst hj'; rw [hw] at hx; cases hx
      exact .inr ⟨by omega, rfl⟩
  by_cases hv2 : v.weight = 2
  · refine ⟨j, row, v, by rw [List.getElem?_append_left hjlt]; exact hj, hv, by rw [hp, pickCell_first hv2], ?_⟩
    intro j' row' x hj' hx
    rcases hall j' row' x hj' hx with ⟨_, h2⟩ | ⟨h1, h2⟩
    · exact hmax j' row' x h2 hx
    · exact ⟨by rw [hv2]; exact x.weight_le, fun _ => by omega⟩
  · rcases pickCell_or v w with e | e
    · refine ⟨j, row, v, by rw [List.getElem?_append_left hjlt]; exact hj, hv, by rw [hp, e], ?_⟩
      intro j' row' x hj' hx
      rcases hall j' row' x hj' hx with ⟨_, h2⟩ | ⟨h1, h2⟩
      · exact hmax j' row' x h2 hx
      · rw [e] at hwt; subst h2
        exact ⟨hwt.2, fun hx2 => absurd (Nat.le_antisymm v.weight_le (hx2 ▸ hwt.2)) hv2⟩
    · refine ⟨grp.length, b, w, by simp, hw, by rw [hp, e], ?_⟩
      intro j' row' x hj' hx
      rcases hall j' row' x hj' hx with ⟨_, h2⟩ | ⟨h1, h2⟩
      · have := hmax j' row' x h2 hx
        rw [e] at hwt
        exact ⟨by omega, fun hx2 => absurd (Nat.le_antisymm v.weight_le (hx2 ▸ this.1)) hv2⟩
      · subst h2; exact ⟨Nat.le_refl _, fun _ => by omega⟩

/-! ## The rows that are left -/

/-- The rows left when each row equal to its successor is merged into it. -/
def survivors (C : Nat) (same : List (Cell τ) → List (Cell τ) → Bool) : List (Cell τ) → List (List (Cell τ)) → List (List (Cell τ))
  | a, [] => [a]
  | a, b :: rest => if same a b then survivors C same (pickRow C a b) rest else a :: survivors C same b rest

/-- Rows that satisfy `G` are ordered by `cmp`, and merging equal rows keeps them equal. -/
structure KeyOrder (C : Nat) (G : List (Cell τ) → Prop) (cmp : List (Cell τ) → List (Cell τ) → Int)
    (same : List (Cell τ) → List (Cell τ) → Bool) : Prop where
  len : ∀ a, G a → C ≤ a.length
  same_iff : ∀ a b, G a → G b → (same a b = true ↔ cmp a b = 0)
  anti : ∀ a b, G a → G b → cmp b a = - cmp a b
  trans : ∀ a b c, G a → G b → G c → cmp a b ≤ 0 → cmp b c ≤ 0 → cmp a c ≤ 0
  pick : ∀ a b, G a → G b → cmp a b = 0 → G (pickRow C a b) ∧ cmp (pickRow C a b) b = 0

namespace KeyOrder

variable {C : Nat} {G : List (Cell τ) → Prop} {cmp : List (Cell τ) → List (Cell τ) → Int} {same : List (Cell τ) → List (Cell τ) → Bool}

theorem refl (h : KeyOrder C G cmp same) {a : List (Cell τ)} (ha : G a) : cmp a a = 0 := by
  have := h.anti a a ha ha; omega

theorem eq_trans (h : KeyOrder C G cmp same) {a b c : List (Cell τ)} (ha : G a) (hb : G b) (hc : G c) (h1 : cmp a b = 0) (h2 : cmp b c = 0) :
    cmp a c = 0 := by
  have := h.trans a b c ha hb hc (by omega) (by omega)
  have h1' := h.anti a b ha hb; have h2' := h.anti b c hb hc; have h3 := h.anti a c ha hc
  have := h.trans c b a hc hb ha (by omega) (by omega)
  omega

theorem le_lt (h : KeyOrder C G cmp same) {a b c : List (Cell τ)} (ha : G a) (hb : G b) (hc : G c) (h1 : cmp a b ≤ 0) (h2 : cmp b c < 0) :
    cmp a c < 0 := by
  have := h.trans a b c ha hb hc h1 (by omega)
  have h2' := h.anti b c hb hc; have h3 := h.anti a c ha hc
  by_cases e : cmp a c = 0
  · have := h.trans c a b hc ha hb (by omega) h1; omega
  · omega

theorem lt_le (h : KeyOrder C G cmp same) {a b c : List (Cell τ)} (ha : G a) (hb : G b) (hc : G c) (h1 : cmp a b < 0) (h2 : cmp b c ≤ 0) :
    cmp a c < 0 := by
  have := h.trans a b c ha hb hc (by omega) h2
  have h2' := h.anti a b ha hb; have h3 := h.anti a c ha hc
  by_cases e : cmp a c = 0
  · have := h.trans b c a hb hc ha h2 (by omega); omega
  · omega

end KeyOrder

theorem survivors_spec {C : Nat} {G : List (Cell τ) → Prop} {cmp : List (Cell τ) → List (Cell τ) → Int}
    {same : List (Cell τ) → List (Cell τ) → Bool} (h : KeyOrder C G cmp same) (rest : List (List (Cell τ))) :
    ∀ (ga : List (List (Cell τ))) (a : List (Cell τ)), ga ≠ [] → G a → (∀ x ∈ ga ++ rest, G x) → (∀ g ∈ ga, cmp g a = 0) → Best C ga a →
    (ga ++ rest).Pairwise (fun x y => cmp x y ≤ 0) →
    (∀ s ∈ survivors C same a rest, G s ∧ cmp a s ≤ 0 ∧ Best C ((ga ++ rest).filter (fun x => decide (cmp x s = 0))) s) ∧
    (survivors C same a rest).Pairwise (fun x y => cmp x y < 0) ∧
    (∀ x ∈ ga ++ rest, ∃ s ∈ survivors C same a rest, cmp x s = 0) := by
  induction rest with
  | nil =>
    intro ga a hne hga hG heq hbest hs
    simp only [survivors, List.append_nil, List.mem_singleton, forall_eq, List.pairwise_cons, List.not_mem_nil, false_implies, implies_true,
      List.Pairwise.nil, and_self, exists_eq_left, true_and] at *
    refine ⟨⟨hga, by rw [h.refl hga]; omega, ?_⟩, heq⟩
    rw [List.filter_eq_self.2 (fun g hg => by simpa using heq g hg)]; exact hbest
  | cons b rest ih =>
    intro ga a hne hga hG heq hbest hs
    have hGb : G b := hG b (by simp)
    obtain ⟨g0, hg0⟩ := List.exists_mem_of_ne_nil ga hne
    have hGg0 : G g0 := hG g0 (by simp [hg0])
    have hsp := List.pairwise_append.1 hs
    have hab : cmp a b ≤ 0 :=
      h.trans a g0 b hga hGg0 hGb (by have := h.anti g0 a hGg0 hga; have := heq g0 hg0; omega) (hsp.2.2 g0 hg0 b (by simp))
    by_cases he : cmp a b = 0
    · have hsame : same a b = true := (h.same_iff a b hga hGb).2 he
      obtain ⟨hp1, hp2⟩ := h.pick a b hga hGb he
      have happ : ga ++ b :: rest = (ga ++ [b]) ++ rest := by simp
      have := ih (ga ++ [b]) (pickRow C a b) (by simp) hp1 (by rw [← happ]; exact hG) (by
        intro g hg
        have hbp : cmp b (pickRow C a b) = 0 := by have := h.anti _ _ hp1 hGb; omega
        rcases List.mem_append.1 hg with hg | hg
        · exact h.eq_trans (hG g (by simp [hg])) hGb hp1 (h.eq_trans (hG g (by simp [hg])) hga hGb (heq g hg) he) hbp
        · simp only [List.mem_singleton] at hg; subst hg; exact hbp) (hbest.snoc (h.len b hGb)) (by rw [← happ]; exact hs)
      simp only [survivors, hsame, if_true]
      rw [happ]
      refine ⟨fun s hs' => ?_, this.2⟩
      obtain ⟨h1, h2, h3⟩ := this.1 s hs'
      refine ⟨h1, ?_, h3⟩
      exact h.trans a (pickRow C a b) s hga hp1 h1 (by
        have e1 : cmp b (pickRow C a b) = 0 := by have := h.anti _ _ hp1 hGb; omega
        rw [h.eq_trans hga hGb hp1 he e1]; omega) h2
    · have hlt : cmp a b < 0 := by omega
      have hsame : same a b = false := by
        cases hq : same a b with
        | false => rfl
        | true => exact absurd ((h.same_iff a b hga hGb).1 hq) he
      have hbrest : ∀ x ∈ rest, cmp b x ≤ 0 := (List.pairwise_cons.1 hsp.2.1).1
      have := ih [b] b (by simp) hGb (by intro x hx; exact hG x (by simp at hx ⊢; rcases hx with hx | hx <;> simp [hx]))
        (by simp [h.refl hGb]) (Best.single (h.len b hGb)) (by simpa using hsp.2.1)
      simp only [survivors, hsame, Bool.false_eq_true, if_false]
      obtain ⟨i1, i2, i3⟩ := this
      simp only [List.singleton_append] at i1 i3
      refine ⟨?_, ?_, ?_⟩
      · intro s hs'
        rcases List.mem_cons.1 hs' with hs' | hs'
        · subst hs'
          refine ⟨hga, by rw [h.refl hga]; omega, ?_⟩
          rw [List.filter_append, List.filter_eq_self.2 (fun g hg => by simpa using heq g hg), List.filter_eq_nil_iff.2, List.append_nil]
          · exact hbest
          · intro x hx
            have hGx : G x := hG x (by simp at hx ⊢; rcases hx with hx | hx <;> simp [hx])
            have hax : cmp s x < 0 := by
              rcases List.mem_cons.1 hx with hx | hx
              · subst hx; exact hlt
              · exact h.lt_le hga hGb hGx hlt (hbrest x hx)
            have := h.anti s x hga hGx
            simp only [decide_eq_true_eq]; omega
        · obtain ⟨j1, j2, j3⟩ := i1 s hs'
          refine ⟨j1, by have := h.lt_le hga hGb j1 hlt j2; omega, ?_⟩
          rw [List.filter_append, List.filter_eq_nil_iff.2, List.nil_append]
          · exact j3
          · intro g hg
            have hGg := hG g (by simp [hg])
            have : cmp g s < 0 := h.le_lt hGg hga j1 (by rw [heq g hg]; omega) (h.lt_le hga hGb j1 hlt j2)
            simp only [decide_eq_true_eq]; omega
      · refine List.pairwise_cons.2 ⟨fun s hs' => ?_, i2⟩
        obtain ⟨j1, j2, _⟩ := i1 s hs'
        exact h.lt_le hga hGb j1 hlt j2
      · intro x hx
        rcases List.mem_append.1 hx with hx | hx
        · exact ⟨a, by simp, heq x hx⟩
        · obtain ⟨s, hs1, hs2⟩ := i3 x hx
          exact ⟨s, by simp [hs1], hs2⟩

theorem survivors_length (C : Nat) (same : List (Cell τ) → List (Cell τ) → Bool) (rest : List (List (Cell τ))) (a : List (Cell τ)) :
    (survivors C same a rest).length ≤ rest.length + 1 ∧
    ((survivors C same a rest).length = rest.length + 1 → survivors C same a rest = a :: rest) := by
  induction rest generalizing a with
  | nil => simp [survivors]
  | cons b rest ih =>
    simp only [survivors]
    split
    · have := ih (pickRow C a b)
      simp only [List.length_cons]; exact ⟨by omega, fun h => by omega⟩
    · have := ih b
      simp only [List.length_cons]
      exact ⟨by omega, fun h => by rw [this.2 (by omega)]⟩

/-- No two rows equal: nothing is merged. -/
theorem survivors_all (C : Nat) (same : List (Cell τ) → List (Cell τ) → Bool) (rest : List (List (Cell τ))) (a : List (Cell τ))
    (h : (a :: rest).Pairwise (fun x y => same x y = false)) : survivors C same a rest = a :: rest := by
  induction rest generalizing a with
  | nil => simp [survivors]
  | cons b rest ih =>
    have h' := List.pairwise_cons.1 h
    simp only [survivors, h'.1 b (by simp), Bool.false_eq_true, if_false, ih b h'.2]

/-! ## The keys in the first columns -/

theorem goodVals_iff {ks : List SortKey} {as : List (Cell τ)} :
    GoodVals ks as ↔ as.length = ks.length ∧ ∀ (i : Nat) (k : SortKey) (a : Cell τ), ks[i]? = some k → as[i]? = some a → Good k.colType a := by
  induction ks generalizing as with
  | nil => cases as <;> simp [GoodVals]
  | cons k ks ih =>
    cases as with
    | nil => simp [GoodVals]
    | cons a as =>
      simp only [GoodVals, ih, List.length_cons, Nat.add_right_cancel_iff]
      constructor
      · rintro ⟨h1, h2, h3⟩
        refine ⟨h2, fun i => ?_⟩
        cases i with
        | zero => intro k' a' e1 e2; simp at e1 e2; subst e1; subst e2; exact h1
        | succ i => intro k' a' e1 e2; exact h3 i k' a' (by simpa using e1) (by simpa using e2)
      · rintro ⟨h2, h3⟩
        exact ⟨h3 0 k a rfl rfl, h2, fun i k' a' e1 e2 => h3 (i + 1) k' a' (by simpa using e1) (by simpa using e2)⟩

theorem lexCmp_zero_iff (lower : GoStr → GoStr) {ks : List SortKey} {as bs : List (Cell τ)} (ha : as.length = ks.length) (hb : bs.length = ks.length) :
    lexCmp lower ks as bs = 0 ↔ ∀ (i : Nat) (k : SortKey) (a b : Cell τ), ks[i]? = some k → as[i]? = some a → bs[i]? = some b →
      cmpKey lower k a b = 0 := by
  induction ks generalizing as bs with
  | nil => cases as <;> cases bs <;> simp_all [lexCmp]
  | cons k ks ih =>
    cases as with
    | nil => simp at ha
    | cons a as =>
      cases bs with
      | nil => simp at hb
      | cons b bs =>
        rw [lexCmp_cons]
        have := ih (as := as) (bs := bs) (by simpa using ha) (by simpa using hb)
        constructor
        · intro hz
          by_cases e : cmpKey lower k a b = 0
          · rw [if_neg (by simpa using e)] at hz
            intro i
            cases i with
            | zero => intro k' a' b' e1 e2 e3; simp at e1 e2 e3; subst e1; subst e2; subst e3; exact e
            | succ i => intro k' a' b' e1 e2 e3; exact this.1 hz i k' a' b' (by simpa using e1) (by simpa using e2) (by simpa using e3)
          · rw [if_pos e] at hz; exact absurd hz e
        · intro hall
          rw [if_neg (by simpa using hall 0 k a b rfl rfl rfl)]
          exact this.2 fun i k' a' b' e1 e2 e3 => hall (i + 1) k' a' b' (by simpa using e1) (by simpa using e2) (by simpa using e3)

theorem lexCmp_eqVal (lower : GoStr → GoStr) {ks : List SortKey} {as bs : List (Cell τ)} (ha : GoodVals ks as) (hb : GoodVals ks bs) :
    lexCmp lower ks as bs = 0 ↔ ∀ (i : Nat) (a b : Cell τ), i < ks.length → as[i]? = some a → bs[i]? = some b → a.EqVal b := by
  obtain ⟨la, ga⟩ := goodVals_iff.1 ha
  obtain ⟨lb, gb⟩ := goodVals_iff.1 hb
  rw [lexCmp_zero_iff lower la lb]
  constructor
  · intro h i a b hi e1 e2
    have hk : ks[i]? = some ks[i] := List.getElem?_eq_getElem hi
    exact (cmpKey_zero lower (ga i _ a hk e1) (gb i _ b hk e2)).1 (h i _ a b hk e1 e2)
  · intro h i k a b hk e1 e2
    exact (cmpKey_zero lower (ga i _ a hk e1) (gb i _ b hk e2)).2 (h i a b (List.getElem?_eq_some_iff.1 hk).1 e1 e2)

theorem ascending_length (ks : List SortKey) : (ascending ks).length = ks.length := by simp [ascending]

theorem goodVals_ascending {ks : List SortKey} {as : List (Cell τ)} (h : GoodVals ks as) : GoodVals (ascending ks) as := by
  obtain ⟨la, ga⟩ := goodVals_iff.1 h
  refine goodVals_iff.2 ⟨by rw [ascending_length]; exact la, fun i k a hk e => ?_⟩
  simp only [ascending, List.getElem?_map, Option.map_eq_some_iff] at hk
  obtain ⟨k', hk', rfl⟩ := hk
  exact ga i k' a hk' e

/-- Rows whose first columns hold key cells, ordered by these. -/
theorem keyOrder (lower : GoStr → GoStr) (ks : List SortKey) (C : Nat) (hC : ks.length ≤ C) :
    KeyOrder (τ := τ) C (fun a => GoodVals ks (a.take ks.length) ∧ C ≤ a.length) (fun a b => lexCmp lower ks (a.take ks.length) (b.take ks.length))
      (fun a b => decide (lexCmp lower (ascending ks) (a.take ks.length) (b.take ks.length) = 0)) where
  len a h := h.2
  same_iff a b ha hb := by
    rw [decide_eq_true_eq, lexCmp_eqVal lower ha.1 hb.1, lexCmp_eqVal lower (goodVals_ascending ha.1) (goodVals_ascending hb.1), ascending_length]
  anti a b ha hb := lexCmp_anti lower ha.1.typed hb.1.typed
  trans a b c ha hb hc h1 h2 := lexCmp_trans lower ha.1 hb.1 hc.1 h1 h2
  pick a b ha hb h0 := by
    obtain ⟨la, ga⟩ := goodVals_iff.1 ha.1
    obtain ⟨lb, gb⟩ := goodVals_iff.1 hb.1
    have hcell : ∀ (i : Nat) (x : Cell τ), ((pickRow C a b).take ks.length)[i]? = some x →
        i < ks.length ∧ ∃ v w, (a.take ks.length)[i]? = some v ∧ (b.take ks.length)[i]? = some w ∧ (x = v ∨ x = w) := by
      intro i x hx
      rw [List.getElem?_take] at hx
      split at hx
      · rename_i hi
        have ea : a[i]? = some a[i] := List.getElem?_eq_getElem (by omega)
        have eb : b[i]? = some b[i] := List.getElem?_eq_getElem (by omega)
        rw [pickRow_get C a b i ea eb, if_pos (by omega)] at hx
        refine ⟨hi, a[i], b[i], by rw [List.getElem?_take, if_pos hi, ea], by rw [List.getElem?_take, if_pos hi, eb], ?_⟩
        rcases pickCell_or a[i] b[i] with e | e <;> rw [e] at hx <;> cases hx
        · exact .inl rfl
        · exact .inr rfl
      · exact absurd hx (by simp)
    have hg : GoodVals ks ((pickRow C a b).take ks.length) := by
      refine goodVals_iff.2 ⟨by rw [List.length_take, pickRow_length, ← List.length_take, lb], fun i k x hk hx => ?_⟩
      obtain ⟨_, v, w, h1, h2, h3⟩ := hcell i x hx
      rcases h3 with h3 | h3 <;> subst h3
      · exact ga i k _ hk h1
      · exact gb i k _ hk h2
    refine ⟨⟨hg, by rw [pickRow_length]; exact hb.2⟩, ?_⟩
    rw [lexCmp_zero_iff lower (goodVals_iff.1 hg).1 lb]
    intro i k x w hk hx hw
    obtain ⟨_, v, w', h1, h2, h3⟩ := hcell i x hx
    rw [h2] at hw; cases hw
    rcases h3 with h3 | h3 <;> subst h3
    · exact (lexCmp_zero_iff lower la lb).1 h0 i k _ _ hk h1 h2
    · have hh := gb i k _ hk h2
      have := cmpKey_anti lower hh.1 hh.2.1 hh.2.1
      omega

end Verif
