import Verif.Spec.Order
import Verif.Lemmas.At

/-! # Order laws of the comparison functions -/

namespace Verif
open Table

variable {τ : Type}

/-! ## Strings -/

theorem strLt_iff (a b : GoStr) : strLt a b = true ↔ a < b := by
  induction a generalizing b with
  | nil => cases b <;> simp [strLt]
  | cons x xs ih =>
    cases b with
    | nil => simp [strLt]
    | cons y ys =>
      rw [List.cons_lt_cons_iff]
      simp only [strLt]
      split
      · rename_i h; simp [h]
      · rename_i h
        split
        · rename_i h'
          simp only [Bool.false_eq_true, h, false_or, false_iff, not_and]
          rintro rfl; exact absurd h' h
        · rename_i h'
          have : x = y := by
            apply UInt8.toNat_inj.1
            simp only [UInt8.lt_iff_toNat_lt] at h h'
            omega
          subst this
          simp [ih, h]

theorem str_trichotomy (a b : GoStr) : a < b ∨ a = b ∨ b < a := by
  induction a generalizing b with
  | nil => cases b <;> simp
  | cons x xs ih =>
    cases b with
    | nil => simp
    | cons y ys =>
      simp only [List.cons_lt_cons_iff, List.cons.injEq]
      rcases Nat.lt_trichotomy x.toNat y.toNat with h | h | h
      · left; left; exact UInt8.lt_iff_toNat_lt.2 h
      · have := UInt8.toNat_inj.1 h
        subst this
        rcases ih ys with h | h | h
        · left; right; exact ⟨rfl, h⟩
        · right; left; exact ⟨rfl, h⟩
        · right; right; right; exact ⟨rfl, h⟩
      · right; right; left; exact UInt8.lt_iff_toNat_lt.2 h

theorem str_irrefl (a : GoStr) : ¬ a < a := by
  induction a with
  | nil => simp
  | cons x xs ih =>
    rw [List.cons_lt_cons_iff]
    rintro (h | ⟨_, h⟩)
    · simp [UInt8.lt_iff_toNat_lt] at h
    · exact ih h

theorem str_trans {a b c : GoStr} (h1 : a < b) (h2 : b < c) : a < c := by
  induction a generalizing b c with
  | nil => cases b with
    | nil => simp at h1
    | cons y ys => cases c <;> simp_all
  | cons x xs ih =>
    cases b with
    | nil => simp at h1
    | cons y ys =>
      cases c with
      | nil => simp at h2
      | cons z zs =>
        rw [List.cons_lt_cons_iff] at h1 h2 ⊢
        simp only [UInt8.lt_iff_toNat_lt] at *
        rcases h1 with h1 | ⟨rfl, h1⟩
        · rcases h2 with h2 | ⟨rfl, h2⟩
          · left; omega
          · left; exact h1
        · rcases h2 with h2 | ⟨rfl, h2⟩
          · left; exact h2
          · right; exact ⟨rfl, ih h1 h2⟩

theorem str_asymm {a b : GoStr} (h : a < b) : ¬ b < a := fun h' => str_irrefl a (str_trans h h')

/-! ## One comparison -/

/-- The outcome of a comparison function, in terms of `Less`. -/
def CmpSpec (lower : GoStr → GoStr) (a b : Cell τ) (c : Int) : Prop :=
  (c = -1 ∧ a.Less lower b ∧ ¬ b.Less lower a) ∨ (c = 1 ∧ ¬ a.Less lower b ∧ b.Less lower a) ∨
  (c = 0 ∧ ¬ a.Less lower b ∧ ¬ b.Less lower a)

theorem compareInt_spec (lower : GoStr → GoStr) (k k' : IntKind) (a b : Int) :
    CmpSpec (τ := τ) lower (.int k a) (.int k' b) (compareInt a b) := by
  simp only [CmpSpec, compareInt, Cell.Less]
  split
  · left; omega
  · split
    · right; left; omega
    · right; right; omega

theorem compareF64_spec (lower : GoStr → GoStr) (a b : BitVec 64) :
    CmpSpec (τ := τ) lower (.f64 a) (.f64 b) (compareF64 a b) := by
  have asym : f64Lt a b = true → f64Lt b a = true → False := by
    simp only [f64Lt, Bool.and_eq_true, decide_eq_true_eq]; omega
  simp only [CmpSpec, compareF64, Cell.Less]
  cases h1 : f64Lt a b <;> cases h2 : f64Lt b a <;> simp_all

theorem compareF32_spec (lower : GoStr → GoStr) (a b : BitVec 32) :
    CmpSpec (τ := τ) lower (.f32 a) (.f32 b) (compareF32 a b) := by
  have asym : f32Lt a b = true → f32Lt b a = true → False := by
    simp only [f32Lt, Bool.and_eq_true, decide_eq_true_eq]; omega
  simp only [CmpSpec, compareF32, Cell.Less]
  cases h1 : f32Lt a b <;> cases h2 : f32Lt b a <;> simp_all

theorem compareBool_spec (lower : GoStr → GoStr) (a b : Bool) :
    CmpSpec (τ := τ) lower (.bool a) (.bool b) (compareBool a b) := by
  cases a <;> cases b <;> simp [CmpSpec, compareBool, Cell.Less]

theorem compareString_spec (lower : GoStr → GoStr) (a b : GoStr) :
    CmpSpec (τ := τ) lower (.str a) (.str b) (compareString lower a b) := by
  simp only [CmpSpec, compareString, Cell.Less, strLt_iff]
  rcases str_trichotomy (lower a) (lower b) with h | h | h
  · have h' := str_asymm h
    have hne : lower b ≠ lower a := by intro e; rw [e] at h; exact str_irrefl _ h
    simp [h, h', hne]
  · rw [h]
    rcases str_trichotomy a b with g | g | g
    · have g' := str_asymm g
      simp [str_irrefl, g, g']
    · subst g; simp [str_irrefl]
    · have g' := str_asymm g
      simp [str_irrefl, g, g']
  · have h' := str_asymm h
    have hne : lower a ≠ lower b := by intro e; rw [e] at h; exact str_irrefl _ h
    simp [h, h', hne]

theorem compareFn_spec (lower : GoStr → GoStr) {ty : ColType} (hs : ty.Sortable = true) {a b : Cell τ}
    (ha : a.HasType ty) (hb : b.HasType ty) : ∃ c, compareFn lower ty a b = some c ∧ CmpSpec lower a b c := by
  cases ty <;> first
    | (exact absurd hs (by decide))
    | (cases a <;> first
        | exact ha.elim
        | (rename_i a; cases b <;> first
            | exact hb.elim
            | (rename_i b; exact ⟨_, rfl, compareBool_spec lower a b⟩)
            | (rename_i b; exact ⟨_, rfl, compareF32_spec lower a b⟩)
            | (rename_i b; exact ⟨_, rfl, compareF64_spec lower a b⟩)
            | (rename_i b; exact ⟨_, rfl, compareString_spec lower a b⟩))
        | (rename_i k a; cases k <;> first
            | exact ha.elim
            | (cases b <;> first
                | exact hb.elim
                | (rename_i k' b; cases k' <;> first
                    | exact hb.elim
                    | exact ⟨_, rfl, compareInt_spec lower _ _ a b⟩))))

/-! ## Laws of `Less` and `EqVal` on non-NaN values of one type -/

/-- A non-NaN cell of a sortable type. -/
def Good (ty : ColType) (a : Cell τ) : Prop := ty.Sortable = true ∧ a.HasType ty ∧ ¬ a.IsNaN

/-- Every pair of good cells of one type is of one of these forms. -/
theorem good_cases {ty : ColType} {P : Cell τ → Cell τ → Cell τ → Prop}
    (hbool : ∀ a b c, P (.bool a) (.bool b) (.bool c))
    (hint : ∀ k a b c, P (.int k a) (.int k b) (.int k c))
    (hf32 : ∀ a b c, isNaN32 a = false → isNaN32 b = false → isNaN32 c = false → P (.f32 a) (.f32 b) (.f32 c))
    (hf64 : ∀ a b c, isNaN64 a = false → isNaN64 b = false → isNaN64 c = false → P (.f64 a) (.f64 b) (.f64 c))
    (hstr : ∀ a b c, P (.str a) (.str b) (.str c))
    {a b c : Cell τ} (ha : Good ty a) (hb : Good ty b) (hc : Good ty c) : P a b c := by
  obtain ⟨hs, ha, na⟩ := ha
  obtain ⟨_, hb, nb⟩ := hb
  obtain ⟨_, hc, nc⟩ := hc
  cases ty <;> first
    | (exact absurd hs (by decide))
    | (cases a <;> first
        | exact ha.elim
        | (rename_i a; cases b <;> first
            | exact hb.elim
            | (rename_i b; cases c <;> first
                | exact hc.elim
                | exact hbool _ _ _
                | exact hstr _ _ _
                | exact hf32 _ _ _ (by simpa [Cell.IsNaN] using na) (by simpa [Cell.IsNaN] using nb) (by simpa [Cell.IsNaN] using nc)
                | exact hf64 _ _ _ (by simpa [Cell.IsNaN] using na) (by simpa [Cell.IsNaN] using nb) (by simpa [Cell.IsNaN] using nc)))
        | (rename_i k a; cases k <;> first
            | exact ha.elim
            | (cases b <;> first
                | exact hb.elim
                | (rename_i k' b; cases k' <;> first
                    | exact hb.elim
                    | (cases c <;> first
                        | exact hc.elim
                        | (rename_i k'' c; cases k'' <;> first
                            | exact hc.elim
                            | exact hint _ _ _ _))))))

/-- `Less` is negatively transitive. -/
theorem less_neg_trans (lower : GoStr → GoStr) {ty : ColType} {a b c : Cell τ} (ha : Good ty a) (hb : Good ty b) (hc : Good ty c) :
    ¬ a.Less lower b → ¬ b.Less lower c → ¬ a.Less lower c := by
  refine good_cases (P := fun a b c => ¬ a.Less lower b → ¬ b.Less lower c → ¬ a.Less lower c) ?_ ?_ ?_ ?_ ?_ ha hb hc
  · intro a b c; cases a <;> cases b <;> cases c <;> simp [Cell.Less]
  · intro k a b c; simp only [Cell.Less]; omega
  · intro a b c h1 h2 h3; simp only [Cell.Less, f32Lt, h1, h2, h3]; simp; omega
  · intro a b c h1 h2 h3; simp only [Cell.Less, f64Lt, h1, h2, h3]; simp; omega
  · intro a b c
    simp only [Cell.Less, not_or, not_and]
    rintro ⟨h1, h2⟩ ⟨h3, h4⟩
    have le1 : lower b < lower a ∨ lower b = lower a := by
      rcases str_trichotomy (lower a) (lower b) with h | h | h
      · exact absurd h h1
      · exact .inr h.symm
      · exact .inl h
    have le2 : lower c < lower b ∨ lower c = lower b := by
      rcases str_trichotomy (lower b) (lower c) with h | h | h
      · exact absurd h h3
      · exact .inr h.symm
      · exact .inl h
    rcases le1 with l1 | l1 <;> rcases le2 with l2 | l2
    · have := str_trans l2 l1
      exact ⟨str_asymm this, fun e => absurd (e ▸ this) (str_irrefl _)⟩
    · rw [← l2] at l1
      exact ⟨str_asymm l1, fun e => absurd (e ▸ l1) (str_irrefl _)⟩
    · rw [l1] at l2
      exact ⟨str_asymm l2, fun e => absurd (e ▸ l2) (str_irrefl _)⟩
    · have g1 := h2 l1.symm
      have g2 := h4 l2.symm
      refine ⟨by rw [← l1, l2]; exact str_irrefl _, fun _ hac => ?_⟩
      rcases str_trichotomy a b with h | h | h
      · exact g1 h
      · rw [h] at hac; exact g2 hac
      · exact g2 (str_trans h hac)

theorem less_asymm (lower : GoStr → GoStr) (a b : Cell τ) : a.Less lower b → ¬ b.Less lower a := by
  cases a <;> cases b <;> try (simp only [Cell.Less]; intro h; exact fun h' => h.elim)
  · rename_i a b
    simp only [Cell.Less, not_or, not_and]
    rintro (h | ⟨e, h⟩)
    · exact ⟨str_asymm h, fun e => absurd (e ▸ h) (str_irrefl _)⟩
    · exact ⟨by rw [e]; exact str_irrefl _, fun _ => str_asymm h⟩
  · rename_i a b; cases a <;> cases b <;> simp [Cell.Less]
  · simp only [Cell.Less]; omega
  · simp only [Cell.Less, f32Lt, Bool.and_eq_true, decide_eq_true_eq]; omega
  · simp only [Cell.Less, f64Lt, Bool.and_eq_true, decide_eq_true_eq]; omega

/-- Neither less is the same as equal, on good cells. -/
theorem eqVal_iff (lower : GoStr → GoStr) {ty : ColType} {a b : Cell τ} (ha : Good ty a) (hb : Good ty b) :
    a.EqVal b ↔ (¬ a.Less lower b ∧ ¬ b.Less lower a) := by
  refine good_cases (P := fun a b _ => a.EqVal b ↔ (¬ a.Less lower b ∧ ¬ b.Less lower a)) ?_ ?_ ?_ ?_ ?_ ha hb hb
  · intro a b c; cases a <;> cases b <;> simp [Cell.Less, Cell.EqVal]
  · intro k a b c; simp only [Cell.Less, Cell.EqVal, Cell.int.injEq, true_and]; omega
  · intro a b c h1 h2 h3; simp only [Cell.Less, Cell.EqVal, f32Lt, f32Eq, h1, h2]; simp; omega
  · intro a b c h1 h2 h3; simp only [Cell.Less, Cell.EqVal, f64Lt, f64Eq, h1, h2]; simp; omega
  · intro a b _
    simp only [Cell.Less, Cell.EqVal, Cell.str.injEq]
    constructor
    · rintro rfl; simp [str_irrefl]
    · simp only [not_or, not_and]
      rintro ⟨⟨h1, h2⟩, ⟨h3, h4⟩⟩
      rcases str_trichotomy (lower a) (lower b) with h | h | h
      · exact absurd h h1
      · rcases str_trichotomy a b with g | g | g
        · exact absurd g (h2 h)
        · exact g
        · exact absurd g (h4 h.symm)
      · exact absurd h h3

/-! ## Lexicographic comparison of key cells -/

/-- Signed comparison on one key. -/
def cmpKey (lower : GoStr → GoStr) (k : SortKey) (a b : Cell τ) : Int :=
  let c := (compareFn lower k.colType a b).getD 0
  if k.reverse then c * (-1) else c

/-- First non-zero comparison. -/
def lexCmp (lower : GoStr → GoStr) : List SortKey → List (Cell τ) → List (Cell τ) → Int
  | k :: ks, a :: as, b :: bs => if cmpKey lower k a b ≠ 0 then cmpKey lower k a b else lexCmp lower ks as bs
  | _, _, _ => 0

/-- Values of the key types, all keys sortable. -/
def Typed : List SortKey → List (Cell τ) → Prop
  | [], [] => True
  | k :: ks, a :: as => k.colType.Sortable = true ∧ a.HasType k.colType ∧ Typed ks as
  | _, _ => False

/-- … and none of them NaN. -/
def GoodVals : List SortKey → List (Cell τ) → Prop
  | [], [] => True
  | k :: ks, a :: as => Good k.colType a ∧ GoodVals ks as
  | _, _ => False

theorem GoodVals.typed {ks : List SortKey} {as : List (Cell τ)} (h : GoodVals ks as) : Typed ks as := by
  induction ks generalizing as with
  | nil => cases as <;> simp_all [GoodVals, Typed]
  | cons k ks ih =>
    cases as with
    | nil => exact h.elim
    | cons a as => exact ⟨h.1.1, h.1.2.1, ih h.2⟩

theorem cmpKey_anti (lower : GoStr → GoStr) {k : SortKey} {a b : Cell τ} (hs : k.colType.Sortable = true)
    (ha : a.HasType k.colType) (hb : b.HasType k.colType) : cmpKey lower k b a = - cmpKey lower k a b := by
  obtain ⟨c, e1, h1⟩ := compareFn_spec lower hs ha hb
  obtain ⟨d, e2, h2⟩ := compareFn_spec lower hs hb ha
  have : d = -c := by
    simp only [CmpSpec] at h1 h2
    grind
  simp only [cmpKey, e1, e2, Option.getD_some]
  split <;> omega

theorem cmpKey_lt (lower : GoStr → GoStr) {k : SortKey} {a b : Cell τ} (hs : k.colType.Sortable = true)
    (ha : a.HasType k.colType) (hb : b.HasType k.colType) :
    cmpKey lower k a b < 0 ↔ (if k.reverse then b.Less lower a else a.Less lower b) := by
  obtain ⟨c, e1, h1⟩ := compareFn_spec lower hs ha hb
  simp only [cmpKey, e1, Option.getD_some]
  simp only [CmpSpec] at h1
  cases k.reverse <;> simp only [Bool.false_eq_true, if_false, if_true] <;> grind

theorem cmpKey_trans (lower : GoStr → GoStr) {k : SortKey} {a b c : Cell τ} (ha : Good k.colType a)
    (hb : Good k.colType b) (hc : Good k.colType c) (h1 : cmpKey lower k a b ≤ 0) (h2 : cmpKey lower k b c ≤ 0) :
    cmpKey lower k a c ≤ 0 := by
  have e1 := cmpKey_lt lower ha.1 hb.2.1 ha.2.1
  have e2 := cmpKey_lt lower ha.1 hc.2.1 hb.2.1
  have e3 := cmpKey_lt lower ha.1 hc.2.1 ha.2.1
  rw [cmpKey_anti lower ha.1 ha.2.1 hb.2.1] at e1
  rw [cmpKey_anti lower ha.1 hb.2.1 hc.2.1] at e2
  rw [cmpKey_anti lower ha.1 ha.2.1 hc.2.1] at e3
  have n1 : ¬ (if k.reverse then a.Less lower b else b.Less lower a) := by rw [← e1]; omega
  have n2 : ¬ (if k.reverse then b.Less lower c else c.Less lower b) := by rw [← e2]; omega
  have n3 : ¬ (if k.reverse then a.Less lower c else c.Less lower a) := by
    cases hr : k.reverse
    · simp only [hr, Bool.false_eq_true, if_false] at n1 n2 ⊢
      exact less_neg_trans lower hc hb ha n2 n1
    · simp only [hr, if_true] at n1 n2 ⊢
      exact less_neg_trans lower ha hb hc n1 n2
  rw [← e3] at n3; omega

theorem lexCmp_anti (lower : GoStr → GoStr) {ks : List SortKey} {as bs : List (Cell τ)} (ha : Typed ks as) (hb : Typed ks bs) :
    lexCmp lower ks bs as = - lexCmp lower ks as bs := by
  induction ks generalizing as bs with
  | nil => simp [lexCmp]
  | cons k ks ih =>
    cases as with
    | nil => exact ha.elim
    | cons a as =>
      cases bs with
      | nil => exact hb.elim
      | cons b bs =>
        simp only [lexCmp]
        have h1 := cmpKey_anti lower ha.1 ha.2.1 hb.2.1
        have h2 := ih ha.2.2 hb.2.2
        rw [h1, h2]
        split <;> split <;> omega

theorem lexCmp_trans (lower : GoStr → GoStr) {ks : List SortKey} {as bs cs : List (Cell τ)} (ha : GoodVals ks as)
    (hb : GoodVals ks bs) (hc : GoodVals ks cs) (h1 : lexCmp lower ks as bs ≤ 0) (h2 : lexCmp lower ks bs cs ≤ 0) :
    lexCmp lower ks as cs ≤ 0 := by
  induction ks generalizing as bs cs with
  | nil => simp [lexCmp]
  | cons k ks ih =>
    cases as with
    | nil => exact ha.elim
    | cons a as =>
      cases bs with
      | nil => exact hb.elim
      | cons b bs =>
        cases cs with
        | nil => exact hc.elim
        | cons c cs =>
          simp only [lexCmp] at h1 h2 ⊢
          have x1 : cmpKey lower k a b ≤ 0 := by split at h1 <;> omega
          have x2 : cmpKey lower k b c ≤ 0 := by split at h2 <;> omega
          have x3 := cmpKey_trans lower ha.1 hb.1 hc.1 x1 x2
          split
          · exact x3
          · rename_i hz
            have hz' : cmpKey lower k a c = 0 := by omega
            have a1 := cmpKey_anti lower ha.1.1 ha.1.2.1 hb.1.2.1
            have a2 := cmpKey_anti lower ha.1.1 hb.1.2.1 hc.1.2.1
            have a3 := cmpKey_anti lower ha.1.1 ha.1.2.1 hc.1.2.1
            have y1 := cmpKey_trans lower hb.1 hc.1 ha.1 x2 (by omega)
            have y2 := cmpKey_trans lower hc.1 ha.1 hb.1 (by omega) x1
            rw [if_neg (by omega)] at h1
            rw [if_neg (by omega)] at h2
            exact ih ha.2 hb.2 hc.2 h1 h2

theorem lexCmp_zero (lower : GoStr → GoStr) {ks : List SortKey} {as bs : List (Cell τ)} :
    lexCmp lower (ks) as bs = 0 → Typed ks as → Typed ks bs → ∀ (i : Nat) (k : SortKey) (a b : Cell τ), ks[i]? = some k → as[i]? = some a → bs[i]? = some b →
      cmpKey lower k a b = 0 := by
  induction ks generalizing as bs with
  | nil => intro _ _ _ i k a b h; simp at h
  | cons k ks ih =>
    intro h ha hb i k' a' b' h1 h2 h3
    cases as with
    | nil => exact ha.elim
    | cons a as =>
      cases bs with
      | nil => exact hb.elim
      | cons b bs =>
        simp only [lexCmp] at h
        split at h
        · exact absurd h ‹_›
        · cases i with
          | zero => simp at h1 h2 h3; subst h1; subst h2; subst h3; omega
          | succ i => exact ih h ha.2.2 hb.2.2 i k' a' b' (by simpa using h1) (by simpa using h2) (by simpa using h3)

end Verif
