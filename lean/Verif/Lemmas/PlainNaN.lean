import Verif.Lemmas.Plain

/-! # The NaN setters do what the specification of plain tables says -/

namespace Verif
namespace Plain
open Table

variable {τ : Type}

theorem nan_iff {ty : ColType} {x : Cell τ} : nan ty = some x ↔ (ty = .float32 ∧ x = .f32 nan32) ∨ (ty = .float64 ∧ x = .f64 nan64) := by
  cases ty <;> simp [nan, nan32, nan64, eq_comm]

theorem nan_hasType {ty : ColType} {x : Cell τ} (h : nan ty = some x) : x.HasType ty ∧ x ≠ .bytes none := by
  rcases nan_iff.1 h with ⟨rfl, rfl⟩ | ⟨rfl, rfl⟩ <;> exact ⟨trivial, by simp⟩

theorem setNaN_float {t : Table τ} {c : Int} {ty : ColType} {x : Cell τ} (hty : t.colTypeByColIndex c = .ok ty) (hx : nan ty = some x) (r : Int) :
    t.setFloatCellToNaNByColIndex c r = t.setTypedByColIndex ty c r x := by
  rcases nan_iff.1 hx with ⟨rfl, rfl⟩ | ⟨rfl, rfl⟩ <;> simp only [setFloatCellToNaNByColIndex, hty]

theorem setNaN_other {t : Table τ} (h : WF t) {c : Int} {ty : ColType} (hty : t.colTypeByColIndex c = .ok ty) (hx : (nan ty : Option (Cell τ)) = none) (r : Int) :
    t.setFloatCellToNaNByColIndex c r = (t, .err .notFloat) := by
  have hn : t.colName c ≠ .panic := by
    simp only [colName]
    split
    · simp
    · rename_i hc
      simp only [colCount] at hc
      cases hg : goGet? t.colNames c with
      | some n => simp
      | none => exact absurd ⟨by omega, by omega⟩ (goGet?_none.1 hg)
  have h1 : ty ≠ .float32 := by rintro rfl; cases hx
  have h2 : ty ≠ .float64 := by rintro rfl; cases hx
  cases ty <;> first | exact absurd rfl h1 | exact absurd rfl h2 | (simp only [setFloatCellToNaNByColIndex, hty])

theorem nanAt_cases {t : Table τ} (h : WF t) (c r : Int) :
    (∃ (i k : Nat) (ty : ColType) (x : Cell τ), c = i ∧ r = k ∧ t.colTypes[i]? = some ty ∧ k < t.rows.length ∧ nan ty = some x ∧
      t.setFloatCellToNaNByColIndex c r = (putCell t i k x, .ok ())) ∨
    (¬ (∃ (i k : Nat) (ty : ColType) (x : Cell τ), c = i ∧ r = k ∧ t.colTypes[i]? = some ty ∧ k < t.rows.length ∧ nan ty = some x) ∧
      ∃ e, t.setFloatCellToNaNByColIndex c r = (t, .err e)) := by
  rcases colTypeByColIndex_cases t c with ⟨ty, hc0, hc1, hty, hct⟩ | ⟨hc, hct⟩
  · obtain ⟨i, rfl⟩ := Int.eq_ofNat_of_zero_le hc0
    have hty' : t.colTypes[i]? = some ty := by simpa using hty
    cases hx : (nan ty : Option (Cell τ)) with
    | none =>
      right
      refine ⟨?_, _, setNaN_other h hct hx r⟩
      rintro ⟨j, k, ty', x, h1, _, h3, _, h5⟩
      have : i = j := by omega
      subst this
      rw [hty'] at h3; cases h3
      rw [hx] at h5; cases h5
    | some x =>
      rw [setNaN_float hct hx]
      have hxt := nan_hasType hx
      rcases setTypedByColIndex_cases h ty i r x hxt.1 with ⟨j, k, ty', h1, h2, h3, h4, _, _, e⟩ | ⟨hno, _, e⟩ | ⟨_, hc, _⟩
      · left
        have : i = j := by omega
        subst this
        rw [hty'] at h3; cases h3
        exact ⟨i, k, ty, x, rfl, h2, hty', h4, hx, e⟩
      · right
        refine ⟨?_, e⟩
        rintro ⟨j, k, ty', y, h1, h2, h3, h4, h5⟩
        have : i = j := by omega
        subst this
        rw [hty'] at h3; cases h3
        exact hno ⟨i, k, ty, rfl, h2, hty', h4, hxt.1, hxt.2⟩
      · exact absurd ⟨hc0, hc1⟩ hc
  · right
    refine ⟨?_, .noCol, by simp only [setFloatCellToNaNByColIndex, hct]⟩
    rintro ⟨i, k, ty, x, rfl, _, h3, _⟩
    have := (List.getElem?_eq_some_iff.1 h3).1
    exact hc ⟨by omega, by omega⟩

theorem nanAt_does {t : Table τ} (h : WF t) (col : Table τ → Nat → Prop) (c r : Int) (hcol : ∀ i, col (plain t) i ↔ c = i) :
    Try .refused (Write col r fun ty x => nan ty = some x) (plain t) (verdict (t.setFloatCellToNaNByColIndex c r).2) (plain (t.setFloatCellToNaNByColIndex c r).1) := by
  rcases nanAt_cases h c r with ⟨i, k, ty, x, h1, h2, h3, h4, h5, e⟩ | ⟨hno, e⟩
  · exact done_of e ⟨i, k, ty, x, (hcol i).2 h1, h2, h3, h4, h5, rfl⟩
  · refine refused_of e ?_
    rintro _ ⟨i, k, ty, x, h1, h2, h3, h4, h5, _⟩
    exact hno ⟨i, k, ty, x, (hcol i).1 h1, h2, h3, h4, h5⟩

theorem nanCell_does {t : Table τ} (h : WF t) (n : GoStr) (r : Int) :
    Does (.setFloatCellToNaN n r) (plain t) (verdict (t.setFloatCellToNaN n r).2) (plain (t.setFloatCellToNaN n r).1) := by
  simp only [Does, setFloatCellToNaN]
  rcases h.colIndex_cases n with ⟨i, hi, e⟩ | ⟨hn, e⟩ <;> rw [e]
  · exact nanAt_does h _ _ _ (named_iff h hi)
  · refine refused_of ⟨_, rfl⟩ ?_
    rintro _ ⟨c, _, _, _, h1, _⟩
    exact hn (List.mem_of_getElem? h1)

/-! ## Columns -/

theorem modify_append_head {α : Type} (f : α → α) (a b : List α) (x : α) : (a ++ x :: b).modify a.length f = a ++ f x :: b := by
  induction a with
  | nil => simp
  | cons y a ih => simp [ih]

theorem take_map_set {α : Type} (f : α → α) (l : List α) {k : Nat} (hk : k < l.length) :
    ((l.map f).take k ++ l.drop k).modify k f = (l.map f).take (k + 1) ++ l.drop (k + 1) := by
  have hl : ((l.map f).take k).length = k := by simp; omega
  rw [List.drop_eq_getElem_cons hk, List.take_succ_eq_append_getElem (by simpa using hk), List.append_assoc]
  have := modify_append_head f ((l.map f).take k) (l.drop (k + 1)) l[k]
  rw [hl] at this
  rw [this]; simp

theorem nanCol_cases {t : Table τ} (h : WF t) (c : Int) :
    (∃ (i : Nat) (ty : ColType) (x : Cell τ), c = i ∧ t.colTypes[i]? = some ty ∧ nan ty = some x ∧
      t.setColFloatCellsToNaNByColIndex c = ({ t with rows := t.rows.map (·.set i x) }, .ok ())) ∨
    (¬ (∃ (i : Nat) (ty : ColType) (x : Cell τ), c = i ∧ t.colTypes[i]? = some ty ∧ nan ty = some x) ∧ t.rows = [] ∧
      t.setColFloatCellsToNaNByColIndex c = (t, .ok ())) ∨
    (¬ (∃ (i : Nat) (ty : ColType) (x : Cell τ), c = i ∧ t.colTypes[i]? = some ty ∧ nan ty = some x) ∧ t.rows ≠ [] ∧
      ∃ e, t.setColFloatCellsToNaNByColIndex c = (t, .err e)) := by
  by_cases hc : ∃ (i : Nat) (ty : ColType) (x : Cell τ), c = i ∧ t.colTypes[i]? = some ty ∧ nan ty = some x
  · left
    obtain ⟨i, ty, x, rfl, hty, hx⟩ := hc
    refine ⟨i, ty, x, rfl, hty, hx, ?_⟩
    simp only [setColFloatCellsToNaNByColIndex, rowCount]
    obtain ⟨s', h1, h2⟩ := forEach_range_ok
      (f := fun (ri : Nat) (t : Table τ) => t.setFloatCellToNaNByColIndex (i : Int) ri)
      (fun k s => WF s ∧ s = { t with rows := (t.rows.map (·.set i x)).take k ++ t.rows.drop k })
      t.rows.length (s := t)
      (by
        rintro k hk s ⟨hs, e⟩
        have hw := hs.setFloatCellToNaNByColIndex (i : Int) (k : Int)
        rcases nanAt_cases hs i k with ⟨j, m, ty', y, g1, g2, g3, g4, g5, e'⟩ | ⟨hno, _⟩
        · have : i = j := by omega
          subst this
          have : k = m := by omega
          subst this
          have : ty' = ty := by rw [e] at g3; rw [hty] at g3; cases g3; rfl
          subst this
          rw [hx] at g5; cases g5
          rw [e'] at hw
          refine ⟨_, e', hw, ?_⟩
          rw [e]
          simp only [putCell, take_map_set (fun row : List (Cell τ) => row.set i x) t.rows hk]
        · exfalso
          refine hno ⟨i, k, ty, x, rfl, rfl, ?_, ?_, hx⟩
          · rw [e]; exact hty
          · rw [e]; simp; omega)
      ⟨h, by simp⟩
    rw [h1, h2.2]
    simp
    rw [List.take_of_length_le (by simp)]
  · right
    cases hr : t.rows with
    | nil =>
      left
      exact ⟨hc, rfl, by simp [setColFloatCellsToNaNByColIndex, rowCount, hr, forEach]⟩
    | cons row rows =>
      right
      refine ⟨hc, by simp, ?_⟩
      rcases nanAt_cases h c 0 with ⟨i, _, ty, x, h1, _, h3, _, h5, _⟩ | ⟨_, e, he⟩
      · exact absurd ⟨i, ty, x, h1, h3, h5⟩ hc
      · refine ⟨e, ?_⟩
        simp only [setColFloatCellsToNaNByColIndex, rowCount, hr, List.length_cons, List.range_succ_eq_map, forEach, Int.natCast_zero, he]

theorem nanCol_does {t : Table τ} (h : WF t) (col : Table τ → Nat → Prop) (c : Int) (hcol : ∀ i, col (plain t) i ↔ c = i) :
    Try .refused (fun t t' => (t.rows = [] ∧ t' = t) ∨ NaNColumn col t t') (plain t) (verdict (t.setColFloatCellsToNaNByColIndex c).2)
      (plain (t.setColFloatCellsToNaNByColIndex c).1) := by
  rcases nanCol_cases h c with ⟨i, ty, x, h1, h2, h3, e⟩ | ⟨hno, hr, e⟩ | ⟨hno, hr, e⟩
  · exact done_of e (.inr ⟨i, ty, x, (hcol i).2 h1, h2, h3, rfl⟩)
  · exact done_of e (.inl ⟨hr, rfl⟩)
  · refine refused_of e ?_
    rintro _ (⟨h1, _⟩ | ⟨i, ty, x, h1, h2, h3, _⟩)
    · exact hr h1
    · exact hno ⟨i, ty, x, (hcol i).1 h1, h2, h3⟩

theorem nanColNamed_does {t : Table τ} (h : WF t) (n : GoStr) :
    Does (.setColFloatCellsToNaN n) (plain t) (verdict (t.setColFloatCellsToNaN n).2) (plain (t.setColFloatCellsToNaN n).1) := by
  simp only [Does, setColFloatCellsToNaN]
  rcases h.colIndex_cases n with ⟨i, hi, e⟩ | ⟨hn, e⟩ <;> rw [e]
  · exact only_pos (p := (n ∈ ·.colNames)) (List.mem_of_getElem? hi) (nanCol_does h _ _ (named_iff h hi))
  · exact only_neg (p := (n ∈ ·.colNames)) hn ⟨_, rfl⟩

/-! ## Rows -/

/-- The row with NaN in its floating point columns. -/
def nanRow (types : List ColType) (row : List (Cell τ)) : List (Cell τ) := List.zipWith (fun x ty => (nan ty).getD x) row types

/-- The row with NaN in its floating point columns before column `j`. -/
def nanTo (types : List ColType) (j : Nat) (row : List (Cell τ)) : List (Cell τ) := (nanRow types row).take j ++ row.drop j

theorem nanTo_zero (types : List ColType) (row : List (Cell τ)) : nanTo types 0 row = row := by simp [nanTo]

theorem nanTo_all {types : List ColType} {row : List (Cell τ)} (h : row.length = types.length) : nanTo types types.length row = nanRow types row := by
  simp only [nanTo]
  rw [List.take_of_length_le (by simp [nanRow]; omega), List.drop_of_length_le (by omega), List.append_nil]

theorem nanTo_get? {types : List ColType} {row : List (Cell τ)} (h : row.length = types.length) (j i : Nat) :
    (nanTo types j row)[i]? = if i < j then (nanRow types row)[i]? else row[i]? := by
  have hl : (nanRow types row).length = row.length := by simp [nanRow]; omega
  simp only [nanTo, List.getElem?_append, List.length_take, hl, List.getElem?_take, List.getElem?_drop]
  by_cases h1 : i < j
  · by_cases h2 : i < row.length
    · rw [if_pos (by omega), if_pos h1, if_pos h1]
    · rw [if_neg (by omega), if_pos h1, List.getElem?_eq_none (by omega), List.getElem?_eq_none (by omega)]
  · rw [if_neg (by omega), if_neg h1]
    by_cases h2 : j < row.length
    · congr 1; omega
    · rw [List.getElem?_eq_none (by omega), List.getElem?_eq_none (by omega)]

theorem nanTo_succ {types : List ColType} {row : List (Cell τ)} (h : row.length = types.length) {j : Nat} {ty : ColType} (hty : types[j]? = some ty) :
    nanTo types (j + 1) row = match (nan ty : Option (Cell τ)) with | some x => (nanTo types j row).set j x | none => nanTo types j row := by
  have hj := (List.getElem?_eq_some_iff.1 hty).1
  have hr : row[j]? = some (row[j]'(by omega)) := List.getElem?_eq_getElem _
  have hn : (nanRow types row)[j]? = some ((nan ty).getD (row[j]'(by omega))) := by
    simp only [nanRow, List.getElem?_zipWith, hty, hr]
  have hlen : (nanTo types j row).length = row.length := by simp [nanTo, nanRow]; omega
  cases hx : (nan ty : Option (Cell τ)) with
  | none =>
    apply List.ext_getElem?
    intro i
    rw [nanTo_get? h, nanTo_get? h]
    by_cases h1 : i = j
    · subst h1; rw [if_pos (by omega), if_neg (by omega), hn, hr, hx]; rfl
    · by_cases h2 : i < j
      · rw [if_pos (by omega), if_pos h2]
      · rw [if_neg (by omega), if_neg h2]
  | some x =>
    apply List.ext_getElem?
    intro i
    simp only
    rw [nanTo_get? h, List.getElem?_set, nanTo_get? h]
    by_cases h1 : i = j
    · subst h1; rw [if_pos (by omega), if_pos rfl, if_pos (by omega), hn, hx]; rfl
    · rw [if_neg (show ¬ j = i by omega)]
      by_cases h2 : i < j
      · rw [if_pos (by omega), if_pos h2]
      · rw [if_neg (by omega), if_neg h2]

/-- One step of the loop of `SetRowFloatCellsToNaN`. -/
def nanStep (r : Int) (ci : Nat) (t : Table τ) : Table τ × Out Unit :=
  match t.colTypeByColIndex ci with
  | .err e => (t, .err e)
  | .panic => (t, .panic)
  | .ok .float32 => t.setTypedByColIndex .float32 ci r (.f32 nan32)
  | .ok .float64 => t.setTypedByColIndex .float64 ci r (.f64 nan64)
  | .ok _ => (t, .ok ())

theorem nanStep_eq {t : Table τ} {c : Nat} {ty : ColType} (hty : t.colTypes[c]? = some ty) (r : Int) :
    nanStep r c t = if (nan ty : Option (Cell τ)).isSome then t.setFloatCellToNaNByColIndex c r else (t, .ok ()) := by
  have hct : t.colTypeByColIndex (c : Int) = .ok ty := colTypeByColIndex_ok.2 ⟨by omega, by simpa using hty⟩
  cases hx : (nan ty : Option (Cell τ)) with
  | some x =>
    rw [if_pos (show (some x).isSome = true from rfl), setNaN_float hct hx]
    rcases nan_iff.1 hx with ⟨rfl, rfl⟩ | ⟨rfl, rfl⟩ <;> simp only [nanStep, hct]
  | none =>
    rw [if_neg (by simp)]
    have h1 : ty ≠ .float32 := by rintro rfl; cases hx
    have h2 : ty ≠ .float64 := by rintro rfl; cases hx
    cases ty <;> first | exact absurd rfl h1 | exact absurd rfl h2 | simp only [nanStep, hct]

theorem forEach_still {ι σ : Type} {f : ι → σ → σ × Out Unit} {s : σ} (l : List ι) (h : ∀ i ∈ l, f i s = (s, .ok ()) ∨ ∃ e, f i s = (s, .err e)) :
    ((∀ i ∈ l, f i s = (s, .ok ())) ∧ forEach f l s = (s, .ok ())) ∨ ((∃ i ∈ l, ∃ e, f i s = (s, .err e)) ∧ ∃ e, forEach f l s = (s, .err e)) := by
  induction l with
  | nil => left; exact ⟨by simp, rfl⟩
  | cons i is ih =>
    rcases h i (by simp) with e | ⟨x, e⟩
    · rcases ih (fun j hj => h j (by simp [hj])) with ⟨h1, h2⟩ | ⟨⟨j, hj, h1⟩, h2⟩
      · left
        refine ⟨fun j hj => ?_, by rw [forEach_cons_ok e]; exact h2⟩
        rcases List.mem_cons.1 hj with rfl | hj
        · exact e
        · exact h1 j hj
      · right
        exact ⟨⟨j, by simp [hj], h1⟩, by rw [forEach_cons_ok e]; exact h2⟩
    · right
      exact ⟨⟨i, by simp, x, e⟩, x, by simp only [forEach, e]⟩

theorem modify_modify {α : Type} (f g : α → α) (l : List α) (k : Nat) : (l.modify k f).modify k g = l.modify k (fun x => g (f x)) := by
  apply List.ext_getElem?
  intro i
  simp only [List.getElem?_modify]
  by_cases h : k = i
  · simp [h]; cases l[i]? <;> rfl
  · simp [h]

theorem modify_congr {α : Type} {f g : α → α} {l : List α} {k : Nat} (h : ∀ x ∈ l, f x = g x) : l.modify k f = l.modify k g := by
  apply List.ext_getElem?
  intro i
  simp only [List.getElem?_modify]
  by_cases hk : k = i
  · subst hk
    cases hx : l[k]? with
    | none => rfl
    | some x => simp [h x (List.mem_of_getElem? hx)]
  · simp [hk]

theorem nanRow_does {t : Table τ} (h : WF t) (r : Int) :
    Does (.setRowFloatCellsToNaN r) (plain t) (verdict (t.setRowFloatCellsToNaN r).2) (plain (t.setRowFloatCellsToNaN r).1) := by
  simp only [Does]
  have e0 : t.setRowFloatCellsToNaN r = forEach (nanStep r) (List.range t.colNames.length) t := rfl
  have htypes : ∀ c, c < t.colNames.length → ∃ ty, t.colTypes[c]? = some ty :=
    fun c hc => ⟨t.colTypes[c]'(by rw [h.typesLen]; exact hc), List.getElem?_eq_getElem _⟩
  by_cases hr : 0 ≤ r ∧ r < t.rows.length
  · obtain ⟨k, rfl⟩ := Int.eq_ofNat_of_zero_le hr.1
    have hk : k < t.rows.length := by omega
    have hrl : ∀ row ∈ t.rows, row.length = t.colTypes.length := fun row hrow => (h.rowsOK row hrow).1
    obtain ⟨s', h1, h2⟩ := forEach_range_ok (f := nanStep (k : Int))
      (fun j s => WF s ∧ s = { t with rows := t.rows.modify k (nanTo t.colTypes j) })
      t.colNames.length (s := t)
      (by
        rintro j hj s ⟨hs, e⟩
        obtain ⟨ty, hty⟩ := htypes j hj
        have hty' : s.colTypes[j]? = some ty := by rw [e]; exact hty
        rw [nanStep_eq hty']
        cases hx : (nan ty : Option (Cell τ)) with
        | none =>
          rw [if_neg (by simp)]
          refine ⟨s, rfl, hs, ?_⟩
          rw [e]
          congr 1
          refine modify_congr (fun row hrow => ?_)
          rw [nanTo_succ (hrl row hrow) hty, hx]
        | some x =>
          rw [if_pos (show (some x).isSome = true from rfl)]
          have hw := hs.setFloatCellToNaNByColIndex (j : Int) (k : Int)
          rcases nanAt_cases hs j k with ⟨i, m, ty', y, g1, g2, g3, g4, g5, e'⟩ | ⟨hno, _⟩
          · have : j = i := by omega
            subst this
            have : k = m := by omega
            subst this
            rw [hty'] at g3; cases g3
            rw [hx] at g5; cases g5
            rw [e'] at hw
            refine ⟨_, e', hw, ?_⟩
            rw [e]
            simp only [putCell, modify_modify]
            congr 1
            refine modify_congr (fun row hrow => ?_)
            rw [nanTo_succ (hrl row hrow) hty, hx]
          · exfalso
            refine hno ⟨j, k, ty, x, rfl, rfl, hty', ?_, hx⟩
            rw [e]; simpa using hk)
      ⟨h, by
        have : t.rows.modify k (nanTo t.colTypes 0) = t.rows := by
          rw [show (nanTo t.colTypes 0 : List (Cell τ) → List (Cell τ)) = id from funext fun row => nanTo_zero _ _]
          apply List.ext_getElem?
          intro i
          simp only [List.getElem?_modify]
          cases t.rows[i]? <;> simp
        rw [this]⟩
    refine done_of (t' := s') (by rw [e0, h1]) (.inr ⟨k, rfl, hk, ?_⟩)
    rw [h2.2]
    simp only [plain]
    congr 1
    refine modify_congr (fun row hrow => ?_)
    rw [← h.typesLen, nanTo_all (hrl row hrow)]; rfl
  · have hstep : ∀ c ∈ List.range t.colNames.length, ∃ ty, t.colTypes[c]? = some ty ∧
        (((nan ty : Option (Cell τ)) = none ∧ nanStep r c t = (t, .ok ())) ∨ ((nan ty : Option (Cell τ)) ≠ none ∧ ∃ e, nanStep r c t = (t, .err e))) := by
      intro c hc
      obtain ⟨ty, hty⟩ := htypes c (by simpa using hc)
      refine ⟨ty, hty, ?_⟩
      rw [nanStep_eq hty]
      cases hx : (nan ty : Option (Cell τ)) with
      | none => left; exact ⟨rfl, if_neg (by simp)⟩
      | some x =>
        right
        refine ⟨by simp, ?_⟩
        rw [if_pos (show (some x).isSome = true from rfl)]
        rcases nanAt_cases h c r with ⟨i, k, _, _, _, h2, _, h4, _⟩ | ⟨_, e⟩
        · exact absurd ⟨by omega, by omega⟩ hr
        · exact e
    rcases forEach_still (f := nanStep r) (s := t) (List.range t.colNames.length) (fun c hc => by
      obtain ⟨ty, _, h1 | h1⟩ := hstep c hc
      · exact .inl h1.2
      · exact .inr h1.2) with ⟨h1, h2⟩ | ⟨⟨c, hc, x, h1⟩, h2⟩
    · refine done_of (t' := t) (by rw [e0, h2]) (.inl ⟨?_, rfl⟩)
      intro ty hty
      obtain ⟨c, hc⟩ := List.getElem?_of_mem hty
      have hcl : c < t.colTypes.length := (List.getElem?_eq_some_iff.1 hc).1
      have hmem : c ∈ List.range t.colNames.length := by rw [← h.typesLen]; simpa using hcl
      obtain ⟨ty', h3, h4 | ⟨_, x, h4⟩⟩ := hstep c hmem
      · have hc' : t.colTypes[c]? = some ty := hc
        rw [hc'] at h3; cases h3; exact h4.1
      · rw [h1 c hmem] at h4; cases h4
    · refine refused_of (by rw [e0]; exact h2) ?_
      rintro _ (⟨h3, _⟩ | ⟨k, h3, h4, _⟩)
      · obtain ⟨ty, h5, ⟨_, h6⟩ | ⟨h6, _⟩⟩ := hstep c hc
        · rw [h6] at h1; cases h1
        · exact h6 (h3 ty (List.mem_of_getElem? h5))
      · have h4' : k < t.rows.length := h4
        exact hr ⟨by omega, by omega⟩

/-- One step of the loop of `SetAllFloatCellsToNaN`. -/
def nanAllStep (ci : Nat) (t : Table τ) : Table τ × Out Unit :=
  match t.colTypeByColIndex ci with
  | .err e => (t, .err e)
  | .panic => (t, .panic)
  | .ok .float32 => t.setColFloatCellsToNaNByColIndex ci
  | .ok .float64 => t.setColFloatCellsToNaNByColIndex ci
  | .ok _ => (t, .ok ())

theorem nanAllStep_eq {t : Table τ} {c : Nat} {ty : ColType} (hty : t.colTypes[c]? = some ty) :
    nanAllStep c t = if (nan ty : Option (Cell τ)).isSome then t.setColFloatCellsToNaNByColIndex c else (t, .ok ()) := by
  have hct : t.colTypeByColIndex (c : Int) = .ok ty := colTypeByColIndex_ok.2 ⟨by omega, by simpa using hty⟩
  cases ty <;> simp only [nanAllStep, hct, nan] <;> rfl

theorem nanAll_does {t : Table τ} (h : WF t) :
    Does .setAllFloatCellsToNaN (plain t) (verdict t.setAllFloatCellsToNaN.2) (plain t.setAllFloatCellsToNaN.1) := by
  simp only [Does]
  have e0 : t.setAllFloatCellsToNaN = forEach nanAllStep (List.range t.colNames.length) t := rfl
  have hrl : ∀ row ∈ t.rows, row.length = t.colTypes.length := fun row hrow => (h.rowsOK row hrow).1
  obtain ⟨s', h1, h2⟩ := forEach_range_ok (f := nanAllStep)
    (fun j s => WF s ∧ s = { t with rows := t.rows.map (nanTo t.colTypes j) })
    t.colNames.length (s := t)
    (by
      rintro j hj s ⟨hs, e⟩
      have hty : t.colTypes[j]? = some (t.colTypes[j]'(by rw [h.typesLen]; exact hj)) := List.getElem?_eq_getElem _
      generalize t.colTypes[j]'(by rw [h.typesLen]; exact hj) = ty at hty
      have hty' : s.colTypes[j]? = some ty := by rw [e]; exact hty
      rw [nanAllStep_eq hty']
      cases hx : (nan ty : Option (Cell τ)) with
      | none =>
        rw [if_neg (by simp)]
        refine ⟨s, rfl, hs, ?_⟩
        rw [e]
        congr 1
        refine List.map_congr_left (fun row hrow => ?_)
        rw [nanTo_succ (hrl row hrow) hty, hx]
      | some x =>
        rw [if_pos (show (some x).isSome = true from rfl)]
        have hw := hs.setColFloatCellsToNaNByColIndex (j : Int)
        rcases nanCol_cases hs j with ⟨i, ty', y, g1, g2, g3, e'⟩ | ⟨hno, _⟩ | ⟨hno, _⟩
        · have : j = i := by omega
          subst this
          rw [hty'] at g2; cases g2
          rw [hx] at g3; cases g3
          rw [e'] at hw
          refine ⟨_, e', hw, ?_⟩
          rw [e]
          simp only [List.map_map]
          congr 1
          refine List.map_congr_left (fun row hrow => ?_)
          rw [nanTo_succ (hrl row hrow) hty, hx]; rfl
        · exact absurd ⟨j, ty, x, rfl, hty', hx⟩ hno
        · exact absurd ⟨j, ty, x, rfl, hty', hx⟩ hno)
    ⟨h, by
      have : t.rows.map (nanTo t.colTypes 0) = t.rows := by
        rw [show (nanTo t.colTypes 0 : List (Cell τ) → List (Cell τ)) = id from funext fun row => nanTo_zero _ _, List.map_id]
      rw [this]⟩
  refine done_of (t' := s') (by rw [e0, h1]) ?_
  rw [h2.2]
  simp only [plain]
  congr 1
  refine List.map_congr_left (fun row hrow => ?_)
  rw [← h.typesLen, nanTo_all (hrl row hrow)]; rfl

end Plain
end Verif
