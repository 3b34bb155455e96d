import Verif.Spec.Plain
import Verif.Lemmas.DocumentLines
import Verif.Props.C17
import Verif.Props.C24

/-! # The calls on a table do what the specification of plain tables says -/

namespace Verif
namespace Plain
open Table

variable {τ : Type}

/-! ## Ways to put calls together -/

theorem done_of {good : Table τ → Table τ → Prop} {bad : Verdict} {t t' : Table τ} {r : Table τ × Out Unit} (e : r = (t', .ok ())) (h : good (plain t) (plain t')) :
    Try bad good (plain t) (verdict r.2) (plain r.1) := by
  rw [e]; exact .inl ⟨rfl, h⟩

theorem refused_of {good : Table τ → Table τ → Prop} {t : Table τ} {r : Table τ × Out Unit} (e : ∃ x, r = (t, .err x)) (h : ∀ x, ¬ good (plain t) x) :
    Try .refused good (plain t) (verdict r.2) (plain r.1) := by
  obtain ⟨x, e⟩ := e; rw [e]; exact .inr ⟨rfl, rfl, h⟩

theorem panics_of {good : Table τ → Table τ → Prop} {t : Table τ} {r : Table τ × Out Unit} (e : r = (t, .panic)) (h : ∀ x, ¬ good (plain t) x) :
    Try .panics good (plain t) (verdict r.2) (plain r.1) := by
  rw [e]; exact .inr ⟨rfl, rfl, h⟩

theorem only_pos {p : Table τ → Prop} {call : Call τ} {t : Table τ} {v : Verdict} {t' : Table τ} (hp : p t) (h : call t v t') : Only p call t v t' := .inl ⟨hp, h⟩

theorem only_neg {p : Table τ → Prop} {call : Call τ} {t : Table τ} {r : Table τ × Out Unit} (hp : ¬ p (plain t)) (e : ∃ x, r = (t, .err x)) :
    Only p call (plain t) (verdict r.2) (plain r.1) := by
  obtain ⟨x, e⟩ := e; rw [e]; exact .inr ⟨hp, rfl, rfl⟩

theorem then_of {a b : Call τ} {t : Table τ} {r r' : Table τ × Out Unit} (ha : a (plain t) (verdict r.2) (plain r.1))
    (h1 : r.2 = .ok () → b (plain r.1) (verdict r'.2) (plain r'.1)) (h2 : r.2 ≠ .ok () → r' = r) : Then a b (plain t) (verdict r'.2) (plain r'.1) := by
  by_cases h : r.2 = .ok ()
  · exact .inl ⟨plain r.1, by rw [h] at ha; exact ha, h1 h⟩
  · rw [h2 h]
    refine .inr ⟨?_, ha⟩
    intro hv
    rcases ho : r.2 with u | _ | _ <;> rw [ho] at hv h
    · exact h rfl
    · cases hv
    · cases hv

theorem each_of {ι : Type} {call : ι → Call τ} {f : ι → Table τ → Table τ × Out Unit} (P : Table τ → Prop) (l : List ι)
    (step : ∀ i ∈ l, ∀ t, P t → P (f i t).1 ∧ call i (plain t) (verdict (f i t).2) (plain (f i t).1)) (t : Table τ) (h : P t) :
    Each call l (plain t) (verdict (forEach f l t).2) (plain (forEach f l t).1) := by
  induction l generalizing t with
  | nil => exact ⟨rfl, rfl⟩
  | cons i is ih =>
    obtain ⟨h1, h2⟩ := step i (by simp) t h
    refine then_of h2 (fun ho => ?_) (fun ho => ?_)
    · have := ih (fun j hj => step j (by simp [hj])) (f i t).1 h1
      have e : forEach f (i :: is) t = forEach f is (f i t).1 := forEach_cons_ok (by rw [← ho])
      rw [e]; exact this
    · simp only [forEach]
      rcases hf : f i t with ⟨s, (_ | _ | _)⟩
      · rw [hf] at ho; exact absurd rfl ho
      · rfl
      · rfl

/-! ## Cells -/

theorem zero_eq (x : τ) (ty : ColType) : zero x ty = zeroCell x ty := by cases ty <;> rfl

theorem zeros_eq (nt : Nat → Nat → τ) (t : Table τ) (r : Nat) : zeros nt t r = zeroRow nt t.colTypes r := by
  simp only [zeros, zeroRow, zero_eq]

theorem setVal_does {t : Table τ} (h : WF t) (n : GoStr) (r : Int) (x : Cell τ) (hx : x.Real) :
    Try .refused (Write (Named n) r (Fits x)) (plain t) (verdict (t.setVal n r x).2) (plain (t.setVal n r x).1) := by
  rcases setVal_cases h n r x hx with ⟨c, k, ty, h1, h2, h3, h4, h5, e⟩ | ⟨hno, e⟩
  · exact done_of e ⟨c, k, ty, x, h1, h2, h3, h4, ⟨rfl, h5⟩, rfl⟩
  · refine refused_of e ?_
    rintro _ ⟨c, k, ty, y, h1, h2, h3, h4, ⟨_, h5⟩, _⟩
    exact hno ⟨c, k, ty, h1, h2, h3, h4, h5⟩

theorem setValByColIndex_does {t : Table τ} (h : WF t) (c r : Int) (x : Cell τ) (hx : x.Real) :
    Try .refused (Write (Indexed c) r (Fits x)) (plain t) (verdict (t.setValByColIndex c r x).2) (plain (t.setValByColIndex c r x).1) := by
  rcases setValByColIndex_cases h c r x hx with ⟨c, k, ty, h1, h2, h3, h4, h5, e⟩ | ⟨hno, e⟩
  · exact done_of e ⟨c, k, ty, x, h1, h2, h3, h4, ⟨rfl, h5⟩, rfl⟩
  · refine refused_of e ?_
    rintro _ ⟨c, k, ty, y, h1, h2, h3, h4, ⟨_, h5⟩, _⟩
    exact hno ⟨c, k, ty, h1, h2, h3, h4, h5⟩

theorem setTyped_does {t : Table τ} (h : WF t) (vt : ColType) (n : GoStr) (r : Int) (x : Cell τ) (hx : x.HasType vt ∨ (vt = .table ∧ x = .tbl none)) :
    Try .refused (Write (Named n) r (FitsTyped x)) (plain t) (verdict (t.setTyped vt n r x).2) (plain (t.setTyped vt n r x).1) := by
  rcases hx with hx | ⟨_, rfl⟩
  · rcases setTyped_cases h vt n r x hx with ⟨c, k, ty, h1, h2, h3, h4, h5, h6, e⟩ | ⟨hno, e⟩
    · exact done_of e ⟨c, k, ty, x, h1, h2, h3, h4, ⟨rfl, h5, h6⟩, rfl⟩
    · refine refused_of e ?_
      rintro _ ⟨c, k, ty, y, h1, h2, h3, h4, ⟨_, h5, h6⟩, _⟩
      exact hno ⟨c, k, ty, h1, h2, h3, h4, h5, h6⟩
  · refine refused_of ⟨_, rfl⟩ ?_
    rintro _ ⟨c, k, ty, y, h1, h2, h3, h4, ⟨_, h5, h6⟩, _⟩
    exact (hasType_iff.1 h5).2.1 rfl

theorem setTypedByColIndex_does {t : Table τ} (h : WF t) (vt : ColType) (c r : Int) (x : Cell τ) (hx : x.HasType vt ∨ (vt = .table ∧ x = .tbl none)) :
    Does (.setTypedByColIndex vt c r x) (plain t) (verdict (t.setTypedByColIndex vt c r x).2) (plain (t.setTypedByColIndex vt c r x).1) := by
  simp only [Does]
  rcases hx with hx | ⟨_, rfl⟩
  · have hnt : x ≠ .tbl none := (hasType_iff.1 hx).2.1
    by_cases hb : x = .bytes none
    · subst hb
      exact only_neg (by simp) ⟨_, rfl⟩
    · refine only_pos ⟨hb, hnt⟩ ?_
      rcases setTypedByColIndex_cases h vt c r x hx with ⟨c, k, ty, h1, h2, h3, h4, h5, h6, e⟩ | ⟨hno, hc, e⟩ | ⟨_, hc, e⟩
      · exact done_of e ⟨c, k, ty, x, h1, h2, h3, h4, ⟨rfl, h5⟩, rfl⟩
      · have hc' : 0 ≤ c ∧ c < (plain t).colTypes.length := hc.resolve_left hb
        simp only [if_pos hc']
        refine refused_of e ?_
        rintro _ ⟨c, k, ty, y, h1, h2, h3, h4, ⟨_, h5⟩, _⟩
        exact hno ⟨c, k, ty, h1, h2, h3, h4, h5, hb⟩
      · have hc' : ¬ (0 ≤ c ∧ c < (plain t).colTypes.length) := hc
        simp only [if_neg hc']
        refine panics_of e ?_
        rintro _ ⟨c, k, ty, y, h1, h2, h3, h4, ⟨_, h5⟩, _⟩
        have := (List.getElem?_eq_some_iff.1 h3).1
        simp only [Indexed] at h1
        exact hc' ⟨by omega, by omega⟩
  · exact only_neg (by simp) ⟨_, rfl⟩

theorem zeroAt_cases {t : Table τ} (h : WF t) (nt : τ) (c r : Int) :
    (∃ (i k : Nat) (ty : ColType), c = i ∧ r = k ∧ t.colTypes[i]? = some ty ∧ k < t.rows.length ∧
      t.setCellToZeroValueByColIndex nt c r = (putCell t i k (zeroCell nt ty), .ok ())) ∨
    (¬ (∃ (i k : Nat) (ty : ColType), c = i ∧ r = k ∧ t.colTypes[i]? = some ty ∧ k < t.rows.length) ∧
      t.setCellToZeroValueByColIndex nt c r = (t, .panic)) := by
  simp only [setCellToZeroValueByColIndex]
  rcases hg : goGet? t.colTypes c with _ | ty
  · right
    refine ⟨?_, rfl⟩
    rintro ⟨i, k, ty, rfl, _, h3, _⟩
    have := (List.getElem?_eq_some_iff.1 h3).1
    exact goGet?_none.1 hg ⟨by omega, by omega⟩
  · have hg' := goGet?_some.1 hg
    obtain ⟨i, rfl⟩ := Int.eq_ofNat_of_zero_le hg'.1
    have hty : t.colTypes[i]? = some ty := by simpa using hg'.2
    have hi : i < t.colNames.length := by rw [← h.typesLen]; exact (List.getElem?_eq_some_iff.1 hty).1
    by_cases hr : 0 ≤ r ∧ r < t.rows.length
    · obtain ⟨k, rfl⟩ := Int.eq_ofNat_of_zero_le hr.1
      left
      exact ⟨i, k, ty, rfl, rfl, hty, by omega, by simp only [setCell?_eq h hi (show k < t.rows.length by omega)]⟩
    · right
      refine ⟨?_, ?_⟩
      · rintro ⟨i, k, ty, _, rfl, _, h4⟩
        exact hr ⟨by omega, by omega⟩
      · have : t.setCell? (i : Int) r (zeroCell nt ty) = none := by
          cases hs : t.setCell? (i : Int) r (zeroCell nt ty) with
          | none => rfl
          | some t' =>
            obtain ⟨row, a, b, d, _⟩ := setCell?_some.1 hs
            have := (List.getElem?_eq_some_iff.1 d).1
            exact absurd ⟨a, by omega⟩ hr
        simp only [this]

theorem zeroAt_does {t : Table τ} (h : WF t) (nt : τ) (col : Table τ → Nat → Prop) (c r : Int) (hcol : ∀ i, col (plain t) i ↔ c = i) :
    Try .panics (Write col r fun ty x => x = zero nt ty) (plain t) (verdict (t.setCellToZeroValueByColIndex nt c r).2)
      (plain (t.setCellToZeroValueByColIndex nt c r).1) := by
  rcases zeroAt_cases h nt c r with ⟨i, k, ty, h1, h2, h3, h4, e⟩ | ⟨hno, e⟩
  · exact done_of e ⟨i, k, ty, _, (hcol i).2 h1, h2, h3, h4, (zero_eq nt ty).symm, rfl⟩
  · refine panics_of e ?_
    rintro _ ⟨i, k, ty, x, h1, h2, h3, h4, _⟩
    exact hno ⟨i, k, ty, (hcol i).1 h1, h2, h3, h4⟩

theorem named_iff {t : Table τ} (h : WF t) {n : GoStr} {i : Nat} (hi : t.colNames[i]? = some n) (j : Nat) : Named n (plain t) j ↔ (i : Int) = j := by
  constructor
  · intro hj; have := h.map_unique hi hj; omega
  · intro e; have : i = j := by omega
    subst this; exact hi

theorem zeroCell_does {t : Table τ} (h : WF t) (nt : τ) (n : GoStr) (r : Int) :
    Does (.setCellToZeroValue nt n r) (plain t) (verdict (t.setCellToZeroValue nt n r).2) (plain (t.setCellToZeroValue nt n r).1) := by
  simp only [Does]
  simp only [setCellToZeroValue]
  rcases h.colIndex_cases n with ⟨i, hi, e⟩ | ⟨hn, e⟩ <;> rw [e]
  · exact only_pos (List.mem_of_getElem? hi) (zeroAt_does h nt _ _ _ (named_iff h hi))
  · exact only_neg hn ⟨_, rfl⟩

/-! ## Columns of zero values -/

theorem zeroCol_cases {t : Table τ} (h : WF t) (nt : Nat → Nat → τ) (c : Int) :
    (∃ (i : Nat) (ty : ColType), c = i ∧ t.colTypes[i]? = some ty ∧ t.setColCellsToZeroValueByColIndex nt c =
      ({ t with rows := t.rows.mapIdx (fun r row => row.set i (zeroCell (nt i r) ty)) }, .ok ())) ∨
    (¬ (∃ (i : Nat) (ty : ColType), c = i ∧ t.colTypes[i]? = some ty) ∧
      t.setColCellsToZeroValueByColIndex nt c = (t, if t.rows = [] then .ok () else .panic)) := by
  by_cases hc : ∃ (i : Nat) (ty : ColType), c = i ∧ t.colTypes[i]? = some ty
  · left
    obtain ⟨i, ty, rfl, hty⟩ := hc
    refine ⟨i, ty, rfl, hty, setColZero_eq nt hty (fun row hrow => ?_)⟩
    rw [(h.rowsOK row hrow).1]; exact (List.getElem?_eq_some_iff.1 hty).1
  · right
    refine ⟨hc, ?_⟩
    simp only [setColCellsToZeroValueByColIndex, rowCount]
    cases hr : t.rows with
    | nil => simp [forEach]
    | cons row rows =>
      have e : t.setCellToZeroValueByColIndex (nt c.toNat 0) c 0 = (t, .panic) := by
        rcases zeroAt_cases h (nt c.toNat 0) c 0 with ⟨i, _, ty, h1, _, h3, _⟩ | ⟨_, e⟩
        · exact absurd ⟨i, ty, h1, h3⟩ hc
        · exact e
      simp only [List.length_cons, List.range_succ_eq_map, forEach, Int.natCast_zero, e]
      simp

theorem zeroCol_does {t : Table τ} (h : WF t) (nt : Nat → Nat → τ) (c : Int) :
    Does (.setColCellsToZeroValueByColIndex nt c) (plain t) (verdict (t.setColCellsToZeroValueByColIndex nt c).2)
      (plain (t.setColCellsToZeroValueByColIndex nt c).1) := by
  simp only [Does]
  rcases zeroCol_cases h nt c with ⟨i, ty, h1, h2, e⟩ | ⟨hno, e⟩
  · refine done_of e (.inr ⟨i, ty, h1, h2, ?_⟩)
    simp only [zero_eq]; rfl
  · by_cases hr : t.rows = []
    · rw [if_pos hr] at e
      exact done_of e (.inl ⟨hr, rfl⟩)
    · rw [if_neg hr] at e
      refine panics_of e ?_
      rintro x (⟨h1, _⟩ | ⟨i, ty, h1, h2, _⟩)
      · exact hr h1
      · exact hno ⟨i, ty, h1, h2⟩

theorem zeroColNamed_does {t : Table τ} (h : WF t) (nt : Nat → Nat → τ) (n : GoStr) :
    Does (.setColCellsToZeroValue nt n) (plain t) (verdict (t.setColCellsToZeroValue nt n).2) (plain (t.setColCellsToZeroValue nt n).1) := by
  simp only [Does]
  simp only [setColCellsToZeroValue]
  rcases h.colIndex_cases n with ⟨i, hi, e⟩ | ⟨hn, e⟩ <;> rw [e]
  · obtain ⟨ty, hty⟩ := h.type_of_name hi
    simp only
    rcases zeroCol_cases h nt i with ⟨j, ty', h1, h2, e⟩ | ⟨hno, e⟩
    · have : i = j := by omega
      subst this
      refine done_of e ⟨i, ty', hi, h2, ?_⟩
      simp only [zero_eq]; rfl
    · exact absurd ⟨i, ty, rfl, hty⟩ hno
  · refine refused_of ⟨_, rfl⟩ ?_
    rintro _ ⟨c, _, h1, _⟩
    exact hn (List.mem_of_getElem? h1)

theorem zeroRow_does {t : Table τ} (h : WF t) (nt : Nat → Nat → τ) (r : Int) :
    Does (.setRowCellsToZeroValue nt r) (plain t) (verdict (t.setRowCellsToZeroValue nt r).2) (plain (t.setRowCellsToZeroValue nt r).1) := by
  simp only [Does]
  by_cases hnil : t.isNilTable = true
  · exact only_neg (by simp [plain, hnil]) ⟨.nilTable, by simp [setRowCellsToZeroValue, hnil]⟩
  have hnil' : t.isNilTable = false := by simpa using hnil
  refine only_pos hnil' ?_
  by_cases hr : 0 ≤ r ∧ r < t.rows.length
  · obtain ⟨k, rfl⟩ := Int.eq_ofNat_of_zero_le hr.1
    have hk : k < t.rows.length := by omega
    refine done_of (setRowCellsToZeroValue_eq nt hnil' h.typesLen (List.getElem?_eq_getElem hk) (h.rowLen (List.getElem?_eq_getElem hk)))
      (.inr ⟨k, rfl, hk, ?_⟩)
    rw [zeros_eq]; rfl
  · by_cases hc : t.colNames = []
    · refine done_of (t' := t) ?_ (.inl ⟨hc, rfl⟩)
      simp [setRowCellsToZeroValue, hnil', colCount, hc, forEach]
    · refine panics_of ?_ ?_
      · simp only [setRowCellsToZeroValue, colCount]
        rw [if_neg hnil]
        obtain ⟨n, hn⟩ : ∃ n, t.colNames.length = n + 1 := ⟨t.colNames.length - 1, by have := List.length_pos_iff.2 hc; omega⟩
        have hty : t.colTypes[0]? = some (t.colTypes[0]'(by rw [h.typesLen]; omega)) := List.getElem?_eq_getElem _
        have hs : ∀ x, t.setCell? ((0 : Nat) : Int) r x = none := by
          intro x
          cases hs : t.setCell? ((0 : Nat) : Int) r x with
          | none => rfl
          | some t' =>
            obtain ⟨row, a, b, d, _⟩ := setCell?_some.1 hs
            have := (List.getElem?_eq_some_iff.1 d).1
            exact absurd ⟨a, by omega⟩ hr
        rw [hn]
        simp only [List.range_succ_eq_map, forEach, hty, hs]
      · rintro x (⟨h1, _⟩ | ⟨k, h1, h2, _⟩)
        · exact hc h1
        · have h2' : k < t.rows.length := h2
          exact hr ⟨by omega, by omega⟩

end Plain
end Verif
