import Verif.Lemmas.Preserve
import Verif.Lemmas.At
import Verif.Model.FromTable

/-! # Copying rows from another table -/

namespace Verif
open Table

variable {τ : Type}

/-- The Go type behind a column type: `byte` is `uint8`, `rune` is `int32`, `[]byte` is `[]uint8`. -/
def ColType.goType : ColType → ColType
  | .byte => .uint8
  | .rune => .int32
  | .byteSlice => .uint8Slice
  | ty => ty

theorem hasType_goType {a b : ColType} {v : Cell τ} (h : v.HasType a) : v.HasType b ↔ b.goType = a.goType := by
  cases a <;> cases v <;> simp only [Cell.HasType] at h <;> cases b <;>
    first
      | (simp only [Cell.HasType, ColType.goType, reduceCtorEq]; done)
      | (rename_i k x; cases k <;> simp_all [Cell.HasType, ColType.goType]; done)
      | (rename_i o; cases o <;> simp_all [Cell.HasType, ColType.goType]; done)

/-- A loop whose steps either succeed or fail, depending on the element only. -/
theorem forEach_decide {ι σ : Type} {f : ι → σ → σ × Out Unit} (P : ι → Prop) (I : List ι → σ → Prop) (l : List ι)
    (good : ∀ pre i post, l = pre ++ i :: post → P i → ∀ s, I pre s → ∃ s', f i s = (s', .ok ()) ∧ I (pre ++ [i]) s')
    (bad : ∀ pre i post, l = pre ++ i :: post → ¬ P i → ∀ s, I pre s → ∃ s' e, f i s = (s', .err e))
    (s : σ) (h : I [] s) :
    ((∀ i ∈ l, P i) ∧ ∃ s', forEach f l s = (s', .ok ()) ∧ I l s') ∨
    ((∃ i ∈ l, ¬ P i) ∧ ∃ s' e, forEach f l s = (s', .err e)) := by
  suffices H : ∀ post pre s, l = pre ++ post → I pre s →
      ((∀ i ∈ post, P i) ∧ ∃ s', forEach f post s = (s', .ok ()) ∧ I l s') ∨
      ((∃ i ∈ post, ¬ P i) ∧ ∃ s' e, forEach f post s = (s', .err e)) from H l [] s rfl h
  intro post
  induction post with
  | nil => intro pre s e hs; exact .inl ⟨by simp, s, rfl, by simpa [e] using hs⟩
  | cons i is ih =>
    intro pre s e hs
    by_cases hp : P i
    · obtain ⟨s', h1, h2⟩ := good pre i is e hp s hs
      rw [forEach_cons_ok h1]
      rcases ih (pre ++ [i]) s' (by simp [e]) h2 with ⟨h3, h4⟩ | ⟨⟨j, h3, h3'⟩, h4⟩
      · left; refine ⟨?_, h4⟩
        intro j hj
        rcases List.mem_cons.1 hj with rfl | hj
        · exact hp
        · exact h3 j hj
      · exact .inr ⟨⟨j, by simp [h3], h3'⟩, h4⟩
    · right
      obtain ⟨s', er, h1⟩ := bad pre i is e hp s hs
      exact ⟨⟨i, by simp, hp⟩, s', er, by simp [forEach, h1]⟩

/-- Every column of `f` is a column of `t` with the same Go type. -/
def ColsFit (f t : Table τ) : Prop := ∀ n ty, HasColT f n ty → ∃ ty', HasColT t n ty' ∧ ty'.goType = ty.goType

/-- `row` holds, under the columns `names` of types `types`, row `r` of `f` by column name and zero values elsewhere; only the columns
in `done` are considered to be columns of `f`. -/
def CopiedRow (f : Table τ) (r : Nat) (done : List GoStr) (t : Table τ) (row : List (Cell τ)) : Prop :=
  RowOK t.colTypes row ∧
  ∀ (i : Nat) (n : GoStr) (ty : ColType) (c : Cell τ), t.colNames[i]? = some n → t.colTypes[i]? = some ty → row[i]? = some c →
    (n ∈ done → At f n r c) ∧ (n ∉ done → Cell.IsZero ty c)

theorem zeroRow_copied (nt : Nat → Nat → τ) (f t : Table τ) (r k : Nat) : CopiedRow f r [] t (zeroRow nt t.colTypes k) := by
  refine ⟨zeroRow_ok _ _ _, ?_⟩
  intro i n ty c hi hty hc
  simp only [zeroRow, List.getElem?_mapIdx, hty, Option.map_some, Option.some.injEq] at hc
  subst hc
  exact ⟨by simp, fun _ => zeroCell_isZero _ _⟩

theorem SameHeader.withRows (t : Table τ) (rows : List (List (Cell τ))) : SameHeader t { t with rows := rows } := by
  simp [SameHeader]

theorem putCell_last (t : Table τ) (row : List (Cell τ)) (c : Nat) (v : Cell τ) :
    putCell { t with rows := t.rows ++ [row] } c t.rows.length v = { t with rows := t.rows ++ [row.set c v] } := by
  simp only [putCell, Table.mk.injEq, true_and, and_true]
  apply List.ext_getElem?
  intro i
  rw [List.getElem?_modify]
  rcases Nat.lt_trichotomy i t.rows.length with hi | hi | hi
  · rw [List.getElem?_append_left hi, List.getElem?_append_left hi]
    have : t.rows.length ≠ i := by omega
    simp [this]
  · subst hi
    simp
  · rw [List.getElem?_eq_none (by simp; omega), List.getElem?_eq_none (by simp; omega)]
    rfl

theorem copyRowStep_cases (nt : Nat → Nat → τ) {t f : Table τ} (h : WF t) (hf : WF f) (hnil : t.isNilTable = false) (fr : Int) :
    (((f.colNames = [] ∨ (0 ≤ fr ∧ fr < f.rows.length)) ∧ ColsFit f t) ∧ ∃ row,
      copyRowStep nt f fr (t.rows.length : Nat) t = ({ t with rows := t.rows ++ [row] }, .ok ()) ∧
      CopiedRow f fr.toNat f.colNames t row) ∨
    (¬ ((f.colNames = [] ∨ (0 ≤ fr ∧ fr < f.rows.length)) ∧ ColsFit f t) ∧
      ∃ s e, copyRowStep nt f fr (t.rows.length : Nat) t = (s, .err e)) := by
  have hcc : f.colCount = f.colNames.length := rfl
  have e0 : copyRowStep nt f fr (t.rows.length : Nat) t =
      forEach (copyCellStep f fr (t.rows.length : Nat)) (List.range f.colNames.length)
        { t with rows := t.rows ++ [zeroRow nt t.colTypes t.rows.length] } := by
    simp only [copyRowStep, appendRow_eq nt hnil h.typesLen, hcc]
  rw [e0]
  have hwf : ∀ row, RowOK t.colTypes row → WF { t with rows := t.rows ++ [row] } := by
    intro row hrow
    refine h.withRows _ ?_ (by simp [hnil])
    intro r hr
    rcases List.mem_append.1 hr with hr | hr
    · exact h.rowsOK r hr
    · rw [List.mem_singleton.1 hr]; exact hrow
  have key := forEach_decide (f := copyCellStep f fr (t.rows.length : Nat))
    (P := fun ci => (0 ≤ fr ∧ fr < f.rows.length) ∧ ∃ n ty ty', f.colNames[ci]? = some n ∧ f.colTypes[ci]? = some ty ∧
      HasColT t n ty' ∧ ty'.goType = ty.goType)
    (I := fun pre s => ∃ row, s = { t with rows := t.rows ++ [row] } ∧
      CopiedRow f fr.toNat (f.colNames.take pre.length) t row)
    (List.range f.colNames.length)
    (by
      rintro pre ci post hl ⟨⟨hr0, hr1⟩, n, ty, ty', hn, hty, ⟨j, hj1, hj2⟩, hg⟩ s ⟨row, rfl, hrow, hcop⟩
      have hpre : pre.length = ci := by
        have h1 := congrArg (fun l => l[pre.length]?) hl
        simp only [List.getElem?_append_right (Nat.le_refl _), Nat.sub_self, List.getElem?_cons_zero] at h1
        rw [List.getElem?_eq_some_iff] at h1
        obtain ⟨_, h1⟩ := h1
        simpa using h1
      obtain ⟨ri, rfl⟩ := Int.eq_ofNat_of_zero_le hr0
      have hclt := (List.getElem?_eq_some_iff.1 hn).1
      obtain ⟨frow, v, h1, h2, h3⟩ := getValByColIndex_nat hf (c := ci) (r := ri) hclt (by omega)
      have hht : v.HasType ty := (hf.rowsOK frow (List.mem_of_getElem? h1)).2 ci _ _ hty h2
      have hht' : v.HasType ty' := (hasType_goType hht).2 hg
      have hw := hwf row hrow
      have hat : At f n ri v := ⟨ci, frow, hn, h1, h2⟩
      rcases setVal_cases hw n (t.rows.length : Nat) v (hasType_real hht) with ⟨c2, r2, ty2, a1, a2, a3, a4, a5, a6⟩ | ⟨hno, _⟩
      · have : r2 = t.rows.length := by omega
        subst this
        have : c2 = j := h.map_unique a1 hj1
        subst this
        rw [putCell_last] at a6
        refine ⟨{ t with rows := t.rows ++ [row.set c2 v] }, ?_, row.set c2 v, rfl, hrow.set hj2 hht', ?_⟩
        · simp only [copyCellStep, colName_nat hn, h3, a6]
        · intro i m tym c hi hti hc
          have htake : f.colNames.take (pre ++ [ci]).length = f.colNames.take ci ++ [n] := by
            rw [List.length_append, hpre]
            show f.colNames.take (ci + 1) = _
            rw [List.take_succ_eq_append_getElem hclt]
            congr 2
            exact (List.getElem?_eq_some_iff.1 hn).2
          rw [htake]
          by_cases him : c2 = i
          · subst him
            have : m = n := by rw [hj1] at hi; exact (Option.some.inj hi).symm
            subst this
            have hlt : c2 < row.length := by
              rw [hrow.1]; exact (List.getElem?_eq_some_iff.1 hj2).1
            rw [List.getElem?_set_self hlt] at hc
            cases hc
            refine ⟨fun _ => by simpa using hat, fun hno => ?_⟩
            simp at hno
          · rw [List.getElem?_set_ne him] at hc
            obtain ⟨b1, b2⟩ := hcop i m tym c hi hti hc
            have hmn : m ≠ n := by
              rintro rfl
              exact him (h.map_unique hj1 hi)
            rw [hpre] at b1 b2
            constructor
            · intro hmem
              rcases List.mem_append.1 hmem with hm | hm
              · exact b1 hm
              · exact absurd (List.mem_singleton.1 hm) hmn
            · intro hmem
              exact b2 (fun hm => hmem (List.mem_append_left _ hm))
      · exact absurd ⟨j, t.rows.length, ty', hj1, rfl, hj2, by simp, hht'⟩ hno)
    (by
      rintro pre ci post hl hno s ⟨row, rfl, hrow, hcop⟩
      have hclt : ci < f.colNames.length := by
        have : ci ∈ List.range f.colNames.length := by rw [hl]; simp
        simpa using this
      have hn : f.colNames[ci]? = some f.colNames[ci] := List.getElem?_eq_getElem hclt
      obtain ⟨ty, hty⟩ := hf.type_of_name hn
      simp only [copyCellStep, colName_nat hn]
      by_cases hr : 0 ≤ fr ∧ fr < f.rows.length
      · obtain ⟨ri, rfl⟩ := Int.eq_ofNat_of_zero_le hr.1
        obtain ⟨frow, v, h1, h2, h3⟩ := getValByColIndex_nat hf (c := ci) (r := ri) hclt (by omega)
        have hht : v.HasType ty := (hf.rowsOK frow (List.mem_of_getElem? h1)).2 ci _ _ hty h2
        rw [h3]
        rcases setVal_cases (hwf row hrow) f.colNames[ci] (t.rows.length : Nat) v (hasType_real hht) with
          ⟨c2, r2, ty2, a1, a2, a3, a4, a5, a6⟩ | ⟨_, e, he⟩
        · exact absurd ⟨hr, _, ty, ty2, hn, hty, ⟨c2, a1, a3⟩, (hasType_goType hht).1 a5⟩ hno
        · exact ⟨_, e, he⟩
      · obtain ⟨e, he⟩ := getValByColIndex_err (t := f) (c := ci) (r := fr) (by
          rintro ⟨_, _, b1, b2⟩; exact hr ⟨b1, b2⟩)
        rw [he]; exact ⟨_, e, rfl⟩)
    _ ⟨_, rfl, by simpa using zeroRow_copied nt f t fr.toNat t.rows.length⟩
  rcases key with ⟨hall, s', h1, row, rfl, h2⟩ | ⟨⟨ci, hci, hbad⟩, s', e, h1⟩
  · left
    refine ⟨⟨?_, ?_⟩, row, h1, by simpa using h2⟩
    · cases hc : f.colNames with
      | nil => exact .inl rfl
      | cons a l => exact .inr (hall 0 (by simp [hc])).1
    · rintro n ty ⟨i, hi1, hi2⟩
      obtain ⟨_, n', ty1, ty2, b1, b2, b3, b4⟩ := hall i (by simpa using (List.getElem?_eq_some_iff.1 hi1).1)
      rw [hi1] at b1; rw [hi2] at b2
      cases b1; cases b2
      exact ⟨ty2, b3, b4⟩
  · right
    refine ⟨?_, s', e, h1⟩
    rintro ⟨hr, hfit⟩
    have hclt : ci < f.colNames.length := by simpa using hci
    have hn : f.colNames[ci]? = some f.colNames[ci] := List.getElem?_eq_getElem hclt
    obtain ⟨ty, hty⟩ := hf.type_of_name hn
    obtain ⟨ty', c1, c2⟩ := hfit _ ty ⟨ci, hn, hty⟩
    refine hbad ⟨?_, _, ty, ty', hn, hty, c1, c2⟩
    rcases hr with hr | hr
    · rw [hr] at hclt; simp at hclt
    · exact hr

theorem appendRowsFromTable_cases (nt : Nat → Nat → τ) {t f : Table τ} (h : WF t) (hf : WF f) (hnil : t.isNilTable = false)
    (hfnil : f.isNilTable = false) (a b : Int) :
    ((b < a ∨ f.colNames = [] ∨ (0 ≤ a ∧ b < f.rows.length ∧ ColsFit f t)) ∧
      ∃ rows, t.appendRowsFromTable nt f a b = ({ t with rows := t.rows ++ rows }, .ok ()) ∧ rows.length = (b - a + 1).toNat ∧
        ∀ (j : Nat) (row : List (Cell τ)), rows[j]? = some row → CopiedRow f (a + j).toNat f.colNames t row) ∨
    (¬ (b < a ∨ f.colNames = [] ∨ (0 ≤ a ∧ b < f.rows.length ∧ ColsFit f t)) ∧
      ∃ s e, t.appendRowsFromTable nt f a b = (s, .err e)) := by
  have hrc : t.rowCount = t.rows.length := rfl
  have e0 : t.appendRowsFromTable nt f a b =
      forEach (fun (k : Nat) (s : Table τ) => copyRowStep nt f (a + k) ((t.rowCount : Int) + k) s) (List.range (b - a + 1).toNat) t := by
    simp only [appendRowsFromTable, hnil, hfnil, Bool.false_eq_true, if_false]
  rw [e0]
  have hwf : ∀ rows : List (List (Cell τ)), (∀ row ∈ rows, RowOK t.colTypes row) → WF { t with rows := t.rows ++ rows } := by
    intro rows hrows
    refine h.withRows _ ?_ (by simp [hnil])
    intro r hr
    rcases List.mem_append.1 hr with hr | hr
    · exact h.rowsOK r hr
    · exact hrows r hr
  have hfit : ∀ rows, ColsFit f { t with rows := t.rows ++ rows } ↔ ColsFit f t := fun rows => Iff.rfl
  have hpre : ∀ (pre : List Nat) (k : Nat) (post : List Nat), List.range (b - a + 1).toNat = pre ++ k :: post → pre.length = k := by
    intro pre k post hl
    have h1 := congrArg (fun l => l[pre.length]?) hl
    simp only [List.getElem?_append_right (Nat.le_refl _), Nat.sub_self, List.getElem?_cons_zero] at h1
    rw [List.getElem?_eq_some_iff] at h1
    obtain ⟨_, h1⟩ := h1
    simpa using h1
  have step : ∀ (pre : List Nat) (k : Nat) (post : List Nat), List.range (b - a + 1).toNat = pre ++ k :: post →
      ∀ rows : List (List (Cell τ)), rows.length = pre.length → (∀ row ∈ rows, RowOK t.colTypes row) → _ :=
    fun pre k post hl rows hlen hok => copyRowStep_cases nt (hwf rows hok) hf hnil (a + k)
  have key := forEach_decide
    (f := fun (k : Nat) (s : Table τ) => copyRowStep nt f (a + k) ((t.rowCount : Int) + k) s)
    (P := fun k => (f.colNames = [] ∨ (0 ≤ a + (k : Int) ∧ a + (k : Int) < f.rows.length)) ∧ ColsFit f t)
    (I := fun pre s => ∃ rows, s = { t with rows := t.rows ++ rows } ∧ rows.length = pre.length ∧
        (∀ row ∈ rows, RowOK t.colTypes row) ∧
        ∀ (j : Nat) (row : List (Cell τ)), rows[j]? = some row → CopiedRow f (a + j).toNat f.colNames t row)
    (List.range (b - a + 1).toNat)
    (by
      rintro pre k post hl hP s ⟨rows, rfl, hlen, hok, hcop⟩
      have hk := hpre pre k post hl
      have e : ((t.rowCount : Int) + k) = (((t.rows ++ rows).length : Nat) : Int) := by
        rw [hrc, List.length_append]; omega
      simp only [e]
      rcases step pre k post hl rows hlen hok with ⟨_, row, h1, h2⟩ | ⟨hno, _⟩
      · refine ⟨_, h1, rows ++ [row], by simp, by simp [hlen], ?_, ?_⟩
        · intro r hr
          rcases List.mem_append.1 hr with hr | hr
          · exact hok r hr
          · rw [List.mem_singleton.1 hr]; exact h2.1
        · intro j r hj
          by_cases hlt : j < rows.length
          · rw [List.getElem?_append_left hlt] at hj
            exact hcop j r hj
          · rw [List.getElem?_append_right (by omega)] at hj
            have hj' := (List.getElem?_eq_some_iff.1 hj).1
            have : j = k := by simp at hj'; omega
            subst this
            have hz : j - rows.length = 0 := by omega
            rw [hz] at hj
            cases hj
            exact h2
      · exact absurd hP hno)
    (by
      rintro pre k post hl hP s ⟨rows, rfl, hlen, hok, hcop⟩
      have hk := hpre pre k post hl
      have e : ((t.rowCount : Int) + k) = (((t.rows ++ rows).length : Nat) : Int) := by
        rw [hrc, List.length_append]; omega
      simp only [e]
      rcases step pre k post hl rows hlen hok with ⟨hyes, _⟩ | ⟨_, hs⟩
      · exact absurd hyes hP
      · exact hs)
    t ⟨[], by simp, rfl, by simp, by simp⟩
  rcases key with ⟨hall, s', h1, rows, rfl, hlen, hok, hcop⟩ | ⟨⟨k, hk, hbad⟩, s', e, h1⟩
  · left
    refine ⟨?_, rows, h1, by simpa using hlen, hcop⟩
    by_cases hba : b < a
    · exact .inl hba
    · obtain ⟨p1, p2⟩ := hall 0 (by simp; omega)
      obtain ⟨q1, _⟩ := hall (b - a).toNat (by simp; omega)
      rcases p1 with p1 | p1
      · exact .inr (.inl p1)
      · rcases q1 with q1 | q1
        · exact .inr (.inl q1)
        · exact .inr (.inr ⟨by omega, by omega, p2⟩)
  · right
    refine ⟨?_, s', e, h1⟩
    simp only [List.mem_range] at hk
    rintro (h2 | h2 | ⟨h2, h3, h4⟩)
    · omega
    · refine hbad ⟨.inl h2, ?_⟩
      rintro n ty ⟨i, hi, _⟩
      rw [h2] at hi; simp at hi
    · exact hbad ⟨.inr ⟨by omega, by omega⟩, h4⟩

/-- Whatever the outcome, `AppendRowsFromTable` only adds rows at the end. -/
theorem appendRowsFromTable_grows (nt : Nat → Nat → τ) {t f : Table τ} (h : WF t) (hf : WF f) (a b : Int) :
    SameHeader t (t.appendRowsFromTable nt f a b).1 ∧
    (t.appendRowsFromTable nt f a b).1.rows.take t.rows.length = t.rows := by
  simp only [appendRowsFromTable]
  split
  · exact ⟨by simp [SameHeader], by simp⟩
  rename_i hnil
  split
  · exact ⟨by simp [SameHeader], by simp⟩
  have hrc : t.rowCount = t.rows.length := rfl
  have key := forEach_inv
    (f := fun (k : Nat) (s : Table τ) => copyRowStep nt f (a + k) ((t.rowCount : Int) + k) s)
    (P := fun s => WF s ∧ SameHeader t s ∧ s.rows.take t.rows.length = t.rows)
    (List.range (b - a + 1).toNat)
    (by
      rintro k _ s ⟨hw, hh, ht⟩
      have hsn : s.isNilTable = false := by rw [hh.2.2.2.2.2.2.1]; simpa using hnil
      simp only [copyRowStep, appendRow_eq nt hsn hw.typesLen]
      have hlen : t.rows.length ≤ s.rows.length := by
        have := congrArg List.length ht
        simp at this; omega
      refine forEach_inv
        (f := copyCellStep f (a + k) ((t.rowCount : Int) + k))
        (P := fun s => WF s ∧ SameHeader t s ∧ s.rows.take t.rows.length = t.rows) (List.range f.colCount) ?_ _ ⟨?_, ?_, ?_⟩
      · rintro ci _ s ⟨hw, hh, ht⟩
        refine ⟨hw.copyCellStep hf _ _ _, ?_⟩
        simp only [copyCellStep]
        split
        · exact ⟨hh, ht⟩
        · exact ⟨hh, ht⟩
        · split
          · exact ⟨hh, ht⟩
          · exact ⟨hh, ht⟩
          · rename_i n _ _ v hv
            rcases setVal_cases hw n ((t.rowCount : Int) + k) v (getValByColIndex_real hf hv) with
              ⟨c2, r2, ty2, a1, a2, a3, a4, a5, a6⟩ | ⟨_, e, he⟩
            · rw [a6]
              refine ⟨?_, ?_⟩
              · obtain ⟨x1, x2, x3, x4, x5, x6, x7, x8⟩ := hh
                simp [SameHeader, putCell, *]
              · simp only [putCell]
                rw [← ht, List.length_take]
                have hlen : t.rows.length ≤ s.rows.length := by
                  have := congrArg List.length ht
                  simp at this; omega
                rw [Nat.min_eq_left hlen]
                apply List.ext_getElem?
                intro i
                rw [List.getElem?_take, List.getElem?_take, List.getElem?_modify]
                split
                · have : r2 ≠ i := by omega
                  simp [this]
                · rfl
            · rw [he]; exact ⟨hh, ht⟩
      · have := hw.appendRow nt
        rw [appendRow_eq nt hsn hw.typesLen] at this
        exact this
      · obtain ⟨x1, x2, x3, x4, x5, x6, x7, x8⟩ := hh
        simp [SameHeader, *]
      · simp only
        rw [List.take_append_of_le_length hlen, ht])
    t ⟨h, by simp [SameHeader], by simp⟩
  exact key.2

end Verif
