import Verif.Lemmas.PlainNaN
import Verif.Props.C30

/-! # Rows, columns, sort keys and other tables do what the specification of plain tables says -/

namespace Verif
namespace Plain
open Table

variable {τ : Type}

/-! ## Names and shape -/

theorem tableName_iff (n : GoStr) : isValidTableName n = true ↔ ColName n := by
  rw [colName_iff, isValidTableName, isValidColName]
  cases n <;> simp [isValidName]

theorem setName_does (t : Table τ) (n : GoStr) :
    Does (.setName n) (plain t) (verdict (t.setName n).2) (plain (t.setName n).1) := by
  simp only [Does]
  cases hv : isValidTableName n with
  | true => exact done_of (t' := { t with name := n, isNilTable := false }) (by simp [setName, hv]) ⟨(tableName_iff n).1 hv, rfl⟩
  | false =>
    refine refused_of ⟨.badTableName, by simp [setName, hv]⟩ ?_
    rintro _ ⟨h1, _⟩
    rw [(tableName_iff n).2 h1] at hv; cases hv

/-! ## Rows -/

theorem appendRows_does {t : Table τ} (h : WF t) (nt : Nat → Nat → τ) (n : Int) :
    Does (.appendRows nt n) (plain t) (verdict (t.appendRows nt n).2) (plain (t.appendRows nt n).1) := by
  simp only [Does]
  cases hnil : t.isNilTable with
  | true =>
    have e : t.appendRows nt n = (t, .err .nilTable) := by simp [appendRows, hnil]
    by_cases hn : 0 ≤ n
    · refine only_pos hn (refused_of ⟨_, e⟩ ?_)
      rintro _ ⟨h1, _⟩
      have h1' : t.isNilTable = false := h1
      rw [hnil] at h1'; cases h1'
    · exact only_neg (p := fun _ => 0 ≤ n) hn ⟨_, e⟩
  | false =>
    by_cases hn : 0 ≤ n
    · refine only_pos hn (done_of (appendRows_eq nt hnil h.typesLen hn) ⟨hnil, ?_⟩)
      simp only [zeros_eq]; rfl
    · refine only_neg (p := fun _ => 0 ≤ n) hn ⟨.negCount, ?_⟩
      simp [appendRows, hnil, show n < 0 by omega]

theorem appendRow_does {t : Table τ} (h : WF t) (nt : Nat → Nat → τ) :
    Try .refused (MoreRows nt 1) (plain t) (verdict (t.appendRow nt).2) (plain (t.appendRow nt).1) := by
  cases hnil : t.isNilTable with
  | true =>
    refine refused_of ⟨.nilTable, by simp [appendRow, hnil]⟩ ?_
    rintro _ ⟨h1, _⟩
    have h1' : t.isNilTable = false := h1
    rw [hnil] at h1'; cases h1'
  | false =>
    refine done_of (appendRow_eq nt hnil h.typesLen) ⟨hnil, ?_⟩
    simp only [zeros_eq, plain]; simp

theorem deleteRows_eq (t : Table τ) {a b : Int} (h : 0 ≤ a ∧ a ≤ b ∧ b < t.rows.length) :
    t.deleteRows a b = ({ t with rows := t.rows.take a.toNat ++ t.rows.drop (b.toNat + 1) }, .ok ()) := by
  have hrc : t.rowCount = t.rows.length := rfl
  unfold deleteRows
  rw [if_neg (by omega), if_neg (by omega), if_neg (by omega), show (b + 1).toNat = b.toNat + 1 by omega]

theorem deleteRows_does (t : Table τ) (a b : Int) :
    Try .refused (LessRows a b) (plain t) (verdict (t.deleteRows a b).2) (plain (t.deleteRows a b).1) := by
  by_cases hab : 0 ≤ a ∧ a ≤ b ∧ b < t.rows.length
  · exact done_of (deleteRows_eq t hab) ⟨hab.1, hab.2.1, hab.2.2, rfl⟩
  · refine refused_of ?_ ?_
    · have hrc : t.rowCount = t.rows.length := rfl
      unfold deleteRows
      by_cases h1 : a < 0 ∨ a > (t.rowCount : Int) - 1
      · exact ⟨_, if_pos h1⟩
      · rw [if_neg h1]
        by_cases h2 : b < 0 ∨ b > (t.rowCount : Int) - 1
        · exact ⟨_, if_pos h2⟩
        · rw [if_neg h2]
          exact ⟨_, if_pos (by omega)⟩
    · rintro _ ⟨h1, h2, h3, _⟩
      exact hab ⟨h1, h2, h3⟩

theorem deleteRow_does (t : Table τ) (r : Int) :
    Try .refused (LessRows r r) (plain t) (verdict (t.deleteRow r).2) (plain (t.deleteRow r).1) := by
  have hrc : t.rowCount = t.rows.length := rfl
  by_cases hr : 0 ≤ r ∧ r < t.rows.length
  · have e := deleteRows_eq t ⟨hr.1, Int.le_refl r, hr.2⟩
    refine done_of (t' := { t with rows := t.rows.take r.toNat ++ t.rows.drop (r.toNat + 1) }) ?_ ⟨hr.1, Int.le_refl _, hr.2, rfl⟩
    unfold deleteRow
    rw [if_neg (by omega), e]
  · refine refused_of ⟨.noRow, ?_⟩ ?_
    · unfold deleteRow
      rw [if_pos (by omega)]
    · rintro _ ⟨h1, _, h3, _⟩
      exact hr ⟨h1, h3⟩

theorem deleteRowsAll_does (t : Table τ) :
    Does .deleteRowsAll (plain t) (verdict t.deleteRowsAll.2) (plain t.deleteRowsAll.1) := by
  simp only [Does]
  have hrc : t.rowCount = t.rows.length := rfl
  refine done_of (t' := { t with rows := [] }) ?_ rfl
  unfold deleteRowsAll
  by_cases hr : (t.rowCount : Int) > 0
  · rw [if_pos hr, deleteRows_eq t ⟨by omega, by omega, by omega⟩, List.drop_of_length_le (by omega)]
    rfl
  · rw [if_neg hr]
    have : t.rows = [] := List.length_eq_zero_iff.1 (by omega)
    rw [← this]

/-! ## Columns -/

theorem appendCol_does {t : Table τ} (h : WF t) (nt : Nat → Nat → τ) (n tyName : GoStr) :
    Try .refused (MoreCol nt n tyName) (plain t) (verdict (t.appendCol nt n tyName).2) (plain (t.appendCol nt n tyName).1) := by
  rcases appendCol_cases nt h n tyName with ⟨ty, h1, h2, h3, _, h5, e⟩ | ⟨hno, e⟩
  · refine done_of e ⟨ty, h1, (colName_iff n).2 h2, h3, h5, ?_⟩
    simp only [zero_eq, plain, addZeroCol]
  · refine refused_of e ?_
    rintro _ ⟨ty, h1, h2, h3, h4, _⟩
    exact hno ⟨h1, (colName_iff n).1 h2, h3, ty, by rw [h4]; exact ofName?_name ty⟩

theorem deleteColAt_does {t : Table τ} (h : WF t) (col : Table τ → Nat → Prop) (c : Int) (hcol : ∀ i, col (plain t) i ↔ c = i) :
    Try .refused (LessCol col) (plain t) (verdict (t.deleteColByColIndex c).2) (plain (t.deleteColByColIndex c).1) := by
  by_cases hc : 0 ≤ c ∧ c < t.colNames.length
  · obtain ⟨i, rfl⟩ := Int.eq_ofNat_of_zero_le hc.1
    have hi : i < t.colNames.length := by omega
    obtain ⟨n, _, e⟩ := deleteColByColIndex_eq h hi
    exact done_of e ⟨i, (hcol i).2 rfl, hi, rfl⟩
  · refine refused_of ⟨.noCol, ?_⟩ ?_
    · have hcc : t.colCount = t.colNames.length := rfl
      unfold deleteColByColIndex
      rw [if_pos (by omega)]
    · rintro _ ⟨i, h1, h2, _⟩
      have h3 := (hcol i).1 h1
      have h2' : i < t.colNames.length := h2
      exact hc ⟨by omega, by omega⟩

theorem deleteCol_does {t : Table τ} (h : WF t) (n : GoStr) :
    Does (.deleteCol n) (plain t) (verdict (t.deleteCol n).2) (plain (t.deleteCol n).1) := by
  simp only [Does, deleteCol]
  rcases h.colIndex_cases n with ⟨i, hi, e⟩ | ⟨hn, e⟩ <;> rw [e]
  · exact deleteColAt_does h _ _ (named_iff h hi)
  · refine refused_of ⟨_, rfl⟩ ?_
    rintro _ ⟨c, h1, _⟩
    exact hn (List.mem_of_getElem? h1)

theorem renameCol_does {t : Table τ} (h : WF t) (col : Table τ → Nat → Prop) (a b : GoStr) (hcol : ∀ i, col (plain t) i ↔ t.colNames[i]? = some a) :
    Try .refused (NewColName col b) (plain t) (verdict (t.renameCol a b).2) (plain (t.renameCol a b).1) := by
  rcases renameCol_cases h a b with ⟨i, h1, h2, h3, e⟩ | ⟨hno, e⟩
  · exact done_of e ⟨i, (hcol i).2 h1, (List.getElem?_eq_some_iff.1 h1).1, h2, (colName_iff b).2 h3, rfl⟩
  · refine refused_of e ?_
    rintro _ ⟨i, h1, _, h2, h3, _⟩
    exact hno ⟨List.mem_of_getElem? ((hcol i).1 h1), h2, (colName_iff b).1 h3⟩

theorem renameColByColIndex_does {t : Table τ} (h : WF t) (c : Int) (b : GoStr) :
    Does (.renameColByColIndex c b) (plain t) (verdict (t.renameColByColIndex c b).2) (plain (t.renameColByColIndex c b).1) := by
  simp only [Does, renameColByColIndex]
  by_cases hc : 0 ≤ c ∧ c < t.colNames.length
  · obtain ⟨i, rfl⟩ := Int.eq_ofNat_of_zero_le hc.1
    have hi : t.colNames[i]? = some (t.colNames[i]'(by omega)) := List.getElem?_eq_getElem _
    have e : t.colName (i : Int) = .ok (t.colNames[i]'(by omega)) := by
      exact colName_nat hi
    rw [e]
    refine renameCol_does h _ _ b (fun j => ?_)
    constructor
    · intro e'
      have : i = j := by simp only [Indexed] at e'; omega
      subst this; exact hi
    · intro hj; have := h.map_unique hi hj; simp only [Indexed]; omega
  · have e : t.colName c = .err .noCol := by
      have hcc : t.colCount = t.colNames.length := rfl
      unfold colName; rw [if_pos (by omega)]
    rw [e]
    refine refused_of ⟨_, rfl⟩ ?_
    rintro _ ⟨i, h1, h2, _⟩
    have h2' : i < t.colNames.length := h2
    simp only [Indexed] at h1
    exact hc ⟨by omega, by omega⟩

theorem arranged_perm {σ : List Nat} {t t' : Table τ} (h : Arranged σ t t') : t'.colNames.Perm t.colNames := by
  rw [h.2]; exact pick_perm h.1

theorem reorderCols_does {t : Table τ} (h : WF t) (ns : List GoStr) :
    Try .refused (ArrangedAs ns) (plain t) (verdict (t.reorderCols ns).2) (plain (t.reorderCols ns).1) := by
  rcases reorderCols_cases h ns with ⟨σ, _, h2, h3, e⟩ | ⟨hno, e⟩
  · exact done_of e ⟨σ, ⟨h2, rfl⟩, h3⟩
  · refine refused_of e ?_
    rintro x ⟨σ, h1, h2⟩
    have := arranged_perm h1
    rw [h2] at this
    exact hno this

theorem reorderColsByColIndex_does {t : Table τ} (h : WF t) (order : List Int) :
    Does (.reorderColsByColIndex order) (plain t) (verdict (t.reorderColsByColIndex order).2) (plain (t.reorderColsByColIndex order).1) := by
  simp only [Does]
  rcases reorderColsByColIndex_cases h order with ⟨σ, h1, h2, e⟩ | ⟨hno, e⟩
  · exact done_of e ⟨σ, h1, h2, rfl⟩
  · refine refused_of ⟨_, e⟩ ?_
    rintro x ⟨σ, h1, h2, _⟩
    have h2' : σ.Perm (List.range t.colNames.length) := h2
    rw [h1] at hno
    exact hno (h2'.map _)

theorem orderCols_does {t : Table τ} (h : WF t) :
    Does .orderColsBySortKeys (plain t) (verdict t.orderColsBySortKeys.2) (plain t.orderColsBySortKeys.1) := by
  simp only [Does]
  by_cases hk : KeysDistinct t
  · obtain ⟨h1, h2⟩ := C24_order t h hk
    rcases reorderCols_cases h _ with ⟨σ, _, g2, g3, e⟩ | ⟨hno, _⟩
    · exact done_of (h1.trans e) ⟨σ, ⟨g2, rfl⟩, g3⟩
    · exact absurd h2 hno
  · refine panics_of (C24_otherwise t h hk) ?_
    rintro x ⟨σ, h1, h2⟩
    have hp := arranged_perm h1
    rw [h2] at hp
    have hp' : (t.sortKeys.map (·.colName) ++ t.colNames.filter (fun n => n ∉ t.sortKeys.map (·.colName))).Perm t.colNames := hp
    refine hk ⟨?_, fun k hk => hp'.mem_iff.1 (List.mem_append_left _ (List.mem_map_of_mem hk))⟩
    exact (List.nodup_append.1 (hp'.nodup_iff.2 h.namesNodup)).1

/-! ## Sort keys -/

theorem hasColT_plain {t : Table τ} {n : GoStr} {ty : ColType} : HasColT (plain t) n ty ↔ HasColT t n ty := Iff.rfl

theorem appendSortKey_does {t : Table τ} (h : WF t) (n : GoStr) :
    Try .refused (MoreKey n) (plain t) (verdict (t.appendSortKey n).2) (plain (t.appendSortKey n).1) := by
  rcases appendSortKey_cases h n with ⟨ty, h1, h2, e⟩ | ⟨hno, e⟩
  · exact done_of e ⟨ty, h1, h2, rfl⟩
  · refine refused_of e ?_
    rintro _ ⟨ty, h1, h2, _⟩
    exact hno ⟨ty, h1, h2⟩

theorem setSortKeys_does {t : Table τ} (h : WF t) (ns : List GoStr) :
    SetKeys ns (plain t) (verdict (t.setSortKeys ns).2) (plain (t.setSortKeys ns).1) :=
  each_of (f := fun (n : GoStr) (t : Table τ) => t.appendSortKey n) WF ns (fun n _ _ ht => ⟨ht.appendSortKey n, appendSortKey_does ht n⟩)
    { t with sortKeys := [] } (h.withKeys (by simp))

theorem reverse_key_eq (n : GoStr) (k : SortKey) :
    (⟨k.colName, k.colType, k.reverse || decide (k.colName = n)⟩ : SortKey) = if k.colName = n then { k with reverse := true } else k := by
  by_cases h : k.colName = n
  · rw [if_pos h]; simp [h]
  · rw [if_neg h]; cases k; simp at h; simp [h]

theorem setSortKeyReverse_does (t : Table τ) (n : GoStr) :
    Try .refused (Reversed n) (plain t) (verdict (t.setSortKeyReverse n).2) (plain (t.setSortKeyReverse n).1) := by
  by_cases hex : ∃ k ∈ t.sortKeys, k.colName = n
  · refine done_of (t' := { t with sortKeys := t.sortKeys.map (fun k => if k.colName = n then { k with reverse := true } else k) }) ?_ ⟨hex, ?_⟩
    · obtain ⟨k, hk, hkn⟩ := hex
      simp only [setSortKeyReverse]
      rw [if_neg (by intro h0; rw [List.length_eq_zero_iff] at h0; rw [h0] at hk; cases hk), if_pos]
      simp only [List.any_eq_true, decide_eq_true_eq]
      exact ⟨k, hk, hkn⟩
    · simp only [reverse_key_eq]; rfl
  · refine refused_of ?_ (fun x hx => hex hx.1)
    simp only [setSortKeyReverse]
    by_cases h0 : t.sortKeys.length = 0
    · exact ⟨_, if_pos h0⟩
    · rw [if_neg h0, if_neg (by simpa using hex)]
      refine ⟨.notFound, ?_⟩
      have : t.sortKeys.map (fun k => if k.colName = n then { k with reverse := true } else k) = t.sortKeys := by
        conv => rhs; rw [← List.map_id t.sortKeys]
        refine List.map_congr_left (fun k hk => ?_)
        rw [if_neg (fun e => hex ⟨k, hk, e⟩)]; rfl
      rw [this]

theorem setSortKeysReverse_does {t : Table τ} (h : WF t) (ns : List GoStr) :
    ReverseKeys ns (plain t) (verdict (t.setSortKeysReverse ns).2) (plain (t.setSortKeysReverse ns).1) :=
  each_of (f := fun (n : GoStr) (t : Table τ) => t.setSortKeyReverse n) WF ns (fun n _ t ht => ⟨ht.setSortKeyReverse n, setSortKeyReverse_does t n⟩) t h

theorem setSortKeysFromTable_does {t : Table τ} (h : WF t) (f : Table τ) :
    Does (.setSortKeysFromTable f) (plain t) (verdict (t.setSortKeysFromTable f).2) (plain (t.setSortKeysFromTable f).1) := by
  simp only [Does]
  by_cases hf : f.sortKeys = []
  · exact only_neg (p := fun _ => f.sortKeys ≠ []) (by simp [hf]) ⟨.noSortKeys, by simp [setSortKeysFromTable, hf]⟩
  · refine only_pos hf (then_of (setSortKeys_does h _) (fun ho => ?_) (fun ho => ?_))
    · have e : t.setSortKeysFromTable f = (t.setSortKeys (f.sortKeys.map (·.colName))).1.setSortKeysReverse ((f.sortKeys.filter (·.reverse)).map (·.colName)) := by
        simp only [setSortKeysFromTable]
        rw [if_neg (by simpa using hf)]
        split
        · rename_i e; rw [e]
        · rename_i r hr
          exact absurd (show t.setSortKeys (f.sortKeys.map (·.colName)) = ((t.setSortKeys (f.sortKeys.map (·.colName))).1, .ok ()) by rw [← ho]) (hr _)
      rw [e]
      exact setSortKeysReverse_does (h.setSortKeys _) _
    · simp only [setSortKeysFromTable]
      rw [if_neg (by simpa using hf)]
      split
      · rename_i e; rw [e] at ho; exact absurd rfl ho
      · rfl

theorem deleteKeyLoop_some {n : GoStr} {ks ks' : List SortKey} :
    deleteKeyLoop n ks = some ks' ↔ ∃ pre k post, ks = pre ++ k :: post ∧ k.colName = n ∧ (∀ x ∈ pre, x.colName ≠ n) ∧ ks' = pre ++ post := by
  induction ks generalizing ks' with
  | nil => simp [deleteKeyLoop]
  | cons a ks ih =>
    simp only [deleteKeyLoop]
    by_cases ha : a.colName = n
    · rw [if_pos ha]
      constructor
      · intro e; cases e; exact ⟨[], a, ks, rfl, ha, by simp, rfl⟩
      · rintro ⟨pre, k, post, e, h1, h2, h3⟩
        cases pre with
        | nil => simp only [List.nil_append, List.cons.injEq] at e; rw [h3, e.2]; rfl
        | cons p pre => simp only [List.cons_append, List.cons.injEq] at e; exact absurd (e.1 ▸ ha) (h2 p (by simp))
    · rw [if_neg ha]
      simp only [Option.map_eq_some_iff]
      constructor
      · rintro ⟨l, hl, rfl⟩
        obtain ⟨pre, k, post, e, h1, h2, h3⟩ := ih.1 hl
        refine ⟨a :: pre, k, post, by simp [e], h1, ?_, by simp [h3]⟩
        intro x hx
        rcases List.mem_cons.1 hx with rfl | hx
        · exact ha
        · exact h2 x hx
      · rintro ⟨pre, k, post, e, h1, h2, h3⟩
        cases pre with
        | nil => simp only [List.nil_append, List.cons.injEq] at e; exact absurd (e.1 ▸ h1) ha
        | cons p pre =>
          simp only [List.cons_append, List.cons.injEq] at e
          exact ⟨pre ++ post, ih.2 ⟨pre, k, post, e.2, h1, fun x hx => h2 x (by simp [hx]), rfl⟩, by rw [h3, e.1]; rfl⟩

theorem deleteSortKey_does {t : Table τ} (h : WF t) (n : GoStr) :
    Does (.deleteSortKey n) (plain t) (verdict (t.deleteSortKey n).2) (plain (t.deleteSortKey n).1) := by
  simp only [Does, deleteSortKey]
  rcases getColInfo_cases h n with ⟨i, ty, hi, _, e⟩ | ⟨hn, e⟩ <;> rw [e]
  · simp only
    cases hk : deleteKeyLoop n t.sortKeys with
    | some ks =>
      obtain ⟨pre, k, post, h1, h2, h3, h4⟩ := deleteKeyLoop_some.1 hk
      refine done_of (t' := { t with sortKeys := ks }) rfl ⟨List.mem_of_getElem? hi, pre, k, post, h1, h2, h3, ?_⟩
      rw [h4]; rfl
    | none =>
      refine refused_of ⟨_, rfl⟩ ?_
      rintro _ ⟨_, pre, k, post, h1, h2, h3, _⟩
      have h1' : t.sortKeys = pre ++ k :: post := h1
      rw [deleteKeyLoop_some.2 ⟨pre, k, post, h1', h2, h3, rfl⟩] at hk; cases hk
  · refine refused_of ⟨_, rfl⟩ ?_
    rintro _ ⟨h1, _⟩
    exact hn h1

/-! ## Sorting -/

theorem rowBefore_plain (lower : GoStr → GoStr) (t : Table τ) (ks : List SortKey) (i j : Nat) :
    RowBefore lower (plain t) ks i j ↔ RowBefore lower t ks i j := by
  induction ks with
  | nil => rfl
  | cons k ks ih => simp only [RowBefore]; rw [ih]; rfl

theorem sortByKeys_does {t : Table τ} (h : WF t) (srt : GoSort (List (Cell τ))) (lower : GoStr → GoStr) :
    SortRows lower (plain t) (verdict (t.sortByKeys srt lower).2) (plain (t.sortByKeys srt lower).1) := by
  cases hrun : srt.run (t.lessByKeys lower t.sortKeys) t.rows with
  | none =>
    have e : t.sortByKeys srt lower = (t, .panic) := by simp only [sortByKeys, hrun]
    rw [e]
    refine .inr ⟨rfl, rfl, fun hlive => ?_⟩
    have hlive' : KeysLive t := hlive
    have hs : ∀ k ∈ t.sortKeys, k.colType.Sortable = true := fun k hk => (h.keysOK k hk).1
    have hnp := srt.noPanic (t.lessByKeys lower t.sortKeys) t.rows (by
      intro a ha b hb
      obtain ⟨i, hi⟩ := List.getElem?_of_mem ha
      obtain ⟨j, hj⟩ := List.getElem?_of_mem hb
      obtain ⟨as, h1, h2⟩ := keyCells_exists h (List.getElem?_eq_some_iff.1 hi).1 t.sortKeys hlive' hs
      obtain ⟨bs, g1, g2⟩ := keyCells_exists h (List.getElem?_eq_some_iff.1 hj).1 t.sortKeys hlive' hs
      rw [lessByKeys_eq lower h hi hj h1 g1 h2 g2]; rfl)
    rw [hrun] at hnp; cases hnp
  | some rows =>
    have e : t.sortByKeys srt lower = ({ t with rows := rows }, .ok ()) := by simp only [sortByKeys, hrun]
    rw [e]
    refine .inl ⟨rfl, ⟨rows, srt.perm _ _ _ hrun, rfl⟩, fun hlive hnan => ?_⟩
    obtain ⟨rows', e', _, h2⟩ := sortByKeys_ok srt lower t h hlive hnan
    rw [e'] at e
    have : rows' = rows := by cases e; rfl
    rw [this] at h2
    exact fun i j hij hj hb => h2 i j hij hj ((rowBefore_plain _ _ _ _ _).1 hb)

theorem setSortKeys_ne {t : Table τ} (h : WF t) {ns : List GoStr} (hn : ns ≠ []) (ho : (t.setSortKeys ns).2 = .ok ()) : (t.setSortKeys ns).1.sortKeys ≠ [] := by
  obtain ⟨_, h2, _⟩ := C23_setSortKeys t h ns
  obtain ⟨keys, e, hk⟩ := h2 ho
  rw [e]
  simp only
  intro h0
  rw [h0] at hk
  exact hn hk.1.symm

theorem sort_does {t : Table τ} (h : WF t) (srt : GoSort (List (Cell τ))) (lower : GoStr → GoStr) (ns : List GoStr) :
    Does (.sort srt lower ns) (plain t) (verdict (t.sort srt lower ns).2) (plain (t.sort srt lower ns).1) := by
  simp only [Does]
  by_cases hn : ns = []
  · subst hn
    rw [if_pos rfl]
    by_cases hk : t.sortKeys = []
    · exact only_neg (p := (·.sortKeys ≠ [])) (by simpa [plain] using hk) ⟨.noSortKeys, by simp [sort, hk]⟩
    · have e : t.sort srt lower [] = t.sortByKeys srt lower := by
        simp only [sort, List.length_nil, Nat.lt_irrefl, gt_iff_lt, if_false]
        rw [if_neg (by simpa using hk)]
      rw [e]
      exact only_pos (p := (·.sortKeys ≠ [])) hk (sortByKeys_does h srt lower)
  · rw [if_neg hn]
    have hl : ns.length > 0 := List.length_pos_iff.2 hn
    refine then_of (setSortKeys_does h ns) (fun ho => ?_) (fun ho => ?_)
    · have e0 : t.setSortKeys ns = ((t.setSortKeys ns).1, .ok ()) := by rw [← ho]
      have e : t.sort srt lower ns = (t.setSortKeys ns).1.sortByKeys srt lower := by
        simp only [sort]
        rw [if_pos hl, e0]
        simp only
        rw [if_neg (by simpa using setSortKeys_ne h hn ho)]
      rw [e]
      exact sortByKeys_does (h.setSortKeys ns) srt lower
    · simp only [sort]
      rw [if_pos hl]
      rcases hr : t.setSortKeys ns with ⟨s, (_ | _ | _)⟩
      · rw [hr] at ho; exact absurd rfl ho
      · rfl
      · rfl

theorem sortSimple_does {t : Table τ} (h : WF t) (srt : GoSort (List (Cell τ))) (lower : GoStr → GoStr) (ns : List GoStr) :
    Does (.sortSimple srt lower ns) (plain t) (verdict (t.sortSimple srt lower ns).2) (plain (t.sortSimple srt lower ns).1) := by
  simp only [Does]
  by_cases hn : ns = []
  · subst hn
    exact only_neg (p := fun _ => ([] : List GoStr) ≠ []) (by simp) ⟨.noSortKeys, by simp [sortSimple]⟩
  · have hl : ¬ ns.length = 0 := by simpa using hn
    refine only_pos hn (then_of (setSortKeys_does h ns) (fun ho => ?_) (fun ho => ?_))
    · have e0 : t.setSortKeys ns = ((t.setSortKeys ns).1, .ok ()) := by rw [← ho]
      have e : t.sortSimple srt lower ns = (t.setSortKeys ns).1.sortByKeys srt lower := by
        simp only [sortSimple]
        rw [if_neg hl, e0]
      rw [e]
      exact sortByKeys_does (h.setSortKeys ns) srt lower
    · simp only [sortSimple]
      rw [if_neg hl]
      rcases hr : t.setSortKeys ns with ⟨s, (_ | _ | _)⟩
      · rw [hr] at ho; exact absurd rfl ho
      · rfl
      · rfl

/-! ## Other tables -/

theorem appendColFrom_does {t : Table τ} (h : WF t) (nt : Nat → Nat → τ) (col : GoStr × ColType) :
    Try .refused (HaveCol nt col) (plain t) (verdict (appendColFrom nt col t).2) (plain (appendColFrom nt col t).1) := by
  rcases appendCol_cases nt h col.1 col.2.name with ⟨ty, h1, h2, h3, h4, h5, e⟩ | ⟨hno, x, e⟩
  · have e' : appendColFrom nt col t = t.appendCol nt col.1 col.2.name := by simp only [appendColFrom, e]
    rw [e']
    refine done_of e (.inr ⟨ty, h1, (colName_iff _).2 h2, h3, h5, ?_⟩)
    simp only [zero_eq, plain, addZeroCol]
  · have hmore : ∀ y, ¬ MoreCol nt col.1 col.2.name (plain t) y := by
      rintro _ ⟨ty, h1, h2, h3, h4, _⟩
      exact hno ⟨h1, (colName_iff _).1 h2, h3, ty, by rw [h4]; exact ofName?_name ty⟩
    rcases getColInfo_cases h col.1 with ⟨i, ty, hi, hty, e2⟩ | ⟨hn, e2⟩
    · have e3 : t.hasCol col.1 = .ok () := h.hasCol_ok (List.mem_of_getElem? hi)
      by_cases hc : col.2 = ty
      · refine done_of (t' := t) ?_ (.inl ⟨⟨i, hi, by rw [hc]; exact hty⟩, rfl⟩)
        simp only [appendColFrom, e, e3, e2]
        rw [if_neg (by simpa using hc)]
      · refine refused_of ⟨.typeMismatch, ?_⟩ ?_
        · simp only [appendColFrom, e, e3, e2]
          rw [if_pos hc]
        · rintro y (⟨h1, _⟩ | h1)
          · exact hc (HasColT.unique h h1 ⟨i, hi, hty⟩)
          · exact hmore y h1
    · have e3 : t.hasCol col.1 = .err .noCol := h.hasCol_err hn
      refine refused_of ⟨x, ?_⟩ ?_
      · simp only [appendColFrom, e, e3]
      · rintro y (⟨⟨i, h1, _⟩, _⟩ | h1)
        · exact hn (List.mem_of_getElem? h1)
        · exact hmore y h1

theorem appendColsFromTable_does {t f : Table τ} (h : WF t) (hf : WF f) (nt : Nat → Nat → τ) :
    Does (.appendColsFromTable nt f) (plain t) (verdict (t.appendColsFromTable nt f).2) (plain (t.appendColsFromTable nt f).1) := by
  simp only [Does]
  cases hnil : t.isNilTable with
  | true => exact only_neg (p := fun t => t.isNilTable = false ∧ f.isNilTable = false) (by simp [plain, hnil]) ⟨.nilTable, by simp [appendColsFromTable, hnil]⟩
  | false =>
    cases hfn : f.isNilTable with
    | true =>
      exact only_neg (p := fun t => t.isNilTable = false ∧ true = false) (by simp)
        ⟨.nilTable, by simp [appendColsFromTable, hnil, colInfo, hfn]⟩
    | false =>
      refine only_pos (p := fun t => t.isNilTable = false ∧ false = false) ⟨hnil, rfl⟩ ?_
      have e : t.appendColsFromTable nt f = forEach (appendColFrom nt) (f.colNames.zip f.colTypes) t := by
        simp only [appendColsFromTable, hnil, colInfo_eq hf hfn]; rfl
      rw [e]
      exact each_of WF _ (fun col _ _ ht => ⟨ht.appendColFrom nt col, appendColFrom_does ht nt col⟩) t h

theorem copyCell_does {t f : Table τ} (h : WF t) (hf : WF f) (fr r : Int) {c : Nat} (hc : c < f.colNames.length) :
    Try .refused (CopyCell f fr r c) (plain t) (verdict (copyCellStep f fr r c t).2) (plain (copyCellStep f fr r c t).1) := by
  have hn : f.colNames[c]? = some f.colNames[c] := List.getElem?_eq_getElem hc
  have e1 : f.colName (c : Int) = .ok f.colNames[c] := by
    exact colName_nat hn
  by_cases hr : 0 ≤ fr ∧ fr < f.rows.length
  · obtain ⟨k, rfl⟩ := Int.eq_ofNat_of_zero_le hr.1
    obtain ⟨row, x, h1, h2, h3⟩ := getValByColIndex_nat hf hc (show k < f.rows.length by omega)
    have hx := getValByColIndex_real hf h3
    have e : copyCellStep f (k : Int) r c t = t.setVal f.colNames[c] r x := by simp only [copyCellStep, e1, h3]
    rw [e]
    rcases setVal_does h f.colNames[c] r x hx with ⟨g1, g2⟩ | ⟨g1, g2, g3⟩
    · exact .inl ⟨g1, _, k, row, x, hn, rfl, h1, h2, g2⟩
    · refine .inr ⟨g1, g2, ?_⟩
      rintro y ⟨n, k', row', x', w1, w2, w3, w4, w5⟩
      have : k = k' := by omega
      subst this
      rw [hn] at w1; cases w1
      rw [h1] at w3; cases w3
      rw [h2] at w4; cases w4
      exact g3 y w5
  · obtain ⟨x, e⟩ := getValByColIndex_err (t := f) (c := c) (r := fr) (fun hh => hr ⟨hh.2.2.1, hh.2.2.2⟩)
    refine refused_of ⟨x, by simp only [copyCellStep, e1, e]⟩ ?_
    rintro y ⟨n, k', row', x', w1, w2, w3, _⟩
    have := (List.getElem?_eq_some_iff.1 w3).1
    exact hr ⟨by omega, by omega⟩

theorem copyRow_does {t f : Table τ} (h : WF t) (hf : WF f) (nt : Nat → Nat → τ) (fr r : Int) :
    CopyRow nt f fr r (plain t) (verdict (copyRowStep nt f fr r t).2) (plain (copyRowStep nt f fr r t).1) := by
  refine then_of (appendRow_does h nt) (fun ho => ?_) (fun ho => ?_)
  · have e0 : t.appendRow nt = ((t.appendRow nt).1, .ok ()) := by rw [← ho]
    have e : copyRowStep nt f fr r t = forEach (copyCellStep f fr r) (List.range f.colNames.length) (t.appendRow nt).1 := by
      simp only [copyRowStep]; rw [e0]; rfl
    rw [e]
    exact each_of WF _ (fun c hc _ ht => ⟨ht.copyCellStep hf fr r c, copyCell_does ht hf fr r (by simpa using hc)⟩) _ (h.appendRow nt)
  · simp only [copyRowStep]
    rcases hr : t.appendRow nt with ⟨s, (_ | _ | _)⟩
    · rw [hr] at ho; exact absurd rfl ho
    · rfl
    · rfl

theorem appendRowsFromTable_does {t f : Table τ} (h : WF t) (hf : WF f) (nt : Nat → Nat → τ) (a b : Int) :
    Does (.appendRowsFromTable nt f a b) (plain t) (verdict (t.appendRowsFromTable nt f a b).2) (plain (t.appendRowsFromTable nt f a b).1) := by
  simp only [Does]
  cases hnil : t.isNilTable with
  | true => exact only_neg (p := fun t => t.isNilTable = false ∧ f.isNilTable = false) (by simp [plain, hnil]) ⟨.nilTable, by simp [appendRowsFromTable, hnil]⟩
  | false =>
    cases hfn : f.isNilTable with
    | true =>
      exact only_neg (p := fun t => t.isNilTable = false ∧ true = false) (by simp) ⟨.nilTable, by simp [appendRowsFromTable, hnil, hfn]⟩
    | false =>
      refine only_pos (p := fun t => t.isNilTable = false ∧ false = false) ⟨hnil, rfl⟩ ?_
      have e : t.appendRowsFromTable nt f a b = forEach (fun (k : Nat) (s : Table τ) => copyRowStep nt f (a + k) ((t.rows.length : Int) + k) s)
          (List.range (b - a + 1).toNat) t := by
        simp only [appendRowsFromTable, hnil, hfn]; rfl
      rw [e]
      exact each_of (f := fun (k : Nat) (s : Table τ) => copyRowStep nt f (a + k) ((t.rows.length : Int) + k) s)
        (call := fun (k : Nat) => CopyRow nt f (a + k) ((t.rows.length : Int) + k)) WF _
        (fun k _ s ht => ⟨ht.copyRowStep nt hf (a + k) ((t.rows.length : Int) + k),
          copyRow_does ht hf nt (a + k) ((t.rows.length : Int) + k)⟩) t h

end Plain
end Verif
