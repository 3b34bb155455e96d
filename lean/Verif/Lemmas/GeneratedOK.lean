import Verif.Lemmas.Generated

/-!
# Lemmas: the compiler accepts generated programs
-/

namespace Verif.GoLang

open Verif

/-- The scopes outside of the functions. -/
def outer (name : GoStr) : List Scope := [[(name, .typ .record)], imports, predeclared]

theorem lookup_cons_ne {β : Type} {x y : GoStr} (v : β) (l : List (GoStr × β)) (h : x ≠ y) : ((y, v) :: l).lookup x = l.lookup x := by
  rw [List.lookup_cons]
  have : (x == y) = false := by simpa using h
  rw [this]

theorem lookup_cons_eq {β : Type} {x : GoStr} (v : β) (l : List (GoStr × β)) : ((x, v) :: l).lookup x = some v := by
  rw [List.lookup_cons]; simp

theorem meaning_skip {sc : Scope} {x : GoStr} (out : List Scope) (h : sc.lookup x = none) : meaning (sc :: out) x = meaning out x := by
  simp only [meaning, h]

theorem meaning_hit {sc : Scope} {x : GoStr} {k : Kind} (out : List Scope) (h : sc.lookup x = some k) : meaning (sc :: out) x = some k := by
  simp only [meaning, h]

theorem meaning_outer {name x : GoStr} (h : x ≠ name) : meaning (outer name) x = meaning [imports, predeclared] x := by
  rw [outer, meaning_skip]
  rw [lookup_cons_ne _ _ h]; rfl

theorem meaning_outer_self (name : GoStr) : meaning (outer name) name = some (.typ .record) := by
  rw [outer, meaning_hit (k := .typ .record)]
  rw [lookup_cons_eq]

theorem getter_facts {ty : ColType} (h1 : ty ≠ .table) (h2 : ty ≠ .time) :
    getters.lookup (getterName ty.name) = some ty ∧ isIdent (getterName ty.name) = true ∧ getterName ty.name ≠ blank ∧
    method (getterName ty.name) = some (.fn [.col .string, .col .int] [.col ty, .error]) := by
  cases ty <;> first | exact absurd rfl h1 | exact absurd rfl h2 | decide +kernel

theorem setter_facts {ty : ColType} (h1 : ty ≠ .table) (h2 : ty ≠ .time) :
    setters.lookup (setterName ty.name) = some ty ∧ isIdent (setterName ty.name) = true ∧ setterName ty.name ≠ blank ∧
    method (setterName ty.name) = some (.fn [.col .string, .col .int, .col ty] [.error]) := by
  cases ty <;> first | exact absurd rfl h1 | exact absurd rfl h2 | decide +kernel

theorem id_table : isIdent (gs! "table") = true := by decide +kernel
theorem id_err : isIdent (gs! "err") = true := by decide +kernel
theorem id_rowIndex : isIdent (gs! "rowIndex") = true := by decide +kernel
theorem id_nil : isIdent (gs! "nil") = true := by decide +kernel
theorem id_slice : isIdent (gs! "slice") = true := by decide +kernel
theorem id_tableName : isIdent (gs! "tableName") = true := by decide +kernel
theorem id_colNames : isIdent (gs! "colNames") = true := by decide +kernel
theorem id_colTypes : isIdent (gs! "colTypes") = true := by decide +kernel
theorem id_fmt : isIdent (gs! "fmt") = true := by decide +kernel
theorem id_gotables : isIdent (gs! "gotables") = true := by decide +kernel
theorem id_error : isIdent (gs! "error") = true := by decide +kernel
theorem id_string : isIdent (gs! "string") = true := by decide +kernel
theorem id_make : isIdent (gs! "make") = true := by decide +kernel
theorem id_len : isIdent (gs! "len") = true := by decide +kernel

theorem uses_self (x : GoStr) : (Expr.id x).uses x = true := by simp [Expr.uses]

theorem tablePtr_kind (fields : List (GoStr × ColType)) {scs : List Scope} (h : meaning scs (gs! "gotables") = some (.pkg (gs! "gotables"))) :
    kindOf fields scs tablePtrType = some (.typ .tablePtr) := by
  have i1 : isIdent (gs! "Table") = true := by decide +kernel
  have b1 : gs! "Table" ≠ blank := by decide +kernel
  have x1 : exported (gs! "gotables") (gs! "Table") = some (.typ .table) := by decide +kernel
  simp only [tablePtrType, kindOf, id_gotables, if_true, h, i1]
  rw [if_neg (by simp [b1])]
  simp only [x1]

section get

variable {name : GoStr} {fields : List (GoStr × ColType)}

/-- The scopes around the loop body of the first function. -/
def aroundGet (name : GoStr) : List Scope :=
  [(gs! "rowIndex", .val (.col .int))] :: [(name, .val .records), (gs! "table", .val .tablePtr)] :: outer name

/-- What holds of the names declared in the loop body so far. -/
structure GetScope (name : GoStr) (cols : List (GoStr × ColType)) (sc : Scope) : Prop where
  table : sc.lookup (gs! "table") = none
  rowIndex : sc.lookup (gs! "rowIndex") = none
  nil : sc.lookup (gs! "nil") = none
  tname : sc.lookup name = none
  err : sc.lookup (gs! "err") = none ∨ sc.lookup (gs! "err") = some (.val .error)
  cols : ∀ c ∈ cols, sc.lookup c.1 = none

theorem notin_table {name : GoStr} (h : name ∉ takenForTable) :
    name ≠ gs! "_" ∧ name ≠ gs! "init" ∧ name ≠ gs! "main" ∧ name ≠ gs! "fmt" ∧ name ≠ gs! "gotables" ∧ name ≠ gs! "table" ∧ name ≠ gs! "err" ∧
    name ≠ gs! "rowIndex" ∧ name ≠ gs! "nil" ∧ name ≠ gs! "error" ∧ name ≠ gs! "make" ∧ name ≠ gs! "len" := by
  simpa [takenForTable, not_or] using h

theorem notin_col {n : GoStr} (h : n ∉ takenForCol) :
    n ≠ gs! "_" ∧ n ≠ gs! "table" ∧ n ≠ gs! "err" ∧ n ≠ gs! "rowIndex" ∧ n ≠ gs! "nil" := by
  simpa [takenForCol, not_or] using h

theorem declare_lookup {sc : Scope} {x y : GoStr} {t : Ty} (h : y ≠ x) : (declare sc x t).lookup y = sc.lookup y := by
  unfold declare
  split
  · rw [lookup_cons_ne _ _ h]
  · rfl

theorem declare_self {sc : Scope} {x : GoStr} {t : Ty} (hb : x ≠ blank) (h : sc.lookup x = none ∨ sc.lookup x = some (.val t)) :
    (declare sc x t).lookup x = some (.val t) := by
  unfold declare fresh
  rcases h with h | h
  · rw [if_pos (by simp [hb, h]), lookup_cons_eq]
  · rw [if_neg (by simp [h]), h]

theorem getCols_accepted (hu : Usable name fields) (cols : List (GoStr × ColType)) (hsub : ∀ c ∈ cols, c ∈ fields) (hnd : (cols.map Prod.fst).Nodup)
    (hfl : ∀ c ∈ cols, fields.lookup c.1 = some c.2) (sc : Scope) (hs : GetScope name cols sc) :
    (getCols name cols).accepted fields (.records, .error) sc (aroundGet name) = true := by
  induction cols generalizing sc with
  | nil => rfl
  | cons c cols ih =>
    obtain ⟨n, ty⟩ := c
    obtain ⟨nt1, nt2, nt3, nt4, nt5, nt6, nt7, nt8, nt9, nt10, nt11, nt12⟩ := notin_table hu.nameOK.2
    obtain ⟨ci, cn, cne, cty1, cty2⟩ := hu.colsOK (n, ty) (hsub _ (by simp))
    dsimp only at ci cn cne cty1 cty2
    obtain ⟨c1, c2, c3, c4, c5⟩ := notin_col cn
    obtain ⟨g1, g2, g3, g4⟩ := getter_facts cty1 cty2
    simp only [List.map_cons, List.nodup_cons] at hnd
    -- what the names mean before and after the declaration
    have mTable : meaning (sc :: aroundGet name) (gs! "table") = some (.val .tablePtr) := by
      rw [meaning_skip _ hs.table, aroundGet, meaning_skip _ (by decide +kernel), meaning_hit]
      rw [lookup_cons_ne _ _ (Ne.symm nt6)]; decide +kernel
    have mRow : meaning (sc :: aroundGet name) (gs! "rowIndex") = some (.val (.col .int)) := by
      rw [meaning_skip _ hs.rowIndex, aroundGet, meaning_hit _ (lookup_cons_eq _ _)]
    let sc' := declare (declare sc n (.col ty)) (gs! "err") .error
    have herr : gs! "err" ≠ blank := by decide +kernel
    have le : sc'.lookup (gs! "err") = some (.val .error) := by
      apply declare_self herr
      rw [declare_lookup (Ne.symm c3)]
      exact hs.err
    have ln : sc'.lookup n = some (.val (.col ty)) := by
      show (declare _ _ _).lookup n = _
      rw [declare_lookup c3]
      exact declare_self c1 (.inl (hs.cols (n, ty) (by simp)))
    have lother : ∀ x, x ≠ n → x ≠ gs! "err" → sc'.lookup x = sc.lookup x := by
      intro x h1 h2
      show (declare _ _ _).lookup x = _
      rw [declare_lookup h2, declare_lookup h1]
    have mErr : ∀ out, meaning (sc' :: out) (gs! "err") = some (.val .error) := fun out => meaning_hit out le
    have lnil : sc'.lookup (gs! "nil") = none := by rw [lother _ (Ne.symm c5) (by decide +kernel)]; exact hs.nil
    have mNil : meaning (sc' :: aroundGet name) (gs! "nil") = some .nil := by
      rw [meaning_skip _ lnil, aroundGet, meaning_skip _ (by decide +kernel), meaning_skip, meaning_outer (Ne.symm nt9)]
      · decide +kernel
      · rw [lookup_cons_ne _ _ (Ne.symm nt9)]; decide +kernel
    have mName : meaning (sc' :: aroundGet name) name = some (.val .records) := by
      rw [meaning_skip, aroundGet, meaning_skip, meaning_hit]
      · rw [lookup_cons_eq]
      · rw [lookup_cons_ne _ _ nt8]; rfl
      · rw [lother _ (Ne.symm cne) nt7]; exact hs.tname
    have mRow' : meaning (sc' :: aroundGet name) (gs! "rowIndex") = some (.val (.col .int)) := by
      rw [meaning_skip, aroundGet, meaning_hit _ (lookup_cons_eq _ _)]
      rw [lother _ (Ne.symm c4) (by decide +kernel)]; exact hs.rowIndex
    have mN : meaning (sc' :: aroundGet name) n = some (.val (.col ty)) := meaning_hit _ ln
    have hfn : fields.lookup n = some ty := hfl (n, ty) (by simp)
    -- the expressions
    have k1 : kindOf fields (sc :: aroundGet name) (.call2 (.sel (.id (gs! "table")) (getterName ty.name)) (.str n) (.id (gs! "rowIndex"))) =
        some (.pair (.col ty) .error) := by
      simp only [kindOf, id_table, id_rowIndex, if_true, mTable, mRow, g2, g4]
      rw [if_neg (by simp [g3])]
      simp [callKind, assignable]
    have k2 : kindOf fields (sc' :: aroundGet name) (.ne (.id (gs! "err")) (.id (gs! "nil"))) = some (.val (.col .bool)) := by
      simp only [kindOf, id_err, id_nil, if_true, mErr, mNil]
      rfl
    have k3 : kindOf fields ([] :: sc' :: aroundGet name) (.id (gs! "nil")) = some .nil := by
      simp only [kindOf, id_nil, if_true]
      rw [meaning_skip _ rfl, mNil]
    have k4 : kindOf fields ([] :: sc' :: aroundGet name) (.id (gs! "err")) = some (.val .error) := by
      simp only [kindOf, id_err, if_true]
      rw [meaning_skip _ rfl, mErr]
    have k5 : kindOf fields (sc' :: aroundGet name) (.sel (.idx (.id name) (.id (gs! "rowIndex"))) n) = some (.val (.col ty)) := by
      simp only [kindOf, hu.nameOK.1, id_rowIndex, if_true, mName, mRow', ci]
      rw [if_neg (by simp; exact c1)]
      simp [hfn]
    have k6 : kindOf fields (sc' :: aroundGet name) (.id n) = some (.val (.col ty)) := by
      simp only [kindOf, ci, if_true, mN]
    have hrest : (gapUnlessLast cols (getCols name cols)).accepted fields (.records, .error) sc' (aroundGet name) = true := by
      have := ih (fun c hc => hsub c (by simp [hc])) hnd.2 (fun c hc => hfl c (by simp [hc])) sc' {
        table := by rw [lother _ (Ne.symm c2) (by decide +kernel)]; exact hs.table
        rowIndex := by rw [lother _ (Ne.symm c4) (by decide +kernel)]; exact hs.rowIndex
        nil := lnil
        tname := by rw [lother _ (Ne.symm cne) nt7]; exact hs.tname
        err := .inr le
        cols := by
          intro c hc
          have h1 : c.1 ≠ n := fun e => hnd.1 (e ▸ List.mem_map_of_mem hc)
          have h2 := (notin_col (hu.colsOK c (hsub c (by simp [hc]))).2.1).2.2.1
          rw [lother _ h1 h2]; exact hs.cols c (by simp [hc]) }
      unfold gapUnlessLast
      split
      · exact this
      · simpa only [Code.accepted] using this
    have lnone : sc.lookup n = none := hs.cols (n, ty) (by simp)
    have d1 : definable sc n (.col ty) = true := by simp [definable, ci, lnone]
    have d2 : definable sc (gs! "err") .error = true := by
      unfold definable
      rw [id_err]
      rcases hs.err with e | e <;> simp [e]
    have f1 : fresh sc n = true := by simp [fresh, lnone]; exact c1
    simp only [getCols, orReturn, Code.accepted, k1, d1, d2, f1]
    have u1 : (Code.ifThen (.ne (.id (gs! "err")) (.id (gs! "nil"))) (.ret (.id (gs! "nil")) (.id (gs! "err")) .done)
        (.assign (.sel (.idx (.id name) (.id (gs! "rowIndex"))) n) (.id n) (gapUnlessLast cols (getCols name cols)))).uses n = true := by
      simp [Code.uses, Expr.uses]
    have u2 : (Code.ifThen (.ne (.id (gs! "err")) (.id (gs! "nil"))) (.ret (.id (gs! "nil")) (.id (gs! "err")) .done)
        (.assign (.sel (.idx (.id name) (.id (gs! "rowIndex"))) n) (.id n) (gapUnlessLast cols (getCols name cols)))).uses (gs! "err") = true := by
      simp [Code.uses, Expr.uses]
    have k2' := k2
    have k3' := k3
    have k4' := k4
    have k5' := k5
    have k6' := k6
    simp only [sc'] at k2' k3' k4' k5' k6' hrest
    simp only [u1, u2, k2', k3', k4', k5', k6', assignable, Ty.nilable, hrest]
    simp [c3]

theorem lookup_of_nodup {β : Type} {l : List (GoStr × β)} (h : (l.map Prod.fst).Nodup) : ∀ c ∈ l, l.lookup c.1 = some c.2 := by
  induction l with
  | nil => intro c hc; cases hc
  | cons d l ih =>
    obtain ⟨y, v⟩ := d
    simp only [List.map_cons, List.nodup_cons] at h
    intro c hc
    rcases List.mem_cons.1 hc with rfl | hc
    · exact lookup_cons_eq _ _
    · have hne : c.1 ≠ y := by
        intro e
        have := List.mem_map_of_mem (f := Prod.fst) hc
        rw [e] at this
        exact h.1 this
      rw [lookup_cons_ne _ _ hne]
      exact ih h.2 c hc

theorem ident_append {a b : GoStr} (ha : isIdent a = true) (hb : isIdent b = true) (hl : 11 < (a ++ b).length) : isIdent (a ++ b) = true := by
  have hk : keywords.contains (a ++ b) = false := by
    have : ∀ k ∈ keywords, k.length ≤ 11 := by decide +kernel
    rw [Bool.eq_false_iff]
    intro h
    have := this _ (List.contains_iff_mem.1 h)
    omega
  cases a with
  | nil => simp [isIdent] at ha
  | cons c cs =>
    cases b with
    | nil => simpa using ha
    | cons d ds =>
      simp only [isIdent, List.cons_append, Bool.and_eq_true, List.all_eq_true, List.mem_append, List.mem_cons] at ha hb ⊢
      refine ⟨⟨ha.1.1, ?_⟩, by rw [← List.cons_append, hk]; rfl⟩
      rintro x (hx | rfl | hx)
      · exact ha.1.2 x hx
      · rw [hb.1.1]; rfl
      · exact hb.1.2 x hx

theorem fromTable_accepted (hu : Usable name fields) (hnd : (fields.map Prod.fst).Nodup) :
    (fromTableFunc name fields).accepted fields (outer name) = true := by
  obtain ⟨nt1, nt2, nt3, nt4, nt5, nt6, nt7, nt8, nt9, nt10, nt11, nt12⟩ := notin_table hu.nameOK.2
  have hid : isIdent (gs! "TypeStructSliceFromTable_" ++ name) = true :=
    ident_append (by decide +kernel) hu.nameOK.1 (by simp)
  have mo : ∀ (sc : Scope) x, x ≠ name → sc.lookup x = none → meaning (sc :: outer name) x = meaning [imports, predeclared] x := by
    intro sc x h1 h2
    rw [meaning_skip _ h2, meaning_outer h1]
  have kt : kindOf fields (outer name) tablePtrType = some (.typ .tablePtr) :=
    tablePtr_kind fields (by rw [meaning_outer (Ne.symm nt5)]; decide +kernel)
  have kr : ∀ scs, meaning scs name = some (.typ .record) → kindOf fields scs (.sliceOf (.id name)) = some (.typ .records) := by
    intro scs h
    simp only [kindOf, hu.nameOK.1, if_true, h]
  have ke : kindOf fields (outer name) (.id (gs! "error")) = some (.typ .error) := by
    simp only [kindOf, id_error, if_true, meaning_outer (Ne.symm nt10)]
    decide +kernel
  let s0 : Scope := [(gs! "table", .val .tablePtr)]
  have l0 : ∀ x, x ≠ gs! "table" → s0.lookup x = none := fun x h => by rw [lookup_cons_ne _ _ h]; rfl
  let s1 : Scope := [(name, .val .records), (gs! "table", .val .tablePtr)]
  have l1 : ∀ x, x ≠ gs! "table" → x ≠ name → s1.lookup x = none := fun x h h' => by rw [lookup_cons_ne _ _ h', lookup_cons_ne _ _ h]; rfl
  have mtab0 : meaning (s0 :: outer name) (gs! "table") = some (.val .tablePtr) := meaning_hit _ (lookup_cons_eq _ _)
  have mnil0 : meaning (s0 :: outer name) (gs! "nil") = some .nil := by
    rw [mo _ _ (Ne.symm nt9) (l0 _ (by decide +kernel))]; decide +kernel
  have mfmt0 : meaning (s0 :: outer name) (gs! "fmt") = some (.pkg (gs! "fmt")) := by
    rw [mo _ _ (Ne.symm nt4) (l0 _ (by decide +kernel))]; decide +kernel
  have mmake0 : meaning (s0 :: outer name) (gs! "make") = some (.builtin (gs! "make")) := by
    rw [mo _ _ (Ne.symm nt11) (l0 _ (by decide +kernel))]; decide +kernel
  have mname0 : meaning (s0 :: outer name) name = some (.typ .record) := by
    rw [meaning_skip _ (l0 _ nt6), meaning_outer_self]
  have mnil1 : meaning (s1 :: outer name) (gs! "nil") = some .nil := by
    rw [mo _ _ (Ne.symm nt9) (l1 _ (by decide +kernel) (Ne.symm nt9))]; decide +kernel
  have mname1 : meaning (s1 :: outer name) name = some (.val .records) := meaning_hit _ (lookup_cons_eq _ _)
  have mtab2 : meaning ([(gs! "rowIndex", .val (.col .int))] :: s1 :: outer name) (gs! "table") = some (.val .tablePtr) := by
    rw [meaning_skip _ (by decide +kernel), meaning_hit]
    rw [lookup_cons_ne _ _ (Ne.symm nt6), lookup_cons_eq]
  have hrc : method (gs! "RowCount") = some (.fn [] [.col .int]) := by decide +kernel
  have irc : isIdent (gs! "RowCount") = true := by decide +kernel
  have brc : gs! "RowCount" ≠ blank := by decide +kernel
  have ief : isIdent (gs! "Errorf") = true := by decide +kernel
  have bef : gs! "Errorf" ≠ blank := by decide +kernel
  have xef : exported (gs! "fmt") (gs! "Errorf") = some (.fn [.col .string] [.error]) := by decide +kernel
  have kcount : ∀ scs, meaning scs (gs! "table") = some (.val .tablePtr) →
      kindOf fields scs (.call0 (.sel (.id (gs! "table")) (gs! "RowCount"))) = some (.val (.col .int)) := by
    intro scs h
    simp only [kindOf, id_table, if_true, h, irc, hrc]
    rw [if_neg (by simp [brc])]
    rfl
  have kmake : kindOf fields (s0 :: outer name) (.call2 (.id (gs! "make")) (.sliceOf (.id name)) (.call0 (.sel (.id (gs! "table")) (gs! "RowCount")))) =
      some (.val .records) := by
    rw [kindOf, kcount _ mtab0, kr _ mname0]
    simp only [kindOf, id_make, if_true, mmake0, callKind]
    simp
  have kerr : ∀ s, kindOf fields ([] :: s0 :: outer name) (.call1 (.sel (.id (gs! "fmt")) (gs! "Errorf")) (.str s)) = some (.val .error) := by
    intro s
    simp only [kindOf, id_fmt, if_true, ief]
    rw [meaning_skip _ rfl, mfmt0, if_neg (by simp [bef])]
    simp only [xef]
    simp [callKind, assignable]
  have kif : kindOf fields (s0 :: outer name) (.eq (.id (gs! "table")) (.id (gs! "nil"))) = some (.val (.col .bool)) := by
    simp only [kindOf, id_table, id_nil, if_true, mtab0, mnil0]
    rfl
  have knil0 : kindOf fields ([] :: s0 :: outer name) (.id (gs! "nil")) = some .nil := by
    simp only [kindOf, id_nil, if_true]
    rw [meaning_skip _ rfl, mnil0]
  have knil1 : kindOf fields (s1 :: outer name) (.id (gs! "nil")) = some .nil := by
    simp only [kindOf, id_nil, if_true, mnil1]
  have kname1 : kindOf fields (s1 :: outer name) (.id name) = some (.val .records) := by
    simp only [kindOf, hu.nameOK.1, if_true, mname1]
  have hbody : (getCols name fields).accepted fields (.records, .error) [] (aroundGet name) = true :=
    getCols_accepted hu fields (fun _ h => h) hnd (lookup_of_nodup hnd) []
      ⟨rfl, rfl, rfl, rfl, .inl rfl, fun _ _ => rfl⟩
  have hfresh : fresh s0 name = true := by simp [fresh, l0 _ nt6]; exact nt1
  have huse : ∀ c : Code, (Code.gap (.forUp (gs! "rowIndex") (.call0 (.sel (.id (gs! "table")) (gs! "RowCount"))) c
      (.gap (.ret (.id name) (.id (gs! "nil")) .done)))).uses name = true := by
    intro c
    simp [Code.uses, Expr.uses]
  have hbl : gs! "rowIndex" ≠ blank := by decide +kernel
  have hbt : gs! "table" ≠ blank := by decide +kernel
  have hret : (fromTableFunc name fields).body.returns = true := rfl
  unfold Func.accepted
  simp only [fromTableFunc] at hret ⊢
  rw [hret]
  simp only [hid, id_table, kt, kr _ (meaning_outer_self name), ke]
  simp only [s0, s1, aroundGet] at kif knil0 kerr kmake hfresh knil1 kname1 hbody mname0 mtab2
  simp only [Code.accepted, kif, knil0, kerr, kr _ mname0, kmake, hu.nameOK.1, hfresh, huse, id_rowIndex, kcount _ mtab2, hbody, knil1, kname1,
    assignable, Ty.nilable]
  simp [hbl, hbt]

end get

section set

variable {name : GoStr} {fields : List (GoStr × ColType)}

/-- The variables of the second function. -/
def setBase : Scope :=
  [(gs! "colTypes", .val .strs), (gs! "colNames", .val .strs), (gs! "tableName", .val (.col .string)), (gs! "table", .val .tablePtr),
   (gs! "err", .val .error), (gs! "slice", .val .records)]

/-- The scopes around its loop body. -/
def aroundSet (name : GoStr) : List Scope := [(gs! "rowIndex", .val (.col .int))] :: setBase :: outer name

theorem setCols_accepted (hu : Usable name fields) (cols : List (GoStr × ColType)) (hsub : ∀ c ∈ cols, c ∈ fields)
    (hfl : ∀ c ∈ cols, fields.lookup c.1 = some c.2) :
    (setCols cols).accepted fields (.tablePtr, .error) [] (aroundSet name) = true := by
  have nt9 := (notin_table hu.nameOK.2).2.2.2.2.2.2.2.2.1
  have mErr : meaning ([] :: aroundSet name) (gs! "err") = some (.val .error) := by
    rw [meaning_skip _ rfl, aroundSet, meaning_skip _ (by decide +kernel), meaning_hit (k := .val .error) _ (by decide +kernel)]
  have mTable : meaning ([] :: aroundSet name) (gs! "table") = some (.val .tablePtr) := by
    rw [meaning_skip _ rfl, aroundSet, meaning_skip _ (by decide +kernel), meaning_hit (k := .val .tablePtr) _ (by decide +kernel)]
  have mSlice : meaning ([] :: aroundSet name) (gs! "slice") = some (.val .records) := by
    rw [meaning_skip _ rfl, aroundSet, meaning_skip _ (by decide +kernel), meaning_hit (k := .val .records) _ (by decide +kernel)]
  have mRow : meaning ([] :: aroundSet name) (gs! "rowIndex") = some (.val (.col .int)) := by
    rw [meaning_skip _ rfl, aroundSet, meaning_hit _ (lookup_cons_eq _ _)]
  have mNil : meaning ([] :: aroundSet name) (gs! "nil") = some .nil := by
    rw [meaning_skip _ rfl, aroundSet, meaning_skip _ (by decide +kernel), meaning_skip _ (by decide +kernel), meaning_outer (Ne.symm nt9)]
    decide +kernel
  have kErr : kindOf fields ([] :: aroundSet name) (.id (gs! "err")) = some (.val .error) := by
    simp only [kindOf, id_err, if_true, mErr]
  have kErr' : kindOf fields ([] :: [] :: aroundSet name) (.id (gs! "err")) = some (.val .error) := by
    simp only [kindOf, id_err, if_true]; rw [meaning_skip _ rfl, mErr]
  have kNil' : kindOf fields ([] :: [] :: aroundSet name) (.id (gs! "nil")) = some .nil := by
    simp only [kindOf, id_nil, if_true]; rw [meaning_skip _ rfl, mNil]
  have kif : kindOf fields ([] :: aroundSet name) (.ne (.id (gs! "err")) (.id (gs! "nil"))) = some (.val (.col .bool)) := by
    simp only [kindOf, id_err, id_nil, if_true, mErr, mNil]
    rfl
  induction cols with
  | nil => rfl
  | cons c cols ih =>
    obtain ⟨n, ty⟩ := c
    obtain ⟨ci, cn, cne, cty1, cty2⟩ := hu.colsOK (n, ty) (hsub _ (by simp))
    dsimp only at ci cn cne cty1 cty2
    have c1 := (notin_col cn).1
    obtain ⟨g1, g2, g3, g4⟩ := setter_facts cty1 cty2
    have hfn : fields.lookup n = some ty := hfl (n, ty) (by simp)
    have k : kindOf fields ([] :: aroundSet name) (.call3 (.sel (.id (gs! "table")) (setterName ty.name)) (.str n) (.id (gs! "rowIndex"))
        (.sel (.idx (.id (gs! "slice")) (.id (gs! "rowIndex"))) n)) = some (.val .error) := by
      simp only [kindOf, id_table, id_slice, id_rowIndex, if_true, mTable, mRow, mSlice, g2, g4, ci, hfn]
      rw [if_neg (by simp [g3]), if_neg (by simp; exact c1)]
      simp [callKind, assignable]
    have hrest : (gapUnlessLast cols (setCols cols)).accepted fields (.tablePtr, .error) [] (aroundSet name) = true := by
      have := ih (fun c hc => hsub c (by simp [hc])) (fun c hc => hfl c (by simp [hc]))
      unfold gapUnlessLast
      split
      · exact this
      · simpa only [Code.accepted] using this
    simp only [setCols, orReturn, Code.accepted, k, kErr, kErr', kNil', kif, hrest, assignable, Ty.nilable]
    simp

theorem toTable_accepted (hu : Usable name fields) (hv : name ≠ gs! "string") (hnd : (fields.map Prod.fst).Nodup) :
    (toTableFunc name fields).accepted fields (outer name) = true := by
  obtain ⟨nt1, nt2, nt3, nt4, nt5, nt6, nt7, nt8, nt9, nt10, nt11, nt12⟩ := notin_table hu.nameOK.2
  have hid : isIdent (gs! "TypeStructSliceToTable_" ++ name) = true :=
    ident_append (by decide +kernel) hu.nameOK.1 (by simp)
  have mo : ∀ (sc : Scope) x, x ≠ name → sc.lookup x = none → meaning (sc :: outer name) x = meaning [imports, predeclared] x := by
    intro sc x h1 h2
    rw [meaning_skip _ h2, meaning_outer h1]
  let v1 : GoStr × Kind := (gs! "slice", .val .records)
  let v2 : GoStr × Kind := (gs! "err", .val .error)
  let v3 : GoStr × Kind := (gs! "table", .val .tablePtr)
  let v4 : GoStr × Kind := (gs! "tableName", .val (.col .string))
  let v5 : GoStr × Kind := (gs! "colNames", .val .strs)
  -- predeclared and imported names, wherever they are not shadowed
  have kerrT : ∀ sc : Scope, sc.lookup (gs! "error") = none → kindOf fields (sc :: outer name) (.id (gs! "error")) = some (.typ .error) := by
    intro sc h
    simp only [kindOf, id_error, if_true]
    rw [mo _ _ (Ne.symm nt10) h]; decide +kernel
  have kstrT : ∀ sc : Scope, sc.lookup (gs! "string") = none → kindOf fields (sc :: outer name) (.id (gs! "string")) = some (.typ (.col .string)) := by
    intro sc h
    simp only [kindOf, id_string, if_true]
    rw [mo _ _ (Ne.symm hv) h]; decide +kernel
  have kstrsT : ∀ sc : Scope, sc.lookup (gs! "string") = none → kindOf fields (sc :: outer name) (.sliceOf (.id (gs! "string"))) = some (.typ .strs) := by
    intro sc h
    have := kstrT sc h
    rw [kindOf, this]
  have kstrs : ∀ (sc : Scope) l, sc.lookup (gs! "string") = none → kindOf fields (sc :: outer name) (.strs l) = some (.val .strs) := by
    intro sc l h
    simp only [kindOf]
    rw [mo _ _ (Ne.symm hv) h]; decide +kernel
  have kt : ∀ scs, meaning scs (gs! "gotables") = some (.pkg (gs! "gotables")) → kindOf fields scs tablePtrType = some (.typ .tablePtr) := by
    intro scs h
    exact tablePtr_kind fields h
  have mgo : ∀ sc : Scope, sc.lookup (gs! "gotables") = none → meaning (sc :: outer name) (gs! "gotables") = some (.pkg (gs! "gotables")) := by
    intro sc h
    rw [mo _ _ (Ne.symm nt5) h]; decide +kernel
  have mgo0 : meaning (outer name) (gs! "gotables") = some (.pkg (gs! "gotables")) := by
    rw [meaning_outer (Ne.symm nt5)]; decide +kernel
  have kr : kindOf fields (outer name) (.sliceOf (.id name)) = some (.typ .records) := by
    simp only [kindOf, hu.nameOK.1, if_true, meaning_outer_self]
  have ke0 : kindOf fields (outer name) (.id (gs! "error")) = some (.typ .error) := by
    simp only [kindOf, id_error, if_true, meaning_outer (Ne.symm nt10)]
    decide +kernel
  have knil : ∀ scs, meaning scs (gs! "nil") = some .nil → kindOf fields scs (.id (gs! "nil")) = some .nil := by
    intro scs h
    simp only [kindOf, id_nil, if_true, h]
  have mnil : ∀ sc : Scope, sc.lookup (gs! "nil") = none → meaning (sc :: outer name) (gs! "nil") = some .nil := by
    intro sc h
    rw [mo _ _ (Ne.symm nt9) h]; decide +kernel
  -- the first test
  have kif1 : kindOf fields ([v1] :: outer name) (.eq (.id (gs! "slice")) (.id (gs! "nil"))) = some (.val (.col .bool)) := by
    simp only [kindOf, id_slice, id_nil, if_true]
    rw [meaning_hit (k := .val .records) _ (by decide +kernel), mnil _ (by decide +kernel)]
    rfl
  have kfe : ∀ s, kindOf fields ([] :: [v1] :: outer name) (.call1 (.sel (.id (gs! "fmt")) (gs! "Errorf")) (.str s)) = some (.val .error) := by
    intro s
    have ief : isIdent (gs! "Errorf") = true := by decide +kernel
    have bef : gs! "Errorf" ≠ blank := by decide +kernel
    have xef : exported (gs! "fmt") (gs! "Errorf") = some (.fn [.col .string] [.error]) := by decide +kernel
    have mf : meaning ([v1] :: outer name) (gs! "fmt") = some (.pkg (gs! "fmt")) := by
      rw [mo _ _ (Ne.symm nt4) (by decide +kernel)]; decide +kernel
    simp only [kindOf, id_fmt, if_true, ief]
    rw [meaning_skip _ rfl, mf, if_neg (by simp [bef])]
    simp only [xef]
    simp [callKind, assignable]
  have kn1 : kindOf fields ([] :: [v1] :: outer name) (.id (gs! "nil")) = some .nil := by
    apply knil
    rw [meaning_skip _ rfl, mnil _ (by decide +kernel)]
  -- the new table
  have kv : ∀ x k, setBase.lookup x = some k → isIdent x = true → kindOf fields (setBase :: outer name) (.id x) = some k := by
    intro x k h hx
    simp only [kindOf, hx, if_true]
    rw [meaning_hit _ h]
  have knew : kindOf fields (setBase :: outer name) (.call3 (.sel (.id (gs! "gotables")) (gs! "NewTableFromMetadata")) (.id (gs! "tableName"))
      (.id (gs! "colNames")) (.id (gs! "colTypes"))) = some (.pair .tablePtr .error) := by
    have i1 : isIdent (gs! "NewTableFromMetadata") = true := by decide +kernel
    have b1 : gs! "NewTableFromMetadata" ≠ blank := by decide +kernel
    have x1 : exported (gs! "gotables") (gs! "NewTableFromMetadata") = some (.fn [.col .string, .strs, .strs] [.tablePtr, .error]) := by decide +kernel
    rw [kindOf, kv (gs! "tableName") _ rfl id_tableName, kv (gs! "colNames") _ rfl id_colNames, kv (gs! "colTypes") _ rfl id_colTypes]
    simp only [kindOf, id_gotables, if_true, i1]
    rw [mgo _ (by decide +kernel), if_neg (by simp [b1])]
    simp only [x1]
    simp [callKind, assignable]
  have kif2 : kindOf fields (setBase :: outer name) (.ne (.id (gs! "err")) (.id (gs! "nil"))) = some (.val (.col .bool)) := by
    rw [kindOf, kv (gs! "err") _ rfl id_err, knil _ (mnil _ (by decide +kernel))]
    rfl
  have kn2 : kindOf fields ([] :: setBase :: outer name) (.id (gs! "nil")) = some .nil := by
    apply knil
    rw [meaning_skip _ rfl, mnil _ (by decide +kernel)]
  have ke2 : kindOf fields ([] :: setBase :: outer name) (.id (gs! "err")) = some (.val .error) := by
    simp only [kindOf, id_err, if_true]
    rw [meaning_skip _ rfl, meaning_hit (k := .val .error) _ (by decide +kernel)]
  -- the loop
  have klen : kindOf fields ([(gs! "rowIndex", .val (.col .int))] :: setBase :: outer name) (.call1 (.id (gs! "len")) (.id (gs! "slice"))) =
      some (.val (.col .int)) := by
    have m1 : meaning ([(gs! "rowIndex", .val (.col .int))] :: setBase :: outer name) (gs! "len") = some (.builtin (gs! "len")) := by
      rw [meaning_skip _ (by decide +kernel), mo _ _ (Ne.symm nt12) (by decide +kernel)]; decide +kernel
    have m2 : meaning ([(gs! "rowIndex", .val (.col .int))] :: setBase :: outer name) (gs! "slice") = some (.val .records) := by
      rw [meaning_skip _ (by decide +kernel), meaning_hit (k := .val .records) _ (by decide +kernel)]
    simp only [kindOf, id_len, id_slice, if_true, m1, m2]
    simp [callKind]
  have hbody : (setCols fields).accepted fields (.tablePtr, .error) [] (aroundSet name) = true :=
    setCols_accepted hu fields (fun _ h => h) (lookup_of_nodup hnd)
  have mErr : meaning (aroundSet name) (gs! "err") = some (.val .error) := by
    rw [aroundSet, meaning_skip _ (by decide +kernel), meaning_hit (k := .val .error) _ (by decide +kernel)]
  have mTable : meaning (aroundSet name) (gs! "table") = some (.val .tablePtr) := by
    rw [aroundSet, meaning_skip _ (by decide +kernel), meaning_hit (k := .val .tablePtr) _ (by decide +kernel)]
  have mNil : meaning (aroundSet name) (gs! "nil") = some .nil := by
    rw [aroundSet, meaning_skip _ (by decide +kernel), mnil _ (by decide +kernel)]
  have kErr : kindOf fields ([] :: aroundSet name) (.id (gs! "err")) = some (.val .error) := by
    simp only [kindOf, id_err, if_true]; rw [meaning_skip _ rfl, mErr]
  have kErr' : kindOf fields ([] :: [] :: aroundSet name) (.id (gs! "err")) = some (.val .error) := by
    simp only [kindOf, id_err, if_true]; rw [meaning_skip _ rfl, meaning_skip _ rfl, mErr]
  have kNil' : kindOf fields ([] :: [] :: aroundSet name) (.id (gs! "nil")) = some .nil := by
    simp only [kindOf, id_nil, if_true]; rw [meaning_skip _ rfl, meaning_skip _ rfl, mNil]
  have kif3 : kindOf fields ([] :: aroundSet name) (.ne (.id (gs! "err")) (.id (gs! "nil"))) = some (.val (.col .bool)) := by
    simp only [kindOf, id_err, id_nil, if_true]
    rw [meaning_skip _ rfl, meaning_skip _ rfl, mErr, mNil]
    rfl
  have kapp : kindOf fields ([] :: aroundSet name) (.call0 (.sel (.id (gs! "table")) (gs! "AppendRow"))) = some (.val .error) := by
    have i1 : isIdent (gs! "AppendRow") = true := by decide +kernel
    have b1 : gs! "AppendRow" ≠ blank := by decide +kernel
    have x1 : method (gs! "AppendRow") = some (.fn [] [.error]) := by decide +kernel
    simp only [kindOf, id_table, if_true, i1]
    rw [meaning_skip _ rfl, mTable, if_neg (by simp [b1])]
    simp only [x1]
    rfl
  have hbl : gs! "rowIndex" ≠ blank := by decide +kernel
  have hbs : gs! "slice" ≠ blank := by decide +kernel
  have hret : (toTableFunc name fields).body.returns = true := rfl
  have fr2 : fresh [v1] (gs! "err") = true := by decide +kernel
  have fr3 : fresh [v2, v1] (gs! "table") = true := by decide +kernel
  have fr4 : fresh [v3, v2, v1] (gs! "tableName") = true := by decide +kernel
  have fr5 : fresh [v4, v3, v2, v1] (gs! "colNames") = true := by decide +kernel
  have fr6 : fresh [v5, v4, v3, v2, v1] (gs! "colTypes") = true := by decide +kernel
  have t2 := kerrT [v1] (by decide +kernel)
  have t3 := kt _ (mgo [v2, v1] (by decide +kernel))
  have t4 := kstrT [v3, v2, v1] (by decide +kernel)
  have t5 := kstrsT [v4, v3, v2, v1] (by decide +kernel)
  have e5 := fun l => kstrs [v4, v3, v2, v1] l (by decide +kernel)
  have t6 := kstrsT [v5, v4, v3, v2, v1] (by decide +kernel)
  have e6 := fun l => kstrs [v5, v4, v3, v2, v1] l (by decide +kernel)
  have kerr := kv (gs! "err") _ rfl id_err
  have ktab := kv (gs! "table") _ rfl id_table
  have kn3 := knil _ (mnil setBase (by decide +kernel))
  unfold Func.accepted
  simp only [toTableFunc] at hret ⊢
  rw [hret]
  simp only [hid, id_slice, kr, kt _ mgo0, ke0]
  simp only [v1, v2, v3, v4, v5, aroundSet, setBase] at *
  simp only [orReturn, Code.accepted, kif1, kfe, kn1, id_err, fr2, t2, id_table, fr3, t3, id_tableName, fr4, t4, kindOf.eq_2, id_colNames, fr5, t5, e5, id_colTypes, fr6, t6, e6,
    kerr, ktab, knew, kif2, kn2, ke2, id_rowIndex, klen, kErr, kErr', kNil', kif3, kapp, hbody, kn3, assignable, Ty.nilable]
  simp [hbl, hbs, Code.uses, Expr.uses]

end set

theorem typeExpr_kind {name : GoStr} (hv : ColType.ofName? name = none) (ty : ColType) (h1 : ty ≠ .table) (h2 : ty ≠ .time) :
    kindOf [] (outer name) (typeExpr ty) = some (.typ (.col ty)) := by
  have hn : ∀ ty : ColType, ty.name ≠ name := by
    intro ty e
    rw [← e, ofName?_name] at hv
    cases hv
  have hb : kindOf [] (outer name) (.id (gs! "byte")) = some (.typ (.col .byte)) := by
    simp only [kindOf]
    rw [meaning_outer (show gs! "byte" ≠ name from hn .byte)]; decide +kernel
  have hu : kindOf [] (outer name) (.id (gs! "uint8")) = some (.typ (.col .uint8)) := by
    simp only [kindOf]
    rw [meaning_outer (show gs! "uint8" ≠ name from hn .uint8)]; decide +kernel
  cases ty <;> first
    | exact absurd rfl h1
    | exact absurd rfl h2
    | (simp only [typeExpr]; rw [kindOf]; first | rw [hb] | rw [hu])
    | (simp only [typeExpr, kindOf]; rw [meaning_outer (hn _)]; decide +kernel)

theorem program_compiles {name : GoStr} {cols : List (GoStr × ColType)} (hu : Usable name cols) (hv : ColType.ofName? name = none)
    (hnd : (cols.map Prod.fst).Nodup) : (programOf name cols).compiles = true := by
  obtain ⟨nt1, nt2, nt3, nt4, nt5, nt6, nt7, nt8, nt9, nt10, nt11, nt12⟩ := notin_table hu.nameOK.2
  have hstr : name ≠ gs! "string" := by
    intro e
    rw [e] at hv
    exact absurd hv (by decide +kernel)
  have hid1 : isIdent (gs! "TypeStructSliceFromTable_" ++ name) = true :=
    ident_append (by decide +kernel) hu.nameOK.1 (by simp)
  have hid2 : isIdent (gs! "TypeStructSliceToTable_" ++ name) = true :=
    ident_append (by decide +kernel) hu.nameOK.1 (by simp)
  have hlong : ∀ (a b : GoStr), b.length < a.length → a ++ name ≠ b := by
    intro a b h e
    have := congrArg List.length e
    simp at this
    omega
  have hself : ∀ (a : GoStr), a ≠ [] → name ≠ a ++ name := by
    intro a h e
    have := congrArg List.length e
    cases a with
    | nil => exact h rfl
    | cons => simp at this; omega
  have hs : (programOf name cols).struct.accepted (outer name) = true := by
    simp only [programOf, structOf, Struct.accepted, Bool.and_eq_true, List.all_eq_true, decide_eq_true_eq]
    refine ⟨fun f hf => ?_, ?_⟩
    · have := hu.colsOK f hf
      exact ⟨this.1, typeExpr_kind hv f.2 this.2.2.2.1 this.2.2.2.2⟩
    · exact decide_eq_true (hnd.filter _)
  have himp : ∀ n, n ≠ gs! "fmt" → n ≠ gs! "gotables" → imports.lookup n = none := by
    intro n h1 h2
    simp only [imports]
    rw [lookup_cons_ne _ _ h1, lookup_cons_ne _ _ h2]; rfl
  have hF := fromTable_accepted hu hnd
  have hT := toTable_accepted hu hstr hnd
  have hsc : (programOf name cols).scopes = outer name := rfl
  unfold Program.compiles
  simp only [hsc, hs]
  have hnames : ((programOf name cols).struct.name :: (programOf name cols).funcs.map Func.name) =
      [name, gs! "TypeStructSliceFromTable_" ++ name, gs! "TypeStructSliceToTable_" ++ name] := rfl
  rw [hnames]
  have hpw : [name, gs! "TypeStructSliceFromTable_" ++ name, gs! "TypeStructSliceToTable_" ++ name].Pairwise (· ≠ ·) := by
    simp only [List.pairwise_cons, List.mem_cons, List.not_mem_nil, or_false]
    refine ⟨?_, ?_, ?_, List.Pairwise.nil⟩
    · rintro x (rfl | rfl)
      · exact hself _ (by decide)
      · exact hself _ (by decide)
    · rintro x rfl e
      have := congrArg List.length e
      simp at this
      try omega
    · intro x hx; cases hx
  have hone : ∀ n, isIdent n = true → n ≠ blank → n ≠ gs! "init" → n ≠ gs! "main" → n ≠ gs! "fmt" → n ≠ gs! "gotables" →
      (isIdent n && n ≠ blank && n ≠ gs! "init" && n ≠ gs! "main" && (imports.lookup n).isNone) = true := by
    intro n h1 h2 h3 h4 h5 h6
    simp [h1, h2, h3, h4, himp n h5 h6]
  have hpre : ∀ a : GoStr, 11 < a.length → a ++ name ≠ blank ∧ a ++ name ≠ gs! "init" ∧ a ++ name ≠ gs! "main" ∧ a ++ name ≠ gs! "fmt" ∧
      a ++ name ≠ gs! "gotables" := by
    intro a ha
    refine ⟨hlong _ _ ?_, hlong _ _ ?_, hlong _ _ ?_, hlong _ _ ?_, hlong _ _ ?_⟩ <;> simp [blank] <;> omega
  obtain ⟨p1, p2, p3, p4, p5⟩ := hpre (gs! "TypeStructSliceFromTable_") (by decide)
  obtain ⟨q1, q2, q3, q4, q5⟩ := hpre (gs! "TypeStructSliceToTable_") (by decide)
  have e1 := hone name hu.nameOK.1 nt1 nt2 nt3 nt4 nt5
  have e2 := hone _ hid1 p1 p2 p3 p4 p5
  have e3 := hone _ hid2 q1 q2 q3 q4 q5
  have hfs : ((programOf name cols).funcs.all fun f => f.accepted (programOf name cols).struct.fields (outer name)) = true := by
    simp only [programOf, structOf, List.all_cons, List.all_nil, hF, hT, Bool.and_self]
  rw [hfs, decide_eq_true hpw]
  simp only [List.all_cons, List.all_nil, e1, e2, e3, Bool.and_self]

end Verif.GoLang
