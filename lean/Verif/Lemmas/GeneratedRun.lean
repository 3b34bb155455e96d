import Verif.Lemmas.GeneratedOK
import Verif.Lemmas.MergeLoop
import Verif.Lemmas.FromTable
import Verif.Lemmas.Preserve
import Verif.Lemmas.At
import Verif.Props.C05

/-!
# Lemmas: what generated programs do
-/

namespace Verif.GoLang

open Verif

variable {τ : Type}

/-! ## Variables -/

theorem find_skip {fr : Frame τ} {x : GoStr} (out : List (Frame τ)) (h : fr.lookup x = none) : find (fr :: out) x = find out x := by
  simp only [find, h]

theorem find_hit {fr : Frame τ} {x : GoStr} {v : Val τ} (out : List (Frame τ)) (h : fr.lookup x = some v) : find (fr :: out) x = some v := by
  simp only [find, h]

theorem lookup_setKey_self {β : Type} {x : GoStr} (v : β) {l : List (GoStr × β)} (h : (l.lookup x).isSome = true) : (setKey x v l).lookup x = some v := by
  induction l with
  | nil => simp at h
  | cons p l ih =>
    obtain ⟨y, w⟩ := p
    simp only [setKey]
    by_cases e : x = y
    · subst e; rw [if_pos rfl, lookup_cons_eq]
    · rw [if_neg e, lookup_cons_ne _ _ e]
      rw [lookup_cons_ne _ _ e] at h
      exact ih h

theorem lookup_setKey_ne {β : Type} {x y : GoStr} (v : β) (l : List (GoStr × β)) (hne : y ≠ x) : (setKey x v l).lookup y = l.lookup y := by
  induction l with
  | nil => rfl
  | cons p l ih =>
    obtain ⟨z, w⟩ := p
    simp only [setKey]
    by_cases e : x = z
    · subst e; rw [if_pos rfl, lookup_cons_ne _ _ hne, lookup_cons_ne _ _ hne]
    · rw [if_neg e]
      by_cases e' : y = z
      · subst e'; rw [lookup_cons_eq, lookup_cons_eq]
      · rw [lookup_cons_ne _ _ e', lookup_cons_ne _ _ e', ih]

/-- `x := v` in a block. -/
def bindF (fr : Frame τ) (x : GoStr) (v : Val τ) : Frame τ := if (fr.lookup x).isSome then setKey x v fr else (x, v) :: fr

theorem bindVar_eq (fr : Frame τ) (out : List (Frame τ)) {x : GoStr} (v : Val τ) (h : x ≠ blank) : bindVar (fr :: out) x v = bindF fr x v :: out := by
  simp only [bindVar, bindF, if_neg h]
  split <;> rfl

theorem bindF_self (fr : Frame τ) (x : GoStr) (v : Val τ) : (bindF fr x v).lookup x = some v := by
  unfold bindF
  split
  · rename_i h; exact lookup_setKey_self v h
  · exact lookup_cons_eq _ _

theorem bindF_ne (fr : Frame τ) {x y : GoStr} (v : Val τ) (h : y ≠ x) : (bindF fr x v).lookup y = fr.lookup y := by
  unfold bindF
  split
  · exact lookup_setKey_ne v fr h
  · exact lookup_cons_ne _ _ h

theorem store_skip {fr : Frame τ} {x : GoStr} (out : List (Frame τ)) (v : Val τ) (h : fr.lookup x = none) : store (fr :: out) x v = fr :: store out x v := by
  simp only [store, h]
  rfl

theorem setKey_zero {n : GoStr} {z c : Cell τ} {P R : List (GoStr × Cell τ)} (h : n ∉ P.map Prod.fst) :
    setKey n c (P ++ (n, z) :: R) = P ++ (n, c) :: R := by
  induction P with
  | nil => simp [setKey]
  | cons p P ih =>
    obtain ⟨y, w⟩ := p
    simp only [List.map_cons, List.mem_cons, not_or] at h
    simp only [List.cons_append, setKey, if_neg h.1, ih h.2]

theorem eval_str (fields : List (GoStr × ColType)) (fs : List (Frame τ)) (s : GoStr) : eval fields fs (.str s) = .ok (.cell (.str s)) := by
  simp only [eval]

/-! ## Loops -/

theorem rounds_from {body : List (Frame τ) → Run (Exit τ)} {x : GoStr} (Inv : Nat → List (Frame τ) → Prop) (m : Nat) :
    ∀ k fs, (∀ i fs, k ≤ i → i < k + m → Inv i fs → ∃ a b fs', body ([] :: [(x, Val.int i)] :: fs) = .ok (.next (a :: b :: fs')) ∧ Inv (i + 1) fs') →
      Inv k fs → ∃ fs', rounds body x (List.range' k m) fs = .ok (.next fs') ∧ Inv (k + m) fs' := by
  induction m with
  | zero => intro k fs _ h; exact ⟨fs, rfl, h⟩
  | succ m ih =>
    intro k fs hstep h
    obtain ⟨a, b, fs', e, h'⟩ := hstep k fs (Nat.le_refl k) (by omega) h
    obtain ⟨fs'', e2, h2⟩ := ih (k + 1) fs' (fun i fs h1 h2 => hstep i fs (by omega) (by omega)) h'
    refine ⟨fs'', ?_, by rwa [show k + (m + 1) = k + 1 + m by omega]⟩
    simp only [List.range'_succ, rounds, e, Run.bind, List.drop_succ_cons, List.drop_zero, e2]

theorem rounds_ok {body : List (Frame τ) → Run (Exit τ)} {x : GoStr} (Inv : Nat → List (Frame τ) → Prop) (n : Nat) (fs : List (Frame τ))
    (hstep : ∀ i fs, i < n → Inv i fs → ∃ a b fs', body ([] :: [(x, Val.int i)] :: fs) = .ok (.next (a :: b :: fs')) ∧ Inv (i + 1) fs')
    (h : Inv 0 fs) : ∃ fs', rounds body x (List.range n) fs = .ok (.next fs') ∧ Inv n fs' := by
  rw [List.range_eq_range']
  have := rounds_from Inv n 0 fs (fun i fs _ h2 => hstep i fs (by omega)) h
  simpa using this

/-! ## From a table -/

section get

variable {name : GoStr} {fields : List (GoStr × ColType)}

/-- The frames in the loop of the first function. -/
def getFrames (name : GoStr) (t : Table τ) (l : List (List (GoStr × Cell τ))) : List (Frame τ) :=
  [[(name, .recs l), (gs! "table", .tbl t)]]

theorem getTyped_at {t : Table τ} (hw : WF t) {n : GoStr} {ty : ColType} {r : Nat} (hc : HasColT t n ty) (hr : r < t.rows.length) :
    ∃ c, t.getTyped ty n (r : Int) = .ok c ∧ At t n r c := by
  rcases getTyped_cases hw ty n r with ⟨ri, v, e, hat, _, h⟩ | ⟨h, _⟩
  · have : ri = r := by omega
    subst this
    exact ⟨v, h, hat⟩
  · obtain ⟨i, hn, hty⟩ := hc
    obtain ⟨v, hat⟩ := At_exists hw (List.mem_of_getElem? hn) hr
    exact absurd (C01_cell_types t hw n ty r v ⟨i, hn, hty⟩ hat) (h r v rfl hat)

/-- The variables of the innermost block do not hide those that the function uses. -/
def Clear (name : GoStr) (fr : Frame τ) : Prop :=
  fr.lookup (gs! "table") = none ∧ fr.lookup (gs! "rowIndex") = none ∧ fr.lookup (gs! "nil") = none ∧ fr.lookup name = none

/-- One column of the loop: its value goes into the field, or the function returns the error. -/
theorem getCol_step (nt : Nat → Nat → τ) (hu : Usable name fields) (t : Table τ) (r : Nat) (n : GoStr) (ty : ColType) (cols : List (GoStr × ColType))
    (hin : (n, ty) ∈ fields) (fr : Frame τ) (l : List (List (GoStr × Cell τ))) (hc : Clear name fr) :
    (∀ v, t.getTyped ty n (r : Int) = .ok v → ∃ fr2, Clear name fr2 ∧ ∀ rec, l[r]? = some rec →
      (getCols name ((n, ty) :: cols)).exec nt fields (fr :: [(gs! "rowIndex", Val.int r)] :: getFrames name t l) =
        (getCols name cols).exec nt fields (fr2 :: [(gs! "rowIndex", Val.int r)] :: getFrames name t (l.set r (setKey n v rec)))) ∧
    ∀ e, t.getTyped ty n (r : Int) = .err e →
      (getCols name ((n, ty) :: cols)).exec nt fields (fr :: [(gs! "rowIndex", Val.int r)] :: getFrames name t l) = .ok (.returned .nil (.err e)) := by
  obtain ⟨nt1, nt2, nt3, nt4, nt5, nt6, nt7, nt8, nt9, nt10, nt11, nt12⟩ := notin_table hu.nameOK.2
  obtain ⟨h1, h2, h3, h4⟩ := hc
  obtain ⟨ci, cn, cne, cty1, cty2⟩ := hu.colsOK (n, ty) hin
  dsimp only at ci cn cne cty1 cty2
  obtain ⟨c1, c2, c3, c4, c5⟩ := notin_col cn
  obtain ⟨g1, g2, g3, g4⟩ := getter_facts cty1 cty2
  have fRow : ∀ (fr : Frame τ) l, fr.lookup (gs! "rowIndex") = none →
      find (fr :: [(gs! "rowIndex", Val.int r)] :: getFrames name t l) (gs! "rowIndex") = some (Val.int r) := by
    intro fr l h
    rw [find_skip _ h, find_hit _ (lookup_cons_eq _ _)]
  have eRow : ∀ (fr : Frame τ) l, fr.lookup (gs! "rowIndex") = none →
      eval fields (fr :: [(gs! "rowIndex", Val.int r)] :: getFrames name t l) (.id (gs! "rowIndex")) = .ok (.cell (.int .int r)) := by
    intro fr l h
    simp only [eval, fRow fr l h]
    rfl
  have fTab : find (fr :: [(gs! "rowIndex", Val.int r)] :: getFrames name t l) (gs! "table") = some (.tbl t) := by
    rw [find_skip _ h1, find_skip _ rfl, getFrames, find_hit]
    rw [lookup_cons_ne _ _ (Ne.symm nt6), lookup_cons_eq]
  have herr : gs! "err" ≠ blank := by decide +kernel
  have main : ∀ (v : Cell τ) (w : Val τ), ∃ fr2, bindVar (bindVar (fr :: [(gs! "rowIndex", Val.int r)] :: getFrames name t l) n (.cell v)) (gs! "err") w =
        fr2 :: [(gs! "rowIndex", Val.int r)] :: getFrames name t l ∧
      Clear name fr2 ∧ fr2.lookup n = some (.cell v) ∧ fr2.lookup (gs! "err") = some w ∧
      find (fr2 :: [(gs! "rowIndex", Val.int r)] :: getFrames name t l) (gs! "nil") = none := by
    intro v w
    refine ⟨bindF (bindF fr n (.cell v)) (gs! "err") w, ?_, ?_, ?_, bindF_self _ _ _, ?_⟩
    · rw [bindVar_eq _ _ _ c1, bindVar_eq _ _ _ herr]
    · have lother : ∀ x, x ≠ n → x ≠ gs! "err" → (bindF (bindF fr n (.cell v)) (gs! "err") w).lookup x = fr.lookup x := by
        intro x e1 e2
        rw [bindF_ne _ _ e2, bindF_ne _ _ e1]
      refine ⟨?_, ?_, ?_, ?_⟩
      · rw [lother _ (Ne.symm c2) (by decide +kernel)]; exact h1
      · rw [lother _ (Ne.symm c4) (by decide +kernel)]; exact h2
      · rw [lother _ (Ne.symm c5) (by decide +kernel)]; exact h3
      · rw [lother _ (Ne.symm cne) nt7]; exact h4
    · rw [bindF_ne _ _ c3, bindF_self]
    · rw [find_skip, find_skip _ rfl, getFrames, find_skip]
      · rfl
      · rw [lookup_cons_ne _ _ (Ne.symm nt9)]; rfl
      · rw [bindF_ne _ _ (by decide +kernel), bindF_ne _ _ (Ne.symm c5)]; exact h3
  refine ⟨?_, ?_⟩
  · intro v hget
    obtain ⟨fr2, eb, hclear, ln, le, fNil⟩ := main v .nil
    refine ⟨fr2, hclear, ?_⟩
    obtain ⟨l1, l2, l3, l4⟩ := hclear
    intro rec hl
    have p1 : perform nt fields (fr :: [(gs! "rowIndex", Val.int r)] :: getFrames name t l)
        (.call2 (.sel (.id (gs! "table")) (getterName ty.name)) (.str n) (.id (gs! "rowIndex"))) =
        .ok ([.cell v, .nil], fr :: [(gs! "rowIndex", Val.int r)] :: getFrames name t l) := by
      simp only [perform, fTab, g1, eRow fr l h2, eval_str, Run.bind, hget]
    have e2 : eval fields (fr2 :: [(gs! "rowIndex", Val.int r)] :: getFrames name t l) (.ne (.id (gs! "err")) (.id (gs! "nil"))) =
        .ok (.cell (.bool false)) := by
      simp only [eval, find_hit _ le, fNil, Run.bind, if_true]
    have p3 : perform nt fields (fr2 :: [(gs! "rowIndex", Val.int r)] :: getFrames name t l) (.id n) =
        .ok ([.cell v], fr2 :: [(gs! "rowIndex", Val.int r)] :: getFrames name t l) := by
      simp only [perform, eval, find_hit _ ln, Run.bind]
    have hlt := (List.getElem?_eq_some_iff.1 hl).1
    have fName : find (fr2 :: [(gs! "rowIndex", Val.int r)] :: getFrames name t l) name = some (.recs l) := by
      rw [find_skip _ l4, find_skip _ (by rw [lookup_cons_ne _ _ nt8]; rfl), getFrames, find_hit _ (lookup_cons_eq _ _)]
    have a4 : assignTo fields (fr2 :: [(gs! "rowIndex", Val.int r)] :: getFrames name t l) (.cell v)
        (.sel (.idx (.id name) (.id (gs! "rowIndex"))) n) =
        .ok (fr2 :: [(gs! "rowIndex", Val.int r)] :: getFrames name t (l.set r (setKey n v rec))) := by
      have hg : goGet? l (r : Int) = some rec := by simp [goGet?, hl]
      simp only [assignTo, eRow fr2 l l2, Run.bind, fName, hg]
      rw [store_skip _ _ l4, store_skip _ _ (by rw [lookup_cons_ne _ _ nt8]; rfl)]
      simp only [Int.toNat_natCast, getFrames, store, lookup_cons_eq, setKey, Option.isSome_some, if_true]
    have hgap : (gapUnlessLast cols (getCols name cols)).exec nt fields = (getCols name cols).exec nt fields := by
      unfold gapUnlessLast
      split
      · rfl
      · funext fs; simp only [Code.exec]
    simp only [getCols, orReturn, Code.exec, p1, Run.bind, eb, e2, p3, a4, hgap]
  · intro e hget
    obtain ⟨fr2, eb, hclear, ln, le, fNil⟩ := main (zeroField ty) (.err e)
    have p1 : perform nt fields (fr :: [(gs! "rowIndex", Val.int r)] :: getFrames name t l)
        (.call2 (.sel (.id (gs! "table")) (getterName ty.name)) (.str n) (.id (gs! "rowIndex"))) =
        .ok ([.cell (zeroField ty), .err e], fr :: [(gs! "rowIndex", Val.int r)] :: getFrames name t l) := by
      simp only [perform, fTab, g1, eRow fr l h2, eval_str, Run.bind, hget]
    have e2 : eval fields (fr2 :: [(gs! "rowIndex", Val.int r)] :: getFrames name t l) (.ne (.id (gs! "err")) (.id (gs! "nil"))) =
        .ok (.cell (.bool true)) := by
      simp only [eval, find_hit _ le, fNil, Run.bind, if_true]
    have e3 : eval fields ([] :: fr2 :: [(gs! "rowIndex", Val.int r)] :: getFrames name t l) (.id (gs! "nil")) = .ok .nil := by
      simp only [eval, find_skip (fr := ([] : Frame τ)) _ rfl, fNil, if_true]
    have e4 : eval fields ([] :: fr2 :: [(gs! "rowIndex", Val.int r)] :: getFrames name t l) (.id (gs! "err")) = .ok (.err e) := by
      simp only [eval, find_skip (fr := ([] : Frame τ)) _ rfl, find_hit _ le]
    simp only [getCols, orReturn, Code.exec, p1, Run.bind, eb, e2, e3, e4]

theorem getCols_exec (nt : Nat → Nat → τ) (hu : Usable name fields) {t : Table τ} (hw : WF t) {r : Nat} (hr : r < t.rows.length)
    (cols : List (GoStr × ColType)) (hsub : ∀ c ∈ cols, c ∈ fields) (hnd : (cols.map Prod.fst).Nodup) (hcols : ∀ c ∈ cols, HasColT t c.1 c.2) :
    ∀ (fr : Frame τ) (l : List (List (GoStr × Cell τ))) (P : List (GoStr × Cell τ)), Clear name fr →
      l[r]? = some (P ++ zeroRecord cols) → (∀ c ∈ cols, c.1 ∉ P.map Prod.fst) →
      ∃ fr' P', (getCols name cols).exec nt fields (fr :: [(gs! "rowIndex", Val.int r)] :: getFrames name t l) =
          .ok (.next (fr' :: [(gs! "rowIndex", Val.int r)] :: getFrames name t (l.set r (P ++ P')))) ∧ RecordAt t cols r P' := by
  induction cols with
  | nil =>
    intro fr l P _ hl _
    refine ⟨fr, [], ?_, rfl, fun i n ty h => by simp at h⟩
    have hlt := (List.getElem?_eq_some_iff.1 hl).1
    have : l.set r (P ++ []) = l := by
      apply List.ext_getElem?
      intro i
      rw [List.getElem?_set]
      split
      · rename_i e; subst e; rw [hl]; simp [hlt, zeroRecord]
      · rfl
    rw [this]
    rfl
  | cons c cols ih =>
    obtain ⟨n, ty⟩ := c
    intro fr l P hc hl hP
    simp only [List.map_cons, List.nodup_cons] at hnd
    obtain ⟨v, hget, hat⟩ := getTyped_at hw (hcols (n, ty) (by simp)) hr
    dsimp only at hget hat
    obtain ⟨fr2, hc2, e⟩ := (getCol_step nt hu t r n ty cols (hsub _ (by simp)) fr l hc).1 v hget
    have e := e _ hl
    have hk : setKey n v (P ++ zeroRecord ((n, ty) :: cols)) = P ++ (n, v) :: zeroRecord cols := setKey_zero (hP (n, ty) (by simp))
    rw [hk] at e
    have hlt := (List.getElem?_eq_some_iff.1 hl).1
    obtain ⟨fr', P', e5, hrec⟩ := ih (fun c hc => hsub c (by simp [hc])) hnd.2 (fun c hc => hcols c (by simp [hc])) fr2
      (l.set r (P ++ (n, v) :: zeroRecord cols)) (P ++ [(n, v)]) hc2 (by simp [hlt])
      (by
        intro c hc hm
        simp only [List.map_append, List.map_cons, List.map_nil, List.mem_append, List.mem_singleton] at hm
        rcases hm with hm | hm
        · exact hP c (by simp [hc]) hm
        · exact hnd.1 (hm ▸ List.mem_map_of_mem hc))
    refine ⟨fr', (n, v) :: P', ?_, ?_⟩
    · rw [e, e5]
      simp
    · refine ⟨by simp [hrec.1], ?_⟩
      intro i m tm hi
      cases i with
      | zero =>
        simp only [List.getElem?_cons_zero, Option.some.injEq, Prod.mk.injEq] at hi
        obtain ⟨rfl, rfl⟩ := hi
        exact ⟨v, rfl, hat⟩
      | succ i => exact hrec.2 i m tm (by simpa using hi)

theorem getCols_fails (nt : Nat → Nat → τ) (hu : Usable name fields) {t : Table τ} (hw : WF t) {r : Nat}
    (cols : List (GoStr × ColType)) (hsub : ∀ c ∈ cols, c ∈ fields) (hbad : ∃ c ∈ cols, ∀ v, At t c.1 r v → ¬ v.HasType c.2) :
    ∀ (fr : Frame τ) (l : List (List (GoStr × Cell τ))), Clear name fr → r < l.length →
      ∃ e, (getCols name cols).exec nt fields (fr :: [(gs! "rowIndex", Val.int r)] :: getFrames name t l) = .ok (.returned .nil (.err e)) := by
  induction cols with
  | nil => obtain ⟨c, hc, _⟩ := hbad; simp at hc
  | cons c cols ih =>
    obtain ⟨n, ty⟩ := c
    intro fr l hc hlt
    have step := getCol_step nt hu t r n ty cols (hsub _ (by simp)) fr l hc
    rcases getTyped_cases hw ty n r with ⟨ri, v, er, hat, hty, hget⟩ | ⟨hno, e, hget⟩
    · have : ri = r := by omega
      subst this
      obtain ⟨fr2, hc2, e⟩ := step.1 v hget
      rw [e _ (List.getElem?_eq_getElem hlt)]
      refine ih (fun c hc => hsub c (by simp [hc])) ?_ fr2 _ hc2 (by simpa using hlt)
      obtain ⟨c, hcm, hb⟩ := hbad
      simp only [List.mem_cons] at hcm
      rcases hcm with rfl | hcm
      · exact absurd hty (hb v hat)
      · exact ⟨c, hcm, hb⟩
    · exact ⟨e, step.2 e hget⟩

/-- The function makes zero records, loops, and returns them. -/
theorem fromTable_start (nt : Nat → Nat → τ) (hu : Usable name fields) (t : Table τ) :
    (fromTableFunc name fields).run nt fields (.tbl t) =
      (rounds ((getCols name fields).exec nt fields) (gs! "rowIndex") (List.range t.rows.length)
        (getFrames name t (List.replicate t.rows.length (zeroRecord fields)))).bind fun ex =>
        match ex with
        | .next fs => (match eval fields fs (.id name), eval fields fs (.id (gs! "nil")) with
          | .ok a, .ok b => .ok (a, b)
          | .panic, _ => .panic
          | .stuck, _ => .stuck
          | .ok _, .panic => .panic
          | .ok _, .stuck => .stuck)
        | .returned a b => .ok (a, b) := by
  obtain ⟨nt1, nt2, nt3, nt4, nt5, nt6, nt7, nt8, nt9, nt10, nt11, nt12⟩ := notin_table hu.nameOK.2
  let f0 : List (Frame τ) := [[(gs! "table", .tbl t)]]
  have hb : name ≠ blank := nt1
  have hbind : bindVar f0 name (.recs (List.replicate t.rows.length (zeroRecord fields))) =
      getFrames name t (List.replicate t.rows.length (zeroRecord fields)) := by
    rw [bindVar_eq _ _ _ hb]
    simp only [bindF]
    rw [if_neg (by rw [lookup_cons_ne _ _ nt6]; simp)]
    rfl
  have fTab0 : find f0 (gs! "table") = some (.tbl t) := find_hit _ (lookup_cons_eq _ _)
  have fNil0 : find f0 (gs! "nil") = none := rfl
  have fMake : find f0 (gs! "make") = none := rfl
  have fTab1 : ∀ l, find (getFrames name t l) (gs! "table") = some (.tbl t) := by
    intro l
    rw [getFrames, find_hit]
    rw [lookup_cons_ne _ _ (Ne.symm nt6), lookup_cons_eq]
  have c1 : eval fields f0 (.eq (.id (gs! "table")) (.id (gs! "nil"))) = .ok (.cell (.bool false)) := by
    simp only [eval, fTab0, fNil0, Run.bind, if_true]
  have c2 : eval fields f0 (.call2 (.id (gs! "make")) (.sliceOf (.id name)) (.call0 (.sel (.id (gs! "table")) (gs! "RowCount")))) =
      .ok (.recs (List.replicate t.rows.length (zeroRecord fields))) := by
    simp only [eval, fMake, fTab0, Run.bind, Val.int, Table.rowCount, if_true]
    simp
  have c3 : ∀ l, eval fields (getFrames name t l) (.call0 (.sel (.id (gs! "table")) (gs! "RowCount"))) = .ok (Val.int t.rows.length) := by
    intro l
    simp only [eval, fTab1, Run.bind, Table.rowCount, if_true]
  simp only [Func.run, fromTableFunc, Code.exec]
  simp only [f0] at c1 c2 hbind
  simp only [c1, Run.bind, c2, hbind, c3, Val.int, Int.toNat_natCast]
  cases rounds ((getCols name fields).exec nt fields) (gs! "rowIndex") (List.range t.rows.length)
        (getFrames name t (List.replicate t.rows.length (zeroRecord fields))) with
  | panic => rfl
  | stuck => rfl
  | ok ex =>
    cases ex with
    | returned a b => rfl
    | next fs =>
      simp only
      cases eval fields fs (.id name) <;> simp only
      cases eval fields fs (.id (gs! "nil")) <;> simp only

theorem fromTable_run (nt : Nat → Nat → τ) (hu : Usable name fields) (hnd : (fields.map Prod.fst).Nodup) {t : Table τ} (hw : WF t)
    (hcols : ∀ c ∈ fields, HasColT t c.1 c.2) :
    ∃ l : List (List (GoStr × Cell τ)), (fromTableFunc name fields).run nt fields (.tbl t) = .ok (.recs l, .nil) ∧ l.length = t.rows.length ∧
      ∀ (r : Nat) rec, l[r]? = some rec → RecordAt t fields r rec := by
  obtain ⟨nt1, nt2, nt3, nt4, nt5, nt6, nt7, nt8, nt9, nt10, nt11, nt12⟩ := notin_table hu.nameOK.2
  have hInv := rounds_ok (body := (getCols name fields).exec nt fields) (x := gs! "rowIndex")
    (fun i fs => ∃ l : List (List (GoStr × Cell τ)), fs = getFrames name t l ∧ l.length = t.rows.length ∧
      (∀ (r : Nat) rec, r < i → l[r]? = some rec → RecordAt t fields r rec) ∧ ∀ r, i ≤ r → r < t.rows.length → l[r]? = some (zeroRecord fields))
    t.rows.length (getFrames name t (List.replicate t.rows.length (zeroRecord fields)))
    (by
      rintro i fs hi ⟨l, rfl, hlen, hdone, hrest⟩
      obtain ⟨fr', P', e, hrec⟩ := getCols_exec nt hu hw hi fields (fun _ h => h) hnd hcols [] l [] ⟨rfl, rfl, rfl, rfl⟩
        (by simpa using hrest i (Nat.le_refl i) hi) (by simp)
      refine ⟨fr', _, _, e, _, rfl, by simp [hlen], ?_, ?_⟩
      · intro r rec hr hg
        rw [List.getElem?_set] at hg
        split at hg
        · rename_i er
          subst er
          rw [if_pos (by omega)] at hg
          simp only [Option.some.injEq, List.nil_append] at hg
          rw [← hg]
          exact hrec
        · exact hdone r rec (by omega) hg
      · intro r h1 h2
        rw [List.getElem?_set, if_neg (by omega)]
        exact hrest r (by omega) h2)
    ⟨_, rfl, by simp, by intro r rec h; omega, by intro r _ h; simp [h]⟩
  obtain ⟨fs', e, l, rfl, hlen, hdone, _⟩ := hInv
  refine ⟨l, ?_, hlen, fun r rec h => hdone r rec ?_ h⟩
  · have c4 : eval fields (getFrames name t l) (.id name) = .ok (.recs l) := by
      simp only [eval, find_hit (fr := [(name, .recs l), (gs! "table", .tbl t)]) [] (lookup_cons_eq _ _), getFrames]
    have c5 : eval fields (getFrames name t l) (.id (gs! "nil")) = .ok .nil := by
      have : find (getFrames name t l) (gs! "nil") = none := by
        rw [getFrames, find_skip]
        · rfl
        · rw [lookup_cons_ne _ _ (Ne.symm nt9)]; rfl
      simp only [eval, this, if_true]
    rw [fromTable_start nt hu, e]
    simp only [Run.bind, c4, c5]
  · have := (List.getElem?_eq_some_iff.1 h).1
    omega

theorem fromTable_fails (nt : Nat → Nat → τ) (hu : Usable name fields) {t : Table τ} (hw : WF t) (hr : 0 < t.rows.length)
    (hbad : ∃ c ∈ fields, ∀ v, At t c.1 0 v → ¬ v.HasType c.2) :
    ∃ e, (fromTableFunc name fields).run nt fields (.tbl t) = .ok (.nil, .err e) := by
  obtain ⟨e, he⟩ := getCols_fails nt hu hw (r := 0) fields (fun _ h => h) hbad [] (List.replicate t.rows.length (zeroRecord fields)) ⟨rfl, rfl, rfl, rfl⟩
    (by simpa using hr)
  refine ⟨e, ?_⟩
  rw [fromTable_start nt hu]
  obtain ⟨m, hm⟩ : ∃ m, t.rows.length = m + 1 := ⟨t.rows.length - 1, by omega⟩
  have : List.range t.rows.length = 0 :: List.range' 1 m := by rw [hm, List.range_eq_range', List.range'_succ]
  rw [this, rounds, he]
  rfl

theorem fromTable_nil (nt : Nat → Nat → τ) : (fromTableFunc name fields).run nt fields (.nil : Val τ) = .ok (.nil, .err .other) := by
  rfl

end get

/-! ## To a table -/

section set

variable {name : GoStr} {fields : List (GoStr × ColType)}

theorem toTable_nil (nt : Nat → Nat → τ) : (toTableFunc name fields).run nt fields (.nil : Val τ) = .ok (.nil, .err .other) := by
  rfl

theorem appendCols_loop (nt : Nat → Nat → τ) (ps : List (GoStr × ColType)) (t : Table τ) (hw : WF t) (hnil : t.isNilTable = false) (hrows : t.rows = [])
    (hn : ∀ x ∈ ps, isValidColName x.1 = true) (hnew : ∀ x ∈ ps, x.1 ∉ t.colNames) (hnd : (ps.map Prod.fst).Nodup) :
    ∃ t', forEach (fun (p : GoStr × GoStr) (t : Table τ) => t.appendCol nt p.1 p.2) (ps.map fun x => (x.1, x.2.name)) t = (t', .ok ()) ∧
      WF t' ∧ t'.isNilTable = false ∧ t'.rows = [] ∧ t'.name = t.name ∧ t'.colNames = t.colNames ++ ps.map Prod.fst ∧
      t'.colTypes = t.colTypes ++ ps.map Prod.snd := by
  induction ps generalizing t with
  | nil => exact ⟨t, rfl, hw, hnil, hrows, rfl, by simp, by simp⟩
  | cons x ps ih =>
    obtain ⟨n, ty⟩ := x
    have hget : t.colMap.get? n = none := by
      cases hx : t.colMap.get? n with
      | none => rfl
      | some i => exact absurd (List.mem_of_getElem? ((hw.mapIff n i).1 hx)) (hnew (n, ty) (by simp))
    have e := appendCol_eq nt hnil hw.typesLen (by simp [hrows]) (ty := ty) (hn (n, ty) (by simp)) hget
    have hw1 := hw.appendCol nt n ty.name
    rw [e] at hw1
    simp only [List.map_cons, List.nodup_cons] at hnd
    obtain ⟨t', e', h1, h2, h3, h4, h5, h6⟩ := ih _ hw1 hnil (by simp [hrows, addZeroCol]) (fun x hx => hn x (by simp [hx]))
      (by
        intro x hx hm
        simp only [List.mem_append, List.mem_singleton] at hm
        rcases hm with hm | hm
        · exact hnew x (by simp [hx]) hm
        · exact hnd.1 (hm ▸ List.mem_map_of_mem hx))
      hnd.2
    refine ⟨t', ?_, h1, h2, h3, h4, by simp [h5], by simp [h6]⟩
    simp only [List.map_cons, forEach, e, e']

theorem newTableFromMetadata_run (nt : Nat → Nat → τ) (hname : isValidTableName name = true) (hv : ∀ c ∈ fields, isValidColName c.1 = true)
    (hnd : (fields.map Prod.fst).Nodup) :
    ∃ t' : Table τ, Table.newTableFromMetadata nt name (fields.map Prod.fst) (fields.map fun c => c.2.name) = .ok t' ∧
      WF t' ∧ t'.isNilTable = false ∧ t'.rows = [] ∧ t'.name = name ∧ t'.colNames = fields.map Prod.fst ∧ t'.colTypes = fields.map Prod.snd := by
  have e := newTable_eq (τ := τ) hname
  have hw := WF.newTable e
  have hz : (fields.map Prod.fst).zip (fields.map fun c => c.2.name) = fields.map fun x => (x.1, x.2.name) := by
    rw [List.zip_map', List.map_congr_left]
    intro a _; rfl
  obtain ⟨t', e', h1, h2, h3, h4, h5, h6⟩ := appendCols_loop nt fields _ hw rfl rfl hv (by intro x _ h; simp [newNilTable] at h) hnd
  refine ⟨t', ?_, h1, h2, h3, h4, by simpa [newNilTable] using h5, by simpa [newNilTable] using h6⟩
  simp only [Table.newTableFromMetadata, e, Out.bind, Table.appendCols, hz, e']
  simp

/-- The frames in the second function. -/
def setFrames (name : GoStr) (fields : List (GoStr × ColType)) (l : List (List (GoStr × Cell τ))) (t : Table τ) (e : Val τ) : List (Frame τ) :=
  [[(gs! "colTypes", .strs (fields.map fun c => c.2.name)), (gs! "colNames", .strs (fields.map Prod.fst)), (gs! "tableName", .cell (.str name)),
    (gs! "table", .tbl t), (gs! "err", e), (gs! "slice", .recs l)]]

theorem putCell_append (t : Table τ) (D : List (List (Cell τ))) (row : List (Cell τ)) (c : Nat) (v : Cell τ) (h : t.rows = D ++ [row]) :
    putCell t c D.length v = { t with rows := D ++ [row.set c v] } := by
  have := putCell_last { t with rows := D } row c v
  simp only at this
  rw [← this]
  congr 1
  cases t
  simp only at h
  simp [h]

theorem set_at {β : Type} (A : List β) (x y : β) (B : List β) : (A ++ x :: B).set A.length y = A ++ y :: B := by
  simp

theorem lookup_of_getElem {β : Type} {l : List (GoStr × β)} (h : (l.map Prod.fst).Nodup) {i : Nat} {n : GoStr} {c : β} (hi : l[i]? = some (n, c)) :
    l.lookup n = some c := lookup_of_nodup h _ (List.mem_of_getElem? hi)

theorem setCols_exec (nt : Nat → Nat → τ) (hu : Usable name fields) (hnd : (fields.map Prod.fst).Nodup) {l : List (List (GoStr × Cell τ))}
    {D : List (List (Cell τ))} {rec : List (GoStr × Cell τ)} (hl : l[D.length]? = some rec) (hrec : RecordOK fields rec)
    (hb : ∀ x ∈ rec, x.2 ≠ .bytes none) (cols : List (GoStr × ColType)) :
    ∀ (pre : List (GoStr × ColType)) (t : Table τ) (Z : List (Cell τ)), pre ++ cols = fields → WF t → t.colNames = fields.map Prod.fst →
      t.colTypes = fields.map Prod.snd → Z.length = cols.length → t.rows = D ++ [(rec.take pre.length).map Prod.snd ++ Z] →
      ∃ t', (setCols cols).exec nt fields ([] :: [(gs! "rowIndex", Val.int D.length)] :: setFrames name fields l t .nil) =
          .ok (.next ([] :: [(gs! "rowIndex", Val.int D.length)] :: setFrames name fields l t' .nil)) ∧
        t' = { t with rows := D ++ [rec.map Prod.snd] } ∧ WF t' := by
  have hfst : rec.map Prod.fst = fields.map Prod.fst := by
    apply List.ext_getElem?
    intro i
    rw [List.getElem?_map, List.getElem?_map]
    cases hf : fields[i]? with
    | none =>
      have : rec[i]? = none := by
        rw [List.getElem?_eq_none_iff] at hf ⊢
        rw [hrec.1]; exact hf
      rw [this]; rfl
    | some x =>
      obtain ⟨n, ty⟩ := x
      obtain ⟨c, hc, _⟩ := hrec.2 i n ty hf
      rw [hc]; rfl
  induction cols with
  | nil =>
    intro pre t Z hpre hw hnames htypes hZ hrows
    simp only [List.append_nil] at hpre
    subst hpre
    have : Z = [] := List.eq_nil_of_length_eq_zero (by simpa using hZ)
    subst this
    rw [← hrec.1, List.take_length, List.append_nil] at hrows
    refine ⟨t, rfl, ?_, hw⟩
    cases t
    simp only at hrows
    simp [hrows]
  | cons c cols ih =>
    obtain ⟨n, ty⟩ := c
    intro pre t Z hpre hw hnames htypes hZ hrows
    have hf : fields[pre.length]? = some (n, ty) := by rw [← hpre]; simp
    obtain ⟨ci, cn, cne, cty1, cty2⟩ := hu.colsOK (n, ty) (List.mem_of_getElem? hf)
    dsimp only at ci cn cne cty1 cty2
    obtain ⟨s1, s2, s3, s4⟩ := setter_facts cty1 cty2
    obtain ⟨v, hv, hty⟩ := hrec.2 pre.length n ty hf
    have hvb : v ≠ .bytes none := hb (n, v) (List.mem_of_getElem? hv)
    cases Z with
    | nil => simp at hZ
    | cons z Z =>
      have hpl : pre.length < rec.length := (List.getElem?_eq_some_iff.1 hv).1
      have hlen : ((rec.take pre.length).map Prod.snd).length = pre.length := by simp; omega
      have hn' : t.colNames[pre.length]? = some n := by rw [hnames, List.getElem?_map, hf]; rfl
      have ht' : t.colTypes[pre.length]? = some ty := by rw [htypes, List.getElem?_map, hf]; rfl
      have hDr : D.length < t.rows.length := by rw [hrows]; simp
      have hset := setTyped_cell hw hn' ht' hDr hty hvb
      have hput := putCell_append t D _ pre.length v hrows
      have hw1 := hw.putCell ht' hty hDr
      have hset2 : ((rec.take pre.length).map Prod.snd ++ z :: Z).set pre.length v = (rec.take (pre.length + 1)).map Prod.snd ++ Z := by
        have := set_at ((rec.take pre.length).map Prod.snd) z v Z
        rw [hlen] at this
        rw [this, List.take_add_one, hv]
        simp
      rw [hset2] at hput
      obtain ⟨t', e5, ht5, hw5⟩ := ih (pre ++ [(n, ty)]) (putCell t pre.length D.length v) Z (by simp [hpre]) hw1
        (by rw [← hnames]; rfl) (by rw [← htypes]; rfl) (by simpa using hZ) (by rw [hput]; simp)
      have hgap : (gapUnlessLast cols (setCols cols)).exec nt fields = (setCols cols).exec nt fields := by
        unfold gapUnlessLast
        split
        · rfl
        · funext fs; simp only [Code.exec]
      have eIdx : ∀ t e, eval fields ([] :: [(gs! "rowIndex", Val.int D.length)] :: setFrames name fields l t e) (.id (gs! "rowIndex")) =
          .ok (.cell (.int .int D.length)) := fun _ _ => rfl
      have eSlice : ∀ t e, eval fields ([] :: [(gs! "rowIndex", Val.int D.length)] :: setFrames name fields l t e) (.id (gs! "slice")) =
          .ok (.recs l) := fun _ _ => rfl
      have hg : goGet? l (D.length : Int) = some rec := by simp [goGet?, hl]
      have hlk : rec.lookup n = some v := lookup_of_getElem (by rw [hfst]; exact hnd) hv
      have eVal : ∀ t e, eval fields ([] :: [(gs! "rowIndex", Val.int D.length)] :: setFrames name fields l t e)
          (.sel (.idx (.id (gs! "slice")) (.id (gs! "rowIndex"))) n) = .ok (.cell v) := by
        intro t e
        rw [eval, eval, eSlice, eIdx]
        simp only [Run.bind, hg, hlk]
      have fTab : find ([] :: [(gs! "rowIndex", Val.int D.length)] :: setFrames name fields l t .nil) (gs! "table") = some (.tbl t) := rfl
      have p1 : perform nt fields ([] :: [(gs! "rowIndex", Val.int D.length)] :: setFrames name fields l t .nil)
          (.call3 (.sel (.id (gs! "table")) (setterName ty.name)) (.str n) (.id (gs! "rowIndex")) (.sel (.idx (.id (gs! "slice")) (.id (gs! "rowIndex"))) n)) =
          .ok ([.nil], [] :: [(gs! "rowIndex", Val.int D.length)] :: setFrames name fields l (putCell t pre.length D.length v) .nil) := by
        simp only [perform, eval_str, eIdx, eVal, Run.bind, fTab, s1, hset, errVal]
        rfl
      have a1 : ∀ t, assignTo fields ([] :: [(gs! "rowIndex", Val.int D.length)] :: setFrames name fields l t .nil) (.nil : Val τ) (.id (gs! "err")) =
          .ok ([] :: [(gs! "rowIndex", Val.int D.length)] :: setFrames name fields l t .nil) := fun _ => rfl
      have c1 : ∀ t, eval fields ([] :: [(gs! "rowIndex", Val.int D.length)] :: setFrames name fields l t .nil) (.ne (.id (gs! "err")) (.id (gs! "nil"))) =
          .ok (.cell (.bool false)) := fun _ => rfl
      refine ⟨t', ?_, ?_, hw5⟩
      · simp only [setCols, orReturn, Code.exec, p1, Run.bind, a1, c1, hgap]
        exact e5
      · rw [ht5, hput]

theorem toTable_run (nt : Nat → Nat → τ) (hu : Usable name fields) (hname : isValidTableName name = true)
    (hv : ∀ c ∈ fields, isValidColName c.1 = true) (hnd : (fields.map Prod.fst).Nodup) (l : List (List (GoStr × Cell τ)))
    (hl : ∀ rec ∈ l, RecordOK fields rec ∧ ∀ x ∈ rec, x.2 ≠ .bytes none) :
    ∃ t : Table τ, (toTableFunc name fields).run nt fields (.recs l) = .ok (.tbl t, .nil) ∧ WF t ∧ t.isNilTable = false ∧ t.name = name ∧
      t.colNames = fields.map Prod.fst ∧ t.colTypes = fields.map Prod.snd ∧ t.rows = l.map fun rec => rec.map Prod.snd := by
  obtain ⟨t0, e0, w0, n0, r0, nm0, cn0, ct0⟩ := newTableFromMetadata_run (τ := τ) nt hname hv hnd
  have hInv := rounds_ok (body := (Code.assign (.id (gs! "err")) (.call0 (.sel (.id (gs! "table")) (gs! "AppendRow")))
        (orReturn (.gap (setCols fields)))).exec nt fields) (x := gs! "rowIndex")
    (fun i fs => ∃ t : Table τ, fs = setFrames name fields l t .nil ∧ WF t ∧ t.isNilTable = false ∧ t.name = name ∧
      t.colNames = fields.map Prod.fst ∧ t.colTypes = fields.map Prod.snd ∧ t.rows = (l.take i).map fun rec => rec.map Prod.snd)
    l.length (setFrames name fields l t0 .nil)
    (by
      rintro i fs hi ⟨t, rfl, hw, hnil, hnm, hcn, hct, hr⟩
      have ea := appendRow_eq nt hnil hw.typesLen
      have hwa := hw.appendRow nt
      rw [ea] at hwa
      obtain ⟨rec, hrec⟩ : ∃ rec, l[i]? = some rec := ⟨l[i], List.getElem?_eq_getElem hi⟩
      have hD : t.rows.length = i := by rw [hr]; simp; omega
      have hok := hl rec (List.mem_of_getElem? hrec)
      have hzl : (zeroRow nt t.colTypes t.rows.length).length = fields.length := by
        have := (hwa.rowsOK (zeroRow nt t.colTypes t.rows.length) (by simp)).1
        simp only at this
        rw [this, hct]; simp
      obtain ⟨t', e, ht', hw'⟩ := setCols_exec nt hu hnd (D := t.rows) (by rw [hD]; exact hrec) hok.1 hok.2 fields [] _
        (zeroRow nt t.colTypes t.rows.length) rfl hwa hcn hct hzl rfl
      rw [hD] at e
      refine ⟨[], [(gs! "rowIndex", Val.int i)], setFrames name fields l t' .nil, ?_, t', rfl, hw', ?_, ?_, ?_, ?_, ?_⟩
      · have p1 : perform nt fields ([] :: [(gs! "rowIndex", Val.int i)] :: setFrames name fields l t .nil) (.call0 (.sel (.id (gs! "table")) (gs! "AppendRow"))) =
            .ok ([.nil], [] :: [(gs! "rowIndex", Val.int i)] :: setFrames name fields l (t.appendRow nt).1 .nil) := by
          have fTab : find ([] :: [(gs! "rowIndex", Val.int i)] :: setFrames name fields l t .nil) (gs! "table") = some (.tbl t) := rfl
          simp only [perform, if_true, fTab, ea, errVal, Run.bind]
          rfl
        have a1 : ∀ t, assignTo fields ([] :: [(gs! "rowIndex", Val.int i)] :: setFrames name fields l t .nil) (.nil : Val τ) (.id (gs! "err")) =
            .ok ([] :: [(gs! "rowIndex", Val.int i)] :: setFrames name fields l t .nil) := fun _ => rfl
        have c1 : ∀ t, eval fields ([] :: [(gs! "rowIndex", Val.int i)] :: setFrames name fields l t .nil) (.ne (.id (gs! "err")) (.id (gs! "nil"))) =
            .ok (.cell (.bool false)) := fun _ => rfl
        simp only [orReturn, Code.exec, p1, Run.bind, a1, c1, ea]
        rw [hD]
        exact e
      · rw [ht']; exact hnil
      · rw [ht']; exact hnm
      · rw [ht']; exact hcn
      · rw [ht']; exact hct
      · rw [ht']
        simp only
        rw [List.take_add_one, hrec, hr]
        simp)
    ⟨t0, rfl, w0, n0, nm0, cn0, ct0, by simp [r0]⟩
  obtain ⟨fs', e, t, rfl, hw, hnil, hnm, hcn, hct, hr⟩ := hInv
  refine ⟨t, ?_, hw, hnil, hnm, hcn, hct, by rw [hr, List.take_length]⟩
  have p0 : perform nt fields [[(gs! "colTypes", .strs (fields.map fun c => c.2.name)), (gs! "colNames", .strs (fields.map Prod.fst)),
        (gs! "tableName", .cell (.str name)), (gs! "table", .nil), (gs! "err", .nil), (gs! "slice", .recs l)]]
      (.call3 (.sel (.id (gs! "gotables")) (gs! "NewTableFromMetadata")) (.id (gs! "tableName")) (.id (gs! "colNames")) (.id (gs! "colTypes"))) =
      .ok ([.tbl t0, .nil], [[(gs! "colTypes", .strs (fields.map fun c => c.2.name)), (gs! "colNames", .strs (fields.map Prod.fst)),
        (gs! "tableName", .cell (.str name)), (gs! "table", .nil), (gs! "err", .nil), (gs! "slice", .recs l)]]) := by
    have := e0
    show (match Table.newTableFromMetadata nt name (fields.map Prod.fst) (fields.map fun c => c.2.name) with
      | .ok t => Run.ok ([Val.tbl t, Val.nil], _) | .err e => .ok ([.nil, .err e], _) | .panic => .panic) = _
    rw [this]
  have eLen : eval fields (setFrames name fields l t0 .nil) (.call1 (.id (gs! "len")) (.id (gs! "slice"))) = .ok (Val.int l.length) := rfl
  have start : (toTableFunc name fields).body.exec nt fields [[((toTableFunc name fields).param, .recs l)]] =
      (perform nt fields [[(gs! "colTypes", .strs (fields.map fun c => c.2.name)), (gs! "colNames", .strs (fields.map Prod.fst)),
        (gs! "tableName", .cell (.str name)), (gs! "table", .nil), (gs! "err", .nil), (gs! "slice", .recs l)]]
      (.call3 (.sel (.id (gs! "gotables")) (gs! "NewTableFromMetadata")) (.id (gs! "tableName")) (.id (gs! "colNames")) (.id (gs! "colTypes")))).bind
        fun r => match r with
      | ([a, b], fs') => (assignTo fields fs' a (.id (gs! "table"))).bind fun fs1 => (assignTo fields fs1 b (.id (gs! "err"))).bind fun fs2 =>
          (orReturn (.gap (.forUp (gs! "rowIndex") (.call1 (.id (gs! "len")) (.id (gs! "slice")))
            (.assign (.id (gs! "err")) (.call0 (.sel (.id (gs! "table")) (gs! "AppendRow"))) (orReturn (.gap (setCols fields))))
            (.gap (.ret (.id (gs! "table")) (.id (gs! "nil")) .done))))).exec nt fields fs2
      | _ => .stuck := rfl
  have a0 : assignTo fields [[(gs! "colTypes", .strs (fields.map fun c => c.2.name)), (gs! "colNames", .strs (fields.map Prod.fst)),
        (gs! "tableName", .cell (.str name)), (gs! "table", .nil), (gs! "err", .nil), (gs! "slice", .recs l)]] (.tbl t0) (.id (gs! "table")) =
      .ok (setFrames name fields l t0 .nil) := rfl
  have a1 : assignTo fields (setFrames name fields l t0 .nil) (.nil : Val τ) (.id (gs! "err")) = .ok (setFrames name fields l t0 .nil) := rfl
  have c1 : eval fields (setFrames name fields l t0 .nil) (.ne (.id (gs! "err")) (.id (gs! "nil"))) = .ok (.cell (.bool false)) := rfl
  have c2 : eval fields (setFrames name fields l t .nil) (.id (gs! "table")) = .ok (.tbl t) := rfl
  have c3 : eval fields (setFrames name fields l t .nil) (.id (gs! "nil")) = .ok .nil := rfl
  rw [Func.run, start, p0]
  simp only [Run.bind, a0, a1]
  simp only [orReturn] at e ⊢
  rw [Code.exec]
  simp only [c1, Run.bind]
  rw [Code.exec, Code.exec]
  simp only [eLen, Run.bind, Val.int, Int.toNat_natCast, e]
  simp only [Code.exec, c2, c3, Run.bind]

end set

end Verif.GoLang
