import Verif.Spec.Slices
import Verif.Lemmas.Reorder

/-!
# Lemmas: every call is a sequence of assignments
-/

namespace Verif

variable {τ α : Type}

/-- Some assignments make `t'` of `t`. -/
def Writes (t t' : Table τ) : Prop := ∃ ps, Prim.vals ps t = some t'

namespace Writes

theorem refl (t : Table τ) : Writes t t := ⟨[], rfl⟩

theorem vals_append : ∀ (ps qs : List (Prim τ)) (t : Table τ), Prim.vals (ps ++ qs) t = (Prim.vals ps t).bind (Prim.vals qs)
  | [], qs, t => rfl
  | p :: ps, qs, t => by
    simp only [List.cons_append, Prim.vals]
    cases p.val t with
    | none => rfl
    | some t' => simp only [Option.bind_some]; exact vals_append ps qs t'

theorem trans {t t' t'' : Table τ} (h1 : Writes t t') (h2 : Writes t' t'') : Writes t t'' := by
  obtain ⟨ps, h1⟩ := h1
  obtain ⟨qs, h2⟩ := h2
  exact ⟨ps ++ qs, by rw [vals_append, h1, Option.bind_some, h2]⟩

theorem one {t t' : Table τ} (p : Prim τ) (h : p.val t = some t') : Writes t t' := ⟨[p], by simp only [Prim.vals]; rw [h]; rfl⟩

theorem forEach {ι : Type} {f : ι → Table τ → Table τ × Out Unit} (h : ∀ i t, Writes t (f i t).1) : ∀ (l : List ι) (t : Table τ), Writes t (Verif.forEach f l t).1
  | [], t => refl t
  | i :: is, t => by
    simp only [Verif.forEach]
    have h1 := h i t
    split
    · rename_i e; rw [e] at h1; exact h1.trans (forEach h is _)
    · rename_i e; rw [e] at h1; exact h1
    · rename_i e; rw [e] at h1; exact h1

/-! ## Lists element by element -/

theorem each {W : List α → List α → Prop} {R : α → α → Prop} (hr : ∀ l, W l l) (ht : ∀ a b c, W a b → W b c → W a c)
    (hs : ∀ l i x x', l[i]? = some x → R x x' → W l (l.set i x')) : ∀ (pre : List α) {l l' : List α}, Pointwise R l l' → W (pre ++ l) (pre ++ l')
  | pre, [], [], _ => hr _
  | pre, a :: as, b :: bs, h => by
    have h1 : W (pre ++ a :: as) ((pre ++ a :: as).set pre.length b) := hs _ pre.length a b (by rw [List.getElem?_append_right (Nat.le_refl _), Nat.sub_self]; rfl) h.1
    have e : (pre ++ a :: as).set pre.length b = pre ++ [b] ++ as := by
      rw [List.set_append_right _ _ (Nat.le_refl _), Nat.sub_self, List.append_assoc]; rfl
    rw [e] at h1
    have h2 := each hr ht hs (pre ++ [b]) h.2
    have e2 : pre ++ b :: bs = pre ++ [b] ++ bs := by rw [List.append_assoc]; rfl
    rw [e2]
    exact ht _ _ _ h1 h2
  | pre, [], _ :: _, h => h.elim
  | pre, _ :: _, [], h => h.elim

theorem perm {W : List α → List α → Prop} (hr : ∀ l, W l l) (ht : ∀ a b c, W a b → W b c → W a c) (hs : ∀ l i j l', swapRows? l i j = some l' → W l l')
    {l l' : List α} (h : l.Perm l') : ∀ pre, W (pre ++ l) (pre ++ l') := by
  induction h with
  | nil => intro pre; exact hr _
  | cons x _ ih =>
    intro pre
    have := ih (pre ++ [x])
    simp only [List.append_assoc, List.singleton_append] at this
    exact this
  | swap x y l =>
    intro pre
    apply hs _ pre.length (pre.length + 1)
    unfold swapRows?
    rw [List.getElem?_append_right (Nat.le_refl _), Nat.sub_self, List.getElem?_append_right (by omega), Nat.add_sub_cancel_left]
    simp only [List.getElem?_cons_zero, List.getElem?_cons_succ, Option.some.injEq]
    rw [List.set_append_right _ _ (Nat.le_refl _), Nat.sub_self, List.set_append_right _ _ (by omega), Nat.add_sub_cancel_left]
    rfl
  | trans _ _ ih1 ih2 => intro pre; exact ht _ _ _ (ih1 pre) (ih2 pre)

theorem anyPointwise : ∀ {l l' : List α}, l.length = l'.length → Pointwise (fun _ _ => True) l l'
  | [], [], _ => trivial
  | a :: as, b :: bs, h => ⟨trivial, anyPointwise (by simpa using h)⟩

/-! ## Parts of a table -/

theorem names {t : Table τ} {l : List GoStr} (h : t.colNames.length = l.length) : Writes t { t with colNames := l } := by
  have := each (W := fun l l' => Writes { t with colNames := l } { t with colNames := l' }) (R := fun _ _ => True) (fun _ => refl _) (fun _ _ _ => trans)
    (fun l i x x' hx _ => one (.setColName i x') (by simp only [Prim.val]; rw [if_pos (List.getElem?_eq_some_iff.1 hx).1])) [] (anyPointwise h)
  exact this

theorem types {t : Table τ} {l : List ColType} (h : t.colTypes.length = l.length) : Writes t { t with colTypes := l } := by
  have := each (W := fun l l' => Writes { t with colTypes := l } { t with colTypes := l' }) (R := fun _ _ => True) (fun _ => refl _) (fun _ _ _ => trans)
    (fun l i x x' hx _ => one (.setColType i x') (by simp only [Prim.val]; rw [if_pos (List.getElem?_eq_some_iff.1 hx).1])) [] (anyPointwise h)
  exact this

theorem reindex : ∀ (names : List GoStr) (i : Nat) (t : Table τ), Writes t { t with colMap := Table.reindexFrom names i t.colMap }
  | [], _, t => refl t
  | n :: ns, i, t => by
    have h1 : Writes t { t with colMap := t.colMap.insert n i } := one (.mapInsert n i) rfl
    exact h1.trans (reindex ns (i + 1) _)

/-- Every row changed. -/
theorem eachRow {R : List (Cell τ) → List (Cell τ) → Prop} (hs : ∀ (t : Table τ) r row row', t.rows[r]? = some row → R row row' → Writes t { t with rows := t.rows.set r row' })
    {t : Table τ} {rows' : List (List (Cell τ))} (h : Pointwise R t.rows rows') : Writes t { t with rows := rows' } := by
  have := each (W := fun l l' => Writes { t with rows := l } { t with rows := l' }) (R := R) (fun _ => refl _) (fun _ _ _ => trans)
    (fun l i x x' hx hR => hs { t with rows := l } i x x' hx hR) [] h
  exact this

/-- A row overwritten cell by cell. -/
theorem row {t : Table τ} {r : Nat} {row row' : List (Cell τ)} (hrow : t.rows[r]? = some row) (hlen : row.length = row'.length) : Writes t { t with rows := t.rows.set r row' } := by
  have hr := (List.getElem?_eq_some_iff.1 hrow).1
  have := each (W := fun l l' => Writes { t with rows := t.rows.set r l } { t with rows := t.rows.set r l' }) (R := fun _ _ => True) (fun _ => refl _) (fun _ _ _ => trans)
    (fun l i x x' hx _ => one (.setCell r i x') (by
      simp only [Prim.val]
      rw [List.getElem?_set_self hr]
      dsimp only
      rw [if_pos (List.getElem?_eq_some_iff.1 hx).1, List.set_set])) [] (anyPointwise hlen)
  have e : t.rows.set r row = t.rows := by
    rw [← (List.getElem?_eq_some_iff.1 hrow).2, List.set_getElem_self]
  simp only [List.nil_append] at this
  rw [e] at this
  exact this

theorem permRows {t : Table τ} {rows : List (List (Cell τ))} (h : t.rows.Perm rows) : Writes t { t with rows := rows } := by
  have := perm (W := fun l l' => Writes { t with rows := l } { t with rows := l' }) (fun _ => refl _) (fun _ _ _ => trans)
    (fun l i j l' hx => one (.swapRows i j) (by
      simp only [Prim.val]
      unfold swapRows? at hx
      split at hx
      · rename_i h1 h2
        rw [h1, h2]
        cases hx
        rfl
      · cases hx)) h []
  exact this

theorem setCell {t t' : Table τ} {c r : Int} {v : Cell τ} (h : t.setCell? c r v = some t') : Writes t t' := by
  unfold Table.setCell? at h
  split at h
  · cases h
  · rename_i row hrow
    split at h
    · cases h
    · rename_i row' hrow'
      split at h
      · cases h
      · rename_i rows' hrows
        cases h
        obtain ⟨h1, h2⟩ := goGet?_some.1 hrow
        obtain ⟨h3, h4, h5⟩ := goSet?_some.1 hrow'
        obtain ⟨h6, h7, h8⟩ := goSet?_some.1 hrows
        refine one (.setCell r.toNat c.toNat v) ?_
        simp only [Prim.val]
        rw [h2]
        dsimp only
        rw [if_pos h4, h8, h5]

/-! ## The calls -/

open Table

theorem setName (t : Table τ) (n : GoStr) : Writes t (t.setName n).1 := by
  unfold Table.setName
  split
  · exact refl t
  · exact one (.head n t.isStructShape false t.parent) rfl

theorem setZero (nt : τ) (t : Table τ) (c r : Int) : Writes t (t.setCellToZeroValueByColIndex nt c r).1 := by
  unfold Table.setCellToZeroValueByColIndex
  split
  · exact refl t
  · split
    · exact refl t
    · rename_i h; exact setCell h

theorem setZeroCol (nt : Nat → Nat → τ) (t : Table τ) (c : Int) : Writes t (t.setColCellsToZeroValueByColIndex nt c).1 := by
  unfold Table.setColCellsToZeroValueByColIndex
  exact forEach (fun _ _ => setZero _ _ _ _) _ _

theorem setZeroColName (nt : Nat → Nat → τ) (t : Table τ) (n : GoStr) : Writes t (t.setColCellsToZeroValue nt n).1 := by
  unfold Table.setColCellsToZeroValue
  split
  · exact setZeroCol _ _ _
  · exact refl t
  · exact refl t

theorem setZeroRow (nt : Nat → Nat → τ) (t : Table τ) (r : Int) : Writes t (t.setRowCellsToZeroValue nt r).1 := by
  unfold Table.setRowCellsToZeroValue
  split
  · exact refl t
  · refine forEach (fun _ _ => ?_) _ _
    split
    · exact refl _
    · split
      · exact refl _
      · rename_i h; exact setCell h

theorem appendRow (nt : Nat → Nat → τ) (t : Table τ) : Writes t (t.appendRow nt).1 := by
  unfold Table.appendRow
  split
  · exact refl t
  · exact (one (.appendRow (List.replicate t.colNames.length .nil)) rfl).trans (setZeroRow _ _ _)

theorem appendCol (nt : Nat → Nat → τ) (t : Table τ) (n ty : GoStr) : Writes t (t.appendCol nt n ty).1 := by
  unfold Table.appendCol
  split
  · exact refl t
  · split
    · exact refl t
    · split
      · exact refl t
      · rename_i ty _
        split
        · exact refl t
        · refine trans ?_ (setZeroColName _ _ _)
          have h1 : Writes t { t with colNames := t.colNames ++ [n] } := one (.appendName n) rfl
          have h2 : Writes { t with colNames := t.colNames ++ [n] } { t with colNames := t.colNames ++ [n], colTypes := t.colTypes ++ [ty] } := one (.appendType ty) rfl
          have h3 : Writes { t with colNames := t.colNames ++ [n], colTypes := t.colTypes ++ [ty] }
              { t with colNames := t.colNames ++ [n], colTypes := t.colTypes ++ [ty], colMap := t.colMap.insert n ((t.colNames ++ [n]).length - 1) } := one (.mapInsert n _) rfl
          have h4 := eachRow (R := fun row row' => row' = row ++ [.nil]) (fun t r row row' h e => by
              subst e
              exact one (.extendRow r) (by simp only [Prim.val]; rw [h]))
            (t := { t with colNames := t.colNames ++ [n], colTypes := t.colTypes ++ [ty], colMap := t.colMap.insert n ((t.colNames ++ [n]).length - 1) })
            (rows' := t.rows.map (fun row => row ++ [Cell.nil])) (mapPointwise _ t.rows)
          exact h1.trans (h2.trans (h3.trans h4))
where
  mapPointwise (f : List (Cell τ) → List (Cell τ)) : ∀ (l : List (List (Cell τ))), Pointwise (fun row row' => row' = f row) l (l.map f)
    | [] => trivial
    | _ :: as => ⟨rfl, mapPointwise f as⟩

theorem deleteRows (t : Table τ) (a b : Int) : Writes t (t.deleteRows a b).1 := by
  unfold Table.deleteRows
  split
  · exact refl t
  · split
    · exact refl t
    · split
      · exact refl t
      · rename_i h1 h2 h3
        unfold rowCount at h1 h2
        exact one (.cutRows a.toNat (b + 1).toNat) (by simp only [Prim.val]; rw [if_pos (by omega)])

theorem removeRow {t : Table τ} {ci : Nat} : ∀ (rows : List (List (Cell τ))), Pointwise (fun row row' => row' = row ∨ (ci < row.length ∧ row' = row.eraseIdx ci)) rows (removeFromRows ci rows).1
  | [] => trivial
  | row :: rows => by
    simp only [removeFromRows]
    split
    · exact ⟨.inl rfl, same rows⟩
    · rename_i row' h
      refine ⟨.inr ?_, removeRow (t := t) rows⟩
      unfold removeAt? at h
      split at h
      · rename_i hl
        cases h
        exact ⟨by omega, by rw [List.eraseIdx_eq_take_drop_succ]⟩
      · cases h
where
  same {ci : Nat} : ∀ (rows : List (List (Cell τ))), Pointwise (fun row row' => row' = row ∨ (ci < row.length ∧ row' = row.eraseIdx ci)) rows rows
    | [] => trivial
    | _ :: as => ⟨.inl rfl, same as⟩

theorem deleteColByColIndex (t : Table τ) (c : Int) : Writes t (t.deleteColByColIndex c).1 := by
  unfold Table.deleteColByColIndex
  split
  · exact refl t
  · split
    · exact refl t
    · exact refl t
    · rename_i name _
      dsimp only
      split
      · exact refl t
      · rename_i names hnames
        have hcut : ∀ {β : Type} {l l' : List β}, removeAt? l c.toNat = some l' → c.toNat < l.length ∧ l' = l.eraseIdx c.toNat := by
          intro β l l' h
          unfold removeAt? at h
          split at h
          · cases h
            exact ⟨by omega, by rw [List.eraseIdx_eq_take_drop_succ]⟩
          · cases h
        obtain ⟨hn1, hn2⟩ := hcut hnames
        have h1 : Writes t { t with colNames := names } := one (.cutName c.toNat) (by simp only [Prim.val]; rw [if_pos hn1, hn2])
        have h2 : Writes { t with colNames := names } { t with colNames := names, colMap := t.colMap.erase name } := one (.mapErase name) rfl
        have h3 := reindex names 0 { t with colNames := names, colMap := t.colMap.erase name }
        have h123 := h1.trans (h2.trans h3)
        split
        · exact h123
        · rename_i types htypes
          obtain ⟨ht1, ht2⟩ := hcut htypes
          have h4 : Writes { t with colNames := names, colMap := reindexFrom names 0 (t.colMap.erase name) }
              { t with colNames := names, colMap := reindexFrom names 0 (t.colMap.erase name), colTypes := types } :=
            one (.cutType c.toNat) (by simp only [Prim.val]; rw [if_pos ht1, ht2])
          refine h123.trans (h4.trans ?_)
          exact eachRow (R := fun row row' => row' = row ∨ (c.toNat < row.length ∧ row' = row.eraseIdx c.toNat)) (fun t r row row' h e => by
            rcases e with rfl | ⟨e1, rfl⟩
            · rw [show t.rows.set r row' = t.rows by rw [← (List.getElem?_eq_some_iff.1 h).2, List.set_getElem_self]]
              exact refl t
            · exact one (.cutRow r c.toNat) (by simp only [Prim.val]; rw [h]; dsimp only; rw [if_pos e1]))
            (t := { t with colNames := names, colMap := reindexFrom names 0 (t.colMap.erase name), colTypes := types }) (removeRow (t := t) t.rows)

theorem setValByColIndex (t : Table τ) (c r : Int) (v : Cell τ) : Writes t (t.setValByColIndex c r v).1 := by
  unfold Table.setValByColIndex
  repeat' split
  all_goals first
    | exact refl t
    | (rename_i h; exact setCell h)

theorem setVal (t : Table τ) (n : GoStr) (r : Int) (v : Cell τ) : Writes t (t.setVal n r v).1 := by
  unfold Table.setVal
  repeat' split
  all_goals first
    | exact refl t
    | exact setValByColIndex _ _ _ _

theorem setTyped (ty : ColType) (t : Table τ) (n : GoStr) (r : Int) (v : Cell τ) : Writes t (t.setTyped ty n r v).1 := by
  unfold Table.setTyped
  repeat' split
  all_goals first
    | exact refl t
    | (rename_i h; exact setCell h)

theorem setTypedByColIndex (ty : ColType) (t : Table τ) (c r : Int) (v : Cell τ) : Writes t (t.setTypedByColIndex ty c r v).1 := by
  unfold Table.setTypedByColIndex
  repeat' split
  all_goals first
    | exact refl t
    | (rename_i h; exact setCell h)

theorem renameCol (t : Table τ) (a b : GoStr) : Writes t (t.renameCol a b).1 := by
  unfold Table.renameCol
  repeat' split
  all_goals first
    | exact refl t
    | skip
  rename_i ci _ _ names h
  obtain ⟨_, h1, h2⟩ := goSet?_some.1 h
  have w1 : Writes t { t with colNames := names } := one (.setColName (ci : Int).toNat b) (by simp only [Prim.val]; rw [if_pos h1, h2])
  have w2 : Writes { t with colNames := names } { t with colNames := names, colMap := t.colMap.erase a } := one (.mapErase a) rfl
  have w3 : Writes { t with colNames := names, colMap := t.colMap.erase a } { t with colNames := names, colMap := (t.colMap.erase a).insert b ci } := one (.mapInsert b ci) rfl
  exact w1.trans (w2.trans w3)

theorem setNaN (t : Table τ) (c r : Int) : Writes t (t.setFloatCellToNaNByColIndex c r).1 := by
  unfold Table.setFloatCellToNaNByColIndex
  repeat' split
  all_goals first
    | exact refl t
    | exact setTypedByColIndex _ _ _ _ _

theorem setNaNCol (t : Table τ) (c : Int) : Writes t (t.setColFloatCellsToNaNByColIndex c).1 := by
  unfold Table.setColFloatCellsToNaNByColIndex
  exact forEach (fun _ _ => setNaN _ _ _) _ _

theorem permuted {α : Type} {order : List Int} {l l' : List α} (h : permute? order l = some l') : l.length = l'.length := by
  unfold permute? at h
  split at h
  · rename_i hl
    rw [hl]
    exact go h
  · cases h
where
  go {l : List α} : ∀ {order : List Int} {l' : List α}, order.mapM (fun i => goGet? l i) = some l' → order.length = l'.length := by
    intro order
    induction order with
    | nil => intro l' h; cases h; rfl
    | cons o os ih =>
      intro l' h
      rw [List.mapM_cons] at h
      rcases hg : goGet? l o with _ | x
      · rw [hg] at h; cases h
      · rw [hg] at h
        rcases hm : os.mapM (fun i => goGet? l i) with _ | xs
        · rw [hm] at h; cases h
        · rw [hm] at h
          cases h
          rw [List.length_cons, List.length_cons, ih hm]

theorem permutedRows (order : List Int) : ∀ (rows : List (List (Cell τ))), Pointwise (fun row row' => row.length = row'.length) rows (permuteRows order rows).1
  | [] => trivial
  | row :: rows => by
    simp only [permuteRows]
    split
    · exact ⟨rfl, same rows⟩
    · rename_i row' h
      exact ⟨permuted h, permutedRows order rows⟩
where
  same : ∀ (rows : List (List (Cell τ))), Pointwise (fun (row row' : List (Cell τ)) => row.length = row'.length) rows rows
    | [] => trivial
    | _ :: as => ⟨rfl, same as⟩

theorem reorder (t : Table τ) (order : List Int) : Writes t (t.reorderColsByColIndex order).1 := by
  unfold Table.reorderColsByColIndex
  split
  · exact refl t
  · split
    · exact refl t
    · split
      · exact refl t
      · rename_i names hn
        dsimp only
        have h1 : Writes t { t with colNames := names } := Writes.names (permuted hn)
        have h2 := h1.trans (reindex names 0 { t with colNames := names })
        split
        · exact h2
        · rename_i types hty
          have h3 : Writes { t with colNames := names, colMap := reindexFrom names 0 t.colMap } { t with colNames := names, colMap := reindexFrom names 0 t.colMap, colTypes := types } :=
            Writes.types (permuted hty)
          refine h2.trans (h3.trans ?_)
          exact eachRow (R := fun row row' => row.length = row'.length) (fun _ _ _ _ h e => Writes.row h e)
            (t := { t with colNames := names, colMap := reindexFrom names 0 t.colMap, colTypes := types }) (permutedRows order t.rows)

theorem reorderCols (t : Table τ) (ns : List GoStr) : Writes t (t.reorderCols ns).1 := by
  unfold Table.reorderCols
  repeat' split
  all_goals first
    | exact refl t
    | exact reorder _ _

theorem reverse (t : Table τ) : Writes t t.reverse.1 := by
  unfold Table.reverse
  split
  · exact refl t
  · rename_i rows h
    exact permRows (go h).symm
where
  go {α : Type} {l l' : List α} {a : Nat} {b : Int} (h : reverseLoop l a b = some l') : l'.Perm l := by
    fun_induction reverseLoop l a b with
    | case1 => cases h
    | case2 l a b hab l1 h1 ih => exact (ih h).trans (swapRows?_perm h1)
    | case3 => cases h; exact .refl _

theorem shuffle (choose : Nat → Nat) (t : Table τ) : Writes t (t.shuffle choose).1 := by
  unfold Table.shuffle
  split
  · exact refl t
  · rename_i rows h
    exact permRows (go _ h).symm
where
  go {α : Type} {l' : List α} : ∀ (n : Nat) {l : List α}, shuffleLoop choose n l = some l' → l'.Perm l
    | 0, l, h => by cases h; exact .refl _
    | n + 1, l, h => by
      simp only [shuffleLoop] at h
      split at h
      · cases h
      · rename_i h1
        exact (go n h).trans (swapRows?_perm h1)

theorem appendSortKey (t : Table τ) (n : GoStr) : Writes t (t.appendSortKey n).1 := by
  unfold Table.appendSortKey
  repeat' split
  all_goals first
    | exact refl t
    | exact one (.appendKey _) rfl

theorem setSortKeys (t : Table τ) (ns : List GoStr) : Writes t (t.setSortKeys ns).1 := by
  unfold Table.setSortKeys
  exact (one .newKeys rfl).trans (forEach (fun _ _ => appendSortKey _ _) _ _)

theorem setSortKeyReverse (t : Table τ) (n : GoStr) : Writes t (t.setSortKeyReverse n).1 := by
  have key : Writes t { t with sortKeys := t.sortKeys.map (fun k => if k.colName = n then { k with reverse := true } else k) } := by
    have := each (W := fun l l' => Writes { t with sortKeys := l } { t with sortKeys := l' }) (R := fun k k' => k' = k ∨ k' = { k with reverse := true }) (fun _ => refl _) (fun _ _ _ => trans)
      (fun l i x x' hx hR => by
        rcases hR with rfl | rfl
        · rw [show l.set i x' = l by rw [← (List.getElem?_eq_some_iff.1 hx).2, List.set_getElem_self]]
          exact refl _
        · exact one (.setReverse i) (by simp only [Prim.val]; rw [hx])) [] (go t.sortKeys)
    exact this
  unfold Table.setSortKeyReverse
  split
  · exact refl t
  · dsimp only
    split
    · exact key
    · exact key
where
  go : ∀ (l : List SortKey), Pointwise (fun (k k' : SortKey) => k' = k ∨ k' = { k with reverse := true }) l (l.map (fun (k : SortKey) => if k.colName = n then { k with reverse := true } else k))
    | [] => trivial
    | k :: ks => ⟨by
        dsimp only
        split
        · exact .inr rfl
        · exact .inl rfl, go ks⟩

theorem setSortKeysReverse (t : Table τ) (ns : List GoStr) : Writes t (t.setSortKeysReverse ns).1 := by
  unfold Table.setSortKeysReverse
  exact forEach (fun _ _ => setSortKeyReverse _ _) _ _

theorem setSortKeysFromTable (t f : Table τ) : Writes t (t.setSortKeysFromTable f).1 := by
  unfold Table.setSortKeysFromTable
  split
  · exact refl t
  · have h := setSortKeys t (f.sortKeys.map (·.colName))
    split
    · rename_i t1 e
      rw [e] at h
      exact h.trans (setSortKeysReverse _ _)
    · exact h

theorem deleteSortKey (t : Table τ) (n : GoStr) : Writes t (t.deleteSortKey n).1 := by
  unfold Table.deleteSortKey
  repeat' split
  all_goals first
    | exact refl t
    | skip
  rename_i ks h
  obtain ⟨i, h1, rfl⟩ := go t.sortKeys h
  exact one (.cutKey i) (by simp only [Prim.val]; rw [if_pos h1])
where
  go : ∀ (l : List SortKey) {ks : List SortKey}, deleteKeyLoop n l = some ks → ∃ i, i < l.length ∧ ks = l.eraseIdx i
    | [], ks, h => by cases h
    | k :: l, ks, h => by
      simp only [deleteKeyLoop] at h
      split at h
      · cases h
        exact ⟨0, by simp, rfl⟩
      · rw [Option.map_eq_some_iff] at h
        obtain ⟨ks', h1, rfl⟩ := h
        obtain ⟨i, h2, rfl⟩ := go l h1
        exact ⟨i + 1, by simp only [List.length_cons]; omega, rfl⟩

theorem sortByKeys (srt : GoSort (List (Cell τ))) (lower : GoStr → GoStr) (t : Table τ) : Writes t (t.sortByKeys srt lower).1 := by
  unfold Table.sortByKeys
  split
  · exact refl t
  · rename_i rows h
    exact permRows (srt.perm _ _ _ h).symm

theorem sort (srt : GoSort (List (Cell τ))) (lower : GoStr → GoStr) (t : Table τ) (ns : List GoStr) : Writes t (t.sort srt lower ns).1 := by
  have h : Writes t (if ns.length > 0 then t.setSortKeys ns else (t, .ok ())).1 := by
    split
    · exact setSortKeys _ _
    · exact refl t
  unfold Table.sort
  dsimp only
  split
  · rename_i e; rw [e] at h; exact h
  · rename_i e; rw [e] at h; exact h
  · rename_i e
    rw [e] at h
    split
    · exact h
    · exact h.trans (sortByKeys _ _ _)

theorem sortSimple (srt : GoSort (List (Cell τ))) (lower : GoStr → GoStr) (t : Table τ) (ns : List GoStr) : Writes t (t.sortSimple srt lower ns).1 := by
  unfold Table.sortSimple
  split
  · exact refl t
  · have h := setSortKeys t ns
    split
    · rename_i e
      rw [e] at h
      exact h.trans (sortByKeys _ _ _)
    · exact h

theorem appendColFrom (nt : Nat → Nat → τ) (info : GoStr × ColType) (t : Table τ) : Writes t (t.appendColFrom nt info).1 := by
  have h := appendCol nt t info.1 info.2.name
  unfold Table.appendColFrom
  split
  · rename_i e; rw [e] at h; exact h
  · rename_i e; rw [e] at h; exact h
  · rename_i e
    rw [e] at h
    repeat' split
    all_goals exact h

theorem copyRowStep (nt : Nat → Nat → τ) (f : Table τ) (a b : Int) (t : Table τ) : Writes t (Table.copyRowStep nt f a b t).1 := by
  have h := appendRow nt t
  unfold Table.copyRowStep
  split
  · rename_i e
    rw [e] at h
    refine h.trans (forEach (fun c t => ?_) _ _)
    unfold Table.copyCellStep
    repeat' split
    all_goals first
      | exact refl t
      | exact setVal _ _ _ _
  · exact h

theorem op (t : Table τ) (o : Op τ) : Writes t (o.step t).1 := by
  cases o with
  | setName n => exact setName t n
  | renameTable n => exact setName t n
  | setStructShape b => exact one (.head t.name b t.isNilTable t.parent) rfl
  | appendCol nt n ty => exact appendCol nt t n ty
  | deleteCol n =>
    simp only [Op.step]
    unfold Table.deleteCol
    repeat' split
    all_goals first
      | exact refl t
      | exact deleteColByColIndex _ _
  | deleteColByColIndex c => exact deleteColByColIndex t c
  | renameCol a b => exact renameCol t a b
  | renameColByColIndex c b =>
    simp only [Op.step]
    unfold Table.renameColByColIndex
    repeat' split
    all_goals first
      | exact refl t
      | exact renameCol _ _ _
  | appendRow nt => exact appendRow nt t
  | appendRows nt n =>
    simp only [Op.step]
    unfold Table.appendRows
    repeat' split
    all_goals first
      | exact refl t
      | exact forEach (fun _ _ => appendRow _ _) _ _
  | deleteRow r =>
    have h := deleteRows t r r
    simp only [Op.step]
    unfold Table.deleteRow
    split
    · exact refl t
    · split
      · rename_i e; rw [e] at h; exact h
      · exact h
  | deleteRows a b => exact deleteRows t a b
  | deleteRowsAll =>
    simp only [Op.step]
    unfold Table.deleteRowsAll
    split
    · exact deleteRows _ _ _
    · exact refl t
  | setVal n r v => exact setVal t n r v
  | setValByColIndex c r v => exact setValByColIndex t c r v
  | setTyped ty n r v => exact setTyped ty t n r v
  | setTypedByColIndex ty c r v => exact setTypedByColIndex ty t c r v
  | setCellToZeroValue nt n r =>
    simp only [Op.step]
    unfold Table.setCellToZeroValue
    repeat' split
    all_goals first
      | exact refl t
      | exact setZero _ _ _ _
  | setCellToZeroValueByColIndex nt c r => exact setZero nt t c r
  | setColCellsToZeroValue nt n => exact setZeroColName nt t n
  | setColCellsToZeroValueByColIndex nt c => exact setZeroCol nt t c
  | setRowCellsToZeroValue nt r => exact setZeroRow nt t r
  | setFloatCellToNaN n r =>
    simp only [Op.step]
    unfold Table.setFloatCellToNaN
    repeat' split
    all_goals first
      | exact refl t
      | exact setNaN _ _ _
  | setFloatCellToNaNByColIndex c r => exact setNaN t c r
  | setColFloatCellsToNaN n =>
    simp only [Op.step]
    unfold Table.setColFloatCellsToNaN
    repeat' split
    all_goals first
      | exact refl t
      | exact setNaNCol _ _
  | setColFloatCellsToNaNByColIndex c => exact setNaNCol t c
  | setRowFloatCellsToNaN r =>
    simp only [Op.step]
    unfold Table.setRowFloatCellsToNaN
    refine forEach (fun c t => ?_) _ _
    repeat' split
    all_goals first
      | exact refl t
      | exact setTypedByColIndex _ _ _ _ _
  | setAllFloatCellsToNaN =>
    simp only [Op.step]
    unfold Table.setAllFloatCellsToNaN
    refine forEach (fun c t => ?_) _ _
    repeat' split
    all_goals first
      | exact refl t
      | exact setNaNCol _ _
  | reorderCols ns => exact reorderCols t ns
  | reorderColsByColIndex order => exact reorder t order
  | orderColsBySortKeys =>
    simp only [Op.step]
    unfold Table.orderColsBySortKeys
    repeat' split
    all_goals first
      | exact refl t
      | exact reorderCols _ _
  | reverse => exact reverse t
  | shuffle choose => exact shuffle choose t
  | setSortKeys ns => exact setSortKeys t ns
  | setSortKeysReverse ns => exact setSortKeysReverse t ns
  | setSortKeysFromTable f => exact setSortKeysFromTable t f
  | appendSortKey n => exact appendSortKey t n
  | deleteSortKey n => exact deleteSortKey t n
  | sort srt lower ns => exact sort srt lower t ns
  | sortSimple srt lower ns => exact sortSimple srt lower t ns
  | appendColsFromTable nt f =>
    simp only [Op.step]
    unfold Table.appendColsFromTable
    repeat' split
    all_goals first
      | exact refl t
      | exact forEach (fun _ _ => appendColFrom _ _ _) _ _
  | appendRowsFromTable nt f a b =>
    simp only [Op.step]
    unfold Table.appendRowsFromTable
    repeat' split
    all_goals first
      | exact refl t
      | exact forEach (fun _ _ => copyRowStep _ _ _ _ _) _ _

end Writes

end Verif
