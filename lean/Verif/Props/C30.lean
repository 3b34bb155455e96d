import Verif.Props.C07

/-!
# C30 AppendColsFromTable adds exactly the missing columns
-/

namespace Verif
open Table

variable {τ : Type}

/-! ## Reading the columns of the source -/

theorem colInfoLoop_eq {f : Table τ} (h : WF f) (l : List Nat) (hl : ∀ ci ∈ l, ci < f.colNames.length) :
    f.colInfoLoop l = .ok (l.filterMap (fun ci => (f.colNames.zip f.colTypes)[ci]?)) := by
  induction l with
  | nil => rfl
  | cons ci l ih =>
    have hci := hl ci (by simp)
    have h1 : f.colNames[ci]? = some f.colNames[ci] := List.getElem?_eq_getElem hci
    obtain ⟨ty, h2⟩ := h.type_of_name h1
    have hz : (f.colNames.zip f.colTypes)[ci]? = some (f.colNames[ci], ty) := by
      simp only [List.getElem?_zip_eq_some]; exact ⟨h1, h2⟩
    simp only [colInfoLoop, colName_nat h1, getColInfo, (h.mapIff _ _).2 h1, h2, Out.bind,
      ih (fun c hc => hl c (by simp [hc]))]
    rw [List.filterMap_cons, hz]

theorem colInfo_eq {f : Table τ} (h : WF f) (hnil : f.isNilTable = false) : f.colInfo = .ok (f.colNames.zip f.colTypes) := by
  have hcc : f.colCount = f.colNames.length := rfl
  simp only [colInfo, hnil, Bool.false_eq_true, if_false]
  rw [colInfoLoop_eq h _ (by simp [hcc])]
  congr 1
  have hlen : (f.colNames.zip f.colTypes).length = f.colCount := by simp [hcc, h.typesLen]
  rw [← hlen]
  generalize f.colNames.zip f.colTypes = l
  clear hlen
  induction l with
  | nil => rfl
  | cons a l ih =>
    rw [List.length_cons, List.range_succ_eq_map, List.filterMap_cons, List.filterMap_map]
    simp only [List.getElem?_cons_zero]
    congr 1

theorem mem_zip_iff {f : Table τ} {n : GoStr} {ty : ColType} : (n, ty) ∈ f.colNames.zip f.colTypes ↔ HasColT f n ty := by
  constructor
  · intro hm
    obtain ⟨i, hi⟩ := List.getElem?_of_mem hm
    rw [List.getElem?_zip_eq_some] at hi
    exact ⟨i, hi⟩
  · rintro ⟨i, hi⟩
    have : (f.colNames.zip f.colTypes)[i]? = some (n, ty) := by rw [List.getElem?_zip_eq_some]; exact hi
    exact List.mem_of_getElem? this

/-! ## One column, then all -/

/-- Where both have a column it has the same type. -/
def Compat (t : Table τ) (L : List (GoStr × ColType)) : Prop := ∀ p ∈ L, ∀ ty, HasColT t p.1 ty → ty = p.2

/-- `t'` is `t` with the missing ones of the columns `L` added. -/
structure Merged (t : Table τ) (L : List (GoStr × ColType)) (t' : Table τ) : Prop where
  names : t'.colNames = t.colNames ++ (L.map Prod.fst).filter (fun n => n ∉ t.colNames)
  types : ∀ n ty, HasColT t' n ty ↔ HasColT t n ty ∨ (n ∉ t.colNames ∧ (n, ty) ∈ L)
  old : ∀ n r x, n ∈ t.colNames → (At t' n r x ↔ At t n r x)
  new : ∀ n ty r x, n ∉ t.colNames → HasColT t' n ty → At t' n r x → Cell.IsZero ty x
  rowCount : t'.rows.length = t.rows.length
  rest : t'.name = t.name ∧ t'.sortKeys = t.sortKeys ∧ t'.isStructShape = t.isStructShape ∧ t'.isNilTable = t.isNilTable

theorem Merged.refl (t : Table τ) (L : List (GoStr × ColType)) (h : ∀ p ∈ L, p.1 ∈ t.colNames) : Merged t L t where
  names := by
    rw [List.filter_eq_nil_iff.2, List.append_nil]
    intro n hn
    obtain ⟨p, hp, rfl⟩ := List.mem_map.1 hn
    simpa using h p hp
  types := by
    intro n ty
    constructor
    · exact .inl
    · rintro (h1 | ⟨h1, h2⟩)
      · exact h1
      · exact absurd (h _ h2) h1
  old := fun _ _ _ _ => Iff.rfl
  new := by
    rintro n ty r x hn ⟨i, h1, _⟩ _
    exact absurd (List.mem_of_getElem? h1) hn
  rowCount := rfl
  rest := ⟨rfl, rfl, rfl, rfl⟩

theorem hasColT_zeroColAdded {t t' : Table τ} {n : GoStr} {ty : ColType} (h : WF t) (hz : ZeroColAdded t t' n ty)
    (m : GoStr) (ty' : ColType) : HasColT t' m ty' ↔ HasColT t m ty' ∨ (m = n ∧ ty' = ty) := by
  obtain ⟨h1, h2, _⟩ := hz
  simp only [HasColT, h1, h2]
  have hl := h.typesLen
  constructor
  · rintro ⟨i, e1, e2⟩
    by_cases hi : i < t.colNames.length
    · left
      rw [List.getElem?_append_left hi] at e1
      rw [List.getElem?_append_left (by omega)] at e2
      exact ⟨i, e1, e2⟩
    · right
      rw [List.getElem?_append_right (by omega)] at e1 e2
      have a := List.mem_of_getElem? e1
      have b := List.mem_of_getElem? e2
      simp only [List.mem_singleton] at a b
      exact ⟨a, b⟩
  · rintro (⟨i, e1, e2⟩ | ⟨rfl, rfl⟩)
    · exact ⟨i, by rw [List.getElem?_append_left (List.getElem?_eq_some_iff.1 e1).1]; exact e1,
        by rw [List.getElem?_append_left (List.getElem?_eq_some_iff.1 e2).1]; exact e2⟩
    · exact ⟨t.colNames.length, by simp, by rw [← hl]; simp⟩

theorem appendColFrom_cases (nt : Nat → Nat → τ) {s : Table τ} (h : WF s) (hnil : s.isNilTable = false) (n : GoStr) (ty : ColType)
    (hn : isValidColName n = true) :
    (n ∉ s.colNames ∧ ∃ s', appendColFrom nt (n, ty) s = (s', .ok ()) ∧ ZeroColAdded s s' n ty ∧ WF s') ∨
    (n ∈ s.colNames ∧ HasColT s n ty ∧ appendColFrom nt (n, ty) s = (s, .ok ())) ∨
    (n ∈ s.colNames ∧ (∃ ty', HasColT s n ty' ∧ ty' ≠ ty) ∧ appendColFrom nt (n, ty) s = (s, .err .typeMismatch)) := by
  have hc := C07_appendCol nt s h n ty.name
  by_cases hm : n ∈ s.colNames
  · right
    obtain ⟨⟨e, he⟩, hs⟩ := hc.2 (by rintro ⟨_, _, h3, _⟩; exact h3 hm)
    have e0 : s.appendCol nt n ty.name = (s, .err e) := Prod.ext hs he
    rcases getColInfo_cases h n with ⟨i, ty', h1, h2, h3⟩ | ⟨h1, _⟩
    · simp only [appendColFrom, e0, h.hasCol_ok hm, h3]
      by_cases ht : ty = ty'
      · subst ht
        left; exact ⟨hm, ⟨i, h1, h2⟩, by simp⟩
      · right; exact ⟨hm, ⟨ty', ⟨i, h1, h2⟩, Ne.symm ht⟩, by rw [if_pos ht]⟩
    · exact absurd hm h1
  · left
    obtain ⟨a, b, c⟩ := hc.1 ty hnil hn hm rfl
    refine ⟨hm, _, ?_, b, c⟩
    have e0 : s.appendCol nt n ty.name = ((s.appendCol nt n ty.name).1, .ok ()) := Prod.ext rfl a
    simp only [appendColFrom]
    rw [e0]

theorem appendColsLoop_cases (nt : Nat → Nat → τ) (L : List (GoStr × ColType)) {s : Table τ} (h : WF s) (hnil : s.isNilTable = false)
    (hv : ∀ p ∈ L, isValidColName p.1 = true) (hnd : (L.map Prod.fst).Nodup) :
    (Compat s L ∧ ∃ s', forEach (appendColFrom nt) L s = (s', .ok ()) ∧ Merged s L s') ∨
    (¬ Compat s L ∧ ∃ s' e, forEach (appendColFrom nt) L s = (s', .err e)) := by
  induction L generalizing s with
  | nil =>
    left
    exact ⟨by intro p hp; simp at hp, s, rfl, Merged.refl s [] (by simp)⟩
  | cons p L ih =>
    obtain ⟨n, ty⟩ := p
    have hv' : ∀ p ∈ L, isValidColName p.1 = true := fun p hp => hv p (by simp [hp])
    simp only [List.map_cons, List.nodup_cons] at hnd
    have hne : ∀ p ∈ L, p.1 ≠ n := fun p hp e => hnd.1 (e ▸ List.mem_map.2 ⟨p, hp, rfl⟩)
    rcases appendColFrom_cases nt h hnil n ty (hv (n, ty) (by simp)) with ⟨hm, s1, e, hz, hw⟩ | ⟨hm, ht, e⟩ | ⟨hm, ⟨ty', ht, hty⟩, e⟩
    · have hct := hasColT_zeroColAdded h hz
      have hcompat : Compat s ((n, ty) :: L) ↔ Compat s1 L := by
        constructor
        · intro hc p hp ty' hty'
          rcases (hct p.1 ty').1 hty' with h1 | ⟨h1, _⟩
          · exact hc p (by simp [hp]) ty' h1
          · exact absurd h1 (hne p hp)
        · intro hc p hp ty' hty'
          rcases List.mem_cons.1 hp with rfl | hp
          · obtain ⟨i, h1, _⟩ := hty'
            exact absurd (List.mem_of_getElem? h1) hm
          · exact hc p hp ty' ((hct p.1 ty').2 (.inl hty'))
      obtain ⟨z1, z2, z3, z4, z5, z6, z7, z8, z9⟩ := hz
      have hmem : ∀ m, m ∈ s1.colNames ↔ m ∈ s.colNames ∨ m = n := by intro m; rw [z1]; simp
      rcases ih hw (by rw [z9]; exact hnil) hv' hnd.2 with ⟨hc, s2, e2, hM⟩ | ⟨hc, s2, er, e2⟩
      · left
        refine ⟨hcompat.2 hc, s2, by rw [forEach_cons_ok e, e2], ?_⟩
        exact {
          names := by
            rw [hM.names, z1, List.append_assoc]
            congr 1
            rw [List.map_cons, List.filter_cons_of_pos (by simpa using hm)]
            simp only [List.singleton_append, List.cons.injEq, true_and]
            apply List.filter_congr
            intro m hmL
            obtain ⟨p, hp, rfl⟩ := List.mem_map.1 hmL
            have := hne p hp
            simp [this]
          types := by
            intro m ty'
            rw [hM.types, hct, hmem]
            constructor
            · rintro ((h1 | ⟨rfl, rfl⟩) | ⟨h1, h2⟩)
              · exact .inl h1
              · exact .inr ⟨hm, by simp⟩
              · exact .inr ⟨fun h3 => h1 (.inl h3), by simp [h2]⟩
            · rintro (h1 | ⟨h1, h2⟩)
              · exact .inl (.inl h1)
              · rcases List.mem_cons.1 h2 with h2 | h2
                · cases h2; exact .inl (.inr ⟨rfl, rfl⟩)
                · right
                  refine ⟨?_, h2⟩
                  rintro (h3 | h3)
                  · exact h1 h3
                  · exact hne _ h2 h3
          old := by
            intro m r x hms
            rw [hM.old m r x ((hmem m).2 (.inl hms))]
            exact z5 m r x (fun e => hm (e ▸ hms))
          new := by
            intro m ty' r x hms hty' hat
            by_cases hmn : m = n
            · subst hmn
              have hin : m ∈ s1.colNames := (hmem m).2 (.inr rfl)
              rw [hM.old m r x hin] at hat
              have : ty' = ty := by
                rcases (hM.types m ty').1 hty' with h1 | ⟨h1, _⟩
                · rcases (hct m ty').1 h1 with ⟨i, h2, _⟩ | ⟨_, h2⟩
                  · exact absurd (List.mem_of_getElem? h2) hms
                  · exact h2
                · exact absurd hin h1
              subst this
              have hr := (At_bound hat).2
              rw [z3] at hr
              obtain ⟨c, hc1, hc2⟩ := z4 r hr
              rw [At_unique hw hat hc1]; exact hc2
            · exact hM.new m ty' r x (by rw [hmem]; exact fun h1 => h1.elim hms hmn) hty' hat
          rowCount := hM.rowCount.trans z3
          rest := by
            obtain ⟨r1, r2, r3, r4⟩ := hM.rest
            exact ⟨r1.trans z6, r2.trans z7, r3.trans z8, r4.trans z9⟩ }
      · right
        exact ⟨fun hc' => hc (hcompat.1 hc'), s2, er, by rw [forEach_cons_ok e, e2]⟩
    · have hcompat : Compat s ((n, ty) :: L) ↔ Compat s L := by
        constructor
        · exact fun hc p hp => hc p (by simp [hp])
        · intro hc p hp ty' hty'
          rcases List.mem_cons.1 hp with rfl | hp
          · exact HasColT.unique h hty' ht
          · exact hc p hp ty' hty'
      rcases ih h hnil hv' hnd.2 with ⟨hc, s2, e2, hM⟩ | ⟨hc, s2, er, e2⟩
      · left
        refine ⟨hcompat.2 hc, s2, by rw [forEach_cons_ok e, e2], ?_⟩
        exact {
          names := by rw [hM.names, List.map_cons, List.filter_cons_of_neg (by simpa using hm)]
          types := by
            intro m ty'
            rw [hM.types]
            constructor
            · rintro (h1 | ⟨h1, h2⟩)
              · exact .inl h1
              · exact .inr ⟨h1, by simp [h2]⟩
            · rintro (h1 | ⟨h1, h2⟩)
              · exact .inl h1
              · rcases List.mem_cons.1 h2 with h2 | h2
                · cases h2; exact absurd hm h1
                · exact .inr ⟨h1, h2⟩
          old := hM.old, new := hM.new, rowCount := hM.rowCount, rest := hM.rest }
      · right
        exact ⟨fun hc' => hc (hcompat.1 hc'), s2, er, by rw [forEach_cons_ok e, e2]⟩
    · right
      refine ⟨fun hc => hty (hc (n, ty) (by simp) ty' ht), s, .typeMismatch, ?_⟩
      simp [forEach, e]

/-! ## The property -/

/-- `t'` has the columns of `t`, with their cells, and after them the columns of `f` that `t` lacks, in `f`'s order, holding zero values. -/
def ColsAdded (t f t' : Table τ) : Prop :=
  t'.colNames = t.colNames ++ f.colNames.filter (fun n => n ∉ t.colNames) ∧
  (∀ n ty, HasColT t' n ty ↔ HasColT t n ty ∨ (n ∉ t.colNames ∧ HasColT f n ty)) ∧
  (∀ n r x, n ∈ t.colNames → (At t' n r x ↔ At t n r x)) ∧
  (∀ n ty r x, n ∉ t.colNames → HasColT t' n ty → At t' n r x → Cell.IsZero ty x) ∧
  t'.rows.length = t.rows.length ∧
  t'.name = t.name ∧ t'.sortKeys = t.sortKeys ∧ t'.isStructShape = t.isStructShape ∧ t'.isNilTable = t.isNilTable

/-- Columns of the same name have the same type. -/
def SharedColsAgree (t f : Table τ) : Prop := ∀ n ty ty', HasColT t n ty → HasColT f n ty' → ty = ty'

/-- **C30.** `AppendColsFromTable` succeeds exactly if neither table is a nil placeholder and shared columns have the same type; it then
adds exactly the missing columns; it never panics. -/
theorem C30_appendColsFromTable (nt : Nat → Nat → τ) (t f : Table τ) (h : WF t) (hf : WF f) :
    (t.isNilTable = false ∧ f.isNilTable = false ∧ SharedColsAgree t f →
      (t.appendColsFromTable nt f).2 = .ok () ∧ ColsAdded t f (t.appendColsFromTable nt f).1 ∧ WF (t.appendColsFromTable nt f).1) ∧
    (¬ (t.isNilTable = false ∧ f.isNilTable = false ∧ SharedColsAgree t f) → ∃ e, (t.appendColsFromTable nt f).2 = .err e) := by
  cases hnil : t.isNilTable
  · cases hfnil : f.isNilTable
    · have hL : ∀ p ∈ f.colNames.zip f.colTypes, isValidColName p.1 = true := fun p hp =>
        hf.namesValid _ (List.of_mem_zip hp).1
      have hmap : (f.colNames.zip f.colTypes).map Prod.fst = f.colNames :=
        List.map_fst_zip (by rw [hf.typesLen]; exact Nat.le_refl _)
      have hagree : Compat t (f.colNames.zip f.colTypes) ↔ SharedColsAgree t f := by
        constructor
        · exact fun hc n ty ty' h1 h2 => hc (n, ty') (mem_zip_iff.2 h2) ty h1
        · exact fun hc p hp ty h1 => hc p.1 ty p.2 h1 (mem_zip_iff.1 hp)
      have hunf : t.appendColsFromTable nt f = forEach (appendColFrom nt) (f.colNames.zip f.colTypes) t := by
        simp only [appendColsFromTable, hnil, Bool.false_eq_true, if_false, colInfo_eq hf hfnil]
      have hw := h.appendColsFromTable nt f
      rcases appendColsLoop_cases nt _ h hnil hL (by rw [hmap]; exact hf.namesNodup) with ⟨hc, s', e, hM⟩ | ⟨hc, s', er, e⟩
      · rw [hunf, e] at hw ⊢
        refine ⟨fun _ => ⟨rfl, ⟨?_, ?_, hM.old, hM.new, hM.rowCount, hM.rest.1, hM.rest.2.1, hM.rest.2.2.1, hM.rest.2.2.2⟩, hw⟩, ?_⟩
        · rw [hM.names, hmap]
        · intro n ty; rw [hM.types, mem_zip_iff]
        · intro hno; exact absurd ⟨rfl, rfl, hagree.1 hc⟩ hno
      · rw [hunf, e]
        refine ⟨?_, fun _ => ⟨er, rfl⟩⟩
        rintro ⟨_, _, hc'⟩; exact absurd (hagree.2 hc') hc
    · refine ⟨by simp, fun _ => ⟨.nilTable, ?_⟩⟩
      simp [appendColsFromTable, hnil, colInfo, hfnil]
  · refine ⟨by simp, fun _ => ⟨.nilTable, ?_⟩⟩
    simp [appendColsFromTable, hnil]

/-- A source table sharing the column `w` with the example table. -/
def Ex.src : Table Unit := Op.run newNilTable
  [.setName (gs! "S"), .appendCol (fun _ _ => ()) (gs! "x") (gs! "rune"), .appendCol (fun _ _ => ()) (gs! "w") (gs! "float64"),
   .appendCol (fun _ _ => ()) (gs! "y") (gs! "[]byte"), .appendRows (fun _ _ => ()) 2, .setVal (gs! "x") 1 (.int .int32 65)]

example : (Ex.t.appendColsFromTable (fun _ _ => ()) Ex.src).2 = .ok () ∧
    (Ex.t.appendColsFromTable (fun _ _ => ()) Ex.src).1.colNames = [gs! "name", gs! "age", gs! "w", gs! "x", gs! "y"] := by
  decide +kernel
-- a shared column of another type
example : (Ex.t.appendColsFromTable (fun _ _ => ()) (Op.run newNilTable
    [.setName (gs! "S"), .appendCol (fun _ _ => ()) (gs! "w") (gs! "float32")])).2 = .err .typeMismatch := by
  decide +kernel

end Verif
