import Verif.Lemmas.At
import Verif.Model.Merge

/-! Loops that write cells. -/

namespace Verif

variable {τ : Type}

open Table

theorem SameHeader.trans {a b c : Table τ} (h : SameHeader a b) (h' : SameHeader b c) : SameHeader a c := by
  obtain ⟨h1, h2, h3, h4, h5, h6, h7, h8⟩ := h
  obtain ⟨g1, g2, g3, g4, g5, g6, g7, g8⟩ := h'
  exact ⟨g1.trans h1, g2.trans h2, g3.trans h3, g4.trans h4, g5.trans h5, g6.trans h6, g7.trans h7, g8.trans h8⟩

/-- `s'` is `s` with the cells in `T` overwritten by cells in `N`. -/
structure Over (s s' : Table τ) (T : GoStr → Nat → Prop) (N : GoStr → Nat → Cell τ → Prop) : Prop where
  wf : WF s'
  header : SameHeader s s'
  len : s'.rows.length = s.rows.length
  new : ∀ n r v, T n r → At s' n r v → N n r v
  old : ∀ n r v, ¬ T n r → (At s' n r v ↔ At s n r v)

theorem Over.refl {s : Table τ} (h : WF s) {T : GoStr → Nat → Prop} (N : GoStr → Nat → Cell τ → Prop) (hT : ∀ n r, ¬ T n r) : Over s s T N :=
  ⟨h, ⟨rfl, rfl, rfl, rfl, rfl, rfl, rfl, rfl⟩, rfl, fun n r _ ht => absurd ht (hT n r), fun _ _ _ _ => Iff.rfl⟩

theorem Over.congr {s s' : Table τ} {T T' : GoStr → Nat → Prop} {N : GoStr → Nat → Cell τ → Prop} (h : Over s s' T N)
    (e : ∀ n r, r < s.rows.length → (T n r ↔ T' n r)) : Over s s' T' N := by
  refine ⟨h.wf, h.header, h.len, ?_, ?_⟩
  · intro n r v ht hv
    have hr := (At_bound hv).2
    rw [h.len] at hr
    exact h.new n r v ((e n r hr).2 ht) hv
  · intro n r v ht
    by_cases hr : r < s.rows.length
    · exact h.old n r v fun hT => ht ((e n r hr).1 hT)
    · constructor
      · intro hv; have := (At_bound hv).2; rw [h.len] at this; exact absurd this hr
      · intro hv; exact absurd (At_bound hv).2 hr

theorem Over.put {s s1 : Table τ} {T : GoStr → Nat → Prop} {N : GoStr → Nat → Cell τ → Prop} (h : Over s s1 T N) {c r : Nat} {n : GoStr}
    {ty : ColType} {v : Cell τ} (hn : s1.colNames[c]? = some n) (hty : s1.colTypes[c]? = some ty) (hv : v.HasType ty)
    (hr : r < s1.rows.length) (hN : N n r v) : Over s (putCell s1 c r v) (fun n' r' => T n' r' ∨ (n' = n ∧ r' = r)) N := by
  refine ⟨h.wf.putCell hty hv hr, h.header.trans (putCell_header _ _ _ _), (putCell_rows_length _ _ _ _).trans h.len, ?_, ?_⟩
  · intro n' r' w ht hw
    by_cases e : n' = n ∧ r' = r
    · obtain ⟨rfl, rfl⟩ := e
      rw [At_unique (h.wf.putCell hty hv hr) hw (At_putCell_self h.wf hn hr v)]; exact hN
    · rw [At_putCell_other h.wf hn v e] at hw
      exact h.new n' r' w (ht.resolve_right e) hw
  · intro n' r' w ht
    rw [At_putCell_other h.wf hn v fun e => ht (.inr e)]
    exact h.old n' r' w fun hT => ht (.inl hT)

/-- Every cell of `src` is copied. -/
theorem copyTableCells_over {src s : Table τ} (hs : WF src) (h : WF s) {begin : Nat} (hlen : begin + src.rows.length ≤ s.rows.length)
    (hcols : ∀ n ty, HasColT src n ty → HasColT s n ty) :
    ∃ s', src.copyTableCells begin s = (s', .ok ()) ∧
      Over s s' (fun n r => n ∈ src.colNames ∧ begin ≤ r ∧ r < begin + src.rows.length) (fun n r v => At src n (r - begin) v) := by
  have key := forEach_range_ok (f := fun (srcCol : Nat) (targ : Table τ) =>
      match src.colName srcCol with
      | .err e => (targ, .err e)
      | .panic => (targ, .panic)
      | .ok n =>
        forEach (fun (srcRow : Nat) (targ : Table τ) =>
          match src.getValByColIndex srcCol srcRow with
          | .err e => (targ, .err e)
          | .panic => (targ, .panic)
          | .ok v => targ.setVal n ((begin + srcRow : Nat) : Int) v) (List.range src.rowCount) targ)
    (I := fun c s' => Over s s' (fun n r => n ∈ src.colNames.take c ∧ begin ≤ r ∧ r < begin + src.rows.length) (fun n r v => At src n (r - begin) v))
    src.colCount
    (by
      intro c hc s1 h1
      have hc' : c < src.colNames.length := hc
      obtain ⟨n, hn⟩ : ∃ n, src.colNames[c]? = some n := ⟨_, List.getElem?_eq_getElem hc'⟩
      obtain ⟨ty, hty⟩ := hs.type_of_name hn
      obtain ⟨j, hj1, hj2⟩ := hcols n ty ⟨c, hn, hty⟩
      obtain ⟨s2, e2, h2⟩ := forEach_range_ok (f := fun (srcRow : Nat) (targ : Table τ) =>
          match src.getValByColIndex c srcRow with
          | .err e => (targ, .err e)
          | .panic => (targ, .panic)
          | .ok v => targ.setVal n ((begin + srcRow : Nat) : Int) v)
        (I := fun k s' => Over s s' (fun m r => (m ∈ src.colNames.take c ∧ begin ≤ r ∧ r < begin + src.rows.length) ∨ (m = n ∧ begin ≤ r ∧ r < begin + k))
          (fun n r v => At src n (r - begin) v))
        src.rowCount
        (by
          intro k hk s2 h2
          have hk' : k < src.rows.length := hk
          obtain ⟨row, v, a1, a2, a3⟩ := getValByColIndex_nat hs hc' hk'
          have hvt : v.HasType ty := (hs.rowsOK row (List.mem_of_getElem? a1)).2 c ty v hty a2
          have hlt : begin + k < s2.rows.length := by rw [h2.len]; omega
          have hj1' : s2.colNames[j]? = some n := by rw [h2.header.2.1]; exact hj1
          have hj2' : s2.colTypes[j]? = some ty := by rw [h2.header.2.2.1]; exact hj2
          have hset : s2.setVal n ((begin + k : Nat) : Int) v = (putCell s2 j (begin + k) v, .ok ()) := by
            rcases setVal_cases h2.wf n ((begin + k : Nat) : Int) v (hasType_real hvt) with ⟨ci, ri, ty', b1, b2, b3, b4, b5, b6⟩ | ⟨hno, _⟩
            · have : ri = begin + k := by omega
              have := h2.wf.map_unique b1 hj1'
              subst ci; subst ri; exact b6
            · exact absurd ⟨j, begin + k, ty, hj1', rfl, hj2', hlt, hvt⟩ hno
          refine ⟨putCell s2 j (begin + k) v, ?_, ?_⟩
          · simp only [a3, hset]
          · have := h2.put hj1' hj2' hvt hlt (by
              show At src n (begin + k - begin) v
              rw [Nat.add_sub_cancel_left]; exact ⟨c, row, hn, a1, a2⟩)
            refine this.congr fun m r _ => ?_
            constructor
            · rintro ((h3 | ⟨h3, h4, h5⟩) | ⟨h3, h4⟩)
              · exact .inl h3
              · exact .inr ⟨h3, h4, by omega⟩
              · exact .inr ⟨h3, by omega, by omega⟩
            · rintro (h3 | ⟨h3, h4, h5⟩)
              · exact .inl (.inl h3)
              · by_cases e : r = begin + k
                · exact .inr ⟨h3, e⟩
                · exact .inl (.inr ⟨h3, h4, by omega⟩))
        s1 (h1.congr fun m r _ => ⟨.inl, fun h3 => h3.elim id (fun h4 => by omega)⟩)
      refine ⟨s2, ?_, ?_⟩
      · simp only [colName_nat hn]; exact e2
      · refine h2.congr fun m r _ => ?_
        have hrc : src.rowCount = src.rows.length := rfl
        rw [List.take_add_one, hn, hrc]
        simp only [Option.toList_some, List.mem_append, List.mem_singleton]
        constructor
        · rintro (⟨h3, h4⟩ | ⟨h3, h4⟩)
          · exact ⟨.inl h3, h4⟩
          · exact ⟨.inr h3, h4⟩
        · rintro ⟨h3 | h3, h4⟩
          · exact .inl ⟨h3, h4⟩
          · exact .inr ⟨h3, h4⟩)
    s (Over.refl h _ (by simp))
  obtain ⟨s', e, h'⟩ := key
  refine ⟨s', e, h'.congr fun n r _ => ?_⟩
  rw [show src.colCount = src.colNames.length from rfl, List.take_length]

/-- The table number is written. -/
theorem setTableNumber_over {s : Table τ} (h : WF s) {c first howMany : Nat} {number : Int} (hn : s.colNames[c]? = some tableNumberColName)
    (hty : s.colTypes[c]? = some .int) (hnum : (Cell.int .int number : Cell τ).HasType .int) (hlen : first + howMany ≤ s.rows.length) :
    ∃ s', s.setTableNumber first howMany number = (s', .ok ()) ∧
      Over s s' (fun n r => n = tableNumberColName ∧ first ≤ r ∧ r < first + howMany) (fun _ _ v => v = .int .int number) := by
  have key : ∀ k, first + k ≤ s.rows.length → ∃ s', s.setTableNumber first k number = (s', .ok ()) ∧
      Over s s' (fun n r => n = tableNumberColName ∧ first ≤ r ∧ r < first + k) (fun _ _ v => v = .int .int number) := by
    intro k
    induction k with
    | zero => exact fun _ => ⟨s, rfl, Over.refl h _ (by omega)⟩
    | succ k ih =>
      intro hk
      obtain ⟨s1, e1, h1⟩ := ih (by omega)
      have hlt : first + k < s1.rows.length := by rw [h1.len]; omega
      have a1 : s1.colNames[c]? = some tableNumberColName := by rw [h1.header.2.1]; exact hn
      have a2 : s1.colTypes[c]? = some .int := by rw [h1.header.2.2.1]; exact hty
      have hset : s1.setTyped .int tableNumberColName ((first + k : Nat) : Int) (.int .int number) = (putCell s1 c (first + k) (.int .int number), .ok ()) := by
        rcases setTyped_cases h1.wf .int tableNumberColName ((first + k : Nat) : Int) (.int .int number) hnum with ⟨ci, ri, ty', b1, b2, b3, b4, b5, _, b6⟩ | ⟨hno, _⟩
        · have : ri = first + k := by omega
          have := h1.wf.map_unique b1 a1
          subst ci; subst ri; exact b6
        · exact absurd ⟨c, first + k, .int, a1, rfl, a2, hlt, hnum, by simp⟩ hno
      refine ⟨putCell s1 c (first + k) (.int .int number), ?_, ?_⟩
      · simp only [setTableNumber] at e1 ⊢
        rw [List.range'_1_concat, forEach_append, e1]
        simp only [forEach, hset]
      · refine (h1.put a1 a2 hnum hlt rfl).congr fun m r _ => ?_
        constructor
        · rintro (⟨h3, h4, h5⟩ | ⟨h3, h4⟩)
          · exact ⟨h3, h4, by omega⟩
          · exact ⟨h3, by omega, by omega⟩
        · rintro ⟨h3, h4, h5⟩
          by_cases e : r = first + k
          · exact .inr ⟨h3, e⟩
          · exact .inl ⟨h3, h4, by omega⟩
  exact key howMany hlen

theorem colTypeByColIndex_at {t : Table τ} {c : Nat} {ty : ColType} (hl : t.colTypes.length = t.colNames.length) (hty : t.colTypes[c]? = some ty) :
    t.colTypeByColIndex (c : Int) = .ok ty := by
  have hlt := (List.getElem?_eq_some_iff.1 hty).1
  simp only [colTypeByColIndex, colCount]
  rw [if_neg (by omega), goGet?_nat, hty]

/-- A float column is overwritten with NaN. -/
theorem setColNaN_over {s : Table τ} (h : WF s) {c : Nat} {n : GoStr} {ty : ColType} (hn : s.colNames[c]? = some n) (hty : s.colTypes[c]? = some ty)
    (hf : ty = .float32 ∨ ty = .float64) :
    ∃ s', s.setColFloatCellsToNaNByColIndex (c : Int) = (s', .ok ()) ∧
      Over s s' (fun m _ => m = n) (fun _ _ v => v = if ty = .float32 then .f32 nan32 else .f64 nan64) := by
  obtain ⟨s', e, h'⟩ := forEach_range_ok (f := fun (ri : Nat) (t : Table τ) => t.setFloatCellToNaNByColIndex (c : Int) ri)
    (I := fun k s' => Over s s' (fun m r => m = n ∧ r < k) (fun _ _ v => v = if ty = .float32 then .f32 nan32 else .f64 nan64)) s.rowCount
    (by
      intro k hk s1 h1
      have hk' : k < s1.rows.length := by rw [h1.len]; exact hk
      have a1 : s1.colNames[c]? = some n := by rw [h1.header.2.1]; exact hn
      have a2 : s1.colTypes[c]? = some ty := by rw [h1.header.2.2.1]; exact hty
      have hcont : ∀ v : Cell τ, v.HasType ty → v ≠ .bytes none → (v = if ty = .float32 then .f32 nan32 else .f64 nan64) →
          ∃ s', s1.setTypedByColIndex ty (c : Int) (k : Int) v = (s', .ok ()) ∧
            Over s s' (fun m r => m = n ∧ r < k + 1) (fun _ _ v => v = if ty = .float32 then .f32 nan32 else .f64 nan64) := by
        intro v hv hb hN
        rcases setTypedByColIndex_cases h1.wf ty (c : Int) (k : Int) v hv with ⟨ci, ri, ty', b1, b2, b3, b4, b5, _, b6⟩ | ⟨hno, _⟩ | ⟨_, hno, _⟩
        · have : ri = k := by omega
          have : ci = c := by omega
          subst ci; subst ri
          refine ⟨_, b6, (h1.put a1 a2 hv hk' hN).congr fun m r _ => ?_⟩
          constructor
          · rintro (⟨h3, h4⟩ | ⟨h3, h4⟩)
            · exact ⟨h3, by omega⟩
            · exact ⟨h3, by omega⟩
          · rintro ⟨h3, h4⟩
            by_cases e : r = k
            · exact .inr ⟨h3, e⟩
            · exact .inl ⟨h3, by omega⟩
        · exact absurd ⟨c, k, ty, rfl, rfl, a2, hk', hv, hb⟩ hno
        · exact absurd ⟨by omega, by have := (List.getElem?_eq_some_iff.1 a2).1; omega⟩ hno
      simp only [setFloatCellToNaNByColIndex, colTypeByColIndex_at h1.wf.typesLen a2]
      rcases hf with rfl | rfl
      · exact hcont (.f32 nan32) trivial (by simp) (by simp)
      · exact hcont (.f64 nan64) trivial (by simp) (by simp))
    s (Over.refl h _ (by omega))
  refine ⟨s', e, h'.congr fun m r hr => ⟨fun h3 => h3.1, fun h3 => ⟨h3, hr⟩⟩⟩

theorem Over.trans {a b c : Table τ} {T T' : GoStr → Nat → Prop} {N N' M : GoStr → Nat → Cell τ → Prop} (h : Over a b T N) (h' : Over b c T' N')
    (hN : ∀ n r v, T n r → ¬ T' n r → N n r v → M n r v) (hN' : ∀ n r v, T' n r → N' n r v → M n r v) :
    Over a c (fun n r => T n r ∨ T' n r) M := by
  refine ⟨h'.wf, h.header.trans h'.header, h'.len.trans h.len, ?_, ?_⟩
  · intro n r v ht hv
    by_cases e : T' n r
    · exact hN' n r v e (h'.new n r v e hv)
    · exact hN n r v (ht.resolve_right e) e (h.new n r v (ht.resolve_right e) ((h'.old n r v e).1 hv))
  · intro n r v ht
    rw [h'.old n r v fun e => ht (.inr e), h.old n r v fun e => ht (.inl e)]

/-- All float columns are overwritten with NaN. -/
theorem setAllNaN_over {s : Table τ} (h : WF s) :
    ∃ s', s.setAllFloatCellsToNaN = (s', .ok ()) ∧
      Over s s' (fun n _ => HasColT s n .float32 ∨ HasColT s n .float64)
        (fun n _ v => (HasColT s n .float32 ∧ v = .f32 nan32) ∨ (HasColT s n .float64 ∧ v = .f64 nan64)) := by
  obtain ⟨s', e, h'⟩ := forEach_range_ok (f := fun (ci : Nat) (t : Table τ) =>
      match t.colTypeByColIndex ci with
      | .err e => (t, .err e)
      | .panic => (t, .panic)
      | .ok .float32 => t.setColFloatCellsToNaNByColIndex ci
      | .ok .float64 => t.setColFloatCellsToNaNByColIndex ci
      | .ok _ => (t, .ok ()))
    (I := fun k s' => Over s s' (fun n _ => (HasColT s n .float32 ∨ HasColT s n .float64) ∧ n ∈ s.colNames.take k)
      (fun n _ v => (HasColT s n .float32 ∧ v = .f32 nan32) ∨ (HasColT s n .float64 ∧ v = .f64 nan64))) s.colCount
    (by
      intro k hk s1 h1
      have hk' : k < s.colNames.length := hk
      obtain ⟨n, hn⟩ : ∃ n, s.colNames[k]? = some n := ⟨_, List.getElem?_eq_getElem hk'⟩
      obtain ⟨ty, hty⟩ := h.type_of_name hn
      have a1 : s1.colNames[k]? = some n := by rw [h1.header.2.1]; exact hn
      have a2 : s1.colTypes[k]? = some ty := by rw [h1.header.2.2.1]; exact hty
      have htake : ∀ m, m ∈ s.colNames.take (k + 1) ↔ m ∈ s.colNames.take k ∨ m = n := by
        intro m
        rw [List.take_add_one, hn]; simp
      simp only [colTypeByColIndex_at h1.wf.typesLen a2]
      by_cases hf : ty = .float32 ∨ ty = .float64
      · obtain ⟨s2, e2, h2⟩ := setColNaN_over h1.wf a1 a2 hf
        refine ⟨s2, ?_, ?_⟩
        · rcases hf with rfl | rfl <;> exact e2
        · refine (h1.trans h2 (M := fun n _ v => (HasColT s n .float32 ∧ v = .f32 nan32) ∨ (HasColT s n .float64 ∧ v = .f64 nan64))
            (fun _ _ _ _ _ h3 => h3) ?_).congr ?_
          · rintro m r v rfl rfl
            rcases hf with rfl | rfl
            · left; exact ⟨⟨k, hn, hty⟩, by simp⟩
            · right; exact ⟨⟨k, hn, hty⟩, by simp⟩
          · intro m r _
            rw [htake]
            constructor
            · rintro (⟨h3, h4⟩ | rfl)
              · exact ⟨h3, .inl h4⟩
              · refine ⟨?_, .inr rfl⟩
                rcases hf with rfl | rfl
                · exact .inl ⟨k, hn, hty⟩
                · exact .inr ⟨k, hn, hty⟩
            · rintro ⟨h3, h4 | h4⟩
              · exact .inl ⟨h3, h4⟩
              · exact .inr h4
      · refine ⟨s1, ?_, h1.congr ?_⟩
        · cases ty <;> first | rfl | exact absurd (by simp) hf
        · intro m r _
          rw [htake]
          constructor
          · exact fun h3 => ⟨h3.1, .inl h3.2⟩
          · rintro ⟨h3, h4 | rfl⟩
            · exact ⟨h3, h4⟩
            · exfalso
              apply hf
              rcases h3 with h3 | h3
              · exact .inl (HasColT.unique h ⟨k, hn, hty⟩ h3)
              · exact .inr (HasColT.unique h ⟨k, hn, hty⟩ h3))
    s (Over.refl h _ (by simp))
  refine ⟨s', e, h'.congr fun m r _ => ?_⟩
  rw [show s.colCount = s.colNames.length from rfl, List.take_length]
  constructor
  · exact fun h3 => h3.1
  · intro h3
    refine ⟨h3, ?_⟩
    rcases h3 with ⟨i, h4, _⟩ | ⟨i, h4, _⟩ <;> exact List.mem_of_getElem? h4

end Verif
