import Verif.Lemmas.JsonRead
import Verif.Lemmas.Tree

/-!
# Lemmas: which trees of tables are written as JSON
-/

namespace Verif
open Table

variable {P : PrintEnv} {H : Heap}

/-! ## The order in which tables are visited -/

/-- The cells of a table, row by row. -/
def posOf (t : Table Addr) : List (Nat × Nat) := (List.range t.rows.length).flatMap fun r => (List.range t.colNames.length).map fun c => (r, c)

/-- What the writer does at a cell, but for the text. -/
def visitCell (H : Heap) (rec : List Addr → Addr → Out (List Addr)) (t : Table Addr) (refs : List Addr) (p : Nat × Nat) : Out (List Addr) :=
  match nestedAt t p.2 p.1 with
  | none => .ok refs
  | some b =>
    if b ∈ refs then .err .circular
    else
      match H[b]? with
      | none => .err .nilTable
      | some n => if n.isNilTable then .ok refs else rec refs b

/-- What the writer does, but for the text. -/
def visit (H : Heap) : Nat → List Addr → Addr → Out (List Addr)
  | 0, _, _ => .panic
  | d + 1, refs, a =>
    match H[a]? with
    | none => .err .nilTable
    | some t => foldOut (visitCell H (visit H d) t) (a :: refs) (posOf t)

/-- The references, without the text. -/
def refsOf {α : Type} (o : Out (α × List Addr)) : Out (List Addr) := o.bind fun p => .ok p.2

theorem foldOut_append {α σ : Type} (f : σ → α → Out σ) : ∀ (l1 l2 : List α) (s : σ), foldOut f s (l1 ++ l2) = (foldOut f s l1).bind fun s' => foldOut f s' l2
  | [], _, _ => rfl
  | x :: l1, l2, s => by
    simp only [List.cons_append, foldOut]
    cases f s x with
    | ok s' => exact foldOut_append f l1 l2 s'
    | err e => rfl
    | panic => rfl

theorem jsonCell_visit {nestedW : List Addr → Addr → Out (GoStr × List Addr)} {rec : List Addr → Addr → Out (List Addr)}
    (hrec : ∀ refs b, refsOf (nestedW refs b) = rec refs b) {t : Table Addr} (hw : WF t) {r j : Nat} (hr : r < t.rows.length) (hj : j < t.colNames.length) (refs : List Addr) :
    refsOf (jsonCell P H nestedW refs t r j) = visitCell H rec t refs (r, j) := by
  have hnil : t.isNilTable = false := by
    cases e : t.isNilTable with
    | false => rfl
    | true => rw [(hw.nilEmpty e).2] at hr; exact absurd hr (by simp)
  have hrr := List.getElem?_eq_getElem hr
  have hro := hw.rowsOK _ (List.getElem_mem hr)
  have hj2 : j < t.colTypes.length := by rw [hw.typesLen]; exact hj
  have hj3 : j < t.rows[r].length := by rw [hro.1]; exact hj2
  have hcc := List.getElem?_eq_getElem hj3
  have htt := List.getElem?_eq_getElem hj2
  obtain ⟨hval, hht⟩ := getVal_ok hw hrr hcc htt
  have hnest : nestedAt t j r = match t.rows[r][j] with | .tbl (some b) => some b | _ => none := by
    simp only [nestedAt, hrr, hcc]
    generalize t.rows[r][j] = c
    cases c with
    | tbl v => cases v <;> rfl
    | _ => rfl
  generalize t.rows[r][j] = c at *
  generalize t.colTypes[j] = ty at *
  have hg : goGet? t.colTypes (j : Int) = some ty := by simp [goGet?, htt]
  have hstr : ∀ s, plainText P H ty c = .ok s → t.getValAsStringByColIndex P H j r = .ok s := by
    intro s hs
    simp only [getValAsStringByColIndex, hnil, hval, Out.bind, hg, hs]
    rfl
  unfold visitCell
  rw [hnest]
  cases c with
  | nil => cases ty <;> exact absurd hht (by simp [Cell.HasType])
  | str s0 => simp only [refsOf, jsonCell, hval, Out.bind]
  | bool b =>
    cases ty <;> simp only [Cell.HasType] at hht
    simp only [refsOf, jsonCell, hval, Out.bind, hstr _ (rfl : plainText P H .bool (.bool b) = .ok _)]
  | f32 b =>
    cases ty <;> simp only [Cell.HasType] at hht
    simp only [refsOf, jsonCell, hval, Out.bind, hstr _ (rfl : plainText P H .float32 (.f32 b) = .ok _)]
  | f64 b =>
    cases ty <;> simp only [Cell.HasType] at hht
    simp only [refsOf, jsonCell, hval, Out.bind, hstr _ (rfl : plainText P H .float64 (.f64 b) = .ok _)]
  | time v => simp only [refsOf, jsonCell, hval, Out.bind]
  | bytes b =>
    have htext : plainText P H ty (.bytes b) = .ok (fmtBytes b) := by
      cases ty <;> simp only [Cell.HasType] at hht <;> rfl
    simp only [refsOf, jsonCell, hval, Out.bind, hstr _ htext]
  | int k v =>
    by_cases hrune : ty = .rune
    · subst hrune
      cases k <;> simp only [Cell.HasType] at hht
      have htext : plainText P H .rune (.int .int32 v) = .ok (encodeRune (if 0 ≤ v then v.toNat else 0x110000)) := rfl
      simp only [refsOf, jsonCell, hval, Out.bind, hstr _ htext, hg]
    · have htext : plainText P H ty (.int k v) = .ok (fmtInt v) := by
        cases ty <;> cases k <;> simp only [Cell.HasType] at hht
        case rune.int32 => exact absurd rfl hrune
        all_goals rfl
      cases k with
      | int32 =>
        have : ty = .int32 := by cases ty <;> simp_all [Cell.HasType]
        subst this
        simp only [refsOf, jsonCell, hval, Out.bind, hstr _ htext, hg]
      | _ => simp only [refsOf, jsonCell, hval, Out.bind, hstr _ htext]
  | tbl o =>
    cases ty <;> cases o <;> simp only [Cell.HasType] at hht
    rename_i b
    have hget := getTypedByColIndex_table htt hrr hcc
    simp only [refsOf, jsonCell, hval, Out.bind, hget]
    by_cases hb : b ∈ refs
    · simp only [if_pos hb]
    simp only [if_neg hb]
    cases hH : H[b]? with
    | none => rfl
    | some n =>
      cases hn : n.isNilTable with
      | true => simp [hn]
      | false =>
        rw [← hrec]
        simp only [hn, refsOf, Bool.false_eq_true, if_false]
        cases nestedW refs b <;> rfl

theorem jsonCells_visit {nestedW : List Addr → Addr → Out (GoStr × List Addr)} {rec : List Addr → Addr → Out (List Addr)}
    (hrec : ∀ refs b, refsOf (nestedW refs b) = rec refs b) {t : Table Addr} (hw : WF t) {r : Nat} (hr : r < t.rows.length) :
    ∀ (l : List (Nat × GoStr)) (refs : List Addr), (∀ p ∈ l, p.1 < t.colNames.length) →
      refsOf (jsonCells P H nestedW t r refs l) = foldOut (visitCell H rec t) refs (l.map fun p => (r, p.1))
  | [], _, _ => rfl
  | (j, n) :: l, refs, hl => by
    have h1 := jsonCell_visit (P := P) (H := H) hrec hw hr (hl (j, n) (by simp)) refs
    simp only [List.map_cons, foldOut, ← h1, jsonCells]
    cases jsonCell P H nestedW refs t r j with
    | ok p =>
      have := jsonCells_visit hrec hw hr l p.2 fun x hx => hl x (by simp [hx])
      simp only [refsOf, Out.bind] at this ⊢
      rw [← this]
      cases jsonCells P H nestedW t r p.2 l <;> rfl
    | err e => rfl
    | panic => rfl

theorem jsonRows_visit {nestedW : List Addr → Addr → Out (GoStr × List Addr)} {rec : List Addr → Addr → Out (List Addr)}
    (hrec : ∀ refs b, refsOf (nestedW refs b) = rec refs b) {t : Table Addr} (hw : WF t) :
    ∀ (l : List Nat) (refs : List Addr), (∀ r ∈ l, r < t.rows.length) →
      refsOf (jsonRows P H nestedW t refs l) = foldOut (visitCell H rec t) refs (l.flatMap fun r => (List.range t.colNames.length).map fun c => (r, c))
  | [], _, _ => rfl
  | r :: l, refs, hl => by
    have h1 := jsonCells_visit (P := P) (H := H) hrec hw (hl r (by simp)) ((List.range t.colNames.length).zip t.colNames) refs
      fun p hp => List.mem_range.1 (List.of_mem_zip hp).1
    have e : ((List.range t.colNames.length).zip t.colNames).map (fun p => (r, p.1)) = (List.range t.colNames.length).map fun c => (r, c) := by
      rw [show (fun p : Nat × GoStr => (r, p.1)) = (fun c => (r, c)) ∘ Prod.fst from rfl, ← List.map_map, List.map_fst_zip (by simp)]
    rw [e] at h1
    rw [List.flatMap_cons, foldOut_append, ← h1, jsonRows]
    cases jsonCells P H nestedW t r refs ((List.range t.colNames.length).zip t.colNames) with
    | ok p =>
      have := jsonRows_visit hrec hw l p.2 fun x hx => hl x (by simp [hx])
      simp only [refsOf, Out.bind] at this ⊢
      rw [← this]
      cases jsonRows P H nestedW t p.2 l <;> rfl
    | err e => rfl
    | panic => rfl

theorem jsonTable_visit (hw : HeapWF H) (d : Nat) : ∀ (refs : List Addr) (a : Addr), refsOf (jsonTable P H d refs a) = visit H d refs a := by
  induction d with
  | zero => intro refs a; rfl
  | succ d ih =>
    intro refs a
    rw [jsonTable, visit]
    cases hH : H[a]? with
    | none => rfl
    | some t =>
      have := jsonRows_visit (P := P) (H := H) ih (hw t (List.mem_of_getElem? hH)) (List.range t.rows.length) (a :: refs) fun r hr => List.mem_range.1 hr
      simp only
      rw [posOf, ← this]
      simp only [refsOf]
      cases jsonRows P H (jsonTable P H d) t (a :: refs) (List.range t.rows.length) <;> rfl

/-! ## Trees -/

/-- The tables written with `a`. -/
def InTree (H : Heap) (a x : Addr) : Prop := Reached H a x ∧ ¬ IsNil H x

/-- The table in a cell, given by row and column. -/
def kidAt (t : Table Addr) (p : Nat × Nat) : Option Addr := nestedAt t p.2 p.1

theorem kid_pos {t : Table Addr} (hw : WF t) {c r : Nat} {b : Addr} (h : nestedAt t c r = some b) : (r, c) ∈ posOf t := by
  obtain ⟨row, h1, h2⟩ := nestedAt_some.1 h
  have hl := (List.getElem?_eq_some_iff.1 h1).1
  have hc := (List.getElem?_eq_some_iff.1 h2).1
  rw [(hw.rowsOK row (List.mem_of_getElem? h1)).1, hw.typesLen] at hc
  exact List.mem_flatMap.2 ⟨r, List.mem_range.2 hl, List.mem_map.2 ⟨c, List.mem_range.2 hc, rfl⟩⟩

theorem posOf_nodup (t : Table Addr) : (posOf t).Nodup := by
  unfold posOf
  rw [List.Nodup, List.pairwise_flatMap]
  constructor
  · intro r _
    exact List.Pairwise.map _ (fun a b h e => h (by simpa using e)) List.nodup_range
  · refine List.Pairwise.imp_of_mem ?_ List.nodup_range
    intro r r' _ _ hne x h1 y h2
    obtain ⟨c, _, rfl⟩ := List.mem_map.1 h1
    obtain ⟨c', _, rfl⟩ := List.mem_map.1 h2
    intro e
    simp only [Prod.mk.injEq] at e
    exact hne e.1

theorem pairwise_ne {α : Type} {R : α → α → Prop} (hs : ∀ x y, R x y → R y x) {l : List α} (h : l.Pairwise R) {x y : α} (hx : x ∈ l) (hy : y ∈ l) (hne : x ≠ y) : R x y := by
  induction h with
  | nil => cases hx
  | cons h1 _ ih =>
    rcases List.mem_cons.1 hx with e | hx <;> rcases List.mem_cons.1 hy with e' | hy
    · exact absurd (e.trans e'.symm) hne
    · exact e ▸ h1 _ hy
    · exact e' ▸ hs _ _ (h1 _ hx)
    · exact ih hx hy

theorem inTree_nil (hw : HeapWF H) {b x : Addr} (hb : IsNil H b) : ¬ InTree H b x := by
  rintro ⟨h1, h2⟩
  rcases h1 with rfl | h1
  · exact h2 hb
  · obtain ⟨c, r, y, ⟨t, h3, h4⟩, _⟩ := h1.first
    obtain ⟨t', h5, h6⟩ := hb
    rw [h3] at h5; cases h5
    have := ((hw t (List.mem_of_getElem? h3)).nilEmpty h6).2
    rw [nestedAt, this] at h4
    simp at h4

theorem isNil_iff {b : Addr} {n : Table Addr} (h : H[b]? = some n) : IsNil H b ↔ n.isNilTable = true := by
  constructor
  · rintro ⟨n', h1, h2⟩
    rw [h] at h1; cases h1
    exact h2
  · exact fun h' => ⟨n, h, h'⟩

/-- What a successful visit tells. -/
def VisitOK (H : Heap) (rec : List Addr → Addr → Out (List Addr)) : Prop := ∀ refs a refs', rec refs a = .ok refs' → a ∉ refs → ¬ IsNil H a →
  (∀ x, x ∈ refs' ↔ x ∈ refs ∨ InTree H a x) ∧ (∀ x, InTree H a x → x ∉ refs) ∧ OnceEach H a

/-- The trees of different cells have no table in common. -/
def Apart (H : Heap) (t : Table Addr) (p q : Nat × Nat) : Prop := ∀ b b', kidAt t p = some b → kidAt t q = some b' → ∀ x, InTree H b x → ¬ InTree H b' x

theorem Apart.symm {t : Table Addr} {p q : Nat × Nat} (h : Apart H t p q) : Apart H t q p := fun b b' h1 h2 x h3 h4 => h b' b h2 h1 x h4 h3

theorem cell_ok (hw : HeapWF H) {rec : List Addr → Addr → Out (List Addr)} (hrec : VisitOK H rec) {t : Table Addr} {p : Nat × Nat} {refs refs' : List Addr}
    (h : visitCell H rec t refs p = .ok refs') :
    (∀ x, x ∈ refs' ↔ x ∈ refs ∨ ∃ b, kidAt t p = some b ∧ InTree H b x) ∧
    (∀ b, kidAt t p = some b → (∀ x, InTree H b x → x ∉ refs) ∧ (¬ IsNil H b → OnceEach H b)) := by
  unfold visitCell at h
  cases hk : nestedAt t p.2 p.1 with
  | none =>
    rw [hk] at h
    simp only [Out.ok.injEq] at h
    subst h
    simp [kidAt, hk]
  | some b =>
    rw [hk] at h
    have hk' : kidAt t p = some b := hk
    simp only at h
    split at h
    · cases h
    next hb =>
    cases hH : H[b]? with
    | none => simp only [hH] at h; cases h
    | some n =>
      simp only [hH] at h
      by_cases hn : n.isNilTable = true
      · rw [if_pos hn] at h
        simp only [Out.ok.injEq] at h
        subst h
        have hnil := (isNil_iff hH).2 hn
        constructor
        · intro x
          constructor
          · exact .inl
          · rintro (hx | ⟨b', e, hx⟩)
            · exact hx
            · rw [hk'] at e; cases e
              exact absurd hx (inTree_nil hw hnil)
        · intro b' e
          rw [hk'] at e; cases e
          exact ⟨fun x hx => absurd hx (inTree_nil hw hnil), fun h => absurd hnil h⟩
      · rw [if_neg hn] at h
        obtain ⟨r1, r2, r3⟩ := hrec refs b refs' h hb (fun e => hn ((isNil_iff hH).1 e))
        constructor
        · intro x
          rw [r1]
          simp [hk']
        · intro b' e
          rw [hk'] at e; cases e
          exact ⟨r2, fun _ => r3⟩

theorem fold_ok (hw : HeapWF H) {rec : List Addr → Addr → Out (List Addr)} (hrec : VisitOK H rec) {t : Table Addr} :
    ∀ (l : List (Nat × Nat)) (refs refs' : List Addr), foldOut (visitCell H rec t) refs l = .ok refs' →
      (∀ x, x ∈ refs' ↔ x ∈ refs ∨ ∃ p ∈ l, ∃ b, kidAt t p = some b ∧ InTree H b x) ∧
      (∀ p ∈ l, ∀ b, kidAt t p = some b → (∀ x, InTree H b x → x ∉ refs) ∧ (¬ IsNil H b → OnceEach H b)) ∧ l.Pairwise (Apart H t)
  | [], refs, refs', h => by
    simp only [foldOut, Out.ok.injEq] at h
    subst h
    simp
  | p :: l, refs, refs', h => by
    rw [foldOut] at h
    cases h1 : visitCell H rec t refs p with
    | err e => rw [h1] at h; cases h
    | panic => rw [h1] at h; cases h
    | ok refs1 =>
      rw [h1] at h
      obtain ⟨a1, a2⟩ := cell_ok hw hrec h1
      obtain ⟨b1, b2, b3⟩ := fold_ok hw hrec l refs1 refs' h
      refine ⟨?_, ?_, List.Pairwise.cons ?_ b3⟩
      · intro x
        rw [b1, a1]
        simp only [List.mem_cons, exists_eq_or_imp, or_assoc]
      · intro q hq b hk
        rcases List.mem_cons.1 hq with rfl | hq
        · exact a2 b hk
        · exact ⟨fun x hx hr => (b2 q hq b hk).1 x hx ((a1 x).2 (.inl hr)), (b2 q hq b hk).2⟩
      · intro q hq b b' hb hb' x hx hx'
        exact (b2 q hq b' hb').1 x hx' ((a1 x).2 (.inr ⟨b, hb, hx⟩))

theorem holds_kid {a b : Addr} {t : Table Addr} {c r : Nat} (ha : H[a]? = some t) (h : HoldsAt H a c r b) : kidAt t (r, c) = some b := by
  obtain ⟨t', h1, h2⟩ := h
  rw [ha] at h1; cases h1
  exact h2

theorem visitOK (hw : HeapWF H) (d : Nat) : VisitOK H (visit H d) := by
  induction d with
  | zero => intro refs a refs' h; cases h
  | succ d ih =>
    intro refs a refs' h ha hnil
    rw [visit] at h
    cases hH : H[a]? with
    | none => simp only [hH] at h; cases h
    | some t =>
    simp only [hH] at h
    have hwt := hw t (List.mem_of_getElem? hH)
    obtain ⟨f1, f2, f3⟩ := fold_ok hw ih (posOf t) (a :: refs) refs' h
    have below : ∀ x, Below H a x → ∃ p ∈ posOf t, ∃ b, kidAt t p = some b ∧ Reached H b x := by
      intro x hx
      obtain ⟨c, r, b, h1, h2⟩ := hx.first
      have hk := holds_kid hH h1
      exact ⟨(r, c), kid_pos hwt hk, b, hk, h2⟩
    have notBelow : ¬ Below H a a := by
      intro hb
      obtain ⟨p, hp, b, hk, hr⟩ := below a hb
      exact (f2 p hp b hk).1 a ⟨hr, hnil⟩ (by simp)
    refine ⟨?_, ?_, notBelow, ?_⟩
    · intro x
      rw [f1]
      constructor
      · rintro (hx | ⟨p, hp, b, hk, hr, hn⟩)
        · rcases List.mem_cons.1 hx with rfl | hx
          · exact .inr ⟨.inl rfl, hnil⟩
          · exact .inl hx
        · exact .inr ⟨.inr (Reached.of_holds (c := p.2) (r := p.1) ⟨t, hH, hk⟩ hr), hn⟩
      · rintro (hx | ⟨rfl | hx, hn⟩)
        · exact .inl (by simp [hx])
        · exact .inl (by simp)
        · obtain ⟨p, hp, b, hk, hr⟩ := below x hx
          exact .inr ⟨p, hp, b, hk, hr, hn⟩
    · rintro x ⟨rfl | hx, hn⟩
      · exact ha
      · obtain ⟨p, hp, b, hk, hr⟩ := below x hx
        intro hx'
        exact (f2 p hp b hk).1 x ⟨hr, hn⟩ (by simp [hx'])
    · -- one holder
      have same : ∀ p ∈ posOf t, ∀ q ∈ posOf t, ∀ b b' x, kidAt t p = some b → kidAt t q = some b' → InTree H b x → InTree H b' x → p = q := by
        intro p hp q hq b b' x h1 h2 h3 h4
        by_cases e : p = q
        · exact e
        · exact absurd h4 (pairwise_ne (fun _ _ h => h.symm) f3 hp hq e b b' h1 h2 x h3)
      have one : ∀ c r x' c' r' b, (x' = a ∨ Below H a x') → HoldsAt H a c r b → HoldsAt H x' c' r' b → ¬ IsNil H b → a = x' ∧ c = c' ∧ r = r' := by
        intro c r x' c' r' b hx' h1 h2 hn
        have hk := holds_kid hH h1
        have hp := kid_pos hwt hk
        rcases hx' with rfl | hx'
        · have hk' := holds_kid hH h2
          have := same _ hp _ (kid_pos hwt hk') b b b hk hk' ⟨.inl rfl, hn⟩ ⟨.inl rfl, hn⟩
          simp only [Prod.mk.injEq] at this
          exact ⟨rfl, this.2, this.1⟩
        · obtain ⟨q, hq, b', hk', hr⟩ := below x' hx'
          have hin : InTree H b' b := ⟨.inr (by rcases hr with rfl | hr; exact .direct h2; exact .deeper hr h2), hn⟩
          have := same _ hp q hq b b' b hk hk' ⟨.inl rfl, hn⟩ hin
          subst this
          rw [hk] at hk'; cases hk'
          have hbb : Below H b b := by rcases hr with rfl | hr; exact .direct h2; exact .deeper hr h2
          exact absurd hbb ((f2 _ hp b hk).2 hn).notBelow
      intro x c r x' c' r' b hx hx' h1 h2 hn
      rcases hx with rfl | hx
      · exact one c r x' c' r' b hx' h1 h2 hn
      · rcases hx' with rfl | hx'
        · obtain ⟨e1, e2, e3⟩ := one c' r' x c r b (.inr hx) h2 h1 hn
          exact ⟨e1.symm, e2.symm, e3.symm⟩
        · obtain ⟨p, hp, k, hk, hr⟩ := below x hx
          obtain ⟨q, hq, k', hk', hr'⟩ := below x' hx'
          have i1 : InTree H k b := ⟨.inr (by rcases hr with rfl | hr; exact .direct h1; exact .deeper hr h1), hn⟩
          have i2 : InTree H k' b := ⟨.inr (by rcases hr' with rfl | hr'; exact .direct h2; exact .deeper hr' h2), hn⟩
          have := same p hp q hq k k' b hk hk' i1 i2
          subst this
          rw [hk] at hk'; cases hk'
          have hkn : ¬ IsNil H k := fun e => inTree_nil hw e i1
          exact ((f2 p hp k hk).2 hkn).once x c r x' c' r' b hr hr' h1 h2 hn

/-! ## Trees are written -/

theorem OnceEach.kid {a k : Addr} {c r : Nat} (h : OnceEach H a) (hk : HoldsAt H a c r k) (hn : ¬ IsNil H k) : OnceEach H k := by
  have up : ∀ y, Reached H k y → Reached H a y := fun y hy => .inr (Reached.of_holds hk hy)
  have noBack : ¬ Reached H k a := fun e => h.notBelow (Reached.of_holds hk e)
  constructor
  · intro hb
    cases hb with
    | direct h1 =>
      obtain ⟨e, _⟩ := h.once _ _ _ _ _ _ _ (.inl rfl) (up k (.inl rfl)) hk h1 hn
      exact noBack (.inl e)
    | deeper h0 h1 =>
      obtain ⟨e, _⟩ := h.once _ _ _ _ _ _ _ (.inl rfl) (up _ (.inr h0)) hk h1 hn
      exact noBack (.inr (e ▸ h0))
  · intro x c r x' c' r' b hx hx'
    exact h.once x c r x' c' r' b (up _ hx) (up _ hx')

theorem holds_notNil (hw : HeapWF H) {a b : Addr} {c r : Nat} (h : HoldsAt H a c r b) : ¬ IsNil H a := by
  rintro ⟨t, h1, h2⟩
  obtain ⟨t', h3, h4⟩ := h
  rw [h1] at h3; cases h3
  rw [nestedAt, ((hw t (List.mem_of_getElem? h1)).nilEmpty h2).2] at h4
  simp at h4

theorem OnceEach.apart (hw : HeapWF H) {a k k' : Addr} {c r c' r' : Nat} (h : OnceEach H a) (hk : HoldsAt H a c r k) (hk' : HoldsAt H a c' r' k') {x : Addr}
    (hx : Reached H k x) (hx' : Reached H k' x) (hn : ¬ IsNil H x) : c = c' ∧ r = r' := by
  have up : ∀ y, Reached H k y → Reached H a y := fun y hy => .inr (Reached.of_holds hk hy)
  have up' : ∀ y, Reached H k' y → Reached H a y := fun y hy => .inr (Reached.of_holds hk' hy)
  have noBack : ¬ Reached H k a := fun e => h.notBelow (Reached.of_holds hk e)
  have noBack' : ¬ Reached H k' a := fun e => h.notBelow (Reached.of_holds hk' e)
  have last : ∀ {k x : Addr}, Below H k x → ∃ y c r, Reached H k y ∧ HoldsAt H y c r x := by
    intro k x hb
    cases hb with
    | direct h1 => exact ⟨_, _, _, .inl rfl, h1⟩
    | deeper h0 h1 => exact ⟨_, _, _, .inr h0, h1⟩
  have step : ∀ {y : Addr} {c1 r1 : Nat} {x : Addr}, Reached H k y → HoldsAt H y c1 r1 x → Reached H k' x → ¬ IsNil H x → Reached H k' y := by
    intro y c1 r1 x hy h1 hx' hn
    rcases hx' with rfl | hx'
    · obtain ⟨e, _⟩ := h.once _ _ _ _ _ _ _ (.inl rfl) (up y hy) hk' h1 hn
      exact absurd (e ▸ hy) noBack
    · obtain ⟨y', c2, r2, hy', h2⟩ := last hx'
      obtain ⟨e, _⟩ := h.once _ _ _ _ _ _ _ (up y hy) (up' y' hy') h1 h2 hn
      exact e ▸ hy'
  have base : Reached H k' k → ¬ IsNil H k → c = c' ∧ r = r' := by
    intro hx' hn
    rcases hx' with e | hx'
    · subst e
      exact (h.once _ _ _ _ _ _ _ (.inl rfl) (.inl rfl) hk hk' hn).2
    · obtain ⟨y', c2, r2, hy', h2⟩ := last hx'
      obtain ⟨e, _⟩ := h.once _ _ _ _ _ _ _ (.inl rfl) (up' y' hy') hk h2 hn
      exact absurd (e ▸ hy') noBack'
  rcases hx with rfl | hx
  · exact base hx' hn
  · induction hx with
    | direct h1 => exact base (step (.inl rfl) h1 hx' hn) (holds_notNil hw h1)
    | deeper h0 h1 ih => exact ih (step (.inr h0) h1 hx' hn) (holds_notNil hw h1)

/-- What a visit that cannot fail needs. -/
def VisitNoErr (H : Heap) (rec : List Addr → Addr → Out (List Addr)) : Prop := ∀ refs a, (∃ t, H[a]? = some t) → (∀ x ∈ refs, ¬ IsNil H x) → (∀ x, InTree H a x → x ∉ refs) → OnceEach H a → ∀ e, rec refs a ≠ .err e

theorem cell_noErr (hw : HeapWF H) (hc : Closed H) {rec : List Addr → Addr → Out (List Addr)} (hrec : VisitNoErr H rec) {a : Addr} {t : Table Addr} (ha : H[a]? = some t) (ho : OnceEach H a)
    {p : Nat × Nat} {refs : List Addr} (hnil : ∀ x ∈ refs, ¬ IsNil H x) (hd : ∀ b, kidAt t p = some b → ∀ x, InTree H b x → x ∉ refs) (e : Err) : visitCell H rec t refs p ≠ .err e := by
  unfold visitCell
  cases hk : nestedAt t p.2 p.1 with
  | none => simp
  | some b =>
    have hh : HoldsAt H a p.2 p.1 b := ⟨t, ha, hk⟩
    have hlt := hc a b (hh.nestedIn hw)
    have hH := List.getElem?_eq_getElem hlt
    have hb : b ∉ refs := by
      intro hb
      exact hd b hk b ⟨.inl rfl, hnil b hb⟩ hb
    simp only [if_neg hb, hH]
    by_cases hn : H[b].isNilTable = true
    · rw [if_pos hn]; simp
    · rw [if_neg hn]
      have hn' : ¬ IsNil H b := fun e => hn ((isNil_iff hH).1 e)
      exact hrec refs b ⟨_, hH⟩ hnil (hd b hk) (ho.kid hh hn') e

theorem fold_noErr (hw : HeapWF H) (hc : Closed H) {rec : List Addr → Addr → Out (List Addr)} (hok : VisitOK H rec) (hrec : VisitNoErr H rec) {a : Addr} {t : Table Addr} (ha : H[a]? = some t) (ho : OnceEach H a) (e : Err) :
    ∀ (l : List (Nat × Nat)) (refs : List Addr), (∀ x ∈ refs, ¬ IsNil H x) → (∀ p ∈ l, ∀ b, kidAt t p = some b → ∀ x, InTree H b x → x ∉ refs) → l.Nodup →
      foldOut (visitCell H rec t) refs l ≠ .err e
  | [], refs, _, _, _ => by simp [foldOut]
  | p :: l, refs, hnil, hd, hnd => by
    rw [foldOut]
    cases h1 : visitCell H rec t refs p with
    | err e' => exact absurd h1 (cell_noErr hw hc hrec ha ho hnil (fun b hb => hd p (by simp) b hb) e')
    | panic => simp [Out.bind]
    | ok refs1 =>
      obtain ⟨a1, a2⟩ := cell_ok hw hok h1
      obtain ⟨n1, n2⟩ := List.nodup_cons.1 hnd
      refine fold_noErr hw hc hok hrec ha ho e l refs1 ?_ ?_ n2
      · intro x hx
        rcases (a1 x).1 hx with hx | ⟨b, _, hx⟩
        · exact hnil x hx
        · exact hx.2
      · intro q hq b hb x hx hx1
        rcases (a1 x).1 hx1 with hx1 | ⟨b', hb', hx1⟩
        · exact hd q (by simp [hq]) b hb x hx hx1
        · obtain ⟨e1, e2⟩ := ho.apart hw (c := p.2) (r := p.1) (c' := q.2) (r' := q.1) ⟨t, ha, hb'⟩ ⟨t, ha, hb⟩ hx1.1 hx.1 hx.2
          exact n1 ((Prod.ext e2 e1 : p = q) ▸ hq)

theorem visit_noErr (hw : HeapWF H) (hc : Closed H) (d : Nat) : VisitNoErr H (visit H d) := by
  induction d with
  | zero => intro refs a _ _ _ _ e; simp [visit]
  | succ d ih =>
    rintro refs a ⟨t, hH⟩ hnil hd ho e
    rw [visit]
    simp only [hH]
    by_cases hn : IsNil H a
    · have h0 := ((hw t (List.mem_of_getElem? hH)).nilEmpty ((isNil_iff hH).1 hn)).2
      simp [posOf, h0, foldOut]
    · refine fold_noErr hw hc (visitOK hw d) ih hH ho e _ _ ?_ ?_ (posOf_nodup t)
      · intro x hx
        rcases List.mem_cons.1 hx with rfl | hx
        · exact hn
        · exact hnil x hx
      · intro p hp b hk x hx hx'
        have hh : HoldsAt H a p.2 p.1 b := ⟨t, hH, hk⟩
        rcases List.mem_cons.1 hx' with rfl | hx'
        · exact ho.notBelow (Reached.of_holds hh hx.1)
        · exact hd x ⟨.inr (Reached.of_holds hh hx.1), hx.2⟩ hx'

/-! ## The writer ends -/

/-- The tables noted so far: each once, all in memory. -/
def Noted (H : Heap) (refs : List Addr) : Prop := refs.Nodup ∧ ∀ x ∈ refs, x < H.length

theorem Noted.length {refs : List Addr} (h : Noted H refs) : refs.length ≤ H.length := by
  have := nodup_subset_length (l2 := List.range H.length) h.1 (fun x hx => List.mem_range.2 (h.2 x hx))
  simpa using this

/-- A visit with enough depth: it does not run out of it, and its only error is the one for circular references. -/
def VisitEnds (H : Heap) (d : Nat) (rec : List Addr → Addr → Out (List Addr)) : Prop := ∀ refs a, Noted H refs → a ∉ refs → a < H.length → H.length ≤ d + refs.length →
  rec refs a ≠ .panic ∧ (∀ e, rec refs a = .err e → e = .circular) ∧ ∀ refs', rec refs a = .ok refs' → Noted H refs' ∧ refs.length ≤ refs'.length

theorem cell_ends (hw : HeapWF H) (hc : Closed H) {d : Nat} {rec : List Addr → Addr → Out (List Addr)} (hrec : VisitEnds H d rec) {a : Addr} {t : Table Addr} (ha : H[a]? = some t)
    (p : Nat × Nat) {refs : List Addr} (hn : Noted H refs) (hd : H.length ≤ d + refs.length) :
    visitCell H rec t refs p ≠ .panic ∧ (∀ e, visitCell H rec t refs p = .err e → e = .circular) ∧ ∀ refs', visitCell H rec t refs p = .ok refs' → Noted H refs' ∧ refs.length ≤ refs'.length := by
  unfold visitCell
  cases hk : nestedAt t p.2 p.1 with
  | none =>
    refine ⟨by simp, by simp, ?_⟩
    intro refs' h
    cases h
    exact ⟨hn, Nat.le_refl _⟩
  | some b =>
    have hh : HoldsAt H a p.2 p.1 b := ⟨t, ha, hk⟩
    have hlt := hc a b (hh.nestedIn hw)
    have hH := List.getElem?_eq_getElem hlt
    by_cases hb : b ∈ refs
    · simp only [if_pos hb]
      refine ⟨by simp, ?_, by simp⟩
      intro e h; cases h; rfl
    · simp only [if_neg hb, hH]
      by_cases hnil : H[b].isNilTable = true
      · simp only [if_pos hnil]
        refine ⟨by simp, by simp, ?_⟩
        intro refs' h
        cases h
        exact ⟨hn, Nat.le_refl _⟩
      · simp only [if_neg hnil]
        exact hrec refs b hn hb hlt hd

theorem fold_ends (hw : HeapWF H) (hc : Closed H) {d : Nat} {rec : List Addr → Addr → Out (List Addr)} (hrec : VisitEnds H d rec) {a : Addr} {t : Table Addr} (ha : H[a]? = some t) :
    ∀ (l : List (Nat × Nat)) (refs : List Addr), Noted H refs → H.length ≤ d + refs.length →
      foldOut (visitCell H rec t) refs l ≠ .panic ∧ (∀ e, foldOut (visitCell H rec t) refs l = .err e → e = .circular) ∧
        ∀ refs', foldOut (visitCell H rec t) refs l = .ok refs' → Noted H refs' ∧ refs.length ≤ refs'.length
  | [], refs, hn, _ => by
    refine ⟨by simp [foldOut], by simp [foldOut], ?_⟩
    intro refs' h
    cases h
    exact ⟨hn, Nat.le_refl _⟩
  | p :: l, refs, hn, hd => by
    rw [foldOut]
    obtain ⟨h1, h2, h3⟩ := cell_ends hw hc hrec ha p hn hd
    cases hv : visitCell H rec t refs p with
    | panic => exact absurd hv h1
    | err e =>
      refine ⟨by simp [Out.bind], ?_, by simp [Out.bind]⟩
      intro e' h
      cases h
      exact h2 e hv
    | ok refs1 =>
      obtain ⟨n1, n2⟩ := h3 refs1 hv
      obtain ⟨k1, k2, k3⟩ := fold_ends hw hc hrec ha l refs1 n1 (by omega)
      refine ⟨k1, k2, ?_⟩
      intro refs' h
      obtain ⟨m1, m2⟩ := k3 refs' h
      exact ⟨m1, by omega⟩

theorem visit_ends (hw : HeapWF H) (hc : Closed H) (d : Nat) : VisitEnds H d (visit H d) := by
  induction d with
  | zero =>
    intro refs a hn ha hlt hd
    have : Noted H (a :: refs) := by
      refine ⟨List.nodup_cons.2 ⟨ha, hn.1⟩, ?_⟩
      intro x hx
      rcases List.mem_cons.1 hx with rfl | hx
      · exact hlt
      · exact hn.2 x hx
    have := this.length
    simp only [List.length_cons] at this
    omega
  | succ d ih =>
    intro refs a hn ha hlt hd
    have hH := List.getElem?_eq_getElem hlt
    have hn' : Noted H (a :: refs) := by
      refine ⟨List.nodup_cons.2 ⟨ha, hn.1⟩, ?_⟩
      intro x hx
      rcases List.mem_cons.1 hx with rfl | hx
      · exact hlt
      · exact hn.2 x hx
    rw [visit]
    simp only [hH]
    obtain ⟨k1, k2, k3⟩ := fold_ends hw hc ih hH (posOf H[a]) (a :: refs) hn' (by simp only [List.length_cons]; omega)
    refine ⟨k1, k2, ?_⟩
    intro refs' h
    obtain ⟨m1, m2⟩ := k3 refs' h
    simp only [List.length_cons] at m2
    exact ⟨m1, by omega⟩

/-- With enough depth: written, if every nested table is in one cell only; refused otherwise. -/
theorem visit_top (hw : HeapWF H) (hc : Closed H) {d : Nat} {a : Addr} (hlt : a < H.length) (hd : H.length ≤ d) :
    (OnceEach H a → ∃ refs, visit H d [] a = .ok refs) ∧ (¬ OnceEach H a → visit H d [] a = .err .circular) := by
  obtain ⟨h1, h2, _⟩ := visit_ends hw hc d [] a ⟨List.nodup_nil, by simp⟩ (by simp) hlt (by simpa using hd)
  have hH := List.getElem?_eq_getElem hlt
  constructor
  · intro ho
    cases hv : visit H d [] a with
    | ok refs => exact ⟨refs, rfl⟩
    | panic => exact absurd hv h1
    | err e => exact absurd hv (visit_noErr hw hc d [] a ⟨_, hH⟩ (by simp) (by simp) ho e)
  · intro ho
    cases hv : visit H d [] a with
    | ok refs =>
      exfalso
      by_cases hn : IsNil H a
      · apply ho
        have : ∀ x, Reached H a x → x = a := by
          rintro x (rfl | hb)
          · rfl
          · obtain ⟨c, r, y, hh, _⟩ := hb.first
            exact absurd hn (holds_notNil hw hh)
        constructor
        · intro hb
          obtain ⟨c, r, y, hh, _⟩ := hb.first
          exact holds_notNil hw hh hn
        · intro x c r x' c' r' b hx _ h1 _ _
          rw [this x hx] at h1
          exact absurd hn (holds_notNil hw h1)
      · exact ho (visitOK hw d [] a refs hv (by simp) hn).2.2
    | panic => exact absurd hv h1
    | err e => rw [h2 e hv]

/-! ## The bound on the depth does not matter -/

/-- `o'` is `o`, unless that ran out of depth. -/
def Deeper {α : Type} (o o' : Out α) : Prop := o = .panic ∨ o' = o

theorem Deeper.same {α : Type} {o : Out α} : Deeper o o := .inr rfl

theorem Deeper.bind {α β : Type} {o o' : Out α} {f f' : α → Out β} (h : Deeper o o') (hf : ∀ x, Deeper (f x) (f' x)) : Deeper (o.bind f) (o'.bind f') := by
  rcases h with rfl | rfl
  · exact .inl rfl
  · cases o' with
    | ok x => exact hf x
    | err e => exact .inr rfl
    | panic => exact .inl rfl

theorem jsonCell_deeper {n n' : List Addr → Addr → Out (GoStr × List Addr)} (h : ∀ refs b, Deeper (n refs b) (n' refs b)) (refs : List Addr) (t : Table Addr) (r c : Nat) :
    Deeper (jsonCell P H n refs t r c) (jsonCell P H n' refs t r c) := by
  unfold jsonCell
  refine Deeper.same.bind fun val => ?_
  cases val with
  | tbl x =>
    refine Deeper.same.bind fun c => ?_
    split
    next b =>
      by_cases hb : b ∈ refs
      · simp only [if_pos hb]; exact Deeper.same
      · simp only [if_neg hb]
        cases H[b]? with
        | none => exact Deeper.same
        | some m =>
          simp only
          by_cases hm : m.isNilTable = true
          · simp only [if_pos hm]; exact Deeper.same
          · simp only [if_neg hm]
            exact (h refs b).bind fun _ => Deeper.same
    · exact Deeper.same
  | int k v => cases k <;> exact Deeper.same
  | _ => exact Deeper.same

theorem jsonCells_deeper {n n' : List Addr → Addr → Out (GoStr × List Addr)} (h : ∀ refs b, Deeper (n refs b) (n' refs b)) (t : Table Addr) (r : Nat) :
    ∀ (l : List (Nat × GoStr)) (refs : List Addr), Deeper (jsonCells P H n t r refs l) (jsonCells P H n' t r refs l)
  | [], _ => Deeper.same
  | (c, _) :: l, refs => (jsonCell_deeper h refs t r c).bind fun (_, refs1) => (jsonCells_deeper h t r l refs1).bind fun _ => Deeper.same

theorem jsonRows_deeper {n n' : List Addr → Addr → Out (GoStr × List Addr)} (h : ∀ refs b, Deeper (n refs b) (n' refs b)) (t : Table Addr) :
    ∀ (l : List Nat) (refs : List Addr), Deeper (jsonRows P H n t refs l) (jsonRows P H n' t refs l)
  | [], _ => Deeper.same
  | r :: l, refs => (jsonCells_deeper h t r _ refs).bind fun (_, refs1) => (jsonRows_deeper h t l refs1).bind fun _ => Deeper.same

theorem jsonTable_deeper : ∀ (d : Nat) (refs : List Addr) (a : Addr), Deeper (jsonTable P H d refs a) (jsonTable P H (d + 1) refs a)
  | 0, _, _ => .inl rfl
  | d + 1, refs, a => by
    rw [jsonTable, jsonTable]
    cases H[a]? with
    | none => exact Deeper.same
    | some t => exact (jsonRows_deeper (jsonTable_deeper d) t _ _).bind fun _ => Deeper.same

theorem jsonTable_depth {d : Nat} {refs : List Addr} {a : Addr} (h : jsonTable P H d refs a ≠ .panic) (k : Nat) : jsonTable P H (d + k) refs a = jsonTable P H d refs a := by
  induction k with
  | zero => rfl
  | succ k ih =>
    rcases jsonTable_deeper (P := P) (H := H) (d + k) refs a with e | e
    · exact absurd (ih.symm.trans e) h
    · rw [Nat.add_succ, e, ih]

theorem getTableAsJSON_eq (P : PrintEnv) (H : Heap) (d : Nat) (a : Addr) :
    getTableAsJSON P H d a = (jsonTable P H d [] a).bind fun p => .ok (gs! "{\"tableSetName\":\"\",\"tables\":[" ++ (123 :: p.1 ++ [125]) ++ gs! "]}") := by
  simp only [getTableAsJSON, newTableSet, TableSet.appendTable, TableSet.nameTaken, Bool.false_eq_true, if_false, List.nil_append, getTableSetAsJSON, jsonTables, jsonTablePrivate]
  cases jsonTable P H d [] a <;> rfl

theorem getTableAsJSON_top (hw : HeapWF H) (hc : Closed H) {d : Nat} {a : Addr} (hlt : a < H.length) (hd : H.length ≤ d) :
    (OnceEach H a → ∃ s, getTableAsJSON P H d a = .ok s) ∧ (¬ OnceEach H a → getTableAsJSON P H d a = .err .circular) := by
  obtain ⟨h1, h2⟩ := visit_top hw hc hlt hd
  rw [getTableAsJSON_eq]
  have hv := jsonTable_visit (P := P) hw d [] a
  constructor
  · intro ho
    obtain ⟨refs, e⟩ := h1 ho
    rw [e] at hv
    cases hj : jsonTable P H d [] a with
    | ok p => exact ⟨_, rfl⟩
    | err e => rw [hj] at hv; cases hv
    | panic => rw [hj] at hv; cases hv
  · intro ho
    rw [h2 ho] at hv
    cases hj : jsonTable P H d [] a with
    | ok p => rw [hj] at hv; cases hv
    | err e => rw [hj] at hv; cases hv; rfl
    | panic => rw [hj] at hv; cases hv

theorem getTableAsJSON_depth {d : Nat} {a : Addr} (h : getTableAsJSON P H d a ≠ .panic) (k : Nat) : getTableAsJSON P H (d + k) a = getTableAsJSON P H d a := by
  rw [getTableAsJSON_eq] at h
  rw [getTableAsJSON_eq, getTableAsJSON_eq, jsonTable_depth]
  intro e
  rw [e] at h
  exact h rfl

end Verif
