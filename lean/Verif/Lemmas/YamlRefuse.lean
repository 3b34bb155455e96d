import Verif.Lemmas.YamlShape

/-!
# Lemmas: YAML texts that are refused
-/

namespace Verif
open Table FloatFmt

variable {H : Heap}

theorem foldOut_refuse {σ α : Type} {f : σ → α → Out σ} {I : σ → Prop} {B : α → Prop} : ∀ (l : List α),
    (∀ s x, x ∈ l → I s → f s x ≠ .panic ∧ (∀ s', f s x = .ok s' → I s') ∧ (B x → ∀ s', f s x ≠ .ok s')) → ∀ s, I s →
    foldOut f s l ≠ .panic ∧ (∀ s', foldOut f s l = .ok s' → I s') ∧ ((∃ x ∈ l, B x) → ∀ s', foldOut f s l ≠ .ok s')
  | [], _, s, h => ⟨by simp [foldOut], fun s' e => by cases e; exact h, by rintro ⟨x, hx, _⟩; cases hx⟩
  | x :: l, hstep, s, h => by
    obtain ⟨h1, h2, h3⟩ := hstep s x (by simp) h
    rw [foldOut]
    cases hf : f s x with
    | panic => exact absurd hf h1
    | err e => simp [Out.bind]
    | ok s1 =>
      obtain ⟨k1, k2, k3⟩ := foldOut_refuse l (fun s y hy => hstep s y (by simp [hy])) s1 (h2 s1 hf)
      refine ⟨k1, k2, ?_⟩
      rintro ⟨y, hy, hb⟩
      rcases List.mem_cons.1 hy with rfl | hy
      · exact absurd hf (h3 hb s1)
      · exact k3 ⟨y, hy, hb⟩

theorem fmtInt_ascii {v : Int} {c : UInt8} (h : c ∈ fmtInt v) : c = 45 ∨ isDec c = true := by
  unfold fmtInt at h
  split at h
  · rcases List.mem_cons.1 h with h | h
    · exact .inl h
    · exact .inr (fmtNat_visible _ _ h)
  · exact .inr (fmtNat_visible _ _ h)

/-- A small whole number is read as an `int`. -/
theorem smallWhole_back {b : BitVec 64} (h : SmallWhole b) : ∃ v : Int, v.natAbs < 1000000 ∧ backCell (.f64 b) = .val (.int .int v) := by
  obtain ⟨v, h1, h2⟩ := h
  have key : ∃ x, goFloat.parse64 (goFloat.fmt64 b) = some x ∧ f64Trunc x = some v := by
    rcases h2 with h2 | ⟨h2, h3⟩
    · rw [h2]
      exact int_exact v v.natAbs 0 (by simp) (by omega) (by omega)
    · rw [h3, h2]
      exact ⟨0x8000000000000000#64, by decide +kernel, by decide +kernel⟩
  obtain ⟨x, k1, k2⟩ := key
  refine ⟨v, h1, ?_⟩
  simp only [backCell, k1, Option.getD_some, backFloat, k2]
  rw [if_pos ⟨h1, h2⟩]

/-! ## Cells -/

/-- Reading `v` where a column of type `ty` is, does not panic, and fails if `bad`. -/
structure CellTried (nested : Heap → List (GoStr × GoVal) → Out (Heap × Addr)) (bad : Prop) (v : GoVal) (ty : ColType) : Prop where
  ints : ∀ k x, v = .val (.int k x) → k.Has x
  tables : ∀ m, v = .map m → ReadsNew nested m
  noPanic : ∀ K0 K types n r j, Rd K0 K types n → types[j]? = some ty → readYamlCell nested K0.length r j K v ≠ .panic
  refused : bad → ∀ K0 K types n r j, Rd K0 K types n → types[j]? = some ty → ∀ K', readYamlCell nested K0.length r j K v ≠ .ok K'

theorem tried_plain {nested : Heap → List (GoStr × GoVal) → Out (Heap × Addr)} {v : GoVal} {ty vt : ColType} {c : Cell Addr}
    (hread : ∀ (K : Heap) (a' : Addr) (t' : Table Addr) (r j : Nat), K[a']? = some t' → t'.colTypes[j]? = some ty →
      readYamlCell nested a' r j K v = setTypedAt K a' vt j r c)
    (hc : c.HasType vt) (hn : ∀ b, c ≠ .tbl b) {bad : Prop} (hb : ¬ bad) (hints : ∀ k x, v = .val (.int k x) → k.Has x) (hmap : ∀ m, v ≠ .map m) : CellTried nested bad v ty where
  ints := hints
  tables := fun m e => absurd e (hmap m)
  noPanic := by
    intro K0 K types n r j h hty
    obtain ⟨t, h1, h2, h3, h4, h5, h6⟩ := h.get
    rw [hread K K0.length t r j h1 (by rw [h3]; exact hty)]
    exact (rd_set h hc (List.getElem?_eq_some_iff.1 hty).1 (fun b e => absurd e (hn _))).1
  refused := fun h => absurd h hb

/-- The values of a table, except for its nested tables. -/
theorem written_tried (nested : Heap → List (GoStr × GoVal) → Out (Heap × Addr)) {ty : ColType} {c : Cell Addr} (hty : c.HasType ty) (hn : ∀ b, c ≠ .tbl b) :
    CellTried nested (∃ x, c = .f64 x ∧ SmallWhole x) (backCell c) ty := by
  cases c with
  | nil => cases ty <;> simp [Cell.HasType] at hty
  | tbl b => exact absurd rfl (hn b)
  | str s =>
    refine tried_plain (vt := .string) (c := .str s) ?_ trivial (by simp) (by simp) (by simp [backCell]) (by simp [backCell])
    intro K a' t' r j hK _
    simp only [backCell, readYamlCell, hK]
  | bool b =>
    refine tried_plain (vt := .bool) (c := .bool b) ?_ trivial (by simp) (by simp) (by simp [backCell]) (by simp [backCell])
    intro K a' t' r j hK _
    simp only [backCell, readYamlCell, hK]
  | time v =>
    refine tried_plain (vt := .time) (c := .time v) ?_ trivial (by simp) (by simp) (by simp [backCell]) (by simp [backCell])
    intro K a' t' r j hK _
    simp only [backCell, readYamlCell, hK]
  | int k v =>
    obtain ⟨_, hlo, hhi, h4, h5⟩ := yamlInt_type hty
    have hh : k.Has v := ⟨hlo, hhi⟩
    refine tried_plain (vt := ty) (c := .int k v) ?_ hty (by simp) (by simp) ?_ (by simp [backCell])
    · intro K a' t' r j hK hcol
      by_cases hv : v ≤ 2 ^ 63 - 1
      · simp only [backCell, if_pos hv, readYamlCell, hK, hcol, h4, Out.bind]
      · rcases h5 (by omega) with ⟨rfl, rfl⟩ | ⟨rfl, rfl⟩
        · simp only [backCell, if_neg hv, readYamlCell, hK, hcol, readYamlOther]
        · simp only [backCell, if_neg hv, readYamlCell, hK, hcol, readYamlOther]
    · intro k' x e
      simp only [backCell] at e
      have hr : -9223372036854775808 ≤ v ∧ v ≤ 18446744073709551615 := by
        cases k <;> simp only [IntKind.Has, IntKind.lo, IntKind.hi] at hh <;> omega
      split at e
      · cases e; simp only [IntKind.Has, IntKind.lo, IntKind.hi]; omega
      · cases e; simp only [IntKind.Has, IntKind.lo, IntKind.hi]; omega
  | f32 b =>
    have ht : ty = .float32 := by cases ty <;> simp [Cell.HasType] at hty ⊢
    subst ht
    have hx : backCell (.f32 b) = .val (backFloat (goFloat.fmt32 b) (x32 b)) := rfl
    rw [hx]
    unfold backFloat
    cases f64Trunc (x32 b) with
    | none =>
      refine tried_plain (vt := .float32) (c := .f32 (f64To32 (x32 b))) ?_ trivial (by simp) (by simp) (by simp) (by simp)
      intro K a' t' r j hK hcol
      simp only [readYamlCell, hK, hcol]
    | some v =>
      dsimp only
      split
      · rename_i hw
        obtain ⟨c, hc1, hc2, hc3⟩ : ∃ c : Cell Addr, yamlIntCell .float32 v = .ok c ∧ c.HasType .float32 ∧ ∀ b, c ≠ .tbl b := ⟨.f32 _, rfl, trivial, by simp⟩
        refine tried_plain (vt := .float32) (c := c) ?_ hc2 hc3 (by simp) ?_ (by simp)
        · intro K a' t' r j hK hcol
          simp only [readYamlCell, hK, hcol, hc1, Out.bind]
        · intro k x e; cases e; simp only [IntKind.Has, IntKind.lo, IntKind.hi]; omega
      · refine tried_plain (vt := .float32) (c := .f32 (f64To32 (x32 b))) ?_ trivial (by simp) (by simp) (by simp) (by simp)
        intro K a' t' r j hK hcol
        simp only [readYamlCell, hK, hcol]
  | f64 b =>
    have ht : ty = .float64 := by cases ty <;> simp [Cell.HasType] at hty ⊢
    subst ht
    by_cases hsw : SmallWhole b
    · obtain ⟨v, h1, h2⟩ := smallWhole_back hsw
      rw [h2]
      have hread : ∀ K0 K types n r j, Rd K0 K types n → types[j]? = some .float64 → readYamlCell nested K0.length r j K (.val (.int .int v)) = .err .typeMismatch := by
        intro K0 K types n r j h hty
        obtain ⟨t, h1, h2, h3, h4, h5, h6⟩ := h.get
        simp only [readYamlCell, h1, h3, hty, yamlIntCell, ColType.yamlInt?, ColType.jsonInt?, Out.bind]
      refine ⟨?_, by simp, ?_, ?_⟩
      · intro k x e; cases e; simp only [IntKind.Has, IntKind.lo, IntKind.hi]; omega
      · intro K0 K types n r j h hty
        rw [hread K0 K types n r j h hty]; simp
      · intro _ K0 K types n r j h hty K'
        rw [hread K0 K types n r j h hty]; simp
    · have hbad : ¬ ∃ x, (Cell.f64 b : Cell Addr) = .f64 x ∧ SmallWhole x := by
        rintro ⟨x, e, hx⟩; cases e; exact hsw hx
      have hback : backCell (.f64 b) = .val (.f64 ((goFloat.parse64 (goFloat.fmt64 b)).getD b)) := by
        simp only [backCell, backFloat]
        cases f64Trunc ((goFloat.parse64 (goFloat.fmt64 b)).getD b) with
        | none => rfl
        | some v =>
          dsimp only
          rw [if_neg]
          rintro ⟨h1, h2⟩
          exact hsw ⟨v, h1, h2⟩
      rw [hback]
      refine tried_plain (vt := .float64) (c := .f64 ((goFloat.parse64 (goFloat.fmt64 b)).getD b)) ?_ trivial (by simp) hbad (by simp) (by simp)
      intro K a' t' r j hK hcol
      simp only [readYamlCell, hK, hcol]
  | bytes b =>
    have hb : ∀ (l : List UInt8), ∃ bs, yamlBytes (l.map fun x => .val (.int .int x.toNat)) = .ok bs := by
      intro l
      induction l with
      | nil => exact ⟨[], rfl⟩
      | cons x l ih =>
        obtain ⟨bs, hbs⟩ := ih
        exact ⟨UInt8.ofNat (IntKind.uint8.wrap x.toNat).toNat :: bs, by simp only [List.map_cons, yamlBytes, hbs, Out.bind]⟩
    have ht : ty = .byteSlice ∨ ty = .uint8Slice := by cases ty <;> simp [Cell.HasType] at hty ⊢
    obtain ⟨bs, hbs⟩ := hb (b.getD [])
    refine tried_plain (vt := ty) (c := .bytes (some bs)) ?_ ?_ (by simp) (by simp) (by simp [backCell]) (by simp [backCell])
    · intro K a' t' r j hK hcol
      rcases ht with rfl | rfl <;> simp only [backCell, readYamlCell, hK, hcol, readYamlOther, hbs, Out.bind]
    · rcases ht with rfl | rfl <;> trivial

/-- A nested table. -/
theorem nested_tried {nested : Heap → List (GoStr × GoVal) → Out (Heap × Addr)} {m : List (GoStr × GoVal)} {bad : Prop} (h1 : ReadsNew nested m)
    (h2 : ∀ K, nested K m ≠ .panic) (h3 : bad → ∀ K r, nested K m ≠ .ok r) : CellTried nested bad (.map m) .table where
  ints := by simp
  tables := by rintro m' e; cases e; exact h1
  noPanic := by
    intro K0 K types n r j h hty
    obtain ⟨t, t1, _, t3, _⟩ := h.get
    simp only [readYamlCell, t1, t3, hty, readYamlOther]
    cases hr : nested K m with
    | panic => exact absurd hr (h2 K)
    | err e => simp [Out.bind]
    | ok p =>
      obtain ⟨K1, b⟩ := p
      obtain ⟨rfl, m2, m3⟩ := h1 K K1 b hr
      obtain ⟨-, s1, -⟩ := rdy_table (r := r) h (List.getElem?_eq_some_iff.1 hty).1 m2 m3
      simp only [Out.bind]
      cases hset : setTableByColIndexAt K1 K0.length j r K.length with
      | mk K2 o =>
        rw [hset] at s1
        cases o with
        | ok u => simp
        | err e => simp
        | panic => exact absurd rfl s1
  refused := by
    intro hb K0 K types n r j h hty K'
    obtain ⟨t, t1, _, t3, _⟩ := h.get
    simp only [readYamlCell, t1, t3, hty, readYamlOther]
    cases hr : nested K m with
    | panic => simp [Out.bind]
    | err e => simp [Out.bind]
    | ok p => exact absurd hr (h3 hb K p)

/-! ## Rows -/

theorem tried_row {nested : Heap → List (GoStr × GoVal) → Out (Heap × Addr)} {bad : Cell Addr → Prop} {K0 K : Heap} {types : List ColType} {n r : Nat} (h : Rd K0 K types n)
    (vs : List GoVal) (row : List (Cell Addr)) (hlen : vs.length = row.length)
    (hvs : ∀ (i : Nat) v, vs[i]? = some v → ∃ ty c, types[i]? = some ty ∧ row[i]? = some c ∧ CellTried nested (bad c) v ty) :
    readYamlRow nested K0.length r K vs ≠ .panic ∧ (∀ K', readYamlRow nested K0.length r K vs = .ok K' → Rd K0 K' types n) ∧
      ((∃ c ∈ row, bad c) → ∀ K', readYamlRow nested K0.length r K vs ≠ .ok K') := by
  have hz : ∀ p : Nat × GoVal, p ∈ (List.range vs.length).zip vs → vs[p.1]? = some p.2 := by
    rintro ⟨i, v⟩ hp
    obtain ⟨j, hj⟩ := List.mem_iff_getElem?.1 hp
    obtain ⟨h1, h2⟩ := List.getElem?_zip_eq_some.1 hj
    obtain ⟨h3, h4⟩ := List.getElem?_eq_some_iff.1 h1
    rw [List.getElem_range] at h4
    simp only at h2 h4
    rw [← h4]
    exact h2
  obtain ⟨k1, k2, k3⟩ := foldOut_refuse (f := fun H (p : Nat × GoVal) => readYamlCell nested K0.length r p.1 H p.2) (I := fun K => Rd K0 K types n)
    (B := fun p => ∃ c, row[p.1]? = some c ∧ bad c) ((List.range vs.length).zip vs) (by
      rintro K ⟨i, v⟩ hp hK
      obtain ⟨ty, c, q1, q2, q3⟩ := hvs i v (hz _ hp)
      refine ⟨q3.noPanic K0 K types n r i hK q1, rdy_cell hK v q3.ints q3.tables, ?_⟩
      rintro ⟨c', e, hb⟩
      simp only at e
      rw [q2] at e
      cases e
      exact q3.refused hb K0 K types n r i hK q1) K h
  refine ⟨k1, k2, ?_⟩
  rintro ⟨c, hc, hb⟩
  obtain ⟨i, hi⟩ := List.mem_iff_getElem?.1 hc
  have hil : i < vs.length := by rw [hlen]; exact (List.getElem?_eq_some_iff.1 hi).1
  refine k3 ⟨(i, vs[i]), List.mem_of_getElem? (i := i) ?_, c, hi, hb⟩
  rw [List.getElem?_zip_eq_some]
  exact ⟨by rw [List.getElem?_range hil], List.getElem?_eq_getElem hil⟩

theorem tried_rows {nested : Heap → List (GoStr × GoVal) → Out (Heap × Addr)} {bad : Cell Addr → Prop} {K0 K : Heap} {types : List ColType} {n : Nat} (h : Rd K0 K types n)
    (data : List (List GoVal)) (rows : List (List (Cell Addr)))
    (hd : Pointwise (fun vs row => vs.length = row.length ∧ ∀ (i : Nat) v, vs[i]? = some v → ∃ ty c, types[i]? = some ty ∧ row[i]? = some c ∧ CellTried nested (bad c) v ty) data rows) :
    readYamlRows nested K0.length K data ≠ .panic ∧ (∀ K', readYamlRows nested K0.length K data = .ok K' → ∃ n, Rd K0 K' types n) ∧
      ((∃ row ∈ rows, ∃ c ∈ row, bad c) → ∀ K', readYamlRows nested K0.length K data ≠ .ok K') := by
  obtain ⟨k1, k2, k3⟩ := foldOut_refuse (f := fun H (p : Nat × List GoVal) => (appendRowAt H K0.length).bind fun H1 => readYamlRow nested K0.length p.1 H1 p.2)
    (I := fun K => ∃ n, Rd K0 K types n) (B := fun p => ∃ row : List (Cell Addr), (p.2.length = row.length ∧ ∀ (i : Nat) v, p.2[i]? = some v →
      ∃ ty c, types[i]? = some ty ∧ row[i]? = some c ∧ CellTried nested (bad c) v ty) ∧ ∃ c ∈ row, bad c) ((List.range data.length).zip data) (by
      rintro K ⟨i, vs⟩ hp ⟨n, hK⟩
      obtain ⟨K1, a1, a2⟩ := rd_row hK
      simp only [a1, Out.bind]
      obtain ⟨j, hj⟩ := List.mem_iff_getElem?.1 (List.of_mem_zip hp).2
      obtain ⟨row, _, hl, hrow⟩ := hd.get j vs hj
      obtain ⟨t1, t2, t3⟩ := tried_row (r := i) a2 vs row hl hrow
      refine ⟨t1, fun K' e => ⟨n + 1, t2 K' e⟩, ?_⟩
      rintro ⟨row', ⟨hl', hrow'⟩, hb⟩
      exact (tried_row (r := i) a2 vs row' hl' hrow').2.2 hb) K ⟨n, h⟩
  refine ⟨k1, k2, ?_⟩
  rintro ⟨row, hr, hb⟩
  obtain ⟨i, hi⟩ := List.mem_iff_getElem?.1 hr
  obtain ⟨vs, hvs, hrow⟩ := hd.back i row hi
  have hil : i < data.length := (List.getElem?_eq_some_iff.1 hvs).1
  refine k3 ⟨(i, vs), List.mem_of_getElem? (i := i) ?_, row, hrow, hb⟩
  rw [List.getElem?_zip_eq_some]
  exact ⟨by rw [List.getElem?_range hil], hvs⟩

/-! ## Tables -/

theorem rd_built (K : Heap) {t0 : Table Addr} (hw : WF t0) (hnil : t0.isNilTable = false) (hr0 : t0.rows = []) : Rd K (K ++ [t0]) t0.colTypes 0 := by
  refine ⟨⟨by simp, fun x hx => List.getElem?_append_left hx, ?_⟩, t0, by simp, hnil, rfl, by simp [hr0]⟩
  intro x t hx ht
  rw [List.getElem?_append_right hx] at ht
  have := List.mem_singleton.1 (List.mem_of_getElem? ht)
  subst this
  refine ⟨hw, ?_⟩
  intro row hr
  rw [hr0] at hr
  cases hr

/-- What was written for a table is read without panic, and refused if it has a small whole number. -/
theorem yaml_tried (hw : HeapWF H) : ∀ (d : Nat) (a : Addr) (m : List (GoStr × GoVal)), TableMap H d a m → ∀ D, depthMap (backMap m) < D →
    ReadsNew (readYamlTable D) (backMap m) ∧ (∀ K, readYamlTable D K (backMap m) ≠ .panic) ∧ (HasSmallWhole H a → ∀ K r, readYamlTable D K (backMap m) ≠ .ok r) := by
  intro d
  induction d with
  | zero => intro a m h; exact h.elim
  | succ d ih =>
    intro a m hm D hD
    obtain ⟨D, rfl⟩ : ∃ D', D = D' + 1 := ⟨D - 1, by omega⟩
    obtain ⟨t, ht, he⟩ := hm
    have htw := hw t (List.mem_of_getElem? ht)
    have g1 : mapGet (backMap m) (gs! "tableName") = some (.val (.str t.name)) := by rw [backMap_get, he.name, Option.map_some, back_val]; rfl
    have g3 : mapGet (backMap m) (gs! "metadata") = some (.list ((t.colNames.zip t.colTypes).map fun x => .map [(x.1, .val (.str (typeText x.2)))])) := by
      obtain ⟨cols, c1, c2⟩ := he.metadata
      rw [backMap_get, c1, Option.map_some, back_list, pointwise_eq_map c2, backList_eq, List.map_map]
      simp only [Function.comp_def, back_map, backMap, back_val, backCell]
    obtain ⟨rows, r1, r2⟩ := he.data
    obtain ⟨rowLists, rfl, r3⟩ := pointwise_lists r2
    have g4 : mapGet (backMap m) (gs! "data") = some (.list ((rowLists.map (fun l => l.map GoVal.back)).map .list)) := by
      rw [backMap_get, r1, Option.map_some, back_list, backList_eq, List.map_map, List.map_map]
      congr 2
      apply List.map_congr_left
      intro p _
      simp only [Function.comp, back_list, backList_eq]
    have hpw : Pointwise (fun vs row => vs.length = row.length ∧ ∀ (i : Nat) v, vs[i]? = some v → ∃ ty c, t.colTypes[i]? = some ty ∧ row[i]? = some c ∧
        CellTried (readYamlTable D) ((∃ x, c = .f64 x ∧ SmallWhole x) ∨ ∃ b, c = .tbl (some b) ∧ HasSmallWhole H b) v ty)
        (rowLists.map (fun l => l.map GoVal.back)) t.rows := by
      apply pointwise_of
      · rw [List.length_map]; exact r3.length.symm
      intro i vs row hi hr
      rw [List.getElem?_map] at hi
      obtain ⟨l, hl, hp⟩ := r3.get i row hr
      rw [hl, Option.map_some, Option.some.injEq] at hi
      subst hi
      have hrm := List.mem_of_getElem? hr
      have hro := htw.rowsOK _ hrm
      refine ⟨by rw [List.length_map, ← hp.length], ?_⟩
      intro k v hv
      rw [List.getElem?_map] at hv
      cases hk : l[k]? with
      | none => rw [hk] at hv; cases hv
      | some w =>
      rw [hk, Option.map_some, Option.some.injEq] at hv
      subst hv
      obtain ⟨c, hc, hcm⟩ := hp.back k w hk
      have hkt : k < t.colTypes.length := by rw [← hro.1]; exact (List.getElem?_eq_some_iff.1 hc).1
      have htt := List.getElem?_eq_getElem hkt
      have hht := hro.2 k _ c htt hc
      have hcr := List.mem_of_getElem? hc
      refine ⟨_, c, htt, hc, ?_⟩
      have hplain : (∀ b, c ≠ .tbl b) → CellTried (readYamlTable D) ((∃ x, c = .f64 x ∧ SmallWhole x) ∨ ∃ b, c = .tbl (some b) ∧ HasSmallWhole H b) w.back t.colTypes[k] := by
        intro hn
        have e : w = .val c := by
          cases c with
          | tbl b => exact absurd rfl (hn b)
          | _ => exact hcm
        rw [e, back_val]
        have q := written_tried (readYamlTable D) hht hn
        exact ⟨q.ints, q.tables, q.noPanic, fun hb => q.refused (hb.resolve_right (by rintro ⟨b, e, _⟩; exact hn _ e))⟩
      cases c with
      | tbl b =>
        cases b with
        | none => exfalso; revert hht; cases t.colTypes[k] <;> simp [Cell.HasType]
        | some b =>
          obtain ⟨m', rfl, hm'⟩ := hcm
          have htb : t.colTypes[k] = .table := by
            revert hht
            cases t.colTypes[k] <;> simp [Cell.HasType]
          rw [htb, back_map]
          have hdep : depthMap (backMap m') < D := by
            have d1 := depth_get g4
            have d2 := depth_list (v := .list (l.map GoVal.back)) (l := (rowLists.map (fun l => l.map GoVal.back)).map .list)
              (List.mem_map_of_mem (List.mem_map_of_mem (List.mem_of_getElem? hl)))
            have d3 := depth_list (v := (GoVal.map m').back) (l := l.map GoVal.back) (List.mem_map_of_mem (List.mem_of_getElem? hk))
            rw [GoVal.depth] at d1 d2
            rw [back_map, GoVal.depth] at d3
            omega
          obtain ⟨i1, i2, i3⟩ := ih b m' hm' D hdep
          refine nested_tried i1 i2 fun hb => i3 ?_
          rcases hb with ⟨x, e, _⟩ | ⟨b', e, hb⟩
          · cases e
          · cases e; exact hb
      | _ => exact hplain (by simp)
    have hbad : HasSmallWhole H a → ∃ row ∈ t.rows, ∃ c ∈ row, (∃ x, c = .f64 x ∧ SmallWhole x) ∨ ∃ b, c = .tbl (some b) ∧ HasSmallWhole H b := by
      rintro ⟨b, t', row, x, hb, ht', hr, hx, hsw⟩
      rcases hb with rfl | hb
      · rw [ht] at ht'; cases ht'
        exact ⟨row, hr, _, hx, .inl ⟨x, rfl, hsw⟩⟩
      · obtain ⟨c, r, b', hh, hb'⟩ := Below.first hb
        obtain ⟨t2, e2, hk⟩ := hh
        rw [ht] at e2; cases e2
        obtain ⟨row', h4, h5⟩ := nestedAt_some.1 hk
        exact ⟨row', List.mem_of_getElem? h4, _, List.mem_of_getElem? h5, .inr ⟨b', rfl, b, t', row, x, hb', ht', hr, hx, hsw⟩⟩
    have hnew : ReadsNew (readYamlTable (D + 1)) (backMap m) := by
      apply rdy_step
      intro data hd cells hcs v hv
      rw [g4] at hd
      cases hd
      obtain ⟨l, hl, e⟩ := List.mem_map.1 hcs
      cases e
      obtain ⟨i, hi⟩ := List.mem_iff_getElem?.1 hl
      obtain ⟨row, _, _, hrow⟩ := hpw.get i _ hi
      obtain ⟨k, hk⟩ := List.mem_iff_getElem?.1 hv
      obtain ⟨ty, c, _, _, q⟩ := hrow k v hk
      exact ⟨q.ints, q.tables⟩
    refine ⟨hnew, ?_⟩
    have main : ∀ K, readYamlTable (D + 1) K (backMap m) ≠ .panic ∧ (HasSmallWhole H a → ∀ r, readYamlTable (D + 1) K (backMap m) ≠ .ok r) := by
      intro K
      rw [readYamlTable]
      simp only [g1, g3, g4, yamlRows_map]
      split
      · cases hv : isValidTableName t.name with
        | false => rw [newTable_err hv]; simp
        | true =>
          rw [newTable_eq hv]
          have hzip1 : (t.colNames.zip t.colTypes).map Prod.fst = t.colNames := List.map_fst_zip (by rw [htw.typesLen]; exact Nat.le_refl _)
          have hzip2 : (t.colNames.zip t.colTypes).map Prod.snd = t.colTypes := List.map_snd_zip (by rw [htw.typesLen]; exact Nat.le_refl _)
          have hw0 : WF ({ (newNilTable : Table Addr) with name := t.name, isNilTable := false } : Table Addr) := WF.newTable (τ := Addr) (newTable_eq hv)
          have hbody : ∀ t0 : Table Addr, (∃ b, t0 = { (newNilTable : Table Addr) with name := t.name, isNilTable := false, isStructShape := b }) →
              ∀ o, o = ((readYamlCols K.length (K ++ [t0]) ((t.colNames.zip t.colTypes).map fun x => .map [(x.1, .val (.str (typeText x.2)))])).bind fun H1 =>
                (readYamlRows (readYamlTable D) K.length H1 (rowLists.map (fun l => l.map GoVal.back))).bind fun H2 => .ok (H2, K.length)) →
              o ≠ .panic ∧ (HasSmallWhole H a → ∀ r, o ≠ .ok r) := by
            rintro t0 ⟨bs, rfl⟩ o rfl
            obtain ⟨cm, c1, c2⟩ := yamlCols_ok K (t.colNames.zip t.colTypes) _ (hw0.setShape bs) rfl rfl
              (fun x hx => htw.namesValid _ (List.of_mem_zip hx).1) (fun x _ => by simp [newNilTable]) (by rw [hzip1]; exact htw.namesNodup)
            rw [hzip1, hzip2] at c1 c2
            rw [c1]
            simp only [Out.bind]
            have hrd := rd_built K c2 rfl rfl
            obtain ⟨k1, k2, k3⟩ := tried_rows (types := t.colTypes) hrd _ t.rows hpw
            revert k1 k2 k3
            generalize readYamlRows (readYamlTable D) K.length _ _ = o
            intro k1 k2 k3
            cases o with
            | panic => exact absurd rfl k1
            | err e => simp
            | ok K2 => exact ⟨by simp, fun hb => absurd rfl (k3 (hbad hb) K2)⟩
          cases hs : mapGet (backMap m) (gs! "isStructShape") with
          | none => exact hbody _ ⟨false, rfl⟩ _ rfl
          | some v =>
            cases v with
            | val c =>
              cases c with
              | bool b => exact hbody _ ⟨b, rfl⟩ _ rfl
              | _ => exact hbody _ ⟨false, rfl⟩ _ rfl
            | _ => exact hbody _ ⟨false, rfl⟩ _ rfl
      next hpos =>
        refine ⟨by simp, fun hb => ?_⟩
        exfalso
        obtain ⟨row, hr, _⟩ := hbad hb
        have hnil : t.isNilTable = false := by
          cases e : t.isNilTable with
          | false => rfl
          | true => rw [(htw.nilEmpty e).2] at hr; cases hr
        have hname := htw.nameValid hnil
        cases e : t.name with
        | nil => rw [e] at hname; exact absurd hname (by decide)
        | cons => rw [e] at hpos; simp at hpos
    exact ⟨fun K => (main K).1, fun hb K => (main K).2 hb⟩

/-! ## Sets of tables -/

theorem yaml_set_tried {d : Nat} {S : TableSet} {m : List (GoStr × GoVal)} (hw : HeapWF H) (hm : SetMap H d S m) (K : Heap) :
    readYamlSet K (backMap m) ≠ .panic ∧ ((∃ a ∈ S.tables, HasSmallWhole H a) → ∀ r, readYamlSet K (backMap m) ≠ .ok r) := by
  obtain ⟨vs, v1, v2⟩ := hm.tables
  have g1 : mapGet (backMap m) (gs! "tableSetName") = some (.val (.str S.name)) := by rw [backMap_get, hm.name, Option.map_some, back_val]; rfl
  have g2 : mapGet (backMap m) (gs! "tables") = some (.list (vs.map GoVal.back)) := by rw [backMap_get, v1, Option.map_some, back_list, backList_eq]
  rw [readYamlSet]
  simp only [g1, g2]
  have htab : ∀ v ∈ vs.map GoVal.back, ∃ a o, a ∈ S.tables ∧ TableMap H d a o ∧ v = .map (backMap o) ∧ depthMap (backMap o) < depthMap (backMap m) + 1 := by
    intro v hv
    obtain ⟨w, hwm, rfl⟩ := List.mem_map.1 hv
    obtain ⟨i, hi⟩ := List.mem_iff_getElem?.1 hwm
    obtain ⟨a, ha, o, rfl, ho⟩ := v2.back i w hi
    refine ⟨a, o, List.mem_of_getElem? ha, ho, back_map o, ?_⟩
    have d1 := depth_get g2
    have d2 := depth_list hv
    rw [GoVal.depth] at d1
    rw [back_map, GoVal.depth] at d2
    omega
  obtain ⟨k1, k2, k3⟩ := foldOut_refuse (f := fun (st : Heap × TableSet) v =>
      match v with
      | .map m' =>
        (readYamlTable (depthMap (backMap m) + 1) st.1 m').bind fun (H1, a) =>
          match st.2.appendTable H1 a with
          | (s', .ok ()) => .ok (H1, s')
          | (_, .err e) => .err e
          | (_, .panic) => .panic
      | _ => .panic) (I := YamlSet K) (B := fun v => ∃ a o, HasSmallWhole H a ∧ TableMap H d a o ∧ v = .map (backMap o)) (vs.map GoVal.back) (by
    rintro ⟨K1, s⟩ v hv hI
    obtain ⟨a, o, ha, ho, rfl, hdep⟩ := htab v hv
    obtain ⟨t1, t2, t3⟩ := yaml_tried hw d a o ho _ hdep
    simp only
    cases hr : readYamlTable (depthMap (backMap m) + 1) K1 (backMap o) with
    | panic => exact absurd hr (t2 K1)
    | err e => simp [Out.bind]
    | ok p =>
      obtain ⟨K2, b⟩ := p
      obtain ⟨rfl, m2, m3⟩ := t1 K1 K2 b hr
      obtain ⟨s1, s2⟩ := yamlSet_step hI m2 m3
      simp only [Out.bind]
      cases ha : s.appendTable K2 K1.length with
      | mk s' oo =>
        rw [ha] at s1 s2
        cases oo with
        | panic => exact absurd rfl s1
        | err e => simp
        | ok u =>
          refine ⟨by simp, ?_, ?_⟩
          · intro st' e
            cases e
            exact s2 s' rfl
          · rintro ⟨a', o', hb, ho', e⟩
            exfalso
            simp only [GoVal.map.injEq] at e
            rw [e] at hr hdep
            exact (yaml_tried hw d a' o' ho' _ hdep).2.2 hb K1 _ hr) (K, newTableSet S.name) ⟨Grown.refl K, by simp [newTableSet], by simp [newTableSet]⟩
  refine ⟨k1, ?_⟩
  rintro ⟨a, ha, hb⟩
  obtain ⟨i, hi⟩ := List.mem_iff_getElem?.1 ha
  obtain ⟨v, hv, o, rfl, ho⟩ := v2.get i a hi
  exact k3 ⟨_, List.mem_map_of_mem (List.mem_of_getElem? hv), a, o, hb, ho, back_map o⟩

end Verif
