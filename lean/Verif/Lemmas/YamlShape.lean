import Verif.Lemmas.YamlTable
import Verif.Lemmas.JsonShape

/-!
# Lemmas: reading any YAML
-/

namespace Verif
open Table FloatFmt

variable {H : Heap}

/-! ## What is read is well-formed -/

/-- The reader of nested tables makes new tables of `m`. -/
def ReadsNew (nested : Heap → List (GoStr × GoVal) → Out (Heap × Addr)) (m : List (GoStr × GoVal)) : Prop :=
  ∀ K K' b, nested K m = .ok (K', b) → b = K.length ∧ K.length < K'.length ∧ Grown K K'

theorem wrap_has (k : IntKind) (v : Int) : k.Has (k.wrap v) := by
  have hpos : 0 < k.hi - k.lo + 1 := by cases k <;> decide
  have h1 := Int.emod_nonneg (v - k.lo) (Int.ne_of_gt hpos)
  have h2 := Int.emod_lt_of_pos (v - k.lo) hpos
  unfold IntKind.Has IntKind.wrap
  omega

theorem yamlInt_has {ty : ColType} {k : IntKind} (hk : ty.yamlInt? = some k) {v : Int} (h : k.Has v) : (Cell.int k v : Cell Addr).HasType ty := by
  cases ty <;> simp only [ColType.yamlInt?, ColType.jsonInt?, Option.some.injEq, reduceCtorEq] at hk <;> subst hk <;>
    simpa [Cell.HasType, IntKind.Has, IntKind.lo, IntKind.hi] using h

theorem yamlIntCell_has {ty : ColType} {v : Int} {c : Cell Addr} (h : yamlIntCell ty v = .ok c) : c.HasType ty ∧ ∀ b, c ≠ .tbl b := by
  unfold yamlIntCell at h
  split at h
  · cases h; exact ⟨trivial, by simp⟩
  · cases h
  · split at h
    next k hk => cases h; exact ⟨yamlInt_has hk (wrap_has k v), by simp⟩
    · cases h

theorem rdy_set {K0 K : Heap} {types : List ColType} {n c r : Nat} (h : Rd K0 K types n) {vt : ColType} {v : Cell Addr} (hv : v.HasType vt) (hb : ∀ b, v ≠ .tbl b) :
    ∀ K', setTypedAt K K0.length vt c r v = .ok K' → Rd K0 K' types n := by
  intro K' hK
  by_cases hc : c < types.length
  · exact (rd_set h hv hc (fun b e => absurd e (hb _))).2 K' hK
  · obtain ⟨t, h1, h2, h3, h4, h5, h6⟩ := h.get
    simp only [setTypedAt, h1] at hK
    rcases setTypedByColIndex_cases h5 vt c r v hv with ⟨ci, ri, ty, q1, _, q3, _⟩ | ⟨_, _, e, q⟩ | ⟨_, _, q⟩
    · rw [h3] at q3
      have := (List.getElem?_eq_some_iff.1 q3).1
      omega
    · rw [q] at hK; cases hK
    · rw [q] at hK; cases hK

theorem rdy_table {K0 K K1 : Heap} {types : List ColType} {n c r : Nat} (h : Rd K0 K types n) (hc : c < types.length) (hl : K.length < K1.length) (hg : Grown K K1) :
    Rd K0 K1 types n ∧ (setTableByColIndexAt K1 K0.length c r K.length).2 ≠ .panic ∧
      ∀ K', setTableByColIndexAt K1 K0.length c r K.length = (K', .ok ()) → Rd K0 K' types n := by
  obtain ⟨t, h1, h2, h3, h4, h5, h6⟩ := h.get
  have hal := (List.getElem?_eq_some_iff.1 h1).1
  have hrd : Rd K0 K1 types n := ⟨h.grown.trans hg, t, by rw [hg.old _ hal]; exact h1, h2, h3, h4⟩
  exact ⟨hrd, rd_table hrd hal hl hc⟩

theorem rdy_bytes {K0 K : Heap} {types : List ColType} {n c r : Nat} (h : Rd K0 K types n) {ty : ColType} (hty : ty = .byteSlice ∨ ty = .uint8Slice) (v : GoVal) :
    ∀ K', (match v with
      | .val (.bytes b) => setTypedAt K K0.length ty c r (.bytes b)
      | .list l => (yamlBytes l).bind fun bs => setTypedAt K K0.length ty c r (.bytes (some bs))
      | _ => setTypedAt K K0.length ty c r (.bytes none)) = .ok K' → Rd K0 K' types n := by
  intro K' hK
  have hb : ∀ b, (Cell.bytes b : Cell Addr).HasType ty := by intro b; rcases hty with rfl | rfl <;> trivial
  split at hK
  · exact rdy_set h (hb _) (by simp) K' hK
  next l =>
    cases hr : yamlBytes l with
    | panic => rw [hr] at hK; cases hK
    | err e => rw [hr] at hK; cases hK
    | ok bs => rw [hr] at hK; exact rdy_set h (hb _) (by simp) K' hK
  · exact rdy_set h (hb _) (by simp) K' hK

theorem rdy_other {nested : Heap → List (GoStr × GoVal) → Out (Heap × Addr)} {K0 K : Heap} {types : List ColType} {n c r : Nat} (h : Rd K0 K types n) {ty : ColType}
    (hty : types[c]? = some ty) (v : GoVal) (hv : ∀ k x, v = .val (.int k x) → k.Has x) (hn : ∀ m, v = .map m → ReadsNew nested m) :
    ∀ K', readYamlOther nested K0.length r c K ty v = .ok K' → Rd K0 K' types n := by
  have hc := (List.getElem?_eq_some_iff.1 hty).1
  have hint : ∀ {k : IntKind} {x : Int} {ty : ColType}, ty.yamlInt? = some k → k.Has x → ∀ K', setTypedAt K K0.length ty c r (.int k x) = .ok K' → Rd K0 K' types n :=
    fun hk hx => rdy_set h (yamlInt_has hk hx) (by simp)
  intro K' hK
  unfold readYamlOther at hK
  split at hK
  · cases hK
  · split at hK
    next x => exact hint (k := .uint) rfl (hv .uint64 x rfl) K' hK
    · cases hK
  · split at hK
    next x => exact hint rfl (hv _ x rfl) K' hK
    · cases hK
  · split at hK
    next x => exact hint rfl (hv _ x rfl) K' hK
    · cases hK
  · split at hK
    next x => exact hint rfl (hv _ x rfl) K' hK
    · cases hK
  · split at hK
    next x => exact hint rfl (hv _ x rfl) K' hK
    · cases hK
  · split at hK
    next x => exact hint rfl (hv _ x rfl) K' hK
    · cases hK
  · split at hK
    next x => exact hint rfl (hv _ x rfl) K' hK
    · cases hK
  · split at hK
    next m =>
      cases hr : nested K m with
      | panic => rw [hr] at hK; cases hK
      | err e => rw [hr] at hK; cases hK
      | ok p =>
        obtain ⟨K1, b⟩ := p
        obtain ⟨rfl, m2, m3⟩ := hn m rfl K K1 b hr
        obtain ⟨-, -, s2⟩ := rdy_table (r := r) h hc m2 m3
        rw [hr] at hK
        simp only [Out.bind] at hK
        split at hK
        next K2 e => cases hK; exact s2 _ e
        · cases hK
        · cases hK
    · cases hK
  · exact rdy_bytes h (.inl rfl) v K' hK
  · exact rdy_bytes h (.inr rfl) v K' hK
  · cases hK

theorem rdy_cell {nested : Heap → List (GoStr × GoVal) → Out (Heap × Addr)} {K0 K : Heap} {types : List ColType} {n c r : Nat} (h : Rd K0 K types n) (v : GoVal)
    (hv : ∀ k x, v = .val (.int k x) → k.Has x) (hn : ∀ m, v = .map m → ReadsNew nested m) :
    ∀ K', readYamlCell nested K0.length r c K v = .ok K' → Rd K0 K' types n := by
  obtain ⟨t, h1, h2, h3, h4, h5, h6⟩ := h.get
  intro K' hK
  unfold readYamlCell at hK
  rw [h1] at hK
  simp only [h3] at hK
  split at hK
  next x => exact rdy_set h (by simpa [Cell.HasType, IntKind.Has, IntKind.lo, IntKind.hi] using hv _ x rfl) (by simp) K' hK
  next x =>
    split at hK
    · cases hK
    next ty hty =>
      cases hr : yamlIntCell ty x with
      | panic => rw [hr] at hK; cases hK
      | err e => rw [hr] at hK; cases hK
      | ok y =>
        rw [hr] at hK
        obtain ⟨q1, q2⟩ := yamlIntCell_has hr
        exact rdy_set h q1 q2 K' hK
  · exact rdy_set h (by trivial) (by simp) K' hK
  · split at hK
    · cases hK
    · exact rdy_set h (by trivial) (by simp) K' hK
    · exact rdy_set h (by trivial) (by simp) K' hK
    · cases hK
  next x => exact rdy_set h (by simpa [Cell.HasType, IntKind.Has, IntKind.lo, IntKind.hi] using hv _ x rfl) (by simp) K' hK
  next x => exact rdy_set h (by simpa [Cell.HasType, IntKind.Has, IntKind.lo, IntKind.hi] using hv _ x rfl) (by simp) K' hK
  · exact rdy_set h (by trivial) (by simp) K' hK
  · exact rdy_set h (by trivial) (by simp) K' hK
  · exact rdy_set h (by trivial) (by simp) K' hK
  · split at hK <;> cases hK
  · split at hK
    · cases hK
    next ty hty => exact rdy_other h hty v hv hn K' hK

/-! ## Rows, columns, tables -/

theorem rdy_row {nested : Heap → List (GoStr × GoVal) → Out (Heap × Addr)} {K0 K : Heap} {types : List ColType} {n r : Nat} (h : Rd K0 K types n) (cells : List GoVal)
    (hcells : ∀ v ∈ cells, (∀ k x, v = .val (.int k x) → k.Has x) ∧ ∀ m, v = .map m → ReadsNew nested m) :
    ∀ K', readYamlRow nested K0.length r K cells = .ok K' → Rd K0 K' types n := by
  unfold readYamlRow
  have : ∀ (l : List (Nat × GoVal)), (∀ p ∈ l, p.2 ∈ cells) → ∀ K, Rd K0 K types n → ∀ K', foldOut (fun H (p : Nat × GoVal) => readYamlCell nested K0.length r p.1 H p.2) K l = .ok K' → Rd K0 K' types n := by
    intro l
    induction l with
    | nil => intro _ K h K' e; cases e; exact h
    | cons p l ih =>
      intro hl K h K' e
      rw [foldOut] at e
      cases hc : readYamlCell nested K0.length r p.1 K p.2 with
      | panic => rw [hc] at e; cases e
      | err _ => rw [hc] at e; cases e
      | ok K1 =>
        rw [hc] at e
        obtain ⟨c1, c2⟩ := hcells p.2 (hl p (by simp))
        exact ih (fun q hq => hl q (by simp [hq])) K1 (rdy_cell h p.2 c1 c2 K1 hc) K' e
  exact this _ (fun p hp => (List.of_mem_zip hp).2) K h

theorem rdy_rows {nested : Heap → List (GoStr × GoVal) → Out (Heap × Addr)} {K0 : Heap} {types : List ColType} : ∀ (data : List (List GoVal)) (K : Heap) (n : Nat), Rd K0 K types n →
    (∀ cells ∈ data, ∀ v ∈ cells, (∀ k x, v = .val (.int k x) → k.Has x) ∧ ∀ m, v = .map m → ReadsNew nested m) →
    ∀ K', foldOut (fun H (p : Nat × List GoVal) => (appendRowAt H K0.length).bind fun H1 => readYamlRow nested K0.length p.1 H1 p.2) K ((List.range' n data.length).zip data) = .ok K' →
      Rd K0 K' types (n + data.length)
  | [], K, n, h, _ => by
    intro K' e
    cases e
    exact h
  | cells :: data, K, n, h, hd => by
    obtain ⟨K1, a1, a2⟩ := rd_row h
    intro K' e
    simp only [List.length_cons, List.range'_succ, List.zip_cons_cons, foldOut, a1, Out.bind] at e
    cases hr : readYamlRow nested K0.length n K1 cells with
    | panic => rw [hr] at e; cases e
    | err _ => rw [hr] at e; cases e
    | ok K2 =>
      rw [hr] at e
      have := rdy_rows data K2 (n + 1) (rdy_row a2 cells (hd cells (by simp)) K2 hr) (fun c hc => hd c (by simp [hc])) K' e
      rw [Nat.add_assoc, Nat.add_comm 1] at this
      exact this

theorem rdy_cols {K0 : Heap} : ∀ (metadata : List GoVal) (K : Heap) (types : List ColType), Rd K0 K types 0 →
      ∀ K', readYamlCols K0.length K metadata = .ok K' → ∃ types', Rd K0 K' types' 0
  | [], K, types, h => by
    intro K' e
    cases e
    exact ⟨types, h⟩
  | v :: metadata, K, types, h => by
    intro K' e
    unfold readYamlCols at e
    rw [foldOut] at e
    cases v with
    | map m =>
      simp only at e
      split at e
      next name ty _ =>
        cases hc : appendColAt K K0.length name (trimQuote ty) with
        | panic => rw [hc] at e; cases e
        | err _ => rw [hc] at e; cases e
        | ok K1 =>
          rw [hc] at e
          obtain ⟨ty', -, hrd⟩ := (rd_col h name (trimQuote ty)).2 K1 hc
          exact rdy_cols metadata K1 _ hrd K' e
      · cases e
    | _ => cases e

theorem rd_start (K : Heap) {t0 : Table Addr} (hw : WF t0) (hnil : t0.isNilTable = false) (hty : t0.colTypes = []) (hr0 : t0.rows = []) : Rd K (K ++ [t0]) [] 0 := by
  refine ⟨⟨by simp, fun x hx => List.getElem?_append_left hx, ?_⟩, t0, by simp, hnil, hty, by simp [hr0]⟩
  intro x t hx ht
  rw [List.getElem?_append_right hx] at ht
  have := List.mem_singleton.1 (List.mem_of_getElem? ht)
  subst this
  refine ⟨hw, ?_⟩
  intro row hr
  rw [hr0] at hr
  cases hr

theorem Rd.fin {K K' : Heap} {types : List ColType} {n : Nat} (h : Rd K K' types n) : K.length < K'.length ∧ Grown K K' := by
  obtain ⟨t, ht, hn, _⟩ := h.table
  exact ⟨(List.getElem?_eq_some_iff.1 ht).1, h.grown⟩

theorem yamlRows_mem : ∀ {data : List GoVal} {rows : List (List GoVal)}, yamlRows data = some rows → ∀ cells ∈ rows, .list cells ∈ data
  | [], rows, h => by cases h; simp
  | v :: data, rows, h => by
    cases v with
    | list l =>
      rw [yamlRows] at h
      obtain ⟨rows', h1, rfl⟩ := Option.map_eq_some_iff.1 h
      intro cells hc
      rcases List.mem_cons.1 hc with rfl | hc
      · simp
      · exact List.mem_cons_of_mem _ (yamlRows_mem h1 cells hc)
    | _ => cases h

/-- The columns and rows of a new table. -/
theorem rdy_body {d : Nat} (K : Heap) (m : List (GoStr × GoVal)) (t0 : Table Addr) (hw : WF t0) (hnil : t0.isNilTable = false) (hty : t0.colTypes = []) (hr0 : t0.rows = [])
    (hcells : ∀ data, mapGet m (gs! "data") = some (.list data) → ∀ cells, .list cells ∈ data →
      ∀ v ∈ cells, (∀ k x, v = .val (.int k x) → k.Has x) ∧ ∀ m, v = .map m → ReadsNew (readYamlTable d) m) (K' : Heap) (b : Addr)
    (ho : (match mapGet m (gs! "metadata") with
        | some (.list metadata) =>
          (readYamlCols K.length (K ++ [t0]) metadata).bind fun H1 =>
            match mapGet m (gs! "data") with
            | some (.list data) =>
              match yamlRows data with
              | none => .panic
              | some rows => (readYamlRows (readYamlTable d) K.length H1 rows).bind fun H2 => .ok (H2, K.length)
            | _ => .ok (H1, K.length)
        | _ => .err .other) = .ok (K', b)) : b = K.length ∧ K.length < K'.length ∧ Grown K K' := by
  have hrd := rd_start K hw hnil hty hr0
  split at ho
  next metadata hm =>
    cases hc : readYamlCols K.length (K ++ [t0]) metadata with
    | panic => rw [hc] at ho; cases ho
    | err _ => rw [hc] at ho; cases ho
    | ok K1 =>
      rw [hc] at ho
      obtain ⟨types, h1⟩ := rdy_cols metadata (K ++ [t0]) [] hrd K1 hc
      simp only [Out.bind] at ho
      split at ho
      next data hd =>
        split at ho
        · cases ho
        next rows hrows =>
          cases hr : readYamlRows (readYamlTable d) K.length K1 rows with
          | panic => rw [hr] at ho; cases ho
          | err _ => rw [hr] at ho; cases ho
          | ok K2 =>
            rw [hr] at ho
            simp only [Out.ok.injEq, Prod.mk.injEq] at ho
            obtain ⟨rfl, rfl⟩ := ho
            rw [readYamlRows, List.range_eq_range'] at hr
            exact ⟨rfl, (rdy_rows rows K1 0 h1 (fun cells hcm => hcells data hd cells (yamlRows_mem hrows cells hcm)) K2 hr).fin⟩
      · simp only [Out.ok.injEq, Prod.mk.injEq] at ho
        obtain ⟨rfl, rfl⟩ := ho
        exact ⟨rfl, h1.fin⟩
  · cases ho

theorem grown_nil (K : Heap) : Grown K (K ++ [newNilTable]) := by
  refine ⟨by simp, fun x hx => List.getElem?_append_left hx, ?_⟩
  intro x t hx ht
  rw [List.getElem?_append_right hx] at ht
  have := List.mem_singleton.1 (List.mem_of_getElem? ht)
  subst this
  exact ⟨WF.newNilTable, fun row hr => by simp [newNilTable] at hr⟩

theorem rdy_step {d : Nat} {m : List (GoStr × GoVal)} (hcells : ∀ data, mapGet m (gs! "data") = some (.list data) → ∀ cells, .list cells ∈ data →
      ∀ v ∈ cells, (∀ k x, v = .val (.int k x) → k.Has x) ∧ ∀ m, v = .map m → ReadsNew (readYamlTable d) m) : ReadsNew (readYamlTable (d + 1)) m := by
  intro K K' b ho
  rw [readYamlTable] at ho
  split at ho
  next tableName _ =>
    split at ho
    · cases hv : isValidTableName tableName with
      | false => rw [newTable_err hv] at ho; cases ho
      | true =>
        have hw : WF ({ (newNilTable : Table Addr) with name := tableName, isNilTable := false } : Table Addr) := WF.newTable (τ := Addr) (newTable_eq hv)
        rw [newTable_eq hv] at ho
        have main : ∀ t0 : Table Addr, (∃ b, t0 = { (newNilTable : Table Addr) with name := tableName, isNilTable := false, isStructShape := b }) → _ → _ :=
          fun t0 ht0 => rdy_body K m t0 (by obtain ⟨b, rfl⟩ := ht0; exact hw.setShape b) (by obtain ⟨b, rfl⟩ := ht0; rfl) (by obtain ⟨b, rfl⟩ := ht0; rfl) (by obtain ⟨b, rfl⟩ := ht0; rfl) hcells K' b
        cases hs : mapGet m (gs! "isStructShape") with
        | none => rw [hs] at ho; exact main _ ⟨false, rfl⟩ ho
        | some v =>
          rw [hs] at ho
          cases v with
          | val c =>
            cases c with
            | bool b => exact main _ ⟨b, rfl⟩ ho
            | _ => exact main _ ⟨false, rfl⟩ ho
          | _ => exact main _ ⟨false, rfl⟩ ho
    · cases ho
      exact ⟨rfl, by simp, grown_nil K⟩
  · cases ho

/-! ## Any document -/

theorem realList_mem {v : GoVal} : ∀ {l : List GoVal}, RealList l → v ∈ l → v.Real
  | x :: l, h, hm => by
    rw [RealList] at h
    rcases List.mem_cons.1 hm with rfl | hm
    · exact h.1
    · exact realList_mem h.2 hm

theorem realMap_get {k : GoStr} {v : GoVal} : ∀ {m : List (GoStr × GoVal)}, RealMap m → mapGet m k = some v → v.Real
  | (k', x) :: m, h, hm => by
    rw [RealMap] at h
    rw [mapGet] at hm
    split at hm
    · cases hm; exact h.1
    · exact realMap_get h.2 hm

theorem readYamlTable_new : ∀ (d : Nat) (m : List (GoStr × GoVal)), RealMap m → ReadsNew (readYamlTable d) m
  | 0, m, _ => fun K K' b h => by cases h
  | d + 1, m, hm => rdy_step fun data hd cells hc v hv => by
    have h1 := realMap_get hm hd
    rw [GoVal.Real] at h1
    have h2 := realList_mem h1 hc
    rw [GoVal.Real] at h2
    have h3 := realList_mem h2 hv
    refine ⟨?_, ?_⟩
    · rintro k x rfl
      rw [GoVal.Real] at h3
      exact h3
    · rintro m' rfl
      rw [GoVal.Real] at h3
      exact readYamlTable_new d m' h3

/-- While a set is read. -/
structure YamlSet (K0 : Heap) (st : Heap × TableSet) : Prop where
  grown : Grown K0 st.1
  tables : ∀ a ∈ st.2.tables, K0.length ≤ a ∧ a < st.1.length
  names : (st.2.tables.map (nameAt st.1)).Nodup

theorem yamlSet_step {K0 K K1 : Heap} {s : TableSet} (h : YamlSet K0 (K, s)) (hl : K.length < K1.length) (hg : Grown K K1) :
    (s.appendTable K1 K.length).2 ≠ .panic ∧ ∀ s', s.appendTable K1 K.length = (s', .ok ()) → YamlSet K0 (K1, s') := by
  simp only [TableSet.appendTable]
  by_cases hn : TableSet.nameTaken K1 (nameAt K1 K.length) s.tables = true
  · rw [if_pos hn]; simp
  · rw [if_neg hn]
    refine ⟨by simp, ?_⟩
    intro s' e
    simp only [Prod.mk.injEq, and_true] at e
    subst e
    have hold : ∀ a ∈ s.tables, K1[a]? = K[a]? := fun a ha => hg.old a (h.tables a ha).2
    refine ⟨h.grown.trans hg, ?_, ?_⟩
    · intro a ha
      rcases List.mem_append.1 ha with ha | ha
      · exact ⟨(h.tables a ha).1, Nat.lt_trans (h.tables a ha).2 hl⟩
      · rw [List.mem_singleton.1 ha]
        exact ⟨h.grown.len, hl⟩
    · have e : s.tables.map (nameAt K1) = s.tables.map (nameAt K) := List.map_congr_left fun a ha => by simp only [nameAt, hold a ha]
      have hn' := fun h => hn (nameTaken_iff.2 h)
      simp only [List.map_append, List.map_cons, List.map_nil]
      rw [e] at hn' ⊢
      refine List.nodup_append.2 ⟨h.names, by simp, ?_⟩
      intro x hx y hy hxy
      rw [List.mem_singleton.1 hy] at hxy
      exact hn' (hxy ▸ hx)

theorem rdy_tables {d : Nat} {K0 : Heap} : ∀ (tables : List GoVal) (st : Heap × TableSet), YamlSet K0 st → (∀ m, .map m ∈ tables → ReadsNew (readYamlTable d) m) →
    ∀ st', readYamlTables d st tables = .ok st' → YamlSet K0 st'
  | [], st, h, _ => by intro st' e; cases e; exact h
  | v :: tables, (K, s), h, hn => by
    intro st' e
    unfold readYamlTables at e
    rw [foldOut] at e
    cases v with
    | map m =>
      simp only at e
      cases hr : readYamlTable d K m with
      | panic => rw [hr] at e; cases e
      | err _ => rw [hr] at e; cases e
      | ok p =>
        obtain ⟨K1, b⟩ := p
        obtain ⟨rfl, m2, m3⟩ := hn m (by simp) K K1 b hr
        rw [hr] at e
        simp only [Out.bind] at e
        have hs := (yamlSet_step h m2 m3).2
        cases ha : s.appendTable K1 K.length with
        | mk s' o =>
          rw [ha] at e hs
          cases o with
          | ok u => exact rdy_tables tables (K1, s') (hs s' rfl) (fun m hm => hn m (by simp [hm])) st' e
          | err _ => cases e
          | panic => cases e
    | _ => cases e

theorem readYamlSet_new {K : Heap} {m : List (GoStr × GoVal)} (hm : RealMap m) {K' : Heap} {S : TableSet} (h : readYamlSet K m = .ok (K', S)) : YamlSet K (K', S) := by
  unfold readYamlSet at h
  split at h
  next name _ =>
    split at h
    next tables ht =>
      refine rdy_tables tables (K, newTableSet name) ⟨Grown.refl K, by simp [newTableSet], by simp [newTableSet]⟩ ?_ _ h
      intro o ho
      have h1 := realMap_get hm ht
      rw [GoVal.Real] at h1
      have h2 := realList_mem h1 ho
      rw [GoVal.Real] at h2
      exact readYamlTable_new _ o h2
    · cases h
  · cases h

end Verif
