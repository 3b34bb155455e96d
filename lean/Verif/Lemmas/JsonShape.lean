import Verif.Lemmas.JsonTable
import Verif.Lemmas.Parser

/-!
# Lemmas: reading any JSON
-/

namespace Verif
open Table

variable {E : JsonEnv}

/-! ## Memory while a table is read -/

/-- Tables in the cells of `t` have addresses above `lo` and below `hi`. -/
def CellsIn (lo hi : Nat) (t : Table Addr) : Prop := ∀ row ∈ t.rows, ∀ b, Cell.tbl (some b) ∈ row → lo < b ∧ b < hi

theorem CellsIn.mono {lo hi hi' : Nat} {t : Table Addr} (h : CellsIn lo hi t) (hh : hi ≤ hi') : CellsIn lo hi' t :=
  fun row hr b hb => ⟨(h row hr b hb).1, Nat.lt_of_lt_of_le (h row hr b hb).2 hh⟩

/-- Memory `K0` has grown to `K`. -/
structure Grown (K0 K : Heap) : Prop where
  len : K0.length ≤ K.length
  old : ∀ x, x < K0.length → K[x]? = K0[x]?
  new : ∀ x t, K0.length ≤ x → K[x]? = some t → WF t ∧ CellsIn x K.length t

theorem Grown.refl (K : Heap) : Grown K K := ⟨Nat.le_refl _, fun _ _ => rfl, fun x t hx ht => absurd (List.getElem?_eq_some_iff.1 ht).1 (Nat.not_lt.2 hx)⟩

theorem Grown.trans {K0 K K1 : Heap} (h : Grown K0 K) (h1 : Grown K K1) : Grown K0 K1 := by
  refine ⟨Nat.le_trans h.len h1.len, fun x hx => by rw [h1.old x (Nat.lt_of_lt_of_le hx h.len), h.old x hx], fun x t hx ht => ?_⟩
  by_cases hl : x < K.length
  · rw [h1.old x hl] at ht
    exact ⟨(h.new x t hx ht).1, (h.new x t hx ht).2.mono h1.len⟩
  · exact h1.new x t (Nat.le_of_not_lt hl) ht

theorem Grown.step {K0 K : Heap} (h : Grown K0 K) {a : Addr} {t t' : Table Addr} (ha : K0.length ≤ a) (hK : K[a]? = some t) (ext : List (Table Addr))
    (hw : WF t') (hc : CellsIn a (K.length + ext.length) t') (hext : ∀ e ∈ ext, WF e ∧ e.rows = []) : Grown K0 (K.set a t' ++ ext) := by
  have hal := (List.getElem?_eq_some_iff.1 hK).1
  refine ⟨by simp; exact Nat.le_trans h.len (Nat.le_add_right _ _), ?_, ?_⟩
  · intro x hx
    have hx1 := Nat.lt_of_lt_of_le hx h.len
    have hne : a ≠ x := fun e => absurd (e ▸ ha) (Nat.not_le.2 hx)
    rw [List.getElem?_append_left (by simpa using hx1), List.getElem?_set_ne hne, h.old x hx]
  · intro x y hx hy
    have hlen : (K.set a t' ++ ext).length = K.length + ext.length := by simp
    rw [hlen]
    by_cases hl : x < K.length
    · rw [List.getElem?_append_left (by simpa using hl)] at hy
      by_cases e : a = x
      · subst e
        rw [List.getElem?_set_self hal] at hy
        cases hy
        exact ⟨hw, hc⟩
      · rw [List.getElem?_set_ne e] at hy
        exact ⟨(h.new x y hx hy).1, (h.new x y hx hy).2.mono (Nat.le_add_right _ _)⟩
    · rw [List.getElem?_append_right (by simpa using Nat.le_of_not_lt hl)] at hy
      obtain ⟨h1, h2⟩ := hext y (List.mem_of_getElem? hy)
      refine ⟨h1, ?_⟩
      intro row hr
      rw [h2] at hr
      cases hr

/-- While the table at the end of `K0` is read, it has columns of these types and this number of rows. -/
structure Rd (K0 K : Heap) (types : List ColType) (n : Nat) : Prop where
  grown : Grown K0 K
  table : ∃ t, K[K0.length]? = some t ∧ t.isNilTable = false ∧ t.colTypes = types ∧ t.rows.length = n

theorem Rd.get {K0 K : Heap} {types : List ColType} {n : Nat} (h : Rd K0 K types n) :
    ∃ t, K[K0.length]? = some t ∧ t.isNilTable = false ∧ t.colTypes = types ∧ t.rows.length = n ∧ WF t ∧ CellsIn K0.length K.length t := by
  obtain ⟨t, h1, h2, h3, h4⟩ := h.table
  obtain ⟨h5, h6⟩ := h.grown.new _ t (Nat.le_refl _) h1
  exact ⟨t, h1, h2, h3, h4, h5, h6⟩

theorem Rd.put {K0 K : Heap} {types types' : List ColType} {n n' : Nat} (h : Rd K0 K types n) {t' : Table Addr} (ext : List (Table Addr))
    (hw : WF t') (hc : CellsIn K0.length (K.length + ext.length) t') (hext : ∀ e ∈ ext, WF e ∧ e.rows = []) (hnil : t'.isNilTable = false) (hty : t'.colTypes = types')
    (hn : t'.rows.length = n') : Rd K0 (K.set K0.length t' ++ ext) types' n' := by
  obtain ⟨t, h1, _⟩ := h.table
  have hal := (List.getElem?_eq_some_iff.1 h1).1
  refine ⟨h.grown.step (Nat.le_refl _) h1 ext hw hc hext, t', ?_, hnil, hty, hn⟩
  rw [List.getElem?_append_left (by simpa using hal), List.getElem?_set_self hal]

theorem nil_ok (n : Nat) (p : Option Addr) : ∀ e ∈ List.replicate n { (newNilTable : Table Addr) with parent := p }, WF e ∧ e.rows = [] := by
  intro e he
  rw [List.eq_of_mem_replicate he]
  exact ⟨WF.newNilTable.setParent p, rfl⟩

theorem rd_col {K0 K : Heap} {types : List ColType} (h : Rd K0 K types 0) (n tyName : GoStr) :
    appendColAt K K0.length n tyName ≠ .panic ∧ ∀ K', appendColAt K K0.length n tyName = .ok K' → ∃ ty, tyName = ty.name ∧ Rd K0 K' (types ++ [ty]) 0 := by
  obtain ⟨t, h1, h2, h3, h4, h5, h6⟩ := h.get
  have hr : t.rows = [] := List.length_eq_zero_iff.1 h4
  have hw' := h5.appendCol (fun _ r => K.length + r) n tyName
  simp only [appendColAt, h1]
  rcases appendCol_cases (fun _ r => K.length + r) h5 n tyName with ⟨ty, _, _, _, _, hty, e⟩ | ⟨_, er, e⟩
  · rw [e] at hw' ⊢
    simp only [ne_eq, reduceCtorEq, not_false_eq_true, Out.ok.injEq, true_and]
    intro K' hK'
    subst hK'
    refine ⟨ty, hty, ?_⟩
    have e0 : addZeroCol (fun _ r => K.length + r) t.colNames.length ty t.rows = [] := by rw [hr]; rfl
    refine h.put _ hw' ?_ (nil_ok t.rows.length none) h2 (by simp [h3]) (by simp [e0])
    intro row hrow
    simp only [e0] at hrow
    cases hrow
  · rw [e]
    simp

theorem rd_row {K0 K : Heap} {types : List ColType} {n : Nat} (h : Rd K0 K types n) : ∃ K', appendRowAt K K0.length = .ok K' ∧ Rd K0 K' types (n + 1) := by
  obtain ⟨t, h1, h2, h3, h4, h5, h6⟩ := h.get
  have hw' := h5.appendRow (fun c _ => K.length + c)
  have hal := (List.getElem?_eq_some_iff.1 h1).1
  rw [appendRow_eq _ h2 h5.typesLen] at hw'
  have e : appendRowAt K K0.length = .ok (K.set K0.length { t with rows := t.rows ++ [zeroRow (fun c _ => K.length + c) t.colTypes t.rows.length] } ++ List.replicate t.colTypes.length { (newNilTable : Table Addr) with parent := some K0.length }) := by
    simp only [appendRowAt, h1, appendRow_eq _ h2 h5.typesLen]
  refine ⟨_, e, ?_⟩
  refine h.put _ hw' ?_ (nil_ok t.colTypes.length (some K0.length)) h2 h3 (by simp [h4])
  intro row hr b hbm
  rcases List.mem_append.1 hr with hr | hr
  · exact ⟨(h6 row hr b hbm).1, Nat.lt_of_lt_of_le (h6 row hr b hbm).2 (Nat.le_add_right _ _)⟩
  · simp only [List.mem_singleton] at hr
    subst hr
    simp only [zeroRow, List.mem_mapIdx] at hbm
    obtain ⟨i, hi, hbm⟩ := hbm
    rw [zeroCell_tbl hbm, List.length_replicate]
    exact ⟨Nat.lt_of_lt_of_le hal (Nat.le_add_right _ _), Nat.add_lt_add_left hi _⟩

theorem putCell_in {lo hi : Nat} {t : Table Addr} (h : CellsIn lo hi t) {c r : Nat} {v : Cell Addr} (hv : ∀ b, v = .tbl (some b) → lo < b ∧ b < hi) :
    CellsIn lo hi (putCell t c r v) := by
  intro row hr b hb
  simp only [putCell] at hr
  obtain ⟨i, hi⟩ := List.mem_iff_getElem?.1 hr
  rw [List.getElem?_modify] at hi
  cases hx : t.rows[i]? with
  | none => simp [hx] at hi
  | some row0 =>
    have h0 := h row0 (List.mem_of_getElem? hx)
    simp only [hx, Option.map_eq_map, Option.map_some, Option.some.injEq] at hi
    split at hi
    · subst hi
      rcases List.mem_or_eq_of_mem_set hb with hb | hb
      · exact h0 b hb
      · exact hv b hb.symm
    · subst hi
      exact h0 b hb

theorem rd_set {K0 K : Heap} {types : List ColType} {n c r : Nat} (h : Rd K0 K types n) {vt : ColType} {v : Cell Addr} (hv : v.HasType vt) (hc : c < types.length)
    (hb : ∀ b, v = .tbl (some b) → K0.length < b ∧ b < K.length) :
    setTypedAt K K0.length vt c r v ≠ .panic ∧ ∀ K', setTypedAt K K0.length vt c r v = .ok K' → Rd K0 K' types n := by
  obtain ⟨t, h1, h2, h3, h4, h5, h6⟩ := h.get
  simp only [setTypedAt, h1]
  rcases setTypedByColIndex_cases h5 vt c r v hv with ⟨ci, ri, ty, _, _, q3, q4, q5, _, q7⟩ | ⟨_, _, e, q⟩ | ⟨_, q, _⟩
  · rw [q7]
    refine ⟨by simp, ?_⟩
    intro K' hK
    simp only [Out.ok.injEq] at hK
    subst hK
    have := h.put [] (t' := putCell t ci ri v) (h5.putCell q3 q5 q4) (putCell_in h6 hb) (by simp) h2 h3 (by rw [putCell_rows_length, h4])
    simpa using this
  · rw [q]
    simp
  · rw [h3] at q
    exact absurd ⟨by omega, by omega⟩ q

theorem rd_table {K0 K : Heap} {types : List ColType} {n c r : Nat} (h : Rd K0 K types n) {b : Addr} (hb : K0.length < b) (hl : b < K.length) (hc : c < types.length) :
    (setTableByColIndexAt K K0.length c r b).2 ≠ .panic ∧
      ∀ K', setTableByColIndexAt K K0.length c r b = (K', .ok ()) → Rd K0 K' types n := by
  obtain ⟨t, h1, h2, h3, h4, h5, h6⟩ := h.get
  have hH := List.getElem?_eq_getElem hl
  have hne : b ≠ K0.length := Nat.ne_of_gt hb
  have g1 : (K.set b { K[b] with parent := some K0.length })[K0.length]? = some t := by rw [List.getElem?_set_ne hne]; exact h1
  have hg : Rd K0 (K.set b { K[b] with parent := some K0.length }) types n := by
    obtain ⟨w1, w2⟩ := h.grown.new b _ (Nat.le_of_lt hb) hH
    have := h.grown.step (Nat.le_of_lt hb) hH [] (t' := { K[b] with parent := some K0.length }) (w1.setParent _) w2 (by simp)
    rw [List.append_nil] at this
    exact ⟨this, t, g1, h2, h3, h4⟩
  have hs := rd_set (vt := .table) (v := .tbl (some b)) (r := r) hg (by trivial) hc (fun b' e => by cases e; exact ⟨hb, by simpa using hl⟩)
  simp only [setTypedAt, g1] at hs
  simp only [setTableByColIndexAt, hH, h1, g1]
  revert hs
  cases t.setTypedByColIndex .table (c : Int) (r : Int) (.tbl (some b)) with
  | mk t2 o =>
    cases o with
    | ok u =>
      intro hs
      refine ⟨by simp, ?_⟩
      intro K' hK
      simp only [Prod.mk.injEq] at hK
      rw [← hK.1]
      exact hs.2 _ rfl
    | err e => intro hs; simp
    | panic => intro hs; exact absurd rfl hs.1

/-! ## Cells -/

/-- A reader of nested tables: it does not panic where `good`, and its tables are new ones. -/
def NestedOK (nested : Heap → List (GoStr × JVal) → Out (Heap × Addr)) (good : List (GoStr × JVal) → Prop) : Prop :=
  ∀ K m, (good m → nested K m ≠ .panic) ∧ ∀ K' b, nested K m = .ok (K', b) → b = K.length ∧ K.length < K'.length ∧ Grown K K' ∧ ∃ t, K'[K.length]? = some t ∧ t.isNilTable = false

theorem jsonBytes_noPanic : ∀ (l : List JVal), (∀ v ∈ l, ∃ text, v = .num text) → jsonBytes E l ≠ .panic
  | [], _ => by simp [jsonBytes]
  | v :: l, h => by
    obtain ⟨text, rfl⟩ := h v (by simp)
    rw [jsonBytes]
    cases E.text.float.parse64 text with
    | none => simp
    | some x =>
      simp only
      have := jsonBytes_noPanic l (fun v hv => h v (by simp [hv]))
      cases hb : jsonBytes E l with
      | panic => exact absurd hb this
      | ok bs => simp [Out.bind]
      | err e => simp [Out.bind]

theorem castInt_has (hE : CastOK E) (k : IntKind) (x : BitVec 64) : k.Has (castInt E k x) := by
  unfold castInt
  split
  · split
    next h => exact h
    · exact hE k x
  · exact hE k x

theorem jsonNumCell_has (hE : CastOK E) {ty : ColType} {x : BitVec 64} {c : Cell Addr} (h : jsonNumCell E ty x = some c) : c.HasType ty ∧ ∀ b, c ≠ .tbl b := by
  cases hk : ty.jsonInt? with
  | some k =>
    have e : jsonNumCell E ty x = some (.int k (castInt E k x)) := by
      cases ty <;> simp [ColType.jsonInt?] at hk <;> simp [jsonNumCell, ColType.jsonInt?, hk]
    rw [e] at h
    cases h
    exact ⟨jsonInt_has hk (castInt_has hE k x), by simp⟩
  | none =>
    cases ty <;> simp [ColType.jsonInt?] at hk <;> simp [jsonNumCell, ColType.jsonInt?] at h <;> subst h <;> exact ⟨trivial, by simp⟩

/-- What a cell must be like not to panic. -/
def CellShape (good : List (GoStr × JVal) → Prop) (ty : ColType) : JVal → Prop
  | .str s => ty = .rune → s ≠ []
  | .arr l => ∀ v ∈ l, ∃ text, v = .num text
  | .obj m => good m
  | _ => True

theorem rune_bound {s : GoStr} {r : Nat} (h : firstRune s = some r) : r ≤ 0x10FFFF := by
  cases s with
  | nil => cases h
  | cons c cs =>
    simp only [firstRune, Option.some.injEq] at h
    cases hd : decodeRune? (c :: cs) with
    | none => rw [hd] at h; simp only at h; omega
    | some p =>
      obtain ⟨r', w⟩ := p
      rw [hd] at h
      simp only at h
      subst h
      rcases (encode_decode hd).1 with h | h
      · omega
      · exact h.2

theorem set_self {α : Type} {l : List α} {a : Nat} {x : α} (h : l[a]? = some x) : l.set a x = l := by
  apply List.ext_getElem?
  intro i
  rw [List.getElem?_set]
  by_cases e : a = i
  · subst e
    rw [if_pos rfl, if_pos (List.getElem?_eq_some_iff.1 h).1, h]
  · rw [if_neg e]

theorem rd_cell (hE : CastOK E) {nested : Heap → List (GoStr × JVal) → Out (Heap × Addr)} {good : List (GoStr × JVal) → Prop} (hn : NestedOK nested good)
    {K0 K : Heap} {types : List ColType} {n c r : Nat} (h : Rd K0 K types n) (v : JVal) :
    ((∃ ty, types[c]? = some ty ∧ CellShape good ty v) → readJsonCell E nested K0.length r c K v ≠ .panic) ∧
      ∀ K', readJsonCell E nested K0.length r c K v = .ok K' → Rd K0 K' types n := by
  obtain ⟨t, h1, h2, h3, h4, h5, h6⟩ := h.get
  unfold readJsonCell
  simp only [h1, h3]
  cases hty : types[c]? with
  | none => simp
  | some ty =>
  have hc := (List.getElem?_eq_some_iff.1 hty).1
  simp only [Option.some.injEq, exists_eq_left']
  have plain : ∀ {vt : ColType} {x : Cell Addr}, x.HasType vt → (∀ b, x ≠ .tbl b) → (setTypedAt K K0.length vt c r x ≠ .panic ∧ ∀ K', setTypedAt K K0.length vt c r x = .ok K' → Rd K0 K' types n) :=
    fun hx hb => rd_set h hx hc (fun b e => absurd e (hb _))
  cases v with
  | str s =>
    by_cases e1 : ty = .rune
    · subst e1
      simp only
      cases hf : firstRune s with
      | none =>
        refine ⟨?_, by simp⟩
        intro hs
        cases s with
        | nil => exact absurd rfl (hs rfl)
        | cons _ _ => simp [firstRune] at hf
      | some x =>
        have := plain (vt := .rune) (x := .int .int32 x) (show -2147483648 ≤ (x : Int) ∧ (x : Int) ≤ 2147483647 by have := rune_bound hf; omega) (by simp)
        exact ⟨fun _ => this.1, this.2⟩
    · by_cases e2 : ty = .time
      · subst e2
        simp only
        cases E.text.parseTime s with
        | none => simp
        | some v =>
          have := plain (vt := .time) (x := .time v) (by trivial) (by simp)
          exact ⟨fun _ => this.1, this.2⟩
      · by_cases e3 : ty = .string
        · subst e3
          have := plain (vt := .string) (x := .str s) (by trivial) (by simp)
          exact ⟨fun _ => this.1, this.2⟩
        · cases ty <;> first | exact absurd rfl e1 | exact absurd rfl e2 | exact absurd rfl e3 | simp
  | num text =>
    simp only
    cases E.text.float.parse64 text with
    | none => simp
    | some x =>
      simp only
      cases hx : jsonNumCell E ty x with
      | none => simp
      | some y =>
        obtain ⟨q1, q2⟩ := jsonNumCell_has hE hx
        have := plain q1 q2
        exact ⟨fun _ => this.1, this.2⟩
  | bool b =>
    have := plain (vt := .bool) (x := .bool b) (by trivial) (by simp)
    exact ⟨fun _ => this.1, this.2⟩
  | arr l =>
    simp only
    cases hb : jsonBytes E l with
    | panic => exact ⟨fun hs => absurd hb (jsonBytes_noPanic l hs), by simp [Out.bind]⟩
    | err e => simp [Out.bind]
    | ok bs =>
      have := plain (vt := .byteSlice) (x := .bytes (some bs)) (by trivial) (by simp)
      exact ⟨fun _ => this.1, this.2⟩
  | obj m =>
    simp only
    by_cases e : ty = .table
    · rw [if_pos e]
      obtain ⟨n1, n2⟩ := hn K m
      cases hr : nested K m with
      | panic => exact ⟨fun hs => absurd hr (n1 hs), by simp [Out.bind]⟩
      | err e => simp [Out.bind]
      | ok p =>
        obtain ⟨K1, b⟩ := p
        obtain ⟨rfl, m2, m3, -⟩ := n2 K1 b hr
        have hal := (List.getElem?_eq_some_iff.1 h1).1
        have hrd : Rd K0 K1 types n := ⟨h.grown.trans m3, t, by rw [m3.old _ hal]; exact h1, h2, h3, h4⟩
        obtain ⟨s1, s2⟩ := rd_table (r := r) hrd hal m2 hc
        simp only [Out.bind]
        cases hset : setTableByColIndexAt K1 K0.length c r K.length with
        | mk K2 o =>
          rw [hset] at s1 s2
          cases o with
          | ok u =>
            simp only [ne_eq, reduceCtorEq, not_false_eq_true, implies_true, Out.ok.injEq, true_and]
            intro K' e
            exact s2 K' (by rw [e])
          | err e => simp
          | panic => exact absurd rfl s1
    · rw [if_neg e]
      simp
  | null =>
    simp only
    by_cases e : ty = .table
    · rw [if_pos e]
      have hal := (List.getElem?_eq_some_iff.1 h1).1
      have hrd : Rd K0 (K ++ [newNilTable]) types n := by
        have := h.put [newNilTable] (t' := t) h5 (h6.mono (Nat.le_add_right _ _)) (by intro e he; rw [List.mem_singleton.1 he]; exact ⟨WF.newNilTable, rfl⟩) h2 h3 h4
        rw [set_self h1] at this
        exact this
      obtain ⟨s1, s2⟩ := rd_table (r := r) hrd hal (by simp) hc
      cases hset : setTableByColIndexAt (K ++ [newNilTable]) K0.length c r K.length with
      | mk K2 o =>
        rw [hset] at s1 s2
        cases o with
        | ok u =>
          simp only [ne_eq, reduceCtorEq, not_false_eq_true, implies_true, Out.ok.injEq, true_and]
          intro K' e
          exact s2 K' (by rw [e])
        | err e => simp
        | panic => exact absurd rfl s1
    · rw [if_neg e]
      simp

/-! ## Rows, columns, tables -/

theorem foldOut_inv {σ α : Type} {f : σ → α → Out σ} {I : σ → Prop} {G : α → Prop} (hstep : ∀ s x, I s → (G x → f s x ≠ .panic) ∧ ∀ s', f s x = .ok s' → I s') :
    ∀ (l : List α) (s : σ), I s → ((∀ x ∈ l, G x) → foldOut f s l ≠ .panic) ∧ ∀ s', foldOut f s l = .ok s' → I s'
  | [], s, h => by
    refine ⟨fun _ => by simp [foldOut], ?_⟩
    intro s' e
    cases e
    exact h
  | x :: l, s, h => by
    obtain ⟨h1, h2⟩ := hstep s x h
    rw [foldOut]
    cases hf : f s x with
    | panic => exact ⟨fun hg => absurd hf (h1 (hg x (by simp))), by simp [Out.bind]⟩
    | err e => simp [Out.bind]
    | ok s1 =>
      obtain ⟨k1, k2⟩ := foldOut_inv hstep l s1 (h2 s1 hf)
      exact ⟨fun hg => k1 fun y hy => hg y (by simp [hy]), k2⟩

theorem entries_mem {p : GoStr × JVal} : ∀ {m : List (GoStr × JVal)}, p ∈ jsonEntries m → p ∈ m
  | (k, v) :: rest, h => by
    rw [jsonEntries] at h
    split at h
    · exact List.mem_cons_of_mem _ (entries_mem h)
    · rcases List.mem_cons.1 h with rfl | h
      · simp
      · exact List.mem_cons_of_mem _ (entries_mem h)

/-- What the cells of a row must be like not to panic. -/
def RowShape (good : List (GoStr × JVal) → Prop) (types : List ColType) (cells : List JVal) : Prop :=
  ∀ (i : Nat) v, cells[i]? = some v → ∃ o, v = .obj o ∧ ∀ p ∈ o, ∃ ty, types[i]? = some ty ∧ CellShape good ty p.2

theorem rd_cells (hE : CastOK E) {nested : Heap → List (GoStr × JVal) → Out (Heap × Addr)} {good : List (GoStr × JVal) → Prop} (hn : NestedOK nested good)
    {K0 K : Heap} {types : List ColType} {n r : Nat} (h : Rd K0 K types n) (cells : List JVal) :
    (RowShape good types cells → readJsonRow E nested K0.length r K cells ≠ .panic) ∧ ∀ K', readJsonRow E nested K0.length r K cells = .ok K' → Rd K0 K' types n := by
  unfold readJsonRow
  have := foldOut_inv (σ := Heap) (f := fun H (p : Nat × JVal) => match p.2 with
      | .obj m => foldOut (readJsonCell E nested K0.length r p.1) H ((jsonEntries m).map Prod.snd)
      | _ => .panic) (I := fun K => Rd K0 K types n) (G := fun p => ∃ o, p.2 = .obj o ∧ ∀ q ∈ o, ∃ ty, types[p.1]? = some ty ∧ CellShape good ty q.2)
    (by
      rintro K ⟨i, v⟩ hK
      cases v with
      | obj m =>
        obtain ⟨k1, k2⟩ := foldOut_inv (f := readJsonCell E nested K0.length r i) (I := fun K => Rd K0 K types n) (G := fun v => ∃ ty, types[i]? = some ty ∧ CellShape good ty v)
          (fun K v hK => rd_cell hE hn hK v) ((jsonEntries m).map Prod.snd) K hK
        refine ⟨?_, k2⟩
        rintro ⟨o, ho, hg⟩
        cases ho
        refine k1 fun v hv => ?_
        obtain ⟨p, hp, rfl⟩ := List.mem_map.1 hv
        exact hg p (entries_mem hp)
      | _ => exact ⟨by rintro ⟨o, ho, _⟩; simp at ho, by simp⟩)
    ((List.range cells.length).zip cells) K h
  refine ⟨fun hs => this.1 ?_, this.2⟩
  rintro ⟨i, v⟩ hp
  refine hs i v ?_
  obtain ⟨j, hj⟩ := List.mem_iff_getElem?.1 hp
  obtain ⟨h1, h2⟩ := List.getElem?_zip_eq_some.1 hj
  obtain ⟨h3, h4⟩ := List.getElem?_eq_some_iff.1 h1
  rw [List.getElem_range] at h4
  simp only at h2 h4
  rw [← h4]
  exact h2

theorem rd_rows (hE : CastOK E) {nested : Heap → List (GoStr × JVal) → Out (Heap × Addr)} {good : List (GoStr × JVal) → Prop} (hn : NestedOK nested good)
    {K0 : Heap} {types : List ColType} : ∀ (data : List JVal) (K : Heap) (n : Nat), Rd K0 K types n →
    ((∀ v ∈ data, ∃ cells, v = .arr cells ∧ RowShape good types cells) → foldOut (fun H (p : Nat × JVal) => (appendRowAt H K0.length).bind fun H1 => match p.2 with
          | .arr cells => readJsonRow E nested K0.length p.1 H1 cells
          | _ => .panic) K ((List.range' n data.length).zip data) ≠ .panic) ∧
      ∀ K', foldOut (fun H (p : Nat × JVal) => (appendRowAt H K0.length).bind fun H1 => match p.2 with
          | .arr cells => readJsonRow E nested K0.length p.1 H1 cells
          | _ => .panic) K ((List.range' n data.length).zip data) = .ok K' → Rd K0 K' types (n + data.length)
  | [], K, n, h => by
    refine ⟨fun _ => by simp [foldOut], ?_⟩
    intro K' e
    cases e
    exact h
  | v :: data, K, n, h => by
    obtain ⟨K1, a1, a2⟩ := rd_row h
    simp only [List.length_cons, List.range'_succ, List.zip_cons_cons, foldOut, a1, Out.bind]
    cases v with
    | arr cells =>
      obtain ⟨c1, c2⟩ := rd_cells hE hn (r := n) a2 cells
      simp only
      cases hr : readJsonRow E nested K0.length n K1 cells with
      | panic =>
        refine ⟨fun hs => ?_, by simp⟩
        obtain ⟨cells', e, hs⟩ := hs _ (List.mem_cons_self ..)
        cases e
        exact absurd hr (c1 hs)
      | err e => simp
      | ok K2 =>
        obtain ⟨r1, r2⟩ := rd_rows hE hn data K2 (n + 1) (c2 K2 hr)
        refine ⟨fun hs => r1 fun v hv => hs v (by simp [hv]), ?_⟩
        intro K' e
        have := r2 K' e
        rw [Nat.add_assoc, Nat.add_comm 1] at this
        exact this
    | _ =>
      refine ⟨fun hs => ?_, by simp⟩
      obtain ⟨cells', e, _⟩ := hs _ (List.mem_cons_self ..)
      cases e

/-- The column that an element of the metadata makes. -/
def MetaCol (v : JVal) (ty : ColType) : Prop := ∃ o n, v = .obj o ∧ (n, .str ty.name) ∈ o

theorem rd_cols {K0 : Heap} : ∀ (metadata done : List JVal) (K : Heap) (types : List ColType), Rd K0 K types 0 → Pointwise MetaCol done types →
    ((∀ v ∈ metadata, ∃ o, v = .obj o) → readJsonCols K0.length K metadata ≠ .panic) ∧
      ∀ K', readJsonCols K0.length K metadata = .ok K' → ∃ types', Rd K0 K' types' 0 ∧ Pointwise MetaCol (done ++ metadata) types'
  | [], done, K, types, h, hp => by
    refine ⟨fun _ => by simp [readJsonCols, foldOut], ?_⟩
    intro K' e
    cases e
    exact ⟨types, h, by rw [List.append_nil]; exact hp⟩
  | v :: metadata, done, K, types, h, hp => by
    unfold readJsonCols
    rw [foldOut]
    cases v with
    | obj m =>
      simp only
      cases hl : (jsonEntries m).getLast? with
      | none => simp [Out.bind]
      | some p =>
        obtain ⟨name, val⟩ := p
        cases val with
        | str ty =>
          simp only
          obtain ⟨c1, c2⟩ := rd_col h name ty
          cases hc : appendColAt K K0.length name ty with
          | panic => exact absurd hc c1
          | err e => simp [Out.bind]
          | ok K1 =>
            obtain ⟨ty', rfl, hrd⟩ := c2 K1 hc
            obtain ⟨r1, r2⟩ := rd_cols metadata (done ++ [.obj m]) K1 (types ++ [ty']) hrd (pointwise_snoc hp ⟨m, name, rfl, entries_mem (List.mem_of_getLast? hl)⟩)
            refine ⟨fun hs => r1 fun v hv => hs v (by simp [hv]), ?_⟩
            intro K' e
            obtain ⟨types', q1, q2⟩ := r2 K' e
            exact ⟨types', q1, by rw [List.append_assoc] at q2; exact q2⟩
        | _ => simp [Out.bind]
    | _ => exact ⟨fun hs => (by obtain ⟨o, ho⟩ := hs _ (List.mem_cons_self ..); cases ho), by simp [Out.bind]⟩

/-! ## Depth -/

mutual

/-- The greatest number of objects inside each other. -/
def JVal.depth : JVal → Nat
  | .arr l => depthElems l
  | .obj m => depthMembers m + 1
  | _ => 0

def depthElems : List JVal → Nat
  | [] => 0
  | v :: l => max v.depth (depthElems l)

def depthMembers : List (GoStr × JVal) → Nat
  | [] => 0
  | (_, v) :: m => max v.depth (depthMembers m)

end

theorem depth_elem {v : JVal} : ∀ {l : List JVal}, v ∈ l → v.depth ≤ depthElems l
  | w :: l, h => by
    rw [depthElems]
    rcases List.mem_cons.1 h with rfl | h
    · exact Nat.le_max_left _ _
    · exact Nat.le_trans (depth_elem h) (Nat.le_max_right _ _)

theorem depth_member {k : GoStr} {v : JVal} : ∀ {m : List (GoStr × JVal)}, (k, v) ∈ m → v.depth ≤ depthMembers m
  | (k', w) :: m, h => by
    rw [depthMembers]
    rcases List.mem_cons.1 h with h | h
    · cases h
      exact Nat.le_max_left _ _
    · exact Nat.le_trans (depth_member h) (Nat.le_max_right _ _)

theorem jsonGet_mem {k : GoStr} {v : JVal} : ∀ {m : List (GoStr × JVal)}, jsonGet m k = some v → (k, v) ∈ m
  | (k', w) :: m, h => by
    rw [jsonGet] at h
    cases hg : jsonGet m k with
    | some u =>
      rw [hg] at h
      cases h
      exact List.mem_cons_of_mem _ (jsonGet_mem hg)
    | none =>
      rw [hg] at h
      simp only at h
      split at h
      next e => cases h; rw [e]; simp
      · cases h

/-- What the reader of a table needs not to panic. -/
def GoodTable (d : Nat) (m : List (GoStr × JVal)) : Prop := (∀ m', TableWithin m m' → TableShape m') ∧ depthMembers m < d

theorem TableWithin.trans {m m' m'' : List (GoStr × JVal)} (h : TableWithin m m') (h' : TableWithin m' m'') : TableWithin m m'' := by
  induction h' with
  | self => exact h
  | nested _ h1 h2 h3 h4 ih => exact .nested ih h1 h2 h3 h4

theorem good_rows {d : Nat} {m : List (GoStr × JVal)} (hg : GoodTable (d + 1) m) {metadata data : List JVal} {types : List ColType}
    (hm : jsonGet m (gs! "metadata") = some (.arr metadata)) (hd : jsonGet m (gs! "data") = some (.arr data)) (hp : Pointwise MetaCol metadata types) :
    ∀ v ∈ data, ∃ cells, v = .arr cells ∧ RowShape (GoodTable d) types cells := by
  have hs := hg.1 m .self
  have hl := hp.length
  have hget := hp.back
  intro v hv
  obtain ⟨cells, rfl, hlen⟩ := hs.rows metadata data hm hd v hv
  refine ⟨cells, rfl, ?_⟩
  intro i w hw
  have hwm := List.mem_of_getElem? hw
  obtain ⟨o, rfl⟩ := hs.cells data cells hd hv w hwm
  refine ⟨o, rfl, ?_⟩
  rintro ⟨k, u⟩ hu
  have hi : i < types.length := by
    have := (List.getElem?_eq_some_iff.1 hw).1
    omega
  have hty := List.getElem?_eq_getElem hi
  refine ⟨types[i], hty, ?_⟩
  cases u with
  | str s =>
    intro e
    rintro rfl
    obtain ⟨a, ha, oo, n, rfl, hn⟩ := hget i _ hty
    rw [e] at hn
    exact hs.runes metadata data cells i oo n o k hm hd hv ha hn hw hu
  | arr l => exact hs.bytes data cells o k l hd hv hwm hu
  | obj m'' =>
    refine ⟨fun m' h' => hg.1 m' ((TableWithin.nested .self hd hv hwm hu).trans h'), ?_⟩
    have h1 := depth_member (jsonGet_mem hd)
    have h2 := depth_elem hv
    have h3 := depth_elem hwm
    have h4 := depth_member hu
    have h5 := hg.2
    simp only [JVal.depth] at h1 h2 h3 h4
    omega
  | _ => trivial

/-- Reading the columns and rows of a new table. -/
theorem body_ok (hE : CastOK E) {d : Nat} (ih : NestedOK (readJsonTable E d) (GoodTable d)) (K : Heap) (m : List (GoStr × JVal)) (t0 : Table Addr)
    (hw : WF t0) (hnil : t0.isNilTable = false) (hty : t0.colTypes = []) (hr0 : t0.rows = []) (o : Out (Heap × Addr))
    (ho : o = match jsonGet m (gs! "metadata") with
        | some (.arr metadata) =>
          (readJsonCols K.length (K ++ [t0]) metadata).bind fun H1 =>
            match jsonGet m (gs! "data") with
            | some (.arr data) => (readJsonRows E (readJsonTable E d) K.length H1 data).bind fun H2 => .ok (H2, K.length)
            | _ => .ok (H1, K.length)
        | _ => .err .other) :
    (GoodTable (d + 1) m → o ≠ .panic) ∧ ∀ K' b, o = .ok (K', b) → b = K.length ∧ K.length < K'.length ∧ Grown K K' ∧ ∃ t, K'[K.length]? = some t ∧ t.isNilTable = false := by
  have hrd : Rd K (K ++ [t0]) [] 0 := by
    refine ⟨⟨by simp, fun x hx => List.getElem?_append_left hx, ?_⟩, t0, by simp, hnil, hty, by simp [hr0]⟩
    intro x t hx ht
    rw [List.getElem?_append_right hx] at ht
    have := List.mem_singleton.1 (List.mem_of_getElem? ht)
    subst this
    refine ⟨hw, ?_⟩
    intro row hr
    rw [hr0] at hr
    cases hr
  subst ho
  split
  next metadata hm =>
    obtain ⟨c1, c2⟩ := rd_cols metadata [] (K ++ [t0]) [] hrd trivial
    cases hc : readJsonCols K.length (K ++ [t0]) metadata with
    | panic => exact ⟨fun hg => absurd hc (c1 ((hg.1 m .self).columns metadata hm)), by simp [Out.bind]⟩
    | err e => simp [Out.bind]
    | ok K1 =>
      obtain ⟨types, h1, h2⟩ := c2 K1 hc
      rw [List.nil_append] at h2
      have fin : ∀ {n K'}, Rd K K' types n → K.length < K'.length ∧ Grown K K' ∧ ∃ t, K'[K.length]? = some t ∧ t.isNilTable = false := fun h => by
        obtain ⟨t, ht, hn, _⟩ := h.table
        exact ⟨(List.getElem?_eq_some_iff.1 ht).1, h.grown, t, ht, hn⟩
      simp only [Out.bind]
      split
      next data hd =>
        obtain ⟨r1, r2⟩ := rd_rows hE ih data K1 0 h1
        rw [← List.range_eq_range'] at r1 r2
        have e : readJsonRows E (readJsonTable E d) K.length K1 data = foldOut (fun H (p : Nat × JVal) => (appendRowAt H K.length).bind fun H1 => match p.2 with
          | .arr cells => readJsonRow E (readJsonTable E d) K.length p.1 H1 cells
          | _ => .panic) K1 ((List.range data.length).zip data) := rfl
        rw [← e] at r1 r2
        cases hr : readJsonRows E (readJsonTable E d) K.length K1 data with
        | panic => exact ⟨fun hg => absurd hr (r1 (good_rows hg hm hd h2)), by simp⟩
        | err e => simp
        | ok K2 =>
          refine ⟨by simp, ?_⟩
          intro K' b e
          simp only [Out.ok.injEq, Prod.mk.injEq] at e
          obtain ⟨rfl, rfl⟩ := e
          exact ⟨rfl, fin (r2 K2 hr)⟩
      · refine ⟨by simp, ?_⟩
        intro K' b e
        simp only [Out.ok.injEq, Prod.mk.injEq] at e
        obtain ⟨rfl, rfl⟩ := e
        exact ⟨rfl, fin h1⟩
  · simp

theorem readJsonTable_ok (hE : CastOK E) (d : Nat) : NestedOK (readJsonTable E d) (GoodTable d) := by
  induction d with
  | zero => exact fun K m => ⟨fun h => absurd h.2 (Nat.not_lt_zero _), by simp [readJsonTable]⟩
  | succ d ih =>
    intro K m
    rw [readJsonTable]
    split
    next tableName _ =>
      cases hv : isValidTableName tableName with
      | false => rw [newTable_err hv]; simp
      | true =>
        have hw : WF ({ (newNilTable : Table Addr) with name := tableName, isNilTable := false } : Table Addr) := by
          have := WF.newTable (τ := Addr) (newTable_eq hv)
          exact this
        rw [newTable_eq hv]
        have main : ∀ t0 : Table Addr, (∃ b, t0 = { (newNilTable : Table Addr) with name := tableName, isNilTable := false, isStructShape := b }) → ∀ o, _ → _ :=
          fun t0 ht0 => body_ok hE ih K m t0 (by obtain ⟨b, rfl⟩ := ht0; exact hw.setShape b) (by obtain ⟨b, rfl⟩ := ht0; rfl) (by obtain ⟨b, rfl⟩ := ht0; rfl) (by obtain ⟨b, rfl⟩ := ht0; rfl)
        cases hs : jsonGet m (gs! "isStructShape") with
        | none => exact main _ ⟨false, rfl⟩ _ rfl
        | some v =>
          cases v with
          | bool b => exact main _ ⟨b, rfl⟩ _ rfl
          | _ => exact main _ ⟨false, rfl⟩ _ rfl
    · simp

/-! ## Sets of tables -/

/-- While a set is read. -/
structure RdSet (K0 : Heap) (st : Heap × TableSet) : Prop where
  grown : Grown K0 st.1
  tables : ∀ a ∈ st.2.tables, K0.length ≤ a ∧ ∃ t, st.1[a]? = some t ∧ t.isNilTable = false
  names : (setNames st.1 st.2).Nodup

theorem nameTaken_iff {H : Heap} {name : GoStr} : ∀ {l : List Addr}, TableSet.nameTaken H name l = true ↔ name ∈ l.map (nameAt H)
  | [] => by simp [TableSet.nameTaken]
  | a :: l => by
    rw [TableSet.nameTaken]
    split
    next h => simp [h]
    next h =>
      rw [nameTaken_iff, List.map_cons, List.mem_cons]
      exact ⟨.inr, fun h' => h'.resolve_left fun e => h e.symm⟩

theorem rd_tables (hE : CastOK E) (d : Nat) {K0 : Heap} (tables : List JVal) (st : Heap × TableSet) (h : RdSet K0 st) :
    ((∀ v ∈ tables, ∃ o, v = .obj o ∧ GoodTable d o) → readJsonTables E d st tables ≠ .panic) ∧ ∀ st', readJsonTables E d st tables = .ok st' → RdSet K0 st' := by
  unfold readJsonTables
  refine foldOut_inv (I := RdSet K0) (G := fun v => ∃ o, v = .obj o ∧ GoodTable d o) ?_ tables st h
  rintro ⟨K, s⟩ v hK
  cases v with
  | obj m =>
    obtain ⟨n1, n2⟩ := readJsonTable_ok hE d K m
    simp only
    cases hr : readJsonTable E d K m with
    | panic =>
      refine ⟨?_, by simp [Out.bind]⟩
      rintro ⟨o, e, hg⟩
      cases e
      exact absurd hr (n1 hg)
    | err e => simp [Out.bind]
    | ok p =>
      obtain ⟨K1, b⟩ := p
      obtain ⟨rfl, m2, m3, t, m4, m5⟩ := n2 K1 b hr
      simp only [Out.bind, TableSet.appendTable]
      by_cases hn : TableSet.nameTaken K1 (nameAt K1 K.length) s.tables = true
      · rw [if_pos hn]; simp
      · rw [if_neg hn]
        refine ⟨by simp, ?_⟩
        intro st' e
        simp only [Out.ok.injEq] at e
        subst e
        have hold : ∀ a ∈ s.tables, K1[a]? = K[a]? := by
          intro a ha
          obtain ⟨_, t, ht, _⟩ := hK.tables a ha
          exact m3.old a (List.getElem?_eq_some_iff.1 ht).1
        refine ⟨hK.grown.trans m3, ?_, ?_⟩
        · intro a ha
          rcases List.mem_append.1 ha with ha | ha
          · obtain ⟨h1, t, ht, h2⟩ := hK.tables a ha
            exact ⟨h1, t, by simp only [hold a ha]; exact ht, h2⟩
          · rw [List.mem_singleton.1 ha]
            exact ⟨hK.grown.len, t, m4, m5⟩
        · have e : s.tables.map (nameAt K1) = s.tables.map (nameAt K) := List.map_congr_left fun a ha => by simp only [nameAt, hold a ha]
          have hn' := fun h => hn (nameTaken_iff.2 h)
          simp only [setNames, List.map_append, List.map_cons, List.map_nil]
          rw [e] at hn' ⊢
          refine List.nodup_append.2 ⟨hK.names, by simp, ?_⟩
          intro x hx y hy hxy
          rw [List.mem_singleton.1 hy] at hxy
          exact hn' (hxy ▸ hx)
  | _ =>
    refine ⟨?_, by simp⟩
    rintro ⟨o, e, _⟩
    cases e

/-! ## The depth of decoded values -/

theorem jsonSpace_len : ∀ (s : GoStr), (jsonSpace s).length ≤ s.length
  | [] => Nat.le_refl _
  | c :: cs => by
    rw [jsonSpace]
    split
    · exact Nat.le_trans (jsonSpace_len cs) (by simp)
    · exact Nat.le_refl _

theorem readHex_len : ∀ (n : Nat) (s : GoStr) (acc r : Nat) (rest : GoStr), readHex n s acc = some (r, rest) → rest.length ≤ s.length
  | 0, s, acc, r, rest, h => by cases h; exact Nat.le_refl _
  | _ + 1, [], _, _, _, h => by cases h
  | n + 1, c :: cs, acc, r, rest, h => by
    rw [readHex] at h
    cases hu : unhex c with
    | none => rw [hu] at h; cases h
    | some x =>
      rw [hu] at h
      exact Nat.le_trans (readHex_len n cs _ r rest h) (by simp)

theorem jsonHex_len (s b rest : GoStr) (h : jsonHex s = some (b, rest)) : rest.length ≤ s.length := by
  unfold jsonHex at h
  split at h
  · cases h
  next r rest1 h1 =>
    have l1 := readHex_len _ _ _ _ _ h1
    split at h
    · split at h
      next s2 =>
        split at h
        next r2 rest2 h2 =>
          have l2 := readHex_len _ _ _ _ _ h2
          simp only [List.length_cons] at l1
          split at h
          · have e := (Prod.mk.inj (Option.some.inj h)).2
            rw [← e]; omega
          · have e := (Prod.mk.inj (Option.some.inj h)).2
            rw [← e]; simp only [List.length_cons]; omega
        · cases h; exact l1
      · cases h; exact l1
    · cases h; exact l1

theorem jsonEscape_len (s b rest : GoStr) (h : jsonEscape s = some (b, rest)) : rest.length ≤ s.length := by
  unfold jsonEscape at h
  split at h
  · cases h
  next c cs =>
    simp only [List.length_cons]
    repeat' (split at h; (cases h; omega))
    split at h
    · have := jsonHex_len _ _ _ h
      omega
    · cases h

theorem jsonChars_len : ∀ (n : Nat) (s b rest : GoStr), jsonChars n s = some (b, rest) → rest.length ≤ s.length
  | 0, s, b, rest, h => by simp [jsonChars] at h
  | n + 1, [], b, rest, h => by simp [jsonChars] at h
  | n + 1, c :: cs, b, rest, h => by
    rw [jsonChars] at h
    simp only [List.length_cons]
    split at h
    · cases h; omega
    · split at h
      · split at h
        · cases h
        next b1 rest1 h1 =>
          obtain ⟨⟨bs, r⟩, hm, e⟩ := Option.map_eq_some_iff.1 h
          cases e
          have l1 := jsonEscape_len _ _ _ h1
          have l2 := jsonChars_len n _ _ _ hm
          omega
      · split at h
        · cases h
        · split at h
          · obtain ⟨⟨bs, r⟩, hm, e⟩ := Option.map_eq_some_iff.1 h
            cases e
            have l2 := jsonChars_len n _ _ _ hm
            omega
          · split at h
            · obtain ⟨⟨bs, r⟩, hm, e⟩ := Option.map_eq_some_iff.1 h
              cases e
              have l2 := jsonChars_len n _ _ _ hm
              rw [List.length_drop] at l2
              omega
            · obtain ⟨⟨bs, r⟩, hm, e⟩ := Option.map_eq_some_iff.1 h
              cases e
              have l2 := jsonChars_len n _ _ _ hm
              omega

theorem jsonDigits_len (s b rest : GoStr) (h : jsonDigits s = some (b, rest)) : rest.length ≤ s.length := by
  unfold jsonDigits at h
  split at h
  · cases h
  · cases h
    exact (List.dropWhile_sublist _).length_le

theorem jsonWhole_len (s b rest : GoStr) (h : jsonWhole s = some (b, rest)) : rest.length ≤ s.length := by
  unfold jsonWhole at h
  split at h
  · cases h
  · split at h
    · cases h; simp
    · exact jsonDigits_len _ _ _ h

theorem jsonFrac_len (s b rest : GoStr) (h : jsonFrac s = some (b, rest)) : rest.length ≤ s.length := by
  unfold jsonFrac at h
  split at h
  · cases h; simp
  · split at h
    · obtain ⟨⟨bs, r⟩, hm, e⟩ := Option.map_eq_some_iff.1 h
      cases e
      have := jsonDigits_len _ _ _ hm
      simp only [List.length_cons]
      omega
    · cases h; simp

theorem jsonExp_len (s b rest : GoStr) (h : jsonExp s = some (b, rest)) : rest.length ≤ s.length := by
  unfold jsonExp at h
  split at h
  · cases h; simp
  · split at h
    · split at h
      · cases h
      · split at h
        · obtain ⟨⟨bs, r⟩, hm, e⟩ := Option.map_eq_some_iff.1 h
          cases e
          have := jsonDigits_len _ _ _ hm
          simp only [List.length_cons]
          omega
        · obtain ⟨⟨bs, r⟩, hm, e⟩ := Option.map_eq_some_iff.1 h
          cases e
          have := jsonDigits_len _ _ _ hm
          simp only [List.length_cons] at *
          omega
    · cases h; simp

theorem jsonNumber_len (s b rest : GoStr) (h : jsonNumber s = some (b, rest)) : rest.length ≤ s.length := by
  unfold jsonNumber at h
  simp only at h
  split at h
  · cases h
  next whole r1 h1 =>
    split at h
    · cases h
    next frac r2 h2 =>
      obtain ⟨⟨e, r⟩, hm, e'⟩ := Option.map_eq_some_iff.1 h
      cases e'
      have l1 := jsonWhole_len _ _ _ h1
      have l2 := jsonFrac_len _ _ _ h2
      have l3 := jsonExp_len _ _ _ hm
      rw [List.length_drop] at l1
      simp only
      omega

theorem jsonLiteral_len : ∀ (p s rest : GoStr), jsonLiteral p s = some rest → rest.length ≤ s.length
  | [], s, rest, h => by simp only [jsonLiteral, Option.some.injEq] at h; rw [h]; exact Nat.le_refl _
  | _ :: _, [], rest, h => by simp [jsonLiteral] at h
  | p :: ps, c :: cs, rest, h => by
    rw [jsonLiteral] at h
    split at h
    · exact Nat.le_trans (jsonLiteral_len ps cs rest h) (by simp)
    · cases h

theorem jsonValue_depth (n : Nat) : (∀ s v rest, jsonValue n s = some (v, rest) → v.depth + rest.length ≤ s.length) ∧
    (∀ s l rest, jsonElems n s = some (l, rest) → depthElems l + rest.length ≤ s.length) ∧
    (∀ s m rest, jsonMembers n s = some (m, rest) → depthMembers m + rest.length ≤ s.length) := by
  induction n with
  | zero => refine ⟨?_, ?_, ?_⟩ <;> (intro s v rest h; simp [jsonValue, jsonElems, jsonMembers] at h)
  | succ n ih =>
    obtain ⟨ih1, ih2, ih3⟩ := ih
    refine ⟨?_, ?_, ?_⟩
    · intro s v rest h
      rw [jsonValue] at h
      have hsp := jsonSpace_len s
      cases hs : jsonSpace s with
      | nil => rw [hs] at h; cases h
      | cons c r =>
        rw [hs] at h hsp
        simp only [List.length_cons] at hsp
        simp only at h
        split at h
        · have hsp2 := jsonSpace_len r
          split at h
          next r' e =>
            rw [e] at hsp2
            cases h
            simp only [JVal.depth, depthMembers, List.length_cons] at *
            omega
          · obtain ⟨⟨m, rest'⟩, hm, e⟩ := Option.map_eq_some_iff.1 h
            cases e
            have := ih3 _ _ _ hm
            simp only [JVal.depth]
            omega
        · split at h
          · have hsp2 := jsonSpace_len r
            split at h
            next r' e =>
              rw [e] at hsp2
              cases h
              simp only [JVal.depth, depthElems, List.length_cons] at *
              omega
            · obtain ⟨⟨m, rest'⟩, hm, e⟩ := Option.map_eq_some_iff.1 h
              cases e
              have := ih2 _ _ _ hm
              simp only [JVal.depth]
              omega
          · split at h
            · obtain ⟨⟨b, rest'⟩, hm, e⟩ := Option.map_eq_some_iff.1 h
              cases e
              have := jsonChars_len _ _ _ _ hm
              simp only [JVal.depth]
              omega
            · split at h
              · obtain ⟨rest', hm, e⟩ := Option.map_eq_some_iff.1 h
                cases e
                have := jsonLiteral_len _ _ _ hm
                simp only [JVal.depth, List.length_cons] at *
                omega
              · split at h
                · obtain ⟨rest', hm, e⟩ := Option.map_eq_some_iff.1 h
                  cases e
                  have := jsonLiteral_len _ _ _ hm
                  simp only [JVal.depth, List.length_cons] at *
                  omega
                · split at h
                  · obtain ⟨rest', hm, e⟩ := Option.map_eq_some_iff.1 h
                    cases e
                    have := jsonLiteral_len _ _ _ hm
                    simp only [JVal.depth, List.length_cons] at *
                    omega
                  · obtain ⟨⟨b, rest'⟩, hm, e⟩ := Option.map_eq_some_iff.1 h
                    cases e
                    have := jsonNumber_len _ _ _ hm
                    simp only [JVal.depth, List.length_cons] at *
                    omega
    · intro s l rest h
      rw [jsonElems] at h
      cases hv : jsonValue n s with
      | none => rw [hv] at h; cases h
      | some p =>
        obtain ⟨v, r⟩ := p
        rw [hv] at h
        have h1 := ih1 _ _ _ hv
        have hsp := jsonSpace_len r
        simp only at h
        cases hs : jsonSpace r with
        | nil => rw [hs] at h; cases h
        | cons c r' =>
          rw [hs] at h hsp
          simp only [List.length_cons] at hsp
          simp only at h
          split at h
          · obtain ⟨⟨vs, rest'⟩, hm, e⟩ := Option.map_eq_some_iff.1 h
            cases e
            have := ih2 _ _ _ hm
            simp only [depthElems]
            omega
          · split at h
            · cases h
              simp only [depthElems]
              omega
            · cases h
    · intro s m rest h
      rw [jsonMembers] at h
      have hsp := jsonSpace_len s
      cases hs : jsonSpace s with
      | nil => rw [hs] at h; cases h
      | cons q r0 =>
        rw [hs] at h hsp
        simp only [List.length_cons] at hsp
        simp only at h
        split at h
        · cases hc : jsonChars (r0.length + 1) r0 with
          | none => rw [hc] at h; cases h
          | some p =>
            obtain ⟨k, r1⟩ := p
            rw [hc] at h
            have hcl := jsonChars_len _ _ _ _ hc
            have hsp1 := jsonSpace_len r1
            simp only at h
            cases hs1 : jsonSpace r1 with
            | nil => rw [hs1] at h; cases h
            | cons colon r2 =>
              rw [hs1] at h hsp1
              simp only [List.length_cons] at hsp1
              simp only at h
              split at h
              · cases hv : jsonValue n r2 with
                | none => rw [hv] at h; cases h
                | some p =>
                  obtain ⟨v, r3⟩ := p
                  rw [hv] at h
                  have h1 := ih1 _ _ _ hv
                  have hsp3 := jsonSpace_len r3
                  simp only at h
                  cases hs3 : jsonSpace r3 with
                  | nil => rw [hs3] at h; cases h
                  | cons c r4 =>
                    rw [hs3] at h hsp3
                    simp only [List.length_cons] at hsp3
                    simp only at h
                    split at h
                    · obtain ⟨⟨vs, rest'⟩, hm, e⟩ := Option.map_eq_some_iff.1 h
                      cases e
                      have := ih3 _ _ _ hm
                      simp only [depthMembers]
                      omega
                    · split at h
                      · cases h
                        simp only [depthMembers]
                        omega
                      · cases h
              · cases h
        · cases h

theorem jsonDecode_depth {s : GoStr} {m : List (GoStr × JVal)} (h : jsonDecode s = some m) : depthMembers m ≤ s.length := by
  unfold jsonDecode at h
  split at h
  next m' rest e =>
    cases h
    have := (jsonValue_depth _).1 _ _ _ e
    simp only [JVal.depth] at this
    omega
  · cases h; simp [depthMembers]
  · cases h

theorem set_read (hE : CastOK E) (K : Heap) (s : GoStr) :
    (JsonShape s → newTableSetFromJSON E K s ≠ .panic) ∧ ∀ K' S, newTableSetFromJSON E K s = .ok (K', S) → RdSet K (K', S) := by
  unfold newTableSetFromJSON
  split
  · simp
  next m hm =>
    have hd := jsonDecode_depth hm
    split
    next name _ =>
      split
      next tables ht =>
        obtain ⟨h1, h2⟩ := rd_tables hE (s.length + 1) tables (K, newTableSet name) ⟨Grown.refl K, by simp [newTableSet], by simp [newTableSet, setNames]⟩
        refine ⟨fun hs => h1 ?_, fun K' S e => h2 _ e⟩
        intro v hv
        obtain ⟨o, rfl, ho⟩ := hs m tables hm ht v hv
        refine ⟨o, rfl, ho, ?_⟩
        have e1 := depth_member (jsonGet_mem ht)
        have e2 := depth_elem hv
        simp only [JVal.depth] at e1 e2
        omega
      · simp
    · simp

end Verif
