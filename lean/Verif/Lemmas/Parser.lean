import Verif.Lemmas.ReadRow
import Verif.Lemmas.Write
import Verif.Lemmas.Append
import Verif.Props.C31

/-!
# Lemmas: what the parser keeps invariant
-/

namespace Verif
open Table

/-- Nested tables of `t` have addresses below `n`. -/
def CellsBelow (n : Nat) (t : Table Addr) : Prop := ∀ row ∈ t.rows, ∀ b, Cell.tbl (some b) ∈ row → b < n

/-- Starting from memory `H0`, the parser has memory `H` and the tables of `set`. -/
structure Inv (H0 H : Heap) (set : TableSet) : Prop where
  ext : ∃ K, H = H0 ++ K
  wf : HeapWF H
  below : ∀ t ∈ H, CellsBelow H.length t
  tables : ∀ a ∈ set.tables, H0.length ≤ a ∧ ∃ t, H[a]? = some t ∧ t.isNilTable = false
  names : (setNames H set).Nodup

theorem nameAt_of {H : Heap} {a : Addr} {t : Table Addr} (h : H[a]? = some t) : nameAt H a = t.name := by
  simp only [nameAt, h]

theorem setNames_congr {H H' : Heap} {set : TableSet} (h : ∀ a ∈ set.tables, nameAt H' a = nameAt H a) : setNames H' set = setNames H set :=
  List.map_congr_left h

variable {H0 H : Heap} {set : TableSet}

theorem Inv.grow (h : Inv H0 H set) {H' : Heap} (g : Grows H H') : Inv H0 H' set := by
  have hlen := g.length_le
  have hnames : setNames H' set = setNames H set := setNames_congr fun a ha => by
    obtain ⟨_, t, ht, _⟩ := h.tables a ha
    rw [nameAt_of ht, nameAt_of (g.get? ht)]
  obtain ⟨K, rfl⟩ := h.ext
  have htab := h.tables
  refine ⟨?_, ?_, ?_, fun a ha => ?_, hnames ▸ h.names⟩
  · obtain ⟨L, rfl, _⟩ := g
    exact ⟨K ++ L, by simp⟩
  · obtain ⟨L, rfl, hL⟩ := g
    intro t ht
    rcases List.mem_append.1 ht with ht | ht
    · exact h.wf t ht
    · exact (hL t ht).1
  · obtain ⟨L, rfl, hL⟩ := g
    intro t ht
    rcases List.mem_append.1 ht with ht | ht
    · intro row hr b hb
      exact Nat.lt_of_lt_of_le (h.below t ht row hr b hb) hlen
    · intro row hr
      rw [(hL t ht).2] at hr
      simp at hr
  · obtain ⟨h1, t, ht, hn⟩ := htab a ha
    exact ⟨h1, t, g.get? ht, hn⟩

theorem Inv.put (h : Inv H0 H set) {a : Addr} {t t' : Table Addr} (ht : H[a]? = some t) (ha : H0.length ≤ a) (hw : WF t')
    (hb : CellsBelow H.length t') (hn : t'.name = t.name) (hnil : t'.isNilTable = t.isNilTable) : Inv H0 (H.set a t') set := by
  have hal := (List.getElem?_eq_some_iff.1 ht).1
  refine ⟨?_, fun x hx => ?_, fun x hx => ?_, fun b hb => ?_, ?_⟩
  · obtain ⟨K, rfl⟩ := h.ext
    exact ⟨K.set (a - H0.length) t', by rw [List.set_append_right _ _ ha]⟩
  · rcases List.mem_or_eq_of_mem_set hx with hx | rfl
    · exact h.wf x hx
    · exact hw
  · rw [List.length_set]
    rcases List.mem_or_eq_of_mem_set hx with hx | rfl
    · exact h.below x hx
    · exact hb
  · obtain ⟨h1, x, hx, hxn⟩ := h.tables b hb
    refine ⟨h1, ?_⟩
    rw [List.getElem?_set]
    by_cases e : a = b
    · subst e
      rw [if_pos rfl, if_pos hal]
      rw [ht] at hx
      cases hx
      exact ⟨t', rfl, by rw [hnil, hxn]⟩
    · rw [if_neg e]
      exact ⟨x, hx, hxn⟩
  · rw [setNames_congr (H := H)]
    · exact h.names
    · intro b hb
      simp only [nameAt, List.getElem?_set]
      by_cases e : a = b
      · subst e
        simp only [if_pos hal, ht, hn, if_true]
      · rw [if_neg e]

theorem Inv.get (h : Inv H0 H set) {a : Addr} (ha : a ∈ set.tables) :
    H0.length ≤ a ∧ a < H.length ∧ ∃ t, H[a]? = some t ∧ t.isNilTable = false ∧ WF t ∧ CellsBelow H.length t := by
  obtain ⟨h1, t, ht, hn⟩ := h.tables a ha
  have hm := List.mem_of_getElem? ht
  exact ⟨h1, (List.getElem?_eq_some_iff.1 ht).1, t, ht, hn, h.wf t hm, h.below t hm⟩

theorem grows_nil (H : Heap) (n : Nat) (p : Option Addr) : Grows H (H ++ List.replicate n { (newNilTable : Table Addr) with parent := p }) :=
  ⟨_, rfl, fun t ht => by
    rw [List.eq_of_mem_replicate ht]
    exact ⟨WF.newNilTable.setParent p, rfl⟩⟩

theorem zeroCell_tbl {x b : Addr} {ty : ColType} (h : zeroCell x ty = .tbl (some b)) : b = x := by
  cases ty <;> simp [zeroCell] at h
  exact h.symm

theorem ofName?_eq {s : GoStr} {ty : ColType} (h : ColType.ofName? s = some ty) : s = ty.name := by
  have := List.find?_some h
  simp only [decide_eq_true_eq] at this
  exact this.symm

theorem appendColAt_ok (h : Inv H0 H set) {a : Addr} (ha : a ∈ set.tables) (n tyName : GoStr) :
    appendColAt H a n tyName ≠ .panic ∧
    ∀ H', appendColAt H a n tyName = .ok H' → Inv H0 H' set ∧
      ∀ t, H[a]? = some t → ∃ t' ty, H'[a]? = some t' ∧ tyName = ty.name ∧ t'.colTypes = t.colTypes ++ [ty] ∧ t'.rows.length = t.rows.length := by
  obtain ⟨ha0, hal, t, ht, hnil, hw, hb⟩ := h.get ha
  have hw' := hw.appendCol (fun _ r => H.length + r) n tyName
  simp only [appendColAt, ht]
  rcases appendCol_cases (fun _ r => H.length + r) hw n tyName with ⟨ty, _, _, _, _, hty, e⟩ | ⟨_, er, e⟩
  · rw [e] at hw' ⊢
    simp only [ne_eq, reduceCtorEq, not_false_eq_true, Out.ok.injEq, true_and]
    intro H' hH'
    subst hH'
    have hg := grows_nil H t.rows.length none
    have hi := h.grow hg
    have hset := hi.put (hg.get? ht) ha0 hw' (by
      intro row hr b hbm
      simp only [addZeroCol, List.mem_mapIdx] at hr
      obtain ⟨i, hi, rfl⟩ := hr
      rcases List.mem_append.1 hbm with hbm | hbm
      · exact Nat.lt_of_lt_of_le (hb _ (List.getElem_mem hi) b hbm) hg.length_le
      · simp only [List.mem_singleton] at hbm
        rw [zeroCell_tbl hbm.symm, List.length_append, List.length_replicate]
        exact Nat.add_lt_add_left hi _) rfl rfl
    rw [List.set_append_left _ _ hal] at hset
    refine ⟨hset, fun t0 ht0 => ?_⟩
    cases ht0
    refine ⟨{ t with
        colNames := t.colNames ++ [n], colTypes := t.colTypes ++ [ty], colMap := t.colMap.insert n t.colNames.length,
        rows := addZeroCol (fun _ r => H.length + r) t.colNames.length ty t.rows }, ty, ?_, hty, ?_, ?_⟩
    · rw [List.getElem?_append_left (by simpa using hal), List.getElem?_set_self hal]
    · rfl
    · simp [addZeroCol]
  · rw [e]
    simp

theorem appendRowAt_ok (h : Inv H0 H set) {a : Addr} (ha : a ∈ set.tables) :
    appendRowAt H a ≠ .panic ∧
    ∀ H', appendRowAt H a = .ok H' → Inv H0 H' set ∧
      ∀ t, H[a]? = some t → ∃ t', H'[a]? = some t' ∧ t'.colTypes = t.colTypes ∧ t'.rows.length = t.rows.length + 1 := by
  obtain ⟨ha0, hal, t, ht, hnil, hw, hb⟩ := h.get ha
  have hw' := hw.appendRow (fun c _ => H.length + c)
  simp only [appendRowAt, ht]
  rw [appendRow_eq _ hnil hw.typesLen] at hw' ⊢
  simp only [ne_eq, reduceCtorEq, not_false_eq_true, Out.ok.injEq, true_and]
  intro H' hH'
  subst hH'
  have hg := grows_nil H t.colTypes.length (some a)
  have hi := h.grow hg
  have hset := hi.put (hg.get? ht) ha0 hw' (by
    intro row hr b hbm
    rcases List.mem_append.1 hr with hr | hr
    · exact Nat.lt_of_lt_of_le (hb row hr b hbm) hg.length_le
    · simp only [List.mem_singleton] at hr
      subst hr
      simp only [zeroRow, List.mem_mapIdx] at hbm
      obtain ⟨i, hi, hbm⟩ := hbm
      rw [zeroCell_tbl hbm, List.length_append, List.length_replicate]
      exact Nat.add_lt_add_left hi _) rfl rfl
  rw [List.set_append_left _ _ hal] at hset
  refine ⟨hset, fun t0 ht0 => ?_⟩
  cases ht0
  refine ⟨{ t with rows := t.rows ++ [zeroRow (fun c _ => H.length + c) t.colTypes t.rows.length] }, ?_, rfl, ?_⟩
  · rw [List.getElem?_append_left (by simpa using hal), List.getElem?_set_self hal]
  · simp

theorem foldErr (a : Addr) (e : Err) (ps : List (GoStr × GoStr)) :
    ps.foldl (fun (o : Out Heap) (p : GoStr × GoStr) => o.bind fun H => appendColAt H a p.1 p.2) (.err e) = .err e := by
  induction ps with
  | nil => rfl
  | cons p ps ih => exact ih

theorem appendCols_fold (set : TableSet) (a : Addr) (ha : a ∈ set.tables) (ps : List (GoStr × GoStr)) (o : Out Heap) (ho : o ≠ .panic)
    (tys : List ColType) (hinv : ∀ H, o = .ok H → Inv H0 H set ∧ ∃ t, H[a]? = some t ∧ t.colTypes = tys) :
    ps.foldl (fun (o : Out Heap) (p : GoStr × GoStr) => o.bind fun H => appendColAt H a p.1 p.2) o ≠ .panic ∧
    ∀ H', ps.foldl (fun (o : Out Heap) (p : GoStr × GoStr) => o.bind fun H => appendColAt H a p.1 p.2) o = .ok H' →
      Inv H0 H' set ∧ ∃ t new, H'[a]? = some t ∧ t.colTypes = tys ++ new ∧ ps.map Prod.snd = new.map ColType.name := by
  induction ps generalizing o tys with
  | nil =>
    refine ⟨ho, fun H' h => ?_⟩
    obtain ⟨h1, t, ht, hty⟩ := hinv H' h
    exact ⟨h1, t, [], ht, by simp [hty], rfl⟩
  | cons p ps ih =>
    simp only [List.foldl_cons]
    cases o with
    | panic => exact absurd rfl ho
    | err e =>
      have := ih (.err e) (by simp) tys (by simp)
      refine ⟨this.1, fun H' h => ?_⟩
      have h : (Out.err e : Out Heap) = .ok H' := (foldErr a e ps).symm.trans h
      simp at h
    | ok H =>
      obtain ⟨h1, t, ht, hty⟩ := hinv H rfl
      have hc := appendColAt_ok h1 ha p.1 p.2
      simp only [Out.bind]
      cases hx : appendColAt H a p.1 p.2 with
      | panic => exact absurd hx hc.1
      | err e =>
        have := foldErr a e ps
        refine ⟨fun h => ?_, fun H' h => ?_⟩ <;>
        · have h := this.symm.trans h
          simp at h
      | ok H1 =>
        obtain ⟨h2, hcol⟩ := hc.2 H1 hx
        obtain ⟨t', ty, ht', htn, htt, _⟩ := hcol t ht
        have := ih (.ok H1) (by simp) (tys ++ [ty]) (by
          intro H' e
          cases e
          exact ⟨h2, t', ht', by rw [htt, hty]⟩)
        refine ⟨this.1, fun H' h => ?_⟩
        obtain ⟨h3, t3, new, ht3, hn3, hps⟩ := this.2 H' h
        exact ⟨h3, t3, ty :: new, ht3, by simp [hn3], by simp [hps, htn]⟩

theorem appendColsAt_ok (h : Inv H0 H set) {a : Addr} (ha : a ∈ set.tables) {t : Table Addr} (ht : H[a]? = some t) (ns tys : List GoStr) :
    appendColsAt H a ns tys ≠ .panic ∧
    ∀ H', appendColsAt H a ns tys = .ok H' → Inv H0 H' set ∧ ns.length = tys.length ∧
      ∃ t' new, H'[a]? = some t' ∧ t'.colTypes = t.colTypes ++ new ∧ tys = new.map ColType.name := by
  unfold appendColsAt
  split
  · simp
  · rename_i hl
    have := appendCols_fold (H0 := H0) set a ha (ns.zip tys) (.ok H) (by simp) t.colTypes (by
      intro H' e
      cases e
      exact ⟨h, t, ht, rfl⟩)
    refine ⟨this.1, fun H' hH => ?_⟩
    obtain ⟨h1, t', new, ht', hty, hmap⟩ := this.2 H' hH
    have hl' : ns.length = tys.length := by omega
    refine ⟨h1, hl', t', new, ht', hty, ?_⟩
    rw [← hmap, List.map_snd_zip (by omega)]

theorem putCell_below {n : Nat} {t : Table Addr} (h : CellsBelow n t) {c r : Nat} {v : Cell Addr} (hv : ∀ b, v = .tbl (some b) → b < n) :
    CellsBelow n (putCell t c r v) := by
  intro row hr b hb
  simp only [putCell] at hr
  obtain ⟨i, hi⟩ := List.mem_iff_getElem?.1 hr
  rw [List.getElem?_modify] at hi
  cases hx : t.rows[i]? with
  | none => simp [hx] at hi
  | some row0 =>
    have h0 := h row0 (List.mem_of_getElem? hx)
    simp only [hx, Option.map_eq_map, Option.map_some, Option.some.injEq] at hi
    split at hi
    · subst hi
      rcases List.mem_or_eq_of_mem_set hb with hb | hb
      · exact h0 b hb
      · exact hv b hb.symm
    · subst hi
      exact h0 b hb

theorem stepStructValue_ok (env : TextEnv) (h : Inv H0 H set) {a : Addr} (ha : a ∈ set.tables) (line : GoStr) (split : List GoStr) (n ty : GoStr) :
    stepStructValue env H a line split n ty ≠ .panic ∧ ∀ H', stepStructValue env H a line split n ty = .ok H' → Inv H0 H' set := by
  unfold stepStructValue
  split
  · simp
  · rename_i valueData _
    split
    · simp
    · obtain ⟨ha0, hal, t, ht, hnil, hw, hb⟩ := h.get ha
      simp only [ht]
      -- the table with a row
      have step1 : ∀ o : Out Heap, o = (if t.rowCount = 0 then
          (appendRowAt H a).bind fun H1 =>
            match H1[a]? with
            | none => .panic
            | some t1 => .ok (H1.set a { t1 with isStructShape := true })
          else .ok H) →
          o ≠ .panic ∧ ∀ H2, o = .ok H2 → Inv H0 H2 set ∧ ∃ t2, H2[a]? = some t2 ∧ 0 < t2.rows.length := by
        intro o ho
        subst ho
        split
        · have hr := appendRowAt_ok h ha
          constructor
          · refine Out.bind_noPanic hr.1 fun H1 hH1 => ?_
            obtain ⟨_, hx⟩ := hr.2 H1 hH1
            obtain ⟨t', ht', _⟩ := hx t ht
            simp [ht']
          · intro H2 hH2
            obtain ⟨H1, hH1, hH2⟩ := Out.bind_ok hH2
            obtain ⟨hi, hx⟩ := hr.2 H1 hH1
            obtain ⟨t', ht', _, hlen⟩ := hx t ht
            simp only [ht', Out.ok.injEq] at hH2
            subst hH2
            have hal' := (List.getElem?_eq_some_iff.1 ht').1
            have hm := List.mem_of_getElem? ht'
            refine ⟨hi.put ht' ha0 ((hi.wf _ hm).setShape true) (hi.below t' hm) rfl rfl, _, List.getElem?_set_self hal', ?_⟩
            simp only
            omega
        · rename_i hr
          refine ⟨by simp, fun H2 hH2 => ?_⟩
          simp only [Out.ok.injEq] at hH2
          subst hH2
          exact ⟨h, t, ht, Nat.pos_of_ne_zero hr⟩
      obtain ⟨s1, s2⟩ := step1 _ rfl
      have step2 : ∀ H2, Inv H0 H2 set → (∃ t2, H2[a]? = some t2 ∧ 0 < t2.rows.length) → ∀ H3 cells,
          readRow env a H2 [n] [ty] (trimBlankLines valueData) = .ok (H3, cells) →
          Inv H0 H3 set ∧ (∃ c, cells[0]? = some c ∧ c.Real ∧ ∀ b, c = .tbl (some b) → b < H3.length) ∧ ∃ t3, H3[a]? = some t3 ∧ 0 < t3.rows.length := by
        intro H2 hi hrow H3 cells hread
        obtain ⟨t2, ht2, hr2⟩ := hrow
        obtain ⟨g, ⟨tys, e, hok⟩, hbelow⟩ := (readRow_ok env a H2 [n] [ty] (trimBlankLines valueData) rfl).2 _ _ hread
        refine ⟨hi.grow g, ?_, t2, g.get? ht2, hr2⟩
        have hl : cells.length = 1 := by
          have h1 := congrArg List.length e
          simp at h1
          rw [hok.1, ← h1]
        match cells, hl with
        | [c], _ =>
          have hl2 : 0 < tys.length := by
            have h1 := congrArg List.length e
            simp at h1
            omega
          refine ⟨c, rfl, hasType_real (hok.2 0 _ c (List.getElem?_eq_getElem hl2) rfl), fun b hb => hbelow b (by simp [hb])⟩
      constructor
      · refine Out.bind_noPanic s1 fun H2 hH2 => ?_
        obtain ⟨hi2, hr2⟩ := s2 H2 hH2
        refine Out.bind_noPanic (readRow_ok env a H2 [n] [ty] (trimBlankLines valueData) rfl).1 fun ⟨H3, cells⟩ hread => ?_
        obtain ⟨hi3, ⟨c, hc, hreal, hbel⟩, t3, ht3, hr3⟩ := step2 H2 hi2 hr2 H3 cells hread
        simp only [hc, ht3, List.getElem?_eq_getElem hr3]
        have hw3 := hi3.wf t3 (List.mem_of_getElem? ht3)
        rcases setValByColIndex_cases hw3 _ 0 c hreal with ⟨ci, ri, ty', _, _, _, _, _, e⟩ | ⟨_, er, e⟩
        · rw [e]; simp
        · rw [e]; simp
      · intro H' hH'
        obtain ⟨H2, hH2, hH'⟩ := Out.bind_ok hH'
        obtain ⟨⟨H3, cells⟩, hread, hH'⟩ := Out.bind_ok hH'
        obtain ⟨hi2, hr2⟩ := s2 H2 hH2
        obtain ⟨hi3, ⟨c, hc, hreal, hbel⟩, t3, ht3, hr3⟩ := step2 H2 hi2 hr2 H3 cells hread
        simp only [hc, ht3, List.getElem?_eq_getElem hr3] at hH'
        have hm3 := List.mem_of_getElem? ht3
        have hw3 := hi3.wf t3 hm3
        have hwv := hw3.setValByColIndex (((t3.rows[0]).length : Int) - 1) 0 hreal
        rcases setValByColIndex_cases hw3 (((t3.rows[0]).length : Int) - 1) 0 c hreal with ⟨ci, ri, ty', _, _, _, _, _, e⟩ | ⟨_, er, e⟩
        · rw [e] at hH' hwv
          simp only [Out.ok.injEq] at hH'
          subst hH'
          exact hi3.put ht3 ha0 hwv (putCell_below (hi3.below _ hm3) hbel) rfl rfl
        · rw [e] at hH'
          simp at hH'

/-! ## The loop -/

/-- The state of the parser is consistent. -/
structure PInv (H0 : Heap) (p : PState) : Prop where
  inv : Inv H0 p.heap p.set
  current : p.expecting ≠ .tableName → p.table ∈ p.set.tables
  shape : p.expecting = .colNames → p.shape ≠ .table
  empty : (p.expecting = .colNames ∧ p.shape = .undefined) ∨ p.expecting = .colTypes → ∃ t, p.heap[p.table]? = some t ∧ t.colTypes = []
  types : p.expecting = .colRows → p.colNames.length = p.colTypes.length ∧
    ∃ t, p.heap[p.table]? = some t ∧ p.colTypes = t.colTypes.map ColType.name

theorem stepTableName_ok {p : PState} (h : PInv H0 p) (line : GoStr) :
    stepTableName p line ≠ .panic ∧ ∀ p' b, stepTableName p line = .ok (p', b) → PInv H0 p' := by
  unfold stepTableName
  split
  · rename_i n _
    refine ⟨by simp, fun p' b e => ?_⟩
    simp only [Out.ok.injEq, Prod.mk.injEq] at e
    obtain ⟨rfl, rfl⟩ := e
    exact ⟨⟨h.inv.ext, h.inv.wf, h.inv.below, h.inv.tables, h.inv.names⟩, h.current, h.shape, h.empty, h.types⟩
  · have hname : getTableName line ≠ .panic := by
      unfold getTableName
      split
      · simp
      · split <;> simp
    have hnew : ∀ n, (newTable n : Out (Table Addr)) ≠ .panic := by
      intro n
      cases hv : isValidTableName n
      · rw [newTable_err hv]; simp
      · rw [newTable_eq hv]; simp
    have happ : ∀ t, p.set.appendTable (p.heap ++ [t]) p.heap.length = (p.set, .err .dupTable) ∨
        (p.set.appendTable (p.heap ++ [t]) p.heap.length = ({ p.set with tables := p.set.tables ++ [p.heap.length] }, .ok ()) ∧
          nameAt (p.heap ++ [t]) p.heap.length ∉ setNames (p.heap ++ [t]) p.set) := by
      intro t
      by_cases hm : nameAt (p.heap ++ [t]) p.heap.length ∈ setNames (p.heap ++ [t]) p.set
      · obtain ⟨e, he⟩ := (C31_appendTable (p.heap ++ [t]) p.set p.heap.length).1 hm
        left
        unfold TableSet.appendTable at he ⊢
        split
        · rfl
        · rename_i hx
          rw [if_neg hx] at he
          simp at he
      · exact .inr ⟨(C31_appendTable _ _ _).2 hm, hm⟩
    constructor
    · refine Out.bind_noPanic hname fun n _ => Out.bind_noPanic (hnew n) fun t _ => ?_
      rcases happ t with e | ⟨e, _⟩ <;> simp [e]
    · intro p' b e
      obtain ⟨n, _, e⟩ := Out.bind_ok e
      obtain ⟨t, ht, e⟩ := Out.bind_ok e
      have htw : WF t := WF.newTable ht
      have hte := (newTable_ok ht).2
      have htr : t.rows = [] := by rw [hte]; rfl
      have htc : t.colTypes = [] := by rw [hte]; rfl
      have htn : t.isNilTable = false := by rw [hte]
      have hg : Grows p.heap (p.heap ++ [t]) := ⟨[t], rfl, fun x hx => by simp only [List.mem_singleton] at hx; subst hx; exact ⟨htw, htr⟩⟩
      have hi := h.inv.grow hg
      have hget : (p.heap ++ [t])[p.heap.length]? = some t := by simp
      simp only at e
      rcases happ t with e' | ⟨e', hnot⟩
      · rw [e'] at e
        simp at e
      · rw [e'] at e
        simp only [Out.ok.injEq, Prod.mk.injEq] at e
        obtain ⟨rfl, rfl⟩ := e
        have hle : H0.length ≤ p.heap.length := by
          obtain ⟨K, hK⟩ := h.inv.ext
          rw [hK]; simp
        refine ⟨⟨hi.ext, hi.wf, hi.below, fun a ha => ?_, ?_⟩, fun _ => by simp, by simp, fun _ => ⟨t, hget, htc⟩, by simp⟩
        · rcases List.mem_append.1 ha with ha | ha
          · exact hi.tables a ha
          · simp only [List.mem_singleton] at ha
            subst ha
            exact ⟨hle, t, hget, htn⟩
        · have := hi.names
          simp only [setNames, List.map_append, List.map_cons, List.map_nil] at this hnot ⊢
          rw [List.nodup_append]
          refine ⟨this, by simp, ?_⟩
          intro x hx y hy e
          simp only [List.mem_singleton] at hy
          subst hy
          subst e
          exact hnot hx

theorem stepStruct_ok (env : TextEnv) {p : PState} (h : PInv H0 p) (line : GoStr) (split : List GoStr) (hexp : p.expecting = .colNames)
    (hshape : p.shape = .struct) :
    stepStruct env p line split ≠ .panic ∧ ∀ p', stepStruct env p line split = .ok p' → PInv H0 p' := by
  have ha := h.current (by rw [hexp]; simp)
  obtain ⟨ha0, hal, t, ht, hnil, hw, hb⟩ := h.inv.get ha
  have hi1 := h.inv.put ht ha0 (hw.setShape true) hb rfl rfl
  have done : ∀ H', Inv H0 H' p.set → PInv H0 { p with heap := H' } := fun H' hi =>
    ⟨hi, h.current, h.shape, fun hx => by rcases hx with ⟨_, hx⟩ | hx <;> simp_all, fun hx => by simp_all⟩
  unfold stepStruct
  simp only [ht]
  split
  · rename_i n ty rest
    split
    · simp
    · split
      · simp
      · have hc := appendColAt_ok hi1 ha n ty
        constructor
        · refine Out.bind_noPanic hc.1 fun H1 hH1 => ?_
          have hi2 := (hc.2 H1 hH1).1
          split
          · exact Out.bind_noPanic (stepStructValue_ok env hi2 ha line _ n ty).1 (by simp)
          · simp
        · intro p' e
          obtain ⟨H1, hH1, e⟩ := Out.bind_ok e
          have hi2 := (hc.2 H1 hH1).1
          split at e
          · obtain ⟨H2, hH2, e⟩ := Out.bind_ok e
            simp only [Out.ok.injEq] at e
            subst e
            exact done _ ((stepStructValue_ok env hi2 ha line _ n ty).2 H2 hH2)
          · simp only [Out.ok.injEq] at e
            subst e
            exact done _ hi2
  · simp

theorem getTableShape_noPanic (split : List GoStr) : getTableShape split ≠ .panic := by
  unfold getTableShape
  split
  · simp
  · split <;> simp
  · split <;> simp
  · split <;> simp

theorem stepColNames_ok (env : TextEnv) {p : PState} (h : PInv H0 p) (line : GoStr) (split : List GoStr) (hexp : p.expecting = .colNames) :
    stepColNames env p line split ≠ .panic ∧ ∀ p', stepColNames env p line split = .ok p' → PInv H0 p' := by
  have key : ∀ p1 : PState, p1.heap = p.heap → p1.set = p.set → p1.table = p.table → p1.expecting = p.expecting →
      (p1.shape = .table → ∃ t, p1.heap[p1.table]? = some t ∧ t.colTypes = []) → p1.shape ≠ .undefined →
      let o := if p1.shape = .struct then stepStruct env p1 line split
        else if split.all isValidColName then .ok { p1 with colNames := split, expecting := .colTypes } else .err .syntaxErr
      o ≠ .panic ∧ ∀ p', o = .ok p' → PInv H0 p' := by
    intro p1 e1 e2 e3 e4 hemp hund
    have hcur : p1.table ∈ p1.set.tables := by rw [e2, e3]; exact h.current (by rw [hexp]; simp)
    by_cases hs : p1.shape = .struct
    · have hp1 : PInv H0 p1 := ⟨by rw [e1, e2]; exact h.inv, fun _ => hcur, fun _ => by rw [hs]; simp,
        fun hx => by rcases hx with ⟨_, hx⟩ | hx <;> simp_all, fun hx => by simp_all⟩
      simp only [if_pos hs]
      exact stepStruct_ok env hp1 line split (by rw [e4, hexp]) hs
    · simp only [if_neg hs]
      have ht : p1.shape = .table := by
        cases hx : p1.shape
        · exact absurd hx hund
        · rfl
        · exact absurd hx hs
      split
      · refine ⟨by simp, fun p' e => ?_⟩
        simp only [Out.ok.injEq] at e
        subst e
        exact ⟨by rw [e1, e2]; exact h.inv, fun _ => hcur, by simp, fun _ => hemp ht, by simp⟩
      · simp
  unfold stepColNames
  by_cases hu : p.shape = .undefined
  · simp only [if_pos hu]
    have hemp := h.empty (.inl ⟨hexp, hu⟩)
    have hshape : ∀ sh b, getTableShape split = .ok (sh, b) → sh ≠ .undefined := by
      intro sh b e
      unfold getTableShape at e
      split at e
      · simp at e; simp [← e.1]
      · split at e <;> (simp at e; simp [← e.1])
      · split at e
        · simp at e
        · simp at e; simp [← e.1]
      · split at e <;> (simp at e; simp [← e.1])
    cases hg : getTableShape split with
    | panic => exact absurd hg (getTableShape_noPanic _)
    | err e => simp [Out.bind]
    | ok sb =>
      obtain ⟨sh, b⟩ := sb
      simp only [Out.bind]
      exact key { p with shape := sh, structHasRowData := b } rfl rfl rfl rfl (fun _ => hemp) (hshape sh b hg)
  · simp only [if_neg hu, Out.bind]
    have hns := h.shape hexp
    exact key p rfl rfl rfl rfl (fun hx => absurd hx hns) hu

theorem stepColTypes_ok {p : PState} (h : PInv H0 p) (split : List GoStr) (hexp : p.expecting = .colTypes) :
    stepColTypes p split ≠ .panic ∧ ∀ p', stepColTypes p split = .ok p' → PInv H0 p' := by
  have ha := h.current (by rw [hexp]; simp)
  obtain ⟨t, ht, hemp⟩ := h.empty (.inr hexp)
  unfold stepColTypes
  split
  · simp
  · split
    · simp
    · rename_i hl
      have hc := appendColsAt_ok h.inv ha ht p.colNames split
      refine ⟨Out.bind_noPanic hc.1 (by simp), fun p' e => ?_⟩
      obtain ⟨H', hH', e⟩ := Out.bind_ok e
      simp only [Out.ok.injEq] at e
      subst e
      obtain ⟨hi, _, t', new, ht', hty, hn⟩ := hc.2 H' hH'
      refine ⟨hi, fun _ => ha, by simp, by simp, fun _ => ⟨by simp only; omega, t', ht', ?_⟩⟩
      rw [hty, hemp]
      simpa using hn

theorem stepColRows_ok (env : TextEnv) {p : PState} (h : PInv H0 p) (line : GoStr) (hexp : p.expecting = .colRows) :
    stepColRows env p line ≠ .panic ∧ ∀ p', stepColRows env p line = .ok p' → PInv H0 p' := by
  have ha := h.current (by rw [hexp]; simp)
  obtain ⟨ha0, hal, t, ht, hnil, hw, hb⟩ := h.inv.get ha
  obtain ⟨hlen, t0, ht0, htys⟩ := h.types hexp
  rw [ht] at ht0
  cases ht0
  have hr := readRow_ok env p.table p.heap p.colNames p.colTypes line hlen
  unfold stepColRows
  constructor
  · refine Out.bind_noPanic hr.1 fun ⟨H', row⟩ hread => ?_
    obtain ⟨g, _⟩ := hr.2 _ _ hread
    simp only [g.get? ht]
    split <;> simp
  · intro p' e
    obtain ⟨⟨H', row⟩, hread, e⟩ := Out.bind_ok e
    obtain ⟨g, ⟨tys, hty, hok⟩, hbel⟩ := hr.2 _ _ hread
    simp only [g.get? ht] at e
    split at e
    · simp at e
    · simp only [Out.ok.injEq] at e
      subst e
      have hinj : tys = t.colTypes := by
        rw [htys] at hty
        have hn : ∀ a b : ColType, a.name = b.name → a = b := by
          intro a b hab
          have := ofName?_name a
          rw [hab, ofName?_name] at this
          cases this; rfl
        exact (List.map_inj_right (fun a b => hn a b)).1 hty.symm
      subst hinj
      have hi := h.inv.grow g
      have hset := hi.put (t' := { t with rows := t.rows ++ [row] }) (g.get? ht) ha0
        (hw.withRows _ (by
          intro r hr
          rcases List.mem_append.1 hr with hr | hr
          · exact hw.rowsOK r hr
          · simp only [List.mem_singleton] at hr; subst hr; exact hok)
          (by intro hx; rw [hnil] at hx; simp at hx))
        (by
          intro r hr b hbm
          rcases List.mem_append.1 hr with hr | hr
          · exact Nat.lt_of_lt_of_le (hb r hr b hbm) g.length_le
          · simp only [List.mem_singleton] at hr; subst hr; exact hbel b hbm) rfl rfl
      refine ⟨hset, fun _ => ha, fun hx => by simp_all, fun hx => by rcases hx with ⟨hx, _⟩ | hx <;> simp_all, fun _ => ⟨hlen, { t with rows := t.rows ++ [row] }, ?_, htys⟩⟩
      exact List.getElem?_set_self (Nat.lt_of_lt_of_le hal g.length_le)

theorem step_ok (env : TextEnv) {p : PState} (h : PInv H0 p) (line : GoStr) :
    step env p line ≠ .panic ∧ ∀ p' b, step env p line = .ok (p', b) → PInv H0 p' := by
  unfold step
  split
  · split
    · simp
    · refine ⟨by simp, fun p' b e => ?_⟩
      simp only [Out.ok.injEq, Prod.mk.injEq] at e
      obtain ⟨rfl, rfl⟩ := e
      exact ⟨h.inv, by simp, by simp, by simp, by simp⟩
  · refine ⟨by simp, fun p' b e => ?_⟩
    simp only [Out.ok.injEq, Prod.mk.injEq] at e
    obtain ⟨rfl, rfl⟩ := e
    exact h
  · split
    · exact stepTableName_ok h line
    · rename_i hexp
      have := stepColNames_ok env h line (whiteSplit line) hexp
      refine ⟨Out.bind_noPanic this.1 (by simp), fun p' b e => ?_⟩
      obtain ⟨q, hq, e⟩ := Out.bind_ok e
      simp only [Out.ok.injEq, Prod.mk.injEq] at e
      obtain ⟨rfl, rfl⟩ := e
      exact this.2 q hq
    · rename_i hexp
      have := stepColTypes_ok h (whiteSplit line) hexp
      refine ⟨Out.bind_noPanic this.1 (by simp), fun p' b e => ?_⟩
      obtain ⟨q, hq, e⟩ := Out.bind_ok e
      simp only [Out.ok.injEq, Prod.mk.injEq] at e
      obtain ⟨rfl, rfl⟩ := e
      exact this.2 q hq
    · rename_i hexp
      have := stepColRows_ok env h line hexp
      refine ⟨Out.bind_noPanic this.1 (by simp), fun p' b e => ?_⟩
      obtain ⟨q, hq, e⟩ := Out.bind_ok e
      simp only [Out.ok.injEq, Prod.mk.injEq] at e
      obtain ⟨rfl, rfl⟩ := e
      exact this.2 q hq

theorem parseLines_ok (env : TextEnv) {p : PState} (h : PInv H0 p) (lines : List GoStr) :
    parseLines env p lines ≠ .panic ∧ ∀ p', parseLines env p lines = .ok p' → PInv H0 p' := by
  induction lines generalizing p with
  | nil =>
    refine ⟨by simp [parseLines], fun p' e => ?_⟩
    simp only [parseLines, Out.ok.injEq] at e
    subst e; exact h
  | cons line rest ih =>
    simp only [parseLines]
    have hs := step_ok env h (trimSpace line)
    constructor
    · refine Out.bind_noPanic hs.1 fun ⟨p1, b⟩ h1 => ?_
      have hp1 := hs.2 _ _ h1
      have hs2 := step_ok env hp1 []
      simp only
      split
      · split
        · exact Out.bind_noPanic hs2.1 (by simp)
        · simp
      · exact (ih hp1).1
    · intro p' e
      obtain ⟨⟨p1, b⟩, h1, e⟩ := Out.bind_ok e
      have hp1 := hs.2 _ _ h1
      have hs2 := step_ok env hp1 []
      simp only at e
      split at e
      · split at e
        · obtain ⟨⟨p2, b2⟩, h2, e⟩ := Out.bind_ok e
          simp only [Out.ok.injEq] at e
          subst e
          exact hs2.2 _ _ h2
        · simp only [Out.ok.injEq] at e
          subst e; exact hp1
      · exact (ih hp1).2 p' e

end Verif
