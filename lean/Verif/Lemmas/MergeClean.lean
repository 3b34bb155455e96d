import Verif.Lemmas.MergeCombine
import Verif.Props.C20
import Verif.Props.C09

/-! The last part of `Merge`: deleting the marked rows and the temporary columns. -/

namespace Verif

variable {τ : Type}

open Table

theorem sort_eq (srt : GoSort (List (Cell τ))) (lower : GoStr → GoStr) {t : Table τ} (h : WF t)
    (hne : t.sortKeys ≠ []) (hlive : KeysLive t) (hnan : KeysNotNaN t) :
    ∃ rows, t.sort srt lower [] = ({ t with rows := rows }, .ok ()) ∧ rows.Perm t.rows ∧ SortedByKeys lower { t with rows := rows } := by
  obtain ⟨rows, e, h1, h2⟩ := sortByKeys_ok srt lower t h hlive hnan
  refine ⟨rows, ?_, h1, h2⟩
  simp only [sort, List.length_nil, Nat.lt_irrefl, gt_iff_lt, if_false]
  rw [if_neg (by simpa using hne), e]

theorem deleteRows_eq {t : Table τ} {a b : Nat} (hab : a ≤ b) (hb : b < t.rows.length) :
    t.deleteRows a b = ({ t with rows := t.rows.take a ++ t.rows.drop (b + 1) }, .ok ()) := by
  simp only [deleteRows]
  rw [if_neg (show ¬ ((a : Int) < 0 ∨ (a : Int) > (t.rowCount : Int) - 1) by simp only [rowCount]; omega),
    if_neg (show ¬ ((b : Int) < 0 ∨ (b : Int) > (t.rowCount : Int) - 1) by simp only [rowCount]; omega), if_neg (show ¬ (a : Int) > b by omega)]
  simp

theorem deleteCol_eq {t : Table τ} (h : WF t) {c : Nat} {n : GoStr} (hc : t.colNames[c]? = some n) :
    ∃ cm, t.deleteCol n = ({ t with colNames := t.colNames.eraseIdx c, colTypes := t.colTypes.eraseIdx c, colMap := cm, rows := t.rows.map (fun row => row.eraseIdx c) }, .ok ()) := by
  obtain ⟨n', hn', e⟩ := deleteColByColIndex_eq h (List.getElem?_eq_some_iff.1 hc).1
  have e1 : t.deleteCol n = t.deleteColByColIndex c := by simp [deleteCol, h.colIndex_ok.2 hc]
  exact ⟨_, e1.trans e⟩

/-- If the rows satisfying `p` are those outside of `a … b`, then filtering is cutting out this range. -/
theorem filter_range {α : Type} (p : α → Bool) (l : List α) (a b : Nat) (hab : a ≤ b)
    (h : ∀ r x, l[r]? = some x → (p x = false ↔ a ≤ r ∧ r ≤ b)) : l.filter p = l.take a ++ l.drop (b + 1) := by
  have h1 : (l.take a).filter p = l.take a := by
    refine List.filter_eq_self.2 fun x hx => ?_
    obtain ⟨i, hi⟩ := List.getElem?_of_mem hx
    rw [List.getElem?_take] at hi
    split at hi
    · cases hp : p x with
      | true => rfl
      | false => have := (h i x hi).1 hp; omega
    · cases hi
  have h3 : (l.drop (b + 1)).filter p = l.drop (b + 1) := by
    refine List.filter_eq_self.2 fun x hx => ?_
    obtain ⟨i, hi⟩ := List.getElem?_of_mem hx
    rw [List.getElem?_drop] at hi
    cases hp : p x with
    | true => rfl
    | false => have := (h _ x hi).1 hp; omega
  have h2 : ((l.drop a).take (b + 1 - a)).filter p = [] := by
    refine List.filter_eq_nil_iff.2 fun x hx => ?_
    obtain ⟨i, hi⟩ := List.getElem?_of_mem hx
    rw [List.getElem?_take] at hi
    split at hi
    · rw [List.getElem?_drop] at hi
      rw [(h _ x hi).2 ⟨by omega, by omega⟩]; simp
    · cases hi
  have e : l = l.take a ++ ((l.drop a).take (b + 1 - a) ++ l.drop (b + 1)) := by
    conv => lhs; rw [← List.take_append_drop a l, ← List.take_append_drop (b + 1 - a) (l.drop a)]
    rw [List.drop_drop, show a + (b + 1 - a) = b + 1 by omega]
  conv => lhs; rw [e]
  rw [List.filter_append, List.filter_append, h1, h2, h3, List.nil_append]

theorem eraseIdx_last_two {α : Type} {l : List α} {C : Nat} (h : l.length = C + 2) : (l.eraseIdx (C + 1)).eraseIdx C = l.take C := by
  rw [List.eraseIdx_eq_take_drop_succ, List.eraseIdx_eq_take_drop_succ]
  rw [List.drop_eq_nil_of_le (show l.length ≤ C + 1 + 1 by omega), List.append_nil, List.take_take, Nat.min_eq_left (by omega)]
  rw [List.drop_eq_nil_of_le (by rw [List.length_take]; omega), List.append_nil]

theorem dirs_length {ks ks' : List SortKey} (h : dirs ks = dirs ks') : ks.length = ks'.length := by
  have := congrArg List.length h
  simpa [dirs] using this

theorem dirs_get {ks ks' : List SortKey} (h : dirs ks = dirs ks') {i : Nat} {k : SortKey} (hk : ks[i]? = some k) :
    ∃ k', ks'[i]? = some k' ∧ k'.colName = k.colName ∧ k'.reverse = k.reverse := by
  have h1 : (dirs ks)[i]? = some (k.colName, k.reverse) := by simp [dirs, hk]
  rw [h] at h1
  simp only [dirs, List.getElem?_map, Option.map_eq_some_iff] at h1
  obtain ⟨k', e1, e2⟩ := h1
  simp only [Prod.mk.injEq] at e2
  exact ⟨k', e1, e2.1, e2.2⟩

/-- What the last part leaves of `m`. -/
structure Cleaned (lower : GoStr → GoStr) (C : Nat) (t1 m f : Table τ) : Prop where
  wf : WF f
  name : f.name = m.name
  notNil : f.isNilTable = false
  cols : f.colNames = m.colNames.take C
  types : f.colTypes = m.colTypes.take C
  keys : dirs f.sortKeys = dirs t1.sortKeys
  live : KeysLive f
  sorted : SortedByKeys lower f
  rows : f.rows.Perm ((m.rows.filter (unmarked C)).map (·.take C))

theorem mergeClean_cases (srt : GoSort (List (Cell τ))) (lower : GoStr → GoStr) {C : Nat} {t1 m : Table τ} (h : Framed C m)
    (hT : m.colNames[C]? = some tableNumberColName) (nn : m.isNilTable = false) (hk : dirs m.sortKeys = dirs t1.sortKeys)
    (hnd : (t1.sortKeys.map (·.colName)).Nodup)
    (hn : ∀ s ∈ m.rows.filter (unmarked C), ∀ (i : Nat) v, i < m.sortKeys.length → s[i]? = some v → ¬ v.IsNaN) :
    ((∃ s ∈ m.rows, unmarked C s = false) → ∃ f, mergeClean srt lower t1 m = .ok f ∧ Cleaned lower C t1 m f) ∧
    ((∀ s ∈ m.rows, unmarked C s = true) → ∃ e, mergeClean srt lower t1 m = .err e) := by
  have hD : HasColT m deleteColName .bool := ⟨C + 1, h.delName, h.delType⟩
  -- the key
  obtain ⟨g1, g2, _⟩ := C23_setSortKeys m h.wf [deleteColName]
  have hok := g1.2 (by intro n hn; rw [List.mem_singleton.1 hn]; exact ⟨.bool, hD, rfl⟩)
  obtain ⟨keys, e, hkeys⟩ := g2 hok
  have hkeys1 : keys = [⟨deleteColName, .bool, false⟩] := by
    obtain ⟨q1, q2⟩ := hkeys
    match keys, q1, q2 with
    | [⟨n, ty, rv⟩], q1, q2 =>
      have hq : n = deleteColName := (List.cons.inj q1).1
      subst hq
      obtain ⟨p1, _, p3⟩ := q2 ⟨deleteColName, ty, rv⟩ (List.mem_singleton.2 rfl)
      have hty : ty = .bool := HasColT.unique h.wf (n := deleteColName) p1 hD
      have hrv : rv = false := p3
      rw [hty, hrv]
  rw [hkeys1] at e
  have e1 : m.setSortKeys [deleteColName] = ({ m with sortKeys := [⟨deleteColName, .bool, false⟩] }, .ok ()) := by rw [← e, ← hok]
  have w1 : WF { m with sortKeys := [⟨deleteColName, .bool, false⟩] } := by
    have := h.wf.setSortKeys [deleteColName]
    rw [e1] at this; exact this
  have E1 := orDrop_eq e1
  have hl1 : KeysLive { m with sortKeys := [⟨deleteColName, .bool, false⟩] } := by
    intro k hk'
    rw [List.mem_singleton.1 hk']; exact hD
  have hn1 : ∀ rows, (∀ x ∈ rows, x ∈ m.rows) → KeysNotNaN { m with sortKeys := [⟨deleteColName, .bool, false⟩], rows := rows } := by
    intro rows hsub k hk' r v hv
    rw [List.mem_singleton.1 hk'] at hv
    have hw : WF { m with sortKeys := [⟨deleteColName, .bool, false⟩], rows := rows } := w1.subRows hsub
    have := hw.At_hasType (n := deleteColName) (ty := .bool) hD hv
    cases v <;> simp_all [Cell.HasType, Cell.IsNaN]
  -- sorting
  obtain ⟨rows2, e2, p2, s2⟩ := sort_eq srt lower w1 (by simp) hl1 (hn1 m.rows (fun _ hx => hx))
  have E2 := orDrop_eq e2
  have hsub2 : ∀ x ∈ rows2, x ∈ m.rows := fun x hx => p2.mem_iff.1 hx
  have w2 : WF { m with sortKeys := [⟨deleteColName, .bool, false⟩], rows := rows2 } := w1.subRows hsub2
  -- searching
  obtain ⟨c1, c2, c3⟩ := C20_searchRange lower { m with sortKeys := [⟨deleteColName, .bool, false⟩], rows := rows2 }
    ⟨w2, by simp, hl1, hn1 rows2 hsub2, s2⟩ [.bool true] ⟨by simp [ValuesFit, Cell.HasType], by simp [Cell.IsNaN]⟩
  have hrlen : ∀ x ∈ m.rows, x.length = C + 2 := by
    intro x hx
    rw [(h.wf.rowsOK x hx).1, h.wf.typesLen, h.cols]
  have hmatch : ∀ r x, rows2[r]? = some x →
      (unmarked C x = false ↔ MatchingRow { m with sortKeys := [⟨deleteColName, .bool, false⟩], rows := rows2 } [.bool true] r) := by
    intro r x hx
    have hxm := hsub2 x (List.mem_of_getElem? hx)
    obtain ⟨v, hv⟩ : ∃ v, x[C + 1]? = some v := ⟨_, List.getElem?_eq_getElem (by rw [hrlen x hxm]; omega)⟩
    have hAt : At { m with sortKeys := [⟨deleteColName, .bool, false⟩], rows := rows2 } deleteColName r v := ⟨C + 1, x, h.delName, hx, hv⟩
    have hty := w2.At_hasType (n := deleteColName) (ty := .bool) hD hAt
    have hb : ∃ b, v = .bool b := by cases v <;> simp_all [Cell.HasType]
    obtain ⟨b, rfl⟩ := hb
    simp only [unmarked, hv, MatchingRow, RowMatches, and_true]
    constructor
    · intro hu
      refine ⟨(List.getElem?_eq_some_iff.1 hx).1, .bool b, hAt, ?_⟩
      cases b
      · cases hu
      · simp [Cell.EqVal]
    · rintro ⟨_, a, ha, hae⟩
      rw [At_unique w2 ha hAt] at hae
      cases b
      · simp [Cell.EqVal] at hae
      · rfl
  constructor
  · rintro ⟨s, hs, hsu⟩
    obtain ⟨r0, hr0⟩ := List.getElem?_of_mem (p2.mem_iff.2 hs)
    have hm0 := (hmatch r0 s hr0).1 hsu
    obtain ⟨a, b, hab, er, hrange⟩ : ∃ a b : Nat, a ≤ b ∧
        ({ m with sortKeys := [⟨deleteColName, .bool, false⟩], rows := rows2 } : Table τ).searchRange lower [.bool true] = .ok ((a : Int), (b : Int)) ∧
        ∀ r, MatchingRow { m with sortKeys := [⟨deleteColName, .bool, false⟩], rows := rows2 } [.bool true] r ↔ a ≤ r ∧ r ≤ b := by
      cases esr : ({ m with sortKeys := [⟨deleteColName, .bool, false⟩], rows := rows2 } : Table τ).searchRange lower [.bool true] with
      | ok xy =>
        obtain ⟨x, y⟩ := xy
        obtain ⟨a, b, rfl, rfl, q1, q2⟩ := (c1 x y).1 esr
        exact ⟨a, b, q1, rfl, q2⟩
      | err e => exact absurd hm0 (c2.1 ⟨e, esr⟩ r0)
      | panic => exact absurd esr c3
    have hb : b < rows2.length := ((hrange b).2 ⟨hab, Nat.le_refl b⟩).1
    have e4 := deleteRows_eq (t := { m with sortKeys := [⟨deleteColName, .bool, false⟩], rows := rows2 }) hab hb
    have E4 := orDrop_eq e4
    have hfilter := filter_range (unmarked C) rows2 a b hab (fun r x hx => (hmatch r x hx).trans (hrange r))
    simp only [← hfilter] at E4
    have hsub4 : ∀ x ∈ rows2.filter (unmarked C), x ∈ m.rows := fun x hx => hsub2 x (List.mem_filter.1 hx).1
    have w4 : WF { m with sortKeys := [⟨deleteColName, .bool, false⟩], rows := rows2.filter (unmarked C) } := w1.subRows hsub4
    -- the temporary columns
    obtain ⟨cm5, e5⟩ := deleteCol_eq w4 (c := C + 1) h.delName
    have w5 := w4.deleteCol deleteColName
    rw [e5] at w5
    have E5 := orDrop_eq e5
    have hT5 : (m.colNames.eraseIdx (C + 1))[C]? = some tableNumberColName := by
      rw [List.getElem?_eraseIdx_of_lt (by omega)]; exact hT
    obtain ⟨cm6, e6⟩ := deleteCol_eq w5 (c := C) hT5
    have w6 := w5.deleteCol tableNumberColName
    rw [e6] at w6
    have E6 := orDrop_eq e6
    have hrows6 : ((rows2.filter (unmarked C)).map (fun row => row.eraseIdx (C + 1))).map (fun row => row.eraseIdx C) =
        (rows2.filter (unmarked C)).map (·.take C) := by
      rw [List.map_map]
      exact List.map_congr_left fun x hx => eraseIdx_last_two (hrlen x (hsub4 x hx))
    simp only [hrows6, eraseIdx_last_two h.cols, eraseIdx_last_two (h.wf.typesLen.trans h.cols)] at E6 w6
    obtain ⟨m6, hm6⟩ : ∃ m6 : Table τ, m6 = Table.mk m.name (m.colNames.take C) (m.colTypes.take C) cm6
      ((rows2.filter (unmarked C)).map (·.take C)) [⟨deleteColName, .bool, false⟩] m.isStructShape m.isNilTable m.parent := ⟨_, rfl⟩
    rw [← hm6] at E6 w6
    have n6 : m6.colNames = m.colNames.take C := by rw [hm6]
    have t6 : m6.colTypes = m.colTypes.take C := by rw [hm6]
    have r6 : m6.rows = (rows2.filter (unmarked C)).map (·.take C) := by rw [hm6]
    -- the keys
    have hfirst : ∀ (i : Nat) (k : SortKey), t1.sortKeys[i]? = some k → i < m.sortKeys.length ∧ m6.colNames[i]? = some k.colName ∧
        ∃ ty, m6.colTypes[i]? = some ty ∧ ty.Sortable = true := by
      intro i k hik
      obtain ⟨k', q1, q2, _⟩ := dirs_get hk.symm hik
      obtain ⟨f1, f2⟩ := h.first.names i k' q1
      have hi := (List.getElem?_eq_some_iff.1 q1).1
      have hiC : i < C := Nat.lt_of_lt_of_le hi h.keys
      refine ⟨hi, by rw [n6, List.getElem?_take_of_lt hiC, f1, q2], k'.colType, by rw [t6, List.getElem?_take_of_lt hiC]; exact f2, ?_⟩
      exact (h.wf.keysOK k' (List.mem_of_getElem? q1)).1
    obtain ⟨ks, e7, d7, l7⟩ := C23_setSortKeysFromTable m6 t1 w6
      (by
        intro he
        have := dirs_length hk
        rw [he] at this
        exact h.someKey (List.length_eq_zero_iff.1 this))
      (by
        intro k hk'
        obtain ⟨i, hi⟩ := List.getElem?_of_mem hk'
        obtain ⟨_, a1, ty, a2, a3⟩ := hfirst i k hi
        exact ⟨ty, ⟨i, a1, a2⟩, a3⟩)
      (consistent_of_nodup hnd)
    have E7 := orDrop_eq e7
    have w7 : WF { m6 with sortKeys := ks } := by
      have := w6.setSortKeysFromTable t1
      rw [e7] at this; exact this
    have hnan7 : KeysNotNaN { m6 with sortKeys := ks } := by
      intro k hk' r v hv
      obtain ⟨i, hi⟩ := List.getElem?_of_mem hk'
      obtain ⟨k1, q1, q2, _⟩ := dirs_get (show dirs ks = dirs t1.sortKeys from d7) hi
      obtain ⟨a0, a1, _⟩ := hfirst i k1 q1
      obtain ⟨c, row, hc, hr, hcv⟩ := hv
      have hci : c = i := by
        have h1 := (w6.mapIff k.colName c).2 hc
        have h2 := (w6.mapIff k.colName i).2 (by rw [a1, q2])
        rw [h1] at h2; exact Option.some.inj h2
      subst hci
      have hrow : row ∈ m6.rows := List.mem_of_getElem? hr
      rw [r6] at hrow
      obtain ⟨x, hx, rfl⟩ := List.mem_map.1 hrow
      rw [List.getElem?_take_of_lt (Nat.lt_of_lt_of_le a0 h.keys)] at hcv
      refine hn x ?_ c v a0 hcv
      exact List.mem_filter.2 ⟨hsub4 x hx, (List.mem_filter.1 hx).2⟩
    obtain ⟨rows8, e8, p8, s8⟩ := sort_eq srt lower w7
      (by
        intro he
        have := dirs_length (show dirs ks = dirs t1.sortKeys from d7)
        have h2 := dirs_length hk
        simp only at he
        rw [he] at this
        rw [← this] at h2
        exact h.someKey (List.length_eq_zero_iff.1 h2)) l7 hnan7
    have E8 := orDrop_eq e8
    refine ⟨{ m6 with sortKeys := ks, rows := rows8 }, ?_, ?_⟩
    · simp only [mergeClean, E1, E2, er, E4, E5, E6, E7, E8, Out.bind]
    · exact {
        wf := w7.subRows (fun x hx => p8.mem_iff.1 hx)
        name := by simp only [hm6]
        notNil := by simp only [hm6]; exact nn
        cols := n6
        types := t6
        keys := d7
        live := l7
        sorted := s8
        rows := p8.trans (by
          show m6.rows.Perm _
          rw [r6]
          exact (p2.filter _).map _) }
  · intro hall
    obtain ⟨x, hx⟩ := c2.2 (by
      intro r hr
      obtain ⟨y, hy⟩ : ∃ y, rows2[r]? = some y := ⟨_, List.getElem?_eq_getElem hr.1⟩
      have := (hmatch r y hy).2 hr
      rw [hall y (hsub2 y (List.mem_of_getElem? hy))] at this
      cases this)
    exact ⟨x, by simp only [mergeClean, E1, E2, hx, Out.bind]⟩

end Verif
