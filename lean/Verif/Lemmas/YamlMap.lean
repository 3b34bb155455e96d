import Verif.Model.Yaml
import Verif.Lemmas.Tree
import Verif.Lemmas.WalkDepth
import Verif.Lemmas.MergeCells

/-!
# Lemmas: tables as maps
-/

namespace Verif
open Table

variable {σ : Type} {H : Heap}

/-! ## Walking one table -/

theorem forEach_flatMap {ι κ : Type} (f : κ → σ → σ × Out Unit) (g : ι → List κ) : ∀ (l : List ι) (u : σ), forEach f (l.flatMap g) u = forEach (fun i => forEach f (g i)) l u
  | [], _ => rfl
  | i :: l, u => by
    rw [List.flatMap_cons, forEach_append]
    simp only [forEach]
    rcases forEach f (g i) u with ⟨u', (_ | e | _)⟩
    · exact forEach_flatMap f g l u'
    · rfl
    · rfl

/-- A piece of a walk that leaves the tables alone. -/
def Runs (H : Heap) (vis : Event → σ → σ × Out Unit) (step : WalkStep σ) (evs : List Event) : Prop :=
  ∀ safe u, step ⟨H, safe, u⟩ = (⟨H, safe, (forEach vis evs u).1⟩, (forEach vis evs u).2)

theorem Runs.andThen {vis : Event → σ → σ × Out Unit} {s1 s2 : WalkStep σ} {e1 e2 : List Event} (h1 : Runs H vis s1 e1) (h2 : Runs H vis s2 e2) :
    Runs H vis (andThen s1 s2) (e1 ++ e2) := by
  intro safe u
  unfold Verif.andThen
  rw [h1, forEach_append]
  rcases forEach vis e1 u with ⟨u', (_ | e | _)⟩
  · exact h2 safe u'
  · rfl
  · rfl

theorem Runs.forEach {ι : Type} {vis : Event → σ → σ × Out Unit} {f : ι → WalkStep σ} {e : ι → List Event} : ∀ (l : List ι), (∀ i ∈ l, Runs H vis (f i) (e i)) →
    Runs H vis (Verif.forEach f l) (l.flatMap e)
  | [], _ => fun _ _ => rfl
  | i :: l, h => by
    rw [forEach_andThen]
    exact (h i (by simp)).andThen (Runs.forEach l fun j hj => h j (by simp [hj]))

theorem Runs.call {vis : Event → σ → σ × Out Unit} {visit : Event → WalkStep σ} (hv : Reads H visit vis) (e : Event) : Runs H vis (visit e) [e] := by
  intro safe u
  rw [hv]
  simp only [Verif.forEach]
  rcases vis e u with ⟨u', (_ | er | _)⟩ <;> rfl

theorem walk_flat {vis : Event → σ → σ × Out Unit} {visit : Event → WalkStep σ} (hv : Reads H visit vis) {a : Addr} {t : Table Addr} (ht : H[a]? = some t) (hw : WF t) (d : Nat) :
    Runs H vis (walk visit false (d + 1) a) (.table a :: (List.range t.rows.length).flatMap fun r => .row a r :: (List.range t.colNames.length).map fun c => .cell a c r) := by
  have hcell : ∀ r, ∀ c ∈ List.range t.colNames.length, Runs H vis (walkCell visit false (walk visit false d) a r c) [.cell a c r] := by
    intro r c hc safe u
    rw [List.mem_range] at hc
    have ect := List.getElem?_eq_getElem (l := t.colTypes) (i := c) (by rw [hw.typesLen]; exact hc)
    have ecn : t.colName (c : Int) = .ok t.colNames[c] := colName_nat (List.getElem?_eq_getElem hc)
    have := ((Runs.call hv (.cell a c r)).andThen (s2 := fun s => (s, .ok ())) (e2 := []) fun _ _ => rfl) safe u
    simp only [walkCell, ht, ect, ecn, Bool.false_eq_true, false_and, if_false]
    exact this
  intro safe u
  have := ((Runs.call hv (.table a)).andThen (Runs.forEach (List.range t.rows.length) fun r _ =>
    (Runs.call hv (.row a r)).andThen (Runs.forEach (List.range t.colNames.length) fun c hc => hcell r c hc))) safe u
  simp only [walk, ht, colCount, rowCount]
  simp only [List.map_eq_flatMap]
  exact this

/-! ## What the visitor makes of a table -/

/-- The value of a cell. -/
def cellVal (nested : Addr → Out (List (GoStr × GoVal))) : Cell Addr → Out GoVal
  | .tbl (some b) => (nested b).bind fun m => .ok (.map m)
  | c => .ok (.val c)

def cellVals (nested : Addr → Out (List (GoStr × GoVal))) : List (Cell Addr) → Out (List GoVal)
  | [] => .ok []
  | c :: cs => (cellVal nested c).bind fun v => (cellVals nested cs).bind fun vs => .ok (v :: vs)

def rowVals (nested : Addr → Out (List (GoStr × GoVal))) : List (List (Cell Addr)) → Out (List (List GoVal))
  | [] => .ok []
  | r :: rs => (cellVals nested r).bind fun v => (rowVals nested rs).bind fun vs => .ok (v :: vs)

/-- The members of the map but "data". -/
def headMembers (t : Table Addr) : List (GoStr × GoVal) :=
  [(gs! "tableName", .val (.str t.name))] ++ (if t.isStructShape then [(gs! "isStructShape", .val (.bool true))] else []) ++
    [(gs! "metadata", .list ((t.colNames.zip t.colTypes).map fun (n, ty) => .map [(n, .val (.str (yamlType ty)))]))]

/-- The visitor's own variables. -/
def visMap (H : Heap) (nested : Addr → Out (List (GoStr × GoVal))) (e : Event) (u : MapState) : MapState × Out Unit :=
  ((visitMap nested e ⟨H, [], u⟩).1.user, (visitMap nested e ⟨H, [], u⟩).2)

theorem visitMap_reads (nested : Addr → Out (List (GoStr × GoVal))) : Reads H (visitMap nested) (visMap H nested) := by
  intro e safe u
  unfold visMap
  cases e with
  | table a =>
    simp only [visitMap]
    cases H[a]? <;> rfl
  | row a r =>
    simp only [visitMap]
    cases H[a]? with
    | none => rfl
    | some t => dsimp only; split <;> rfl
  | cell a c r =>
    simp only [visitMap]
    cases H[a]? with
    | none => rfl
    | some t =>
      dsimp only
      cases t.colTypes[c]? with
      | none => rfl
      | some ty =>
        dsimp only
        split
        · rfl
        · rfl
        · split
          · rfl
          · split <;> rfl

theorem visMap_cell {nested : Addr → Out (List (GoStr × GoVal))} {a : Addr} {t : Table Addr} (ht : H[a]? = some t) (hw : WF t) {c r : Nat} {row : List (Cell Addr)} {x : Cell Addr}
    (hr : t.rows[r]? = some row) (hx : row[c]? = some x) {u : MapState} {yrow : List GoVal} (hu : u.data[u.row]? = some yrow) (hl : c < yrow.length) :
    visMap H nested (.cell a c r) u =
      match cellVal nested x with
      | .ok v => ({ u with data := u.data.set u.row (yrow.set c v) }, .ok ())
      | .err e => (u, .err e)
      | .panic => (u, .panic) := by
  obtain ⟨l, hok⟩ := hw.rowsOK row (List.mem_of_getElem? hr)
  have hct : c < t.colTypes.length := by rw [← l]; exact (List.getElem?_eq_some_iff.1 hx).1
  have ety := List.getElem?_eq_getElem hct
  have hty := hok c _ _ ety hx
  have hg := getTypedByColIndex_cell ety hr hx hty
  generalize t.colTypes[c] = ty at ety hty hg
  have hm : mapVal nested ty x = cellVal nested x := by
    unfold mapVal
    split
    · rename_i h; subst h
      cases x with
      | tbl o => cases o with
        | none => simp [Cell.HasType] at hty
        | some b => rfl
      | _ => simp [Cell.HasType] at hty
    · rename_i h
      cases x with
      | tbl o => exfalso; cases ty <;> simp [Cell.HasType] at hty h
      | _ => rfl
  have hb : (t.getTypedByColIndex ty (c : Int) (r : Int)).bind (mapVal nested ty) = cellVal nested x := by rw [hg]; exact hm
  unfold visMap
  simp only [visitMap, ht, ety, hb]
  cases cellVal nested x with
  | err e => rfl
  | panic => rfl
  | ok v => simp only [hu, hl, if_true]

theorem visMap_cells {nested : Addr → Out (List (GoStr × GoVal))} {a : Addr} {t : Table Addr} (ht : H[a]? = some t) (hw : WF t) {r : Nat} {row : List (Cell Addr)} (hr : t.rows[r]? = some row) :
    ∀ (cs : List (Cell Addr)) (pre : List GoVal) (u : MapState), row.drop pre.length = cs → u.data[u.row]? = some (pre ++ List.replicate cs.length (.val .nil)) →
      ∃ u', forEach (visMap H nested) ((List.range' pre.length cs.length).map fun c => Event.cell a c r) u = (u', (cellVals nested cs).bind fun _ => .ok ()) ∧
        ∀ vs, cellVals nested cs = .ok vs → u' = { u with data := u.data.set u.row (pre ++ vs) }
  | [], pre, u, _, hu => by
    refine ⟨u, rfl, ?_⟩
    intro vs hvs
    cases hvs
    simp only [List.length_nil, List.replicate_zero, List.append_nil] at hu ⊢
    obtain ⟨h1, h2⟩ := List.getElem?_eq_some_iff.1 hu
    rw [← h2, List.set_getElem_self]
  | x :: cs, pre, u, hd, hu => by
    have hx : row[pre.length]? = some x := by
      have := List.getElem?_drop (xs := row) (i := pre.length) (j := 0)
      rw [hd] at this
      simpa using this.symm
    have hstep := visMap_cell (nested := nested) ht hw hr hx hu (by simp)
    rw [List.length_cons, List.range'_succ, List.map_cons]
    simp only [forEach]
    rw [hstep]
    simp only [cellVals]
    cases hv : cellVal nested x with
    | err e => exact ⟨u, rfl, by intro vs h; cases h⟩
    | panic => exact ⟨u, rfl, by intro vs h; cases h⟩
    | ok v =>
      have hlt := (List.getElem?_eq_some_iff.1 hu).1
      have hset : (pre ++ List.replicate (x :: cs).length (GoVal.val .nil)).set pre.length v = (pre ++ [v]) ++ List.replicate cs.length (GoVal.val .nil) := by
        rw [List.length_cons, List.replicate_succ, List.set_append_right _ _ (Nat.le_refl _)]
        simp
      obtain ⟨u', e1, e2⟩ := visMap_cells (nested := nested) ht hw hr cs (pre ++ [v]) { u with data := u.data.set u.row ((pre ++ [v]) ++ List.replicate cs.length (GoVal.val .nil)) }
        (by rw [List.length_append, List.length_singleton, ← List.drop_drop, hd]; rfl)
        (by simp only; rw [List.getElem?_set_self hlt])
      simp only [hset]
      refine ⟨u', ?_, ?_⟩
      · rw [List.length_append, List.length_singleton] at e1
        rw [e1]
        simp only [Out.bind]
        cases cellVals nested cs <;> rfl
      · intro vs hvs
        simp only [Out.bind] at hvs
        cases hcs : cellVals nested cs with
        | err e => rw [hcs] at hvs; cases hvs
        | panic => rw [hcs] at hvs; cases hvs
        | ok ws =>
          rw [hcs] at hvs
          cases hvs
          rw [e2 ws hcs]
          simp

theorem visMap_rows {nested : Addr → Out (List (GoStr × GoVal))} {a : Addr} {t : Table Addr} (ht : H[a]? = some t) (hw : WF t) :
    ∀ (rs : List (List (Cell Addr))) (pre : List (List GoVal)) (u : MapState), t.rows.drop pre.length = rs → u.data = pre ++ List.replicate rs.length [] →
      ∃ u', forEach (visMap H nested) ((List.range' pre.length rs.length).flatMap fun r => .row a r :: (List.range t.colNames.length).map fun c => Event.cell a c r) u =
          (u', (rowVals nested rs).bind fun _ => .ok ()) ∧
        ∀ vs, rowVals nested rs = .ok vs → u'.table = u.table ∧ u'.data = pre ++ vs
  | [], pre, u, _, hu => by
    refine ⟨u, rfl, ?_⟩
    intro vs hvs
    cases hvs
    exact ⟨rfl, by simpa using hu⟩
  | row :: rs, pre, u, hd, hu => by
    have hrow : t.rows[pre.length]? = some row := by
      have := List.getElem?_drop (xs := t.rows) (i := pre.length) (j := 0)
      rw [hd] at this
      simpa using this.symm
    have hlen := (hw.rowsOK row (List.mem_of_getElem? hrow)).1
    rw [List.length_cons, List.range'_succ, List.flatMap_cons, forEach_append]
    have hlt : pre.length < u.data.length := by rw [hu]; simp
    have hset : u.data.set pre.length (List.replicate t.colNames.length (GoVal.val .nil)) = (pre ++ [List.replicate t.colNames.length (GoVal.val .nil)]) ++ List.replicate rs.length [] := by
      rw [hu, List.length_cons, List.replicate_succ, List.set_append_right _ _ (Nat.le_refl _)]
      simp
    have hvr : visMap H nested (.row a pre.length) u =
        ({ u with data := (pre ++ [List.replicate t.colNames.length (GoVal.val .nil)]) ++ List.replicate rs.length [], row := pre.length }, .ok ()) := by
      unfold visMap
      simp only [visitMap, ht, hlt, if_true, hset]
    obtain ⟨u1, e1, e2⟩ := visMap_cells (nested := nested) ht hw hrow row [] { u with data := (pre ++ [List.replicate t.colNames.length (GoVal.val .nil)]) ++ List.replicate rs.length [], row := pre.length }
      rfl (by simp [hlen, hw.typesLen])
    simp only [List.length_nil, ← List.range_eq_range', hlen, hw.typesLen] at e1
    simp only [forEach]
    rw [hvr]
    simp only [rowVals]
    rw [e1]
    cases hv : cellVals nested row with
    | err e => exact ⟨u1, rfl, by intro vs h; cases h⟩
    | panic => exact ⟨u1, rfl, by intro vs h; cases h⟩
    | ok v =>
      have hu1 := e2 v hv
      have hset2 : ((pre ++ [List.replicate t.colNames.length (GoVal.val .nil)]) ++ List.replicate rs.length []).set pre.length ([] ++ v) = (pre ++ [v]) ++ List.replicate rs.length [] := by
        rw [List.append_assoc, List.set_append_right _ _ (Nat.le_refl _)]
        simp
      simp only [hset2] at hu1
      obtain ⟨u', f1, f2⟩ := visMap_rows (nested := nested) ht hw rs (pre ++ [v]) u1
        (by rw [List.length_append, List.length_singleton, ← List.drop_drop, hd]; rfl) (by rw [hu1])
      simp only [Out.bind]
      refine ⟨u', ?_, ?_⟩
      · rw [List.length_append, List.length_singleton] at f1
        rw [f1]
        cases rowVals nested rs <;> rfl
      · intro vs hvs
        cases hcs : rowVals nested rs with
        | err e => rw [hcs] at hvs; cases hvs
        | panic => rw [hcs] at hvs; cases hvs
        | ok ws =>
          rw [hcs] at hvs
          cases hvs
          obtain ⟨g1, g2⟩ := f2 ws hcs
          rw [g1, g2, hu1]
          simp

theorem getTableAsMap_eq {a : Addr} {t : Table Addr} (ht : H[a]? = some t) (hw : WF t) (d : Nat) :
    getTableAsMap H (d + 1) a = (rowVals (getTableAsMap H d) t.rows).bind fun data => .ok (headMembers t ++ [(gs! "data", .list (data.map .list))]) := by
  unfold getTableAsMap
  rw [walk_flat (visitMap_reads _) ht hw 0]
  have hvt : visMap H (getTableAsMap H d) (.table a) ⟨[], [], 0⟩ = (⟨headMembers t, List.replicate t.rows.length [], 0⟩, .ok ()) := by
    unfold visMap
    simp only [visitMap, ht, headMembers]
  obtain ⟨u', e1, e2⟩ := visMap_rows (nested := getTableAsMap H d) ht hw t.rows [] ⟨headMembers t, List.replicate t.rows.length [], 0⟩ rfl rfl
  simp only [List.length_nil, ← List.range_eq_range'] at e1
  simp only [forEach]
  rw [hvt]
  simp only
  rw [e1]
  cases hv : rowVals (getTableAsMap H d) t.rows with
  | err e => rfl
  | panic => rfl
  | ok data =>
    obtain ⟨g1, g2⟩ := e2 data hv
    simp only [Out.bind, g1, g2, List.nil_append]

end Verif
