import Verif.Props.C23
import Verif.Props.C05
import Verif.Props.Example
import Verif.Lemmas.Write
import Verif.Lemmas.Append
import Verif.Model.Nest

/-!
# C65: GetSortKeysAsTable lists the sort keys
-/

namespace Verif
variable {τ : Type}
open Table

/-- The row for the key at position `i`. -/
def keyRow (i : Nat) (k : SortKey) : List (Cell τ) := [.int .int i, .str k.colName, .str k.colType.name, .bool k.reverse]

/-- A table like that of the keys, with other rows. -/
private def keyTable (rows : List (List (Cell τ))) : Table τ :=
  { (newNilTable : Table τ) with
    name := gs! "SortKeys", isNilTable := false
    colNames := [gs! "index", gs! "colName", gs! "colType", gs! "reverse"], colTypes := [.int, .string, .string, .bool]
    colMap := [(gs! "index", 0), (gs! "colName", 1), (gs! "colType", 2), (gs! "reverse", 3)]
    rows := rows }

theorem setTyped_put {t : Table τ} (h : WF t) {vt ty : ColType} {n : GoStr} {c r : Nat} {v : Cell τ} (hv : v.HasType vt) (hn : t.colNames[c]? = some n)
    (hty : t.colTypes[c]? = some ty) (hvt : v.HasType ty) (hb : v ≠ .bytes none) (hr : r < t.rows.length) :
    t.setTyped vt n r v = (putCell t c r v, .ok ()) := by
  rcases setTyped_cases h vt n r v hv with ⟨ci, ri, ty', q1, q2, q3, q4, q5, q6, q7⟩ | ⟨q, _⟩
  · have : ri = r := by omega
    subst this
    have := h.map_unique q1 hn
    subst this
    exact q7
  · exact absurd ⟨c, r, ty, hn, rfl, hty, hr, hvt, hb⟩ q

private theorem keyTable_new (nt : Nat → Nat → τ) (t : Table τ) : t.getSortKeysAsTable nt = addKeyRows nt 0 t.sortKeys (keyTable []) := rfl

private theorem keyTable_wf : WF (keyTable ([] : List (List (Cell τ)))) := by
  refine ⟨by simp [keyTable], by simp only [keyTable]; decide, rfl, by simp [keyTable], ?_, by simp [keyTable], by simp [keyTable], fun _ => by simp only [keyTable]; decide,
    by simp [keyTable, newNilTable]⟩
  intro n i
  simp only [keyTable, GoMap.get?]
  match i with
  | 0 => grind
  | 1 => grind
  | 2 => grind
  | 3 => grind
  | i + 4 => grind

private theorem addKeyRow_ok (nt : Nat → Nat → τ) {rows : List (List (Cell τ))} (h : WF (keyTable rows)) (k : SortKey) (hb : rows.length < 9223372036854775808) :
    addKeyRow nt rows.length k (keyTable rows) = .ok (keyTable (rows ++ [keyRow rows.length k])) ∧ WF (keyTable (rows ++ [keyRow rows.length k])) := by
  have e0 := appendRow_eq nt (t := keyTable rows) rfl rfl
  have w0 := h.appendRow nt
  rw [e0] at w0
  have hl : ∀ z : List (Cell τ), rows.length < (keyTable (rows ++ [z])).rows.length := fun z => by simp [keyTable]
  have put : ∀ (z : List (Cell τ)) c v, putCell (keyTable (rows ++ [z])) c rows.length v = keyTable (rows ++ [z.set c v]) := by
    intro z c v
    simp only [putCell, keyTable]
    congr 1
    rw [List.modify_eq_take_cons_drop (by simp)]
    simp
  have set : ∀ (z : List (Cell τ)) (c : Nat) (v : Cell τ) (vt : ColType) (n : GoStr), WF (keyTable (rows ++ [z])) → v.HasType vt →
      (keyTable (rows ++ [z])).colNames[c]? = some n → (keyTable (rows ++ [z])).colTypes[c]? = some vt → v ≠ .bytes none →
      (keyTable (rows ++ [z])).setTyped vt n rows.length v = (keyTable (rows ++ [z.set c v]), .ok ()) ∧ WF (keyTable (rows ++ [z.set c v])) := by
    intro z c v vt n w hv hn hty hb
    have e := setTyped_put w hv hn hty hv hb (hl z)
    rw [put] at e
    refine ⟨e, ?_⟩
    rw [← put]; exact w.putCell hty hv (hl z)
  have w0 : WF (keyTable (rows ++ [zeroRow nt [.int, .string, .string, .bool] rows.length])) := w0
  obtain ⟨e1, w1⟩ := set _ 0 (.int .int rows.length) .int (gs! "index") w0 ⟨by omega, by omega⟩ rfl rfl (by simp)
  obtain ⟨e2, w2⟩ := set _ 1 (.str k.colName) .string (gs! "colName") w1 trivial rfl rfl (by simp)
  obtain ⟨e3, w3⟩ := set _ 2 (.str k.colType.name) .string (gs! "colType") w2 trivial rfl rfl (by simp)
  obtain ⟨e4, w4⟩ := set _ 3 (.bool k.reverse) .bool (gs! "reverse") w3 trivial rfl rfl (by simp)
  refine ⟨?_, w4⟩
  have e0 : (keyTable rows).appendRow nt = (keyTable (rows ++ [zeroRow nt [.int, .string, .string, .bool] rows.length]), .ok ()) := e0
  simp only [addKeyRow, e0, orDrop, Out.bind, e1, e2, e3, e4]
  rfl

private theorem addKeyRows_ok (nt : Nat → Nat → τ) (ks : List SortKey) : ∀ (rows : List (List (Cell τ))), WF (keyTable rows) →
    rows.length + ks.length ≤ 9223372036854775808 →
    addKeyRows nt rows.length ks (keyTable rows) = .ok (keyTable (rows ++ ks.mapIdx fun i k => keyRow (rows.length + i) k)) ∧
    WF (keyTable (rows ++ ks.mapIdx fun i k => keyRow (rows.length + i) k)) := by
  induction ks with
  | nil => intro rows h _; simpa [addKeyRows] using h
  | cons k ks ih =>
    intro rows h hb
    simp only [List.length_cons] at hb
    obtain ⟨e, w⟩ := addKeyRow_ok nt h k (by omega)
    have := ih _ w (by simp only [List.length_append, List.length_cons, List.length_nil]; omega)
    simp only [List.length_append, List.length_cons, List.length_nil, Nat.zero_add, List.append_assoc, List.singleton_append] at this
    simp only [addKeyRows, e, Out.bind, List.mapIdx_cons, Nat.add_zero]
    have e' : ∀ i, rows.length + 1 + i = rows.length + (i + 1) := by intro i; omega
    simpa only [e'] using this

/-- **C65.** `GetSortKeysAsTable` answers a table "SortKeys" with the columns index, colName, colType and reverse, and a row for each sort key, in
order.  (The table has at most 2^63 sort keys, so that the index is an int.) -/
theorem C65_keys (nt : Nat → Nat → τ) (t : Table τ) (hb : t.sortKeys.length ≤ 9223372036854775808) :
    ∃ k, t.getSortKeysAsTable nt = .ok k ∧ WF k ∧ k.name = gs! "SortKeys" ∧
      k.colNames = [gs! "index", gs! "colName", gs! "colType", gs! "reverse"] ∧ k.colTypes = [.int, .string, .string, .bool] ∧
      k.rows = t.sortKeys.mapIdx (fun i key => [.int .int i, .str key.colName, .str key.colType.name, .bool key.reverse]) := by
  obtain ⟨e, w⟩ := addKeyRows_ok nt t.sortKeys [] keyTable_wf (by simpa using hb)
  refine ⟨_, (keyTable_new nt t).trans e, w, rfl, rfl, rfl, ?_⟩
  simp [keyTable, keyRow]

/-- **C65.** `GetString("colName", i)` and `GetBool("reverse", i)` on the table of the sort keys give the column and the direction of the key `i`: what
`SetSortKeysFromTable` and `Nest` read from it are the sort keys. -/
theorem C65_names (nt : Nat → Nat → τ) (t k : Table τ) (hb : t.sortKeys.length ≤ 9223372036854775808) (hk : t.getSortKeysAsTable nt = .ok k) :
    k.rowCount = t.sortKeys.length ∧ ∀ i key, t.sortKeys[i]? = some key →
      k.getTyped .string (gs! "colName") (i : Nat) = .ok (.str key.colName) ∧ k.getTyped .bool (gs! "reverse") (i : Nat) = .ok (.bool key.reverse) := by
  obtain ⟨k', e, w, _, h1, h2, h3⟩ := C65_keys nt t hb
  rw [hk] at e; cases e
  refine ⟨by rw [rowCount, h3]; simp, fun i key hi => ?_⟩
  have hrow : k.rows[i]? = some [.int .int i, .str key.colName, .str key.colType.name, .bool key.reverse] := by rw [h3]; simp [hi]
  exact ⟨((C05_getTyped k w .string (gs! "colName") i).1 _).2 ⟨i, rfl, ⟨1, _, by rw [h1]; rfl, hrow, rfl⟩, trivial⟩,
    ((C05_getTyped k w .bool (gs! "reverse") i).1 _).2 ⟨i, rfl, ⟨3, _, by rw [h1]; rfl, hrow, rfl⟩, trivial⟩⟩

-- the example table
example : (Ex.t.getSortKeysAsTable fun _ _ => ()).bind (fun k => .ok k.rows) =
    .ok [[.int .int 0, .str (gs! "age"), .str (gs! "int"), .bool false]] := by decide +kernel
example : Ex.t.sortKeys.length ≤ 9223372036854775808 := by decide +kernel

end Verif
