import Verif.Lemmas.Parents
import Verif.Props.C39
import Verif.Props.C76

/-!
# C77: `ParentTable`

`parentTable H b` is what `ParentTable` returns for the table `b` in memory `H`; one would expect the table whose cell holds `b`.
-/

namespace Verif
open Table

/-- Every nested table says that its parent is the table that holds it. -/
def ParentsAgree (H : Heap) : Prop := ∀ a c r b, HoldsAt H a c r b → parentTable H b = some a

/-- What is common to `SetTable` and `SetTableByColIndex`: the parent is set, and perhaps a cell. -/
structure Stored (H : Heap) (a b : Addr) (K : Heap) (o : Out Unit) : Prop where
  parents : ∀ x, parentTable K x = if x = b then some a else parentTable H x
  failed : o ≠ .ok () → ∀ x c r y, HoldsAt K x c r y ↔ HoldsAt H x c r y
  ok : o = .ok () → ∃ c r, ∀ x c' r' y, HoldsAt K x c' r' y ↔ if x = a ∧ c' = c ∧ r' = r then y = b else HoldsAt H x c' r' y

theorem holdsAt_set {H : Heap} {a : Addr} {t : Table Addr} {x y : Addr} {c r : Nat} (ha : a < H.length) :
    HoldsAt (H.set a t) x c r y ↔ if x = a then nestedAt t c r = some y else HoldsAt H x c r y := by
  unfold HoldsAt
  by_cases e : x = a
  · subst e
    rw [List.getElem?_set_self ha, if_pos rfl]
    exact ⟨fun ⟨u, h1, h2⟩ => by cases h1; exact h2, fun h => ⟨t, rfl, h⟩⟩
  · rw [List.getElem?_set_ne (Ne.symm e), if_neg e]

theorem nestedAt_putCell {t : Table Addr} {c r c' r' : Nat} {b y : Addr} (hc : ∀ row, t.rows[r]? = some row → c < row.length) (hr : r < t.rows.length) :
    nestedAt (putCell t c r (.tbl (some b))) c' r' = some y ↔ if c' = c ∧ r' = r then y = b else nestedAt t c' r' = some y := by
  have hrow := List.getElem?_eq_getElem hr
  by_cases e : r' = r
  · subst e
    have hlt := hc _ hrow
    by_cases e2 : c' = c
    · subst e2
      simp only [nestedAt, putCell, List.getElem?_modify, hrow, Option.map_eq_map, Option.map_some, if_true, List.getElem?_set_self hlt, and_self,
        Option.some.injEq]
      exact eq_comm
    · simp only [nestedAt, putCell, List.getElem?_modify, hrow, Option.map_eq_map, Option.map_some, if_true, List.getElem?_set_ne (Ne.symm e2), e2,
        false_and, if_false]
  · have : ¬ (r = r') := fun h => e h.symm
    simp only [nestedAt, putCell, List.getElem?_modify, this, if_false, e, and_false]
    cases t.rows[r']? <;> simp

theorem stored_of {H : Heap} (hwf : HeapWF H) {a b : Addr} {new t : Table Addr} (hb : H[b]? = some new) (ha : H[a]? = some t)
    (f : Table Addr → Table Addr × Out Unit)
    (hf : ∀ u, WF u → (∃ c r, c < u.colTypes.length ∧ r < u.rows.length ∧ f u = (putCell u c r (.tbl (some b)), .ok ())) ∨ ((f u).1 = u ∧ (f u).2 ≠ .ok ())) :
    ∃ u, (H.set b { new with parent := some a })[a]? = some u ∧
      Stored H a b (((H.set b { new with parent := some a }).set a (f u).1)) (f u).2 := by
  have hbl := (List.getElem?_eq_some_iff.1 hb).1
  have hal := (List.getElem?_eq_some_iff.1 ha).1
  have hu : ∃ u, (H.set b { new with parent := some a })[a]? = some u ∧ WF u ∧ u.rows = t.rows ∧ u.colTypes = t.colTypes := by
    by_cases e : b = a
    · subst e
      rw [hb] at ha; cases ha
      exact ⟨_, List.getElem?_set_self hbl, (hwf.get hb).setParent _, rfl, rfl⟩
    · exact ⟨t, by rw [List.getElem?_set_ne e]; exact ha, hwf.get ha, rfl, rfl⟩
  obtain ⟨u, hu, hw, hrows, hct⟩ := hu
  have hal' : a < (H.set b { new with parent := some a }).length := by rw [List.length_set]; exact hal
  have hn : ∀ c r, nestedAt u c r = nestedAt t c r := fun c r => by simp only [nestedAt, hrows]
  have hnew : ∀ c r, nestedAt { new with parent := some a } c r = nestedAt new c r := fun c r => rfl
  have hold : ∀ x c r y, HoldsAt (H.set b { new with parent := some a }) x c r y ↔ HoldsAt H x c r y := by
    intro x c r y
    rw [holdsAt_set hbl]
    by_cases e : x = b
    · subst e
      rw [if_pos rfl, hnew]
      exact ⟨fun h => ⟨new, hb, h⟩, fun ⟨v, h1, h2⟩ => by rw [hb] at h1; cases h1; exact h2⟩
    · rw [if_neg e]
  have hpar : ∀ v : Table Addr, v.parent = u.parent → ∀ x, parentTable ((H.set b { new with parent := some a }).set a v) x = if x = b then some a else parentTable H x := by
    intro v hv x
    rw [parentTable_set hu hv]
    unfold parentTable
    by_cases e : x = b
    · subst e
      rw [List.getElem?_set_self hbl, if_pos rfl]; rfl
    · rw [List.getElem?_set_ne (Ne.symm e), if_neg e]
  refine ⟨u, hu, ?_⟩
  rcases hf u hw with ⟨c, r, hc, hr, e⟩ | ⟨e1, e2⟩
  · rw [e]
    refine ⟨hpar _ rfl, fun h => absurd rfl h, fun _ => ⟨c, r, ?_⟩⟩
    intro x c' r' y
    have hc' : ∀ row, u.rows[r]? = some row → c < row.length := fun row hrow => by
      rw [(hw.rowsOK row (List.mem_of_getElem? hrow)).1]; exact hc
    rw [holdsAt_set hal', nestedAt_putCell hc' hr]
    by_cases e : x = a
    · subst e
      simp only [if_true, true_and]
      split
      · rfl
      · rw [← hold]
        exact ⟨fun h => ⟨u, hu, h⟩, fun ⟨v, h1, h2⟩ => by rw [hu] at h1; cases h1; exact h2⟩
    · simp only [e, if_false, false_and]
      exact hold x c' r' y
  · refine ⟨hpar _ (by rw [e1]), fun _ x c r y => ?_, fun h => absurd h e2⟩
    rw [e1, holdsAt_set hal']
    by_cases e : x = a
    · subst e
      rw [if_pos rfl, ← hold]
      exact ⟨fun h => ⟨u, hu, h⟩, fun ⟨v, h1, h2⟩ => by rw [hu] at h1; cases h1; exact h2⟩
    · rw [if_neg e]; exact hold x c r y

theorem setTableAt_stored {H : Heap} (hwf : HeapWF H) {a b : Addr} (ha : a < H.length) (hb : b < H.length) (colName : GoStr) (r : Int) :
    Stored H a b (setTableAt H a colName r b).1 (setTableAt H a colName r b).2 := by
  have ha' := List.getElem?_eq_getElem ha
  have hb' := List.getElem?_eq_getElem hb
  obtain ⟨u, hu, h⟩ := stored_of hwf hb' ha' (fun u => u.setTyped .table colName r (.tbl (some b))) fun u hw => by
    rcases setTyped_cases hw .table colName r (.tbl (some b)) trivial with ⟨ci, ri, ty, _, _, h3, h4, _, _, e⟩ | ⟨_, er, e⟩
    · exact .inl ⟨ci, ri, (List.getElem?_eq_some_iff.1 h3).1, h4, e⟩
    · exact .inr ⟨by simp only [e], by simp only [e]; exact fun h => nomatch h⟩
  simp only [setTableAt, ha', hb', hu]
  exact h

theorem setTableByColIndexAt_stored {H : Heap} (hwf : HeapWF H) {a b : Addr} (ha : a < H.length) (hb : b < H.length) (c r : Int) :
    Stored H a b (setTableByColIndexAt H a c r b).1 (setTableByColIndexAt H a c r b).2 := by
  have ha' := List.getElem?_eq_getElem ha
  have hb' := List.getElem?_eq_getElem hb
  obtain ⟨u, hu, h⟩ := stored_of hwf hb' ha' (fun u => u.setTypedByColIndex .table c r (.tbl (some b))) fun u hw => by
    rcases setTypedByColIndex_cases hw .table c r (.tbl (some b)) trivial with ⟨ci, ri, ty, _, _, h3, h4, _, _, e⟩ | ⟨_, _, er, e⟩ | ⟨_, _, e⟩
    · exact .inl ⟨ci, ri, (List.getElem?_eq_some_iff.1 h3).1, h4, e⟩
    · exact .inr ⟨by simp only [e], by simp only [e]; exact fun h => nomatch h⟩
    · exact .inr ⟨by simp only [e], by simp only [e]; exact fun h => nomatch h⟩
  simp only [setTableByColIndexAt, ha', hb', hu]
  exact h

/-- C77: `SetTable` and `SetTableByColIndex` make the receiver the parent of the table passed, and change no other parent — also when they
return an error and store nothing. -/
theorem C77_sets (H : Heap) (hwf : HeapWF H) (a b : Addr) (ha : a < H.length) (hb : b < H.length) (K : Heap)
    (h : (∃ colName r, K = (setTableAt H a colName r b).1) ∨ ∃ c r, K = (setTableByColIndexAt H a c r b).1) :
    parentTable K b = some a ∧ ∀ x, x ≠ b → parentTable K x = parentTable H x := by
  rcases h with ⟨n, r, rfl⟩ | ⟨c, r, rfl⟩
  · have h := (setTableAt_stored hwf ha hb n r).parents
    exact ⟨by rw [h, if_pos rfl], fun x hx => by rw [h, if_neg hx]⟩
  · have h := (setTableByColIndexAt_stored hwf ha hb c r).parents
    exact ⟨by rw [h, if_pos rfl], fun x hx => by rw [h, if_neg hx]⟩

theorem Stored.agree {H K : Heap} {a b : Addr} {o : Out Unit} (h : Stored H a b K o) (ho : o = .ok ()) (hp : ParentsAgree H)
    (hb : ∀ x c r, HoldsAt H x c r b → x = a) : ParentsAgree K := by
  obtain ⟨c, r, hk⟩ := h.ok ho
  intro x c' r' y hy
  rw [h.parents]
  have := (hk x c' r' y).1 hy
  by_cases e : y = b
  · rw [if_pos e]
    subst e
    split at this
    · rename_i e; rw [e.1]
    · rw [hb x c' r' this]
  · rw [if_neg e]
    split at this
    · exact absurd this e
    · exact hp x c' r' y this

/-- C77, what holds: storing a table with `SetTable` or `SetTableByColIndex` keeps parents and cells in agreement, if no other table holds the
table stored.  Missing: tables stored by `SetVal` and the cells of new columns and of copies, for which it is false. -/
theorem C77_store_partial (H : Heap) (hwf : HeapWF H) (hp : ParentsAgree H) (a b : Addr) (ha : a < H.length) (hb : b < H.length)
    (hfree : ∀ x c r, HoldsAt H x c r b → x = a) (K : Heap)
    (h : (∃ colName r, setTableAt H a colName r b = (K, .ok ())) ∨ ∃ c r, setTableByColIndexAt H a c r b = (K, .ok ())) : ParentsAgree K := by
  rcases h with ⟨n, r, e⟩ | ⟨c, r, e⟩
  · have := setTableAt_stored hwf ha hb n r
    rw [e] at this
    exact this.agree rfl hp hfree
  · have := setTableByColIndexAt_stored hwf ha hb c r
    rw [e] at this
    exact this.agree rfl hp hfree

/-- C77: reading a text keeps parents and cells in agreement, so they agree in every table that is read. -/
theorem C77_text (env : TextEnv) (H0 : Heap) (hw : HeapWF H0) (hcl : Closed H0) (hp : ParentsAgree H0) (s : GoStr) (H : Heap) (set : TableSet)
    (h : newTableSetFromString env H0 s = .ok (H, set)) : ParentsAgree H := by
  have hi : PInv H0 (startState H0) := by
    refine ⟨⟨⟨[], by simp [startState]⟩, hw, ?_, by simp [startState, newTableSet], by simp [startState, newTableSet, setNames]⟩, by simp [startState],
      by simp [startState], by simp [startState], by simp [startState]⟩
    intro t ht row hr b hb
    obtain ⟨a, ha⟩ := List.mem_iff_getElem?.1 ht
    obtain ⟨r, hr⟩ := List.mem_iff_getElem?.1 hr
    obtain ⟨i, hi⟩ := List.mem_iff_getElem?.1 hb
    exact hcl a b ((nestedIn_iff hw).2 ⟨i, r, t, ha, by simp only [nestedAt, hr, hi]⟩)
  have hs : Parented (startState H0) := ⟨ownedBut_iff.2 hp, fun hx => by simp [startState] at hx, fun hx => by simp [startState] at hx⟩
  obtain ⟨p, hpe, e⟩ := Out.bind_ok h
  simp only [Out.ok.injEq, Prod.mk.injEq] at e
  obtain ⟨rfl, rfl⟩ := e
  exact ownedBut_iff.1 (parseLines_owned env hs hi _ p hpe).owned

theorem inv_self {H : Heap} (hw : HeapWF H) (hcl : Closed H) {a : Addr} {t : Table Addr} (ha : H[a]? = some t) (hn : t.isNilTable = false) :
    Inv [] H { newTableSet [] with tables := [a] } where
  ext := ⟨H, rfl⟩
  wf := hw
  below := by
    intro t ht row hr b hb
    obtain ⟨a, ha⟩ := List.mem_iff_getElem?.1 ht
    obtain ⟨r, hr⟩ := List.mem_iff_getElem?.1 hr
    obtain ⟨i, hi⟩ := List.mem_iff_getElem?.1 hb
    exact hcl a b ((nestedIn_iff hw).2 ⟨i, r, t, ha, by simp only [nestedAt, hr, hi]⟩)
  tables := by
    intro b hb
    rw [List.mem_singleton.1 hb]
    exact ⟨Nat.zero_le _, t, ha, hn⟩
  names := by simp [setNames]

/-- C77: so does appending a row. -/
theorem C77_appendRow (H : Heap) (hw : HeapWF H) (hcl : Closed H) (hp : ParentsAgree H) (a : Addr) (t : Table Addr) (ha : H[a]? = some t)
    (hn : t.isNilTable = false) (K : Heap) (h : appendRowAt H a = .ok K) : ParentsAgree K :=
  ownedBut_iff.1 (appendRowAt_owned (inv_self hw hcl ha hn) (ownedBut_iff.2 hp) (by simp) K h)

/-- C77, false: the tables in the cells of a new column have no parent, though each is held by the table. -/
theorem C77_appendCol (H : Heap) (hw : HeapWF H) (a : Addr) (t : Table Addr) (ha : H[a]? = some t) (n : GoStr) (K : Heap)
    (h : appendColAt H a n (gs! "*Table") = .ok K) (r : Nat) (hr : r < t.rows.length) :
    ∃ b, HoldsAt K a t.colNames.length r b ∧ parentTable K b = none := by
  have hal := (List.getElem?_eq_some_iff.1 ha).1
  have hwt := hw.get ha
  simp only [appendColAt, ha] at h
  rcases appendCol_cases (fun _ r => H.length + r) hwt n (gs! "*Table") with ⟨ty, _, _, _, _, hty, e⟩ | ⟨_, er, e⟩
  · rw [e] at h
    simp only [Out.ok.injEq] at h
    subst h
    have : ty = .table := by cases ty <;> first | rfl | (exact absurd hty (by decide))
    subst this
    refine ⟨H.length + r, ⟨_, by rw [List.getElem?_append_left (by simpa using hal)]; exact List.getElem?_set_self hal, ?_⟩, ?_⟩
    · have hl : (t.rows[r]).length = t.colNames.length := by
        rw [(hwt.rowsOK _ (List.getElem_mem hr)).1]; exact hwt.typesLen
      simp only [nestedAt, addZeroCol, List.getElem?_mapIdx, List.getElem?_eq_getElem hr, Option.map_some]
      rw [← hl]
      simp [zeroCell]
    · simp only [parentTable]
      rw [List.getElem?_append_right (by rw [List.length_set]; omega), List.length_set, Nat.add_sub_cancel_left, List.getElem?_replicate, if_pos hr]
      rfl
  · rw [e] at h; cases h

/-- C77, false: a table that has been replaced keeps its parent, though that table does not hold it any more (nor does any other, if tables were
not shared). -/
theorem C77_replaced (H : Heap) (hwf : HeapWF H) (hp : ParentsAgree H) (hs : NoSharing H) (a b old : Addr) (ha : a < H.length) (hb : b < H.length)
    (c r : Nat) (hold : HoldsAt H a c r old) (hne : old ≠ b) (K : Heap) (h : setTableByColIndexAt H a c r b = (K, .ok ())) :
    parentTable K old = some a ∧ ∀ x c' r', ¬ HoldsAt K x c' r' old := by
  have hst := setTableByColIndexAt_stored hwf ha hb (c : Int) (r : Int)
  rw [h] at hst
  have ha' := List.getElem?_eq_getElem ha
  have hb' := List.getElem?_eq_getElem hb
  have hcell : HoldsAt K a c r b := by
    have hbl := hb
    obtain ⟨u, hu, hw⟩ : ∃ u, (H.set b { H[b] with parent := some a })[a]? = some u ∧ WF u := by
      by_cases e : b = a
      · subst e; exact ⟨_, List.getElem?_set_self hbl, (hwf.get hb').setParent _⟩
      · exact ⟨_, by rw [List.getElem?_set_ne e]; exact ha', hwf.get ha'⟩
    have hal' := (List.getElem?_eq_some_iff.1 hu).1
    simp only [setTableByColIndexAt, ha', hb', hu] at h
    rcases setTypedByColIndex_cases hw .table (c : Int) (r : Int) (.tbl (some b)) trivial with ⟨ci, ri, ty, h1, h2, h3, h4, _, _, e⟩ | ⟨_, _, er, e⟩ | ⟨_, _, e⟩
    · rw [e] at h
      have h1 : c = ci := by omega
      have h2 : r = ri := by omega
      subst h1 h2
      simp only [Prod.mk.injEq, and_true] at h
      subst h
      rw [holdsAt_set hal', if_pos rfl, nestedAt_putCell _ h4, if_pos ⟨rfl, rfl⟩]
      intro row hrow
      rw [(hw.rowsOK row (List.mem_of_getElem? hrow)).1]
      exact (List.getElem?_eq_some_iff.1 h3).1
    · rw [e] at h; simp at h
    · rw [e] at h; simp at h
  obtain ⟨c0, r0, hk⟩ := hst.ok rfl
  have hcr : c = c0 ∧ r = r0 := by
    by_cases e : c = c0 ∧ r = r0
    · exact e
    · have := (hk a c r old).2 (by rw [if_neg (fun h => e ⟨h.2.1, h.2.2⟩)]; exact hold)
      obtain ⟨t1, g1, g2⟩ := this
      obtain ⟨t2, g3, g4⟩ := hcell
      rw [g1] at g3; cases g3
      rw [g2] at g4; cases g4
      exact absurd rfl hne
  obtain ⟨rfl, rfl⟩ := hcr
  refine ⟨by rw [hst.parents, if_neg hne]; exact hp a c r old hold, fun x c' r' hx => ?_⟩
  have h2 := (hk x c' r' old).1 hx
  split at h2
  · exact hne h2
  · rename_i hn
    obtain ⟨e1, e2, e3⟩ := hs x c' r' a c r old h2 hold
    exact hn ⟨e1, e2, e3⟩

/-- C77, false: the tables held by a copy made by `Copy` say that the original is their parent. -/
theorem C77_copy (H : Heap) (hwf : HeapWF H) (hp : ParentsAgree H) (d : Nat) (a k : Addr) (K : Heap) (h : copyAt H d a = (K, .ok k))
    (c r : Nat) (b : Addr) (hb : HoldsAt K k c r b) : parentTable K b = some a ∧ k ≠ a := by
  unfold copyAt at h
  cases ha : H[a]? with
  | none => rw [ha] at h; simp at h
  | some t =>
    rw [ha] at h
    simp only at h
    split at h
    · simp at h
    · simp at h
    · obtain ⟨c1, c2⟩ := C27_copyBody (fun _ _ => (0 : Addr)) t (hwf.get ha)
      cases hn : t.isNilTable with
      | true =>
        obtain ⟨e, he⟩ := c2 hn
        rw [he] at h; simp at h
      | false =>
        obtain ⟨t', he, hx⟩ := c1 hn
        rw [he] at h
        simp only [Prod.mk.injEq, Out.ok.injEq] at h
        obtain ⟨rfl, rfl⟩ := h
        have hlt := (List.getElem?_eq_some_iff.1 ha).1
        obtain ⟨u, h1, h2⟩ := hb
        have : u = t' := by simpa using h1.symm
        subst this
        have hold : HoldsAt H a c r b := ⟨t, ha, by rw [← h2]; simp only [nestedAt, hx.2.2.2.1]⟩
        exact ⟨parentTable_append _ (hp a c r b hold), Nat.ne_of_gt hlt⟩

/-! Not vacuous: table 2 holds table 0, and table 1 takes its place. -/

def Ex.heap77 : Heap := [{ Ex.leaf (gs! "A") with parent := some 2 }, Ex.leaf (gs! "B"), Ex.holder 0]

theorem Ex.heap77_wf : HeapWF Ex.heap77 := by
  intro t ht
  simp only [Ex.heap77, List.mem_cons, List.not_mem_nil, or_false] at ht
  rcases ht with rfl | rfl | rfl
  · exact (Ex.leaf_wf _).setParent _
  · exact Ex.leaf_wf _
  · exact Ex.holder_wf _

theorem Ex.heap77_holds {a b : Addr} {c r : Nat} (h : HoldsAt Ex.heap77 a c r b) : a = 2 ∧ r = 0 ∧ c = 0 ∧ b = 0 := by
  obtain ⟨t, h1, h2⟩ := h
  obtain ⟨row, h3, h4⟩ := nestedAt_some.1 h2
  have e1 : (Ex.holder 0).rows = [[.tbl (some 0)]] := by decide +kernel
  match a with
  | 0 => cases h1; rw [show ({ Ex.leaf (gs! "A") with parent := some 2 } : Table Addr).rows = (Ex.leaf (gs! "A")).rows from rfl, Ex.leaf_rows] at h3; simp at h3
  | 1 => cases h1; rw [Ex.leaf_rows] at h3; simp at h3
  | 2 =>
    cases h1
    rw [e1] at h3
    match r with
    | 0 =>
      simp only [List.getElem?_cons_zero, Option.some.injEq] at h3
      subst h3
      match c with
      | 0 => simp at h4; exact ⟨rfl, rfl, rfl, h4.symm⟩
      | c + 1 => simp at h4
    | r + 1 => simp at h3
  | a + 3 => simp [Ex.heap77] at h1

theorem Ex.heap77_agree : ParentsAgree Ex.heap77 := by
  intro a c r b h
  obtain ⟨rfl, rfl, rfl, rfl⟩ := Ex.heap77_holds h
  rfl

theorem Ex.heap77_closed : Closed Ex.heap77 := by
  intro a b h
  obtain ⟨c, r, h⟩ := (nestedIn_iff Ex.heap77_wf).1 h
  obtain ⟨rfl, rfl, rfl, rfl⟩ := Ex.heap77_holds h
  decide

theorem Ex.heap77_noSharing : NoSharing Ex.heap77 := by
  intro a c r a' c' r' b h h'
  obtain ⟨rfl, rfl, rfl, rfl⟩ := Ex.heap77_holds h
  obtain ⟨rfl, rfl, rfl, _⟩ := Ex.heap77_holds h'
  exact ⟨rfl, rfl, rfl⟩

theorem Ex.stores77 : ∃ K, setTableByColIndexAt Ex.heap77 2 0 0 1 = (K, .ok ()) :=
  ⟨(setTableByColIndexAt Ex.heap77 2 0 0 1).1, Prod.ext rfl (by decide +kernel)⟩

example : ∃ K, setTableByColIndexAt Ex.heap77 2 0 0 1 = (K, .ok ()) ∧ ParentsAgree K ∧ parentTable K 0 = some 2 ∧ ∀ x c r, ¬ HoldsAt K x c r 0 := by
  obtain ⟨K, hK⟩ := Ex.stores77
  refine ⟨K, hK, C77_store_partial Ex.heap77 Ex.heap77_wf Ex.heap77_agree 2 1 (by decide) (by decide) ?_ K (.inr ⟨0, 0, hK⟩), ?_⟩
  · intro x c r h
    exact (Ex.heap77_holds h).1
  · exact C77_replaced Ex.heap77 Ex.heap77_wf Ex.heap77_agree Ex.heap77_noSharing 2 1 0 (by decide) (by decide) 0 0
      ⟨_, rfl, by decide +kernel⟩ (by decide) K hK

/-- `SetTable` of a column that does not exist: an error, and table 1 has a parent that does not hold it. -/
example : (setTableAt Ex.heap77 2 (gs! "none") 0 1).2 ≠ .ok () ∧ parentTable (setTableAt Ex.heap77 2 (gs! "none") 0 1).1 1 = some 2 := by decide +kernel

example : ∃ K, appendRowAt Ex.heap77 2 = .ok K ∧ ParentsAgree K := by
  have h : ∃ K, appendRowAt Ex.heap77 2 = .ok K := ⟨_, rfl⟩
  obtain ⟨K, hK⟩ := h
  exact ⟨K, hK, C77_appendRow Ex.heap77 Ex.heap77_wf Ex.heap77_closed Ex.heap77_agree 2 _ rfl (by decide +kernel) K hK⟩

example : ∃ K b, appendColAt Ex.heap77 2 (gs! "q") (gs! "*Table") = .ok K ∧ HoldsAt K 2 1 0 b ∧ parentTable K b = none := by
  have h : ∃ K, appendColAt Ex.heap77 2 (gs! "q") (gs! "*Table") = .ok K := ⟨_, rfl⟩
  obtain ⟨K, hK⟩ := h
  obtain ⟨b, h1, h2⟩ := C77_appendCol Ex.heap77 Ex.heap77_wf 2 _ rfl (gs! "q") K hK 0 (by decide +kernel)
  exact ⟨K, b, hK, h1, h2⟩

example : ∃ K k, copyAt Ex.heap77 5 2 = (K, .ok k) ∧ ∃ b, HoldsAt K k 0 0 b ∧ parentTable K b = some 2 ∧ k ≠ 2 := by
  have e : copyAt Ex.heap77 5 2 = ((copyAt Ex.heap77 5 2).1, .ok 3) := Prod.ext rfl (by decide +kernel)
  have hh : HoldsAt (copyAt Ex.heap77 5 2).1 3 0 0 0 := ⟨((copyAt Ex.heap77 5 2).1[3]?).getD newNilTable, by decide +kernel, by decide +kernel⟩
  exact ⟨_, 3, e, 0, hh, C77_copy Ex.heap77 Ex.heap77_wf Ex.heap77_agree 5 2 3 _ e 0 0 0 hh⟩

/-- A text with nested tables in a column and in a struct. -/
def Ex.text77 : GoStr := gs! "[A]\ni t\nint *Table\n1 [B]\n2 []\n\n[C]\ns string = \"x\"\nt *Table = [D]\nu *Table = []\n"

example : ∃ H set, newTableSetFromString Ex.noFloats [] Ex.text77 = .ok (H, set) ∧ ParentsAgree H ∧ HoldsAt H 0 1 0 1 ∧ HoldsAt H 0 1 1 2 ∧
    parentTable H 1 = some 0 := by
  have e : ∃ H set, newTableSetFromString Ex.noFloats [] Ex.text77 = .ok (H, set) ∧ (H[0]?).bind (nestedAt · 1 0) = some 1 ∧ (H[0]?).bind (nestedAt · 1 1) = some 2 := by
    have : (match newTableSetFromString Ex.noFloats [] Ex.text77 with
      | .ok (H, _) => decide ((H[0]?).bind (nestedAt · 1 0) = some 1 ∧ (H[0]?).bind (nestedAt · 1 1) = some 2)
      | _ => false) = true := by decide +kernel
    split at this
    · rename_i H set e
      exact ⟨H, set, e, of_decide_eq_true this⟩
    · cases this
  obtain ⟨H, set, e, h1, h2⟩ := e
  have hp := C77_text Ex.noFloats [] (by intro t ht; cases ht) (by rintro a b ⟨t, c, r, h, _⟩; simp at h)
    (by rintro a c r b ⟨t, h, _⟩; simp at h) Ex.text77 H set e
  have g1 : HoldsAt H 0 1 0 1 := by obtain ⟨t, h, h'⟩ := Option.bind_eq_some_iff.1 h1; exact ⟨t, h, h'⟩
  have g2 : HoldsAt H 0 1 1 2 := by obtain ⟨t, h, h'⟩ := Option.bind_eq_some_iff.1 h2; exact ⟨t, h, h'⟩
  exact ⟨H, set, e, hp, g1, g2, hp 0 1 0 1 g1⟩

end Verif
