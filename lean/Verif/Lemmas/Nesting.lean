import Verif.Lemmas.WalkDepth

/-!
# IsValidTableNesting: which cells are looked at
-/

namespace Verif
open Table

variable {H : Heap}

/-- The coordinates of the event, if it is the visit of a cell holding a table. -/
def tableCell (H : Heap) : Event → List (Nat × Nat)
  | .cell a c r =>
    match H[a]? with
    | some t => if t.colTypes[c]? = some .table then [(c, r)] else []
    | none => []
  | _ => []

/-- What the visitor does to its `refMap`. -/
def visNest (H : Heap) (root : Addr) (e : Event) (u : List Addr) : List Addr × Out Unit :=
  ((visitNesting root e ⟨H, [], u⟩).1.user, (visitNesting root e ⟨H, [], u⟩).2)

theorem reads_nesting (root : Addr) : Reads H (visitNesting root) (visNest H root) := by
  intro e safe u
  unfold visNest
  cases e with
  | table a => rfl
  | row a r => rfl
  | cell a c r =>
    unfold visitNesting
    dsimp only
    split
    · rfl
    · split
      · split
        · rfl
        · split
          · rfl
          · rfl
          · split <;> rfl
          · rfl
      · rfl

/-- The tables in the cells of table `t`, in row-major order. -/
def ownNested (t : Table Addr) : List Addr :=
  (List.range t.rows.length).flatMap fun r => (List.range t.colNames.length).flatMap fun c => (nestedAt t c r).toList

theorem mem_ownNested {t : Table Addr} (hwf : WF t) {b : Addr} : b ∈ ownNested t ↔ ∃ c r, nestedAt t c r = some b := by
  simp only [ownNested, List.mem_flatMap, List.mem_range, Option.mem_toList]
  constructor
  · rintro ⟨r, _, c, _, h⟩; exact ⟨c, r, h⟩
  · rintro ⟨c, r, h⟩
    obtain ⟨_, _, _, _, hc, hr⟩ := nestedAt_At hwf h
    exact ⟨r, hr, c, hc, h⟩

theorem ownNested_nodup {t : Table Addr} (hwf : WF t) :
    (ownNested t).Nodup ↔ ∀ c r c' r' b, nestedAt t c r = some b → nestedAt t c' r' = some b → c = c' ∧ r = r' := by
  rw [ownNested, nodup_grid]
  constructor
  · rintro ⟨_, h2⟩ c r c' r' b h h'
    obtain ⟨_, _, _, _, hc, hr⟩ := nestedAt_At hwf h
    obtain ⟨_, _, _, _, hc', hr'⟩ := nestedAt_At hwf h'
    by_cases he : c = c' ∧ r = r'
    · exact he
    · exact absurd (by simp [h']) (h2 r hr c hc r' hr' c' hc' he b (by simp [h]))
  · intro h
    refine ⟨?_, ?_⟩
    · intro r _ c _; cases nestedAt t c r <;> simp
    · intro r _ c _ r' _ c' _ hne x hx hx'
      exact hne (h c r c' r' x (by simpa using hx) (by simpa using hx'))

theorem getTyped_none {t : Table Addr} (hwf : WF t) {c r : Nat} (h : nestedAt t c r = none) :
    ∃ e, getTypedByColIndex .table t c r = .err e := by
  unfold getTypedByColIndex
  cases hc : t.colTypes[c]? with
  | none =>
    have : t.colTypeByColIndex (c : Int) = .err .noCol := by
      have := List.getElem?_eq_none_iff.1 hc
      unfold colTypeByColIndex
      exact if_pos (by omega)
    exact ⟨.noCol, by simp [this, Out.bind]⟩
  | some ty =>
    rw [colTypeByColIndex_nat hc]
    simp only [Out.bind]
    by_cases hty : ty = .table
    · subst hty
      by_cases hr : r < t.rows.length
      · obtain ⟨b, hb⟩ := nestedAt_of_table hwf hc hr
        rw [hb] at h; cases h
      · have : ∃ e, t.hasRow (r : Int) = .err e := by
          rcases hasRow_cases t (r : Int) with ⟨_, h2, _⟩ | ⟨_, h2⟩
          · omega
          · exact ⟨_, h2⟩
        obtain ⟨e, he⟩ := this
        exact ⟨e, by simp [he]⟩
    · refine ⟨.typeMismatch, if_pos ⟨Ne.symm hty, ?_⟩⟩
      revert hty; cases ty <;> decide

/-- What the visitor does with a cell: nothing if it is not of type `*Table`; otherwise look up the same place in the top table. -/
theorem visNest_cell {root a : Addr} {t rt : Table Addr} (ha : H[a]? = some t) (hr : H[root]? = some rt) (hwr : WF rt) (c r : Nat) (u : List Addr) :
    (t.colTypes[c]? ≠ some .table → visNest H root (.cell a c r) u = (u, .ok ())) ∧
    (t.colTypes[c]? = some .table → ∀ b, nestedAt rt c r = some b → b ∉ u → visNest H root (.cell a c r) u = (b :: u, .ok ())) ∧
    (t.colTypes[c]? = some .table → (∀ b, nestedAt rt c r = some b → b ∈ u) → ∃ e, visNest H root (.cell a c r) u = (u, .err e)) := by
  unfold visNest visitNesting
  simp only [ha, hr]
  refine ⟨fun h => by simp [h], fun h b hb hu => ?_, fun h hu => ?_⟩
  · simp [h, getTyped_nestedAt hwr hb, hu]
  · cases hn : nestedAt rt c r with
    | some b => exact ⟨.circular, by simp [h, getTyped_nestedAt hwr hn, hu b hn]⟩
    | none =>
      obtain ⟨e, he⟩ := getTyped_none hwr hn
      exact ⟨e, by simp [h, he]⟩

theorem visNest_noPanic {root : Addr} {rt : Table Addr} (hr : H[root]? = some rt) (hwr : WF rt) (e : Event) (u : List Addr)
    (he : e.addr < H.length) : (visNest H root e u).2 ≠ .panic := by
  cases e with
  | table a => simp [visNest, visitNesting]
  | row a r => simp [visNest, visitNesting]
  | cell a c r =>
    have he : a < H.length := he
    obtain ⟨h1, h2, h3⟩ := visNest_cell (List.getElem?_eq_getElem he) hr hwr c r u
    by_cases hty : H[a].colTypes[c]? = some .table
    · by_cases hu : ∀ b, nestedAt rt c r = some b → b ∈ u
      · obtain ⟨e, h⟩ := h3 hty hu; rw [h]; simp
      · simp only [Classical.not_forall] at hu
        obtain ⟨b, hb, hu⟩ := hu
        rw [h2 hty b hb hu]; simp
    · rw [h1 hty]; simp

/-- The visitor accepts a sequence of cells exactly if the places exist in the top table and hold different tables, none seen before. -/
theorem forEach_visNest {root : Addr} {rt : Table Addr} (hr : H[root]? = some rt) (hwr : WF rt) (evs : List Event) (u : List Addr) (hu : u.Nodup)
    (hev : ∀ e ∈ evs, e.addr < H.length) :
    (forEach (visNest H root) evs u).2 = .ok () ↔
      ∃ xs : List Addr, (evs.flatMap (tableCell H)).map (fun p => nestedAt rt p.1 p.2) = xs.map some ∧ (xs.reverse ++ u).Nodup := by
  induction evs generalizing u with
  | nil =>
    simp only [forEach, List.flatMap_nil, List.map_nil, true_iff]
    exact ⟨[], rfl, by simpa using hu⟩
  | cons e evs ih =>
    have ih' := fun u hu => ih u hu (fun e he => hev e (by simp [he]))
    have hskip : tableCell H e = [] → visNest H root e u = (u, .ok ()) → ((forEach (visNest H root) (e :: evs) u).2 = .ok () ↔
      ∃ xs : List Addr, ((e :: evs).flatMap (tableCell H)).map (fun p => nestedAt rt p.1 p.2) = xs.map some ∧ (xs.reverse ++ u).Nodup) := by
      intro h1 h2
      rw [forEach_cons_ok h2, ih' u hu, List.flatMap_cons, h1, List.nil_append]
    cases e with
    | table a => exact hskip rfl rfl
    | row a r => exact hskip rfl rfl
    | cell a c r =>
      have he : a < H.length := hev (.cell a c r) (by simp)
      have ea := List.getElem?_eq_getElem he
      obtain ⟨h1, h2, h3⟩ := visNest_cell ea hr hwr c r u
      by_cases hty : H[a].colTypes[c]? = some .table
      · have etc : tableCell H (.cell a c r) = [(c, r)] := by
          simp only [tableCell, ea]
          exact if_pos hty
        rw [List.flatMap_cons, etc]
        simp only [List.singleton_append, List.map_cons]
        by_cases hall : ∀ b, nestedAt rt c r = some b → b ∈ u
        · obtain ⟨e, he⟩ := h3 hty hall
          simp only [forEach, he]
          constructor
          · intro h; simp at h
          · rintro ⟨xs, hx, hnd⟩
            exfalso
            cases xs with
            | nil => simp at hx
            | cons x xs =>
              simp only [List.map_cons, List.cons.injEq] at hx
              have hm := hall x hx.1
              simp only [List.reverse_cons, List.append_assoc, List.singleton_append] at hnd
              exact (List.nodup_cons.1 (List.nodup_append.1 hnd).2.1).1 hm
        · simp only [Classical.not_forall] at hall
          obtain ⟨b, hb, hbu⟩ := hall
          rw [forEach_cons_ok (h2 hty b hb hbu), ih' (b :: u) (List.nodup_cons.2 ⟨hbu, hu⟩), hb]
          constructor
          · rintro ⟨xs, hx, hnd⟩
            exact ⟨b :: xs, by simp [hx], by simpa using hnd⟩
          · rintro ⟨xs, hx, hnd⟩
            cases xs with
            | nil => simp at hx
            | cons x xs =>
              simp only [List.map_cons, List.cons.injEq, Option.some.injEq] at hx
              obtain ⟨rfl, hx⟩ := hx
              exact ⟨xs, hx, by simpa using hnd⟩
      · refine hskip ?_ (h1 hty)
        simp only [tableCell, ea]
        exact if_neg hty

/-! ## The cells looked at -/

theorem length_flatMap_append {ι α : Type} (l : List ι) (f g : ι → List α) :
    (l.flatMap fun i => f i ++ g i).length = (l.flatMap f).length + (l.flatMap g).length := by
  induction l with
  | nil => rfl
  | cons i l ih => simp only [List.flatMap_cons, List.length_append, ih]; omega

theorem flatMap_congr_mem {ι α : Type} {l : List ι} {f g : ι → List α} (h : ∀ i ∈ l, f i = g i) : l.flatMap f = l.flatMap g := by
  induction l with
  | nil => rfl
  | cons i l ih => rw [List.flatMap_cons, List.flatMap_cons, h i (by simp), ih fun j hj => h j (by simp [hj])]

theorem tableCell_own {a : Addr} {t : Table Addr} (ha : H[a]? = some t) (hwf : WF t) {c r : Nat} (hr : r < t.rows.length) :
    tableCell H (.cell a c r) = (nestedAt t c r).toList.map (fun _ => (c, r)) := by
  unfold tableCell
  simp only [ha]
  by_cases hty : t.colTypes[c]? = some .table
  · obtain ⟨b, hb⟩ := nestedAt_of_table hwf hty hr
    simp [hty, hb]
  · rw [if_neg hty]
    cases hn : nestedAt t c r with
    | none => rfl
    | some b =>
      obtain ⟨_, _, _, h4, _⟩ := nestedAt_At hwf hn
      exact absurd h4 hty

/-- Cells of the top table and cells of the tables below it. -/
theorem tableCells_eq {a : Addr} {t : Table Addr} (ha : H[a]? = some t) (hwf : WF t) (d : Nat) :
    (treeTrace true H (d + 1) a).flatMap (tableCell H) =
      (List.range t.rows.length).flatMap fun r => (List.range t.colNames.length).flatMap fun c =>
        (nestedAt t c r).toList.map (fun _ => (c, r)) ++
          (nestedAt t c r).toList.flatMap fun b => (treeTrace true H d b).flatMap (tableCell H) := by
  simp only [treeTrace, ha, List.flatMap_cons]
  rw [show tableCell H (.table a) = [] from rfl, List.nil_append, List.flatMap_assoc]
  refine flatMap_congr_mem ?_
  intro r hr
  rw [List.mem_range] at hr
  rw [List.flatMap_cons, show tableCell H (.row a r) = [] from rfl, List.nil_append, List.flatMap_assoc]
  refine flatMap_congr_mem ?_
  intro c hc
  rw [List.flatMap_cons, tableCell_own ha hwf hr]
  congr 1
  cases nestedAt t c r <;> simp

end Verif
