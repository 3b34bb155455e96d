import Verif.Lemmas.Slices
import Verif.Lemmas.Reorder

/-!
# Lemmas: assignments in memory do what they do to lists
-/

namespace Verif

variable {τ α : Type} {w : World τ} {vs : List (Table τ)} {i : Nat} {t : MTable τ} {v : Table τ}

theorem Mem.Touch.trans {m m' m'' : Mem α} {s s' s'' : Slice} {l l' : List α} (h1 : Mem.Touch m s m' s' l) (h2 : Mem.Touch m' s' m'' s'' l') (hs : s'.addr = s.addr)
    (hm : m'.length = m.length) : Mem.Touch m s m'' s'' l' := by
  refine ⟨h2.read, fun u hu hlt => ?_, ?_⟩
  · rw [h2.frame u (by rw [hs]; exact hu) (by omega), h1.frame u hu hlt]
  · rcases h2.addr with h | h
    · exact .inl (by rw [h, hs])
    · exact .inr (by rw [h, hm])

theorem Mem.put_length {m m' : Mem α} {s : Slice} {i : Nat} {x : α} (h : m.put s i x = some m') : m'.length = m.length := by
  unfold Mem.put at h
  split at h
  · cases h
  · split at h
    · cases h
      rw [List.length_set]
    · cases h

/-- The rows of a table in memory. -/
theorem Rep.row {st : Store τ} (hr : Rep st t v) {hs : List Slice} (hhs : st.rows.read t.rows = some hs) {r : Nat} {row : List (Cell τ)} (hrow : v.rows[r]? = some row) :
    ∃ h, hs[r]? = some h ∧ st.cells.read h = some row := by
  obtain ⟨ks, h1, h2⟩ := hr.rows
  rw [hhs] at h1; cases h1
  exact h2.back r row hrow

theorem Rep.cellsLt {st : Store τ} (hr : Rep st t v) {hs : List Slice} (hhs : st.rows.read t.rows = some hs) : ∀ h ∈ hs, h.addr < st.cells.length := by
  obtain ⟨ks, h1, h2⟩ := hr.rows
  rw [hhs] at h1; cases h1
  intro h hm
  obtain ⟨q, hq⟩ := List.mem_iff_getElem?.1 hm
  obtain ⟨row, _, hrow⟩ := h2.get q h hq
  exact Mem.read_lt hrow

/-- Two rows at the same address are one row. -/
theorem nodup_addr {hs : List Slice} (h : (hs.map Slice.addr).Nodup) {a b : Nat} {x y : Slice} (ha : hs[a]? = some x) (hb : hs[b]? = some y) (e : x.addr = y.addr) : a = b := by
  have h1 := (List.getElem?_eq_some_iff.1 ha).1
  have h2 := (List.getElem?_eq_some_iff.1 hb).1
  rw [List.nodup_iff_pairwise_ne] at h
  rcases Nat.lt_trichotomy a b with hlt | heq | hlt
  · have := List.pairwise_iff_getElem.1 h a b (by rw [List.length_map]; exact h1) (by rw [List.length_map]; exact h2) hlt
    rw [List.getElem_map, List.getElem_map] at this
    have e1 : hs[a] = x := (List.getElem?_eq_some_iff.1 ha).2
    have e2 : hs[b] = y := (List.getElem?_eq_some_iff.1 hb).2
    rw [e1, e2] at this
    exact absurd e this
  · exact heq
  · have := List.pairwise_iff_getElem.1 h b a (by rw [List.length_map]; exact h2) (by rw [List.length_map]; exact h1) hlt
    rw [List.getElem_map, List.getElem_map] at this
    have e1 : hs[a] = x := (List.getElem?_eq_some_iff.1 ha).2
    have e2 : hs[b] = y := (List.getElem?_eq_some_iff.1 hb).2
    rw [e1, e2] at this
    exact absurd e.symm this

/-- The addresses stay different when one becomes a new one. -/
theorem nodup_addr_set {hs : List Slice} (h : (hs.map Slice.addr).Nodup) {r n : Nat} {x x' : Slice} (hx : hs[r]? = some x) (hlt : ∀ y ∈ hs, y.addr < n)
    (hx' : x'.addr = x.addr ∨ x'.addr = n) : ((hs.set r x').map Slice.addr).Nodup := by
  have hinj := inj_set (β := Slice) (f := Slice.addr) (ts := hs) (fun _ _ _ _ h1 h2 e => nodup_addr h h1 h2 e) hx
    (t' := x') (by
      rcases hx' with h1 | h1
      · exact .inl h1
      · refine .inr (fun j u hu e => ?_)
        have := hlt u (List.mem_of_getElem? hu)
        omega)
  rw [List.nodup_iff_pairwise_ne, List.pairwise_iff_getElem]
  intro a b ha hb hab e
  rw [List.getElem_map, List.getElem_map] at e
  rw [List.length_map] at ha hb
  have := hinj a b _ _ (List.getElem?_eq_getElem ha) (List.getElem?_eq_getElem hb) e
  omega

/-- One row changed. -/
theorem goodW_row (h : w.Good vs) (ht : w.tables[i]? = some t) (hr : Rep w.store t v) {hs : List Slice} (hhs : w.store.rows.read t.rows = some hs) {r : Nat} {x x' : Slice}
    (hx : hs[r]? = some x) {cells' : Mem (Cell τ)} {row' : List (Cell τ)} (hc : Mem.Touch w.store.cells x cells' x' row') {m' : Mem Slice}
    (hm : Mem.Touch w.store.rows t.rows m' t.rows (hs.set r x')) :
    World.Good ⟨{ w.store with cells := cells', rows := m' }, w.tables.set i t⟩ (vs.set i { v with rows := v.rows.set r row' }) := by
  have hnd := h.separate.rowsOf _ _ _ ht hhs
  have hlt := hr.cellsLt hhs
  have hxm := List.mem_of_getElem? hx
  refine goodW_rows h ht hr hhs hm (nodup_addr_set hnd hx hlt hc.addr) ?_ ?_ ?_
  · intro y hy
    rcases List.mem_or_eq_of_mem_set hy with hy | rfl
    · exact .inl ⟨y, hy, rfl⟩
    · rcases hc.addr with e | e
      · exact .inl ⟨x, hxm, e.symm⟩
      · exact .inr (Nat.le_of_eq e.symm)
  · intro u hu hne
    exact hc.frame u (fun e => hne x hxm e.symm) hu
  · obtain ⟨ks, h1, h2⟩ := hr.rows
    rw [hhs] at h1; cases h1
    apply pointwise_of
    · rw [List.length_set, List.length_set]; exact h2.length
    intro q y row hy hrow
    rcases get_set hy with ⟨rfl, rfl⟩ | ⟨hq, hy⟩
    · rcases get_set hrow with ⟨_, rfl⟩ | ⟨hq, _⟩
      · exact hc.read
      · exact absurd rfl hq
    · rcases get_set hrow with ⟨rfl, _⟩ | ⟨_, hrow⟩
      · exact absurd rfl hq
      · obtain ⟨row0, e1, e2⟩ := h2.get q y hy
        rw [hrow] at e1; cases e1
        rw [hc.frame y (fun e => hq (nodup_addr hnd hy hx e)) (hlt y (List.mem_of_getElem? hy))]
        exact e2

theorem set_self {l : List α} {r : Nat} {x : α} (h : l[r]? = some x) : l.set r x = l := by
  obtain ⟨h1, h2⟩ := List.getElem?_eq_some_iff.1 h
  rw [← h2, List.set_getElem_self]

theorem tables_set_self {ts : List (MTable τ)} (h : ts[i]? = some t) : ts.set i t = ts := set_self h

/-- One assignment. -/
theorem World.Good.step (h : w.Good vs) (spare : Nat → Nat) (hv : vs[i]? = some v) {p : Prim τ} {v' : Table τ} (hp : p.val v = some v') :
    ∃ w', w.step spare i p = some w' ∧ w'.Good (vs.set i v') := by
  obtain ⟨t, ht, hr⟩ := h.rep hv
  have hstep : ∀ {st' t'}, p.mem spare w.store t = some (st', t') → World.Good ⟨st', w.tables.set i t'⟩ (vs.set i v') → ∃ w', w.step spare i p = some w' ∧ w'.Good (vs.set i v') := by
    intro st' t' h1 h2
    refine ⟨_, ?_, h2⟩
    unfold World.step
    rw [ht]
    dsimp only
    rw [h1]
    rfl
  obtain ⟨hs, hhs, hpw⟩ := hr.rows
  have hlen : hs.length = v.rows.length := hpw.length
  cases p with
  | head n s b q =>
    cases hp
    exact hstep rfl (goodW_head h ht hr n s b q)
  | appendName n =>
    cases hp
    obtain ⟨m', s', h1, h2⟩ := Mem.append_touch spare hr.colNames n
    exact hstep (by simp only [Prim.mem]; rw [h1]; rfl) (goodW_names h ht hr h2)
  | appendType n =>
    cases hp
    obtain ⟨m', s', h1, h2⟩ := Mem.append_touch spare hr.colTypes n
    exact hstep (by simp only [Prim.mem]; rw [h1]; rfl) (goodW_types h ht hr h2)
  | cutName k =>
    simp only [Prim.val] at hp
    split at hp
    · rename_i hk
      cases hp
      obtain ⟨m', s', h1, h2⟩ := Mem.cut_one hr.colNames hk
      exact hstep (by simp only [Prim.mem]; rw [h1]; rfl) (goodW_names h ht hr h2)
    · cases hp
  | cutType k =>
    simp only [Prim.val] at hp
    split at hp
    · rename_i hk
      cases hp
      obtain ⟨m', s', h1, h2⟩ := Mem.cut_one hr.colTypes hk
      exact hstep (by simp only [Prim.mem]; rw [h1]; rfl) (goodW_types h ht hr h2)
    · cases hp
  | setColName k n =>
    simp only [Prim.val] at hp
    split at hp
    · rename_i hk
      cases hp
      obtain ⟨m', h1, h2⟩ := Mem.put_touch hr.colNames hk n
      exact hstep (by simp only [Prim.mem]; rw [h1]; rfl) (goodW_names h ht hr h2)
    · cases hp
  | setColType k n =>
    simp only [Prim.val] at hp
    split at hp
    · rename_i hk
      cases hp
      obtain ⟨m', h1, h2⟩ := Mem.put_touch hr.colTypes hk n
      exact hstep (by simp only [Prim.mem]; rw [h1]; rfl) (goodW_types h ht hr h2)
    · cases hp
  | mapInsert n k =>
    cases hp
    exact hstep (by simp only [Prim.mem]; rw [hr.colMap]) (goodW_map h ht hr _)
  | mapErase n =>
    cases hp
    exact hstep (by simp only [Prim.mem]; rw [hr.colMap]) (goodW_map h ht hr _)
  | newKeys =>
    cases hp
    exact hstep (by simp only [Prim.mem]) (goodW_keys h ht hr (Mem.alloc_touch w.store.keys t.sortKeys []))
  | appendKey k =>
    cases hp
    obtain ⟨m', s', h1, h2⟩ := Mem.append_touch spare hr.sortKeys k
    exact hstep (by simp only [Prim.mem]; rw [h1]; rfl) (goodW_keys h ht hr h2)
  | cutKey k =>
    simp only [Prim.val] at hp
    split at hp
    · rename_i hk
      cases hp
      obtain ⟨m', s', h1, h2⟩ := Mem.cut_one hr.sortKeys hk
      exact hstep (by simp only [Prim.mem]; rw [h1]; rfl) (goodW_keys h ht hr h2)
    · cases hp
  | setReverse k =>
    simp only [Prim.val] at hp
    split at hp
    · cases hp
    · rename_i key hk
      cases hp
      obtain ⟨m', h1, h2⟩ := Mem.put_touch hr.sortKeys (List.getElem?_eq_some_iff.1 hk).1 { key with reverse := true }
      exact hstep (by simp only [Prim.mem]; rw [hr.sortKeys, Option.bind_some, hk]; dsimp only; rw [h1]; rfl) (goodW_keys h ht hr h2)
  | appendRow row =>
    cases hp
    obtain ⟨m', s', h1, h2⟩ := Mem.append_touch spare hhs ⟨w.store.cells.length, row.length⟩
    refine hstep (by simp only [Prim.mem, Mem.alloc]; rw [h1]; rfl) (goodW_rows h ht hr hhs h2 ?_ ?_ ?_ ?_)
    · rw [List.map_append, List.nodup_append]
      refine ⟨h.separate.rowsOf _ _ _ ht hhs, by simp, ?_⟩
      intro a ha b hb e
      rw [List.mem_map] at ha
      obtain ⟨x, hx, rfl⟩ := ha
      simp only [List.map_cons, List.map_nil, List.mem_singleton] at hb
      have := hr.cellsLt hhs x hx
      omega
    · intro x hx
      rw [List.mem_append] at hx
      rcases hx with hx | hx
      · exact .inl ⟨x, hx, rfl⟩
      · rw [List.mem_singleton] at hx
        subst hx
        exact .inr (Nat.le_refl _)
    · intro u hu _
      exact Mem.read_push hu
    · apply pointwise_snoc
      · apply pointwise_of hlen
        intro q x r hx hrow
        obtain ⟨r', e1, e2⟩ := hpw.get q x hx
        rw [hrow] at e1; cases e1
        rw [Mem.read_push (hr.cellsLt hhs x (List.mem_of_getElem? hx))]
        exact e2
      · exact (Mem.alloc_touch w.store.cells t.rows row).read
  | extendRow r =>
    simp only [Prim.val] at hp
    split at hp
    · cases hp
    · rename_i row hrow
      cases hp
      obtain ⟨x, hx, hxr⟩ := hr.row hhs hrow
      obtain ⟨cells', x', h1, h2⟩ := Mem.append_touch spare hxr .nil
      obtain ⟨m', h3, h4⟩ := Mem.put_touch hhs (List.getElem?_eq_some_iff.1 hx).1 x'
      exact hstep (by simp only [Prim.mem]; rw [hhs, Option.bind_some, hx]; dsimp only; rw [h1]; dsimp only; rw [h3]; rfl) (goodW_row h ht hr hhs hx h2 h4)
  | cutRow r c =>
    simp only [Prim.val] at hp
    split at hp
    · cases hp
    · rename_i row hrow
      split at hp
      · rename_i hc
        cases hp
        obtain ⟨x, hx, hxr⟩ := hr.row hhs hrow
        obtain ⟨cells', x', h1, h2⟩ := Mem.cut_one hxr hc
        obtain ⟨m', h3, h4⟩ := Mem.put_touch hhs (List.getElem?_eq_some_iff.1 hx).1 x'
        exact hstep (by simp only [Prim.mem]; rw [hhs, Option.bind_some, hx]; dsimp only; rw [h1]; dsimp only; rw [h3]; rfl) (goodW_row h ht hr hhs hx h2 h4)
      · cases hp
  | setCell r c y =>
    simp only [Prim.val] at hp
    split at hp
    · cases hp
    · rename_i row hrow
      split at hp
      · rename_i hc
        cases hp
        obtain ⟨x, hx, hxr⟩ := hr.row hhs hrow
        obtain ⟨cells', h1, h2⟩ := Mem.put_touch hxr hc y
        refine hstep (by simp only [Prim.mem]; rw [hhs, Option.bind_some, hx]; dsimp only; rw [h1]; rfl) (goodW_row (m' := w.store.rows) h ht hr hhs hx h2 ?_)
        rw [set_self hx]
        exact Mem.Touch.same hhs
      · cases hp
  | cutRows a b =>
    simp only [Prim.val] at hp
    split at hp
    · rename_i hab
      cases hp
      obtain ⟨m', s', h1, h2⟩ := Mem.cut_touch hhs hab.1 (by omega)
      have hsub : (hs.take a ++ hs.drop b).Sublist hs := by
        have e : hs = hs.take a ++ hs.drop a := (List.take_append_drop a hs).symm
        have e2 : hs.drop b = (hs.drop a).drop (b - a) := by rw [List.drop_drop]; congr 1; omega
        rw [e2]
        conv => rhs; rw [e]
        exact List.Sublist.append (List.Sublist.refl _) (List.drop_sublist _ _)
      refine hstep (by simp only [Prim.mem]; rw [h1]; rfl) (goodW_rows (cells' := w.store.cells) h ht hr hhs h2 ((hsub.map _).nodup (h.separate.rowsOf _ _ _ ht hhs)) ?_ (fun _ _ _ => rfl) ?_)
      · intro x hx
        exact .inl ⟨x, hsub.subset hx, rfl⟩
      · apply pointwise_of
        · simp only [List.length_append, List.length_take, List.length_drop]; omega
        intro q x row hx hrow
        by_cases hq : q < a
        · rw [List.getElem?_append_left (by rw [List.length_take]; omega), List.getElem?_take, if_pos hq] at hx hrow
          obtain ⟨row', e1, e2⟩ := hpw.get q x hx
          rw [hrow] at e1; cases e1
          exact e2
        · rw [List.getElem?_append_right (by rw [List.length_take]; omega), List.getElem?_drop, List.length_take] at hx hrow
          rw [hlen] at hx
          obtain ⟨row', e1, e2⟩ := hpw.get _ x hx
          rw [hrow] at e1; cases e1
          exact e2
    · cases hp
  | swapRows a b =>
    simp only [Prim.val] at hp
    split at hp
    · rename_i x y hx hy
      cases hp
      obtain ⟨p, hp, hpr⟩ := hr.row hhs hx
      obtain ⟨q, hq, hqr⟩ := hr.row hhs hy
      obtain ⟨m1, h1, h2⟩ := Mem.put_touch hhs (List.getElem?_eq_some_iff.1 hp).1 q
      obtain ⟨m2, h3, h4⟩ := Mem.put_touch h2.read (i := b) (by rw [List.length_set]; exact (List.getElem?_eq_some_iff.1 hq).1) p
      have hsw : swapRows? hs a b = some ((hs.set a q).set b p) := by unfold swapRows?; rw [hp, hq]
      have hperm := swapRows?_perm hsw
      refine hstep (by simp only [Prim.mem]; rw [hhs, Option.bind_some, Option.bind_some, hp, hq]; dsimp only; rw [h1, Option.bind_some, h3]; rfl)
        (goodW_rows (cells' := w.store.cells) h ht hr hhs (h2.trans h4 rfl (Mem.put_length h1)) ((hperm.map _).nodup_iff.2 (h.separate.rowsOf _ _ _ ht hhs)) ?_ (fun _ _ _ => rfl)
          (pointwise_set (R := fun h row => w.store.cells.read h = some row) hpr (pointwise_set (R := fun h row => w.store.cells.read h = some row) hqr hpw)))
      intro z hz
      exact .inl ⟨z, hperm.subset hz, rfl⟩
    · cases hp

/-- Several assignments. -/
theorem World.Good.steps (spare : Nat → Nat) {i : Nat} : ∀ {ps : List (Prim τ)} {w : World τ} {vs : List (Table τ)} {v v' : Table τ}, w.Good vs → vs[i]? = some v →
    Prim.vals ps v = some v' → ∃ w', w.steps spare i ps = some w' ∧ w'.Good (vs.set i v')
  | [], w, vs, v, v', h, hv, hp => by
    cases hp
    exact ⟨w, rfl, by rw [set_self hv]; exact h⟩
  | p :: ps, w, vs, v, v', h, hv, hp => by
    simp only [Prim.vals] at hp
    rcases hq : p.val v with _ | v1
    · rw [hq] at hp; cases hp
    · rw [hq, Option.bind_some] at hp
      obtain ⟨w1, h1, h2⟩ := h.step spare hv hq
      obtain ⟨w2, h3, h4⟩ := h2.steps spare (ps := ps) (List.getElem?_set_self (List.getElem?_eq_some_iff.1 hv).1) hp
      refine ⟨w2, ?_, by rw [List.set_set] at h4; exact h4⟩
      simp only [World.steps]
      rw [h1, Option.bind_some, h3]

/-- A new table. -/
theorem World.Good.new (h : w.Good vs) : w.new.Good (vs ++ [newNilTable]) := by
  have hkeep : ∀ u x, Rep w.store u x → Rep w.new.store u x := by
    intro u x hx
    refine ⟨hx.name, hx.isStructShape, hx.isNilTable, hx.parent, ?_, ?_, ?_, ?_, ?_⟩
    · exact (Mem.read_push (Mem.read_lt hx.colNames)).trans hx.colNames
    · exact (Mem.read_push (Mem.read_lt hx.colTypes)).trans hx.colTypes
    · exact (List.getElem?_append_left (List.getElem?_eq_some_iff.1 hx.colMap).1).trans hx.colMap
    · exact (Mem.read_push (Mem.read_lt hx.sortKeys)).trans hx.sortKeys
    · obtain ⟨hs, h1, h2⟩ := hx.rows
      exact ⟨hs, (Mem.read_push (Mem.read_lt h1)).trans h1, h2⟩
  have hinj : ∀ (f : MTable τ → Nat) (n : Nat), (∀ u x, Rep w.store u x → f u < n) → (∀ (i j : Nat) t u, w.tables[i]? = some t → w.tables[j]? = some u → f t = f u → i = j) →
      ∀ z, f z = n → ∀ (i j : Nat) t u, (w.tables ++ [z])[i]? = some t → (w.tables ++ [z])[j]? = some u → f t = f u → i = j := by
    intro f n hlt hinj z hz i j t u hi hj e
    have hb : ∀ (k : Nat) y, w.tables[k]? = some y → f y < n := by
      intro k y hy
      obtain ⟨x, _, hx⟩ := h.shows.get k y hy
      exact hlt y x hx
    have hcase : ∀ (k : Nat) y, (w.tables ++ [z])[k]? = some y → w.tables[k]? = some y ∨ (k = w.tables.length ∧ y = z) := by
      intro k y hy
      by_cases hk : k < w.tables.length
      · rw [List.getElem?_append_left hk] at hy; exact .inl hy
      · have hlt := (List.getElem?_eq_some_iff.1 hy).1
        rw [List.length_append, List.length_singleton] at hlt
        have : k = w.tables.length := by omega
        subst this
        rw [List.getElem?_append_right (Nat.le_refl _), Nat.sub_self] at hy
        cases hy
        exact .inr ⟨rfl, rfl⟩
    rcases hcase i t hi with hi' | ⟨hi', rfl⟩ <;> rcases hcase j u hj with hj' | ⟨hj', ej⟩
    · exact hinj i j t u hi' hj' e
    · have := hb i t hi'
      rw [ej] at e
      omega
    · have := hb j u hj'; omega
    · omega
  have hread : ∀ (k : Nat) y ks, w.new.tables[k]? = some y → w.new.store.rows.read y.rows = some ks → (w.tables[k]? = some y ∧ w.store.rows.read y.rows = some ks) ∨ ks = [] := by
    intro k y ks hy hk
    by_cases hlt : k < w.tables.length
    · have hy' : w.tables[k]? = some y := (List.getElem?_append_left hlt).symm.trans hy
      obtain ⟨x, _, hx⟩ := h.shows.get k y hy'
      obtain ⟨hs, h1, h2⟩ := hx.rows
      have := (Mem.read_push (arr := []) (Mem.read_lt h1)).symm.trans hk
      exact .inl ⟨hy', this⟩
    · have hl := (List.getElem?_eq_some_iff.1 hy).1
      have hl' : k < w.tables.length + 1 := by
        have e : w.new.tables.length = w.tables.length + 1 := by simp [World.new]
        omega
      have : k = w.tables.length := by omega
      subst this
      have hy' := (List.getElem?_append_right (Nat.le_refl _)).symm.trans hy
      rw [Nat.sub_self] at hy'
      cases hy'
      have := (Mem.alloc_touch w.store.rows ⟨0, 0⟩ ([] : List Slice)).read
      have hk' := this.symm.trans hk
      cases hk'
      exact .inr rfl
  constructor
  · apply pointwise_snoc (h.shows.mono hkeep)
    refine ⟨rfl, rfl, rfl, rfl, ?_, ?_, ?_, ?_, [], ?_, trivial⟩
    · exact (Mem.alloc_touch w.store.names ⟨0, 0⟩ []).read
    · exact (Mem.alloc_touch w.store.types ⟨0, 0⟩ []).read
    · exact (List.getElem?_append_right (Nat.le_refl _)).trans (by rw [Nat.sub_self]; rfl)
    · exact (Mem.alloc_touch w.store.keys ⟨0, 0⟩ []).read
    · exact (Mem.alloc_touch w.store.rows ⟨0, 0⟩ []).read
  · refine ⟨hinj (fun t => t.colNames.addr) _ (fun u x hx => Mem.read_lt hx.colNames) h.separate.colNames _ rfl,
      hinj (fun t => t.colTypes.addr) _ (fun u x hx => Mem.read_lt hx.colTypes) h.separate.colTypes _ rfl,
      hinj (fun t => t.colMap) _ (fun u x hx => (List.getElem?_eq_some_iff.1 hx.colMap).1) h.separate.colMap _ rfl,
      hinj (fun t => t.sortKeys.addr) _ (fun u x hx => Mem.read_lt hx.sortKeys) h.separate.sortKeys _ rfl,
      hinj (fun t => t.rows.addr) _ (fun u x hx => by obtain ⟨hs, h1, _⟩ := hx.rows; exact Mem.read_lt h1) h.separate.rows _ rfl, ?_, ?_⟩
    · intro k y ks hy hk
      rcases hread k y ks hy hk with ⟨h1, h2⟩ | rfl
      · exact h.separate.rowsOf _ _ _ h1 h2
      · exact List.nodup_nil
    · intro j k x y xs ys hx hy h1 h2 a ha b hb e
      rcases hread j x xs hx h1 with ⟨hx', h1'⟩ | rfl
      · rcases hread k y ys hy h2 with ⟨hy', h2'⟩ | rfl
        · exact h.separate.cells _ _ _ _ _ _ hx' hy' h1' h2' a ha b hb e
        · cases hb
      · cases ha

end Verif
