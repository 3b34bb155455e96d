import Verif.Spec.Slices
import Verif.Lemmas.JsonTable

/-!
# Lemmas: slices in memory, and tables made of them
-/

namespace Verif

variable {τ α : Type}

/-! ## Slices -/

/-- The slice `s` became `s'`, with the elements `l'`, and no slice of another array changed. -/
structure Mem.Touch (m : Mem α) (s : Slice) (m' : Mem α) (s' : Slice) (l' : List α) : Prop where
  read : m'.read s' = some l'
  frame : ∀ u, u.addr ≠ s.addr → u.addr < m.length → m'.read u = m.read u
  addr : s'.addr = s.addr ∨ s'.addr = m.length

namespace Mem

theorem read_some {m : Mem α} {s : Slice} {l : List α} (h : m.read s = some l) : ∃ arr, m[s.addr]? = some arr ∧ s.len ≤ arr.length ∧ l = arr.take s.len := by
  unfold read at h
  split at h
  · cases h
  · rename_i arr ha
    split at h
    · rename_i hl
      cases h
      exact ⟨arr, ha, hl, rfl⟩
    · cases h

theorem read_eq {m : Mem α} {s : Slice} {arr : List α} (h : m[s.addr]? = some arr) (hl : s.len ≤ arr.length) : m.read s = some (arr.take s.len) := by
  unfold read
  rw [h]
  simp only [hl, if_true]

theorem read_lt {m : Mem α} {s : Slice} {l : List α} (h : m.read s = some l) : s.addr < m.length := by
  obtain ⟨arr, h1, _⟩ := read_some h
  exact (List.getElem?_eq_some_iff.1 h1).1

theorem read_len {m : Mem α} {s : Slice} {l : List α} (h : m.read s = some l) : l.length = s.len := by
  obtain ⟨arr, _, h2, rfl⟩ := read_some h
  rw [List.length_take]; omega

theorem read_set_ne {m : Mem α} {s : Slice} {a : Nat} {arr : List α} (h : s.addr ≠ a) : Mem.read (m.set a arr) s = m.read s := by
  unfold read
  rw [List.getElem?_set_ne (Ne.symm h)]

theorem read_push {m : Mem α} {s : Slice} {arr : List α} (h : s.addr < m.length) : Mem.read (m ++ [arr]) s = m.read s := by
  unfold read
  rw [List.getElem?_append_left h]

theorem Touch.same {m : Mem α} {s : Slice} {l : List α} (h : m.read s = some l) : Touch m s m s l := ⟨h, fun _ _ _ => rfl, .inl rfl⟩

theorem alloc_touch (m : Mem α) (s : Slice) (l : List α) : Touch m s (m.alloc l).1 (m.alloc l).2 l := by
  refine ⟨?_, fun u _ hu => read_push hu, .inr rfl⟩
  rw [read_eq (arr := l) (by simp [alloc]) (by simp [alloc])]
  simp [alloc]

theorem append_touch (spare : Nat → Nat) {m : Mem α} {s : Slice} {l : List α} (h : m.read s = some l) (x : α) :
    ∃ m' s', m.append spare s x = some (m', s') ∧ Touch m s m' s' (l ++ [x]) := by
  obtain ⟨arr, h1, h2, rfl⟩ := read_some h
  have hlt := (List.getElem?_eq_some_iff.1 h1).1
  unfold append
  rw [h1]
  dsimp only
  split
  · rename_i hl
    refine ⟨_, _, rfl, ?_, fun u hu _ => read_set_ne hu, .inl rfl⟩
    rw [read_eq (arr := arr.set s.len x) (by rw [List.getElem?_set_self hlt]) (by rw [List.length_set]; exact hl)]
    rw [Option.some.injEq]
    apply List.ext_getElem?
    intro i
    rw [List.getElem?_take]
    by_cases hi : i < s.len
    · rw [if_pos (by dsimp; omega), List.getElem?_set_ne (by omega), List.getElem?_append_left (by rw [List.length_take]; omega), List.getElem?_take, if_pos hi]
    · by_cases he : i = s.len
      · subst he
        rw [if_pos (by dsimp; omega), List.getElem?_set_self hl, List.getElem?_append_right (by rw [List.length_take]; omega), List.length_take]
        have : s.len - min s.len arr.length = 0 := by omega
        rw [this]; rfl
      · rw [if_neg (by dsimp; omega), List.getElem?_eq_none]
        simp only [List.length_append, List.length_take, List.length_singleton]; omega
  · refine ⟨_, _, rfl, ?_, fun u _ hu => read_push hu, .inr rfl⟩
    rw [read_eq (arr := arr.take s.len ++ x :: List.replicate (spare s.len) x) (by simp) (by simp; omega)]
    rw [Option.some.injEq]
    have : s.len = (arr.take s.len).length := by rw [List.length_take]; omega
    dsimp only
    rw [show s.len + 1 = (arr.take s.len).length + 1 by omega]
    rw [List.take_length_add_append]
    rfl

theorem cut_touch {m : Mem α} {s : Slice} {l : List α} (h : m.read s = some l) {a b : Nat} (hab : a ≤ b) (hb : b ≤ l.length) :
    ∃ m' s', m.cut s a b = some (m', s') ∧ Touch m s m' s' (l.take a ++ l.drop b) := by
  obtain ⟨arr, h1, h2, rfl⟩ := read_some h
  have hlt := (List.getElem?_eq_some_iff.1 h1).1
  have hb' : b ≤ s.len := by rw [List.length_take] at hb; omega
  unfold cut
  rw [h1]
  dsimp only
  rw [if_pos ⟨hab, hb', h2⟩]
  refine ⟨_, _, rfl, ?_, fun u hu _ => read_set_ne hu, .inl rfl⟩
  rw [read_eq (arr := arr.take a ++ (arr.take s.len).drop b ++ arr.drop (a + (s.len - b))) (by rw [List.getElem?_set_self hlt])
    (by simp only [List.length_append, List.length_take, List.length_drop]; omega)]
  rw [Option.some.injEq]
  have e1 : (arr.take s.len).take a = arr.take a := by rw [List.take_take, Nat.min_eq_left (by omega)]
  rw [e1]
  dsimp only
  rw [List.take_append_of_le_length (by simp only [List.length_append, List.length_take, List.length_drop]; omega)]
  apply List.take_of_length_le
  simp only [List.length_append, List.length_take, List.length_drop]; omega

theorem cut_one {m : Mem α} {s : Slice} {l : List α} (h : m.read s = some l) {i : Nat} (hi : i < l.length) :
    ∃ m' s', m.cut s i (i + 1) = some (m', s') ∧ Touch m s m' s' (l.eraseIdx i) := by
  obtain ⟨m', s', h1, h2⟩ := cut_touch h (Nat.le_succ i) hi
  rw [← List.eraseIdx_eq_take_drop_succ] at h2
  exact ⟨m', s', h1, h2⟩

theorem put_touch {m : Mem α} {s : Slice} {l : List α} (h : m.read s = some l) {i : Nat} (hi : i < l.length) (x : α) :
    ∃ m', m.put s i x = some m' ∧ Touch m s m' s (l.set i x) := by
  obtain ⟨arr, h1, h2, rfl⟩ := read_some h
  have hlt := (List.getElem?_eq_some_iff.1 h1).1
  have hi' : i < s.len := by rw [List.length_take] at hi; omega
  unfold put
  rw [h1]
  dsimp only
  rw [if_pos hi']
  refine ⟨_, rfl, ?_, fun u hu _ => read_set_ne hu, .inl rfl⟩
  rw [read_eq (arr := arr.set i x) (by rw [List.getElem?_set_self hlt]) (by rw [List.length_set]; exact h2)]
  rw [List.take_set]

end Mem

/-! ## One part of a table -/

theorem pointwise_set {α β : Type} {R : α → β → Prop} {i : Nat} {a : α} {b : β} (hab : R a b) : ∀ {as : List α} {bs : List β}, Pointwise R as bs → Pointwise R (as.set i a) (bs.set i b)
    := by
  intro as bs h
  apply pointwise_of
  · rw [List.length_set, List.length_set]; exact h.length
  intro j x y hx hy
  by_cases hij : i = j
  · subst hij
    have h1 := (List.getElem?_eq_some_iff.1 hx).1
    have h2 := (List.getElem?_eq_some_iff.1 hy).1
    rw [List.length_set] at h1 h2
    rw [List.getElem?_set_self h1] at hx
    rw [List.getElem?_set_self h2] at hy
    cases hx; cases hy
    exact hab
  · rw [List.getElem?_set_ne hij] at hx hy
    obtain ⟨y', h1, h2⟩ := h.get j x hx
    rw [h1] at hy; cases hy
    exact h2

/-- The contents of the tables after the `i`th became `t'`. -/
theorem shows_set {st st' : Store τ} {ts : List (MTable τ)} {vs : List (Table τ)} {i : Nat} {t t' : MTable τ} {v' : Table τ} (hs : Pointwise (Rep st) ts vs)
    (ht : ts[i]? = some t) (hother : ∀ j u x, j ≠ i → ts[j]? = some u → Rep st u x → Rep st' u x) (hnew : Rep st' t' v') : Pointwise (Rep st') (ts.set i t') (vs.set i v') := by
  apply pointwise_of
  · rw [List.length_set, List.length_set]; exact hs.length
  intro j x y hx hy
  by_cases hij : i = j
  · subst hij
    have h1 := (List.getElem?_eq_some_iff.1 hx).1
    have h2 := (List.getElem?_eq_some_iff.1 hy).1
    rw [List.length_set] at h1 h2
    rw [List.getElem?_set_self h1] at hx
    rw [List.getElem?_set_self h2] at hy
    cases hx; cases hy
    exact hnew
  · rw [List.getElem?_set_ne hij] at hx hy
    obtain ⟨y', h1, h2⟩ := hs.get j x hx
    rw [h1] at hy; cases hy
    exact hother j x _ (Ne.symm hij) hx h2

/-- The table at `j` is the old one, or `i = j`. -/
theorem get_set {β : Type} {ts : List β} {i j : Nat} {t' x : β} (h : (ts.set i t')[j]? = some x) : (j = i ∧ x = t') ∨ (j ≠ i ∧ ts[j]? = some x) := by
  by_cases hij : i = j
  · subst hij
    have h1 := (List.getElem?_eq_some_iff.1 h).1
    rw [List.length_set] at h1
    rw [List.getElem?_set_self h1] at h
    cases h
    exact .inl ⟨rfl, rfl⟩
  · rw [List.getElem?_set_ne hij] at h
    exact .inr ⟨Ne.symm hij, h⟩

/-- An address is the old one, or one that no table has. -/
def OldOrNew {β : Type} (f : β → Nat) (ts : List β) (t t' : β) : Prop := f t' = f t ∨ ∀ (j : Nat) u, ts[j]? = some u → f u ≠ f t'

/-- Addresses stay different when one becomes a new one. -/
theorem inj_set {β : Type} {f : β → Nat} {ts : List β} (hinj : ∀ (i j : Nat) t u, ts[i]? = some t → ts[j]? = some u → f t = f u → i = j) {i : Nat} {t t' : β}
    (ht : ts[i]? = some t) (hf : OldOrNew f ts t t') : ∀ (j k : Nat) x y, (ts.set i t')[j]? = some x → (ts.set i t')[k]? = some y → f x = f y → j = k := by
  intro j k x y hx hy e
  rcases get_set hx with ⟨rfl, rfl⟩ | ⟨h1, h2⟩
  · rcases get_set hy with ⟨rfl, rfl⟩ | ⟨h3, h4⟩
    · rfl
    · rcases hf with hf | hf
      · exact hinj _ _ _ _ ht h4 (by rw [← hf, e])
      · exact absurd e.symm (hf _ _ h4)
  · rcases get_set hy with ⟨rfl, rfl⟩ | ⟨h3, h4⟩
    · rcases hf with hf | hf
      · exact hinj _ _ _ _ h2 ht (by rw [e, hf])
      · exact absurd e (hf _ _ h2)
    · exact hinj _ _ _ _ h2 h4 e

/-- Tables stay separate when one of them changes something other than its rows. -/
theorem separate_set {w : World τ} (h : w.Separate) {st' : Store τ} {i : Nat} {t t' : MTable τ} (ht : w.tables[i]? = some t) (hst : st'.rows = w.store.rows)
    (hn : OldOrNew (fun t => t.colNames.addr) w.tables t t') (hty : OldOrNew (fun t => t.colTypes.addr) w.tables t t') (hm : OldOrNew (fun t => t.colMap) w.tables t t')
    (hk : OldOrNew (fun t => t.sortKeys.addr) w.tables t t') (hrows : t'.rows = t.rows) : World.Separate ⟨st', w.tables.set i t'⟩ := by
  refine ⟨inj_set (f := fun t => t.colNames.addr) h.colNames ht hn, inj_set (f := fun t => t.colTypes.addr) h.colTypes ht hty, inj_set (f := fun t => t.colMap) h.colMap ht hm,
    inj_set (f := fun t => t.sortKeys.addr) h.sortKeys ht hk, inj_set (f := fun t => t.rows.addr) h.rows ht (.inl (by dsimp only; rw [hrows])), ?_, ?_⟩
  · intro j u hs hu hh
    dsimp only at hu hh
    rw [hst] at hh
    rcases get_set hu with ⟨rfl, rfl⟩ | ⟨_, h2⟩
    · rw [hrows] at hh
      exact h.rowsOf _ _ _ ht hh
    · exact h.rowsOf _ _ _ h2 hh
  · intro j k x y hs ks hx hy h1 h2
    dsimp only at hx hy h1 h2
    rw [hst] at h1 h2
    rcases get_set hx with ⟨rfl, rfl⟩ | ⟨_, hx'⟩ <;> rcases get_set hy with ⟨rfl, rfl⟩ | ⟨_, hy'⟩
    · intros; rfl
    · rw [hrows] at h1
      exact h.cells _ _ _ _ _ _ ht hy' h1 h2
    · rw [hrows] at h2
      exact h.cells _ _ _ _ _ _ hx' ht h1 h2
    · exact h.cells _ _ _ _ _ _ hx' hy' h1 h2

/-- The address of a touched slice. -/
theorem touch_addr {m m' : Mem α} {s' : Slice} {l' : List α} {f : MTable τ → Slice} {ts : List (MTable τ)} {t t' : MTable τ} (hm : Mem.Touch m (f t) m' s' l')
    (ht' : f t' = s') (hlt : ∀ (j : Nat) u, ts[j]? = some u → (f u).addr < m.length) : OldOrNew (fun t => (f t).addr) ts t t' := by
  rcases hm.addr with h | h
  · exact .inl (by dsimp only; rw [ht', h])
  · refine .inr (fun j u hu e => ?_)
    have := hlt j u hu
    dsimp only at e
    rw [e, ht', h] at this
    omega

/-- A world in which all is well. -/
structure World.Good (w : World τ) (vs : List (Table τ)) : Prop where
  shows : w.Shows vs
  separate : w.Separate

variable {w : World τ} {vs : List (Table τ)} {i : Nat} {t : MTable τ} {v : Table τ}

theorem World.Good.rep (h : w.Good vs) (hv : vs[i]? = some v) : ∃ t, w.tables[i]? = some t ∧ Rep w.store t v := h.shows.back i v hv

theorem goodW_names (h : w.Good vs) (ht : w.tables[i]? = some t) (hr : Rep w.store t v) {m' : Mem GoStr} {s' : Slice} {l' : List GoStr}
    (hm : Mem.Touch w.store.names t.colNames m' s' l') :
    World.Good ⟨{ w.store with names := m' }, w.tables.set i { t with colNames := s' }⟩ (vs.set i { v with colNames := l' }) where
  shows := by
    apply shows_set h.shows ht
    · intro j u x hj hu hx
      exact ⟨hx.name, hx.isStructShape, hx.isNilTable, hx.parent, by rw [hm.frame _ (fun e => hj (h.separate.colNames _ _ _ _ hu ht e)) (Mem.read_lt hx.colNames)]; exact hx.colNames,
        hx.colTypes, hx.colMap, hx.sortKeys, hx.rows⟩
    · exact ⟨hr.name, hr.isStructShape, hr.isNilTable, hr.parent, hm.read, hr.colTypes, hr.colMap, hr.sortKeys, hr.rows⟩
  separate := by
    have hlt : ∀ (j : Nat) u, w.tables[j]? = some u → u.colNames.addr < w.store.names.length := by
      intro j u hu
      obtain ⟨x, _, hx⟩ := h.shows.get j u hu
      exact Mem.read_lt hx.colNames
    exact separate_set h.separate ht rfl (touch_addr (f := fun t => t.colNames) hm rfl hlt) (.inl rfl) (.inl rfl) (.inl rfl) rfl

theorem goodW_types (h : w.Good vs) (ht : w.tables[i]? = some t) (hr : Rep w.store t v) {m' : Mem ColType} {s' : Slice} {l' : List ColType}
    (hm : Mem.Touch w.store.types t.colTypes m' s' l') :
    World.Good ⟨{ w.store with types := m' }, w.tables.set i { t with colTypes := s' }⟩ (vs.set i { v with colTypes := l' }) where
  shows := by
    apply shows_set h.shows ht
    · intro j u x hj hu hx
      exact ⟨hx.name, hx.isStructShape, hx.isNilTable, hx.parent, hx.colNames, by rw [hm.frame _ (fun e => hj (h.separate.colTypes _ _ _ _ hu ht e)) (Mem.read_lt hx.colTypes)]; exact hx.colTypes,
        hx.colMap, hx.sortKeys, hx.rows⟩
    · exact ⟨hr.name, hr.isStructShape, hr.isNilTable, hr.parent, hr.colNames, hm.read, hr.colMap, hr.sortKeys, hr.rows⟩
  separate := by
    have hlt : ∀ (j : Nat) u, w.tables[j]? = some u → u.colTypes.addr < w.store.types.length := by
      intro j u hu
      obtain ⟨x, _, hx⟩ := h.shows.get j u hu
      exact Mem.read_lt hx.colTypes
    exact separate_set h.separate ht rfl (.inl rfl) (touch_addr (f := fun t => t.colTypes) hm rfl hlt) (.inl rfl) (.inl rfl) rfl

theorem goodW_keys (h : w.Good vs) (ht : w.tables[i]? = some t) (hr : Rep w.store t v) {m' : Mem SortKey} {s' : Slice} {l' : List SortKey}
    (hm : Mem.Touch w.store.keys t.sortKeys m' s' l') :
    World.Good ⟨{ w.store with keys := m' }, w.tables.set i { t with sortKeys := s' }⟩ (vs.set i { v with sortKeys := l' }) where
  shows := by
    apply shows_set h.shows ht
    · intro j u x hj hu hx
      exact ⟨hx.name, hx.isStructShape, hx.isNilTable, hx.parent, hx.colNames, hx.colTypes, hx.colMap,
        by rw [hm.frame _ (fun e => hj (h.separate.sortKeys _ _ _ _ hu ht e)) (Mem.read_lt hx.sortKeys)]; exact hx.sortKeys, hx.rows⟩
    · exact ⟨hr.name, hr.isStructShape, hr.isNilTable, hr.parent, hr.colNames, hr.colTypes, hr.colMap, hm.read, hr.rows⟩
  separate := by
    have hlt : ∀ (j : Nat) u, w.tables[j]? = some u → u.sortKeys.addr < w.store.keys.length := by
      intro j u hu
      obtain ⟨x, _, hx⟩ := h.shows.get j u hu
      exact Mem.read_lt hx.sortKeys
    exact separate_set h.separate ht rfl (.inl rfl) (.inl rfl) (.inl rfl) (touch_addr (f := fun t => t.sortKeys) hm rfl hlt) rfl

theorem goodW_map (h : w.Good vs) (ht : w.tables[i]? = some t) (hr : Rep w.store t v) (mp : GoMap) :
    World.Good ⟨{ w.store with maps := w.store.maps.set t.colMap mp }, w.tables.set i t⟩ (vs.set i { v with colMap := mp }) where
  shows := by
    have hlt := (List.getElem?_eq_some_iff.1 hr.colMap).1
    apply shows_set h.shows ht
    · intro j u x hj hu hx
      refine ⟨hx.name, hx.isStructShape, hx.isNilTable, hx.parent, hx.colNames, hx.colTypes, ?_, hx.sortKeys, hx.rows⟩
      dsimp only
      rw [List.getElem?_set_ne (fun e => hj (h.separate.colMap _ _ _ _ hu ht e.symm))]
      exact hx.colMap
    · exact ⟨hr.name, hr.isStructShape, hr.isNilTable, hr.parent, hr.colNames, hr.colTypes, List.getElem?_set_self hlt, hr.sortKeys, hr.rows⟩
  separate := by
    exact separate_set h.separate ht rfl (.inl rfl) (.inl rfl) (.inl rfl) (.inl rfl) rfl

theorem goodW_head (h : w.Good vs) (ht : w.tables[i]? = some t) (hr : Rep w.store t v) (n : GoStr) (s b : Bool) (p : Option τ) :
    World.Good ⟨w.store, w.tables.set i { t with name := n, isStructShape := s, isNilTable := b, parent := p }⟩
      (vs.set i { v with name := n, isStructShape := s, isNilTable := b, parent := p }) where
  shows := shows_set h.shows ht (fun _ _ _ _ _ hx => hx) ⟨rfl, rfl, rfl, rfl, hr.colNames, hr.colTypes, hr.colMap, hr.sortKeys, hr.rows⟩
  separate := by
    exact separate_set h.separate ht rfl (.inl rfl) (.inl rfl) (.inl rfl) (.inl rfl) rfl

/-! ## Rows -/

theorem goodW_rows (h : w.Good vs) (ht : w.tables[i]? = some t) (hr : Rep w.store t v) {hs : List Slice} (hhs : w.store.rows.read t.rows = some hs)
    {cells' : Mem (Cell τ)} {m' : Mem Slice} {s' : Slice} {hs' : List Slice} {rows' : List (List (Cell τ))} (hm : Mem.Touch w.store.rows t.rows m' s' hs')
    (hnd : (hs'.map Slice.addr).Nodup) (hown : ∀ h' ∈ hs', (∃ x ∈ hs, x.addr = h'.addr) ∨ w.store.cells.length ≤ h'.addr)
    (hframe : ∀ u, u.addr < w.store.cells.length → (∀ x ∈ hs, x.addr ≠ u.addr) → cells'.read u = w.store.cells.read u)
    (hrows : Pointwise (fun h row => cells'.read h = some row) hs' rows') :
    World.Good ⟨{ w.store with cells := cells', rows := m' }, w.tables.set i { t with rows := s' }⟩ (vs.set i { v with rows := rows' }) := by
  -- headers of the other tables
  have hother : ∀ (j : Nat) u ks, j ≠ i → w.tables[j]? = some u → (Mem.read m' u.rows = some ks ↔ w.store.rows.read u.rows = some ks) := by
    intro j u ks hj hu
    obtain ⟨x, _, hx⟩ := h.shows.get j u hu
    obtain ⟨ks', k1, _⟩ := hx.rows
    rw [hm.frame _ (fun e => hj (h.separate.rows _ _ _ _ hu ht e)) (Mem.read_lt k1)]
  have hlt : ∀ (j : Nat) u ks, w.tables[j]? = some u → w.store.rows.read u.rows = some ks → ∀ k ∈ ks, k.addr < w.store.cells.length := by
    intro j u ks hu hk k hkm
    obtain ⟨x, _, hx⟩ := h.shows.get j u hu
    obtain ⟨ks', k1, k2⟩ := hx.rows
    rw [hk] at k1; cases k1
    obtain ⟨q, hq⟩ := List.mem_iff_getElem?.1 hkm
    obtain ⟨row, _, hrow⟩ := k2.get q k hq
    exact Mem.read_lt hrow
  -- other tables' rows are not the ones of this table
  have hne : ∀ (j : Nat) u ks, j ≠ i → w.tables[j]? = some u → w.store.rows.read u.rows = some ks → ∀ k ∈ ks, ∀ x ∈ hs, x.addr ≠ k.addr := by
    intro j u ks hj hu hk k hkm x hxm e
    exact hj (h.separate.cells _ _ _ _ _ _ ht hu hhs hk x hxm k hkm e).symm
  constructor
  · apply shows_set h.shows ht
    · intro j u x hj hu hx
      refine ⟨hx.name, hx.isStructShape, hx.isNilTable, hx.parent, hx.colNames, hx.colTypes, hx.colMap, hx.sortKeys, ?_⟩
      obtain ⟨ks, k1, k2⟩ := hx.rows
      refine ⟨ks, (hother j u ks hj hu).2 k1, ?_⟩
      apply pointwise_of k2.length
      intro q k row hk hrow
      obtain ⟨row', e1, e2⟩ := k2.get q k hk
      rw [hrow] at e1; cases e1
      have hkm := List.mem_of_getElem? hk
      dsimp only
      rw [hframe k (hlt j u ks hu k1 k hkm) (hne j u ks hj hu k1 k hkm)]
      exact e2
    · exact ⟨hr.name, hr.isStructShape, hr.isNilTable, hr.parent, hr.colNames, hr.colTypes, hr.colMap, hr.sortKeys, hs', hm.read, hrows⟩
  · have hrlt : ∀ (j : Nat) u, w.tables[j]? = some u → u.rows.addr < w.store.rows.length := by
      intro j u hu
      obtain ⟨x, _, hx⟩ := h.shows.get j u hu
      obtain ⟨ks, k1, _⟩ := hx.rows
      exact Mem.read_lt k1
    have hcross : ∀ (j : Nat) u ks, j ≠ i → w.tables[j]? = some u → w.store.rows.read u.rows = some ks → ∀ k ∈ ks, ∀ x ∈ hs', x.addr ≠ k.addr := by
      intro j u ks hj hu hk k hkm x hxm e
      rcases hown x hxm with ⟨x0, h1, h2⟩ | h1
      · exact hne j u ks hj hu hk k hkm x0 h1 (by rw [h2, e])
      · have := hlt j u ks hu hk k hkm
        omega
    let t' : MTable τ := { t with rows := s' }
    refine ⟨inj_set (t' := t') (f := fun t => t.colNames.addr) h.separate.colNames ht (.inl rfl), inj_set (t' := t') (f := fun t => t.colTypes.addr) h.separate.colTypes ht (.inl rfl),
      inj_set (t' := t') (f := fun t => t.colMap) h.separate.colMap ht (.inl rfl), inj_set (t' := t') (f := fun t => t.sortKeys.addr) h.separate.sortKeys ht (.inl rfl),
      inj_set (t' := t') (f := fun t => t.rows.addr) h.separate.rows ht (touch_addr (f := fun t => t.rows) hm rfl hrlt), ?_, ?_⟩
    · intro j u ks hu hk
      rcases get_set hu with ⟨rfl, rfl⟩ | ⟨h1, h2⟩
      · rw [hm.read] at hk; cases hk
        exact hnd
      · exact h.separate.rowsOf _ _ _ h2 ((hother j u ks h1 h2).1 hk)
    · intro j k x y xs ys hx hy h1 h2 a ha b hb e
      rcases get_set hx with ⟨rfl, rfl⟩ | ⟨hj, hx'⟩ <;> rcases get_set hy with ⟨rfl, rfl⟩ | ⟨hk, hy'⟩
      · rfl
      · rw [hm.read] at h1; cases h1
        exact absurd e (hcross k y ys hk hy' ((hother k y ys hk hy').1 h2) b hb a ha)
      · rw [hm.read] at h2; cases h2
        exact absurd e.symm (hcross j x xs hj hx' ((hother j x xs hj hx').1 h1) a ha b hb)
      · exact h.separate.cells _ _ _ _ _ _ hx' hy' ((hother j x xs hj hx').1 h1) ((hother k y ys hk hy').1 h2) a ha b hb e

end Verif
