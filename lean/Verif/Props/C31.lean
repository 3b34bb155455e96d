import Verif.Model.TableSet
import Verif.Lemmas.Basic
import Verif.Props.C47

/-!
# C31 A table set behaves as an ordered list of distinctly named tables
-/

namespace Verif
open TableSet

/-- The names of the tables of the set, in order. -/
def setNames (H : Heap) (s : TableSet) : List GoStr := s.tables.map (nameAt H)

/-- The tables exist and have distinct names. -/
def SetOK (H : Heap) (s : TableSet) : Prop := (∀ a ∈ s.tables, a < H.length) ∧ (setNames H s).Nodup

variable {H : Heap} {s : TableSet}

theorem mem_setNames {n : GoStr} : n ∈ setNames H s ↔ ∃ a ∈ s.tables, nameAt H a = n := by simp [setNames]

/-- **C31**, appending: a table whose name is taken is refused and nothing changes; any other table goes to the end. -/
theorem C31_appendTable (H : Heap) (s : TableSet) (a : Addr) :
    (nameAt H a ∈ setNames H s → ∃ e, s.appendTable H a = (s, .err e)) ∧
    (nameAt H a ∉ setNames H s → s.appendTable H a = ({ s with tables := s.tables ++ [a] }, .ok ())) := by
  have key : ∀ (n : GoStr) l, nameTaken H n l = true ↔ n ∈ l.map (nameAt H) := by
    intro n l
    induction l with
    | nil => simp [nameTaken]
    | cons x l ih =>
      simp only [nameTaken, List.map_cons, List.mem_cons]
      split
      · rename_i h; simp [h]
      · rename_i h; rw [ih]; simp [Ne.symm h]
  constructor
  · intro h; exact ⟨.dupTable, by simp only [appendTable, (key _ _).2 h, if_true]⟩
  · intro h
    have : ¬ nameTaken H (nameAt H a) s.tables = true := fun h' => h ((key _ _).1 h')
    simp only [appendTable, this, if_false]; rfl

theorem getTableByTableIndex_nat {i : Nat} {a : Addr} (h : s.tables[i]? = some a) : s.getTableByTableIndex i = .ok a := by
  have hl := (List.getElem?_eq_some_iff.1 h).1
  have hc : s.tableCount = s.tables.length := rfl
  unfold getTableByTableIndex
  rw [if_neg (by omega)]
  simp [goGet?, h]

/-- **C31**, lookup by position: in range exactly the table there, otherwise an error. -/
theorem C31_getTableByTableIndex (s : TableSet) (i : Int) :
    (0 ≤ i ∧ i < s.tables.length → ∃ a, s.tables[i.toNat]? = some a ∧ s.getTableByTableIndex i = .ok a) ∧
    (¬ (0 ≤ i ∧ i < s.tables.length) → ∃ e, s.getTableByTableIndex i = .err e) := by
  have hc : s.tableCount = s.tables.length := rfl
  constructor
  · rintro ⟨h1, h2⟩
    have hl : i.toNat < s.tables.length := by omega
    refine ⟨_, List.getElem?_eq_getElem hl, ?_⟩
    have := getTableByTableIndex_nat (s := s) (List.getElem?_eq_getElem hl)
    rw [show ((i.toNat : Nat) : Int) = i by omega] at this
    exact this
  · intro h
    exact ⟨.badTableIndex, if_pos (by omega)⟩

theorem tableIndexLoop_spec (H : Heap) (s : TableSet) (n : GoStr) (k m : Nat) (hk : k + m = s.tables.length)
    (hbefore : ∀ j < k, ∀ a, s.tables[j]? = some a → nameAt H a ≠ n) :
    (∃ i a, s.tables[i]? = some a ∧ nameAt H a = n ∧ (∀ j < i, ∀ a, s.tables[j]? = some a → nameAt H a ≠ n) ∧
      tableIndexLoop H s n (List.range' k m) = .ok i) ∨
    ((∀ a ∈ s.tables, nameAt H a ≠ n) ∧ tableIndexLoop H s n (List.range' k m) = .err .noTable) := by
  induction m generalizing k with
  | zero =>
    right
    refine ⟨fun a ha => ?_, rfl⟩
    obtain ⟨j, hj⟩ := List.mem_iff_getElem?.1 ha
    exact hbefore j (by have := (List.getElem?_eq_some_iff.1 hj).1; omega) a hj
  | succ m ih =>
    have hl : k < s.tables.length := by omega
    have ek := List.getElem?_eq_getElem hl
    simp only [List.range'_succ, tableIndexLoop, getTableByTableIndex_nat ek, Out.bind]
    by_cases hn : nameAt H s.tables[k] = n
    · left
      exact ⟨k, _, ek, hn, hbefore, by rw [if_pos hn]⟩
    · rw [if_neg hn]
      refine ih (k + 1) (by omega) ?_
      intro j hj a ha
      by_cases hjk : j = k
      · subst hjk
        rw [ek] at ha; cases ha; exact hn
      · exact hbefore j (by omega) a ha

theorem names_inj (h : SetOK H s) {i j : Nat} {a b : Addr} (hi : s.tables[i]? = some a) (hj : s.tables[j]? = some b)
    (hn : nameAt H a = nameAt H b) : i = j := by
  have hi' : (setNames H s)[i]? = some (nameAt H a) := by simp [setNames, hi]
  have hj' : (setNames H s)[j]? = some (nameAt H a) := by simp [setNames, hj, hn]
  have h1 := (List.getElem?_eq_some_iff.1 hi').1
  exact (List.getElem?_inj h1 h.2).1 (by rw [hi', hj'])

/-- **C31**, lookup by name: `GetTable`, `TableIndex` and `HasTable` find the one table of that name and its position; if there is none,
all three return an error. -/
theorem C31_lookup (H : Heap) (s : TableSet) (h : SetOK H s) (n : GoStr) :
    (∀ (i : Nat) a, s.tables[i]? = some a → nameAt H a = n →
      s.getTable H n = .ok a ∧ s.tableIndex H n = .ok i ∧ s.hasTable H n = .ok ()) ∧
    (n ∉ setNames H s → ∃ e1 e2 e3, s.getTable H n = .err e1 ∧ s.tableIndex H n = .err e2 ∧ s.hasTable H n = .err e3) := by
  have hloop := tableIndexLoop_spec H s n 0 s.tables.length (by omega) (by omega)
  rw [← List.range_eq_range'] at hloop
  have hti : s.tableIndex H n = tableIndexLoop H s n (List.range s.tables.length) := rfl
  rw [← hti] at hloop
  constructor
  · intro i a hi hn
    have hmem := List.mem_of_getElem? hi
    refine ⟨?_, ?_, ?_⟩
    · unfold getTable
      cases hf : s.tables.find? (fun a => nameAt H a = n) with
      | none =>
        have := List.find?_eq_none.1 hf a hmem
        simp [hn] at this
      | some b =>
        have h1 : nameAt H b = n := by simpa using List.find?_some hf
        obtain ⟨j, hj⟩ := List.mem_iff_getElem?.1 (List.mem_of_find?_eq_some hf)
        have := names_inj h hi hj (by rw [hn, h1])
        subst this
        rw [hi] at hj; cases hj; rfl
    · rcases hloop with ⟨j, b, hj, hb, _, e⟩ | ⟨hno, _⟩
      · have := names_inj h hi hj (by rw [hn, hb])
        subst this
        exact e
      · exact absurd hn (hno a hmem)
    · unfold hasTable
      rw [if_pos]
      rw [List.any_eq_true]
      exact ⟨a, hmem, by simpa using hn⟩
  · intro hn
    have hno : ∀ a ∈ s.tables, nameAt H a ≠ n := fun a ha e => hn (mem_setNames.2 ⟨a, ha, e⟩)
    refine ⟨.noTable, .noTable, .noTable, ?_, ?_, ?_⟩
    · unfold getTable
      have : s.tables.find? (fun a => nameAt H a = n) = none := List.find?_eq_none.2 fun a ha => by simpa using hno a ha
      rw [this]
    · rcases hloop with ⟨j, b, hj, hb, _, _⟩ | ⟨_, e⟩
      · exact absurd hb (hno b (List.mem_of_getElem? hj))
      · exact e
    · unfold hasTable
      rw [if_neg]
      rw [List.any_eq_true]
      rintro ⟨a, ha, e⟩
      exact hno a ha (by simpa using e)

/-- **C31**, deletion by position: exactly the table there is removed; out of range nothing changes. -/
theorem C31_deleteTableByTableIndex (s : TableSet) (i : Int) :
    (∀ l1 a l2, s.tables = l1 ++ a :: l2 → i = l1.length → s.deleteTableByTableIndex i = ({ s with tables := l1 ++ l2 }, .ok ())) ∧
    (¬ (0 ≤ i ∧ i < s.tables.length) → ∃ e, s.deleteTableByTableIndex i = (s, .err e)) := by
  have hc : s.tableCount = s.tables.length := rfl
  constructor
  · rintro l1 a l2 e rfl
    have hl : s.tables.length = l1.length + l2.length + 1 := by rw [e]; simp; omega
    unfold deleteTableByTableIndex
    rw [if_neg (by omega), e]
    simp
  · intro h
    exact ⟨.badTableIndex, if_pos (by omega)⟩

/-- **C31**, deletion by name: exactly the table of that name is removed; if there is none nothing changes. -/
theorem C31_deleteTable (H : Heap) (s : TableSet) (h : SetOK H s) (n : GoStr) :
    (∀ l1 a l2, s.tables = l1 ++ a :: l2 → nameAt H a = n → s.deleteTable H n = ({ s with tables := l1 ++ l2 }, .ok ())) ∧
    (n ∉ setNames H s → ∃ e, s.deleteTable H n = (s, .err e)) := by
  obtain ⟨hl1, hl2⟩ := C31_lookup H s h n
  constructor
  · intro l1 a l2 e hn
    have hi : s.tables[l1.length]? = some a := by rw [e]; simp
    obtain ⟨_, h2, _⟩ := hl1 _ a hi hn
    unfold deleteTable
    rw [h2]
    exact (C31_deleteTableByTableIndex s (l1.length : Int)).1 l1 a l2 e rfl
  · intro hn
    obtain ⟨_, e, _, _, h2, _⟩ := hl2 hn
    exact ⟨e, by simp only [deleteTable, h2]⟩

/-- **C31**, renaming: it succeeds exactly if the old name is there, the new one is not, and the new one is a valid table name; then the
table of the old name, and no other, gets the new name (and counts as named), and the set keeps its order.  Otherwise nothing changes. -/
theorem C31_renameTable (H : Heap) (s : TableSet) (h : SetOK H s) (n m : GoStr) :
    (∀ a t, a ∈ s.tables → H[a]? = some t → nameAt H a = n → m ∉ setNames H s → isValidTableName m = true →
      s.renameTable H n m = (H.set a { t with name := m, isNilTable := false }, .ok ())) ∧
    (¬ (n ∈ setNames H s ∧ m ∉ setNames H s ∧ isValidTableName m = true) → ∃ e, s.renameTable H n m = (H, .err e)) := by
  have hset : ∀ (a : Addr) t, H[a]? = some t → H.set a t = H := by
    intro a t ht
    apply List.ext_getElem?
    intro j
    rw [List.getElem?_set]
    split
    · rename_i e; subst e
      rw [ht]
      simp [(List.getElem?_eq_some_iff.1 ht).1]
    · rfl
  constructor
  · intro a t ha ht hn hm hv
    obtain ⟨i, hi⟩ := List.mem_iff_getElem?.1 ha
    obtain ⟨e1, _, e2⟩ := (C31_lookup H s h n).1 i a hi hn
    obtain ⟨_, _, e, _, _, e3⟩ := (C31_lookup H s h m).2 hm
    simp [renameTable, e1, e2, e3, ht, Table.setName, hv]
  · intro hno
    by_cases h1 : n ∈ setNames H s
    · obtain ⟨a, ha, hn⟩ := mem_setNames.1 h1
      obtain ⟨i, hi⟩ := List.mem_iff_getElem?.1 ha
      obtain ⟨e1, _, e2⟩ := (C31_lookup H s h n).1 i a hi hn
      by_cases h2 : m ∈ setNames H s
      · obtain ⟨b, hb, hm⟩ := mem_setNames.1 h2
        obtain ⟨j, hj⟩ := List.mem_iff_getElem?.1 hb
        obtain ⟨_, _, e3⟩ := (C31_lookup H s h m).1 j b hj hm
        exact ⟨.dupTable, by simp [renameTable, e2, e3]⟩
      · obtain ⟨_, _, e, _, _, e3⟩ := (C31_lookup H s h m).2 h2
        have hv : isValidTableName m = false := by
          cases hv : isValidTableName m with
          | false => rfl
          | true => exact absurd ⟨h1, h2, hv⟩ hno
        have et := List.getElem?_eq_getElem (h.1 a ha)
        exact ⟨.badTableName, by simp [renameTable, e1, e2, e3, et, Table.setName, hv, hset a _ et]⟩
    · obtain ⟨_, _, e, _, _, e3⟩ := (C31_lookup H s h n).2 h1
      exact ⟨e, by simp only [renameTable, e3]⟩

theorem SetOK.sublist (h : SetOK H s) {l : List Addr} (hl : l.Sublist s.tables) : SetOK H { s with tables := l } :=
  ⟨fun a ha => h.1 a (hl.subset ha), h.2.sublist (by simpa [setNames] using hl.map (nameAt H))⟩

theorem SetOK.step (h : SetOK H s) (op : SetOp) (hop : ∀ a, op = .append a → a < H.length) :
    SetOK (op.step (H, s)).1.1 (op.step (H, s)).1.2 ∧ (op.step (H, s)).1.1.length = H.length ∧ (op.step (H, s)).2 ≠ .panic := by
  cases op with
  | append a =>
    simp only [SetOp.step]
    obtain ⟨h1, h2⟩ := C31_appendTable H s a
    by_cases hn : nameAt H a ∈ setNames H s
    · obtain ⟨e, he⟩ := h1 hn
      rw [he]; exact ⟨h, by simp, by simp⟩
    · rw [h2 hn]
      refine ⟨⟨?_, ?_⟩, by simp, by simp⟩
      · intro x hx
        rcases List.mem_append.1 hx with hx | hx
        · exact h.1 x hx
        · rw [List.mem_singleton.1 hx]; exact hop a rfl
      · have e : setNames H { s with tables := s.tables ++ [a] } = setNames H s ++ [nameAt H a] := by simp [setNames]
        rw [e, List.nodup_append]
        exact ⟨h.2, by simp, fun x hx y hy e => hn (by rw [← List.mem_singleton.1 hy, ← e]; exact hx)⟩
  | rename n m =>
    simp only [SetOp.step]
    obtain ⟨h1, h2⟩ := C31_renameTable H s h n m
    by_cases hc : n ∈ setNames H s ∧ m ∉ setNames H s ∧ isValidTableName m = true
    · obtain ⟨hn, hm, hv⟩ := hc
      obtain ⟨a, ha, hna⟩ := mem_setNames.1 hn
      have et := List.getElem?_eq_getElem (h.1 a ha)
      rw [h1 a _ ha et hna hm hv]
      refine ⟨⟨fun x hx => by simpa using h.1 x hx, ?_⟩, by simp, by simp⟩
      have hname : ∀ x, nameAt (H.set a { H[a]'(h.1 a ha) with name := m, isNilTable := false }) x = if x = a then m else nameAt H x := by
        intro x
        unfold nameAt
        rw [List.getElem?_set]
        by_cases hx : a = x
        · subst hx; simp [h.1 a ha]
        · simp [hx, Ne.symm hx]
      unfold setNames
      rw [List.nodup_iff_pairwise_ne, List.pairwise_iff_getElem]
      intro i j hi hj hij
      simp only [List.getElem_map, hname]
      simp only [List.length_map] at hi hj
      have ei := List.getElem?_eq_getElem hi
      have ej := List.getElem?_eq_getElem hj
      split
      · rename_i hia
        split
        · rename_i hja
          intro _
          have := names_inj h ei ej (by rw [hia, hja])
          omega
        · intro e
          exact hm (mem_setNames.2 ⟨_, List.getElem_mem hj, e.symm⟩)
      · split
        · intro e
          exact hm (mem_setNames.2 ⟨_, List.getElem_mem hi, e⟩)
        · intro e
          have := names_inj h ei ej e
          omega
    · obtain ⟨e, he⟩ := h2 hc
      rw [he]; exact ⟨h, by simp, by simp⟩
  | delete n =>
    simp only [SetOp.step]
    obtain ⟨h1, h2⟩ := C31_deleteTable H s h n
    by_cases hn : n ∈ setNames H s
    · obtain ⟨a, ha, hna⟩ := mem_setNames.1 hn
      obtain ⟨l1, l2, e⟩ := List.append_of_mem ha
      rw [h1 l1 a l2 e hna]
      exact ⟨h.sublist (by rw [e]; simp), by simp, by simp⟩
    · obtain ⟨e, he⟩ := h2 hn
      rw [he]; exact ⟨h, by simp, by simp⟩
  | deleteByIndex i =>
    simp only [SetOp.step]
    obtain ⟨h1, h2⟩ := C31_deleteTableByTableIndex s i
    by_cases hi : 0 ≤ i ∧ i < s.tables.length
    · have hl : i.toNat < s.tables.length := by omega
      have e : s.tables = s.tables.take i.toNat ++ s.tables[i.toNat] :: s.tables.drop (i.toNat + 1) := by
        rw [← List.drop_eq_getElem_cons hl, List.take_append_drop]
      rw [h1 _ _ _ e (by rw [List.length_take]; omega)]
      exact ⟨h.sublist (by
        conv => rhs; rw [e]
        exact List.Sublist.append_left (List.sublist_cons_self _ _) _), by simp, by simp⟩
    · obtain ⟨e, he⟩ := h2 hi
      rw [he]; exact ⟨h, by simp, by simp⟩
  | setName n => exact ⟨h, rfl, by simp [SetOp.step]⟩
  | setFileName n => exact ⟨h, rfl, by simp [SetOp.step]⟩

/-- **C31**, all histories: whatever calls are made on a new table set (with tables that exist), its tables always have distinct names and
no call panics. -/
theorem C31_history (H : Heap) (setName : GoStr) (ops : List SetOp) (hops : ∀ a, SetOp.append a ∈ ops → a < H.length) :
    SetOK (SetOp.run (H, newTableSet setName) ops).1 (SetOp.run (H, newTableSet setName) ops).2 ∧
    ∀ op, (∀ a, op = SetOp.append a → a < H.length) → (op.step (SetOp.run (H, newTableSet setName) ops)).2 ≠ .panic := by
  have key : ∀ (ops : List SetOp) (st : Heap × TableSet), (∀ a, SetOp.append a ∈ ops → a < st.1.length) → SetOK st.1 st.2 →
      SetOK (SetOp.run st ops).1 (SetOp.run st ops).2 ∧ (SetOp.run st ops).1.length = st.1.length := by
    intro ops
    induction ops with
    | nil => intro st _ h; exact ⟨h, rfl⟩
    | cons op ops ih =>
      intro st hops h
      obtain ⟨h1, h2, _⟩ := h.step op (fun a e => hops a (by simp [e]))
      have := ih (op.step st).1 (fun a ha => by rw [h2]; exact hops a (by simp [ha])) h1
      exact ⟨this.1, by rw [← h2]; exact this.2⟩
  obtain ⟨h1, h2⟩ := key ops (H, newTableSet setName) hops ⟨by simp [newTableSet], by simp [setNames, newTableSet]⟩
  exact ⟨h1, fun op hop => (h1.step op (fun a e => by rw [h2]; exact hop a e)).2.2⟩

/-! ## Cases -/

def Ex.setHeap : Heap := [Ex.leaf (gs! "A"), Ex.leaf (gs! "B"), Ex.leaf (gs! "A")]

def Ex.set : Heap × TableSet := SetOp.run (Ex.setHeap, newTableSet (gs! "S"))
  [.append 0, .append 1, .append 2, .rename (gs! "A") (gs! "C"), .append 2, .delete (gs! "B"), .delete (gs! "X"), .rename (gs! "C") (gs! "A")]

example : Ex.set.2.tables = [0, 2] := by decide +kernel
example : setNames Ex.set.1 Ex.set.2 = [gs! "C", gs! "A"] := by decide +kernel
example : SetOK Ex.set.1 Ex.set.2 := (C31_history Ex.setHeap _ _ (by simp [Ex.setHeap])).1
example := (C31_lookup Ex.set.1 Ex.set.2 (C31_history Ex.setHeap _ _ (by simp [Ex.setHeap])).1 (gs! "A")).1 1 2
  (by decide +kernel) (by decide +kernel)

/-- The uniqueness can be broken from outside: `SetName` of a table in the set does not know the set. -/
example : ¬ SetOK (Ex.set.1.set 0 ((Ex.leaf (gs! "C")).setName (gs! "A")).1) Ex.set.2 := by
  rintro ⟨_, h⟩
  revert h
  decide +kernel

end Verif
