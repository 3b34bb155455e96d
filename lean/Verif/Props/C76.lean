import Verif.Props.C27
import Verif.Props.C47
import Verif.Model.NewTree
import Verif.Lemmas.ReadRow
import Verif.Spec.Tree

/-!
# C76: `NewTreeTable` gives back the table it was called on, as it was
-/

namespace Verif

theorem HeapWF.get {H : Heap} (h : HeapWF H) {a : Addr} {t : Table Addr} (ha : H[a]? = some t) : WF t := h t (List.mem_of_getElem? ha)

theorem HeapWF.set {H : Heap} (h : HeapWF H) (a : Addr) {t : Table Addr} (ht : WF t) : HeapWF (H.set a t) := by
  intro x hx
  rcases List.mem_or_eq_of_mem_set hx with hx | rfl
  · exact h x hx
  · exact ht

/-- What `NewTreeTable` keeps true while it works: memory below `n` is as in `H`, and every table is well-formed. -/
structure TreeKeeps (H : Heap) (n : Nat) (K : Heap) : Prop where
  len : n ≤ K.length
  old : ∀ i, i < n → K[i]? = H[i]?
  wf : HeapWF K

theorem TreeKeeps.set {H K : Heap} {n : Nat} (h : TreeKeeps H n K) {a : Addr} (ha : n ≤ a) {t : Table Addr} (ht : WF t) : TreeKeeps H n (K.set a t) where
  len := by rw [List.length_set]; exact h.len
  old i hi := by rw [List.getElem?_set_ne (by omega)]; exact h.old i hi
  wf := h.wf.set a ht

theorem TreeKeeps.copy {H K : Heap} {n : Nat} (h : TreeKeeps H n K) (limit : Nat) (a : Addr) :
    TreeKeeps H n (copyAt K limit a).1 ∧ (∀ b, (copyAt K limit a).2 = .ok b → b = K.length) ∧
      (∀ i, i < K.length → (copyAt K limit a).1[i]? = K[i]?) := by
  unfold copyAt
  cases ha : K[a]? with
  | none => exact ⟨h, fun b hb => (nomatch hb), fun _ _ => rfl⟩
  | some table =>
    simp only
    rcases isValidTableNesting K limit a with (_ | e | _)
    · simp only
      rcases hc : table.copyBody (fun _ _ => (0 : Addr)) with (t' | e | _)
      · refine ⟨⟨?_, ?_, ?_⟩, ?_, ?_⟩
        · have := h.len; simp only [List.length_append]; omega
        · intro i hi
          have := h.len
          simp only; rw [List.getElem?_append_left (by omega)]; exact h.old i hi
        · intro x hx
          rcases List.mem_append.1 hx with hx | hx
          · exact h.wf x hx
          · rw [List.mem_singleton.1 hx]
            have hw := h.wf.get ha
            obtain ⟨c1, c2⟩ := C27_copyBody (fun _ _ => (0 : Addr)) table hw
            cases hn : table.isNilTable with
            | false =>
              obtain ⟨t'', e, ex⟩ := c1 hn
              rw [hc] at e; injection e with e; subst e; exact ex.2.2.2.2.2.2.2
            | true =>
              obtain ⟨e', he⟩ := c2 hn
              rw [hc] at he; cases he
        · intro b hb; injection hb with hb; exact hb.symm
        · intro i hi; exact List.getElem?_append_left hi
      · exact ⟨h, fun b hb => (nomatch hb), fun _ _ => rfl⟩
      · exact ⟨h, fun b hb => (nomatch hb), fun _ _ => rfl⟩
    · exact ⟨h, fun b hb => (nomatch hb), fun _ _ => rfl⟩
    · exact ⟨h, fun b hb => (nomatch hb), fun _ _ => rfl⟩

theorem TreeKeeps.setTable {H K : Heap} {n : Nat} (h : TreeKeeps H n K) {a b : Addr} (ha : n ≤ a) (hb : n ≤ b) (colName : GoStr) (r : Int) :
    TreeKeeps H n (setTableAt K a colName r b).1 ∧ ∀ i, i ≠ a → i ≠ b → (setTableAt K a colName r b).1[i]? = K[i]? := by
  unfold setTableAt
  cases eb : K[b]? with
  | none => exact ⟨h, fun _ _ _ => rfl⟩
  | some new =>
    cases ea : K[a]? with
    | none => exact ⟨h, fun _ _ _ => rfl⟩
    | some t0 =>
      simp only
      have h1 := h.set hb ((h.wf.get eb).setParent (some a))
      cases e1 : (K.set b { new with parent := some a })[a]? with
      | none => exact ⟨h1, fun i _ h2 => List.getElem?_set_ne (Ne.symm h2)⟩
      | some table =>
        simp only
        refine ⟨h1.set ha ((h1.wf.get e1).setTyped .table colName r (v := .tbl (some b)) trivial), ?_⟩
        intro i hia hib
        rw [List.getElem?_set_ne (Ne.symm hia), List.getElem?_set_ne (Ne.symm hib)]

theorem newTreeRec_empty {limit : Nat} {o : Addr} (depth : Nat) {b : Addr} {K : Heap} {t : Table Addr} (hb : K[b]? = some t) (hr : t.rows = []) :
    newTreeRec limit o depth b K = (K, .ok ()) := by
  cases depth with
  | zero => rfl
  | succ d =>
    have h0 : t.rowCount = 0 := by rw [Table.rowCount, hr]; rfl
    simp only [newTreeRec, hb, h0, List.range_zero, forEach]

theorem isTableColByColIndex_true {t : Table Addr} {c : Nat} (h : t.isTableColByColIndex (c : Int) = .ok true) : t.colTypes[c]? = some .table := by
  unfold Table.isTableColByColIndex at h
  rcases hc : t.colTypeByColIndex (c : Int) with (ty | e | _)
  · rw [hc] at h
    simp only [Out.bind, Out.ok.injEq, decide_eq_true_eq] at h
    have h2 := (colTypeByColIndex_ok.1 hc).2
    have : ty = .table := by cases ty <;> first | rfl | (exact absurd h (by decide))
    subst this; simpa using h2
  · rw [hc] at h; cases h
  · rw [hc] at h; cases h

theorem nil_noTableCol {t : Table Addr} (h : WF t) (hn : t.isNilTable = true) (c : Nat) (hc : t.isTableColByColIndex (c : Int) = .ok true) : False := by
  have h1 := (List.getElem?_eq_some_iff.1 (isTableColByColIndex_true hc)).1
  have h2 := h.typesLen
  rw [(h.nilEmpty hn).1] at h2
  simp only [List.length_nil] at h2
  omega

theorem TreeKeeps.cell {H K : Heap} {n : Nat} (h : TreeKeeps H n K) (limit : Nat) (o : Addr) (depth : Nat) {a : Addr} (ha : n ≤ a) (r c : Nat) :
    TreeKeeps H n (newTreeCell limit o (newTreeRec limit o depth) a r c K).1 := by
  unfold newTreeCell
  split
  · exact h
  · rename_i t ht
    split
    · exact h
    · exact h
    · exact h
    · rename_i hcol
      split
      · exact h
      · exact h
      · rename_i nestedTable hg
        split
        · exact h
        · rename_i nested hn
          split
          · rename_i hnil
            split
            · exact h
            · exact h
            · rename_i colName _
              have hcopy := h.copy limit o
              split
              · rename_i e; rw [e] at hcopy; exact hcopy.1
              · rename_i e; rw [e] at hcopy; exact hcopy.1
              · rename_i H1 b e
                rw [e] at hcopy
                obtain ⟨k1, k2, k3⟩ := hcopy
                have hb := k2 b rfl
                have hlen := h.len
                have hset := k1.setTable (a := a) (b := b) ha (by rw [hb]; exact hlen) colName r
                split
                · rename_i H2 e2
                  rw [e2] at hset
                  have hrows := (h.wf.get hn).nilEmpty hnil
                  have hne : nestedTable ≠ a := by
                    intro e3; subst e3
                    rw [hn] at ht; cases ht
                    exact nil_noTableCol (h.wf.get hn) hnil c hcol
                  have hlt : nestedTable < K.length := (List.getElem?_eq_some_iff.1 hn).1
                  have hkeep : H2[nestedTable]? = some nested := by
                    rw [hset.2 nestedTable hne (by rw [hb]; exact Nat.ne_of_lt hlt), k3 _ hlt, hn]
                  rw [newTreeRec_empty depth hkeep hrows.2]
                  exact hset.1
                · rename_i o' e2
                  rw [e2] at hset; exact hset.1
          · exact h
      · exact h

theorem TreeKeeps.recur {H K : Heap} {n : Nat} (h : TreeKeeps H n K) (limit : Nat) (o : Addr) (depth : Nat) {a : Addr} (ha : n ≤ a) :
    TreeKeeps H n (newTreeRec limit o depth a K).1 := by
  cases depth with
  | zero => exact h
  | succ d =>
    simp only [newTreeRec]
    split
    · exact h
    · exact forEach_inv _ (fun r _ s hs => forEach_inv _ (fun c _ s' hs' => hs'.cell limit o d ha r c) s hs) K h

/-- C76: whatever the depth, and whatever the outcome, `NewTreeTable` changes no table that existed before, and the table it returns is the
one it was called on. -/
theorem C76_unchanged (H : Heap) (hwf : HeapWF H) (limit : Nat) (a : Addr) (depth : Int) :
    (∀ b, (newTreeTable H limit a depth).2 = .ok b → b = a) ∧
    ∀ (i : Nat) (t : Table Addr), H[i]? = some t → (newTreeTable H limit a depth).1[i]? = some t := by
  have h0 : TreeKeeps H H.length H := ⟨Nat.le_refl _, fun _ _ => rfl, hwf⟩
  have hcopy := h0.copy limit a
  have key : (∀ b, (newTreeTable H limit a depth).2 = .ok b → b = a) ∧ TreeKeeps H H.length (newTreeTable H limit a depth).1 := by
    unfold newTreeTable
    split
    · rename_i e; rw [e] at hcopy; exact ⟨fun b hb => (nomatch hb), hcopy.1⟩
    · rename_i e; rw [e] at hcopy; exact ⟨fun b hb => (nomatch hb), hcopy.1⟩
    · rename_i H1 c e
      rw [e] at hcopy
      have hc := hcopy.2.1 c rfl
      split
      · exact ⟨fun b hb => (nomatch hb), hcopy.1⟩
      · have hr := hcopy.1.recur limit a depth.toNat (a := c) (by rw [hc]; exact Nat.le_refl _)
        split
        · rename_i e2; rw [e2] at hr; exact ⟨fun b hb => (Out.ok.inj hb).symm, hr⟩
        · rename_i e2; rw [e2] at hr; exact ⟨fun b hb => (nomatch hb), hr⟩
        · rename_i e2; rw [e2] at hr; exact ⟨fun b hb => (nomatch hb), hr⟩
  exact ⟨key.1, fun i t hi => (key.2.old i (List.getElem?_eq_some_iff.1 hi).1).trans hi⟩

/-- C76, the promise that is not kept ("replicate tree to depth levels"): a cell of the table that stands for "no table" still does, after
the call, in the table returned. -/
theorem C76_noLevel (H : Heap) (hwf : HeapWF H) (limit : Nat) (a b : Addr) (depth : Int) (hr : (newTreeTable H limit a depth).2 = .ok b)
    (c r : Nat) (d : Addr) (hd : HoldsAt H b c r d) (hn : IsNil H d) :
    HoldsAt (newTreeTable H limit a depth).1 b c r d ∧ IsNil (newTreeTable H limit a depth).1 d := by
  obtain ⟨_, h2⟩ := C76_unchanged H hwf limit a depth
  obtain ⟨t, e1, e2⟩ := hd
  obtain ⟨u, e3, e4⟩ := hn
  exact ⟨⟨t, h2 b t e1, e2⟩, ⟨u, h2 d u e3, e4⟩⟩

/-- C76: a negative depth is never accepted. -/
theorem C76_negative (H : Heap) (limit : Nat) (a : Addr) (depth : Int) (hd : depth < 0) (b : Addr) : (newTreeTable H limit a depth).2 ≠ .ok b := by
  unfold newTreeTable
  split
  · exact fun h => nomatch h
  · exact fun h => nomatch h
  · rw [if_pos hd]; exact fun h => nomatch h

theorem newTreeCell_other {limit : Nat} {o : Addr} {recur : Addr → Heap → Heap × Out Unit} {a : Addr} {r c : Nat} {H : Heap} {t : Table Addr} {ty : ColType}
    (ha : H[a]? = some t) (hty : t.colTypes[c]? = some ty) (hne : ty ≠ .table) : newTreeCell limit o recur a r c H = (H, .ok ()) := by
  have h1 : t.isTableColByColIndex (c : Int) = .ok false := by
    have h2 : t.colTypeByColIndex (c : Int) = .ok ty := colTypeByColIndex_ok.2 ⟨by omega, by simpa using hty⟩
    simp only [Table.isTableColByColIndex, h2, Out.bind]
    have : ty.name ≠ gs! "*Table" := by cases ty <;> first | exact absurd rfl hne | decide
    simp [this]
  simp only [newTreeCell, ha, h1]

theorem forEach_skip {ι σ : Type} {f : ι → σ → σ × Out Unit} (l : List ι) (s : σ) (h : ∀ i ∈ l, f i s = (s, .ok ())) : forEach f l s = (s, .ok ()) := by
  induction l with
  | nil => rfl
  | cons i is ih =>
    simp only [forEach, h i (by simp)]
    exact ih (fun j hj => h j (by simp [hj]))

/-- C76, the part of the promise that is kept: with depth 0, or without columns of tables, the call succeeds, if the table can be copied.  Missing: other depths, where levels should
appear (`C76_noLevel`). -/
theorem C76_trivial_partial (H : Heap) (hwf : HeapWF H) (limit : Nat) (a : Addr) (t : Table Addr) (ha : H[a]? = some t) (hn : t.isNilTable = false)
    (hv : isValidTableNesting H limit a = .ok ()) (depth : Int) (hd : depth = 0 ∨ (0 ≤ depth ∧ ColType.table ∉ t.colTypes)) :
    (newTreeTable H limit a depth).2 = .ok a := by
  obtain ⟨t', e, ex⟩ := (C27_copyBody (fun _ _ => (0 : Addr)) t (hwf.get ha)).1 hn
  have hc : copyAt H limit a = (H ++ [t'], .ok H.length) := by simp only [copyAt, ha, hv, e]
  have hneg : ¬ depth < 0 := by omega
  have hrec : newTreeRec limit a depth.toNat H.length (H ++ [t']) = (H ++ [t'], .ok ()) := by
    rcases hd with rfl | ⟨_, hd⟩
    · rfl
    · cases depth.toNat with
      | zero => rfl
      | succ d =>
        have hl : (H ++ [t'])[H.length]? = some t' := by simp
        simp only [newTreeRec, hl]
        refine forEach_skip _ _ fun r _ => forEach_skip _ _ fun c hcm => ?_
        have hlt : c < t'.colTypes.length := by
          have h1 := List.mem_range.1 hcm
          have h2 := ex.2.2.2.2.2.2.2.typesLen
          simp only [Table.colCount] at h1; omega
        refine newTreeCell_other hl (List.getElem?_eq_getElem hlt) fun h => hd ?_
        rw [← ex.2.2.1, ← h]; exact List.getElem_mem _
  simp only [newTreeTable, hc, if_neg hneg, hrec]

/-! Not vacuous: a table with one cell that stands for "no table".  The call succeeds and makes two tables, which nobody gets to see. -/

def Ex.heap76 : Heap := [newNilTable, Ex.holder 0]

theorem Ex.heap76_wf : HeapWF Ex.heap76 := by
  intro t ht
  simp only [Ex.heap76, List.mem_cons, List.not_mem_nil, or_false] at ht
  rcases ht with rfl | rfl
  · exact WF.newNilTable
  · exact Ex.holder_wf _

theorem Ex.run76 : (newTreeTable Ex.heap76 3 1 2).2 = .ok 1 ∧ (newTreeTable Ex.heap76 3 1 2).1.length = 4 := by decide +kernel

example := C76_unchanged Ex.heap76 Ex.heap76_wf 3 1 2
example := C76_noLevel Ex.heap76 Ex.heap76_wf 3 1 1 2 Ex.run76.1 0 0 0 ⟨_, rfl, by decide +kernel⟩ ⟨_, rfl, rfl⟩
/-- The copy that is thrown away has a copy of the table in its cell. -/
example : HoldsAt (newTreeTable Ex.heap76 3 1 2).1 2 0 0 3 := ⟨((newTreeTable Ex.heap76 3 1 2).1[2]?).getD newNilTable, by decide +kernel, by decide +kernel⟩
example : (newTreeTable Ex.heap76 3 1 0).2 = .ok 1 :=
  C76_trivial_partial Ex.heap76 Ex.heap76_wf 3 1 (Ex.holder 0) rfl (by decide +kernel) (by decide +kernel) 0 (.inl rfl)
example : (newTreeTable [Ex.leaf (gs! "A")] 3 0 7).2 = .ok 0 :=
  C76_trivial_partial [Ex.leaf (gs! "A")] (by intro t ht; rw [List.mem_singleton.1 ht]; exact Ex.leaf_wf _) 3 0 _ rfl (by decide +kernel) (by decide +kernel) 7
    (.inr ⟨by decide, by decide +kernel⟩)

end Verif
