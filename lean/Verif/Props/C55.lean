import Verif.Props.C31
import Verif.Props.C53
import Verif.Props.C27
import Verif.Props.C48

/-!
# C55 Whole table sets: walking, comparing, validating, copying
-/

namespace Verif
open TableSet Table

/-- **C55**, `Equals`: true exactly if the sets have as many tables, and the tables at the same places are equal (`C26_partial`); no panic.
The names of the sets do not matter. -/
theorem C55_equals (H : Heap) (hw : HeapWF H) (rank : Addr → Nat) (hac : Acyclic H rank) (k : Nat) (s1 s2 : TableSet)
    (h1 : ∀ a ∈ s1.tables, a < H.length ∧ rank a < k) (h2 : ∀ a ∈ s2.tables, a < H.length)
    (hal : ∀ (i : Nat) a b, s1.tables[i]? = some a → s2.tables[i]? = some b → AlignedTree H k a b) :
    (TableSet.equals H k s1 s2 = .ok () ↔
      s1.tables.length = s2.tables.length ∧ ∀ (i : Nat) a b, s1.tables[i]? = some a → s2.tables[i]? = some b → SameTree H k a b) ∧
    TableSet.equals H k s1 s2 ≠ .panic := by
  have hc1 : s1.tableCount = s1.tables.length := rfl
  have hc2 : s2.tableCount = s2.tables.length := rfl
  unfold TableSet.equals
  by_cases hl : s2.tableCount ≠ s1.tableCount
  · rw [if_pos hl]
    exact ⟨⟨fun h => by simp at h, fun h => by omega⟩, by simp⟩
  · rw [if_neg hl]
    have hl' : s1.tables.length = s2.tables.length := by omega
    have hstep : ∀ (i : Nat) a b, s1.tables[i]? = some a → s2.tables[i]? = some b →
        ((s1.getTableByTableIndex i).bind fun a => (s2.getTableByTableIndex i).bind fun b => equalsAt H k a b) = equalsAt H k a b := by
      intro i a b ha hb
      rw [getTableByTableIndex_nat ha, getTableByTableIndex_nat hb]; rfl
    have hC : ∀ (i : Nat) a b, s1.tables[i]? = some a → s2.tables[i]? = some b →
        (equalsAt H k a b = .ok () ↔ SameTree H k a b) ∧ equalsAt H k a b ≠ .panic := fun i a b ha hb =>
      C26_partial H hw rank hac k a b (h1 a (List.mem_of_getElem? ha)).2 (h1 a (List.mem_of_getElem? ha)).1 (h2 b (List.mem_of_getElem? hb))
        (hal i a b ha hb)
    constructor
    · rw [checkEach_ok]
      constructor
      · intro h
        refine ⟨hl', fun i a b ha hb => ?_⟩
        have hi := (List.getElem?_eq_some_iff.1 ha).1
        have := h i (List.mem_range.2 (by omega))
        rw [hstep i a b ha hb] at this
        exact (hC i a b ha hb).1.1 this
      · rintro ⟨_, h⟩ i hi
        have hi := List.mem_range.1 hi
        have ha : s1.tables[i]? = some _ := List.getElem?_eq_getElem (by omega)
        have hb : s2.tables[i]? = some _ := List.getElem?_eq_getElem (by omega)
        rw [hstep i _ _ ha hb]
        exact (hC i _ _ ha hb).1.2 (h i _ _ ha hb)
    · apply checkEach_noPanic
      intro i hi
      have hi := List.mem_range.1 hi
      have ha : s1.tables[i]? = some _ := List.getElem?_eq_getElem (by omega)
      have hb : s2.tables[i]? = some _ := List.getElem?_eq_getElem (by omega)
      rw [hstep i _ _ ha hb]
      exact (hC i _ _ ha hb).2

/-- **C55**, `IsValidTableSet`: true exactly if every table is valid (`C53_isValidTable`); otherwise false with an error. -/
theorem C55_isValidTableSet (H : Heap) (hw : HeapWF H) (hcl : Closed H) (d : Nat) (hd : H.length + 2 ≤ d) (s : TableSet)
    (hs : ∀ a ∈ s.tables, a < H.length) :
    (s.isValidTableSet H d = .valid ↔ ∀ a ∈ s.tables, ∀ t, H[a]? = some t → isValidTableName t.name = true ∧ isValidTableNesting H d a = .ok ()) ∧
    s.isValidTableSet H d ≠ .invalid none ∧ s.isValidTableSet H d ≠ .panic := by
  unfold isValidTableSet
  generalize s.tables = l at hs ⊢
  induction l with
  | nil => simp
  | cons a l ih =>
    have ha := hs a (by simp)
    have ea := List.getElem?_eq_getElem ha
    have ih := ih (fun x hx => hs x (by simp [hx]))
    obtain ⟨c1, c2, c3⟩ := C53_isValidTable H hw hcl d hd a _ ea
    simp only [List.foldr_cons, List.mem_cons, forall_eq_or_imp]
    cases hv : isValidTableAt H d a with
    | valid =>
      have := c1.1 hv
      refine ⟨?_, ih.2.1, ih.2.2⟩
      rw [ih.1]
      constructor
      · intro h; exact ⟨fun t ht => by rw [ea] at ht; cases ht; exact this, h⟩
      · exact fun h => h.2
    | invalid o =>
      rw [hv] at c1 c2
      refine ⟨⟨fun h => by simp at h, fun h => ?_⟩, c2, by simp⟩
      exact absurd (c1.2 (h.1 _ ea)) (by simp)
    | panic => exact absurd hv c3

/-- **C55**, `Walk`: the tables are walked in order, each as by its own `Walk` (`C46_visits`), whatever the other tables are; so every
table that is in the set, or nested in one that is, is visited completely. -/
theorem C55_walk (H : Heap) (hw : HeapWF H) (rank : Addr → Nat) (hac : Acyclic H rank) (hns : NoSharing H)
    (d : Nat) (hd : H.length + 2 ≤ d) (s : TableSet) (hs : ∀ a ∈ s.tables, a < H.length) :
    ∃ (w : WalkState (List Event)) (evs : Addr → List Event), s.walkTables record true d ⟨H, [], []⟩ = (w, .ok ()) ∧ w.heap = H ∧
      w.user = s.tables.flatMap evs ∧
      ∀ a ∈ s.tables, ∀ x, ((x = a ∨ Below H a x) → about x (evs a) = ownEvents H x) ∧ (¬ (x = a ∨ Below H a x) → about x (evs a) = []) := by
  have hcl := hac.closed
  have hone : ∀ a, a < H.length → ∃ ev : List Event, (∀ u, ∃ sf, walk record true d a ⟨H, [], u⟩ = (⟨H, sf, u ++ ev⟩, .ok ())) ∧
      ∀ x, ((x = a ∨ Below H a x) → about x ev = ownEvents H x) ∧ (¬ (x = a ∨ Below H a x) → about x ev = []) := by
    intro a ha
    generalize hD : max d (rank a + 1) = D
    have hr : rank a < D := by omega
    refine ⟨treeTrace true H D a, fun u => ?_, fun x => ⟨fun hx => about_treeTrace hw hns hac hr hx, fun hx => about_eq_nil hw hx⟩⟩
    have hnp := C46_terminates H hw hcl record _ (reads_record H) (by simp) true d hd a ha u
    have hm := walk_mono record true (Nat.le_max_left d (rank a + 1)) a ⟨H, [], u⟩ hnp
    rw [hD] at hm
    have := ((walk_exact hw hcl (reads_record H) true D a ha) [] u (by simp)).1
      ⟨within_of_rank hw hac true hr, by rw [List.append_nil]; exact nodup_reverse.2 (nestedSeq_nodup hw hns hac true D a),
        by rw [forEach_record]⟩
    rw [← hm, this, forEach_record]
    exact ⟨_, rfl⟩
  let evs : Addr → List Event := fun a => if h : a < H.length then Classical.choose (hone a h) else []
  have hevs : ∀ a, a < H.length → (∀ u, ∃ sf, walk record true d a ⟨H, [], u⟩ = (⟨H, sf, u ++ evs a⟩, .ok ())) ∧
      ∀ x, ((x = a ∨ Below H a x) → about x (evs a) = ownEvents H x) ∧ (¬ (x = a ∨ Below H a x) → about x (evs a) = []) := by
    intro a h
    have := Classical.choose_spec (hone a h)
    simpa only [evs, dif_pos h] using this
  have := forEach_range_ok (f := walkStep record true d s)
    (fun k (w : WalkState (List Event)) => w.heap = H ∧ w.user = (s.tables.take k).flatMap evs) s.tables.length
    (by
      rintro k hk ⟨h, sf, u⟩ ⟨hh, hu⟩
      simp only at hh
      subst hh
      have ek := List.getElem?_eq_getElem hk
      have hka := hs _ (List.getElem_mem hk)
      simp only [walkStep, getTableByTableIndex_nat ek]
      obtain ⟨sf', e⟩ := (hevs _ hka).1 u
      rw [e]
      refine ⟨_, rfl, rfl, ?_⟩
      rw [List.take_add_one, ek]
      simp only at hu
      subst hu
      simp only [Option.toList_some, List.flatMap_append, List.flatMap_cons, List.flatMap_nil, List.append_nil])
    ⟨H, [], []⟩ ⟨rfl, by simp⟩
  obtain ⟨w, e, h1, h2⟩ := this
  exact ⟨w, evs, e, h1, by rw [h2, List.take_length], fun a ha => (hevs a (hs a ha)).2⟩

theorem Flat.no_tbl {t : Table Addr} (hwf : WF t) (h : Flat t) {n : GoStr} {r : Nat} {b : Addr} : ¬ At t n r (.tbl (some b)) := by
  rintro ⟨i, row, h1, h2, h3⟩
  have hm := List.mem_of_getElem? h2
  obtain ⟨l, hok⟩ := hwf.rowsOK row hm
  have hi := (List.getElem?_eq_some_iff.1 h3).1
  have et : t.colTypes[i]? = some t.colTypes[i] := List.getElem?_eq_getElem (by omega)
  have := hok i _ _ et h3
  have hty : t.colTypes[i] = .table := by
    generalize t.colTypes[i] = ty at this
    cases ty <;> simp_all [Cell.HasType]
  exact h n ⟨i, h1, by rw [et, hty]⟩

/-- **C55**, `Copy`: a set of distinctly named, flat tables is copied to a set of the same name and file name, holding new tables, at the same
places, each a copy of the original (`C27_copy`).  The originals are left alone. -/
theorem C55_copy (H : Heap) (hw : HeapWF H) (hcl : Closed H) (s : TableSet) (hok : SetOK H s)
    (d : Nat) (hd : H.length + s.tables.length + 2 ≤ d)
    (hflat : ∀ a ∈ s.tables, ∀ t, H[a]? = some t → t.isNilTable = false ∧ Flat t) :
    ∃ copies s', s.copy H d = (H ++ copies, .ok s') ∧ s'.name = s.name ∧ s'.fileName = s.fileName ∧
      s'.tables = List.range' H.length s.tables.length ∧ copies.length = s.tables.length ∧
      ∀ (i : Nat) a t t', s.tables[i]? = some a → H[a]? = some t → copies[i]? = some t' → Extract t t.name t.rows t' := by
  have := forEach_range_ok (f := copyStep d s)
    (fun k (st : Heap × TableSet) => ∃ copies, st.1 = H ++ copies ∧ HeapWF st.1 ∧ Closed st.1 ∧ st.2.name = s.name ∧ st.2.fileName = s.fileName ∧
      st.2.tables = List.range' H.length k ∧ copies.length = k ∧
      ∀ (i : Nat) a t t', s.tables[i]? = some a → H[a]? = some t → copies[i]? = some t' → Extract t t.name t.rows t') s.tables.length
    (by
      rintro k hk ⟨H1, s1⟩ ⟨copies, rfl, hw1, hcl1, c1, c2, c3, c4, c5⟩
      simp only at c1 c2 c3 hw1 hcl1
      have ek := List.getElem?_eq_getElem hk
      have hka := hok.1 _ (List.getElem_mem hk)
      generalize s.tables[k] = a at ek hka
      have ea := List.getElem?_eq_getElem hka
      have ea1 : (H ++ copies)[a]? = some H[a] := by rw [List.getElem?_append_left hka, ea]
      obtain ⟨hnil, hfl⟩ := hflat a (List.mem_of_getElem? ek) _ ea
      obtain ⟨t', e, hx⟩ := C27_copy (H ++ copies) hw1 hcl1 d (by simp; omega) a _ ea1 hnil hfl
      simp only [copyStep, getTableByTableIndex_nat ek, e]
      have hlen : (H ++ copies).length = H.length + k := by simp [c4]
      have hname : nameAt (H ++ copies ++ [t']) (H ++ copies).length ∉ setNames (H ++ copies ++ [t']) s1 := by
        rw [mem_setNames]
        rintro ⟨x, hxm, hxe⟩
        rw [c3] at hxm
        obtain ⟨j, hj, rfl⟩ := List.mem_range'.1 hxm
        rw [Nat.one_mul] at hxe
        have ej := List.getElem?_eq_getElem (show j < s.tables.length by omega)
        have hja := hok.1 _ (List.getElem_mem (show j < s.tables.length by omega))
        generalize s.tables[j] = b at ej hja
        have eb := List.getElem?_eq_getElem hja
        have ec := List.getElem?_eq_getElem (show j < copies.length by omega)
        have hxj := c5 j b _ _ ej eb ec
        have n1 : nameAt (H ++ copies ++ [t']) (H.length + j) = copies[j].name := by
          unfold nameAt
          rw [List.getElem?_append_left (by simp; omega), List.getElem?_append_right (by omega)]
          simp [ec]
        have n2 : nameAt (H ++ copies ++ [t']) (H ++ copies).length = t'.name := by
          unfold nameAt
          rw [List.getElem?_append_right (by omega)]
          simp
        have n3 : nameAt H b = nameAt H a := by
          unfold nameAt
          rw [ea, eb]
          simp only
          rw [n1, n2, hxj.1, hx.1] at hxe
          exact hxe
        have := names_inj hok ej ek n3
        omega
      rw [(C31_appendTable _ s1 _).2 hname]
      refine ⟨_, rfl, copies ++ [t'], by simp, ?_, ?_, c1, c2, ?_, by simp [c4], ?_⟩
      · intro t ht
        rcases List.mem_append.1 ht with ht | ht
        · exact hw1 t ht
        · rw [List.mem_singleton.1 ht]; exact hx.2.2.2.2.2.2.2
      · rintro x b ⟨t, n, r, h1, h2⟩
        rw [List.length_append]
        by_cases hxl : x < (H ++ copies).length
        · rw [List.getElem?_append_left hxl] at h1
          exact Nat.lt_add_right _ (hcl1 x b ⟨t, n, r, h1, h2⟩)
        · rw [List.getElem?_append_right (Nat.le_of_not_lt hxl)] at h1
          have ht : t = t' := by
            have := List.mem_of_getElem? h1
            simpa using this
          subst ht
          refine absurd h2 (Flat.no_tbl hx.2.2.2.2.2.2.2 ?_)
          rintro m ⟨i, hi1, hi2⟩
          rw [hx.2.1] at hi1
          rw [hx.2.2.1] at hi2
          exact hfl m ⟨i, hi1, hi2⟩
      · simp only [c3, hlen]
        rw [List.range'_concat]; simp
      · intro i a' t u h1 h2 h3
        by_cases hi : i < copies.length
        · rw [List.getElem?_append_left hi] at h3
          exact c5 i a' t u h1 h2 h3
        · rw [List.getElem?_append_right (by omega)] at h3
          have : i = k := by have := (List.getElem?_eq_some_iff.1 h3).1; simp at this; omega
          subst this
          rw [ek] at h1; cases h1
          rw [ea] at h2; cases h2
          simp [c4] at h3; subst h3
          exact hx)
    (H, { newTableSet s.name with fileName := s.fileName })
    ⟨[], by simp, hw, hcl, rfl, rfl, by simp [newTableSet], rfl, by simp⟩
  obtain ⟨⟨H', s'⟩, e, copies, h1, _, _, h2, h3, h4, h5, h6⟩ := this
  refine ⟨copies, s', ?_, h2, h3, h4, h5, h6⟩
  have hc : s.tableCount = s.tables.length := rfl
  simp only [TableSet.copy, hc, e]
  simp only at h1
  rw [h1]

/-! ## Cases -/

/-- The table holding a table, and the table it holds, in one set. -/
def Ex.set2 : TableSet := (SetOp.run (Ex.tree, newTableSet (gs! "S")) [.append 2, .append 1, .setFileName (gs! "f.got")]).2

example : Ex.set2.tables = [2, 1] := by decide +kernel

example := C55_walk Ex.tree Ex.tree_wf _ Ex.tree_acyclic Ex.tree_noSharing 5 (by decide) Ex.set2 (by decide +kernel)

example := (C55_isValidTableSet Ex.tree Ex.tree_wf Ex.tree_acyclic.closed 5 (by decide) Ex.set2 (by decide +kernel)).1
example : Ex.set2.isValidTableSet Ex.tree 5 = .valid := by decide +kernel
example : (newTableSet (gs! "S")).isValidTableSet Ex.selfHeap 5 = .valid := by decide +kernel

/-- A set with another name and the same tables is equal. -/
example := (C55_equals Ex.tree Ex.tree_wf _ Ex.tree_acyclic 3 Ex.set2 { Ex.set2 with name := gs! "other" } (by decide +kernel)
    (by decide +kernel) (fun i a b ha hb => by
      have : a = b := by
        have hb' : Ex.set2.tables[i]? = some b := hb
        rw [ha] at hb'; cases hb'; rfl
      subst this
      exact alignedTree_self _ Ex.tree_wf _ _)).1.1 (by decide +kernel)

/-- The table with a number in it, alone in a set, is copied. -/
def Ex.set3 : TableSet := (SetOp.run (Ex.numTree, newTableSet (gs! "S")) [.append 0]).2

example := C55_copy Ex.numTree Ex.numTree_wf Ex.numTree_acyclic.closed Ex.set3
  (by unfold SetOK; decide +kernel) 5 (by decide +kernel)
  (by
    intro a ha t ht
    have h0 : Ex.set3.tables = [0] := by decide +kernel
    rw [h0] at ha
    rw [List.mem_singleton.1 ha] at ht
    cases ht
    refine ⟨by decide +kernel, ?_⟩
    rintro n ⟨i, _, h⟩
    have h1 : Ex.numLeaf.colTypes = [.int] := by decide +kernel
    rw [h1] at h
    match i with
    | 0 => simp at h
    | i + 1 => simp at h)
example : ((Ex.set3.copy Ex.numTree 5).1[2]?.map fun t => (t.name, t.rows)) = some (Ex.numLeaf.name, Ex.numLeaf.rows) := by decide +kernel

end Verif
