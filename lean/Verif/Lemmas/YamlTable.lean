import Verif.Lemmas.YamlRead

/-!
# Lemmas: YAML texts of sets of tables are read back
-/

namespace Verif
open Table FloatFmt

variable {H : Heap} {okStr : GoStr → Prop} {okTime : GoTime → Prop}

theorem pointwise_eq_map {α β : Type} {f : α → β} : ∀ {as : List α} {bs : List β}, Pointwise (fun a b => b = f a) as bs → bs = as.map f
  | [], [], _ => rfl
  | _ :: _, _ :: _, h => by rw [List.map_cons, h.1, pointwise_eq_map h.2]

theorem yamlRows_map (l : List (List GoVal)) : yamlRows (l.map .list) = some l := by
  induction l with
  | nil => rfl
  | cons x l ih => rw [List.map_cons, yamlRows, ih]; rfl

theorem pointwise_lists {α : Type} {R : α → List GoVal → Prop} : ∀ {as : List α} {vs : List GoVal}, Pointwise (fun a v => ∃ l, v = .list l ∧ R a l) as vs →
    ∃ ls, vs = ls.map .list ∧ Pointwise R as ls
  | [], [], _ => ⟨[], rfl, trivial⟩
  | _ :: _, _ :: _, h => by
    obtain ⟨⟨l, rfl, hl⟩, h⟩ := h
    obtain ⟨ls, rfl, h'⟩ := pointwise_lists h
    exact ⟨l :: ls, rfl, hl, h'⟩

theorem yamlReady_below {a b : Addr} (h : YamlReady okStr okTime H a) (hb : Below H a b) : YamlReady okStr okTime H b := by
  intro x t hx ht
  refine h x t (.inr ?_) ht
  rcases hx with rfl | hx
  · exact hb
  · exact hb.trans hx

theorem yamlWritable_below {a b : Addr} (h : YamlWritable okStr okTime H a) (hb : Below H a b) : YamlWritable okStr okTime H b := by
  intro x t hx ht
  refine h x t (.inr ?_) ht
  rcases hx with rfl | hx
  · exact hb
  · exact hb.trans hx

theorem yamlReady_writable {a : Addr} (h : YamlReady okStr okTime H a) : YamlWritable okStr okTime H a := by
  intro b t hb ht
  obtain ⟨_, h2, h3, h4⟩ := h b t hb ht
  exact ⟨h2, h3, fun row hr => ⟨fun s hs => h4 row hr _ hs, fun v hv => h4 row hr _ hv⟩⟩

theorem holds_of_mem {a b : Addr} {t : Table Addr} {row : List (Cell Addr)} (ht : H[a]? = some t) (hr : row ∈ t.rows) (hc : Cell.tbl (some b) ∈ row) : ∃ c r, HoldsAt H a c r b := by
  obtain ⟨r, hr⟩ := List.mem_iff_getElem?.1 hr
  obtain ⟨c, hc⟩ := List.mem_iff_getElem?.1 hc
  exact ⟨c, r, t, ht, by simp only [nestedAt, hr, hc]⟩

/-- The new table: none if the table stands for "no table", and otherwise the same table. -/
def YamlBack (H K : Heap) (lo : Addr) (d : Nat) (a a' : Addr) : Prop := (IsNil H a ∧ K[a']? = some newNilTable ∧ lo ≤ a') ∨ JsonTree SameValue H K lo d a a'

/-- The map of a table is read as the same table. -/
theorem yaml_back (hw : HeapWF H) : ∀ (d : Nat) (a : Addr) (m : List (GoStr × GoVal)), TableMap H d a m → YamlReady okStr okTime H a →
    ∀ D, depthMap (backMap m) < D → ∀ K, ∃ K1, readYamlTable D K (backMap m) = .ok (K1, K.length) ∧ K.length < K1.length ∧ (∀ x, x < K.length → K1[x]? = K[x]?) ∧
      ((IsNil H a ∧ K1[K.length]? = some newNilTable) ∨ JsonTree SameValue H K1 K.length d a K.length) := by
  intro d
  induction d with
  | zero => intro a m h; exact h.elim
  | succ d ih =>
    intro a m hm hready D hD K
    obtain ⟨D, rfl⟩ : ∃ D', D = D' + 1 := ⟨D - 1, by omega⟩
    obtain ⟨t, ht, he⟩ := hm
    have htw := hw t (List.mem_of_getElem? ht)
    obtain ⟨y1, y2, y3, y4⟩ := hready a t (.inl rfl) ht
    have g1 : mapGet (backMap m) (gs! "tableName") = some (.val (.str t.name)) := by rw [backMap_get, he.name, Option.map_some, back_val]; rfl
    cases hnil : t.isNilTable with
    | true =>
      rw [y1 hnil] at g1
      refine ⟨K ++ [newNilTable], ?_, by simp, fun x hx => List.getElem?_append_left hx, .inl ⟨⟨t, ht, hnil⟩, by simp⟩⟩
      rw [readYamlTable]
      simp only [g1, List.length_nil, Nat.lt_irrefl, gt_iff_lt, if_false]
    | false =>
    have hname := htw.nameValid hnil
    have hpos : t.name.length > 0 := by
      cases e : t.name with
      | nil => rw [e] at hname; exact absurd hname (by decide)
      | cons => simp
    have g2 : mapGet (backMap m) (gs! "isStructShape") = if t.isStructShape then some (.val (.bool true)) else none := by
      rw [backMap_get, he.shape]
      cases t.isStructShape
      · rfl
      · simp only [if_pos, Option.map_some, back_val, backCell]
    have g3 : mapGet (backMap m) (gs! "metadata") = some (.list ((t.colNames.zip t.colTypes).map fun x => .map [(x.1, .val (.str (typeText x.2)))])) := by
      obtain ⟨cols, c1, c2⟩ := he.metadata
      rw [backMap_get, c1, Option.map_some, back_list, pointwise_eq_map c2, backList_eq, List.map_map]
      simp only [Function.comp_def, back_map, backMap, back_val, backCell]
    obtain ⟨rows, r1, r2⟩ := he.data
    obtain ⟨rowLists, rfl, r3⟩ := pointwise_lists r2
    have g4 : mapGet (backMap m) (gs! "data") = some (.list ((rowLists.map (fun l => l.map GoVal.back)).map .list)) := by
      rw [backMap_get, r1, Option.map_some, back_list, backList_eq, List.map_map, List.map_map]
      congr 2
      apply List.map_congr_left
      intro p _
      simp only [Function.comp, back_list, backList_eq]
    have hzip1 : (t.colNames.zip t.colTypes).map Prod.fst = t.colNames := List.map_fst_zip (by rw [htw.typesLen]; exact Nat.le_refl _)
    have hzip2 : (t.colNames.zip t.colTypes).map Prod.snd = t.colTypes := List.map_snd_zip (by rw [htw.typesLen]; exact Nat.le_refl _)
    let t0 : Table Addr := { (newNilTable : Table Addr) with name := t.name, isNilTable := false, isStructShape := t.isStructShape }
    have ht0 : (match mapGet (backMap m) (gs! "isStructShape") with
          | some (.val (.bool b)) => { ({ (newNilTable : Table Addr) with name := t.name, isNilTable := false } : Table Addr) with isStructShape := b }
          | _ => { (newNilTable : Table Addr) with name := t.name, isNilTable := false }) = t0 := by
      rw [g2]
      cases e : t.isStructShape <;> simp [t0, e, newNilTable]
    have hw0 : WF t0 := by
      have := WF.newTable (newTable_eq (τ := Addr) hname)
      exact ⟨this.1, this.2, this.3, this.4, this.5, this.6, this.7, this.8, this.9⟩
    obtain ⟨cm, c1, c2⟩ := yamlCols_ok K (t.colNames.zip t.colTypes) t0 hw0 rfl rfl
      (fun x hx => htw.namesValid _ (List.of_mem_zip hx).1) (fun x _ => by simp [t0, newNilTable]) (by rw [hzip1]; exact htw.namesNodup)
    rw [hzip1, hzip2] at c1 c2
    have hpw : Pointwise (fun vs row => vs.length = t.colTypes.length ∧ row.length = t.colTypes.length ∧
        ∀ (i : Nat) v, vs[i]? = some v → ∃ ty c, t.colTypes[i]? = some ty ∧ row[i]? = some c ∧ YamlReads H (readYamlTable D) d v ty c)
        (rowLists.map (fun l => l.map GoVal.back)) t.rows := by
      apply pointwise_of
      · rw [List.length_map]; exact r3.length.symm
      intro i vs row hi hr
      rw [List.getElem?_map] at hi
      obtain ⟨l, hl, hp⟩ := r3.get i row hr
      rw [hl, Option.map_some, Option.some.injEq] at hi
      subst hi
      have hrm := List.mem_of_getElem? hr
      have hro := htw.rowsOK _ hrm
      refine ⟨by rw [List.length_map, ← hp.length]; exact hro.1, hro.1, ?_⟩
      intro k v hv
      rw [List.getElem?_map] at hv
      cases hk : l[k]? with
      | none => rw [hk] at hv; cases hv
      | some w =>
      rw [hk, Option.map_some, Option.some.injEq] at hv
      subst hv
      obtain ⟨c, hc, hcm⟩ := hp.back k w hk
      have hkt : k < t.colTypes.length := by rw [← hro.1]; exact (List.getElem?_eq_some_iff.1 hc).1
      have htt := List.getElem?_eq_getElem hkt
      have hht := hro.2 k _ c htt hc
      have hcr := List.mem_of_getElem? hc
      refine ⟨_, c, htt, hc, ?_⟩
      have hplain : (∀ b, c ≠ .tbl b) → YamlReads H (readYamlTable D) d w.back t.colTypes[k] c := by
        intro hn
        have e : w = .val c := by
          cases c with
          | tbl b => exact absurd rfl (hn b)
          | _ => exact hcm
        rw [e, back_val]
        exact yamlCell_reads _ d hht (y4 row hrm c hcr) hn
      cases c with
      | tbl b =>
        cases b with
        | none => exfalso; revert hht; cases t.colTypes[k] <;> simp [Cell.HasType]
        | some b =>
          obtain ⟨m', rfl, hm'⟩ := hcm
          have htb : t.colTypes[k] = .table := by
            revert hht
            cases t.colTypes[k] <;> simp [Cell.HasType]
          rw [htb, back_map]
          apply yreads_table
          obtain ⟨cc, rr, hh⟩ := holds_of_mem ht hrm hcr
          have hdep : depthMap (backMap m') < D := by
            have d1 := depth_get g4
            have d2 := depth_list (v := .list (l.map GoVal.back)) (l := (rowLists.map (fun l => l.map GoVal.back)).map .list)
              (List.mem_map_of_mem (List.mem_map_of_mem (List.mem_of_getElem? hl)))
            have d3 := depth_list (v := (GoVal.map m').back) (l := l.map GoVal.back) (List.mem_map_of_mem (List.mem_of_getElem? hk))
            rw [GoVal.depth] at d1 d2
            rw [back_map, GoVal.depth] at d3
            omega
          intro K
          obtain ⟨K1, k1, k2, k3, k4⟩ := ih b m' hm' (yamlReady_below hready (.direct hh)) D hdep K
          exact ⟨K1, k1, k2, k3, k4.imp (fun h => ⟨h.1, _, h.2, rfl⟩) id⟩
      | _ => exact hplain (by simp)
    have ha : (K ++ [{ t0 with colNames := t0.colNames ++ t.colNames, colTypes := t0.colTypes ++ t.colTypes, colMap := cm }])[K.length]? = some
        { t0 with colNames := t0.colNames ++ t.colNames, colTypes := t0.colTypes ++ t.colTypes, colMap := cm } := by simp
    obtain ⟨K', new, q1, q2, q3, q4, q5, q6⟩ := yamlRows_ok _ t.rows [] _ _ hpw ha c2 rfl rfl rfl
    refine ⟨K', ?_, ?_, ?_, .inr ?_⟩
    · rw [readYamlTable]
      simp only [g1, g3, g4, newTable_eq hname, if_pos hpos, yamlRows_map]
      have h1 : readYamlRows (readYamlTable D) K.length (K ++ [{ t0 with colNames := t0.colNames ++ t.colNames, colTypes := t0.colTypes ++ t.colTypes, colMap := cm }])
          (rowLists.map (fun l => l.map GoVal.back)) = .ok K' := by
        rw [readYamlRows, List.range_eq_range']
        exact q1
      have h2 : ((readYamlCols K.length (K ++ [t0]) ((t.colNames.zip t.colTypes).map fun x => .map [(x.1, .val (.str (typeText x.2)))])).bind fun H1 =>
          (readYamlRows (readYamlTable D) K.length H1 (rowLists.map (fun l => l.map GoVal.back))).bind fun H2 => .ok (H2, K.length)) = .ok (K', K.length) := by
        rw [c1, Out.bind, h1]
        rfl
      rw [← ht0] at h2
      exact h2
    · simp only [List.length_append, List.length_singleton] at q4
      omega
    · intro x hx
      rw [q5 x (fun e => by rw [e] at hx; exact Nat.lt_irrefl _ hx) (by simp only [List.length_append, List.length_singleton]; exact Nat.lt_succ_of_lt hx),
        List.getElem?_append_left hx]
    · refine ⟨Nat.le_refl _, t, _, ht, q2, hnil, rfl, q3, rfl, rfl, rfl, rfl, rfl, ?_⟩
      exact q6.mono fun r r' hr => hr.mono fun c c' hc => SameCell.lower (Nat.le_succ _) (fun _ _ => JsonTree.lower (Nat.le_succ _)) hc

/-! ## What the map contains -/

theorem keptList_iff (l : List GoVal) : KeptList okStr okTime l ↔ ∀ v ∈ l, v.Kept okStr okTime := by
  induction l with
  | nil => simp [KeptList]
  | cons v l ih => rw [KeptList, ih]; simp

theorem keptMap_iff (m : List (GoStr × GoVal)) : KeptMap okStr okTime m ↔ ∀ p ∈ m, okStr p.1 ∧ p.2.Kept okStr okTime := by
  induction m with
  | nil => simp [KeptMap]
  | cons p m ih => obtain ⟨k, v⟩ := p; rw [KeptMap, ih]; simp [and_assoc]

theorem mapGet_mem {m : List (GoStr × GoVal)} (hnd : (m.map Prod.fst).Nodup) {p : GoStr × GoVal} (hp : p ∈ m) : mapGet m p.1 = some p.2 := by
  induction m with
  | nil => cases hp
  | cons q m ih =>
    obtain ⟨k, v⟩ := q
    rw [List.map_cons, List.nodup_cons] at hnd
    rw [mapGet]
    rcases List.mem_cons.1 hp with rfl | hp
    · rw [if_pos rfl]
    · rw [if_neg, ih hnd.2 hp]
      intro e
      exact hnd.1 (by show k ∈ _; rw [e]; exact List.mem_map_of_mem (f := Prod.fst) hp)

theorem typeText_word (ty : ColType) : typeText ty ∈ yamlWords := by cases ty <;> decide

theorem tableMap_kept (hwords : ∀ s ∈ yamlWords, okStr s) (hw : HeapWF H) : ∀ (d : Nat) (a : Addr) (m : List (GoStr × GoVal)), TableMap H d a m → YamlWritable okStr okTime H a →
    (m.map Prod.fst).Nodup ∧ KeptMap okStr okTime m := by
  intro d
  induction d with
  | zero => intro a m h; exact h.elim
  | succ d ih =>
    intro a m hm hready
    obtain ⟨t, ht, he⟩ := hm
    have htw := hw t (List.mem_of_getElem? ht)
    obtain ⟨y2, y3, y4⟩ := hready a t (.inl rfl) ht
    refine ⟨he.keys.1, (keptMap_iff m).2 ?_⟩
    intro p hp
    have hget := mapGet_mem he.keys.1 hp
    have hk := he.keys.2 p.1 (List.mem_map_of_mem hp)
    have hdata : mapGet m (gs! "data") = some p.2 → p.2.Kept okStr okTime := by
      intro hg
      obtain ⟨rows, r1, r2⟩ := he.data
      rw [hg, Option.some.injEq] at r1
      rw [r1, GoVal.Kept, keptList_iff]
      intro v hv
      obtain ⟨i, hi⟩ := List.mem_iff_getElem?.1 hv
      obtain ⟨row, hr, l, rfl, hl⟩ := r2.back i v hi
      have hrm := List.mem_of_getElem? hr
      rw [GoVal.Kept, keptList_iff]
      intro w hwm
      obtain ⟨k, hk⟩ := List.mem_iff_getElem?.1 hwm
      obtain ⟨c, hc, hcm⟩ := hl.back k w hk
      have hcr := List.mem_of_getElem? hc
      have hro := htw.rowsOK _ hrm
      have hkt : k < t.colTypes.length := by rw [← hro.1]; exact (List.getElem?_eq_some_iff.1 hc).1
      have hht := hro.2 k _ c (List.getElem?_eq_getElem hkt) hc
      have hs := y4 row hrm
      cases c with
      | tbl b =>
        cases b with
        | none => exfalso; revert hht; cases t.colTypes[k] <;> simp [Cell.HasType]
        | some b =>
          obtain ⟨m', rfl, hm'⟩ := hcm
          obtain ⟨cc, rr, hh⟩ := holds_of_mem ht hrm hcr
          rw [GoVal.Kept]
          exact ih b m' hm' (yamlWritable_below hready (.direct hh))
      | str s => rw [show w = .val (.str s) from hcm, GoVal.Kept]; exact hs.1 s hcr
      | time s => rw [show w = .val (.time s) from hcm, GoVal.Kept]; exact hs.2 s hcr
      | _ => rw [show w = .val _ from hcm]; simp only [GoVal.Kept]
    simp only [List.mem_cons, List.not_mem_nil, or_false] at hk
    rcases hk with e | e | e | e <;> rw [e] at hget ⊢
    · rw [he.name, Option.some.injEq] at hget
      rw [← hget, GoVal.Kept]
      exact ⟨hwords _ (by decide), y2⟩
    · rw [he.shape] at hget
      cases hs : t.isStructShape with
      | false => rw [hs] at hget; cases hget
      | true =>
        rw [hs, if_pos rfl, Option.some.injEq] at hget
        rw [← hget]
        refine ⟨hwords _ (by decide), ?_⟩
        simp only [GoVal.Kept]
    · obtain ⟨cols, c1, c2⟩ := he.metadata
      rw [c1, Option.some.injEq] at hget
      rw [← hget, GoVal.Kept, keptList_iff]
      refine ⟨hwords _ (by decide), ?_⟩
      intro v hv
      obtain ⟨i, hi⟩ := List.mem_iff_getElem?.1 hv
      obtain ⟨q, hq, rfl⟩ := c2.back i v hi
      have hq := List.of_mem_zip (List.mem_of_getElem? hq)
      rw [GoVal.Kept, keptMap_iff]
      refine ⟨by simp, ?_⟩
      intro x hx
      rw [List.mem_singleton.1 hx]
      refine ⟨y3 _ hq.1, ?_⟩
      rw [GoVal.Kept]
      exact hwords _ (typeText_word _)
    · exact ⟨hwords _ (by decide), hdata hget⟩

/-! ## Sets of tables -/

theorem YamlBack.nameAt {K : Heap} {lo : Addr} {d : Nat} {a a' : Addr} (hnames : ∀ t, H[a]? = some t → t.isNilTable = true → t.name = [])
    (h : YamlBack H K lo d a a') : nameAt K a' = nameAt H a := by
  rcases h with ⟨⟨t, t1, t2⟩, u1, _⟩ | h
  · simp only [Verif.nameAt, t1, u1, hnames t t1 t2]; rfl
  · exact h.nameAt

theorem YamlBack.mono {K K1 : Heap} {lo : Addr} {d : Nat} {a a' : Addr} (hk : ∀ x, x < K.length → K1[x]? = K[x]?) (h : YamlBack H K lo d a a') : YamlBack H K1 lo d a a' := by
  rcases h with ⟨h1, u1, h3⟩ | h
  · exact .inl ⟨h1, by rw [hk _ (List.getElem?_eq_some_iff.1 u1).1]; exact u1, h3⟩
  · exact .inr (h.mono fun x t _ ht => ⟨t.parent, by rw [hk x (List.getElem?_eq_some_iff.1 ht).1, ht]⟩)

theorem readYamlTables_ok {d D : Nat} {lo : Addr} : ∀ (as : List Addr) (vs : List GoVal) (done : List Addr) (K : Heap) (S : TableSet),
    Pointwise (fun a v => ∃ m, v = .map m ∧ ∀ K, ∃ K1, readYamlTable D K m = .ok (K1, K.length) ∧ K.length < K1.length ∧
      (∀ x, x < K.length → K1[x]? = K[x]?) ∧ YamlBack H K1 K.length d a K.length) as vs →
    (∀ a ∈ done ++ as, ∀ t, H[a]? = some t → t.isNilTable = true → t.name = []) →
    ((done ++ as).map (nameAt H)).Nodup → lo ≤ K.length → Pointwise (YamlBack H K lo d) done S.tables →
    ∃ K' tabs, readYamlTables D (K, S) vs = .ok (K', { S with tables := tabs }) ∧ (∀ x, x < K.length → K'[x]? = K[x]?) ∧
      Pointwise (YamlBack H K' lo d) (done ++ as) tabs
  | [], [], done, K, S, _, _, _, _, hd => ⟨K, S.tables, rfl, fun _ _ => rfl, by rw [List.append_nil]; exact hd⟩
  | a :: as, v :: vs, done, K, S, hp, hnn, hnd, hlo, hd => by
    obtain ⟨⟨m, rfl, hm⟩, hp⟩ := hp
    obtain ⟨K1, k1, k2, k3, k4⟩ := hm K
    have hd1 : Pointwise (YamlBack H K1 lo d) done S.tables := hd.mono fun _ _ h => h.mono k3
    have hfree : TableSet.nameTaken K1 (nameAt K1 K.length) S.tables = false := by
      apply nameTaken_false
      intro x hx e
      obtain ⟨i, hi⟩ := List.mem_iff_getElem?.1 hx
      obtain ⟨y, hy, hxy⟩ := hd1.back i x hi
      have hym := List.mem_of_getElem? hy
      rw [hxy.nameAt (hnn y (by simp [hym])), k4.nameAt (hnn a (by simp))] at e
      rw [List.map_append, List.nodup_append] at hnd
      exact hnd.2.2 _ (List.mem_map_of_mem hym) _ (List.mem_map_of_mem (by simp)) e
    have k5 : YamlBack H K1 lo d a K.length := by
      rcases k4 with ⟨h1, h2, _⟩ | k4
      · exact .inl ⟨h1, h2, hlo⟩
      · exact .inr (k4.lower hlo)
    obtain ⟨K', tabs, q1, q2, q3⟩ := readYamlTables_ok as vs (done ++ [a]) K1 { S with tables := S.tables ++ [K.length] } hp
      (by rw [List.append_assoc]; exact hnn) (by rw [List.append_assoc]; exact hnd) (Nat.le_trans hlo (Nat.le_of_lt k2)) (pointwise_snoc hd1 k5)
    refine ⟨K', tabs, ?_, fun x hx => by rw [q2 x (Nat.lt_trans hx k2), k3 x hx], by rw [List.append_assoc] at q3; exact q3⟩
    rw [readYamlTables, foldOut]
    simp only [k1, Out.bind, TableSet.appendTable, hfree]
    exact q1

/-- A set of tables is read back from its map. -/
theorem yaml_set {d : Nat} {S : TableSet} {m : List (GoStr × GoVal)} (hw : HeapWF H) (hm : SetMap H d S m) (hnd : (S.tables.map (nameAt H)).Nodup)
    (hready : ∀ a ∈ S.tables, YamlReady okStr okTime H a) (K : Heap) :
    ∃ K' tabs, readYamlSet K (backMap m) = .ok (K', { newTableSet S.name with tables := tabs }) ∧ (∀ x, x < K.length → K'[x]? = K[x]?) ∧
      Pointwise (YamlBack H K' K.length d) S.tables tabs := by
  obtain ⟨vs, v1, v2⟩ := hm.tables
  have g1 : mapGet (backMap m) (gs! "tableSetName") = some (.val (.str S.name)) := by rw [backMap_get, hm.name, Option.map_some, back_val]; rfl
  have g2 : mapGet (backMap m) (gs! "tables") = some (.list (vs.map GoVal.back)) := by rw [backMap_get, v1, Option.map_some, back_list, backList_eq]
  have hpw : Pointwise (fun a v => ∃ o, v = .map o ∧ ∀ K, ∃ K1, readYamlTable (depthMap (backMap m) + 1) K o = .ok (K1, K.length) ∧ K.length < K1.length ∧
      (∀ x, x < K.length → K1[x]? = K[x]?) ∧ YamlBack H K1 K.length d a K.length) S.tables (vs.map GoVal.back) := by
    apply pointwise_of
    · rw [List.length_map]; exact v2.length
    intro i a v ha hv
    obtain ⟨w, hw1, o, rfl, ho⟩ := v2.get i a ha
    rw [List.getElem?_map, hw1, Option.map_some, Option.some.injEq, back_map] at hv
    subst hv
    refine ⟨backMap o, rfl, fun K => ?_⟩
    have d1 := depth_get g2
    have d2 := depth_list (v := (GoVal.map o).back) (l := vs.map GoVal.back) (List.mem_map_of_mem (List.mem_of_getElem? hw1))
    rw [GoVal.depth] at d1
    rw [back_map, GoVal.depth] at d2
    obtain ⟨K1, k1, k2, k3, k4⟩ := yaml_back hw d a o ho (hready a (List.mem_of_getElem? ha)) (depthMap (backMap m) + 1) (by omega) K
    exact ⟨K1, k1, k2, k3, k4.imp (fun h => ⟨h.1, h.2, Nat.le_refl _⟩) id⟩
  obtain ⟨K', tabs, q1, q2, q3⟩ := readYamlTables_ok (lo := K.length) S.tables _ [] K (newTableSet S.name) hpw
    (fun a ha t ht => (hready a ha a t (.inl rfl) ht).1) hnd (Nat.le_refl _) trivial
  refine ⟨K', tabs, ?_, q2, q3⟩
  rw [readYamlSet]
  simp only [g1, g2, q1]

theorem setMap_kept {d : Nat} {S : TableSet} {m : List (GoStr × GoVal)} (hwords : ∀ s ∈ yamlWords, okStr s) (hw : HeapWF H) (hm : SetMap H d S m) (hname : okStr S.name)
    (hready : ∀ a ∈ S.tables, YamlWritable okStr okTime H a) : KeptMap okStr okTime m := by
  rw [keptMap_iff]
  intro p hp
  have hget := mapGet_mem hm.keys.1 hp
  have hk := hm.keys.2 p.1 (List.mem_map_of_mem hp)
  simp only [List.mem_cons, List.not_mem_nil, or_false] at hk
  rcases hk with e | e <;> rw [e] at hget ⊢
  · rw [hm.name, Option.some.injEq] at hget
    rw [← hget, GoVal.Kept]
    exact ⟨hwords _ (by decide), hname⟩
  · obtain ⟨vs, v1, v2⟩ := hm.tables
    rw [v1, Option.some.injEq] at hget
    rw [← hget, GoVal.Kept, keptList_iff]
    refine ⟨hwords _ (by decide), ?_⟩
    intro v hv
    obtain ⟨i, hi⟩ := List.mem_iff_getElem?.1 hv
    obtain ⟨a, ha, o, rfl, ho⟩ := v2.back i v hi
    rw [GoVal.Kept]
    exact tableMap_kept hwords hw d a o ho (hready a (List.mem_of_getElem? ha))

end Verif
