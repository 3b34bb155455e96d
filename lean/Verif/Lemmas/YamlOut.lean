import Verif.Spec.Yaml
import Verif.Lemmas.YamlMap

/-!
# Lemmas: which tables become maps
-/

namespace Verif
open Table

variable {H : Heap}

/-! ## Depth -/

theorem within_path (hw : HeapWF H) (hcl : Closed H) : ∀ (k : Nat) (pre : List Addr) (a : Addr), pre.Nodup → (∀ p ∈ pre, p < H.length ∧ Below H p a) → a < H.length →
    NoCycle H a → H.length ≤ k + pre.length → Within true H k a
  | 0, pre, a, hnd, hp, ha, hno, hk => by
    exfalso
    have hna : a ∉ pre := fun h => hno a (.inl rfl) (hp a h).2
    have hl := nodup_subset_length (l1 := a :: pre) (l2 := List.range H.length) (List.nodup_cons.2 ⟨hna, hnd⟩) (by
      intro x hx
      rcases List.mem_cons.1 hx with rfl | hx
      · exact List.mem_range.2 ha
      · exact List.mem_range.2 (hp x hx).1)
    simp only [List.length_cons, List.length_range] at hl
    omega
  | k + 1, pre, a, hnd, hp, ha, hno, hk => by
    intro c r b _ hb
    have hna : a ∉ pre := fun h => hno a (.inl rfl) (hp a h).2
    refine within_path hw hcl k (a :: pre) b (List.nodup_cons.2 ⟨hna, hnd⟩) ?_ (hcl a b (hb.nestedIn hw)) ?_ (by simp only [List.length_cons]; omega)
    · intro p hpm
      rcases List.mem_cons.1 hpm with rfl | hpm
      · exact ⟨ha, .direct hb⟩
      · exact ⟨(hp p hpm).1, (hp p hpm).2.deeper hb⟩
    · intro x hx
      exact hno x (.inr (Reached.of_holds hb hx))

theorem within_of_noCycle (hw : HeapWF H) (hcl : Closed H) {a : Addr} (ha : a < H.length) (hno : NoCycle H a) {d : Nat} (hd : H.length ≤ d) : Within true H d a :=
  within_path hw hcl d [] a List.nodup_nil (by simp) ha hno (by simpa using hd)

theorem Within.noCycleAll {d : Nat} {a : Addr} (h : Within true H d a) : NoCycle H a := by
  intro x hx
  rcases hx with rfl | hx
  · exact h.noCycle
  · obtain ⟨d', _, h'⟩ := h.below hx
    exact h'.noCycle

/-! ## Values -/

theorem cellVals_spec {nested : Addr → Out (List (GoStr × GoVal))} {R : Addr → List (GoStr × GoVal) → Prop} {good : Addr → Prop} : ∀ (cs : List (Cell Addr)),
    (∀ b, Cell.tbl (some b) ∈ cs → (good b → ∃ m, nested b = .ok m ∧ R b m) ∧ (¬ good b → nested b = .panic)) →
    ((∀ b, Cell.tbl (some b) ∈ cs → good b) → ∃ vs, cellVals nested cs = .ok vs ∧ Pointwise (CellMap R) cs vs) ∧
    ((∃ b, Cell.tbl (some b) ∈ cs ∧ ¬ good b) → cellVals nested cs = .panic)
  | [], _ => ⟨fun _ => ⟨[], rfl, trivial⟩, by rintro ⟨b, hb, _⟩; cases hb⟩
  | c :: cs, h => by
    obtain ⟨i1, i2⟩ := cellVals_spec cs fun b hb => h b (List.mem_cons_of_mem _ hb)
    have hplain : (∀ b, c ≠ .tbl (some b)) → cellVal nested c = .ok (.val c) ∧ CellMap R c (.val c) := by
      intro hc
      cases c with
      | tbl o => cases o with
        | none => exact ⟨rfl, rfl⟩
        | some b => exact absurd rfl (hc b)
      | _ => exact ⟨rfl, rfl⟩
    by_cases hc : ∃ b, c = .tbl (some b)
    · obtain ⟨b, rfl⟩ := hc
      obtain ⟨h1, h2⟩ := h b (by simp)
      by_cases hg : good b
      · obtain ⟨m, m1, m2⟩ := h1 hg
        simp only [cellVals, cellVal, m1, Out.bind]
        constructor
        · intro hall
          obtain ⟨vs, v1, v2⟩ := i1 fun b hb => hall b (List.mem_cons_of_mem _ hb)
          exact ⟨.map m :: vs, by rw [v1], ⟨m, rfl, m2⟩, v2⟩
        · rintro ⟨b', hb', hn⟩
          rcases List.mem_cons.1 hb' with e | hb'
          · cases e; exact absurd hg hn
          · rw [i2 ⟨b', hb', hn⟩]
      · constructor
        · intro hall; exact absurd (hall b (by simp)) hg
        · intro _; simp only [cellVals, cellVal, h2 hg, Out.bind]
    · obtain ⟨p1, p2⟩ := hplain fun b e => hc ⟨b, e⟩
      simp only [cellVals, p1, Out.bind]
      constructor
      · intro hall
        obtain ⟨vs, v1, v2⟩ := i1 fun b hb => hall b (List.mem_cons_of_mem _ hb)
        exact ⟨.val c :: vs, by rw [v1], p2, v2⟩
      · rintro ⟨b', hb', hn⟩
        rcases List.mem_cons.1 hb' with e | hb'
        · exact absurd ⟨b', e.symm⟩ hc
        · rw [i2 ⟨b', hb', hn⟩]

theorem rowVals_spec {nested : Addr → Out (List (GoStr × GoVal))} {R : Addr → List (GoStr × GoVal) → Prop} {good : Addr → Prop} : ∀ (rs : List (List (Cell Addr))),
    (∀ row ∈ rs, ∀ b, Cell.tbl (some b) ∈ row → (good b → ∃ m, nested b = .ok m ∧ R b m) ∧ (¬ good b → nested b = .panic)) →
    ((∀ row ∈ rs, ∀ b, Cell.tbl (some b) ∈ row → good b) → ∃ vs, rowVals nested rs = .ok vs ∧ Pointwise (Pointwise (CellMap R)) rs vs) ∧
    ((∃ row ∈ rs, ∃ b, Cell.tbl (some b) ∈ row ∧ ¬ good b) → rowVals nested rs = .panic)
  | [], _ => ⟨fun _ => ⟨[], rfl, trivial⟩, by rintro ⟨row, hr, _⟩; cases hr⟩
  | row :: rs, h => by
    obtain ⟨i1, i2⟩ := rowVals_spec rs fun r hr => h r (List.mem_cons_of_mem _ hr)
    obtain ⟨c1, c2⟩ := cellVals_spec row (h row (by simp))
    by_cases hg : ∃ b, Cell.tbl (some b) ∈ row ∧ ¬ good b
    · constructor
      · intro hall
        obtain ⟨b, hb, hn⟩ := hg
        exact absurd (hall row (by simp) b hb) hn
      · intro _; simp only [rowVals, c2 hg, Out.bind]
    · obtain ⟨v, v1, v2⟩ := c1 fun b hb => Classical.byContradiction fun hn => hg ⟨b, hb, hn⟩
      simp only [rowVals, v1, Out.bind]
      constructor
      · intro hall
        obtain ⟨vs, w1, w2⟩ := i1 fun r hr => hall r (List.mem_cons_of_mem _ hr)
        exact ⟨v :: vs, by rw [w1], v2, w2⟩
      · rintro ⟨r, hr, b, hb, hn⟩
        rcases List.mem_cons.1 hr with rfl | hr
        · exact absurd ⟨b, hb, hn⟩ hg
        · rw [i2 ⟨r, hr, b, hb, hn⟩]

theorem yamlType_eq (ty : ColType) : yamlType ty = typeText ty := by
  cases ty <;> rfl

theorem pointwise_map {α β : Type} {R : α → β → Prop} (f : α → β) (h : ∀ a, R a (f a)) : ∀ (l : List α), Pointwise R l (l.map f)
  | [] => trivial
  | a :: l => ⟨h a, pointwise_map f h l⟩

theorem pointwise_map_right {α β γ : Type} {R : α → β → Prop} {S : α → γ → Prop} (f : β → γ) (h : ∀ a b, R a b → S a (f b)) : ∀ {l : List α} {l' : List β}, Pointwise R l l' → Pointwise S l (l'.map f)
  | [], [], _ => trivial
  | _ :: _, _ :: _, hp => ⟨h _ _ hp.1, pointwise_map_right f h hp.2⟩
  | [], _ :: _, hp => hp.elim
  | _ :: _, [], hp => hp.elim

theorem headMembers_get (t : Table Addr) (data : GoVal) :
    mapGet (headMembers t ++ [(gs! "data", data)]) (gs! "tableName") = some (.val (.str t.name)) ∧
    mapGet (headMembers t ++ [(gs! "data", data)]) (gs! "isStructShape") = (if t.isStructShape then some (.val (.bool true)) else none) ∧
    mapGet (headMembers t ++ [(gs! "data", data)]) (gs! "metadata") = some (.list ((t.colNames.zip t.colTypes).map fun (n, ty) => .map [(n, .val (.str (yamlType ty)))])) ∧
    mapGet (headMembers t ++ [(gs! "data", data)]) (gs! "data") = some data := by
  cases h : t.isStructShape <;> simp [headMembers, h, mapGet]

theorem headMembers_entries {R : Addr → List (GoStr × GoVal) → Prop} {t : Table Addr} {data : List (List GoVal)} (h : Pointwise (Pointwise (CellMap R)) t.rows data) :
    TableEntries R t (headMembers t ++ [(gs! "data", .list (data.map .list))]) := by
  obtain ⟨h1, h2, h3, h4⟩ := headMembers_get t (.list (data.map .list))
  refine ⟨h1, h2, ⟨_, h3, ?_⟩, ⟨_, h4, ?_⟩, ?_⟩
  · exact pointwise_map _ (fun p => by obtain ⟨n, ty⟩ := p; simp only [yamlType_eq]) _
  · exact pointwise_map_right _ (fun a b hab => ⟨b, rfl, hab⟩) h
  · unfold headMembers
    cases t.isStructShape <;> simp <;> decide

theorem getTableAsMap_spec (hw : HeapWF H) (hcl : Closed H) : ∀ (d : Nat) (a : Addr), a < H.length →
    (Within true H d a → ∃ m, getTableAsMap H d a = .ok m ∧ TableMap H d a m) ∧ (¬ Within true H d a → getTableAsMap H d a = .panic)
  | 0, a, _ => ⟨fun h => h.elim, fun _ => rfl⟩
  | d + 1, a, ha => by
    have ht := List.getElem?_eq_getElem ha
    have hwf := hw _ (List.getElem_mem ha)
    generalize H[a] = t at ht hwf
    rw [getTableAsMap_eq ht hwf]
    have hmem : ∀ b, (∃ row ∈ t.rows, Cell.tbl (some b) ∈ row) ↔ ∃ c r, HoldsAt H a c r b := by
      intro b
      constructor
      · rintro ⟨row, hr, hb⟩
        obtain ⟨r, hr⟩ := List.mem_iff_getElem?.1 hr
        obtain ⟨c, hc⟩ := List.mem_iff_getElem?.1 hb
        exact ⟨c, r, t, ht, nestedAt_some.2 ⟨row, hr, hc⟩⟩
      · rintro ⟨c, r, t', ht', hn⟩
        rw [ht] at ht'; cases ht'
        obtain ⟨row, h1, h2⟩ := nestedAt_some.1 hn
        exact ⟨row, List.mem_of_getElem? h1, List.mem_of_getElem? h2⟩
    obtain ⟨r1, r2⟩ := rowVals_spec (nested := getTableAsMap H d) (R := TableMap H d) (good := Within true H d) t.rows (by
      intro row hr b hb
      obtain ⟨c, r, hh⟩ := (hmem b).1 ⟨row, hr, hb⟩
      exact getTableAsMap_spec hw hcl d b (hcl a b (hh.nestedIn hw)))
    constructor
    · intro h
      obtain ⟨vs, v1, v2⟩ := r1 (by
        intro row hr b hb
        obtain ⟨c, r, hh⟩ := (hmem b).1 ⟨row, hr, hb⟩
        exact h c r b rfl hh)
      rw [v1]
      exact ⟨_, rfl, t, ht, headMembers_entries v2⟩
    · intro h
      rw [r2]
      · rfl
      · refine Classical.byContradiction fun hno => h ?_
        intro c r b _ hh
        obtain ⟨row, hr, hb⟩ := (hmem b).2 ⟨c, r, hh⟩
        exact Classical.byContradiction fun hn => hno ⟨row, hr, b, hb, hn⟩

theorem tableMaps_spec (hw : HeapWF H) (hcl : Closed H) {d : Nat} : ∀ (l : List Addr), (∀ a ∈ l, a < H.length) →
    ((∀ a ∈ l, Within true H d a) → ∃ vs, tableMaps H d l = .ok vs ∧ Pointwise (fun a v => ∃ o, v = .map o ∧ TableMap H d a o) l vs) ∧
    ((∃ a ∈ l, ¬ Within true H d a) → tableMaps H d l = .panic)
  | [], _ => ⟨fun _ => ⟨[], rfl, trivial⟩, by rintro ⟨a, ha, _⟩; cases ha⟩
  | a :: l, hl => by
    obtain ⟨i1, i2⟩ := tableMaps_spec hw hcl (d := d) l fun x hx => hl x (List.mem_cons_of_mem _ hx)
    obtain ⟨h1, h2⟩ := getTableAsMap_spec hw hcl d a (hl a (by simp))
    by_cases hg : Within true H d a
    · obtain ⟨m, m1, m2⟩ := h1 hg
      simp only [tableMaps, m1, Out.bind]
      constructor
      · intro hall
        obtain ⟨vs, v1, v2⟩ := i1 fun x hx => hall x (List.mem_cons_of_mem _ hx)
        exact ⟨.map m :: vs, by rw [v1], ⟨m, rfl, m2⟩, v2⟩
      · rintro ⟨x, hx, hn⟩
        rcases List.mem_cons.1 hx with rfl | hx
        · exact absurd hg hn
        · rw [i2 ⟨x, hx, hn⟩]
    · constructor
      · intro hall; exact absurd (hall a (by simp)) hg
      · intro _; simp only [tableMaps, h2 hg, Out.bind]

theorem getTableSetAsMap_spec (hw : HeapWF H) (hcl : Closed H) {d : Nat} {S : TableSet} (hS : ∀ a ∈ S.tables, a < H.length) :
    ((∀ a ∈ S.tables, Within true H d a) → ∃ m, getTableSetAsMap H d S = .ok m ∧ SetMap H d S m) ∧
    ((∃ a ∈ S.tables, ¬ Within true H d a) → getTableSetAsMap H d S = .panic) := by
  obtain ⟨h1, h2⟩ := tableMaps_spec hw hcl (d := d) S.tables hS
  constructor
  · intro h
    obtain ⟨vs, v1, v2⟩ := h1 h
    refine ⟨_, by rw [getTableSetAsMap, v1]; rfl, by simp [mapGet], ⟨vs, by simp [mapGet], v2⟩, ?_, ?_⟩
    · simp
    · simp
  · intro h
    rw [getTableSetAsMap, h2 h]; rfl

/-! ## The bound on the depth -/

theorem cellVals_mono {n n' : Addr → Out (List (GoStr × GoVal))} (h : ∀ b m, n b = .ok m → n' b = .ok m) : ∀ (cs : List (Cell Addr)) {vs : List GoVal}, cellVals n cs = .ok vs → cellVals n' cs = .ok vs
  | [], _, e => e
  | c :: cs, vs, e => by
    rw [cellVals] at e ⊢
    cases h1 : cellVal n c with
    | err x => rw [h1] at e; cases e
    | panic => rw [h1] at e; cases e
    | ok v =>
      have h2 : cellVal n' c = .ok v := by
        unfold cellVal at h1 ⊢
        split at h1
        · rename_i b
          cases hb : n b with
          | ok m => rw [h b m hb]; rw [hb] at h1; exact h1
          | err x => rw [hb] at h1; cases h1
          | panic => rw [hb] at h1; cases h1
        · exact h1
      rw [h1] at e
      rw [h2]
      simp only [Out.bind] at e ⊢
      cases h3 : cellVals n cs with
      | ok ws => rw [cellVals_mono h cs h3]; rw [h3] at e; exact e
      | err x => rw [h3] at e; cases e
      | panic => rw [h3] at e; cases e

theorem rowVals_mono {n n' : Addr → Out (List (GoStr × GoVal))} (h : ∀ b m, n b = .ok m → n' b = .ok m) : ∀ (rs : List (List (Cell Addr))) {vs : List (List GoVal)}, rowVals n rs = .ok vs → rowVals n' rs = .ok vs
  | [], _, e => e
  | r :: rs, vs, e => by
    rw [rowVals] at e ⊢
    cases h1 : cellVals n r with
    | err x => rw [h1] at e; cases e
    | panic => rw [h1] at e; cases e
    | ok v =>
      rw [h1] at e
      rw [cellVals_mono h r h1]
      simp only [Out.bind] at e ⊢
      cases h3 : rowVals n rs with
      | ok ws => rw [rowVals_mono h rs h3]; rw [h3] at e; exact e
      | err x => rw [h3] at e; cases e
      | panic => rw [h3] at e; cases e

theorem getTableAsMap_depth (hw : HeapWF H) : ∀ {d d' : Nat} {a : Addr} {m : List (GoStr × GoVal)}, d ≤ d' → getTableAsMap H d a = .ok m → getTableAsMap H d' a = .ok m
  | 0, _, _, _, _, h => by cases h
  | d + 1, 0, _, _, hd, _ => by omega
  | d + 1, d' + 1, a, m, hd, h => by
    cases ht : H[a]? with
    | none => unfold getTableAsMap at h; simp [walk, ht] at h
    | some t =>
      have hwf := hw t (List.mem_of_getElem? ht)
      rw [getTableAsMap_eq ht hwf] at h ⊢
      cases h1 : rowVals (getTableAsMap H d) t.rows with
      | ok vs => rw [rowVals_mono (fun b m hb => getTableAsMap_depth hw (Nat.le_of_succ_le_succ hd) hb) _ h1]; rw [h1] at h; exact h
      | err x => rw [h1] at h; cases h
      | panic => rw [h1] at h; cases h

theorem tableMaps_depth (hw : HeapWF H) {d d' : Nat} (hd : d ≤ d') : ∀ (l : List Addr) {vs : List GoVal}, tableMaps H d l = .ok vs → tableMaps H d' l = .ok vs
  | [], _, e => e
  | a :: l, vs, e => by
    rw [tableMaps] at e ⊢
    cases h1 : getTableAsMap H d a with
    | err x => rw [h1] at e; cases e
    | panic => rw [h1] at e; cases e
    | ok v =>
      rw [h1] at e
      rw [getTableAsMap_depth hw hd h1]
      simp only [Out.bind] at e ⊢
      cases h3 : tableMaps H d l with
      | ok ws => rw [tableMaps_depth hw hd l h3]; rw [h3] at e; exact e
      | err x => rw [h3] at e; cases e
      | panic => rw [h3] at e; cases e

theorem getTableSetAsMap_depth (hw : HeapWF H) {d d' : Nat} (hd : d ≤ d') {S : TableSet} {m : List (GoStr × GoVal)} (h : getTableSetAsMap H d S = .ok m) : getTableSetAsMap H d' S = .ok m := by
  unfold getTableSetAsMap at h ⊢
  cases h3 : tableMaps H d S.tables with
  | ok ws => rw [tableMaps_depth hw hd _ h3]; rw [h3] at h; exact h
  | err x => rw [h3] at h; cases h
  | panic => rw [h3] at h; cases h

end Verif
