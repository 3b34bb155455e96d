import Verif.Lemmas.MergeClean

/-! The three parts of `Merge` together. -/

namespace Verif

variable {τ : Type}

open Table

theorem SameK.symm {lower : GoStr → GoStr} {ks : List SortKey} {x y : List (Cell τ)} (hx : GoodVals ks (x.take ks.length))
    (hy : GoodVals ks (y.take ks.length)) (h : SameK lower ks x y) : SameK lower ks y x := by
  simp only [SameK] at *
  rw [lexCmp_anti lower hx.typed hy.typed, h]; rfl

/-- The key cells of row `i` of `t` are the first cells of `x`. -/
def Holds (names : List GoStr) (t : Table τ) (i : Nat) (x : List (Cell τ)) : Prop :=
  i < t.rows.length ∧ ∀ (p : Nat) (n : GoStr), names[p]? = some n → ∀ a, At t n i a ↔ x[p]? = some a

theorem sameKey_iff (lower : GoStr → GoStr) {ks : List SortKey} {names : List GoStr} (hl : names.length = ks.length) {t u : Table τ} {i j : Nat}
    {x y : List (Cell τ)} (ht : Holds names t i x) (hu : Holds names u j y) (hx : GoodVals ks (x.take ks.length))
    (hy : GoodVals ks (y.take ks.length)) : SameKey names t i u j ↔ SameK lower ks x y := by
  simp only [SameK]
  rw [lexCmp_eqVal lower hx hy]
  constructor
  · rintro ⟨_, _, h⟩ p a b hp e1 e2
    rw [List.getElem?_take_of_lt hp] at e1 e2
    have hn : names[p]? = some (names[p]'(by omega)) := List.getElem?_eq_getElem _
    obtain ⟨a', b', q1, q2, q3⟩ := h _ (List.mem_of_getElem? hn)
    rw [(ht.2 p _ hn a').1 q1] at e1
    rw [(hu.2 p _ hn b').1 q2] at e2
    cases e1; cases e2; exact q3
  · intro h
    refine ⟨ht.1, hu.1, fun n hn => ?_⟩
    obtain ⟨p, hp⟩ := List.getElem?_of_mem hn
    have hlt : p < ks.length := by rw [← hl]; exact (List.getElem?_eq_some_iff.1 hp).1
    have lx := (goodVals_iff.1 hx).1
    have ly := (goodVals_iff.1 hy).1
    obtain ⟨a, ha⟩ : ∃ a, (x.take ks.length)[p]? = some a := ⟨_, List.getElem?_eq_getElem (by omega)⟩
    obtain ⟨b, hb⟩ : ∃ b, (y.take ks.length)[p]? = some b := ⟨_, List.getElem?_eq_getElem (by omega)⟩
    have hab := h p a b hlt ha hb
    rw [List.getElem?_take_of_lt hlt] at ha hb
    exact ⟨a, b, (ht.2 p n hp a).2 ha, (hu.2 p n hp b).2 hb, hab⟩

theorem missing_weight {ty : ColType} {a b : Cell τ} (hm : ty.Mergeable = true) (ha : a.IsMissing ty) (hb : b.IsMissing ty) :
    a.weight = b.weight ∧ a.weight ≠ 2 := by
  cases ty <;> simp only [Cell.IsMissing, Cell.IsZero] at ha hb
  case float32 =>
    obtain ⟨a1, a2⟩ := ha
    obtain ⟨b1, b2⟩ := hb
    cases a <;> simp [Cell.HasType] at a1
    cases b <;> simp [Cell.HasType] at b1
    simp only [Cell.IsNaN] at a2 b2
    simp [Cell.weight, a2, b2]
  case float64 =>
    obtain ⟨a1, a2⟩ := ha
    obtain ⟨b1, b2⟩ := hb
    cases a <;> simp [Cell.HasType] at a1
    cases b <;> simp [Cell.HasType] at b1
    simp only [Cell.IsNaN] at a2 b2
    simp [Cell.weight, a2, b2]
  all_goals first
    | (subst ha hb; simp [Cell.weight]; done)
    | (cases hm)

theorem mergedCols_eq (names : List GoStr) (t1 t2 : Table τ) :
    mergedCols names t1 t2 = names ++ t1.colNames.filter (fun n => n ∉ names) ++ t2.colNames.filter (fun n => n ∉ t1.colNames ∧ n ∉ names) := by
  simp only [mergedCols, List.filter_append, List.filter_filter, List.append_assoc]
  congr 2
  refine List.filter_congr fun n _ => ?_
  simp [and_comm]

/-- The rows of the table under construction, by where they come from. -/
structure Rows (names : List GoStr) (t1 t2 m : Table τ) : Prop where
  here : ∀ r x, m.rows[r]? = some x → Holds names m r x
  one : ∀ r x, m.rows[r]? = some x → r < t1.rows.length → Holds names t1 r x
  two : ∀ r x, m.rows[r]? = some x → t1.rows.length ≤ r → Holds names t2 (r - t1.rows.length) x

theorem Collected.rowsOf {t1 t2 m : Table τ} (w1 : WF t1) (w2 : WF t2) (h : Collected t1 t2 m)
    (k1 : ∀ n ∈ t1.sortKeys.map (·.colName), n ∈ t1.colNames) (k2 : ∀ n ∈ t1.sortKeys.map (·.colName), n ∈ t2.colNames) :
    Rows (t1.sortKeys.map (·.colName)) t1 t2 m := by
  have hhere : ∀ r x, m.rows[r]? = some x → Holds (t1.sortKeys.map (·.colName)) m r x := by
    intro r x hx
    refine ⟨(List.getElem?_eq_some_iff.1 hx).1, fun p n hp a => ?_⟩
    have hname : m.colNames[p]? = some n := by
      rw [h.cols, mergedCols, List.append_assoc, List.getElem?_append_left (List.getElem?_eq_some_iff.1 hp).1]
      exact hp
    constructor
    · rintro ⟨c, row, g1, g2, g3⟩
      rw [hx] at g2; cases g2
      have := h.wf.map_unique g1 hname; subst this
      exact g3
    · intro ha; exact ⟨p, x, hname, hx, ha⟩
  refine ⟨hhere, fun r x hx hr => ⟨hr, fun p n hp a => ?_⟩, fun r x hx hr => ⟨?_, fun p n hp a => ?_⟩⟩
  · rw [← (hhere r x hx).2 p n hp a]
    have hn := k1 n (List.mem_of_getElem? hp)
    have hb := (hhere r x hx).1
    have hnm : n ∈ m.colNames := by
      obtain ⟨ty, hty⟩ := HasColT.ofMem w1 hn
      exact ((h.types n ty).2 (.inl hty)).mem
    obtain ⟨v, hv⟩ := At_exists h.wf hnm hb
    have hv1 := h.one n r v hn hr hv
    constructor
    · intro ha; rw [At_unique w1 ha hv1]; exact hv
    · intro ha; rw [At_unique h.wf ha hv]; exact hv1
  · have hb := (hhere r x hx).1
    rw [h.len] at hb
    omega
  · rw [← (hhere r x hx).2 p n hp a]
    have hn := k2 n (List.mem_of_getElem? hp)
    have hb := (hhere r x hx).1
    have hnm : n ∈ m.colNames := by
      obtain ⟨ty, hty⟩ := HasColT.ofMem w2 hn
      exact ((h.types n ty).2 (.inr (.inl hty))).mem
    obtain ⟨v, hv⟩ := At_exists h.wf hnm hb
    have hv1 := h.two n r v hn hr hv
    constructor
    · intro ha; rw [At_unique w2 ha hv1]; exact hv
    · intro ha; rw [At_unique h.wf ha hv]; exact hv1

/-- A cell of the table under construction, by where it comes from. -/
theorem Collected.cellOne {t1 t2 m : Table τ} (w1 : WF t1) (h : Collected t1 t2 m) {n : GoStr} {ty : ColType} {r : Nat} {v : Cell τ}
    (hn : HasColT t1 n ty ∨ HasColT t2 n ty) (hr : r < t1.rows.length) (hv : At m n r v) :
    At t1 n r v ∨ (n ∉ t1.colNames ∧ v.IsMissing ty) := by
  by_cases hm : n ∈ t1.colNames
  · exact .inl (h.one n r v hm hr hv)
  · refine .inr ⟨hm, h.oneMissing n ty r v hm ?_ hr hv⟩
    rcases hn with hn | hn
    · exact absurd hn.mem hm
    · exact hn

theorem Collected.cellTwo {t1 t2 m : Table τ} (w2 : WF t2) (h : Collected t1 t2 m) {n : GoStr} {ty : ColType} {r : Nat} {v : Cell τ}
    (hn : HasColT t1 n ty ∨ HasColT t2 n ty) (hr : t1.rows.length ≤ r) (hv : At m n r v) :
    At t2 n (r - t1.rows.length) v ∨ (n ∉ t2.colNames ∧ v.IsMissing ty) := by
  by_cases hm : n ∈ t2.colNames
  · exact .inl (h.two n r v hm hr hv)
  · refine .inr ⟨hm, h.twoMissing n ty r v hm ?_ hr hv⟩
    rcases hn with hn | hn
    · exact hn
    · exact absurd hn.mem hm

/-- A cell that the first table gives has the weight of the cell in the table under construction. -/
theorem Collected.weightOne {t1 t2 m : Table τ} (w1 : WF t1) (h : Collected t1 t2 m) {n : GoStr} {ty : ColType} {r : Nat} {w : Cell τ}
    (hm : ty.Mergeable = true) (hn : HasColT t1 n ty ∨ HasColT t2 n ty) (hr : r < t1.rows.length)
    (hw : At t1 n r w ∨ (n ∉ t1.colNames ∧ w.IsMissing ty)) : ∃ w', At m n r w' ∧ w'.weight = w.weight := by
  have hnm : HasColT m n ty := (h.types n ty).2 (hn.elim .inl (fun hn => .inr (.inl hn)))
  obtain ⟨v, hv⟩ := At_exists h.wf hnm.mem (show r < m.rows.length by rw [h.len]; omega)
  refine ⟨v, hv, ?_⟩
  rcases h.cellOne w1 hn hr hv with h1 | ⟨h1, h2⟩
  · rcases hw with hw | ⟨hw, _⟩
    · rw [At_unique w1 h1 hw]
    · exact absurd (At_bound h1).1 hw
  · rcases hw with hw | ⟨_, hw⟩
    · exact absurd (At_bound hw).1 h1
    · exact (missing_weight hm h2 hw).1

theorem Collected.weightTwo {t1 t2 m : Table τ} (w2 : WF t2) (h : Collected t1 t2 m) {n : GoStr} {ty : ColType} {r : Nat} {w : Cell τ}
    (hm : ty.Mergeable = true) (hn : HasColT t1 n ty ∨ HasColT t2 n ty) (hr : r < t2.rows.length)
    (hw : At t2 n r w ∨ (n ∉ t2.colNames ∧ w.IsMissing ty)) : ∃ w', At m n (t1.rows.length + r) w' ∧ w'.weight = w.weight := by
  have hnm : HasColT m n ty := (h.types n ty).2 (hn.elim .inl (fun hn => .inr (.inl hn)))
  obtain ⟨v, hv⟩ := At_exists h.wf hnm.mem (show t1.rows.length + r < m.rows.length by rw [h.len]; omega)
  refine ⟨v, hv, ?_⟩
  have := h.cellTwo w2 hn (by omega) hv
  rw [show t1.rows.length + r - t1.rows.length = r by omega] at this
  rcases this with h1 | ⟨h1, h2⟩
  · rcases hw with hw | ⟨hw, _⟩
    · rw [At_unique w2 h1 hw]
    · exact absurd (At_bound h1).1 hw
  · rcases hw with hw | ⟨_, hw⟩
    · exact absurd (At_bound hw).1 h1
    · exact (missing_weight hm h2 hw).1

theorem CombineInput.of {t1 t2 m : Table τ} (h : MergeInput (t1.sortKeys.map (·.colName)) t1 t2)
    (hc : Collected t1 t2 m) : CombineInput (mergedCols (t1.sortKeys.map (·.colName)) t1 t2).length m := by
  have hdn : m.sortKeys.map (·.colName) = t1.sortKeys.map (·.colName) := by rw [dirs_names, hc.keys, ← dirs_names]
  have hlen : m.colNames.length = (mergedCols (t1.sortKeys.map (·.colName)) t1 t2).length + 1 := by rw [hc.cols]; simp
  have hT : m.colNames[(mergedCols (t1.sortKeys.map (·.colName)) t1 t2).length]? = some tableNumberColName := by
    rw [hc.cols, List.getElem?_append_right (Nat.le_refl _)]; simp
  refine { wf := hc.wf, notNil := hc.notNil, live := hc.live, notNaN := ?_, someKey := ?_, rows := ?_, cols := ?_, number := ?_, free := ?_ }
  · intro k hk r v hv
    have hn : k.colName ∈ t1.sortKeys.map (·.colName) := by rw [← hdn]; exact List.mem_map.2 ⟨k, hk, rfl⟩
    obtain ⟨ty, g1, g2, _⟩ := h.key _ hn
    by_cases hr : r < t1.rows.length
    · exact h.notNaN1 _ hn _ _ (hc.one _ _ _ g1.mem hr hv)
    · exact h.notNaN2 _ hn _ _ (hc.two _ _ _ g2.mem (by omega) hv)
  · intro e
    rw [e] at hdn
    exact h.someKey hdn.symm
  · intro e
    have := hc.len
    rw [e] at this
    have h1 := List.length_pos_iff.2 h.rows1
    simp only [List.length_nil] at this
    omega
  · refine ⟨(t1.colNames ++ t2.colNames.filter (fun n => n ∉ t1.colNames)).filter (fun n => n ∉ t1.sortKeys.map (·.colName)), ?_, ?_⟩
    · rw [hdn, hc.cols, mergedCols]
    · rw [mergedCols, List.length_append, ← hdn, List.length_map]
  · obtain ⟨c, g1, g2⟩ := (hc.types tableNumberColName .int).2 (.inr (.inr ⟨rfl, rfl⟩))
    have := hc.wf.map_unique g1 hT
    subst this; exact g2
  · intro hd
    obtain ⟨ty, hty⟩ := HasColT.ofMem hc.wf hd
    rcases (hc.types _ ty).1 hty with g | g | ⟨g, _⟩
    · exact h.free1.2 g.mem
    · exact h.free2.2 g.mem
    · exact absurd g (by decide)

/-- The types of the first `C` columns are those of the two tables. -/
theorem Collected.mergeable_iff {t1 t2 m : Table τ} (h : MergeInput (t1.sortKeys.map (·.colName)) t1 t2) (hc : Collected t1 t2 m)
    (hi : CombineInput (mergedCols (t1.sortKeys.map (·.colName)) t1 t2).length m) :
    (∀ c ty, c < (mergedCols (t1.sortKeys.map (·.colName)) t1 t2).length → m.colTypes[c]? = some ty → ty.Mergeable = true) ↔
      AllMergeable t1 ∧ AllMergeable t2 := by
  have hT := hi.numName
  have hl := hi.len
  constructor
  · intro hall
    have key : ∀ n ty, HasColT t1 n ty ∨ HasColT t2 n ty → ty.Mergeable = true := by
      intro n ty g
      obtain ⟨c, g1, g2⟩ := (hc.types n ty).2 (g.elim .inl (fun g => .inr (.inl g)))
      have h1 := (List.getElem?_eq_some_iff.1 g1).1
      rcases Nat.lt_or_ge c (mergedCols (t1.sortKeys.map (·.colName)) t1 t2).length with h2 | h2
      · exact hall c ty h2 g2
      · have : c = (mergedCols (t1.sortKeys.map (·.colName)) t1 t2).length := by omega
        subst this
        rw [hT] at g1; cases g1
        rcases g with g | g
        · exact absurd g.mem h.free1.1
        · exact absurd g.mem h.free2.1
    exact ⟨fun n ty g => key n ty (.inl g), fun n ty g => key n ty (.inr g)⟩
  · rintro ⟨hm1, hm2⟩ c ty hlt hty
    obtain ⟨n, hn⟩ : ∃ n, m.colNames[c]? = some n := ⟨_, List.getElem?_eq_getElem (by omega)⟩
    rcases (hc.types n ty).1 ⟨c, hn, hty⟩ with g | g | ⟨g, _⟩
    · exact hm1 n ty g
    · exact hm2 n ty g
    · subst g
      have := hc.wf.map_unique hn hT
      omega

theorem SameKey.symm' {names : List GoStr} {t u : Table τ} {i j : Nat} (lower : GoStr → GoStr) {ks : List SortKey} (hl : names.length = ks.length)
    {x y : List (Cell τ)} (ht : Holds names t i x) (hu : Holds names u j y) (hx : GoodVals ks (x.take ks.length))
    (hy : GoodVals ks (y.take ks.length)) (h : SameKey names t i u j) : SameKey names u j t i :=
  (sameKey_iff lower hl hu ht hy hx).2 (((sameKey_iff lower hl ht hu hx hy).1 h).symm hx hy)

/-- The rows have distinct keys exactly if no key repeats in the two tables. -/
theorem pairwise_iff_noRepeat (lower : GoStr → GoStr) {names : List GoStr} {ks : List SortKey} (hl : names.length = ks.length) {t1 t2 m : Table τ}
    (hlen : m.rows.length = t1.rows.length + t2.rows.length) (hr : Rows names t1 t2 m)
    (hg : ∀ x ∈ m.rows, GoodVals ks (x.take ks.length)) :
    m.rows.Pairwise (fun x y => ¬ SameK lower ks x y) ↔ ¬ SomeRepeat names t1 t2 := by
  have hsource : ∀ r (hlt : r < m.rows.length), GoodVals ks ((m.rows[r]).take ks.length) := fun r hlt => hg _ (List.getElem_mem hlt)
  rw [List.pairwise_iff_getElem]
  constructor
  · intro h
    have pair : ∀ i j (hi : i < m.rows.length) (hj : j < m.rows.length), i ≠ j → ¬ SameK lower ks (m.rows[i]) (m.rows[j]) := by
      intro i j hi hj hne hs
      rcases Nat.lt_or_ge i j with hlt | hge
      · exact h i j hi hj hlt hs
      · exact h j i hj hi (by omega) (hs.symm (hsource i hi) (hsource j hj))
    rintro (⟨i, j, hs⟩ | ⟨i, j, hne, hs⟩ | ⟨i, j, hne, hs⟩)
    · have hi : i < m.rows.length := by have := hs.1; omega
      have hj : t1.rows.length + j < m.rows.length := by have := hs.2.1; omega
      refine pair i (t1.rows.length + j) hi hj (by have := hs.1; omega) ?_
      have h1 := hr.one i _ (List.getElem?_eq_getElem hi) hs.1
      have h2 := hr.two (t1.rows.length + j) _ (List.getElem?_eq_getElem hj) (by omega)
      rw [show t1.rows.length + j - t1.rows.length = j by omega] at h2
      exact (sameKey_iff lower hl h1 h2 (hsource _ hi) (hsource _ hj)).1 hs
    · have hi : i < m.rows.length := by have := hs.1; omega
      have hj : j < m.rows.length := by have := hs.2.1; omega
      refine pair i j hi hj hne ?_
      have h1 := hr.one i _ (List.getElem?_eq_getElem hi) hs.1
      have h2 := hr.one j _ (List.getElem?_eq_getElem hj) hs.2.1
      exact (sameKey_iff lower hl h1 h2 (hsource _ hi) (hsource _ hj)).1 hs
    · have hi : t1.rows.length + i < m.rows.length := by have := hs.1; omega
      have hj : t1.rows.length + j < m.rows.length := by have := hs.2.1; omega
      refine pair (t1.rows.length + i) (t1.rows.length + j) hi hj (by omega) ?_
      have h1 := hr.two (t1.rows.length + i) _ (List.getElem?_eq_getElem hi) (by omega)
      have h2 := hr.two (t1.rows.length + j) _ (List.getElem?_eq_getElem hj) (by omega)
      rw [show t1.rows.length + i - t1.rows.length = i by omega] at h1
      rw [show t1.rows.length + j - t1.rows.length = j by omega] at h2
      exact (sameKey_iff lower hl h1 h2 (hsource _ hi) (hsource _ hj)).1 hs
  · intro h i j hi hj hij hs
    refine h ?_
    by_cases h1 : j < t1.rows.length
    · refine .inr (.inl ⟨i, j, by omega, ?_⟩)
      exact (sameKey_iff lower hl (hr.one i _ (List.getElem?_eq_getElem hi) (by omega)) (hr.one j _ (List.getElem?_eq_getElem hj) h1)
        (hsource _ hi) (hsource _ hj)).2 hs
    · by_cases h2 : i < t1.rows.length
      · refine .inl ⟨i, j - t1.rows.length, ?_⟩
        exact (sameKey_iff lower hl (hr.one i _ (List.getElem?_eq_getElem hi) h2) (hr.two j _ (List.getElem?_eq_getElem hj) (by omega))
          (hsource _ hi) (hsource _ hj)).2 hs
      · refine .inr (.inr ⟨i - t1.rows.length, j - t1.rows.length, by omega, ?_⟩)
        exact (sameKey_iff lower hl (hr.two i _ (List.getElem?_eq_getElem hi) (by omega)) (hr.two j _ (List.getElem?_eq_getElem hj) (by omega))
          (hsource _ hi) (hsource _ hj)).2 hs

theorem IsMerge.of {lower : GoStr → GoStr} {t1 t2 m m' f : Table τ} (h : MergeInput (t1.sortKeys.map (·.colName)) t1 t2)
    (hm1 : AllMergeable t1) (hm2 : AllMergeable t2) (hc : Collected t1 t2 m)
    (hi : CombineInput (mergedCols (t1.sortKeys.map (·.colName)) t1 t2).length m)
    (hcb : Combined lower (mergedCols (t1.sortKeys.map (·.colName)) t1 t2).length m m')
    (hf : Cleaned lower (mergedCols (t1.sortKeys.map (·.colName)) t1 t2).length t1 m' f)
    (hrows : Rows (t1.sortKeys.map (·.colName)) t1 t2 m) : IsMerge lower t1.sortKeys t1 t2 f := by
  have hdn : m.sortKeys.map (·.colName) = t1.sortKeys.map (·.colName) := by rw [dirs_names, hc.keys, ← dirs_names]
  have hl : (t1.sortKeys.map (·.colName)).length = m.sortKeys.length := by rw [← hdn, List.length_map]
  have hgm : ∀ x ∈ m.rows, GoodVals m.sortKeys (x.take m.sortKeys.length) := fun x hx => (hi.good hx).1
  have hcols : f.colNames = mergedCols (t1.sortKeys.map (·.colName)) t1 t2 := by
    rw [hf.cols, hcb.cols, hc.cols, List.append_assoc, List.take_left]
  have htypes : f.colTypes = m.colTypes.take (mergedCols (t1.sortKeys.map (·.colName)) t1 t2).length := by
    rw [hf.types, hcb.types, List.take_append_of_le_length]
    rw [hc.wf.typesLen, hi.len]; omega
  obtain ⟨C, hC⟩ : ∃ C, C = (mergedCols (t1.sortKeys.map (·.colName)) t1 t2).length := ⟨_, rfl⟩
  rw [← hC] at hi hcb hf htypes
  have hCm : ∀ c, c < C → f.colNames[c]? = m.colNames[c]? := by
    intro c hlt
    rw [hcols, hc.cols, List.getElem?_append_left (by omega)]
  have htm : ∀ n ty, HasColT f n ty ↔ HasColT t1 n ty ∨ HasColT t2 n ty := by
    intro n ty
    have hTnot : ∀ ty, ¬ (HasColT t1 tableNumberColName ty ∨ HasColT t2 tableNumberColName ty) := by
      rintro ty (g | g)
      · exact h.free1.1 g.mem
      · exact h.free2.1 g.mem
    constructor
    · rintro ⟨c, g1, g2⟩
      have hlt : c < C := by rw [hC, ← hcols]; exact (List.getElem?_eq_some_iff.1 g1).1
      rw [hCm c hlt] at g1
      rw [htypes, List.getElem?_take_of_lt hlt] at g2
      rcases (hc.types n ty).1 ⟨c, g1, g2⟩ with g | g | ⟨g, _⟩
      · exact .inl g
      · exact .inr g
      · subst g
        have := hc.wf.map_unique g1 hi.numName
        omega
    · intro g
      obtain ⟨c, g1, g2⟩ := (hc.types n ty).2 (g.elim .inl (fun g => .inr (.inl g)))
      have hlt : c < C := by
        have h1 := (List.getElem?_eq_some_iff.1 g1).1
        rw [hi.len] at h1
        rcases Nat.lt_or_ge c C with h2 | h2
        · exact h2
        · have : c = C := by omega
          subst this
          rw [hi.numName] at g1
          cases g1
          exact absurd g (hTnot ty)
      exact ⟨c, by rw [hCm c hlt]; exact g1, by rw [htypes, List.getElem?_take_of_lt hlt]; exact g2⟩
  -- rows of the result
  have hKC : m.sortKeys.length ≤ C := by
    have := hcb.merging.keys
    rw [hcb.keys] at this; exact this
  have hrow : ∀ (i : Nat) row, f.rows[i]? = some row → ∃ s ∈ m'.rows.filter (unmarked C), row = s.take C ∧ Holds (t1.sortKeys.map (·.colName)) f i s := by
    intro i row hr
    obtain ⟨s, hs, e⟩ := List.mem_map.1 (hf.rows.mem_iff.1 (List.mem_of_getElem? hr))
    refine ⟨s, hs, e.symm, (List.getElem?_eq_some_iff.1 hr).1, fun p n hp a => ?_⟩
    have hpl : p < C := by
      have := (List.getElem?_eq_some_iff.1 hp).1
      omega
    have hname : f.colNames[p]? = some n := by
      rw [hcols, mergedCols, List.getElem?_append_left (List.getElem?_eq_some_iff.1 hp).1]; exact hp
    constructor
    · rintro ⟨c, row', g1, g2, g3⟩
      have := hf.wf.map_unique g1 hname; subst this
      rw [hr] at g2; cases g2
      rw [← e, List.getElem?_take_of_lt hpl] at g3; exact g3
    · intro ha
      exact ⟨p, row, hname, hr, by rw [← e, List.getElem?_take_of_lt hpl]; exact ha⟩
  have hsrc : ∀ s ∈ m'.rows.filter (unmarked C), ∃ i : Nat, f.rows[i]? = some (s.take C) := by
    intro s hs
    exact List.getElem?_of_mem (hf.rows.mem_iff.2 (List.mem_map.2 ⟨s, hs, rfl⟩))
  -- a row of the table under construction with the key of a row of the result
  have hsame1 : ∀ {i r : Nat} {s x}, Holds (t1.sortKeys.map (·.colName)) f i s → s ∈ m'.rows.filter (unmarked C) → m.rows[r]? = some x → r < t1.rows.length →
      (SameKey (t1.sortKeys.map (·.colName)) f i t1 r ↔ SameK lower m.sortKeys x s) := by
    intro i r s x hh hs hx hr
    have gx := hgm x (List.mem_of_getElem? hx)
    have gs := hcb.good s hs
    rw [sameKey_iff lower hl hh (hrows.one r x hx hr) gs gx]
    exact ⟨fun g => g.symm gs gx, fun g => g.symm gx gs⟩
  have hsame2 : ∀ {i r : Nat} {s x}, Holds (t1.sortKeys.map (·.colName)) f i s → s ∈ m'.rows.filter (unmarked C) → m.rows[r]? = some x → t1.rows.length ≤ r →
      (SameKey (t1.sortKeys.map (·.colName)) f i t2 (r - t1.rows.length) ↔ SameK lower m.sortKeys x s) := by
    intro i r s x hh hs hx hr
    have gx := hgm x (List.mem_of_getElem? hx)
    have gs := hcb.good s hs
    rw [sameKey_iff lower hl hh (hrows.two r x hx hr) gs gx]
    exact ⟨fun g => g.symm gs gx, fun g => g.symm gx gs⟩
  have hcover : ∀ (r : Nat) x, m.rows[r]? = some x → ∃ i s, Holds (t1.sortKeys.map (·.colName)) f i s ∧ s ∈ m'.rows.filter (unmarked C) ∧ SameK lower m.sortKeys x s := by
    intro r x hx
    obtain ⟨s, hs, hxs⟩ := hcb.cover x (List.mem_of_getElem? hx)
    obtain ⟨i, hi'⟩ := hsrc s hs
    obtain ⟨s', hs', e, hh⟩ := hrow i _ hi'
    refine ⟨i, s', hh, hs', ?_⟩
    simp only [SameK] at hxs ⊢
    have : s'.take m.sortKeys.length = s.take m.sortKeys.length := by
      have := congrArg (List.take m.sortKeys.length) e
      rw [List.take_take, List.take_take, Nat.min_eq_left hKC] at this
      exact this.symm
    rw [this]; exact hxs
  have hnum : ∀ (r : Nat) x, m.rows[r]? = some x → (r < t1.rows.length → rowNum C x = 1) ∧ (t1.rows.length ≤ r → rowNum C x = 2) := by
    intro r x hx
    obtain ⟨_, _, v, hv, e⟩ := hi.good (List.mem_of_getElem? hx)
    have hAt : At m tableNumberColName r (.int .int v) := ⟨C, x, hi.numName, hx, hv⟩
    refine ⟨fun hr => ?_, fun hr => ?_⟩
    · have := hc.oneNumber r _ hr hAt
      cases this; exact e
    · have := hc.twoNumber r _ hr hAt
      cases this; exact e
  exact {
    wf := hf.wf
    name := by rw [hf.name, hcb.name, hc.name]
    cols := by rw [hcols, mergedCols_eq]
    types := htm
    sameKeys := hf.keys
    live := hf.live
    sorted := hf.sorted
    unique := by
      intro i j hs
      obtain ⟨ri, hri⟩ : ∃ r, f.rows[i]? = some r := ⟨_, List.getElem?_eq_getElem hs.1⟩
      obtain ⟨rj, hrj⟩ : ∃ r, f.rows[j]? = some r := ⟨_, List.getElem?_eq_getElem hs.2.1⟩
      obtain ⟨si, hsi, ei, hhi⟩ := hrow i ri hri
      obtain ⟨sj, hsj, ej, hhj⟩ := hrow j rj hrj
      have hsk := (sameKey_iff lower hl hhi hhj (hcb.good si hsi) (hcb.good sj hsj)).1 hs
      -- the keys of the rows are pairwise different
      have hpw : ((m'.rows.filter (unmarked C)).map (·.take C)).Pairwise (fun x y => ¬ SameK lower m.sortKeys x y ∧ ¬ SameK lower m.sortKeys y x) := by
        rw [List.pairwise_map]
        refine hcb.unique.imp_of_mem fun {x y} hx hy hxy => ?_
        have tk : ∀ z : List (Cell τ), (z.take C).take m.sortKeys.length = z.take m.sortKeys.length := by
          intro z; rw [List.take_take, Nat.min_eq_left hKC]
        have h1 : ¬ SameK lower m.sortKeys (x.take C) (y.take C) := by simp only [SameK, tk]; exact hxy
        refine ⟨h1, fun g => hxy ?_⟩
        have : SameK lower m.sortKeys y x := by simp only [SameK, tk] at g ⊢; exact g
        exact this.symm (hcb.good y hy) (hcb.good x hx)
      have hpf := (hf.rows.pairwise_iff (fun {x y} hxy => ⟨hxy.2, hxy.1⟩)).2 hpw
      have tk : ∀ z : List (Cell τ), (z.take C).take m.sortKeys.length = z.take m.sortKeys.length := by
        intro z; rw [List.take_take, Nat.min_eq_left hKC]
      have hsk2 : SameK lower m.sortKeys ri rj := by
        rw [ei, ej]; simp only [SameK, tk]; exact hsk
      obtain ⟨li, gi⟩ := List.getElem?_eq_some_iff.1 hri
      obtain ⟨lj, gj⟩ := List.getElem?_eq_some_iff.1 hrj
      rcases Nat.lt_trichotomy i j with hij | hij | hij
      · have := (List.pairwise_iff_getElem.1 hpf i j li lj hij).1
        rw [gi, gj] at this; exact absurd hsk2 this
      · exact hij
      · have := (List.pairwise_iff_getElem.1 hpf j i lj li hij).2
        rw [gi, gj] at this; exact absurd hsk2 this
    cover1 := by
      intro r hr
      obtain ⟨x, hx⟩ : ∃ x, m.rows[r]? = some x := ⟨_, List.getElem?_eq_getElem (by rw [hc.len]; omega)⟩
      obtain ⟨i, s, hh, hs, hxs⟩ := hcover r x hx
      exact ⟨i, (hsame1 hh hs hx hr).2 hxs⟩
    cover2 := by
      intro r hr
      obtain ⟨x, hx⟩ : ∃ x, m.rows[t1.rows.length + r]? = some x := ⟨_, List.getElem?_eq_getElem (by rw [hc.len]; omega)⟩
      obtain ⟨i, s, hh, hs, hxs⟩ := hcover _ x hx
      have := (hsame2 hh hs hx (by omega)).2 hxs
      rw [show t1.rows.length + r - t1.rows.length = r by omega] at this
      exact ⟨i, this⟩
    cells := by
      intro n ty i v hty hv
      have hn := (htm n ty).1 hty
      have hmg : ty.Mergeable = true := hn.elim (hm1 n ty) (hm2 n ty)
      obtain ⟨c, row, g1, g2, g3⟩ := hv
      have hlt : c < C := by rw [hC, ← hcols]; exact (List.getElem?_eq_some_iff.1 g1).1
      obtain ⟨s, hs, rfl, hh⟩ := hrow i row g2
      rw [List.getElem?_take_of_lt hlt] at g3
      have hmc : m.colNames[c]? = some n := by rw [← hCm c hlt]; exact g1
      obtain ⟨x, v', hx, hxs, hxv, hsv, hmax⟩ := hcb.best s hs c hlt
      rw [g3] at hsv; cases hsv
      obtain ⟨r, hr⟩ := List.getElem?_of_mem hx
      have hAt : At m n r v := ⟨c, x, hmc, hr, hxv⟩
      have hgive1 : r < t1.rows.length → Gives (t1.sortKeys.map (·.colName)) t1 f i n ty v := fun hlt' =>
        ⟨r, (hsame1 hh hs hr hlt').2 hxs, hc.cellOne h.wf1 hn hlt' hAt⟩
      have hgive2 : t1.rows.length ≤ r → Gives (t1.sortKeys.map (·.colName)) t2 f i n ty v := fun hle =>
        ⟨r - t1.rows.length, (hsame2 hh hs hr hle).2 hxs, hc.cellTwo h.wf2 hn hle hAt⟩
      have hgiven1 : ∀ w, Gives (t1.sortKeys.map (·.colName)) t1 f i n ty w → ∃ (r' : Nat) (x' : List (Cell τ)) (w' : Cell τ), m.rows[r']? = some x' ∧ r' < t1.rows.length ∧
          SameK lower m.sortKeys x' s ∧ x'[c]? = some w' ∧ w'.weight = w.weight := by
        rintro w ⟨r', hk, hw⟩
        obtain ⟨w', hw1, hw2⟩ := hc.weightOne h.wf1 hmg hn hk.2.1 hw
        obtain ⟨c', x', q1, q2, q3⟩ := hw1
        have := hc.wf.map_unique q1 hmc; subst this
        exact ⟨r', x', w', q2, hk.2.1, (hsame1 hh hs q2 hk.2.1).1 hk, q3, hw2⟩
      have hgiven2 : ∀ w, Gives (t1.sortKeys.map (·.colName)) t2 f i n ty w → ∃ (r' : Nat) (x' : List (Cell τ)) (w' : Cell τ), m.rows[r']? = some x' ∧
          SameK lower m.sortKeys x' s ∧ x'[c]? = some w' ∧ w'.weight = w.weight := by
        rintro w ⟨r', hk, hw⟩
        obtain ⟨w', hw1, hw2⟩ := hc.weightTwo h.wf2 hmg hn hk.2.1 hw
        obtain ⟨c', x', q1, q2, q3⟩ := hw1
        have := hc.wf.map_unique q1 hmc; subst this
        have hk' := hk
        rw [show r' = t1.rows.length + r' - t1.rows.length by omega] at hk'
        exact ⟨_, x', w', q2, (hsame2 hh hs q2 (by omega)).1 hk', q3, hw2⟩
      refine ⟨?_, ?_, ?_⟩
      · rcases Nat.lt_or_ge r t1.rows.length with hlt' | hge
        · exact .inl (hgive1 hlt')
        · exact .inr (hgive2 hge)
      · rintro w (hw | hw)
        · obtain ⟨r', x', w', q1, _, q2, q3, q4⟩ := hgiven1 w hw
          rw [← q4]; exact (hmax x' w' (List.mem_of_getElem? q1) q2 q3).1
        · obtain ⟨r', x', w', q1, q2, q3, q4⟩ := hgiven2 w hw
          rw [← q4]; exact (hmax x' w' (List.mem_of_getElem? q1) q2 q3).1
      · intro w hw hw2
        obtain ⟨r', x', w', q1, q0, q2, q3, q4⟩ := hgiven1 w hw
        have hle := (hmax x' w' (List.mem_of_getElem? q1) q2 q3).2 (by omega)
        rw [(hnum r' x' q1).1 q0] at hle
        refine hgive1 ?_
        rcases Nat.lt_or_ge r t1.rows.length with hlt' | hge
        · exact hlt'
        · rw [(hnum r x hr).2 hge] at hle; omega }

/-- `Merge` on two tables that have their keys. -/
theorem merge_core (nt : Nat → Nat → τ) (srt : GoSort (List (Cell τ))) (lower : GoStr → GoStr) {t1 t2 : Table τ}
    (h : MergeInput (t1.sortKeys.map (·.colName)) t1 t2) :
    (SomeRepeat (t1.sortKeys.map (·.colName)) t1 t2 ∧ AllMergeable t1 ∧ AllMergeable t2 → ∃ f,
      ((mergeCollect nt t1 t2).bind fun m => (mergeCombine nt srt lower m).bind fun m => mergeClean srt lower t1 m) = .ok f ∧
        IsMerge lower t1.sortKeys t1 t2 f) ∧
    (¬ (SomeRepeat (t1.sortKeys.map (·.colName)) t1 t2 ∧ AllMergeable t1 ∧ AllMergeable t2) → ∃ e,
      ((mergeCollect nt t1 t2).bind fun m => (mergeCombine nt srt lower m).bind fun m => mergeClean srt lower t1 m) = .err e) := by
  have notNil : ∀ t : Table τ, WF t → t.rows ≠ [] → t.isNilTable = false := by
    intro t hw hne
    cases hn : t.isNilTable with
    | false => rfl
    | true => exact absurd (hw.nilEmpty hn).2 hne
  obtain ⟨m, em, hc⟩ := mergeCollect_ok nt (t1 := t1) (t2 := t2)
    { wf1 := h.wf1, wf2 := h.wf2, notNil1 := notNil _ h.wf1 h.rows1, notNil2 := notNil _ h.wf2 h.rows2, shared := h.shared,
      someKey := fun e => h.someKey (by rw [e]; rfl), distinct := h.distinct,
      key := fun k hk => by
        obtain ⟨ty, g1, _, g3⟩ := h.key k.colName (List.mem_map.2 ⟨k, hk, rfl⟩)
        exact ⟨ty, g1, g3⟩
      free1 := h.free1.1, free2 := h.free2.1 }
  have hi := CombineInput.of h hc
  have hmi := hc.mergeable_iff h hi
  have hdn : m.sortKeys.map (·.colName) = t1.sortKeys.map (·.colName) := by rw [dirs_names, hc.keys, ← dirs_names]
  have hl : (t1.sortKeys.map (·.colName)).length = m.sortKeys.length := by rw [← hdn, List.length_map]
  have hrows := hc.rowsOf h.wf1 h.wf2 (fun n hn => by obtain ⟨ty, g1, _⟩ := h.key n hn; exact g1.mem)
    (fun n hn => by obtain ⟨ty, _, g1, _⟩ := h.key n hn; exact g1.mem)
  have hgm : ∀ x ∈ m.rows, GoodVals m.sortKeys (x.take m.sortKeys.length) := fun x hx => (hi.good hx).1
  have hrep := pairwise_iff_noRepeat lower hl hc.len hrows hgm
  obtain ⟨C, hC⟩ : ∃ C, C = (mergedCols (t1.sortKeys.map (·.colName)) t1 t2).length := ⟨_, rfl⟩
  have heq : ∀ m' o, mergeCombine nt srt lower m = .ok m' → mergeClean srt lower t1 m' = o →
      ((mergeCollect nt t1 t2).bind fun m => (mergeCombine nt srt lower m).bind fun m => mergeClean srt lower t1 m) = o := by
    intro m' o e1 e2; rw [em]; simp only [Out.bind]; rw [e1]; exact e2
  have heqErr : ∀ e, mergeCombine nt srt lower m = .err e →
      ((mergeCollect nt t1 t2).bind fun m => (mergeCombine nt srt lower m).bind fun m => mergeClean srt lower t1 m) = .err e := by
    intro e e1; rw [em]; simp only [Out.bind]; rw [e1]
  by_cases hall : AllMergeable t1 ∧ AllMergeable t2
  · obtain ⟨m', em', hcb⟩ := mergeCombine_ok nt srt lower hi (hmi.2 hall)
    rw [← hcb.full] at hrep
    have hT' : m'.colNames[(mergedCols (t1.sortKeys.map (·.colName)) t1 t2).length]? = some tableNumberColName := by
      rw [hcb.cols, List.getElem?_append_left (by rw [hi.len]; omega)]; exact hi.numName
    obtain ⟨cl1, cl2⟩ := mergeClean_cases srt lower (t1 := t1) hcb.merging.toFramed hT' hcb.notNil (by rw [hcb.keys]; exact hc.keys) h.distinct
      (by
        intro s hs p v hp hv
        rw [hcb.keys] at hp
        have hg := (goodVals_iff.1 (hcb.good s hs)).2 p m.sortKeys[p] v (List.getElem?_eq_getElem hp)
          (by rw [List.getElem?_take_of_lt hp]; exact hv)
        exact hg.2.2)
    have hfl : (m'.rows.filter (unmarked (mergedCols (t1.sortKeys.map (·.colName)) t1 t2).length)).length = m.rows.length ↔
        ∀ s ∈ m'.rows, unmarked (mergedCols (t1.sortKeys.map (·.colName)) t1 t2).length s = true := by
      rw [← hcb.len, List.length_filter_eq_length_iff]
    constructor
    · rintro ⟨hsome, _⟩
      have hex : ∃ s ∈ m'.rows, unmarked (mergedCols (t1.sortKeys.map (·.colName)) t1 t2).length s = false := by
        refine Classical.byContradiction fun hno => ?_
        refine hrep.1 (hfl.2 fun s hs => ?_) hsome
        cases hu : unmarked (mergedCols (t1.sortKeys.map (·.colName)) t1 t2).length s with
        | true => rfl
        | false => exact absurd ⟨s, hs, hu⟩ hno
      obtain ⟨f, ef, hf⟩ := cl1 hex
      refine ⟨f, heq _ _ em' ef, ?_⟩
      exact IsMerge.of h hall.1 hall.2 hc hi hcb hf hrows
    · intro hno
      obtain ⟨e, he⟩ := cl2 (hfl.1 (hrep.2 fun hs => hno ⟨hs, hall⟩))
      exact ⟨e, heq _ _ em' he⟩
  · refine ⟨fun hs => absurd hs.2 hall, fun _ => ?_⟩
    obtain ⟨c, ty, hlt, hty, hbad⟩ : ∃ c ty, c < (mergedCols (t1.sortKeys.map (·.colName)) t1 t2).length ∧ m.colTypes[c]? = some ty ∧ ty.Mergeable = false := by
      refine Classical.byContradiction fun hno => hall (hmi.1 fun c ty hlt hty => ?_)
      cases hq : ty.Mergeable with
      | true => rfl
      | false => exact absurd ⟨c, ty, hlt, hty, hq⟩ hno
    rcases mergeCombine_bad nt srt lower hi hlt hty hbad with ⟨e, he⟩ | ⟨m4, rows, e4, hP⟩
    · exact ⟨e, heqErr e he⟩
    · have hu := hP.unmarked hi
      have hT' : m4.colNames[(mergedCols (t1.sortKeys.map (·.colName)) t1 t2).length]? = some tableNumberColName := by
        rw [hP.names, List.getElem?_append_left (by rw [hi.len]; omega)]; exact hi.numName
      obtain ⟨e, he⟩ := (mergeClean_cases srt lower (t1 := t1) hP.framed hT' hP.notNil (by rw [hP.keys]; exact hc.keys) h.distinct
        (by
          intro s hs p v hp hv
          rw [hP.keys] at hp
          have hs' := (List.mem_filter.1 hs).1
          rw [hP.rowsEq] at hs'
          obtain ⟨x, hx, rfl⟩ := List.mem_map.1 hs'
          have hx' := hP.perm.mem_iff.1 hx
          have hxl := (hi.good hx').2.1
          have hKC : m.sortKeys.length ≤ (mergedCols (t1.sortKeys.map (·.colName)) t1 t2).length := by
            have := hP.framed.keys; rw [hP.keys] at this; exact this
          rw [List.getElem?_append_left (by omega)] at hv
          exact ((goodVals_iff.1 (hgm x hx')).2 p m.sortKeys[p] v (List.getElem?_eq_getElem hp)
            (by rw [List.getElem?_take_of_lt hp]; exact hv)).2.2)).2 hu
      exact ⟨e, heq _ _ e4 he⟩

end Verif
