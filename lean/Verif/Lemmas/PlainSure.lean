import Verif.Lemmas.PlainCalls

/-! # The specification of plain tables leaves no choice, except in sorting and shuffling -/

namespace Verif
namespace Plain
open Table

variable {τ : Type}

/-- The verdict and the table are determined. -/
def Sure (call : Call τ) (t : Table τ) : Prop := ∀ v v' x y, call t v x → call t v' y → v = v' ∧ x = y

/-- The table is determined. -/
def One (good : Table τ → Table τ → Prop) (t : Table τ) : Prop := ∀ x y, good t x → good t y → x = y

theorem sure_try {bad : Verdict} {good : Table τ → Table τ → Prop} {t : Table τ} (h : One good t) : Sure (Try bad good) t := by
  rintro v v' x y (⟨rfl, h1⟩ | ⟨rfl, rfl, h1⟩) (⟨rfl, h2⟩ | ⟨rfl, rfl, h2⟩)
  · exact ⟨rfl, h x y h1 h2⟩
  · exact absurd h1 (h2 x)
  · exact absurd h2 (h1 y)
  · exact ⟨rfl, rfl⟩

theorem sure_only {p : Table τ → Prop} {call : Call τ} {t : Table τ} (h : Sure call t) : Sure (Only p call) t := by
  rintro v v' x y (⟨h1, h2⟩ | ⟨h1, rfl, rfl⟩) (⟨h3, h4⟩ | ⟨h3, rfl, rfl⟩)
  · exact h v v' x y h2 h4
  · exact absurd h1 h3
  · exact absurd h3 h1
  · exact ⟨rfl, rfl⟩

theorem sure_then {a b : Call τ} {t : Table τ} (ha : Sure a t) (hb : ∀ x, a t .done x → Sure b x) : Sure (Then a b) t := by
  rintro v v' x y (⟨t1, h1, h2⟩ | ⟨h1, h2⟩) (⟨t2, h3, h4⟩ | ⟨h3, h4⟩)
  · obtain ⟨_, e⟩ := ha _ _ _ _ h1 h3
    subst e
    exact hb t1 h1 v v' x y h2 h4
  · exact absurd (ha _ _ _ _ h1 h4).1.symm h3
  · exact absurd (ha _ _ _ _ h2 h3).1 h1
  · exact ha _ _ _ _ h2 h4

theorem sure_each {ι : Type} {call : ι → Call τ} (P : Table τ → Prop) (l : List ι) (h : ∀ i, ∀ t, P t → Sure (call i) t ∧ ∀ x, call i t .done x → P x)
    (t : Table τ) (ht : P t) : Sure (Each call l) t := by
  induction l generalizing t with
  | nil => rintro v v' x y ⟨rfl, rfl⟩ ⟨rfl, rfl⟩; exact ⟨rfl, rfl⟩
  | cons i is ih => exact sure_then (h i t ht).1 (fun x hx => ih x ((h i t ht).2 x hx))

theorem each_keeps {ι : Type} {call : ι → Call τ} (P : Table τ → Prop) (l : List ι) (h : ∀ i, ∀ t, P t → ∀ x, call i t .done x → P x)
    (t : Table τ) (ht : P t) (x : Table τ) (hx : Each call l t .done x) : P x := by
  induction l generalizing t with
  | nil => obtain ⟨_, rfl⟩ := hx; exact ht
  | cons i is ih =>
    rcases hx with ⟨t1, h1, h2⟩ | ⟨h1, _⟩
    · exact ih t1 (h i t ht t1 h1) h2
    · exact absurd rfl h1

/-- A call that succeeded did what it should. -/
theorem good_of_done {bad : Verdict} {good : Table τ → Table τ → Prop} {t x : Table τ} (hb : bad ≠ .done) (h : Try bad good t .done x) : good t x := by
  rcases h with ⟨_, h⟩ | ⟨e, _⟩
  · exact h
  · exact absurd e.symm hb

/-- Names are distinct. -/
abbrev ND (t : Table τ) : Prop := t.colNames.Nodup

/-- The description fits one column only. -/
def OneCol (col : Table τ → Nat → Prop) (t : Table τ) : Prop := ∀ i j, col t i → col t j → i = j

theorem oneCol_named {t : Table τ} (h : ND t) (n : GoStr) : OneCol (Named n) t := by
  intro i j hi hj
  obtain ⟨h1, e1⟩ := List.getElem?_eq_some_iff.1 hi
  obtain ⟨h2, e2⟩ := List.getElem?_eq_some_iff.1 hj
  exact (List.getElem_inj h).1 (e1.trans e2.symm)

theorem oneCol_indexed (t : Table τ) (c : Int) : OneCol (Indexed c) t := by
  intro i j hi hj
  simp only [Indexed] at hi hj
  omega

theorem one_write {col : Table τ → Nat → Prop} {r : Int} {w : ColType → Cell τ → Prop} {t : Table τ} (hc : OneCol col t)
    (hw : ∀ ty x y, w ty x → w ty y → x = y) : One (Write col r w) t := by
  rintro _ _ ⟨c, k, ty, x, h1, h2, h3, h4, h5, rfl⟩ ⟨c', k', ty', x', g1, g2, g3, g4, g5, rfl⟩
  have e := hc _ _ h1 g1
  subst e
  rw [h3] at g3
  cases g3
  have e : k = k' := by omega
  subst e
  rw [hw _ _ _ h5 g5]

theorem fits_one (x : Cell τ) (ty : ColType) (y z : Cell τ) (h1 : Fits x ty y) (h2 : Fits x ty z) : y = z := h1.1.trans h2.1.symm

theorem nan_one (ty : ColType) (x y : Cell τ) (h1 : nan ty = some x) (h2 : nan ty = some y) : x = y := by
  rw [h1] at h2; cases h2; rfl

theorem one_nanColumn {col : Table τ → Nat → Prop} {t : Table τ} (hc : OneCol col t) :
    One (fun t t' => (t.rows = [] ∧ t' = t) ∨ NaNColumn col t t') t := by
  have key : ∀ x y, NaNColumn col t x → NaNColumn col t y → x = y := by
    rintro _ _ ⟨c, ty, x, h1, h2, h3, rfl⟩ ⟨c', ty', x', g1, g2, g3, rfl⟩
    have e := hc _ _ h1 g1
    subst e
    rw [h2] at g2; cases g2
    rw [h3] at g3; cases g3
    rfl
  have still : ∀ x, t.rows = [] → NaNColumn col t x → x = t := by
    rintro _ h0 ⟨c, ty, x, _, _, _, rfl⟩
    cases t; simp at h0; simp [h0]
  rintro x y (⟨h1, h2⟩ | h1) (⟨g1, g2⟩ | g1)
  · rw [h2, g2]
  · rw [h2, still y h1 g1]
  · rw [g2, still x g1 h1]
  · exact key x y h1 g1

theorem one_zeroColumn {nt : Nat → Nat → τ} {col : Table τ → Nat → Prop} {t : Table τ} (hc : OneCol col t) : One (ZeroColumn nt col) t := by
  rintro _ _ ⟨c, ty, h1, h2, rfl⟩ ⟨c', ty', g1, g2, rfl⟩
  have e := hc _ _ h1 g1
  subst e
  rw [h2] at g2; cases g2
  rfl

theorem one_zeroColumn' {nt : Nat → Nat → τ} {col : Table τ → Nat → Prop} {t : Table τ} (hc : OneCol col t) :
    One (fun t t' => (t.rows = [] ∧ t' = t) ∨ ZeroColumn nt col t t') t := by
  have still : ∀ x, t.rows = [] → ZeroColumn nt col t x → x = t := by
    rintro _ h0 ⟨c, ty, _, _, rfl⟩
    cases t; simp at h0; simp [h0]
  rintro x y (⟨h1, h2⟩ | h1) (⟨g1, g2⟩ | g1)
  · rw [h2, g2]
  · rw [h2, still y h1 g1]
  · rw [g2, still x g1 h1]
  · exact one_zeroColumn hc x y h1 g1

theorem name_inj {a b : ColType} (h : a.name = b.name) : a = b := by
  have h1 := ofName?_name a
  rw [h, ofName?_name b] at h1
  cases h1; rfl

theorem one_moreCol (nt : Nat → Nat → τ) (n ty : GoStr) (t : Table τ) : One (MoreCol nt n ty) t := by
  rintro _ _ ⟨a, _, _, _, h1, rfl⟩ ⟨b, _, _, _, h2, rfl⟩
  rw [name_inj (h1.symm.trans h2)]

theorem one_lessCol {col : Table τ → Nat → Prop} {t : Table τ} (hc : OneCol col t) : One (LessCol col) t := by
  rintro _ _ ⟨c, h1, _, rfl⟩ ⟨c', g1, _, rfl⟩
  rw [hc _ _ h1 g1]

theorem one_newColName {col : Table τ → Nat → Prop} {t : Table τ} (hc : OneCol col t) (b : GoStr) : One (NewColName col b) t := by
  rintro _ _ ⟨c, h1, _, _, _, rfl⟩ ⟨c', g1, _, _, _, rfl⟩
  rw [hc _ _ h1 g1]

theorem one_moreRows (nt : Nat → Nat → τ) (k : Nat) (t : Table τ) : One (MoreRows nt k) t := by
  rintro _ _ ⟨_, rfl⟩ ⟨_, rfl⟩; rfl

theorem one_lessRows (a b : Int) (t : Table τ) : One (LessRows a b) t := by
  rintro _ _ ⟨_, _, _, rfl⟩ ⟨_, _, _, rfl⟩; rfl

theorem at'_inj {l : List GoStr} (h : l.Nodup) (σ ρ : List Nat) (h1 : ∀ i ∈ σ, i < l.length) (h2 : ∀ i ∈ ρ, i < l.length)
    (e : at' σ l = at' ρ l) : σ = ρ := by
  induction σ generalizing ρ with
  | nil =>
    cases ρ with
    | nil => rfl
    | cons j ρ =>
      have := h2 j (by simp)
      simp [at', this] at e
  | cons i σ ih =>
    have hi := h1 i (by simp)
    cases ρ with
    | nil => simp [at', hi] at e
    | cons j ρ =>
      have hj := h2 j (by simp)
      simp only [at', List.filterMap_cons, List.getElem?_eq_getElem hi, List.getElem?_eq_getElem hj, List.cons.injEq] at e
      rw [(List.getElem_inj h).1 e.1, ih ρ (fun k hk => h1 k (by simp [hk])) (fun k hk => h2 k (by simp [hk])) e.2]

theorem one_arrangedAs {t : Table τ} (h : ND t) (ns : List GoStr) : One (ArrangedAs ns) t := by
  rintro x y ⟨σ, ⟨h1, rfl⟩, h2⟩ ⟨ρ, ⟨g1, rfl⟩, g2⟩
  have e : σ = ρ := at'_inj h σ ρ (fun i hi => by simpa using h1.mem_iff.1 hi) (fun i hi => by simpa using g1.mem_iff.1 hi) (h2.trans g2.symm)
  rw [e]

theorem hasColT_one {t : Table τ} (h : ND t) {n : GoStr} {a b : ColType} (h1 : HasColT t n a) (h2 : HasColT t n b) : a = b := by
  obtain ⟨i, h3, h4⟩ := h1
  obtain ⟨j, g3, g4⟩ := h2
  rw [oneCol_named h n i j h3 g3, g4] at h4
  cases h4; rfl

theorem one_moreKey {t : Table τ} (h : ND t) (n : GoStr) : One (MoreKey n) t := by
  rintro _ _ ⟨a, h1, _, rfl⟩ ⟨b, g1, _, rfl⟩
  rw [hasColT_one h h1 g1]

theorem one_reversed (n : GoStr) (t : Table τ) : One (Reversed n) t := by
  rintro _ _ ⟨_, rfl⟩ ⟨_, rfl⟩; rfl

theorem one_lessKey (n : GoStr) (t : Table τ) : One (LessKey n) t := by
  rintro _ _ ⟨_, pre, k, post, h1, h2, h3, rfl⟩ ⟨_, pre', k', post', g1, g2, g3, rfl⟩
  have a := deleteKeyLoop_some.2 ⟨pre, k, post, h1, h2, h3, rfl⟩
  have b := deleteKeyLoop_some.2 ⟨pre', k', post', g1, g2, g3, rfl⟩
  rw [a] at b
  rw [Option.some.inj b]

theorem keep_moreKey {n : GoStr} {t x : Table τ} (h : ND t) (hx : MoreKey n t x) : ND x := by
  obtain ⟨_, _, _, rfl⟩ := hx; exact h

theorem keep_reversed {n : GoStr} {t x : Table τ} (h : ND t) (hx : Reversed n t x) : ND x := by
  obtain ⟨_, rfl⟩ := hx; exact h

theorem sure_setKeys {t : Table τ} (h : ND t) (ns : List GoStr) : Sure (SetKeys ns) t :=
  sure_each (call := fun n => Try .refused (MoreKey n)) ND ns
    (fun n t ht => ⟨sure_try (one_moreKey ht n), fun x hx => keep_moreKey ht (good_of_done (by simp) hx)⟩) { t with sortKeys := [] } h

theorem keep_setKeys {t x : Table τ} (h : ND t) {ns : List GoStr} (hx : SetKeys ns t .done x) : ND x :=
  each_keeps (call := fun n => Try .refused (MoreKey n)) ND ns
    (fun _ _ ht _ hx => keep_moreKey ht (good_of_done (by simp) hx)) { t with sortKeys := [] } h x hx

theorem sure_reverseKeys {t : Table τ} (h : ND t) (ns : List GoStr) : Sure (ReverseKeys ns) t :=
  sure_each (call := fun n => Try .refused (Reversed n)) ND ns
    (fun n t ht => ⟨sure_try (one_reversed n t), fun x hx => keep_reversed ht (good_of_done (by simp) hx)⟩) t h

theorem one_haveCol {t : Table τ} (nt : Nat → Nat → τ) (col : GoStr × ColType) : One (HaveCol nt col) t := by
  have no : ∀ x, HasColT t col.1 col.2 → ¬ MoreCol nt col.1 col.2.name t x := by
    rintro _ ⟨i, h1, _⟩ ⟨_, _, _, h2, _⟩
    exact h2 (List.mem_of_getElem? h1)
  rintro x y (⟨h1, h2⟩ | h1) (⟨g1, g2⟩ | g1)
  · rw [h2, g2]
  · exact absurd g1 (no y h1)
  · exact absurd h1 (no x g1)
  · exact one_moreCol _ _ _ t x y h1 g1

theorem one_copyCell {t f : Table τ} (h : ND t) (fr r : Int) (c : Nat) : One (CopyCell f fr r c) t := by
  rintro x y ⟨n, k, row, v, h1, h2, h3, h4, h5⟩ ⟨n', k', row', v', g1, g2, g3, g4, g5⟩
  rw [h1] at g1; cases g1
  have e : k = k' := by omega
  subst e
  rw [h3] at g3; cases g3
  rw [h4] at g4; cases g4
  exact one_write (oneCol_named h n) (fits_one v) x y h5 g5

theorem keep_write {col : Table τ → Nat → Prop} {r : Int} {w : ColType → Cell τ → Prop} {t x : Table τ} (h : ND t) (hx : Write col r w t x) : ND x := by
  obtain ⟨_, _, _, _, _, _, _, _, _, rfl⟩ := hx; exact h

theorem sure_copyRow {t f : Table τ} (h : ND t) (nt : Nat → Nat → τ) (fr r : Int) : Sure (CopyRow nt f fr r) t := by
  refine sure_then (sure_try (one_moreRows nt 1 t)) (fun x hx => ?_)
  refine sure_each (call := fun c => Try .refused (CopyCell f fr r c)) ND _
    (fun c t ht => ⟨sure_try (one_copyCell ht fr r c), fun y hy => ?_⟩) x ?_
  · obtain ⟨_, _, _, _, _, _, _, _, h5⟩ := good_of_done (by simp) hy
    exact keep_write ht h5
  · obtain ⟨_, rfl⟩ := good_of_done (by simp) hx
    exact h

theorem keep_copyRow {t f x : Table τ} (h : ND t) {nt : Nat → Nat → τ} {fr r : Int} (hx : CopyRow nt f fr r t .done x) : ND x := by
  rcases hx with ⟨t1, h1, h2⟩ | ⟨h1, _⟩
  · obtain ⟨_, rfl⟩ := good_of_done (by simp) h1
    refine each_keeps (call := fun c => Try .refused (CopyCell f fr r c)) ND _ (fun c t ht y hy => ?_) _ ?_ x h2
    · obtain ⟨_, _, _, _, _, _, _, _, h5⟩ := good_of_done (by simp) hy
      exact keep_write ht h5
    · exact h
  · exact absurd rfl h1

/-- The calls whose result depends on an algorithm or on random numbers. -/
def Chancy : Op τ → Prop
  | .sort _ _ _ | .sortSimple _ _ _ | .shuffle _ => True
  | _ => False

theorem modify_same {l : List (List (Cell τ))} {k : Nat} {f : List (Cell τ) → List (Cell τ)} (h : ∀ row ∈ l, f row = row) : l.modify k f = l := by
  apply List.ext_getElem?
  intro i
  rw [List.getElem?_modify]
  cases hi : l[i]? with
  | none => rfl
  | some row =>
    have := h row (List.mem_of_getElem? hi)
    by_cases e : k = i <;> simp [e, this]

theorem zipWith_same (row : List (Cell τ)) (tys : List ColType) (hl : row.length = tys.length) (h : ∀ ty ∈ tys, (nan ty : Option (Cell τ)) = none) :
    List.zipWith (fun x ty => (nan ty).getD x) row tys = row := by
  induction row generalizing tys with
  | nil => simp
  | cons a row ih =>
    cases tys with
    | nil => simp at hl
    | cons ty tys => simp [h ty (by simp), ih tys (by simpa using hl) (fun ty h' => h ty (by simp [h']))]

theorem does_sure (op : Op τ) {t : Table τ} (h : ND t) (hty : t.colTypes.length = t.colNames.length)
    (hrow : ∀ row ∈ t.rows, row.length = t.colTypes.length) (hop : ¬ Chancy op) : Sure (Does op) t := by
  cases op with
  | setName n => exact sure_try (fun x y h1 h2 => h1.2.trans h2.2.symm)
  | renameTable n => exact sure_try (fun x y h1 h2 => h1.2.trans h2.2.symm)
  | setStructShape b => exact sure_try (fun x y h1 h2 => h1.trans h2.symm)
  | appendCol nt n ty => exact sure_try (one_moreCol nt n ty t)
  | deleteCol n => exact sure_try (one_lessCol (oneCol_named h n))
  | deleteColByColIndex c => exact sure_try (one_lessCol (oneCol_indexed t c))
  | renameCol a b => exact sure_try (one_newColName (oneCol_named h a) b)
  | renameColByColIndex c b => exact sure_try (one_newColName (oneCol_indexed t c) b)
  | appendRow nt => exact sure_try (one_moreRows nt 1 t)
  | appendRows nt n => exact sure_only (sure_try (one_moreRows nt _ t))
  | deleteRow r => exact sure_try (one_lessRows r r t)
  | deleteRows a b => exact sure_try (one_lessRows a b t)
  | deleteRowsAll => exact sure_try (fun x y h1 h2 => h1.trans h2.symm)
  | setVal n r v => exact sure_try (one_write (oneCol_named h n) (fits_one v))
  | setValByColIndex c r v => exact sure_try (one_write (oneCol_indexed t c) (fits_one v))
  | setTyped ty n r v => exact sure_try (one_write (oneCol_named h n) (fun _ _ _ h1 h2 => h1.1.trans h2.1.symm))
  | setTypedByColIndex ty c r v =>
    simp only [Does]
    exact sure_only (call := fun t => Try (if 0 ≤ c ∧ c < t.colTypes.length then .refused else .panics) (Write (Indexed c) r (Fits v)) t)
      (sure_try (one_write (oneCol_indexed t c) (fits_one v)))
  | setCellToZeroValue nt n r => exact sure_only (sure_try (one_write (oneCol_named h n) (fun _ _ _ h1 h2 => h1.trans h2.symm)))
  | setCellToZeroValueByColIndex nt c r => exact sure_try (one_write (oneCol_indexed t c) (fun _ _ _ h1 h2 => h1.trans h2.symm))
  | setColCellsToZeroValue nt n => exact sure_try (one_zeroColumn (oneCol_named h n))
  | setColCellsToZeroValueByColIndex nt c => exact sure_try (one_zeroColumn' (oneCol_indexed t c))
  | setRowCellsToZeroValue nt r =>
    refine sure_only (sure_try ?_)
    have still : ∀ k : Nat, k < t.rows.length → t.colNames = [] → { t with rows := t.rows.set k (zeros nt t k) } = t := by
      intro k hk h0
      have h1 : t.colTypes = [] := List.length_eq_zero_iff.1 (by rw [hty, h0]; rfl)
      have h2 : zeros nt t k = t.rows[k] := by
        have := hrow t.rows[k] (List.getElem_mem hk)
        rw [h1] at this
        rw [List.length_eq_zero_iff.1 this]
        simp [zeros, h1]
      rw [h2, List.set_getElem_self]
    rintro x y (⟨h1, rfl⟩ | ⟨k, rfl, h1, rfl⟩) (⟨g1, rfl⟩ | ⟨k', e, g1, rfl⟩)
    · rfl
    · exact (still k' g1 h1).symm
    · exact still k h1 g1
    · have : k = k' := by omega
      rw [this]
  | setFloatCellToNaN n r => exact sure_try (one_write (oneCol_named h n) nan_one)
  | setFloatCellToNaNByColIndex c r => exact sure_try (one_write (oneCol_indexed t c) nan_one)
  | setColFloatCellsToNaN n => exact sure_only (sure_try (one_nanColumn (oneCol_named h n)))
  | setColFloatCellsToNaNByColIndex c => exact sure_try (one_nanColumn (oneCol_indexed t c))
  | setRowFloatCellsToNaN r =>
    refine sure_try ?_
    have still : ∀ k : Nat, (∀ ty ∈ t.colTypes, (nan ty : Option (Cell τ)) = none) →
        { t with rows := t.rows.modify k (fun row => List.zipWith (fun x ty => (nan ty).getD x) row t.colTypes) } = t := by
      intro k h0
      rw [modify_same (fun row hr => zipWith_same row _ (hrow row hr) h0)]
    rintro x y (⟨h1, rfl⟩ | ⟨k, rfl, h1, rfl⟩) (⟨g1, rfl⟩ | ⟨k', e, g1, rfl⟩)
    · rfl
    · exact (still k' h1).symm
    · exact still k g1
    · have : k = k' := by omega
      rw [this]
  | setAllFloatCellsToNaN => exact sure_try (fun x y h1 h2 => h1.trans h2.symm)
  | reorderCols ns => exact sure_try (one_arrangedAs h ns)
  | reorderColsByColIndex order =>
    refine sure_try ?_
    rintro _ _ ⟨σ, h1, _, rfl⟩ ⟨ρ, g1, _, rfl⟩
    have e : σ = ρ := by
      have := h1.symm.trans g1
      have := congrArg (List.map Int.toNat) this
      simpa [List.map_map, Function.comp_def] using this
    rw [e]
  | orderColsBySortKeys => exact sure_try (one_arrangedAs h _)
  | reverse => exact sure_try (fun x y h1 h2 => h1.trans h2.symm)
  | shuffle choose => exact absurd trivial hop
  | setSortKeys ns => exact sure_setKeys h ns
  | setSortKeysReverse ns => exact sure_reverseKeys h ns
  | setSortKeysFromTable f => exact sure_only (sure_then (sure_setKeys h _) (fun x hx => sure_reverseKeys (keep_setKeys h hx) _))
  | appendSortKey n => exact sure_try (one_moreKey h n)
  | deleteSortKey n => exact sure_try (one_lessKey n t)
  | sort srt lower ns => exact absurd trivial hop
  | sortSimple srt lower ns => exact absurd trivial hop
  | appendColsFromTable nt f =>
    exact sure_only (sure_each (call := fun col => Try .refused (HaveCol nt col)) (fun _ => True) _
      (fun col t _ => ⟨sure_try (one_haveCol nt col), fun _ _ => trivial⟩) t trivial)
  | appendRowsFromTable nt f a b =>
    simp only [Does]
    refine sure_only (call := fun t => Each (fun (k : Nat) => CopyRow nt f (a + k) (t.rows.length + k)) (List.range (b - a + 1).toNat) t) ?_
    exact sure_each (call := fun (k : Nat) => CopyRow nt f (a + k) (t.rows.length + k)) ND _
      (fun k s hs => ⟨sure_copyRow hs nt _ _, fun x hx => keep_copyRow hs hx⟩) t h

end Plain
end Verif
