import Verif.Lemmas.Equals
import Verif.Props.C12

/-!
# C25 Equals is an equivalence and means same content up to column order
-/

namespace Verif
open Table

variable {τ : Type}

theorem At.hasColT {t : Table τ} (h : WF t) {n : GoStr} {r : Nat} {x : Cell τ} (hx : At t n r x) : ∃ ty, HasColT t n ty ∧ x.HasType ty := by
  obtain ⟨i, row, hi, hr, hc⟩ := hx
  obtain ⟨ty, hty⟩ := h.type_of_name hi
  exact ⟨ty, ⟨i, hi, hty⟩, (h.rowsOK row (List.mem_of_getElem? hr)).2 i _ _ hty hc⟩

/-- On flat tables the relation for nested tables does not matter. -/
theorem SameContent.flat {R R' : τ → τ → Prop} {t1 t2 : Table τ} (h1 : WF t1) (hf : Flat t1) (h : SameContent R t1 t2) :
    SameContent R' t1 t2 := by
  obtain ⟨a, b, c, d, e⟩ := h
  refine ⟨a, b, c, d, ?_⟩
  intro n r x y hx hy
  have he := e n r x y hx hy
  obtain ⟨ty, hty, hxt⟩ := hx.hasColT h1
  cases x with
  | tbl o =>
    exfalso
    cases ty <;> cases o <;> simp [Cell.HasType] at hxt
    exact hf n hty
  | _ => cases y <;> simp_all [CellEq]

theorem f32Eq_symm {a b : BitVec 32} (h : f32Eq a b = true) : f32Eq b a = true := by
  simp only [f32Eq, Bool.and_eq_true, decide_eq_true_eq] at h ⊢
  exact ⟨⟨h.1.2, h.1.1⟩, h.2.symm⟩

theorem f64Eq_symm {a b : BitVec 64} (h : f64Eq a b = true) : f64Eq b a = true := by
  simp only [f64Eq, Bool.and_eq_true, decide_eq_true_eq] at h ⊢
  exact ⟨⟨h.1.2, h.1.1⟩, h.2.symm⟩

theorem f32Eq_trans {a b c : BitVec 32} (h : f32Eq a b = true) (h' : f32Eq b c = true) : f32Eq a c = true := by
  simp only [f32Eq, Bool.and_eq_true, decide_eq_true_eq] at h h' ⊢
  exact ⟨⟨h.1.1, h'.1.2⟩, h.2.trans h'.2⟩

theorem f64Eq_trans {a b c : BitVec 64} (h : f64Eq a b = true) (h' : f64Eq b c = true) : f64Eq a c = true := by
  simp only [f64Eq, Bool.and_eq_true, decide_eq_true_eq] at h h' ⊢
  exact ⟨⟨h.1.1, h'.1.2⟩, h.2.trans h'.2⟩

theorem CellEq.symm {R R' : τ → τ → Prop} (hR : ∀ a b, R a b → R' b a) {x y : Cell τ} (h : CellEq R x y) : CellEq R' y x := by
  cases x with
  | tbl o => cases o with
    | none => simp [CellEq] at h
    | some a => cases y with
      | tbl o' => cases o' with
        | none => simp [CellEq] at h
        | some b => exact hR a b h
      | _ => simp [CellEq] at h
  | f32 a => cases y <;> simp only [CellEq] at h ⊢; exact f32Eq_symm h
  | f64 a => cases y <;> simp only [CellEq] at h ⊢; exact f64Eq_symm h
  | _ => cases y <;> simp_all [CellEq]

theorem CellEq.trans {R1 R2 R3 : τ → τ → Prop} (hR : ∀ a b c, R1 a b → R2 b c → R3 a c) {x y z : Cell τ} (h1 : CellEq R1 x y)
    (h2 : CellEq R2 y z) : CellEq R3 x z := by
  cases x with
  | tbl o => cases o with
    | none => simp [CellEq] at h1
    | some a => cases y with
      | tbl o' => cases o' with
        | none => simp [CellEq] at h1
        | some b => cases z with
          | tbl o' => cases o' with
            | none => simp [CellEq] at h2
            | some c => exact hR a b c h1 h2
          | _ => simp [CellEq] at h2
      | _ => simp [CellEq] at h1
  | f32 a => cases y <;> simp only [CellEq] at h1; cases z <;> simp only [CellEq] at h2 ⊢; exact f32Eq_trans h1 h2
  | f64 a => cases y <;> simp only [CellEq] at h1; cases z <;> simp only [CellEq] at h2 ⊢; exact f64Eq_trans h1 h2
  | _ => cases y <;> simp only [CellEq] at h1 <;> cases z <;> simp_all [CellEq]

theorem SameContent.symm {R R' : τ → τ → Prop} (hR : ∀ a b, R a b → R' b a) {t1 t2 : Table τ} (h : SameContent R t1 t2) :
    SameContent R' t2 t1 := by
  obtain ⟨a, b, c, d, e⟩ := h
  exact ⟨a.symm, b.symm, c.symm, fun n ty => (d n ty).symm, fun n r x y hx hy => (e n r y x hy hx).symm hR⟩

theorem SameContent.trans {R1 R2 R3 : τ → τ → Prop} (hR : ∀ a b c, R1 a b → R2 b c → R3 a c) {t1 t2 t3 : Table τ} (h1 : WF t1) (h2 : WF t2)
    (h : SameContent R1 t1 t2) (h' : SameContent R2 t2 t3) : SameContent R3 t1 t3 := by
  obtain ⟨a, b, c, d, e⟩ := h
  obtain ⟨a', b', c', d', e'⟩ := h'
  refine ⟨a.trans a', b.trans b', c.trans c', fun n ty => (d n ty).trans (d' n ty), fun n r x z hx hz => ?_⟩
  have hr := (At_bound hx).2
  have hm2 : n ∈ t2.colNames := by
    obtain ⟨ty, hty, _⟩ := hx.hasColT h1
    exact ((d n ty).1 hty).mem
  obtain ⟨y, hy⟩ := At_exists h2 hm2 (by omega : r < t2.rows.length)
  exact (e n r x y hx hy).trans hR (e' n r y z hy hz)


theorem CellEq.refl {R : τ → τ → Prop} (hR : ∀ a, R a a) {ty : ColType} {x : Cell τ} (h : x.HasType ty)
    (h32 : ∀ b, x = .f32 b → isNaN32 b = false) (h64 : ∀ b, x = .f64 b → isNaN64 b = false) : CellEq R x x := by
  cases x with
  | nil => cases ty <;> simp [Cell.HasType] at h
  | tbl o => cases o with
    | none => cases ty <;> simp [Cell.HasType] at h
    | some a => exact hR a
  | f32 b => simp [CellEq, f32Eq, h32 b rfl]
  | f64 b => simp [CellEq, f64Eq, h64 b rfl]
  | _ => simp [CellEq]

/-- **C25.** On well-formed tables without `*Table` columns `Equals` is true exactly if the tables have the same content; otherwise it
returns an error; it never panics. -/
theorem C25_equals (nested : τ → τ → Out Unit) (t1 t2 : Table τ) (h1 : WF t1) (h2 : WF t2) (hf : Flat t1) (hf2 : Flat t2) :
    (equals nested t1 t2 = .ok () ↔ SameContent (fun _ _ => False) t1 t2) ∧ equals nested t1 t2 ≠ .panic := by
  have hpl : TableColsAligned t1 t2 := fun n i hc _ => absurd hc (hf n)
  obtain ⟨a, _⟩ := equals_spec h1 h2 (nested := nested) (fun _ _ _ _ _ _ => Iff.rfl) hpl
  have hiff : equals nested t1 t2 = .ok () ↔ SameContent (fun _ _ => False) t1 t2 :=
    a.trans ⟨SameContent.flat h1 hf, SameContent.flat h1 hf⟩
  refine ⟨hiff, ?_⟩
  -- no panic: compare with a `nested` that never panics
  obtain ⟨_, b⟩ := equals_spec h1 h2 (nested := fun _ _ => (.err .notEqual : Out Unit)) (R := fun _ _ => False)
    (fun _ _ _ _ _ _ => by simp) hpl
  have hb := b (fun _ _ _ _ _ _ => by simp)
  have hcell : ∀ i n ty r, t1.colTypes[i]? = some ty → equalsCell nested t1 t2 i n ty r =
      equalsCell (fun _ _ => (.err .notEqual : Out Unit)) t1 t2 i n ty r := by
    intro i n ty r hty
    have hne : ty ≠ .table := by
      rintro rfl
      have hlt := (List.getElem?_eq_some_iff.1 hty).1
      rw [h1.typesLen] at hlt
      exact hf _ ⟨i, List.getElem?_eq_getElem hlt, hty⟩
    simp only [equalsCell, if_neg hne]
  have hcol : ∀ i, equalsCol nested t1 t2 i = equalsCol (fun _ _ => (.err .notEqual : Out Unit)) t1 t2 i := by
    intro i
    simp only [equalsCol]
    cases t1.colName i with
    | ok n =>
      cases e : t1.colTypeByColIndex i with
      | ok ty =>
        have hty := (colTypeByColIndex_ok.1 e).2
        simp only [Int.toNat_natCast] at hty
        simp only [Out.bind]
        congr 1
        funext r
        exact hcell i n ty r hty
      | err e => rfl
      | panic => rfl
    | err e => rfl
    | panic => rfl
  have : equals nested t1 t2 = equals (fun _ _ => (.err .notEqual : Out Unit)) t1 t2 := by
    simp only [equals]
    rw [funext hcol]
  rw [this]; exact hb

/-- **C25**: symmetry. -/
theorem C25_symm (nested : τ → τ → Out Unit) (t1 t2 : Table τ) (h1 : WF t1) (h2 : WF t2) (hf : Flat t1) (hf2 : Flat t2) :
    equals nested t1 t2 = .ok () ↔ equals nested t2 t1 = .ok () := by
  rw [(C25_equals nested t1 t2 h1 h2 hf hf2).1, (C25_equals nested t2 t1 h2 h1 hf2 hf).1]
  exact ⟨SameContent.symm (by simp), SameContent.symm (by simp)⟩

/-- **C25**: transitivity. -/
theorem C25_trans (nested : τ → τ → Out Unit) (t1 t2 t3 : Table τ) (h1 : WF t1) (h2 : WF t2) (h3 : WF t3) (hf1 : Flat t1)
    (hf2 : Flat t2) (hf3 : Flat t3) (e12 : equals nested t1 t2 = .ok ()) (e23 : equals nested t2 t3 = .ok ()) :
    equals nested t1 t3 = .ok () := by
  rw [(C25_equals nested t1 t2 h1 h2 hf1 hf2).1] at e12
  rw [(C25_equals nested t2 t3 h2 h3 hf2 hf3).1] at e23
  rw [(C25_equals nested t1 t3 h1 h3 hf1 hf3).1]
  exact e12.trans (by simp) h1 h2 e23

/-- **C25**: a table equals itself exactly if no cell is NaN. -/
theorem C25_refl_iff (nested : τ → τ → Out Unit) (t : Table τ) (h : WF t) (hf : Flat t) :
    equals nested t t = .ok () ↔ NoNaN t := by
  rw [(C25_equals nested t t h h hf hf).1]
  constructor
  · rintro ⟨_, _, _, _, e⟩ n r
    constructor
    · intro b hb
      have := e n r _ _ hb hb
      simp only [CellEq, f32Eq, Bool.and_eq_true, Bool.not_eq_true'] at this
      exact this.1.1
    · intro b hb
      have := e n r _ _ hb hb
      simp only [CellEq, f64Eq, Bool.and_eq_true, Bool.not_eq_true'] at this
      exact this.1.1
  · intro hn
    refine ⟨rfl, rfl, rfl, fun _ _ => Iff.rfl, ?_⟩
    intro n r x y hx hy
    rw [At_unique h hy hx]
    obtain ⟨ty, hty, hxt⟩ := hx.hasColT h
    have hflat : ∀ a, x ≠ .tbl a := by
      rintro o rfl
      cases ty <;> cases o <;> simp [Cell.HasType] at hxt
      exact hf n hty
    cases x with
    | tbl o => exact absurd rfl (hflat o)
    | nil => cases ty <;> simp [Cell.HasType] at hxt
    | f32 b => simp [CellEq, f32Eq, (hn n r).1 b hx]
    | f64 b => simp [CellEq, f64Eq, (hn n r).2 b hx]
    | _ => simp [CellEq]

/-- **C25**: the order of the columns does not matter: a NaN-free table equals itself with its columns reordered. -/
theorem C25_reorder (nested : τ → τ → Out Unit) (t : Table τ) (h : WF t) (hf : Flat t) (hn : NoNaN t) (names : List GoStr)
    (hp : names.Perm t.colNames) : equals nested t (t.reorderCols names).1 = .ok () := by
  rcases reorderCols_cases h names with ⟨σ, _, hσ, _, e⟩ | ⟨hno, _⟩
  · rw [e]
    have hw := h.reorderTable hσ
    have hcols := HasColT_reorderTable h hσ
    have hat := At_reorderTable h hσ
    have hf2 : Flat (reorderTable t σ) := fun n hc => hf n ((hcols n .table).1 hc)
    show equals nested t (reorderTable t σ) = .ok ()
    rw [(C25_equals nested t _ h hw hf hf2).1]
    obtain ⟨_, _, _, _, e⟩ := (C25_equals nested t t h h hf hf).1.1 ((C25_refl_iff nested t h hf).2 hn)
    exact ⟨rfl, rfl, by simp [reorderTable], fun n ty => (hcols n ty).symm, fun n r x y hx hy => e n r x y hx ((hat n r y).1 hy)⟩
  · exact absurd hp hno

/-- The example table is flat and has no NaN. -/
theorem Ex.flat : Flat Ex.t := by
  rintro n ⟨i, _, hi⟩
  rw [Ex.t_eq] at hi
  match i with
  | 0 => simp at hi
  | 1 => simp at hi
  | 2 => simp at hi
  | i + 3 => simp at hi

-- it equals itself with the columns reordered, and not with a cell changed
example : equals (fun _ _ => (.panic : Out Unit)) Ex.t (Ex.t.reorderCols [gs! "w", gs! "name", gs! "age"]).1 = .ok () := by decide +kernel
example : equals (fun _ _ => (.panic : Out Unit)) Ex.t (Ex.t.setVal (gs! "age") 2 (.int .int 31)).1 = .err .notEqual := by decide +kernel
-- with a NaN it does not equal itself
example : equals (fun _ _ => (.panic : Out Unit)) (Ex.t.setVal (gs! "w") 2 (.f64 0x7ff8000000000001#64)).1
    (Ex.t.setVal (gs! "w") 2 (.f64 0x7ff8000000000001#64)).1 = .err .notEqual := by decide +kernel

end Verif
