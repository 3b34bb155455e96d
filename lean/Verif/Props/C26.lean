import Verif.Props.C25
import Verif.Spec.Tree

/-!
# C26 Equals and nested tables
-/

namespace Verif
open Table

/-- The same content all the way down, to depth `k`. -/
def SameTree (H : Heap) : Nat → Addr → Addr → Prop
  | 0, _, _ => False
  | k + 1, a, b => ∃ t1 t2, H[a]? = some t1 ∧ H[b]? = some t2 ∧ SameContent (SameTree H k) t1 t2

/-- In corresponding tables, all the way down, the `*Table` columns stand at the same place. -/
def AlignedTree (H : Heap) : Nat → Addr → Addr → Prop
  | 0, _, _ => True
  | k + 1, a, b => ∀ t1 t2, H[a]? = some t1 → H[b]? = some t2 →
      TableColsAligned t1 t2 ∧ ∀ n r x y, At t1 n r (.tbl (some x)) → At t2 n r (.tbl (some y)) → AlignedTree H k x y

/-- **C26**, restricted to tables whose `*Table` columns stand at the same place (in every level): `Equals` is true exactly if the contents
agree all the way down, whatever the order of the other columns; and it never panics.
Missing: other orders of the `*Table` columns (`C26_false`). -/
theorem C26_partial (H : Heap) (hw : HeapWF H) (rank : Addr → Nat) (hac : Acyclic H rank) (k : Nat) (a b : Addr)
    (hk : rank a < k) (ha : a < H.length) (hb : b < H.length) (hal : AlignedTree H k a b) :
    (equalsAt H k a b = .ok () ↔ SameTree H k a b) ∧ equalsAt H k a b ≠ .panic := by
  induction k generalizing a b with
  | zero => omega
  | succ k ih =>
    have ea : H[a]? = some H[a] := List.getElem?_eq_getElem ha
    have eb : H[b]? = some H[b] := List.getElem?_eq_getElem hb
    obtain ⟨hpl, hsub⟩ := hal _ _ ea eb
    have hnest : ∀ n r x y, At H[a] n r (.tbl (some x)) → At H[b] n r (.tbl (some y)) →
        (equalsAt H k x y = .ok () ↔ SameTree H k x y) ∧ equalsAt H k x y ≠ .panic := by
      intro n r x y hx hy
      obtain ⟨r1, l1⟩ := hac a x ⟨_, n, r, ea, hx⟩
      obtain ⟨_, l2⟩ := hac b y ⟨_, n, r, eb, hy⟩
      exact ih x y (by omega) l1 l2 (hsub n r x y hx hy)
    obtain ⟨h1, h2⟩ := equals_spec (hw _ (List.getElem_mem ha)) (hw _ (List.getElem_mem hb)) (nested := equalsAt H k) (R := SameTree H k)
      (fun n r x y hx hy => (hnest n r x y hx hy).1) hpl
    simp only [equalsAt, ea, eb]
    refine ⟨h1.trans ⟨fun h => ⟨_, _, ea, eb, h⟩, ?_⟩, h2 (fun n r x y hx hy => (hnest n r x y hx hy).2)⟩
    rintro ⟨t1, t2, e1, e2, h⟩
    rw [ea] at e1; rw [eb] at e2
    cases e1; cases e2
    exact h

theorem alignedTree_self (H : Heap) (hw : HeapWF H) (k : Nat) (a : Addr) : AlignedTree H k a a := by
  induction k generalizing a with
  | zero => trivial
  | succ k ih =>
    intro t1 t2 h1 h2
    rw [h1] at h2; cases h2
    have hwf := hw t1 (List.mem_of_getElem? h1)
    refine ⟨fun n i _ h => h, ?_⟩
    intro n r x y hx hy
    have := At_unique hwf hx hy
    cases this
    exact ih x

/-- Every table nested in `a`, down to depth `k`, and `a` itself, is free of NaN. -/
def NoNaNTree (H : Heap) : Nat → Addr → Prop
  | 0, _ => True
  | k + 1, a => ∀ t, H[a]? = some t → NoNaN t ∧ ∀ n r x, At t n r (.tbl (some x)) → NoNaNTree H k x

/-- **C26**, consequence: a NaN-free acyclic table with nested tables equals itself. -/
theorem C26_refl (H : Heap) (hw : HeapWF H) (rank : Addr → Nat) (hac : Acyclic H rank) (k : Nat) (a : Addr)
    (hk : rank a < k) (ha : a < H.length) (hn : NoNaNTree H k a) : equalsAt H k a a = .ok () := by
  refine (C26_partial H hw rank hac k a a hk ha ha (alignedTree_self H hw k a)).1.2 ?_
  induction k generalizing a with
  | zero => omega
  | succ k ih =>
    have ea : H[a]? = some H[a] := List.getElem?_eq_getElem ha
    have hwf := hw _ (List.getElem_mem ha)
    obtain ⟨h1, h2⟩ := hn _ ea
    refine ⟨_, _, ea, ea, rfl, rfl, rfl, fun _ _ => Iff.rfl, ?_⟩
    intro n r x y hx hy
    have hxy := At_unique hwf hx hy
    subst hxy
    obtain ⟨ty, hty, hxt⟩ := hx.hasColT hwf
    cases x with
    | nil => cases ty <;> simp [Cell.HasType] at hxt
    | tbl o => cases o with
      | none => cases ty <;> simp [Cell.HasType] at hxt
      | some b =>
        obtain ⟨r1, l1⟩ := hac a b ⟨_, n, r, ea, hx⟩
        exact ih b (by omega) l1 (h2 n r b hx)
    | f32 b => simp [CellEq, f32Eq, (h1 n r).1 b hx]
    | f64 b => simp [CellEq, f64Eq, (h1 n r).2 b hx]
    | _ => simp [CellEq]

/-! ## The counterexample -/

/-- Addresses 0 and 1 are leaf tables `A` and `B`; 2 is a table with `*Table` columns `p` (holding `A`) and `q` (holding `B`); 3 is the same
table with the columns in the order `q`, `p`. -/
def Ex.leaf (name : GoStr) : Table Addr := Op.run newNilTable [.setName name]

def Ex.nest : Table Addr := Op.run newNilTable
  [.setName (gs! "T"), .appendCol (fun _ _ => 0) (gs! "p") (gs! "*Table"), .appendCol (fun _ _ => 0) (gs! "q") (gs! "*Table"),
   .appendRow (fun _ _ => 0), .setVal (gs! "p") 0 (.tbl (some 0)), .setVal (gs! "q") 0 (.tbl (some 1))]

def Ex.heap : Heap := [Ex.leaf (gs! "A"), Ex.leaf (gs! "B"), Ex.nest, (Ex.nest.reorderCols [gs! "q", gs! "p"]).1]

theorem Ex.leaf_wf (n : GoStr) : WF (Ex.leaf n) := C01_history _ WF.newNilTable _ (by simp [Op.ArgsOK])
theorem Ex.nest_wf : WF Ex.nest := C01_history _ WF.newNilTable _ (by simp [Op.ArgsOK, Cell.Real])

theorem Ex.heap_wf : HeapWF Ex.heap := by
  intro t ht
  simp only [Ex.heap, List.mem_cons, List.not_mem_nil, or_false] at ht
  rcases ht with rfl | rfl | rfl | rfl
  · exact Ex.leaf_wf _
  · exact Ex.leaf_wf _
  · exact Ex.nest_wf
  · exact Ex.nest_wf.reorderCols _

/-- Both nested tables differ only in the column order, so their contents agree. -/
theorem Ex.sameTree : SameTree Ex.heap 2 2 3 := by
  refine ⟨Ex.nest, (Ex.nest.reorderCols [gs! "q", gs! "p"]).1, by rfl, by rfl, ?_⟩
  have hA : SameTree Ex.heap 1 0 0 := by
    refine ⟨_, _, rfl, rfl, rfl, rfl, rfl, fun _ _ => Iff.rfl, ?_⟩
    rintro n r x y ⟨i, row, h1, _⟩
    have : (Ex.leaf (gs! "A")).colNames = [] := by decide +kernel
    rw [this] at h1; simp at h1
  have hB : SameTree Ex.heap 1 1 1 := by
    refine ⟨_, _, rfl, rfl, rfl, rfl, rfl, fun _ _ => Iff.rfl, ?_⟩
    rintro n r x y ⟨i, row, h1, _⟩
    have : (Ex.leaf (gs! "B")).colNames = [] := by decide +kernel
    rw [this] at h1; simp at h1
  rcases reorderCols_cases Ex.nest_wf [gs! "q", gs! "p"] with ⟨σ, _, hσ, _, e⟩ | ⟨hno, _⟩
  · rw [e]
    have hcols := HasColT_reorderTable Ex.nest_wf hσ
    have hat := At_reorderTable Ex.nest_wf hσ
    refine ⟨rfl, rfl, by simp [reorderTable], fun n ty => (hcols n ty).symm, ?_⟩
    intro n r x y hx hy
    have hy' := (hat n r y).1 hy
    have hxy := At_unique Ex.nest_wf hx hy'
    subst hxy
    obtain ⟨i, row, h1, h2, h3⟩ := hx
    have e1 : Ex.nest.rows = [[.tbl (some 0), .tbl (some 1)]] := by decide +kernel
    rw [e1] at h2
    cases r with
    | succ r => simp at h2
    | zero =>
      cases h2
      match i with
      | 0 => cases h3; exact hA
      | 1 => cases h3; exact hB
      | i + 2 => simp at h3
  · exfalso
    apply hno
    have : Ex.nest.colNames = [gs! "p", gs! "q"] := by decide +kernel
    rw [this]
    exact List.Perm.swap _ _ _

/-- **C26 is false of the code**: two tables that differ only in the order of their `*Table` columns are reported as different. -/
theorem C26_false : ¬ (∀ (H : Heap), HeapWF H → ∀ rank, Acyclic H rank → ∀ k a b, rank a < k → a < H.length → b < H.length →
    SameTree H k a b → equalsAt H k a b = .ok ()) := by
  intro hall
  have hac : Acyclic Ex.heap (fun a => if a < 2 then 0 else 1) := by
    have hleaf : ∀ nm : GoStr, (Ex.leaf nm).rows = [] := by
      intro nm
      simp only [Ex.leaf, Op.run, Op.step, setName]
      split <;> rfl
    rintro a b ⟨t, n, r, ha, i, row, h1, h2, h3⟩
    have e1 : Ex.nest.rows = [[.tbl (some 0), .tbl (some 1)]] := by decide +kernel
    have e2 : (Ex.nest.reorderCols [gs! "q", gs! "p"]).1.rows = [[.tbl (some 1), .tbl (some 0)]] := by decide +kernel
    have hlen : Ex.heap.length = 4 := rfl
    match a with
    | 0 => cases ha; rw [hleaf] at h2; simp at h2
    | 1 => cases ha; rw [hleaf] at h2; simp at h2
    | 2 =>
      cases ha
      rw [e1] at h2
      cases r with
      | succ r => simp at h2
      | zero =>
        cases h2
        match i with
        | 0 => cases h3; simp [hlen]
        | 1 => cases h3; simp [hlen]
        | i + 2 => simp at h3
    | 3 =>
      cases ha
      rw [e2] at h2
      cases r with
      | succ r => simp at h2
      | zero =>
        cases h2
        match i with
        | 0 => cases h3; simp [hlen]
        | 1 => cases h3; simp [hlen]
        | i + 2 => simp at h3
    | a + 4 => simp [Ex.heap] at ha
  have h1 := hall Ex.heap Ex.heap_wf _ hac 2 2 3 (by decide) (by decide) (by decide) Ex.sameTree
  revert h1
  decide +kernel

-- with itself the table with nested tables compares as equal
example : equalsAt Ex.heap 2 2 2 = .ok () := by decide +kernel

end Verif
