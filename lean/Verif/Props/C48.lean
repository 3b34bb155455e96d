import Verif.Props.C53

/-!
# C48 CopyDeep
-/

namespace Verif
open Table

variable {σ : Type}

/-- A step that succeeds and keeps `P`. -/
def Always (P : WalkState σ → Prop) (step : WalkStep σ) : Prop := ∀ s, P s → (step s).2 = .ok () ∧ P (step s).1

theorem Always.andThen {P : WalkState σ → Prop} {s1 s2 : WalkStep σ} (h1 : Always P s1) (h2 : Always P s2) : Always P (andThen s1 s2) := by
  intro s hs
  have := h1 s hs
  unfold Verif.andThen
  rcases e : s1 s with ⟨s', (_ | er | _)⟩ <;> rw [e] at this
  · exact h2 s' this.2
  · simp at this
  · simp at this

theorem Always.forEach {ι : Type} {P : WalkState σ → Prop} {f : ι → WalkStep σ} (l : List ι) (h : ∀ i ∈ l, Always P (f i)) :
    Always P (forEach f l) := by
  induction l with
  | nil => intro s hs; exact ⟨rfl, hs⟩
  | cons i is ih =>
    rw [forEach_andThen]
    exact (h i (by simp)).andThen (ih fun j hj => h j (by simp [hj]))

/-- What `CopyDeep` does with a table without nested tables: it returns the receiver itself, not a copy (so C48 fails for every such
table: an edit of the "copy" is an edit of the receiver).
Missing from C48: that the result is a new table, which is false of the code (`C48_false`). -/
theorem C48_partial_flat (H : Heap) (hw : HeapWF H) (d : Nat) (a : Addr) (t : Table Addr) (ht : H[a]? = some t) (hflat : Flat t) :
    copyDeep H (d + 1) a = (H, .ok a) := by
  have hwf := hw t (List.mem_of_getElem? ht)
  have hty : ∀ c : Nat, t.colTypes[c]? ≠ some .table := by
    intro c hc
    have hl : c < t.colNames.length := by rw [← hwf.typesLen]; exact (List.getElem?_eq_some_iff.1 hc).1
    exact hflat _ ⟨c, List.getElem?_eq_getElem hl, hc⟩
  have hall : Always (fun s : WalkState Addr => s.heap = H ∧ s.user = a) (walk (visitCopyDeep (d + 1)) true (d + 1) a) := by
    intro s hs
    unfold walk
    simp only [hs.1, ht]
    refine Always.andThen (P := fun s : WalkState Addr => s.heap = H ∧ s.user = a) (fun s hs => ⟨rfl, hs⟩)
      (Always.forEach _ fun r _ => Always.andThen (fun s hs => ⟨rfl, hs⟩) (Always.forEach _ fun c hc => ?_)) s hs
    intro s hs
    have hcn : c < t.colNames.length := List.mem_range.1 hc
    have hct : c < t.colTypes.length := by rw [hwf.typesLen]; exact hcn
    have ect := List.getElem?_eq_getElem hct
    have ecn : t.colName (c : Int) = .ok t.colNames[c] := colName_nat (List.getElem?_eq_getElem hcn)
    have hne : ¬ (true = true ∧ t.colTypes[c] = .table) := by
      rintro ⟨_, h⟩; exact hty c (by rw [ect, h])
    have e : walkCell (visitCopyDeep (d + 1)) true (walk (visitCopyDeep (d + 1)) true d) a r c s = ({ s with user := a }, .ok ()) := by
      have hv : visitCopyDeep (d + 1) (.cell a c r) s = ({ s with user := a }, .ok ()) := by
        simp only [visitCopyDeep, hs.1, ht, hty c, if_false]
      simp only [walkCell, hs.1, ht, ect, ecn]
      rw [if_neg (fun h => hne ⟨rfl, h.2⟩)]
      simp only [andThen, hv, hs.1]
    rw [e]
    exact ⟨rfl, hs.1, rfl⟩
  obtain ⟨h1, h2, h3⟩ := hall ⟨H, [], a⟩ ⟨rfl, rfl⟩
  unfold copyDeep
  rcases e : walk (visitCopyDeep (d + 1)) true (d + 1) a ⟨H, [], a⟩ with ⟨s', o⟩
  rw [e] at h1 h2 h3
  subst h1
  simp only at h2 h3 ⊢
  rw [h2, h3]

/-- A table with a number in it, and a table holding that table. -/
def Ex.numLeaf : Table Addr := Op.run newNilTable
  [.setName (gs! "A"), .appendCol (fun _ _ => 0) (gs! "i") (gs! "int"), .appendRow (fun _ _ => 0)]

def Ex.numTree : Heap := [Ex.numLeaf, Ex.holder 0]

theorem Ex.numTree_wf : HeapWF Ex.numTree := by
  intro t ht
  simp only [Ex.numTree, List.mem_cons, List.not_mem_nil, or_false] at ht
  rcases ht with rfl | rfl
  · exact C01_history _ WF.newNilTable _ (by simp [Op.ArgsOK])
  · exact Ex.holder_wf _

theorem Ex.numTree_holds {a b : Addr} {c r : Nat} (h : HoldsAt Ex.numTree a c r b) : a = 1 ∧ b = 0 ∧ c = 0 ∧ r = 0 := by
  obtain ⟨t, h1, h2⟩ := h
  have e0 : Ex.numLeaf.rows = [[.int .int 0]] := by decide +kernel
  have e1 : (Ex.holder 0).rows = [[.tbl (some 0)]] := by decide +kernel
  obtain ⟨row, h3, h4⟩ := nestedAt_some.1 h2
  match a with
  | 0 =>
    cases h1; rw [e0] at h3
    cases r with
    | succ r => simp at h3
    | zero =>
      cases h3
      match c with
      | 0 => cases h4
      | c + 1 => simp at h4
  | 1 =>
    cases h1; rw [e1] at h3
    cases r with
    | succ r => simp at h3
    | zero =>
      cases h3
      match c with
      | 0 => cases h4; simp
      | c + 1 => simp at h4
  | a + 2 => simp [Ex.numTree] at h1

theorem Ex.numTree_acyclic : Acyclic Ex.numTree (fun a => a) := by
  intro a b h
  obtain ⟨c, r, h⟩ := (nestedIn_iff Ex.numTree_wf).1 h
  obtain ⟨rfl, rfl, rfl, rfl⟩ := Ex.numTree_holds h
  decide

/-- **C48 is false of the code**: the table returned need not be a copy of the receiver.  Here the receiver `T` holds the table `A`;
`CopyDeep` returns a table named `A`. -/
theorem C48_false : ¬ (∀ (H : Heap), HeapWF H → ∀ rank, Acyclic H rank → ∀ d a t, H.length + 2 ≤ d → H[a]? = some t →
    ∃ H' c t', copyDeep H d a = (H', .ok c) ∧ H'[c]? = some t' ∧ t'.name = t.name) := by
  intro hall
  obtain ⟨H', c, t', h1, h2, h3⟩ := hall Ex.numTree Ex.numTree_wf _ Ex.numTree_acyclic 4 1 _ (by decide) rfl
  have e1 : (copyDeep Ex.numTree 4 1).2 = .ok 2 := by decide +kernel
  have e2 : ((copyDeep Ex.numTree 4 1).1[2]?.map Table.name) = some (gs! "A") := by decide +kernel
  have e3 : (Ex.holder 0).name = gs! "T" := by decide +kernel
  rw [h1] at e1 e2
  cases e1
  rw [h2, Option.map_some, h3, e3] at e2
  revert e2
  decide

/-- **C48 is false of the code**: the receiver does not stay unchanged; its cell now holds another table. -/
theorem C48_false_receiver : ¬ (∀ (H : Heap), HeapWF H → ∀ rank, Acyclic H rank → ∀ d a, H.length + 2 ≤ d → a < H.length →
    ((copyDeep H d a).1[a]?.map Table.rows) = (H[a]?.map Table.rows)) := by
  intro hall
  have := hall Ex.numTree Ex.numTree_wf _ Ex.numTree_acyclic 4 1 (by decide) (by decide)
  revert this
  decide +kernel

/-- **C48 is false of the code**: the result need not be a new table. -/
theorem C48_false_fresh : ¬ (∀ (H : Heap), HeapWF H → ∀ rank, Acyclic H rank → ∀ d a c, H.length + 2 ≤ d → a < H.length →
    (copyDeep H d a).2 = .ok c → H.length ≤ c) := by
  intro hall
  have := hall Ex.numTree Ex.numTree_wf _ Ex.numTree_acyclic 4 0 0 (by decide) (by decide) (by decide +kernel)
  revert this
  decide

end Verif
