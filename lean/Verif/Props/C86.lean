import Verif.Lemmas.Shuffle
import Verif.Props.C14

/-!
# C86: shuffling is fair

`rand.Shuffle` draws, for each row `i`, a number from 0 to `i`.  Each order of the rows comes from exactly one sequence of draws, so if
all sequences of draws are equally likely, so are all orders.
-/

namespace Verif
open Table

variable {τ : Type}

/-- What the random source may return while `n` rows are shuffled: for each row a number not above its index. -/
def Draws (n : Nat) : Type := (i : Fin n) → Fin (i.val + 1)

/-- The draws, as the model takes them. -/
def Draws.choose {n : Nat} (d : Draws n) (i : Nat) : Nat := if h : i < n then (d ⟨i, h⟩).val else 0

/-- The draws `d` put the rows of every table into the order `σ`: row `σ₀` first, then row `σ₁`, and so on; nothing else changes. -/
def Draws.Gives {n : Nat} (τ : Type) (d : Draws n) (σ : List Nat) : Prop :=
  ∀ t : Table τ, t.rows.length = n → t.shuffle d.choose = ({ t with rows := σ.filterMap (fun i => t.rows[i]?) }, .ok ())

/-- The order that draws give, as positions. -/
theorem shuffle_positions (c : Nat → Nat) (t : Table τ) {σ : List Nat} (h : shuffleLoop c (t.rows.length - 1) (List.range t.rows.length) = some σ) :
    t.shuffle c = ({ t with rows := σ.filterMap (fun i => t.rows[i]?) }, .ok ()) := by
  obtain ⟨rows, h1, _⟩ := shuffleLoop_some c (t.rows.length - 1) t.rows (by omega)
  have e0 : t.rows.map some = (List.range t.rows.length).map (fun i => t.rows[i]?) := by
    apply List.ext_getElem?
    intro k
    by_cases hk : k < t.rows.length
    · simp [hk]
    · simp [show t.rows.length ≤ k by omega]
  have e1 := shuffleLoop_map some c (t.rows.length - 1) t.rows
  rw [e0, shuffleLoop_map, h, h1] at e1
  have e2 : σ.map (fun i => t.rows[i]?) = rows.map some := Option.some.inj e1
  have e3 : σ.filterMap (fun i => t.rows[i]?) = rows := by
    have := congrArg (List.filterMap id) e2
    simpa [List.filterMap_map, Function.comp_def] using this
  rw [e3]
  simp only [Table.shuffle, h1]

/-- **C86**, draws decide: whatever is drawn, the rows of all tables of that size are put into one and the same order. -/
theorem C86_order (τ : Type) {n : Nat} (d : Draws n) : ∃ σ : List Nat, σ.Perm (List.range n) ∧ d.Gives τ σ := by
  obtain ⟨σ, h1, h2⟩ := shuffleLoop_some d.choose (n - 1) (List.range n) (by simp; omega)
  refine ⟨σ, h2, fun t ht => ?_⟩
  subst ht
  exact shuffle_positions _ t h1

/-- Two sequences of draws that agree on one table with distinct rows are the same. -/
theorem C86_unique {n : Nat} (d d' : Draws n) (t : Table τ) (ht : t.rows.length = n) (hnd : t.rows.Nodup) (h : t.shuffle d.choose = t.shuffle d'.choose) :
    d = d' := by
  obtain ⟨rows, h1, _⟩ := shuffleLoop_some d.choose (t.rows.length - 1) t.rows (by omega)
  obtain ⟨rows', h2, _⟩ := shuffleLoop_some d'.choose (t.rows.length - 1) t.rows (by omega)
  have e : rows = rows' := by
    simp only [Table.shuffle, h1, h2] at h
    have := congrArg (fun x => x.1.rows) h
    exact this
  subst e
  have key := shuffleLoop_unique (t.rows.length - 1) t.rows rows (by omega) hnd h1 h2
  funext i
  apply Fin.ext
  have hi := i.isLt
  by_cases h0 : i.val = 0
  · have a := (d i).isLt
    have b := (d' i).isLt
    omega
  · have := key i.val (by omega) (by omega)
    simp only [Draws.choose, hi, dif_pos] at this
    rw [Nat.mod_eq_of_lt (d i).isLt, Nat.mod_eq_of_lt (d' i).isLt] at this
    exact this

/-- A table with `n` distinct rows. -/
def countTable (τ : Type) (n : Nat) : Table τ := { (newNilTable : Table τ) with rows := (List.range n).map (fun (i : Nat) => [Cell.int .int (i : Int)]) }

theorem countTable_nodup (τ : Type) (n : Nat) : (countTable τ n).rows.Nodup := by
  refine List.Pairwise.map _ ?_ (List.nodup_range (n := n))
  intro a b hab e
  simp at e
  exact hab (by omega)

/-- **C86.** Every order of `n` rows is given by exactly one sequence of draws. -/
theorem C86_fair (τ : Type) (n : Nat) (σ : List Nat) (hσ : σ.Perm (List.range n)) :
    ∃ d : Draws n, d.Gives τ σ ∧ ∀ d' : Draws n, d'.Gives τ σ → d' = d := by
  obtain ⟨c, hc, h⟩ := shuffleLoop_reach (n - 1) (List.range n) σ (by simp; omega) List.nodup_range hσ (by
    intro k hk
    have := hσ.length_eq
    simp at this
    rw [List.getElem?_eq_none (by omega), List.getElem?_eq_none (by simp; omega)])
  refine ⟨fun i => ⟨c i.val, Nat.lt_succ_of_le (hc i.val)⟩, ?_, ?_⟩
  · intro t ht
    subst ht
    refine shuffle_positions _ t ?_
    rw [← h]
    refine shuffleLoop_congr (fun k h0 hk => ?_) _
    simp [Draws.choose, show k < t.rows.length by omega]
  · intro d' hd'
    have hg : Draws.Gives τ (fun i => ⟨c i.val, Nat.lt_succ_of_le (hc i.val)⟩ : Draws n) σ := by
      intro t ht
      subst ht
      refine shuffle_positions _ t ?_
      rw [← h]
      refine shuffleLoop_congr (fun k h0 hk => ?_) _
      simp [Draws.choose, show k < t.rows.length by omega]
    have hl : (countTable τ n).rows.length = n := by simp [countTable]
    exact C86_unique d' _ (countTable τ n) hl (countTable_nodup τ n) ((hd' _ hl).trans (hg _ hl).symm)

/-- **C86**, for the rows themselves: every arrangement of the rows of a table can come out, also if rows repeat. -/
theorem C86_all (t : Table τ) (rows : List (List (Cell τ))) (hp : rows.Perm t.rows) :
    ∃ d : Draws t.rows.length, t.shuffle d.choose = ({ t with rows := rows }, .ok ()) := by
  have key : ∀ (l p : List (List (Cell τ))), p.Perm l → ∃ σ : List Nat, σ.Perm (List.range l.length) ∧ σ.filterMap (fun i => l[i]?) = p := by
    intro l p h
    induction h with
    | nil => exact ⟨[], by simp, rfl⟩
    | @cons a l1 l2 h ih =>
      obtain ⟨σ, h1, h2⟩ := ih
      refine ⟨0 :: σ.map (· + 1), ?_, ?_⟩
      · rw [List.length_cons, List.range_succ_eq_map]
        exact (h1.map _).cons 0
      · simp only [List.filterMap_cons, List.getElem?_cons_zero, List.filterMap_map, Function.comp_def, List.getElem?_cons_succ, h2]
    | swap a b l =>
      refine ⟨1 :: 0 :: (List.range l.length).map (· + 2), ?_, ?_⟩
      · have : List.range (l.length + 1 + 1) = 0 :: 1 :: (List.range l.length).map (· + 2) := by
          rw [List.range_succ_eq_map, List.range_succ_eq_map]
          simp [Function.comp_def]
        simp only [List.length_cons, this]
        exact List.Perm.swap 0 1 _
      · have : (List.range l.length).filterMap (fun i => l[i]?) = l := by
          have e : (List.range l.length).map (fun i => l[i]?) = l.map some := by
            apply List.ext_getElem?
            intro k
            by_cases hk : k < l.length
            · simp [hk]
            · simp [show l.length ≤ k by omega]
          have := congrArg (List.filterMap id) e
          simpa [List.filterMap_map, Function.comp_def] using this
        simp [List.filterMap_map, Function.comp_def, this]
    | @trans l1 l2 l3 h12 h23 ih1 ih2 =>
      obtain ⟨σ, h1, h2⟩ := ih1
      obtain ⟨ρ, g1, g2⟩ := ih2
      refine ⟨σ.filterMap (fun i => ρ[i]?), ?_, ?_⟩
      · have hlen : ρ.length = l2.length := by rw [h23.length_eq]; simpa using g1.length_eq
        rw [← hlen] at h1
        have : ((List.range ρ.length).filterMap (fun i => ρ[i]?)) = ρ := by
          have e : (List.range ρ.length).map (fun i => ρ[i]?) = ρ.map some := by
            apply List.ext_getElem?
            intro k
            by_cases hk : k < ρ.length
            · simp [hk]
            · simp [show ρ.length ≤ k by omega]
          have := congrArg (List.filterMap id) e
          simpa [List.filterMap_map, Function.comp_def] using this
        have hp := h1.filterMap (fun i => ρ[i]?)
        rw [this] at hp
        exact hp.trans g1
      · have hall : ∀ i ∈ ρ, i < l3.length := fun i hi => by simpa using g1.mem_iff.1 hi
        have e : ∀ i : Nat, (ρ[i]?.bind fun j => l3[j]?) = l2[i]? := by
          have hm : ρ.map (fun j => l3[j]?) = l2.map some := by
            rw [← g2, List.map_filterMap]
            have : ∀ l : List Nat, (∀ i ∈ l, i < l3.length) → l.map (fun j => l3[j]?) = l.filterMap (fun x => Option.map some l3[x]?) := by
              intro l hl
              induction l with
              | nil => rfl
              | cons a l ih =>
                have ha := hl a (by simp)
                simp only [List.map_cons, List.filterMap_cons, List.getElem?_eq_getElem ha, Option.map_some]
                rw [ih (fun i hi => hl i (by simp [hi]))]
            exact this ρ hall
          intro i
          have := congrArg (fun l => l[i]?.join) hm
          simp only [List.getElem?_map] at this
          cases hρ : ρ[i]? <;> cases hl2 : l2[i]? <;> simp [hρ, hl2] at this ⊢ <;> exact this
        rw [List.filterMap_filterMap]
        simp only [e]
        exact h2
  obtain ⟨σ, h1, h2⟩ := key t.rows rows hp
  obtain ⟨d, h3, _⟩ := C86_fair τ t.rows.length σ h1
  exact ⟨d, by rw [h3 t rfl, h2]⟩

/-! ## Examples -/

/-- Draws for three rows: the last row is exchanged with row 0, then row 1 with itself. -/
def Ex.draws : Draws 3 := fun i => ⟨if i.val = 2 then 0 else i.val, by split <;> omega⟩

example : (Ex.t.shuffle Ex.draws.choose).1.rows.map (·.head?) = [some (.str (gs! "cy")), some (.str (gs! "Al")), some (.str (gs! "bob"))] := by
  decide +kernel
example : ∃ d : Draws 3, d.Gives Unit [1, 2, 0] ∧ ∀ d' : Draws 3, d'.Gives Unit [1, 2, 0] → d' = d := C86_fair Unit 3 [1, 2, 0] (by decide +kernel)
example : ∃ d : Draws 3, Ex.t.shuffle d.choose = ({ Ex.t with rows := Ex.t.rows.reverse }, .ok ()) := C86_all Ex.t _ (List.reverse_perm _)
example : Ex.t.rows.Nodup := by decide +kernel

end Verif
