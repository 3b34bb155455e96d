import Verif.Model.CircRef
import Verif.Lemmas.Nesting

/-!
# Walks with the errors of the visitor
-/

namespace Verif
open Table

variable {σ ρ : Type}

/-! ## Walks with more variables -/

/-- The state with the variables `f` makes of them. -/
def mapUser (f : σ → ρ) (s : WalkState σ) : WalkState ρ := ⟨s.heap, s.safe, f s.user⟩

/-- The second step does what the first does, seen through `f`. -/
def Sim (f : σ → ρ) (g : WalkStep σ) (h : WalkStep ρ) : Prop := ∀ s, h (mapUser f s) = (mapUser f (g s).1, (g s).2)

theorem Sim.id (f : σ → ρ) : Sim f (fun s => (s, .ok ())) (fun s => (s, .ok ())) := fun _ => rfl

theorem Sim.andThen {f : σ → ρ} {g1 g2 : WalkStep σ} {h1 h2 : WalkStep ρ} (a : Sim f g1 h1) (b : Sim f g2 h2) :
    Sim f (andThen g1 g2) (andThen h1 h2) := by
  intro s
  unfold Verif.andThen
  rw [a s]
  rcases e : g1 s with ⟨s', (_ | er | _)⟩
  · exact b s'
  · rfl
  · rfl

theorem Sim.forEach {ι : Type} {f : σ → ρ} {g : ι → WalkStep σ} {h : ι → WalkStep ρ} (a : ∀ i, Sim f (g i) (h i)) (l : List ι) :
    Sim f (forEach g l) (forEach h l) := by
  induction l with
  | nil => exact fun _ => rfl
  | cons i is ih => rw [forEach_andThen, forEach_andThen]; exact (a i).andThen ih

theorem Sim.nested {f : σ → ρ} {g : Addr → WalkStep σ} {h : Addr → WalkStep ρ} (hs : ∀ b, Sim f (g b) (h b)) (a : Addr) (c r : Nat) :
    Sim f (walkNested g a c r) (walkNested h a c r) := by
  intro s
  unfold walkNested
  show (match s.heap[a]? with | none => _ | some table => _) = _
  cases s.heap[a]? with
  | none => rfl
  | some t =>
    dsimp only
    rcases t.getTypedByColIndex .table c r with x | e | _
    · cases x with
      | tbl o =>
        cases o with
        | none => rfl
        | some b =>
          dsimp only
          show (match s.heap[b]? with | none => _ | some n => _) = _
          cases s.heap[b]? with
          | none => rfl
          | some n =>
            dsimp only
            by_cases h1 : n.isNilTable = false
            · rw [if_pos h1, if_pos h1]
              by_cases h2 : b ∈ s.safe
              · rw [if_pos (show b ∈ (mapUser f s).safe from h2), if_pos h2]
              · rw [if_neg (show ¬ b ∈ (mapUser f s).safe from h2), if_neg h2]
                exact hs b { s with safe := b :: s.safe }
            · rw [if_neg h1, if_neg h1]
              exact hs b s
      | _ => rfl
    · rfl
    · rfl

theorem Sim.walk {f : σ → ρ} {v : Event → WalkStep σ} {w : Event → WalkStep ρ} (hv : ∀ e, Sim f (v e) (w e)) (deep : Bool) (d : Nat) (a : Addr) :
    Sim f (walk v deep d a) (walk w deep d a) := by
  induction d generalizing a with
  | zero => exact fun _ => rfl
  | succ d ih =>
    intro s
    unfold Verif.walk
    show (match s.heap[a]? with | none => _ | some table => _) = _
    cases s.heap[a]? with
    | none => rfl
    | some t =>
      refine ((hv _).andThen (Sim.forEach (fun r => (hv _).andThen (Sim.forEach (fun c => ?_) _)) _)) s
      intro s
      unfold walkCell
      show (match s.heap[a]? with | none => _ | some table => _) = _
      cases s.heap[a]? with
      | none => rfl
      | some t =>
        dsimp only
        cases t.colTypes[c]? with
        | none => rfl
        | some ty =>
          dsimp only
          rcases t.colName c with x | e | _
          · refine ((hv _).andThen ?_) s
            split
            · exact Sim.nested ih a c r
            · exact Sim.id f
          · rfl
          · rfl

/-- The visitor that keeps its errors does what the other does. -/
theorem sim_nesting (root : Addr) (e : Event) : Sim Prod.fst (visitNestingErr root e) (visitNesting root e) := by
  rintro ⟨H, safe, u, o⟩
  cases e with
  | table a => rfl
  | row a r => rfl
  | cell a c r =>
    simp only [visitNestingErr, visitNesting, mapUser]
    cases H[a]? with
    | none => rfl
    | some t =>
      dsimp only
      by_cases h : t.colTypes[c]? = some .table
      · simp only [h, if_true]
        cases H[root]? with
        | none => rfl
        | some rt =>
          dsimp only
          rcases rt.getTypedByColIndex .table c r with x | e | _
          · cases x with
            | tbl x =>
              cases x with
              | none => rfl
              | some b =>
                dsimp only
                by_cases h2 : b ∈ u
                · simp only [h2, if_true]
                · simp only [h2, if_false]
            | _ => rfl
          · rfl
          · rfl
      · simp only [h, if_false]

/-! ## What a walk keeps, however it ends -/

/-- A step that keeps `P`, also if it fails. -/
def Stays (P : WalkState σ → Prop) (step : WalkStep σ) : Prop := ∀ s, P s → P (step s).1

theorem Stays.andThen {P : WalkState σ → Prop} {s1 s2 : WalkStep σ} (h1 : Stays P s1) (h2 : Stays P s2) : Stays P (andThen s1 s2) := by
  intro s hs
  have := h1 s hs
  unfold Verif.andThen
  rcases e : s1 s with ⟨s', (_ | er | _)⟩ <;> rw [e] at this
  · exact h2 s' this
  · exact this
  · exact this

theorem Stays.forEach {ι : Type} {P : WalkState σ → Prop} {f : ι → WalkStep σ} (h : ∀ i, Stays P (f i)) (l : List ι) : Stays P (forEach f l) := by
  induction l with
  | nil => intro s hs; exact hs
  | cons i is ih => rw [forEach_andThen]; exact (h i).andThen ih

theorem Stays.walk {P : WalkState σ → Prop} (hsafe : ∀ s l, P s → P { s with safe := l }) {v : Event → WalkStep σ} (hv : ∀ e, Stays P (v e))
    (deep : Bool) (d : Nat) (a : Addr) : Stays P (walk v deep d a) := by
  induction d generalizing a with
  | zero => exact fun _ hs => hs
  | succ d ih =>
    intro s hs
    unfold Verif.walk
    cases s.heap[a]? with
    | none => exact hs
    | some t =>
      refine ((hv _).andThen (Stays.forEach (fun r => (hv _).andThen (Stays.forEach (fun c => ?_) _)) _)) s hs
      intro s hs
      unfold walkCell
      split
      · exact hs
      · split
        · exact hs
        · split
          · exact hs
          · exact hs
          · refine ((hv _).andThen ?_) s hs
            split
            · intro s hs
              unfold walkNested
              split
              · exact hs
              · split
                · exact hs
                · exact hs
                · split
                  · exact hs
                  · split
                    · split
                      · exact hs
                      · exact ih _ _ (hsafe s _ hs)
                    · exact ih _ _ hs
                · exact hs
            · exact fun s hs => hs

/-! ## Steps that succeed and lead on, or fail in a known way -/

/-- From `I` the step succeeds and gives `J`, or returns an error and gives `Q`. -/
def Leads (I J Q : WalkState σ → Prop) (step : WalkStep σ) : Prop :=
  ∀ s, I s → ((step s).2 = .ok () ∧ J (step s).1) ∨ ((∃ e, (step s).2 = .err e) ∧ Q (step s).1)

theorem Leads.andThen {I J K Q : WalkState σ → Prop} {s1 s2 : WalkStep σ} (h1 : Leads I J Q s1) (h2 : Leads J K Q s2) :
    Leads I K Q (andThen s1 s2) := by
  intro s hs
  have := h1 s hs
  unfold Verif.andThen
  rcases e : s1 s with ⟨s', (_ | er | _)⟩ <;> rw [e] at this
  · rcases this with h | ⟨⟨_, h⟩, _⟩
    · exact h2 s' h.2
    · cases h
  · rcases this with h | h
    · cases h.1
    · exact .inr ⟨⟨er, rfl⟩, h.2⟩
  · rcases this with h | ⟨⟨_, h⟩, _⟩
    · cases h.1
    · cases h

theorem Leads.range {I : Nat → WalkState σ → Prop} {Q : WalkState σ → Prop} {f : Nat → WalkStep σ} (n : Nat)
    (h : ∀ i, i < n → Leads (I i) (I (i + 1)) Q (f i)) : Leads (I 0) (I n) Q (forEach f (List.range n)) := by
  induction n with
  | zero => exact fun s hs => .inl ⟨rfl, hs⟩
  | succ n ih =>
    have e : forEach f (List.range (n + 1)) = Verif.andThen (forEach f (List.range n)) (f n) := by
      funext s
      rw [List.range_succ, forEach_append]
      unfold Verif.andThen
      rcases forEach f (List.range n) s with ⟨s', (_ | er | _)⟩
      · simp only [forEach]
        rcases f n s' with ⟨s'', (_ | er | _)⟩ <;> rfl
      · rfl
      · rfl
    rw [e]
    exact (ih fun i hi => h i (by omega)).andThen (h n (by omega))

theorem Leads.imp {I I' J J' Q : WalkState σ → Prop} {step : WalkStep σ} (h : Leads I J Q step) (hi : ∀ s, I' s → I s) (hj : ∀ s, J s → J' s) :
    Leads I' J' Q step := fun s hs => (h s (hi s hs)).imp (fun h => ⟨h.1, hj _ h.2⟩) (fun h => h)

end Verif
