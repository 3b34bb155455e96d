import Verif.Props.C27
import Verif.Props.C70

/-!
# C27 A copy is independent of the original
-/

namespace Verif
open Table

variable {τ : Type}

/-- The calls that `Copy` consists of (gotables.go:3625-3712), making the table `n` a copy of `src`. -/
def copyCalls (nt : Nat → Nat → τ) (src : Table τ) (n : Nat) : List (Call τ) :=
  [.new, .op n (.setName src.name), .op n (.appendColsFromTable nt src), .op n (.appendRowsFromTable nt src 0 ((src.rowCount : Int) - 1))]

theorem applyAll_append (vs : List (Table τ)) (a b : List (Call τ)) : Call.applyAll vs (a ++ b) = Call.applyAll (Call.applyAll vs a) b := List.foldl_append

theorem apply_last (vs : List (Table τ)) (t : Table τ) (o : Op τ) : Call.apply (vs ++ [t]) (.op vs.length o) = vs ++ [(o.step t).1] := by
  simp only [Call.apply]
  rw [List.getElem?_append_right (Nat.le_refl _), Nat.sub_self]
  simp

theorem copyCalls_eq (nt : Nat → Nat → τ) (vs : List (Table τ)) (src : Table τ) (t' : Table τ) (h : src.copyBody nt = .ok t') :
    Call.applyAll vs (copyCalls nt src vs.length) = vs ++ [t'] := by
  unfold copyCalls Call.applyAll
  simp only [List.foldl_cons, List.foldl_nil]
  rw [show Call.apply vs .new = vs ++ [newNilTable] from rfl, apply_last, apply_last, apply_last]
  congr 2
  unfold copyBody copyColsBody newTable at h
  simp only [Op.step]
  rcases h0 : (newNilTable : Table τ).setName src.name with ⟨t0, o0⟩
  rw [h0] at h
  cases o0 with
  | err e => cases h
  | panic => cases h
  | ok _ =>
    simp only [Out.bind] at h
    rcases h1 : t0.appendColsFromTable nt src with ⟨t1, o1⟩
    rw [h1] at h
    cases o1 with
    | err e => cases h
    | panic => cases h
    | ok _ =>
      simp only at h
      dsimp only
      split at h
      · rcases h2 : t1.appendRowsFromTable nt src 0 ((src.rowCount : Int) - 1) with ⟨t2, o2⟩
        rw [h2] at h
        cases o2 with
        | err e => cases h
        | panic => cases h
        | ok _ => cases h; rfl
      · rename_i hrc
        cases h
        unfold appendRowsFromTable
        split
        · rfl
        · split
          · rfl
          · have : ((src.rowCount : Int) - 1 - 0 + 1).toNat = 0 := by omega
            rw [this]
            rfl

/-- **C27**, independence: after `Copy`, calls to other tables than the original (to the copy, say) leave the original as it is, and calls to other tables than
the copy (to the original, say) leave the copy with the name, columns, types and rows that the original had when it was copied. -/
theorem C27_independent (spare : Nat → Nat) (nt : Nat → Nat → τ) (w w' : World τ) (vs : List (Table τ)) (hs : w.Shows vs) (hsep : w.Separate) (j : Nat) (src : Table τ)
    (hsrc : vs[j]? = some src) (hwf : WF src) (hnil : src.isNilTable = false) (later : List (Call τ))
    (hw : Call.Run spare w vs (copyCalls nt src vs.length ++ later) w') :
    ((∀ c ∈ later, c.NotTo j) → ∃ t, w'.tables[j]? = some t ∧ Rep w'.store t src) ∧
    ((∀ c ∈ later, c.NotTo vs.length) → ∃ t v, w'.tables[vs.length]? = some t ∧ Rep w'.store t v ∧ Extract src src.name src.rows v) := by
  obtain ⟨v, hv, hx⟩ := (C27_copyBody nt src hwf).1 hnil
  have hg := run_good hw ⟨hs, hsep⟩
  rw [applyAll_append, copyCalls_eq nt vs src v hv] at hg
  have hj := (List.getElem?_eq_some_iff.1 hsrc).1
  constructor
  · intro hn
    refine hg.rep (applyAll_other later ?_ hn)
    rw [List.getElem?_append_left hj]
    exact hsrc
  · intro hn
    have : (vs ++ [v])[vs.length]? = some v := by
      rw [List.getElem?_append_right (Nat.le_refl _), Nat.sub_self]
      rfl
    obtain ⟨t, h1, h2⟩ := hg.rep (applyAll_other later this hn)
    exact ⟨t, v, h1, h2, hx⟩

-- the table of three rows, copied, and a row of the copy deleted
example : ∃ w, Call.Run (fun n => n) World.empty [] (.new :: Ex.ops.map (.op 0) ++ (copyCalls (fun _ _ => ()) Ex.t 1 ++ [.op 1 (.deleteRow 0)])) w := by
  refine (C70_memory (fun n => n) _ ?_).1
  repeat' constructor
  all_goals decide

example (w : World Unit) (hs : w.Shows [Ex.t]) (hsep : w.Separate) :
    ∃ w', Call.Run (fun n => n) w [Ex.t] (copyCalls (fun _ _ => ()) Ex.t 1 ++ [.op 1 (.deleteRow 0)]) w' ∧ ∃ t, w'.tables[0]? = some t ∧ Rep w'.store t Ex.t := by
  have hin : Call.InRange 1 (copyCalls (fun _ _ => ()) Ex.t 1 ++ [.op 1 (.deleteRow 0)]) := by
    repeat' constructor
    all_goals decide
  obtain ⟨w', h⟩ := (C70_keeps (fun n => n) w [Ex.t] hs hsep _ hin).1
  refine ⟨w', h, (C27_independent (fun n => n) (fun _ _ => ()) w w' [Ex.t] hs hsep 0 Ex.t rfl Ex.wf (by decide +kernel) _ h).1 ?_⟩
  intro c hc
  cases hc with
  | head => exact (by decide : (1 : Nat) ≠ 0)
  | tail _ h => cases h

end Verif
