import Verif.Lemmas.SlicesStep
import Verif.Lemmas.SlicesWrites
import Verif.Props.C01

/-!
# C70 No two tables share memory
-/

namespace Verif
open Table

variable {τ : Type}

theorem run_good {spare : Nat → Nat} {w w' : World τ} {vs : List (Table τ)} {calls : List (Call τ)} (hr : Call.Run spare w vs calls w') : w.Good vs → w'.Good (Call.applyAll vs calls) := by
  induction hr with
  | done => exact id
  | new _ ih => intro h; exact ih h.new
  | @op w vs cs w1 w' i o v ps hv hp hs _ ih =>
    intro h
    obtain ⟨w2, h1, h2⟩ := h.steps spare hv hp
    rw [hs] at h1
    cases h1
    have := ih h2
    have e : Call.applyAll vs (.op i o :: cs) = Call.applyAll (vs.set i (o.step v).1) cs := by
      unfold Call.applyAll
      rw [List.foldl_cons]
      simp only [Call.apply, hv]
    rw [e]
    exact this

theorem run_exists (spare : Nat → Nat) : ∀ (calls : List (Call τ)) {w : World τ} {vs : List (Table τ)}, w.Good vs → Call.InRange vs.length calls → ∃ w', Call.Run spare w vs calls w'
  | [], w, vs, _, _ => ⟨w, .done⟩
  | .new :: cs, w, vs, h, hr => by
    obtain ⟨w', h'⟩ := run_exists spare cs h.new (by rw [List.length_append]; exact hr)
    exact ⟨w', .new h'⟩
  | .op i o :: cs, w, vs, h, hr => by
    have hi : i < vs.length := hr.1
    have hv := List.getElem?_eq_getElem hi
    obtain ⟨ps, hp⟩ := Writes.op vs[i] o
    obtain ⟨w1, h1, h2⟩ := h.steps spare hv hp
    obtain ⟨w', h'⟩ := run_exists spare cs h2 (by rw [List.length_set]; exact hr.2)
    exact ⟨w', .op hv hp h1 h'⟩

/-- **C70**: whatever calls a program makes, and however a slice that has no room grows, the calls can be made in memory; and however they are made, the tables
then contain what they would contain if each were a value of its own, and no two of them (and no two rows) use the same array. -/
theorem C70_memory (spare : Nat → Nat) (calls : List (Call τ)) (hr : Call.InRange 0 calls) :
    (∃ w, Call.Run spare World.empty [] calls w) ∧
    ∀ w, Call.Run spare World.empty [] calls w → w.Shows (Call.applyAll [] calls) ∧ w.Separate := by
  have h0 : (World.empty : World τ).Good [] := by
    refine ⟨trivial, ?_⟩
    have hn : ∀ (i : Nat) (t : MTable τ), (World.empty : World τ).tables[i]? ≠ some t := by
      intro i t h
      cases h
    exact ⟨fun _ _ _ _ h => absurd h (hn _ _), fun _ _ _ _ h => absurd h (hn _ _), fun _ _ _ _ h => absurd h (hn _ _), fun _ _ _ _ h => absurd h (hn _ _),
      fun _ _ _ _ h => absurd h (hn _ _), fun _ _ _ h => absurd h (hn _ _), fun _ _ _ _ _ _ h => absurd h (hn _ _)⟩
  refine ⟨run_exists spare calls h0 hr, fun w hw => ?_⟩
  have := run_good hw h0
  exact ⟨this.shows, this.separate⟩

/-- A program: the table of three rows, a second table, one of whose columns is deleted and two rows of which are swapped, and another column of the first. -/
def Ex.calls : List (Call Unit) :=
  .new :: Ex.ops.map (.op 0) ++ [.new, .op 1 (.setName (gs! "U")), .op 1 (.appendColsFromTable (fun _ _ => ()) Ex.t), .op 1 (.appendRowsFromTable (fun _ _ => ()) Ex.t 0 2),
    .op 1 (.deleteColByColIndex 0), .op 1 .reverse, .op 0 (.appendCol (fun _ _ => ()) (gs! "extra") (gs! "int"))]

theorem Ex.calls_inRange : Call.InRange 0 Ex.calls := by
  repeat' constructor
  all_goals decide

-- both tables have three rows in the end, and the first has one more column than before
example : (Call.applyAll [] Ex.calls).map (fun t => (t.rows.length, t.colNames.length, Ex.t.colNames.length)) = [(3, Ex.t.colNames.length + 1, Ex.t.colNames.length), (3, Ex.t.colNames.length - 1, Ex.t.colNames.length)] := by
  decide +kernel

example : ∃ w, Call.Run (fun n => n) World.empty [] Ex.calls w ∧ w.Shows (Call.applyAll [] Ex.calls) ∧ w.Separate :=
  match C70_memory (fun n => n) Ex.calls Ex.calls_inRange with
  | ⟨⟨w, h⟩, hall⟩ => ⟨w, h, hall w h⟩

/-- Two tables that share the array of their column names, with room for another name: the state that the theorem rules out. -/
def Ex.oneArray : World Unit :=
  let t : MTable Unit := { name := gs! "T", colNames := ⟨0, 1⟩, colTypes := ⟨0, 1⟩, colMap := 0, rows := ⟨0, 0⟩, sortKeys := ⟨0, 0⟩, isStructShape := false, isNilTable := false, parent := none }
  ⟨⟨[[gs! "a", gs! "b"]], [[.int], [.int]], [[(gs! "a", 0)], [(gs! "a", 0)]], [], [[], []], [[], []]⟩,
    [t, { t with colTypes := ⟨1, 1⟩, colMap := 1, rows := ⟨1, 0⟩, sortKeys := ⟨1, 0⟩ }]⟩

example : ¬ Ex.oneArray.Separate := fun h => absurd (h.colNames 0 1 _ _ rfl rfl rfl) (by decide)

-- there renaming a column of one table renames it in the other
example : (Ex.oneArray.step (fun n => n) 0 (.setColName 0 (gs! "z"))).bind (fun w => (w.tables[1]?).bind fun t => w.store.names.read t.colNames) = some [gs! "z"] := by decide +kernel

/-- **C70**, from any state of memory in which the tables are separate. -/
theorem C70_keeps (spare : Nat → Nat) (w : World τ) (vs : List (Table τ)) (hs : w.Shows vs) (hsep : w.Separate) (calls : List (Call τ)) (hr : Call.InRange vs.length calls) :
    (∃ w', Call.Run spare w vs calls w') ∧ ∀ w', Call.Run spare w vs calls w' → w'.Shows (Call.applyAll vs calls) ∧ w'.Separate := by
  refine ⟨run_exists spare calls ⟨hs, hsep⟩ hr, fun w' hw => ?_⟩
  have := run_good hw ⟨hs, hsep⟩
  exact ⟨this.shows, this.separate⟩

theorem applyAll_other {j : Nat} : ∀ (calls : List (Call τ)) {vs : List (Table τ)} {v : Table τ}, vs[j]? = some v → (∀ c ∈ calls, c.NotTo j) → (Call.applyAll vs calls)[j]? = some v
  | [], vs, v, hv, _ => hv
  | c :: cs, vs, v, hv, hn => by
    have h1 : (Call.apply vs c)[j]? = some v := by
      cases c with
      | new =>
        simp only [Call.apply]
        rw [List.getElem?_append_left (List.getElem?_eq_some_iff.1 hv).1]
        exact hv
      | op i o =>
        have hne : i ≠ j := hn _ (List.mem_cons_self ..)
        simp only [Call.apply]
        split
        · exact hv
        · rw [List.getElem?_set_ne hne]
          exact hv
    exact applyAll_other cs h1 (fun c hc => hn c (List.mem_cons_of_mem _ hc))

/-- **C70**: calls to other tables leave the contents of a table in memory as they are. -/
theorem C70_others (spare : Nat → Nat) (w w' : World τ) (vs : List (Table τ)) (hs : w.Shows vs) (hsep : w.Separate) (calls : List (Call τ)) (hw : Call.Run spare w vs calls w')
    (j : Nat) (v : Table τ) (hv : vs[j]? = some v) (hj : ∀ c ∈ calls, c.NotTo j) : ∃ t', w'.tables[j]? = some t' ∧ Rep w'.store t' v := by
  have hg := run_good hw ⟨hs, hsep⟩
  exact hg.rep (applyAll_other calls hv hj)

end Verif
