import Verif.Model.Utility

/-!
# C90: string flags
-/

namespace Verif

/-- The argument looks like another flag. -/
def LooksLikeFlag (s : GoStr) : Prop := ∃ rest, s = 45 :: rest

theorem dashed_iff (s : GoStr) : dashed s = true ↔ LooksLikeFlag s := by
  unfold dashed LooksLikeFlag
  cases s with
  | nil => simp
  | cons b s => simp

/-- **C90.** After any sequence of calls of `Set`, `AllOk` is true exactly if there was one and none had an argument that looks like another
flag; `Exists` is true exactly if there was one; `Error` is nil exactly if none looks like a flag; `String` is the last argument. -/
theorem C90_flag (args : List GoStr) :
    ((args.foldl StringFlag.setVal {}).allOk = true ↔ args ≠ [] ∧ ∀ s ∈ args, ¬ LooksLikeFlag s) ∧
    ((args.foldl StringFlag.setVal {}).doesExist = true ↔ args ≠ []) ∧
    ((args.foldl StringFlag.setVal {}).set = true ↔ ∃ s ∈ args, ¬ LooksLikeFlag s) ∧
    ((args.foldl StringFlag.setVal {}).err = true ↔ ∃ s ∈ args, LooksLikeFlag s) ∧
    (args.foldl StringFlag.setVal {}).val = args.getLastD [] := by
  have key : ∀ (l : List GoStr) (sf : StringFlag),
      ((l.foldl StringFlag.setVal sf).doesExist = true ↔ sf.doesExist = true ∨ l ≠ []) ∧
      ((l.foldl StringFlag.setVal sf).set = true ↔ sf.set = true ∨ ∃ s ∈ l, ¬ LooksLikeFlag s) ∧
      ((l.foldl StringFlag.setVal sf).err = true ↔ sf.err = true ∨ ∃ s ∈ l, LooksLikeFlag s) ∧
      (l.foldl StringFlag.setVal sf).val = l.getLastD sf.val := by
    intro l
    induction l with
    | nil => intro sf; simp
    | cons s l ih =>
      intro sf
      obtain ⟨h1, h2, h3, h4⟩ := ih (sf.setVal s)
      rw [List.foldl_cons, List.getLastD_cons]
      by_cases hs : LooksLikeFlag s
      · have e : sf.setVal s = { sf with doesExist := true, val := s, err := true } := by
          unfold StringFlag.setVal; rw [if_pos ((dashed_iff s).2 hs)]
        rw [e] at h1 h2 h3 h4 ⊢
        refine ⟨by rw [h1]; simp, by rw [h2]; simp [hs], by rw [h3]; simp [hs], h4⟩
      · have e : sf.setVal s = { sf with doesExist := true, set := true, val := s } := by
          unfold StringFlag.setVal; rw [if_neg (fun h => hs ((dashed_iff s).1 h))]
        rw [e] at h1 h2 h3 h4 ⊢
        refine ⟨by rw [h1]; simp, by rw [h2]; simp [hs], by rw [h3]; simp [hs], h4⟩
  obtain ⟨h1, h2, h3, h4⟩ := key args {}
  have h1' : (args.foldl StringFlag.setVal {}).doesExist = true ↔ args ≠ [] := by rw [h1]; simp
  have h2' : (args.foldl StringFlag.setVal {}).set = true ↔ ∃ s ∈ args, ¬ LooksLikeFlag s := by rw [h2]; simp
  have h3' : (args.foldl StringFlag.setVal {}).err = true ↔ ∃ s ∈ args, LooksLikeFlag s := by rw [h3]; simp
  refine ⟨?_, h1', h2', h3', h4⟩
  have e : (args.foldl StringFlag.setVal {}).allOk = true ↔ (args.foldl StringFlag.setVal {}).doesExist = true ∧
      (args.foldl StringFlag.setVal {}).set = true ∧ ¬ (args.foldl StringFlag.setVal {}).err = true := by
    simp [StringFlag.allOk, and_assoc]
  rw [e, h1', h2', h3']
  constructor
  · rintro ⟨a, _, b⟩
    exact ⟨a, fun s hs hl => b ⟨s, hs, hl⟩⟩
  · rintro ⟨a, b⟩
    obtain ⟨s, hs⟩ := List.exists_mem_of_ne_nil args a
    exact ⟨a, ⟨s, hs, b s hs⟩, fun ⟨s, hs, hl⟩ => b s hs hl⟩

/-- **C90**, the check of a flag that has been parsed by other means: it is there exactly if its argument is not empty and does not look like
another flag; there is an error exactly if it does, or if the flag is required and the argument is empty. -/
theorem C90_check (arg : GoStr) (required : Bool) :
    ((utilCheckStringFlag arg required).1 = true ↔ arg ≠ [] ∧ ¬ LooksLikeFlag arg) ∧
    ((utilCheckStringFlag arg required).2 = true ↔ LooksLikeFlag arg ∨ (required = true ∧ arg = [])) := by
  rw [← dashed_iff]
  cases arg with
  | nil => cases required <;> decide
  | cons b s =>
    unfold utilCheckStringFlag
    cases h : dashed (b :: s) <;> cases required <;> simp

/-- **C90**, the two agree on an argument that is not empty. -/
theorem C90_agree (arg : GoStr) (required : Bool) (ha : arg ≠ []) :
    (([arg].foldl StringFlag.setVal {}).allOk = true ↔ utilCheckStringFlag arg required = (true, false)) := by
  rw [(C90_flag [arg]).1]
  obtain ⟨h1, h2⟩ := C90_check arg required
  constructor
  · rintro ⟨_, h⟩
    have hl := h arg (by simp)
    refine Prod.ext (h1.2 ⟨ha, hl⟩) ?_
    cases e : (utilCheckStringFlag arg required).2 with
    | false => rfl
    | true =>
      rcases h2.1 e with h | h
      · exact absurd h hl
      · exact absurd h.2 ha
  · intro h
    rw [h] at h1
    refine ⟨by simp, ?_⟩
    intro s hs
    rw [List.mem_singleton.1 hs]
    exact (h1.1 rfl).2

-- two files, the second forgotten: the next flag is taken for it
example : ([gs! "a.txt"].foldl StringFlag.setVal {}).allOk = true ∧ ([gs! "a.txt", gs! "-v"].foldl StringFlag.setVal {}).allOk = false := by
  decide +kernel
example : utilCheckStringFlag (gs! "a.txt") true = (true, false) ∧ utilCheckStringFlag (gs! "-v") true = (false, true) ∧
    utilCheckStringFlag [] false = (false, false) := by decide +kernel
-- the two differ for an empty argument
example : ([[]].foldl StringFlag.setVal {}).allOk = true ∧ utilCheckStringFlag [] true = (false, true) := by decide +kernel

end Verif
