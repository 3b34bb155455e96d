import Verif.Go.Csv
import Verif.Spec.Csv

/-!
# Lemmas: written CSV is read back
-/

namespace Verif

theorem crlf_cons {c : UInt8} (h : c ≠ 13) (cs : GoStr) : crlf (c :: cs) = c :: crlf cs := by
  match cs with
  | [] => rfl
  | d :: cs => rw [crlf, if_neg (by simp [h])]

theorem crlf_cons2 (c : UInt8) {d : UInt8} (h : d ≠ 10) (cs : GoStr) : crlf (c :: d :: cs) = c :: crlf (d :: cs) := by
  rw [crlf, if_neg (by simp [h])]

theorem crlf_plain (f rest : GoStr) (h : 13 ∉ f) : crlf (f ++ rest) = f ++ crlf rest := by
  induction f with
  | nil => rfl
  | cons c cs ih =>
    simp only [List.mem_cons, not_or] at h
    rw [List.cons_append, crlf_cons (fun e => h.1 e.symm), ih h.2, List.cons_append]

theorem csvDouble_head (d : UInt8) (ds : GoStr) : ∃ x, csvDouble (d :: ds) = d :: x := by
  rw [csvDouble]
  split
  · rename_i h; exact ⟨_, by rw [h]⟩
  · exact ⟨_, rfl⟩

theorem crlf_double (f rest : GoStr) : crlf (csvDouble f ++ 34 :: rest) = csvDouble (crlf f) ++ 34 :: crlf rest := by
  fun_induction crlf f with
  | case1 => simp only [csvDouble, List.nil_append]; exact crlf_cons (by decide) _
  | case2 c =>
    simp only [csvDouble]
    split
    · simp only [List.cons_append, List.nil_append]
      rw [crlf_cons (by decide), crlf_cons (by decide), crlf_cons (by decide)]
    · simp only [List.cons_append, List.nil_append]
      rw [crlf_cons2 _ (by decide), crlf_cons (by decide)]
  | case3 c d cs h ih =>
    obtain ⟨rfl, rfl⟩ := h
    have e1 : csvDouble (13 :: 10 :: cs) = 13 :: 10 :: csvDouble cs := by simp [csvDouble]
    have e2 : csvDouble (10 :: crlf cs) = 10 :: csvDouble (crlf cs) := by simp [csvDouble]
    rw [e1, e2]
    simp only [List.cons_append]
    rw [crlf, if_pos ⟨rfl, rfl⟩, ih]
  | case4 c d cs h ih =>
    rw [csvDouble, csvDouble.eq_def (c :: crlf (d :: cs))]
    simp only
    by_cases hc : c = 34
    · simp only [hc, if_true, List.cons_append]
      rw [crlf_cons (by decide), crlf_cons (by decide), ih]
    · simp only [hc, if_false, List.cons_append]
      obtain ⟨x, hx⟩ := csvDouble_head d cs
      by_cases hc13 : c = 13
      · have hd : d ≠ 10 := fun e => h ⟨hc13, e⟩
        rw [hx] at ih ⊢
        rw [List.cons_append, crlf_cons2 _ hd]
        rw [List.cons_append] at ih
        rw [ih]
      · rw [crlf_cons hc13, ih]

/-- The text of a field after CR LF has been replaced. -/
def csvField' (f : GoStr) : GoStr := if csvNeedsQuotes f then 34 :: csvDouble (crlf f) ++ [34] else f

theorem csvPlain {f : GoStr} (h : csvNeedsQuotes f = false) : ∀ c ∈ f, c ≠ 10 ∧ c ≠ 13 ∧ c ≠ 34 ∧ c ≠ 44 := by
  unfold csvNeedsQuotes at h
  split at h
  · rename_i e; simp [e]
  split at h
  · simp at h
  split at h
  · simp at h
  rename_i h2
  intro c hc
  have := fun hh => h2 (List.any_eq_true.2 ⟨c, hc, hh⟩)
  simp only [Bool.or_eq_true, decide_eq_true_eq] at this
  exact ⟨fun e => this (.inl (.inl (.inl e))), fun e => this (.inl (.inl (.inr e))), fun e => this (.inl (.inr e)), fun e => this (.inr e)⟩

theorem crlf_id {f : GoStr} (h : 13 ∉ f) : crlf f = f := by
  have := crlf_plain f [] h
  simpa [crlf] using this

theorem crlf_field (f rest : GoStr) : crlf (csvField f ++ rest) = csvField' f ++ crlf rest := by
  unfold csvField csvField'
  split
  · rw [List.cons_append, List.cons_append, crlf_cons (by decide)]
    simp only [List.append_assoc, List.cons_append, List.nil_append]
    rw [crlf_double]
  · rename_i h
    refine crlf_plain _ _ fun h13 => ?_
    exact (csvPlain (by simpa using h) 13 h13).2.1 rfl

/-! ## Reading -/

theorem scan_plain (fs : List GoStr) (f g rest : GoStr) (h : ∀ c ∈ g, c ≠ 10 ∧ c ≠ 13 ∧ c ≠ 34 ∧ c ≠ 44) :
    csvScan .plain fs f (g ++ rest) = csvScan .plain fs (f ++ g) rest := by
  induction g generalizing f with
  | nil => simp
  | cons c cs ih =>
    obtain ⟨h1, _, h3, h4⟩ := h c (by simp)
    rw [List.cons_append, csvScan.eq_def]
    simp only [h1, h3, h4, if_false]
    rw [ih _ fun x hx => h x (by simp [hx])]
    simp

theorem scan_quoted (fs : List GoStr) (f g rest : GoStr) : csvScan .quoted fs f (csvDouble g ++ 34 :: rest) = csvScan .quote fs (f ++ g) rest := by
  induction g generalizing f with
  | nil =>
    simp only [csvDouble, List.nil_append, List.append_nil]
    rw [csvScan.eq_def]
    simp
  | cons c cs ih =>
    rw [csvDouble]
    split
    · rename_i hc
      rw [List.cons_append, List.cons_append, csvScan.eq_def]
      simp only [if_true]
      rw [csvScan.eq_def]
      simp only [if_true]
      rw [ih, hc]
      simp
    · rename_i hc
      rw [List.cons_append, csvScan.eq_def]
      simp only [hc, if_false]
      rw [ih]
      simp

/-- A field at the start of a field, followed by a comma or the end of the line. -/
theorem scan_field (fs : List GoStr) (f rest : GoStr) :
    csvScan .field fs [] (csvField' f ++ 44 :: rest) = csvScan .field (fs ++ [crlf f]) [] rest ∧
    csvScan .field fs [] (csvField' f ++ 10 :: rest) = (csvScan .line [] [] rest).map fun rs => (fs ++ [crlf f]) :: rs := by
  unfold csvField'
  split
  · simp only [List.cons_append, List.append_assoc, List.nil_append]
    constructor
    · rw [csvScan.eq_def]
      simp only [show (34 : UInt8) ≠ 10 by decide, if_false, if_true]
      rw [scan_quoted, csvScan.eq_def]
      simp only [show (44 : UInt8) ≠ 34 by decide, if_false, if_true, List.nil_append]
    · rw [csvScan.eq_def]
      simp only [show (34 : UInt8) ≠ 10 by decide, if_false, if_true]
      rw [scan_quoted, csvScan.eq_def]
      simp only [show (10 : UInt8) ≠ 34 by decide, show (10 : UInt8) ≠ 44 by decide, if_false, if_true, List.nil_append]
  · rename_i hq
    have hp := csvPlain (f := f) (by simpa using hq)
    rw [crlf_id fun h => (hp 13 h).2.1 rfl]
    match f, hp with
    | [], _ =>
      constructor
      · rw [List.nil_append, csvScan.eq_def]
        simp only [show (44 : UInt8) ≠ 34 by decide, show (44 : UInt8) ≠ 10 by decide, if_false, if_true]
      · rw [List.nil_append, csvScan.eq_def]
        simp only [if_true]
    | c :: cs, hp =>
      obtain ⟨h1, _, h3, h4⟩ := hp c (by simp)
      have hcs : ∀ x ∈ cs, x ≠ 10 ∧ x ≠ 13 ∧ x ≠ 34 ∧ x ≠ 44 := fun x hx => hp x (by simp [hx])
      constructor
      · rw [List.cons_append, csvScan.eq_def]
        simp only [h1, h3, h4, if_false]
        rw [scan_plain _ _ _ _ hcs, csvScan.eq_def]
        simp only [show (44 : UInt8) ≠ 10 by decide, if_false, if_true, List.cons_append, List.nil_append]
      · rw [List.cons_append, csvScan.eq_def]
        simp only [h1, h3, h4, if_false]
        rw [scan_plain _ _ _ _ hcs, csvScan.eq_def]
        simp only [if_true, List.cons_append, List.nil_append]

/-- The text of a record after CR LF has been replaced. -/
def csvFields' : List GoStr → GoStr
  | [] => []
  | [f] => csvField' f
  | f :: fs => csvField' f ++ 44 :: csvFields' fs

theorem crlf_fields (r : List GoStr) (rest : GoStr) : crlf (csvFields r ++ 10 :: rest) = csvFields' r ++ 10 :: crlf rest := by
  induction r with
  | nil => exact crlf_cons (by decide) _
  | cons f r ih =>
    match r, ih with
    | [], _ =>
      simp only [csvFields, csvFields']
      rw [crlf_field, crlf_cons (by decide)]
    | g :: r, ih =>
      simp only [csvFields, csvFields', List.append_assoc, List.cons_append]
      rw [crlf_field, crlf_cons (by decide), ih]

theorem scan_fields (fs : List GoStr) (f : GoStr) (r : List GoStr) (rest : GoStr) :
    csvScan .field fs [] (csvFields' (f :: r) ++ 10 :: rest) = (csvScan .line [] [] rest).map fun rs => (fs ++ (f :: r).map crlf) :: rs := by
  induction r generalizing f fs with
  | nil => exact (scan_field fs f rest).2
  | cons g r ih =>
    simp only [csvFields', List.append_assoc, List.cons_append]
    rw [(scan_field fs f _).1, ih]
    simp

theorem scan_line {c : UInt8} (h : c ≠ 10) (cs : GoStr) : csvScan .line [] [] (c :: cs) = csvScan .field [] [] (c :: cs) := by
  rw [csvScan.eq_def, csvScan.eq_def]
  simp only [h, if_false, List.nil_append]

theorem csvField'_head {f : GoStr} (h : f ≠ []) : ∃ c cs, csvField' f = c :: cs ∧ c ≠ 10 := by
  unfold csvField'
  split
  · exact ⟨34, _, rfl, by decide⟩
  · rename_i hq
    match f, h, hq with
    | c :: cs, _, hq => exact ⟨c, cs, rfl, (csvPlain (by simpa using hq) c (by simp)).1⟩

/-- A record that is not written as a blank line is read back. -/
theorem scan_record (r : List GoStr) (rest : GoStr) (h0 : r ≠ []) (h1 : r ≠ [[]]) :
    csvScan .line [] [] (csvFields' r ++ 10 :: rest) = (csvScan .line [] [] rest).map fun rs => r.map crlf :: rs := by
  have key : ∃ c cs, csvFields' r ++ 10 :: rest = c :: cs ∧ c ≠ 10 := by
    match r, h0, h1 with
    | [f], _, h1 =>
      obtain ⟨c, cs, e, hc⟩ := csvField'_head (f := f) (by simpa using h1)
      exact ⟨c, cs ++ 10 :: rest, by simp only [csvFields', e, List.cons_append], hc⟩
    | f :: g :: r, _, _ =>
      by_cases hf : f = []
      · subst hf
        exact ⟨44, _, rfl, by decide⟩
      · obtain ⟨c, cs, e, hc⟩ := csvField'_head hf
        exact ⟨c, cs ++ 44 :: csvFields' (g :: r) ++ 10 :: rest, by simp only [csvFields', e, List.cons_append], hc⟩
  obtain ⟨c, cs, e, hc⟩ := key
  rw [e, scan_line hc, ← e]
  match r, h0 with
  | f :: r, _ =>
    rw [scan_fields]
    rfl

theorem scan_records (rs : List (List GoStr)) :
    csvScan .line [] [] (crlf ((rs.map csvRecord).flatten)) = some ((csvVisible rs).map fun r => r.map crlf) := by
  induction rs with
  | nil => rfl
  | cons r rs ih =>
    simp only [List.map_cons, List.flatten_cons, csvRecord, List.append_assoc, List.cons_append, List.nil_append]
    rw [crlf_fields]
    by_cases hv : r ≠ [] ∧ r ≠ [[]]
    · rw [scan_record r _ hv.1 hv.2, csvVisible, List.filter_cons_of_pos (by simpa using hv), List.map_cons]
      rw [ih]
      rfl
    · rw [csvVisible, List.filter_cons_of_neg (by simpa using hv)]
      have : csvFields' r = [] := by
        rcases Classical.not_and_iff_not_or_not.1 hv with h | h
        · rw [Classical.not_not.1 h]; rfl
        · rw [Classical.not_not.1 h]; rfl
      rw [this, List.nil_append, csvScan.eq_def]
      simp only [if_true]
      exact ih

end Verif
