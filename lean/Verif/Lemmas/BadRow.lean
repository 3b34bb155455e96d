import Verif.Lemmas.PrintTable

/-!
# Lemmas: rows with too many or too few values
-/

namespace Verif
open Table

theorem readRow_prefix (env : TextEnv) (H : Heap) (a : Addr) (x : RowItem) (xs : List RowItem) (r : List (Nat × GoStr)) (names : List GoStr)
    (tys : List GoStr) (rest : GoStr) (hrest : rest = [] ∨ rest.head? = some 32)
    (hr : r.map Prod.snd = xs.map fun x => x.2.1) (hn : xs.length + 1 ≤ names.length)
    (h : ∀ y ∈ x :: xs, ReadsAs env y.1 y.2.1 y.2.2 ∧ ∃ d ds, y.2.1 = d :: ds ∧ d ≠ 32 ∧ d ≠ 9) :
    readRow env a H names (((x :: xs).map fun y => y.1.name) ++ tys) (spaced x.2.1 r ++ rest) =
      (readRow env a H (names.drop (xs.length + 1)) tys (trimBlanks rest)).bind fun (H2, cells) => .ok (H2, ((x :: xs).map fun y => y.2.2) ++ cells) := by
  induction xs generalizing x r names with
  | nil =>
    have : r = [] := by simpa using hr
    subst this
    obtain ⟨h1, d, ds, e, _⟩ := h x (by simp)
    match names, hn with
    | n :: names, _ =>
      have hlen : (spaced x.2.1 [] ++ rest).length ≠ 0 := by simp [spaced, e]
      have := h1 H a rest hrest
      rw [List.map_cons, List.cons_append, readRow, if_neg hlen, ofName?_name]
      simp only [spaced]
      rw [this]
      rfl
  | cons y ys ih =>
    match r, hr with
    | (k, t') :: r, hr =>
      simp only [List.map_cons, List.cons.injEq] at hr
      obtain ⟨rfl, hr⟩ := hr
      match names, hn with
      | n :: names, hn =>
        obtain ⟨h1, d, ds, e, _⟩ := h x (by simp)
        obtain ⟨_, d', ds', e', hd1, hd2⟩ := h y (by simp)
        have hlen : (spaced x.2.1 ((k, y.2.1) :: r) ++ rest).length ≠ 0 := by simp [spaced, e]
        have hrec := ih y r names hr (by simpa using hn) fun z hz => h z (by simp only [List.mem_cons] at hz ⊢; exact .inr hz)
        obtain ⟨c, cs, he, hc⟩ := spaced_head y.2.1 r (by simp [e'])
        have hcd : c = d' := by rw [e'] at hc; simpa using hc.symm
        have htrim := trimBlanks_sp k c (cs ++ rest) (hcd ▸ hd1) (hcd ▸ hd2)
        have := h1 H a (32 :: sp k ++ (spaced y.2.1 r ++ rest)) (.inr rfl)
        rw [List.map_cons, List.cons_append, readRow, if_neg hlen, ofName?_name]
        simp only [spaced, List.append_assoc] at this ⊢
        rw [this]
        simp only [Out.bind]
        rw [he] at hrec ⊢
        simp only [List.cons_append] at htrim hrec ⊢
        rw [htrim, hrec]
        simp only [List.drop_succ_cons, List.length_cons]
        cases readRow env a H (names.drop (ys.length + 1)) tys (trimBlanks rest) <;> rfl

theorem trimSpaceRev_keeps (l : GoStr) (c : UInt8) (rest : GoStr) (h1 : 33 ≤ c.toNat) (h2 : c.toNat ≤ 126) : ∃ l', trimSpaceRev (l ++ c :: rest) = l' ++ c :: rest := by
  have hc : endByte c = true := by
    have := u8_all (fun c => !(decide (33 ≤ c.toNat) && decide (c.toNat ≤ 126)) || endByte c) (by decide +kernel) c
    simpa [h1, h2] using this
  induction hn : l.length using Nat.strongRecOn generalizing l with
  | ind n ih =>
    match l with
    | [] => exact ⟨[], trimSpaceRev_end hc rest⟩
    | d :: ds =>
      rw [List.cons_append, trimSpaceRev.eq_def]
      simp only
      split
      · split
        · exact ih ds.length (by simp only [List.length_cons] at hn; omega) ds rfl
        · exact ⟨d :: ds, rfl⟩
      · split
        · exact ⟨d :: ds, by simp_all⟩
        · rename_i e es heq
          split
          · rename_i he
            match ds, heq with
            | [], heq =>
              simp only [List.nil_append, List.cons.injEq] at heq
              rw [heq.1, he.1] at h2
              exact absurd h2 (by decide)
            | x :: ds, heq =>
              simp only [List.cons_append, List.cons.injEq] at heq
              rw [← heq.2]
              exact ih ds.length (by simp only [List.length_cons] at hn; omega) ds rfl
          · split
            · exact ⟨d :: ds, by simp_all⟩
            · rename_i g gs
              split
              · rename_i r hd
                split
                · rename_i hsp
                  obtain ⟨x, hx, hx2, hall⟩ := encodeRune_space hsp
                  obtain ⟨_, hw, more, he⟩ := encode_decode hd
                  have hmore : more = [] := by
                    have := congrArg List.length he
                    rw [List.length_append, ← hw] at this
                    simpa using this
                  rw [hmore, List.append_nil] at he
                  have h80 : 0x80 ≤ r := by
                    rcases Nat.lt_or_ge r 0x80 with hlt | hge
                    · have hv : ValidRune r := by unfold ValidRune; omega
                      have : encodeRune r = [UInt8.ofNat r] := by
                        simp only [encodeRune, if_pos hv, if_pos hlt]
                      rw [this] at he
                      simp at he
                    · exact hge
                  have hb := hall h80
                  rw [← he] at hb
                  have hg := hb g (by simp)
                  have he' := hb e (by simp)
                  match ds, heq with
                  | [], heq =>
                    simp only [List.nil_append, List.cons.injEq] at heq
                    rw [← heq.1] at he'
                    omega
                  | [x], heq =>
                    simp only [List.cons_append, List.nil_append, List.cons.injEq] at heq
                    rw [← heq.2.1] at hg
                    omega
                  | x :: y :: ds, heq =>
                    simp only [List.cons_append, List.cons.injEq] at heq
                    rw [← heq.2.2]
                    exact ih ds.length (by simp only [List.length_cons] at hn; omega) ds rfl
                · exact ⟨d :: ds, by simp_all⟩
              · exact ⟨d :: ds, by simp_all⟩

/-- Text after a row: trimming the line leaves the row and a space, and something of the text. -/
theorem trimSpace_surplus (a b : Nat) (core junk : GoStr) (h1 : Starts core) (c : UInt8) (hc : c ∈ junk) (hc1 : 33 ≤ c.toNat) (hc2 : c.toNat ≤ 126) :
    ∃ more, trimSpace (sp a ++ core ++ sp b ++ 32 :: junk) = core ++ sp b ++ 32 :: more ∧ c ∈ more := by
  have hstart : trimSpaceLeft 0 (core ++ (sp b ++ 32 :: junk)) = core ++ (sp b ++ 32 :: junk) := by
    refine h1 _ fun x xs e => ?_
    cases b with
    | zero =>
      simp only [sp, List.replicate_zero, List.nil_append, List.cons.injEq] at e
      rw [← e.1]; decide
    | succ b =>
      rw [sp_succ] at e
      simp only [List.cons_append, List.cons.injEq] at e
      rw [← e.1]; decide
  obtain ⟨j1, j2, rfl⟩ := List.append_of_mem hc
  unfold trimSpace
  rw [List.append_assoc, List.append_assoc, trimSpaceLeft_sp, hstart]
  have hrev : (core ++ (sp b ++ 32 :: (j1 ++ c :: j2))).reverse = j2.reverse ++ c :: (j1.reverse ++ 32 :: ((sp b).reverse ++ core.reverse)) := by
    simp
  rw [hrev]
  obtain ⟨l', e⟩ := trimSpaceRev_keeps j2.reverse c (j1.reverse ++ 32 :: ((sp b).reverse ++ core.reverse)) hc1 hc2
  rw [e]
  exact ⟨j1 ++ c :: l'.reverse, by simp, by simp⟩

theorem trimBlanks_visible (l : GoStr) (c : UInt8) (hc : c ∈ l) (h1 : 33 ≤ c.toNat) : (trimBlanks l).length > 0 := by
  unfold trimBlanks
  induction l with
  | nil => simp at hc
  | cons d ds ih =>
    rw [List.dropWhile_cons]
    split
    · rename_i hd
      rcases List.mem_cons.1 hc with rfl | hc
      · simp only [Bool.or_eq_true, decide_eq_true_eq] at hd
        rcases hd with rfl | rfl <;> exact absurd h1 (by decide)
      · exact ih hc
    · simp

/-- A line that makes the loop fail, whatever follows. -/
theorem parseLines_fails (env : TextEnv) (H0 : Heap) (ls : List GoStr) (bad more : GoStr) (hls : ∀ l ∈ ls, 10 ∉ l) (hbad : 10 ∉ bad) {p : PState} {e : Err}
    (h1 : runLines env (startState H0) ls = .ok p) (h2 : step env p (trimSpace bad) = .err e) :
    newTableSetFromString env H0 (unlines ls ++ bad ++ 10 :: more) = .err e ∧ newTableFromString env H0 (unlines ls ++ bad ++ 10 :: more) = .err e := by
  have hs : splitLines (unlines ls ++ bad ++ 10 :: more) = ls ++ bad :: splitLines more := by
    rw [List.append_assoc, unlines, splitLines_lines ls _ hls, splitLines_line _ _ hbad]
  have hset : newTableSetFromString env H0 (unlines ls ++ bad ++ 10 :: more) = .err e := by
    rw [newTableSetFromString, hs, parseLines_append _ _ _ _ (by simp), h1]
    simp only [Out.bind, parseLines, h2]
  exact ⟨hset, by rw [newTableFromString, hset]; rfl⟩

end Verif
