import Verif.Lemmas.Time
import Verif.Lemmas.PrintCell
import Verif.Lemmas.PrintTable

/-!
# Lemmas: the pattern for times finds the texts of times
-/

namespace Verif

theorem scanClasses_ok : ∀ (ps : List (UInt8 → Bool)) (l rest : GoStr), Pointwise (fun p c => p c = true) ps l → scanClasses ps (l ++ rest) = some (l, rest)
  | [], [], _, _ => rfl
  | p :: ps, c :: l, rest, h => by
    show (if p c then (scanClasses ps (l ++ rest)).map fun (a, b) => (c :: a, b) else none) = _
    rw [if_pos h.1, scanClasses_ok ps l rest h.2]
    rfl

theorem scanClasses_some : ∀ (ps : List (UInt8 → Bool)) (l a b : GoStr), scanClasses ps l = some (a, b) → l = a ++ b ∧ Pointwise (fun p c => p c = true) ps a
  | [], l, a, b, h => by
    cases h
    exact ⟨rfl, trivial⟩
  | p :: ps, [], a, b, h => by cases h
  | p :: ps, c :: l, a, b, h => by
    rw [scanClasses] at h
    split at h
    · rename_i hp
      cases hs : scanClasses ps l with
      | none => rw [hs] at h; cases h
      | some x =>
        obtain ⟨a', b'⟩ := x
        rw [hs] at h
        obtain ⟨rfl, rfl⟩ := Prod.mk.inj (Option.some.inj h)
        obtain ⟨h1, h2⟩ := scanClasses_some ps l a' b' hs
        exact ⟨by rw [h1]; rfl, hp, h2⟩
    · cases h

theorem scanZone_fmt {off : Int} (h : off.natAbs < 86400) (rest : GoStr) : scanZone (fmtZone off ++ rest) = some (fmtZone off, rest) := by
  rw [zone_text h]
  have hz : (off.tdiv 60).natAbs < 1440 := by
    rw [Int.natAbs_tdiv]
    show off.natAbs / 60 < 1440
    omega
  split
  · rfl
  · have key : ∀ s : UInt8, s = 43 ∨ s = 45 → scanZone ([s, dg ((off.tdiv 60).natAbs / 60 / 10), dg ((off.tdiv 60).natAbs / 60 % 10), 58, dg ((off.tdiv 60).natAbs % 60 / 10),
        dg ((off.tdiv 60).natAbs % 60 % 10)] ++ rest) =
        some ([s, dg ((off.tdiv 60).natAbs / 60 / 10), dg ((off.tdiv 60).natAbs / 60 % 10), 58, dg ((off.tdiv 60).natAbs % 60 / 10), dg ((off.tdiv 60).natAbs % 60 % 10)], rest) := by
      intro s hs
      unfold scanZone
      split
      · rename_i heq
        rcases hs with rfl | rfl <;> simp at heq
      · exact scanClasses_ok _ _ rest ⟨by rcases hs with rfl | rfl <;> rfl, dg_isDec (by omega), dg_isDec (by omega), rfl, dg_isDec (by omega), dg_isDec (by omega), trivial⟩
    split
    · exact key 45 (.inr rfl)
    · exact key 43 (.inl rfl)

theorem dateTime_classes {s : Int} (h : fourDigitYear s) : Pointwise (fun (p : UInt8 → Bool) c => p c = true) timeClasses (fmtDateTime s) := by
  obtain ⟨y, mo, d, hh, mi, ss, e, g1, g2, g3, g4, g5, g6, g7, g8, g9, g10⟩ := dateTime_text h
  rw [e]
  exact ⟨dg_isDec (by omega), dg_isDec (by omega), dg_isDec (by omega), dg_isDec (by omega), rfl, dg_isDec (by omega), dg_isDec (by omega), rfl, dg_isDec (by omega), dg_isDec (by omega), rfl,
    dg_isDec (by omega), dg_isDec (by omega), rfl, dg_isDec (by omega), dg_isDec (by omega), rfl, dg_isDec (by omega), dg_isDec (by omega), trivial⟩

theorem nineDigits : ∀ (n : Nat) (s : GoStr), s.length = n → (∀ c ∈ s, isDec c = true) → Pointwise (fun (p : UInt8 → Bool) c => p c = true) (List.replicate n isDec) s
  | 0, [], _, _ => trivial
  | n + 1, c :: s, hl, h => ⟨h c (by simp), nineDigits n s (by simpa using hl) fun x hx => h x (by simp [hx])⟩

/-- The text of a time with no or with nine digits of a fraction is found as a whole. -/
theorem scanTime_fmt (v : GoTime) (h1 : fourDigitYear (v.sec + v.off)) (h2 : v.nsec < 10 ^ 9) (h3 : v.off.natAbs < 86400) (h4 : v.nsec = 0 ∨ v.nsec % 10 ≠ 0) (rest : GoStr) :
    scanTime (goFormatTime v ++ rest) = some (goFormatTime v, rest) := by
  have hd := dateTime_classes h1
  have key : scanTimeHere (goFormatTime v ++ rest) = some (goFormatTime v, rest) := by
    unfold goFormatTime scanTimeHere
    rw [List.append_assoc, List.append_assoc, scanClasses_ok _ _ _ hd]
    simp only
    obtain ⟨z, zs, hz, hzd, hz46⟩ := zone_head v.off
    by_cases h0 : v.nsec = 0
    · rw [h0]
      have e : scanClasses ((fun x : UInt8 => decide (x = 46)) :: List.replicate 9 isDec) (fmtZone v.off ++ rest) = none := by
        rw [hz, List.cons_append, scanClasses, if_neg (by simpa using hz46)]
      rw [show fmtFrac 0 ++ (fmtZone v.off ++ rest) = fmtZone v.off ++ rest from rfl, e]
      simp only
      rw [scanZone_fmt h3]
      simp [fmtFrac]
    · obtain ⟨f1, f2, f3, f4, f5⟩ := frac_facts h0 h2
      have h9 := f5.2 (by omega)
      have e : scanClasses ((fun x : UInt8 => decide (x = 46)) :: List.replicate 9 isDec) (fmtFrac v.nsec ++ (fmtZone v.off ++ rest)) = some (fmtFrac v.nsec, fmtZone v.off ++ rest) := by
        refine scanClasses_ok _ _ _ ?_
        rw [fmtFrac, if_neg h0]
        exact ⟨rfl, nineDigits 9 _ h9 f2⟩
      rw [e]
      simp only
      rw [scanZone_fmt h3]
      simp
  match hg : goFormatTime v with
  | [] =>
    exfalso
    unfold goFormatTime at hg
    have := (List.append_eq_nil_iff.1 hg).2
    obtain ⟨z, zs, hz, _⟩ := zone_head v.off
    rw [hz] at this
    cases this
  | c :: cs =>
    rw [hg] at key
    show (match scanTimeHere (c :: (cs ++ rest)) with | some r => some r | none => _) = _
    rw [show c :: (cs ++ rest) = c :: cs ++ rest from rfl, key]

theorem zeroPad_dec (w n : Nat) : ∀ c ∈ zeroPad w n, isDec c = true := by
  intro c hc
  unfold zeroPad at hc
  rcases List.mem_append.1 hc with h | h
  · rw [(List.mem_replicate.1 h).2]; decide
  · exact fmtNat_visible n c h

theorem frac_bytes (n : Nat) : ∀ c ∈ fmtFrac n, isDec c = true ∨ c = 46 := by
  intro c hc
  unfold fmtFrac at hc
  split at hc
  · cases hc
  · rcases List.mem_cons.1 hc with rfl | h
    · simp
    · obtain ⟨k, hk⟩ := dropZeros_eq (zeroPad 9 n)
      exact .inl (zeroPad_dec 9 n c (by rw [hk]; exact List.mem_append_left _ h))

theorem zone_bytes (off : Int) : ∀ c ∈ fmtZone off, isDec c = true ∨ c = 45 ∨ c = 58 ∨ c = 90 ∨ c = 43 := by
  intro c hc
  unfold fmtZone at hc
  split at hc
  · rw [List.mem_singleton.1 hc]; simp
  · simp only [List.mem_append, List.mem_cons] at hc
    have hp := fun w n => zeroPad_dec w n c
    split at hc <;>
    · rcases hc with (rfl | h) | rfl | h
      · simp
      · exact .inl (hp _ _ h)
      · simp
      · exact .inl (hp _ _ h)

theorem fmtTime_bytes (v : GoTime) : ∀ c ∈ goFormatTime v, isDec c = true ∨ c = 45 ∨ c = 84 ∨ c = 58 ∨ c = 46 ∨ c = 90 ∨ c = 43 := by
  have hyear : ∀ y, ∀ c ∈ fmtYear y, isDec c = true ∨ c = 45 := by
    intro y c hc
    unfold fmtYear at hc
    split at hc
    · rcases List.mem_cons.1 hc with rfl | h
      · exact .inr rfl
      · exact .inl (zeroPad_dec _ _ _ h)
    · exact .inl (zeroPad_dec _ _ _ hc)
  intro c hc
  unfold goFormatTime at hc
  rw [List.mem_append, List.mem_append] at hc
  rcases hc with (hc | hc) | hc
  · unfold fmtDateTime at hc
    simp only [List.mem_append, List.mem_cons] at hc
    have hy := hyear (civil ((v.sec + v.off) / 86400 + daysToEpoch)).1 c
    have hp := fun w n => zeroPad_dec w n c
    generalize hA : isDec c = A at *
    grind
  · rcases frac_bytes _ c hc with h | h <;> simp [h]
  · rcases zone_bytes _ c hc with h | h | h | h | h <;> simp [h]

theorem fmtTime_visible (v : GoTime) : ∀ c ∈ goFormatTime v, visible c = true ∧ c ≠ 34 ∧ c ≠ 92 := by
  intro c hc
  have h := fmtTime_bytes v c hc
  have := u8_all (fun c => !(isDec c || c = 45 || c = 84 || c = 58 || c = 46 || c = 90 || c = 43) || (visible c && c ≠ 34 && c ≠ 92)) (by decide +kernel) c
  rcases h with h | h | h | h | h | h | h <;> simp [h] at this <;> grind

theorem fmtTime_ne_nil (v : GoTime) : goFormatTime v ≠ [] := by
  intro hg
  unfold goFormatTime at hg
  have := (List.append_eq_nil_iff.1 hg).2
  obtain ⟨z, zs, hz, _⟩ := zone_head v.off
  rw [hz] at this
  cases this

theorem fmtTime_good (v : GoTime) : GoodText (goFormatTime v) := by
  refine goodText_visible (fmtTime_ne_nil v) (fun c hc => (fmtTime_visible v c hc).1) fun h => ?_
  have := fmtTime_bytes v 35 (List.mem_of_head? h)
  revert this
  decide

theorem index_unique {A B : GoStr} {x : UInt8} (h1 : x ∉ A) (h2 : x ∉ B) {i : Nat} (h : (A ++ x :: B)[i]? = some x) : i = A.length := by
  rcases Nat.lt_trichotomy i A.length with hi | hi | hi
  · rw [List.getElem?_append_left hi] at h
    exact absurd (List.mem_of_getElem? h) h1
  · exact hi
  · rw [List.getElem?_append_right (by omega), show i - A.length = (i - A.length - 1) + 1 by omega, List.getElem?_cons_succ] at h
    exact absurd (List.mem_of_getElem? h) h2

theorem scanTime_some : ∀ (l : GoStr) (x : GoStr × GoStr), scanTime l = some x → ∃ pre l', l = pre ++ l' ∧ scanTimeHere l' = some x
  | [], x, h => by cases h
  | c :: cs, x, h => by
    rw [scanTime] at h
    split at h
    · rename_i r hr
      cases h
      exact ⟨[], _, rfl, hr⟩
    · obtain ⟨pre, l', h1, h2⟩ := scanTime_some cs x h
      exact ⟨c :: pre, l', by rw [h1]; rfl, h2⟩

theorem scanTimeHere_T {l : GoStr} {x : GoStr × GoStr} (h : scanTimeHere l = some x) : l[10]? = some 84 := by
  unfold scanTimeHere at h
  cases hs : scanClasses timeClasses l with
  | none => rw [hs] at h; cases h
  | some y =>
    obtain ⟨a, b⟩ := y
    obtain ⟨h1, h2⟩ := scanClasses_some _ _ _ _ hs
    obtain ⟨c, h3, h4⟩ := h2.get 10 (fun c => decide (c = 84)) rfl
    rw [h1, List.getElem?_append_left (List.getElem?_eq_some_iff.1 h3).1, h3]
    congr 1
    simpa using h4

theorem dg_ne_T {k : Nat} (h : k < 10) : dg k ≠ 84 := by
  intro e
  have := dg_isDec h
  rw [e] at this
  revert this
  decide

/-- The text of a time with one to eight digits of a fraction is not found. -/
theorem scanTime_none (v : GoTime) (h1 : fourDigitYear (v.sec + v.off)) (h2 : v.nsec < 10 ^ 9) (h0 : v.nsec ≠ 0) (h4 : v.nsec % 10 = 0) :
    scanTime (goFormatTime v) = none := by
  cases hs : scanTime (goFormatTime v) with
  | none => rfl
  | some x =>
    exfalso
    obtain ⟨pre, l', e, hh⟩ := scanTime_some _ _ hs
    have hT := scanTimeHere_T hh
    have hrest : (84 : UInt8) ∉ fmtFrac v.nsec ++ fmtZone v.off := by
      intro hm
      rcases List.mem_append.1 hm with hm | hm
      · exact absurd (frac_bytes _ _ hm) (by decide)
      · exact absurd (zone_bytes _ _ hm) (by decide)
    have hpre : pre = [] := by
      obtain ⟨y, mo, d, hh, mi, ss, ed, g1, g2, g3, g4, g5, g6, g7, g8, g9, g10⟩ := dateTime_text h1
      have e' : goFormatTime v = [dg (y / 1000), dg (y / 100 % 10), dg (y / 10 % 10), dg (y % 10), 45, dg (mo / 10), dg (mo % 10), 45, dg (d / 10), dg (d % 10)] ++
          84 :: ([dg (hh / 10), dg (hh % 10), 58, dg (mi / 10), dg (mi % 10), 58, dg (ss / 10), dg (ss % 10)] ++ (fmtFrac v.nsec ++ fmtZone v.off)) := by
        rw [goFormatTime, ed, List.append_assoc]
        rfl
      have hx : (goFormatTime v)[pre.length + 10]? = some 84 := by
        rw [e, List.getElem?_append_right (by omega), show pre.length + 10 - pre.length = 10 by omega]
        exact hT
      rw [e'] at hx
      have := index_unique (by
        have k0 := dg_ne_T (k := y / 1000) (by omega)
        have k1 := dg_ne_T (k := y / 100 % 10) (by omega)
        have k2 := dg_ne_T (k := y / 10 % 10) (by omega)
        have k3 := dg_ne_T (k := y % 10) (by omega)
        have k4 := dg_ne_T (k := mo / 10) (by omega)
        have k5 := dg_ne_T (k := mo % 10) (by omega)
        have k6 := dg_ne_T (k := d / 10) (by omega)
        have k7 := dg_ne_T (k := d % 10) (by omega)
        simp [Ne.symm k0, Ne.symm k1, Ne.symm k2, Ne.symm k3, Ne.symm k4, Ne.symm k5, Ne.symm k6, Ne.symm k7]) (by
        have k0 := dg_ne_T (k := hh / 10) (by omega)
        have k1 := dg_ne_T (k := hh % 10) (by omega)
        have k2 := dg_ne_T (k := mi / 10) (by omega)
        have k3 := dg_ne_T (k := mi % 10) (by omega)
        have k4 := dg_ne_T (k := ss / 10) (by omega)
        have k5 := dg_ne_T (k := ss % 10) (by omega)
        rw [List.mem_append]
        rintro (hm | hm)
        · simp [Ne.symm k0, Ne.symm k1, Ne.symm k2, Ne.symm k3, Ne.symm k4, Ne.symm k5] at hm
        · exact hrest hm) hx
      simp only [List.length_cons, List.length_nil] at this
      exact List.eq_nil_of_length_eq_zero (by omega)
    subst hpre
    rw [List.nil_append] at e
    rw [← e] at hh
    -- the pattern does not match at the beginning
    unfold goFormatTime scanTimeHere at hh
    rw [List.append_assoc, scanClasses_ok _ _ _ (dateTime_classes h1)] at hh
    simp only at hh
    obtain ⟨z, zs, hz, hzd, hz46⟩ := zone_head v.off
    obtain ⟨f1, f2, f3, f4, f5⟩ := frac_facts h0 h2
    have h9 : (dropZeros (zeroPad 9 v.nsec)).length < 9 := by
      have : ¬ (dropZeros (zeroPad 9 v.nsec)).length = 9 := fun h => f5.1 h h4
      omega
    have e1 : scanClasses ((fun x : UInt8 => decide (x = 46)) :: List.replicate 9 isDec) (fmtFrac v.nsec ++ fmtZone v.off) = none := by
      cases hc : scanClasses ((fun x : UInt8 => decide (x = 46)) :: List.replicate 9 isDec) (fmtFrac v.nsec ++ fmtZone v.off) with
      | none => rfl
      | some y =>
        exfalso
        obtain ⟨a, b⟩ := y
        obtain ⟨h5, h6⟩ := scanClasses_some _ _ _ _ hc
        obtain ⟨c, h7, h8⟩ := h6.get ((dropZeros (zeroPad 9 v.nsec)).length + 1) isDec (by
          rw [List.getElem?_cons_succ, List.getElem?_replicate, if_pos h9])
        have h10 : (fmtFrac v.nsec ++ fmtZone v.off)[(dropZeros (zeroPad 9 v.nsec)).length + 1]? = some c := by
          rw [h5, List.getElem?_append_left (List.getElem?_eq_some_iff.1 h7).1, h7]
        rw [fmtFrac, if_neg h0, List.cons_append, List.getElem?_cons_succ, List.getElem?_append_right (by omega), Nat.sub_self, hz] at h10
        cases h10
        rw [hzd] at h8
        cases h8
    rw [e1] at hh
    simp only at hh
    have e2 : scanZone (fmtFrac v.nsec ++ fmtZone v.off) = none := by
      rw [fmtFrac, if_neg h0, List.cons_append]
      rfl
    rw [e2] at hh
    cases hh

end Verif
