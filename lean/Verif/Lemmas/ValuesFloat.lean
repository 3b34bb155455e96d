import Verif.Lemmas.Values
import Verif.Lemmas.FloatNear
import Verif.Model.GoFloat

/-!
# Lemmas: floats in table text
-/

namespace Verif

theorem isDec_all {ds : GoStr} (h : ∀ c ∈ ds, digitValue c < 10) : ∀ c ∈ ds, isDec c = true := fun c hc => (isDec_iff c).2 (h c hc)

theorem numeral_isDec {a : GoStr} (hne : a ≠ []) (h : ∀ c ∈ a, isDec c = true) : Numeral 10 a := ⟨hne, fun c hc => (isDec_iff c).1 (h c hc)⟩

/-- A digit or a point. -/
def MantByte (c : UInt8) : Prop := digitValue c < 10 ∨ c = 46

theorem takeWhile_all {p : UInt8 → Bool} {a b : GoStr} (h : ∀ c ∈ a, p c = true) (hb : ∀ c cs, b = c :: cs → p c = false) :
    (a ++ b).takeWhile p = a ∧ (a ++ b).dropWhile p = b := by
  induction a with
  | nil =>
    cases b with
    | nil => simp
    | cons c cs => simp [hb c cs rfl]
  | cons c a ih =>
    obtain ⟨h1, h2⟩ := ih fun x hx => h x (by simp [hx])
    simp [h c (by simp), h1, h2]

theorem scanMantissa_sound {l m r : GoStr} (h : scanMantissa l = some (m, r)) :
    l = m ++ r ∧ (∃ n k, MantissaText m n k) ∧ ∀ c ∈ m, MantByte c := by
  unfold scanMantissa at h
  split at h
  · next ds r' hs =>
    simp only [Option.some.injEq, Prod.mk.injEq] at h
    obtain ⟨rfl, rfl⟩ := h
    obtain ⟨e, hne, hd, _⟩ := scanSome_eq hs
    have ht : ∀ c ∈ r'.takeWhile isDec, isDec c = true := fun c hc => List.all_eq_true.1 (List.all_takeWhile (p := isDec) (l := r')) c hc
    refine ⟨?_, ⟨_, _, .point (ds := ds) (fs := r'.takeWhile isDec) (numeral_isDec (by simp [hne]) ?_)⟩, ?_⟩
    · rw [e, List.append_assoc, List.cons_append, List.takeWhile_append_dropWhile]
    · intro c hc; rcases List.mem_append.1 hc with hc | hc
      · exact hd c hc
      · exact ht c hc
    · intro c hc
      simp only [List.mem_append, List.mem_cons] at hc
      rcases hc with hc | rfl | hc
      · exact .inl ((isDec_iff c).1 (hd c hc))
      · exact .inr rfl
      · exact .inl ((isDec_iff c).1 (ht c hc))
  · next ds r' _ hs =>
    simp only [Option.some.injEq, Prod.mk.injEq] at h
    obtain ⟨rfl, rfl⟩ := h
    obtain ⟨e, hne, hd, _⟩ := scanSome_eq hs
    exact ⟨e, ⟨_, _, .whole (numeral_isDec hne hd)⟩, fun c hc => .inl ((isDec_iff c).1 (hd c hc))⟩
  · split at h
    · next r' _ =>
      simp only [Option.map_eq_some_iff, Prod.mk.injEq, Prod.exists] at h
      obtain ⟨ds, rest, hs, rfl, rfl⟩ := h
      obtain ⟨e, hne, hd, _⟩ := scanSome_eq hs
      refine ⟨by rw [e]; rfl, ⟨_, _, .point (ds := []) (fs := ds) (numeral_isDec hne hd)⟩, ?_⟩
      intro c hc
      rcases List.mem_cons.1 hc with rfl | hc
      · exact .inr rfl
      · exact .inl ((isDec_iff c).1 (hd c hc))
    · simp at h

theorem scanMantissa_complete {m : GoStr} {n k : Nat} (h : MantissaText m n k) (r : GoStr) :
    ∃ m' r', scanMantissa (m ++ r) = some (m', r') ∧ m.length ≤ m'.length := by
  cases h with
  | whole h =>
    obtain ⟨a, b, hs, hl⟩ := scanSome_ok (b := r) h.1 (isDec_all h.2)
    unfold scanMantissa
    rw [hs]
    cases b with
    | nil => exact ⟨a, [], rfl, hl⟩
    | cons c cs =>
      by_cases hc : c = 46
      · subst hc
        exact ⟨_, _, rfl, by simp; omega⟩
      · refine ⟨a, c :: cs, ?_, hl⟩
        split
        · next heq => simp only [Option.some.injEq, Prod.mk.injEq, List.cons.injEq] at heq; exact absurd heq.2.1 hc
        · next heq => simp only [Option.some.injEq, Prod.mk.injEq] at heq; rw [heq.1, heq.2]
        · next heq => simp at heq
  | @point ds fs h =>
    have hd : ∀ c ∈ ds, isDec c = true := fun c hc => isDec_all h.2 c (by simp [hc])
    have hf : ∀ c ∈ fs, isDec c = true := fun c hc => isDec_all h.2 c (by simp [hc])
    by_cases hne : ds = []
    · subst hne
      obtain ⟨a, b, hs, hl⟩ := scanSome_ok (b := r) (a := fs) (by simpa using h.1) hf
      have h0 : scanSome isDec (46 :: (fs ++ r)) = none := by
        have : isDec 46 = false := by decide
        simp [scanSome, this]
      simp only [List.nil_append, List.cons_append, scanMantissa, h0, hs]
      exact ⟨46 :: a, b, rfl, by simp; omega⟩
    · have h1 := takeWhile_all (p := isDec) (a := ds) (b := 46 :: (fs ++ r)) hd (by
        intro c cs e
        simp only [List.cons.injEq] at e
        rw [← e.1]; decide)
      have h0 : scanSome isDec (ds ++ 46 :: (fs ++ r)) = some (ds, 46 :: (fs ++ r)) := by
        rw [scanSome, h1.1, h1.2, if_neg hne]
      have hl := takeWhile_length_ge (b := r) hf
      rw [List.append_assoc, List.cons_append]
      unfold scanMantissa
      rw [h0]
      exact ⟨_, _, rfl, by simp; omega⟩

theorem scanExponent_sound (l : GoStr) : l = (scanExponent l).1 ++ (scanExponent l).2 ∧ ∃ e, ExponentText (scanExponent l).1 e := by
  have none : l = (([], l) : GoStr × GoStr).1 ++ (([], l) : GoStr × GoStr).2 ∧ ∃ e, ExponentText (([], l) : GoStr × GoStr).1 e := ⟨rfl, 0, .none⟩
  unfold scanExponent
  split
  · next c r =>
    split
    · next hc =>
      split
      · next s r' =>
        split
        · next hsg =>
          split
          · next ds rest hs =>
            obtain ⟨e, hne, hd, _⟩ := scanSome_eq hs
            refine ⟨by simp [e], ?_⟩
            rcases hsg with rfl | rfl
            · exact ⟨_, .plus hc (numeral_isDec hne hd)⟩
            · exact ⟨_, .minus hc (numeral_isDec hne hd)⟩
          · exact none
        · split
          · next ds rest hs =>
            obtain ⟨e, hne, hd, _⟩ := scanSome_eq hs
            exact ⟨by simp [e], _, .plain hc (numeral_isDec hne hd)⟩
          · exact none
      · exact none
    · exact none
  · exact none

theorem scanExponent_complete {x : GoStr} {e : Int} (h : ExponentText x e) (r : GoStr) : x.length ≤ (scanExponent (x ++ r)).1.length := by
  cases h with
  | none => simp
  | @plain c ds hc h =>
    obtain ⟨a, b, hs, hl⟩ := scanSome_ok (b := r) h.1 (isDec_all h.2)
    match ds, h, hs, hl with
    | d :: ds, h, hs, hl =>
      have hd := h.2 d (by simp)
      have hn : ¬ (d = 43 ∨ d = 45) := by rintro (rfl | rfl) <;> revert hd <;> decide
      simp only [List.cons_append] at hs
      simp only [List.cons_append, scanExponent, if_pos hc, if_neg hn, hs]
      simp at hl ⊢; omega
  | plus hc h =>
    obtain ⟨a, b, hs, hl⟩ := scanSome_ok (b := r) h.1 (isDec_all h.2)
    simp only [List.cons_append, scanExponent, if_pos hc, true_or, if_true, hs]
    simp; omega
  | minus hc h =>
    obtain ⟨a, b, hs, hl⟩ := scanSome_ok (b := r) h.1 (isDec_all h.2)
    simp only [List.cons_append, scanExponent, if_pos hc, or_true, if_true, hs]
    simp; omega

theorem scanNumber_sound {l tok rest : GoStr} (h : scanNumber l = some (tok, rest)) : l = tok ++ rest ∧ IsFloatLit tok := by
  have key : ∀ s neg l1, SignText s neg → l = s ++ l1 → ((scanMantissa l1).map fun (m, r) => (s ++ m ++ (scanExponent r).1, (scanExponent r).2)) = some (tok, rest) →
      l = tok ++ rest ∧ IsFloatLit tok := by
    intro s neg l1 hs e hm
    simp only [Option.map_eq_some_iff, Prod.mk.injEq, Prod.exists] at hm
    obtain ⟨m, r, h1, rfl, rfl⟩ := hm
    obtain ⟨e1, ⟨n, k, hmt⟩, _⟩ := scanMantissa_sound h1
    obtain ⟨e2, x, hx⟩ := scanExponent_sound r
    refine ⟨?_, neg, n, x - k, .mk hs hmt hx⟩
    rw [e, e1]
    simp only [List.append_assoc]
    rw [← e2]
  unfold scanNumber at h
  match l, h, key with
  | [], h, key => exact key [] false [] .none rfl h
  | c :: cs, h, key =>
    simp only at h
    by_cases h1 : c = 43
    · subst h1; exact key [43] false cs .plus rfl h
    · by_cases h2 : c = 45
      · subst h2; exact key [45] true cs .minus rfl h
      · rw [if_neg (by simp [h1, h2])] at h
        exact key [] false (c :: cs) .none rfl h

theorem scanNumber_complete {tok : GoStr} (h : IsFloatLit tok) (rest : GoStr) :
    ∃ tok' rest', scanNumber (tok ++ rest) = some (tok', rest') ∧ tok.length ≤ tok'.length := by
  obtain ⟨neg, n, e, h⟩ := h
  cases h with
  | @mk s m x _ _ k e' hs hm hx =>
    obtain ⟨M, R, h1, hl⟩ := scanMantissa_complete hm (x ++ rest)
    obtain ⟨e1, _, hb⟩ := scanMantissa_sound h1
    have key : ∃ tok' rest', ((scanMantissa (m ++ (x ++ rest))).map fun (m, r) => (s ++ m ++ (scanExponent r).1, (scanExponent r).2)) = some (tok', rest') ∧
        (s ++ m ++ x).length ≤ tok'.length := by
      refine ⟨_, _, by rw [h1]; rfl, ?_⟩
      have hle : m.length + x.length ≤ M.length + (scanExponent R).1.length := by
        by_cases hx0 : x = []
        · subst hx0; simp; omega
        · have hlen : M.length = m.length := by
            refine Nat.le_antisymm (Nat.le_of_not_lt fun hlt => ?_) hl
            obtain ⟨c, cs, rfl, hc⟩ : ∃ c cs, x = c :: cs ∧ (c = 101 ∨ c = 69) := by
              cases hx with
              | none => exact absurd rfl hx0
              | plain hc _ => exact ⟨_, _, rfl, hc⟩
              | plus hc _ => exact ⟨_, _, rfl, hc⟩
              | minus hc _ => exact ⟨_, _, rfl, hc⟩
            have hget : M[m.length]? = some c := by
              have e2 : (M ++ R)[m.length]? = some c := by rw [← e1]; simp
              rwa [List.getElem?_append_left hlt] at e2
            rcases hb c (List.mem_of_getElem? hget) with hd | rfl
            · rcases hc with rfl | rfl <;> revert hd <;> decide
            · revert hc; decide
          obtain ⟨rfl, rfl⟩ := List.append_inj e1 hlen.symm
          have := scanExponent_complete hx rest
          omega
      simp only [List.length_append]
      omega
    rw [List.append_assoc, List.append_assoc] at *
    unfold scanNumber
    cases hs with
    | plus => exact key
    | minus => exact key
    | none =>
      obtain ⟨c, cs, hc, hcs⟩ : ∃ c cs, m ++ (x ++ rest) = c :: cs ∧ ¬ (c = 43 ∨ c = 45) := by
        cases hm with
        | whole h =>
          match m, h with
          | d :: ds, h =>
            have hd := h.2 d (by simp)
            exact ⟨d, _, rfl, by rintro (rfl | rfl) <;> revert hd <;> decide⟩
        | @point ds fs h =>
          match ds, h with
          | d :: ds, h =>
            have hd := h.2 d (by simp)
            exact ⟨d, _, rfl, by rintro (rfl | rfl) <;> revert hd <;> decide⟩
          | [], h => exact ⟨46, _, rfl, by decide⟩
      simp only [List.nil_append] at key ⊢
      rw [hc] at key ⊢
      simp only [if_neg hcs]
      exact key

theorem scanNumber_iff (l tok rest : GoStr) : scanNumber l = some (tok, rest) ↔ LongestFloat l tok rest := by
  have key : scanNumber l = some (tok, rest) → LongestFloat l tok rest := by
    intro h
    obtain ⟨e, ht⟩ := scanNumber_sound h
    refine ⟨e, ht, fun tok' rest' e' ht' => ?_⟩
    obtain ⟨t, r, hs, hl⟩ := scanNumber_complete ht' rest'
    rw [← e', h] at hs
    cases hs
    exact hl
  refine ⟨key, fun h => ?_⟩
  obtain ⟨e, ht, hmax⟩ := h
  obtain ⟨t, r, hs, hl⟩ := scanNumber_complete ht rest
  rw [← e] at hs
  obtain ⟨e', ht'⟩ := scanNumber_sound hs
  have := hmax t r e' ht'
  have hlen : tok.length = t.length := by omega
  rw [hs]
  rw [e] at e'
  obtain ⟨h1, h2⟩ := List.append_inj e' hlen
  rw [h1, h2]

theorem scanNumber_none (l : GoStr) : scanNumber l = none ↔ ¬ ∃ tok rest, l = tok ++ rest ∧ IsFloatLit tok := by
  constructor
  · rintro h ⟨tok, rest, rfl, ht⟩
    obtain ⟨_, _, hs, _⟩ := scanNumber_complete ht rest
    rw [h] at hs; simp at hs
  · intro h
    cases hs : scanNumber l with
    | none => rfl
    | some x =>
      obtain ⟨e, ht⟩ := scanNumber_sound (tok := x.1) (rest := x.2) hs
      exact absurd ⟨_, _, e, ht⟩ h

/-! ## NaN -/

theorem scanNaN_iff (l w rest : GoStr) : scanNaN l = some (w, rest) ↔
    ∃ skip, l = skip ++ w ++ rest ∧ NanLetters w ∧ ∀ skip' w' rest', l = skip' ++ w' ++ rest' → NanLetters w' → skip.length ≤ skip'.length := by
  induction l with
  | nil =>
    simp only [scanNaN]
    constructor
    · intro h; simp at h
    · rintro ⟨skip, e, ⟨a, b, c, rfl, _⟩, _⟩
      simp at e
  | cons a cs ih =>
    by_cases hw : ∃ b c r, cs = b :: c :: r ∧ (a = 78 ∨ a = 110) ∧ (b = 65 ∨ b = 97) ∧ (c = 78 ∨ c = 110)
    · obtain ⟨b, c, r, rfl, h⟩ := hw
      rw [scanNaN]
      simp only [if_pos h, Option.some.injEq, Prod.mk.injEq]
      constructor
      · rintro ⟨rfl, rfl⟩
        exact ⟨[], rfl, ⟨a, b, c, rfl, h⟩, by simp⟩
      · rintro ⟨skip, e, hw, hmin⟩
        have := hmin [] [a, b, c] r rfl ⟨a, b, c, rfl, h⟩
        have : skip = [] := List.eq_nil_of_length_eq_zero (by simpa using this)
        subst this
        obtain ⟨a', b', c', rfl, _⟩ := hw
        simp at e
        obtain ⟨rfl, rfl, rfl, rfl⟩ := e
        exact ⟨rfl, rfl⟩
    · have hstep : scanNaN (a :: cs) = scanNaN cs := by
        match cs, hw with
        | [], _ => simp [scanNaN]
        | [x], _ => simp [scanNaN]
        | b :: c :: r, hw =>
          rw [scanNaN, if_neg]
          rintro h
          exact hw ⟨b, c, r, rfl, h⟩
      have no0 : ∀ w' rest', NanLetters w' → a :: cs ≠ w' ++ rest' := by
        rintro _ rest' ⟨a', b', c', rfl, h⟩ e
        simp at e
        obtain ⟨rfl, rfl⟩ := e
        exact hw ⟨b', c', rest', rfl, h⟩
      rw [hstep, ih]
      constructor
      · rintro ⟨skip, rfl, hl, hmin⟩
        refine ⟨a :: skip, rfl, hl, ?_⟩
        intro skip' w' rest' e hw'
        cases skip' with
        | nil => exact absurd e (no0 _ _ hw')
        | cons x skip' =>
          simp only [List.cons_append, List.cons.injEq] at e
          have := hmin skip' w' rest' (by simpa using e.2) hw'
          simp; omega
      · rintro ⟨skip, e, hl, hmin⟩
        cases skip with
        | nil => exact absurd e (no0 _ _ hl)
        | cons x skip =>
          simp only [List.cons_append, List.cons.injEq] at e
          refine ⟨skip, e.2, hl, fun skip' w' rest' e' hw' => ?_⟩
          have := hmin (a :: skip') w' rest' (by simp [e']) hw'
          simp at this; omega

/-- Whatever is read from the letters of "nan" is a NaN. -/
structure NanOK (F : FloatText) : Prop where
  nan32 : ∀ w, NanLetters w → ∀ b, F.parse32 w = some b → isNaN32 b = true
  nan64 : ∀ w, NanLetters w → ∀ b, F.parse64 w = some b → isNaN64 b = true

theorem nanLetters_NaN : NanLetters (gs! "NaN") := ⟨78, 97, 78, rfl, by decide, by decide, by decide⟩

theorem floatLit_ne_NaN {tok : GoStr} (h : IsFloatLit tok) : tok ≠ gs! "NaN" := by
  obtain ⟨neg, n, e, h⟩ := h
  cases h with
  | @mk s m x _ _ k e' hs hm hx =>
    intro heq
    cases hs with
    | plus => simp at heq
    | minus => simp at heq
    | none =>
      cases hm with
      | whole h =>
        match m, h with
        | d :: ds, h =>
          have hd := h.2 d (by simp)
          simp only [List.nil_append, List.cons_append, List.cons.injEq] at heq
          rw [heq.1] at hd; revert hd; decide
      | @point ds fs h =>
        match ds, h with
        | d :: ds, h =>
          have hd := h.2 d (by simp)
          simp only [List.nil_append, List.cons_append, List.cons.injEq] at heq
          rw [heq.1] at hd; revert hd; decide
        | [], h => simp at heq

theorem readFloat64_iff {F : FloatText} (hF : NanOK F) (l : GoStr) (b : BitVec 64) (rest : GoStr) : readFloat64 F l = .ok (b, rest) ↔
    (∃ tok, LongestFloat l tok rest ∧ F.parse64 tok = some b ∧ isNaN64 b = false) ∨
    ((¬ ∃ tok rest, l = tok ++ rest ∧ IsFloatLit tok) ∧ FirstNaN l rest ∧ F.parse64 (gs! "NaN") = some b) := by
  unfold readFloat64 scanFloat
  cases hs : scanNumber l with
  | some x =>
    obtain ⟨tok, r⟩ := x
    have hl := (scanNumber_iff _ _ _).1 hs
    have hne := floatLit_ne_NaN hl.2.1
    have huniq : ∀ tok', LongestFloat l tok' rest → tok' = tok ∧ rest = r := by
      intro tok' h
      have := (scanNumber_iff _ _ _).2 h
      rw [hs] at this
      simp only [Option.some.injEq, Prod.mk.injEq] at this
      exact ⟨this.1.symm, this.2.symm⟩
    simp only
    constructor
    · intro h
      cases hp : F.parse64 tok with
      | none => simp [hp] at h
      | some b' =>
        simp only [hp] at h
        split at h
        · simp at h
        · next hn =>
          simp only [Out.ok.injEq, Prod.mk.injEq] at h
          obtain ⟨rfl, rfl⟩ := h
          refine .inl ⟨tok, hl, hp, ?_⟩
          cases hb : isNaN64 b' with
          | false => rfl
          | true => exact absurd ⟨hb, hne⟩ hn
    · rintro (⟨tok', h1, h2, h3⟩ | ⟨h, _⟩)
      · obtain ⟨rfl, rfl⟩ := huniq _ h1
        simp [h2, h3]
      · exact absurd ⟨tok, r, hl.1, hl.2.1⟩ h
  | none =>
    have hno := (scanNumber_none l).1 hs
    simp only
    have nolong : ¬ ∃ tok, LongestFloat l tok rest ∧ F.parse64 tok = some b ∧ isNaN64 b = false := by
      rintro ⟨tok, h, _⟩
      exact hno ⟨_, _, h.1, h.2.1⟩
    constructor
    · intro h
      split at h
      · simp at h
      · next w r hw =>
        obtain ⟨skip, e, hl, hmin⟩ := (scanNaN_iff _ _ _).1 hw
        cases hp : F.parse64 w with
        | none => simp [hp] at h
        | some b' =>
          simp only [hp] at h
          split at h
          · simp at h
          · next hn =>
            simp only [Out.ok.injEq, Prod.mk.injEq] at h
            obtain ⟨rfl, rfl⟩ := h
            have hwn : w = gs! "NaN" := by
              refine Decidable.byContradiction fun hne => hn ⟨hF.nan64 w hl _ hp, hne⟩
            rw [hwn] at hp e
            exact .inr ⟨hno, ⟨skip, e, hmin⟩, hp⟩
    · rintro (h | ⟨_, ⟨skip, e, hmin⟩, hp⟩)
      · exact absurd h nolong
      · rw [(scanNaN_iff l (gs! "NaN") rest).2 ⟨skip, e, nanLetters_NaN, hmin⟩]
        simp [hp]

theorem readFloat32_iff {F : FloatText} (hF : NanOK F) (l : GoStr) (b : BitVec 32) (rest : GoStr) : readFloat32 F l = .ok (b, rest) ↔
    (∃ tok, LongestFloat l tok rest ∧ F.parse32 tok = some b ∧ isNaN32 b = false) ∨
    ((¬ ∃ tok rest, l = tok ++ rest ∧ IsFloatLit tok) ∧ FirstNaN l rest ∧ F.parse32 (gs! "NaN") = some b) := by
  unfold readFloat32 scanFloat
  cases hs : scanNumber l with
  | some x =>
    obtain ⟨tok, r⟩ := x
    have hl := (scanNumber_iff _ _ _).1 hs
    have hne := floatLit_ne_NaN hl.2.1
    have huniq : ∀ tok', LongestFloat l tok' rest → tok' = tok ∧ rest = r := by
      intro tok' h
      have := (scanNumber_iff _ _ _).2 h
      rw [hs] at this
      simp only [Option.some.injEq, Prod.mk.injEq] at this
      exact ⟨this.1.symm, this.2.symm⟩
    simp only
    constructor
    · intro h
      cases hp : F.parse32 tok with
      | none => simp [hp] at h
      | some b' =>
        simp only [hp] at h
        split at h
        · simp at h
        · next hn =>
          simp only [Out.ok.injEq, Prod.mk.injEq] at h
          obtain ⟨rfl, rfl⟩ := h
          refine .inl ⟨tok, hl, hp, ?_⟩
          cases hb : isNaN32 b' with
          | false => rfl
          | true => exact absurd ⟨hb, hne⟩ hn
    · rintro (⟨tok', h1, h2, h3⟩ | ⟨h, _⟩)
      · obtain ⟨rfl, rfl⟩ := huniq _ h1
        simp [h2, h3]
      · exact absurd ⟨tok, r, hl.1, hl.2.1⟩ h
  | none =>
    have hno := (scanNumber_none l).1 hs
    simp only
    have nolong : ¬ ∃ tok, LongestFloat l tok rest ∧ F.parse32 tok = some b ∧ isNaN32 b = false := by
      rintro ⟨tok, h, _⟩
      exact hno ⟨_, _, h.1, h.2.1⟩
    constructor
    · intro h
      split at h
      · simp at h
      · next w r hw =>
        obtain ⟨skip, e, hl, hmin⟩ := (scanNaN_iff _ _ _).1 hw
        cases hp : F.parse32 w with
        | none => simp [hp] at h
        | some b' =>
          simp only [hp] at h
          split at h
          · simp at h
          · next hn =>
            simp only [Out.ok.injEq, Prod.mk.injEq] at h
            obtain ⟨rfl, rfl⟩ := h
            have hwn : w = gs! "NaN" := by
              refine Decidable.byContradiction fun hne => hn ⟨hF.nan32 w hl _ hp, hne⟩
            rw [hwn] at hp e
            exact .inr ⟨hno, ⟨skip, e, hmin⟩, hp⟩
    · rintro (h | ⟨_, ⟨skip, e, hmin⟩, hp⟩)
      · exact absurd h nolong
      · rw [(scanNaN_iff l (gs! "NaN") rest).2 ⟨skip, e, nanLetters_NaN, hmin⟩]
        simp [hp]

end Verif
