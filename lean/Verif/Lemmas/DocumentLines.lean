import Verif.Spec.Document
import Verif.Lemmas.ValuesText

/-!
# Lemmas: lines, words and names of a text
-/

namespace Verif

/-! ## Lines -/

theorem splitLines_of_notMem {l : GoStr} (h : 10 ∉ l) : splitLines l = [l] := by
  induction l with
  | nil => rfl
  | cons c cs ih =>
    simp only [List.mem_cons, not_or] at h
    rw [splitLines, if_neg (fun e => h.1 e.symm), ih h.2]

theorem LinesOf.splitLines {s : GoStr} {ls : List GoStr} (h : LinesOf s ls) : splitLines s = ls := by
  induction h with
  | last h => exact splitLines_of_notMem h
  | cons h _ ih => rw [splitLines_line _ _ h, ih]

theorem LinesOf.exists (s : GoStr) : ∃ ls, LinesOf s ls := by
  induction s with
  | nil => exact ⟨_, .last (by simp)⟩
  | cons c cs ih =>
    obtain ⟨ls, h⟩ := ih
    by_cases hc : c = 10
    · subst hc
      exact ⟨_, .cons (l := []) (by simp) h⟩
    · cases h with
      | last h => exact ⟨_, .last (by simp [Ne.symm hc, h])⟩
      | @cons l more ls h h2 =>
        exact ⟨_, .cons (l := c :: l) (by simp [Ne.symm hc, h]) h2⟩

theorem LinesOf.split (s : GoStr) : LinesOf s (Verif.splitLines s) := by
  obtain ⟨ls, h⟩ := LinesOf.exists s
  rwa [h.splitLines]

theorem LinesOf.noNewline {s : GoStr} {ls : List GoStr} (h : LinesOf s ls) : ∀ l ∈ ls, 10 ∉ l := by
  induction h with
  | last h => simpa using h
  | cons h _ ih =>
    intro l hl
    rcases List.mem_cons.1 hl with rfl | hl
    · exact h
    · exact ih l hl

/-! ## White space -/

theorem spaceRune_iff (r : Nat) : SpaceRune r ↔ isSpaceRune r = true := by
  simp only [isSpaceRune, Bool.or_eq_true, Bool.and_eq_true, decide_eq_true_eq, SpaceRune]
  omega

theorem SpaceRune.mem {r : Nat} (h : SpaceRune r) :
    r ∈ [9, 10, 11, 12, 13, 0x20, 0x85, 0xA0, 0x1680, 0x2000, 0x2001, 0x2002, 0x2003, 0x2004, 0x2005, 0x2006, 0x2007, 0x2008, 0x2009, 0x200A,
      0x2028, 0x2029, 0x202F, 0x205F, 0x3000] := isSpaceRune_cases ((spaceRune_iff r).1 h)

theorem SpaceRune.valid {r : Nat} (h : SpaceRune r) : ValidRune r := by
  unfold SpaceRune at h
  unfold ValidRune
  omega

/-- The first byte of an encoded space, and the other bytes. -/
theorem SpaceRune.bytes {r : Nat} (h : SpaceRune r) :
    ∃ c cs, encodeRune r = c :: cs ∧ (c.toNat < 0x80 ∨ 0xC0 ≤ c.toNat) ∧ ∀ x ∈ cs, 0x80 ≤ x.toNat ∧ x.toNat < 0xC0 := by
  have key : ∀ r ∈ [9, 10, 11, 12, 13, 0x20, 0x85, 0xA0, 0x1680, 0x2000, 0x2001, 0x2002, 0x2003, 0x2004, 0x2005, 0x2006, 0x2007, 0x2008, 0x2009, 0x200A,
      0x2028, 0x2029, 0x202F, 0x205F, 0x3000],
      encodeRune r ≠ [] ∧ (∀ c ∈ (encodeRune r).take 1, c.toNat < 0x80 ∨ 0xC0 ≤ c.toNat) ∧ ∀ x ∈ (encodeRune r).tail, 0x80 ≤ x.toNat ∧ x.toNat < 0xC0 := by
    decide +kernel
  obtain ⟨h1, h2, h3⟩ := key r h.mem
  cases e : encodeRune r with
  | nil => exact absurd e h1
  | cons c cs =>
    rw [e] at h2 h3
    exact ⟨c, cs, rfl, h2 c (by simp), h3⟩

theorem trimSpaceLeft_drop (k : Nat) (a b : GoStr) (h : a.length = k) : trimSpaceLeft k (a ++ b) = trimSpaceLeft 0 b := by
  induction a generalizing k with
  | nil => subst h; rfl
  | cons c cs ih =>
    subst h
    simp only [List.length_cons, List.cons_append, trimSpaceLeft]
    exact ih _ rfl

theorem trimSpaceLeft_space {r : Nat} (h : SpaceRune r) (s : GoStr) : trimSpaceLeft 0 (encodeRune r ++ s) = trimSpaceLeft 0 s := by
  have hd := decode_encode h.valid s
  obtain ⟨c, cs, e, _⟩ := h.bytes
  rw [e] at hd ⊢
  simp only [List.cons_append] at hd ⊢
  simp only [trimSpaceLeft, hd, (spaceRune_iff r).1 h, if_true, List.length_cons, Nat.add_sub_cancel]
  exact trimSpaceLeft_drop _ _ _ rfl

theorem trimSpaceLeft_spaces {p : GoStr} (h : SpaceText p) (s : GoStr) : trimSpaceLeft 0 (p ++ s) = trimSpaceLeft 0 s := by
  induction h with
  | nil => rfl
  | cons hr _ ih => rw [List.append_assoc, trimSpaceLeft_space hr, ih]

theorem trimSpaceLeft_none {s : GoStr} (h : ∀ r, SpaceRune r → ¬ encodeRune r <+: s) : trimSpaceLeft 0 s = s := by
  cases s with
  | nil => rfl
  | cons c cs =>
    simp only [trimSpaceLeft]
    split
    · next r w hd =>
      split
      · next hr =>
        obtain ⟨_, _, rest, e⟩ := encode_decode hd
        exact absurd ⟨rest, e.symm⟩ (h r ((spaceRune_iff r).2 hr))
      · rfl
    · rfl

theorem trimSpaceLeft_split (s : GoStr) : ∃ p, SpaceText p ∧ s = p ++ trimSpaceLeft 0 s ∧ ∀ r, SpaceRune r → ¬ encodeRune r <+: trimSpaceLeft 0 s := by
  suffices H : ∀ n (s : GoStr), s.length ≤ n → ∃ p, SpaceText p ∧ s = p ++ trimSpaceLeft 0 s ∧ ∀ r, SpaceRune r → ¬ encodeRune r <+: trimSpaceLeft 0 s from H _ s (Nat.le_refl _)
  intro n
  induction n with
  | zero =>
    intro s hs
    have : s = [] := List.eq_nil_of_length_eq_zero (by omega)
    subst this
    refine ⟨[], .nil, rfl, fun r hr hp => ?_⟩
    obtain ⟨c, cs, e, _⟩ := hr.bytes
    rw [e] at hp
    simp [trimSpaceLeft] at hp
  | succ n ih =>
    intro s hs
    by_cases hex : ∃ r, SpaceRune r ∧ encodeRune r <+: s
    · obtain ⟨r, hr, rest, e⟩ := hex
      obtain ⟨c, cs, e1, _⟩ := hr.bytes
      have hlen : rest.length ≤ n := by
        rw [← e, e1] at hs
        simp at hs
        omega
      obtain ⟨p, h1, h2, h3⟩ := ih rest hlen
      rw [← e, trimSpaceLeft_space hr]
      exact ⟨encodeRune r ++ p, .cons hr h1, by rw [List.append_assoc, ← h2], h3⟩
    · have hno : ∀ r, SpaceRune r → ¬ encodeRune r <+: s := fun r hr hp => hex ⟨r, hr, hp⟩
      rw [trimSpaceLeft_none hno]
      exact ⟨[], .nil, rfl, hno⟩

/-- What the last bytes of an encoded space look like. -/
def spaceRevOK (r : Nat) : Bool :=
  match (encodeRune r).reverse with
  | [c] => decide (c.toNat < 0x80) && isSpaceRune c.toNat
  | [c, d] => decide (0x80 ≤ c.toNat) && decide (d = 0xC2) && decide (c = 0x85 ∨ c = 0xA0)
  | [c, d, e] => decide (0x80 ≤ c.toNat) && decide (d ≠ 0xC2) && decide (decodeRune? [e, d, c] = some (r, 3)) && isSpaceRune r
  | _ => false

theorem SpaceRune.rev {r : Nat} (h : SpaceRune r) : spaceRevOK r = true := by
  have key : ∀ r ∈ [9, 10, 11, 12, 13, 0x20, 0x85, 0xA0, 0x1680, 0x2000, 0x2001, 0x2002, 0x2003, 0x2004, 0x2005, 0x2006, 0x2007, 0x2008, 0x2009, 0x200A,
      0x2028, 0x2029, 0x202F, 0x205F, 0x3000], spaceRevOK r = true := by decide +kernel
  exact key r h.mem

theorem trimSpaceRev_space {r : Nat} (h : SpaceRune r) (s : GoStr) : trimSpaceRev ((encodeRune r).reverse ++ s) = trimSpaceRev s := by
  have hr := h.rev
  unfold spaceRevOK at hr
  split at hr
  · next c e =>
    simp only [Bool.and_eq_true, decide_eq_true_eq] at hr
    rw [e, List.cons_append, List.nil_append, trimSpaceRev.eq_def]
    simp only [if_pos hr.1, if_pos hr.2]
  · next c d e =>
    simp only [Bool.and_eq_true, decide_eq_true_eq] at hr
    rw [e, List.cons_append, List.cons_append, List.nil_append, trimSpaceRev.eq_def]
    simp only [if_neg (Nat.not_lt.2 hr.1.1)]
    rw [if_pos ⟨hr.1.2, hr.2⟩]
  · next c d e he =>
    simp only [Bool.and_eq_true, decide_eq_true_eq] at hr
    rw [he, List.cons_append, List.cons_append, List.cons_append, List.nil_append, trimSpaceRev.eq_def]
    simp only [if_neg (Nat.not_lt.2 hr.1.1.1)]
    rw [if_neg (fun hx => hr.1.1.2 hx.1), hr.1.2]
    simp only [hr.2, if_true]
  · simp at hr

theorem trimSpaceRev_none {s : GoStr} (h : ∀ r, SpaceRune r → ¬ (encodeRune r).reverse <+: s) : trimSpaceRev s = s := by
  rw [trimSpaceRev.eq_def]
  split
  · rfl
  · next c cs =>
    split
    · next hc =>
      split
      · next hs =>
        refine absurd ?_ (h c.toNat ((spaceRune_iff _).2 hs))
        have : encodeRune c.toNat = [c] := by
          have hv : ValidRune c.toNat := by unfold ValidRune; omega
          unfold encodeRune
          rw [if_pos hv, if_pos hc]
          simp
        rw [this]
        exact ⟨cs, rfl⟩
      · rfl
    · next hc =>
      split
      · rfl
      · next d ds =>
        split
        · next h2 =>
          obtain ⟨rfl, rfl | rfl⟩ := h2
          · exact absurd ⟨ds, rfl⟩ (h 0x85 (by simp [SpaceRune]))
          · exact absurd ⟨ds, rfl⟩ (h 0xA0 (by simp [SpaceRune]))
        · split
          · rfl
          · next e es =>
            split
            · next r hd =>
              split
              · next hs =>
                obtain ⟨_, hw, rest, he⟩ := encode_decode hd
                have hr0 : rest = [] := by
                  have := congrArg List.length he
                  rw [List.length_append, ← hw] at this
                  simp at this
                  exact this
                rw [hr0, List.append_nil] at he
                refine absurd ⟨es, ?_⟩ (h r ((spaceRune_iff _).2 hs))
                rw [← he]
                rfl
              · rfl
            · rfl

theorem trimSpaceRight_space {r : Nat} (h : SpaceRune r) (s : GoStr) : (trimSpaceRev (s ++ encodeRune r).reverse).reverse = (trimSpaceRev s.reverse).reverse := by
  rw [List.reverse_append, trimSpaceRev_space h]

theorem trimSpaceRight_none {s : GoStr} (h : ∀ r, SpaceRune r → ¬ encodeRune r <:+ s) : (trimSpaceRev s.reverse).reverse = s := by
  rw [trimSpaceRev_none, List.reverse_reverse]
  intro r hr hp
  exact h r hr (List.reverse_prefix.1 hp)

theorem SpaceText.append {p q : GoStr} (hp : SpaceText p) (hq : SpaceText q) : SpaceText (p ++ q) := by
  induction hp with
  | nil => exact hq
  | cons hr _ ih => rw [List.append_assoc]; exact .cons hr ih

theorem SpaceText.rune {r : Nat} (h : SpaceRune r) : SpaceText (encodeRune r) := by
  have := SpaceText.cons h .nil
  rwa [List.append_nil] at this

theorem trimSpaceRight_spaces {p : GoStr} (h : SpaceText p) (s : GoStr) : (trimSpaceRev (s ++ p).reverse).reverse = (trimSpaceRev s.reverse).reverse := by
  induction h generalizing s with
  | nil => rw [List.append_nil]
  | cons hr _ ih => rw [← List.append_assoc, ih, trimSpaceRight_space hr]

theorem trimSpaceRight_split (s : GoStr) :
    ∃ p, SpaceText p ∧ s = (trimSpaceRev s.reverse).reverse ++ p ∧ ∀ r, SpaceRune r → ¬ encodeRune r <:+ (trimSpaceRev s.reverse).reverse := by
  suffices H : ∀ n (s : GoStr), s.length ≤ n → ∃ p, SpaceText p ∧ s = (trimSpaceRev s.reverse).reverse ++ p ∧
      ∀ r, SpaceRune r → ¬ encodeRune r <:+ (trimSpaceRev s.reverse).reverse from H _ s (Nat.le_refl _)
  intro n
  induction n with
  | zero =>
    intro s hs
    have : s = [] := List.eq_nil_of_length_eq_zero (by omega)
    subst this
    refine ⟨[], .nil, rfl, fun r hr hp => ?_⟩
    obtain ⟨c, cs, e, _⟩ := hr.bytes
    rw [e] at hp
    simp [trimSpaceRev] at hp
  | succ n ih =>
    intro s hs
    by_cases hex : ∃ r, SpaceRune r ∧ encodeRune r <:+ s
    · obtain ⟨r, hr, rest, e⟩ := hex
      obtain ⟨c, cs, e1, _⟩ := hr.bytes
      have hlen : rest.length ≤ n := by
        rw [← e, e1] at hs
        simp at hs
        omega
      obtain ⟨p, h1, h2, h3⟩ := ih rest hlen
      rw [← e, trimSpaceRight_space hr]
      exact ⟨p ++ encodeRune r, h1.append (.rune hr), by rw [← List.append_assoc, ← h2], h3⟩
    · have hno : ∀ r, SpaceRune r → ¬ encodeRune r <:+ s := fun r hr hp => hex ⟨r, hr, hp⟩
      rw [trimSpaceRight_none hno]
      exact ⟨[], .nil, by simp, hno⟩

/-- White space after a text does not become white space before it. -/
theorem noSpacePrefix_append {m q : GoStr} (hm : m ≠ []) (h : ∀ r, SpaceRune r → ¬ encodeRune r <+: m) (hq : SpaceText q) :
    ∀ r, SpaceRune r → ¬ encodeRune r <+: m ++ q := by
  rintro r hr ⟨rest, e⟩
  rcases List.append_eq_append_iff.1 e with ⟨x, e1, e2⟩ | ⟨x, e1, e2⟩
  · exact h r hr ⟨x, e1.symm⟩
  · cases x with
    | nil => exact h r hr ⟨[], by rw [e1]; simp⟩
    | cons d ds =>
      obtain ⟨c, cs, e3, _, h3⟩ := hr.bytes
      rw [e1] at e3
      obtain ⟨m0, ms, rfl⟩ := List.exists_cons_of_ne_nil hm
      simp only [List.cons_append, List.cons.injEq] at e3
      have hd := h3 d (by rw [← e3.2]; simp)
      cases hq with
      | nil => simp at e2
      | cons hr2 _ =>
        obtain ⟨c', cs', e4, h4, _⟩ := hr2.bytes
        rw [e4] at e2
        simp only [List.cons_append, List.cons.injEq] at e2
        rw [← e2.1] at hd
        omega

theorem Trimmed.trimSpace {l m : GoStr} (h : Trimmed l m) : Verif.trimSpace l = m := by
  obtain ⟨p, q, rfl, hp, hq, hm⟩ := h
  rw [Verif.trimSpace, List.append_assoc, trimSpaceLeft_spaces hp]
  by_cases he : m = []
  · subst he
    have hq' := trimSpaceLeft_spaces hq []
    rw [List.append_nil] at hq'
    rw [List.nil_append, hq']
    rfl
  · rw [trimSpaceLeft_none (noSpacePrefix_append he (fun r hr => (hm r hr).1) hq), trimSpaceRight_spaces hq, trimSpaceRight_none fun r hr => (hm r hr).2]

theorem Trimmed.trim (l : GoStr) : Trimmed l (Verif.trimSpace l) := by
  obtain ⟨p, hp, e1, h1⟩ := trimSpaceLeft_split l
  obtain ⟨q, hq, e2, h2⟩ := trimSpaceRight_split (trimSpaceLeft 0 l)
  refine ⟨p, q, ?_, hp, hq, fun r hr => ⟨fun hx => ?_, h2 r hr⟩⟩
  · rw [List.append_assoc]
    exact e1.trans (congrArg _ e2)
  · apply h1 r hr
    rw [e2]
    exact hx.trans (List.prefix_append _ _)

theorem trimmed_iff (l m : GoStr) : Trimmed l m ↔ Verif.trimSpace l = m := ⟨Trimmed.trimSpace, fun h => h ▸ Trimmed.trim l⟩

theorem pointwise_trimmed (ls ms : List GoStr) : Pointwise Trimmed ls ms ↔ ms = ls.map Verif.trimSpace := by
  induction ls generalizing ms with
  | nil => cases ms <;> simp [Pointwise]
  | cons l ls ih =>
    cases ms with
    | nil => simp [Pointwise]
    | cons m ms => simp only [Pointwise, ih, trimmed_iff, List.map_cons, List.cons.injEq, eq_comm]

/-! ## Words -/

theorem sliceBlank_iff (c : UInt8) : SliceBlank c ↔ isWhite c = true := by
  simp [SliceBlank, isWhite, or_assoc]

theorem not_sliceBlank_iff (c : UInt8) : ¬ SliceBlank c ↔ isWhite c = false := by
  rw [sliceBlank_iff]; simp

theorem whiteSplit_ne (l : GoStr) : whiteSplit l ≠ [] := by
  induction l with
  | nil => simp [whiteSplit]
  | cons c cs ih =>
    rw [whiteSplit.eq_def]
    simp only
    split
    · split
      · simp
      · split
        · exact ih
        · simp
    · split <;> simp

theorem whiteSplit_word {w : GoStr} (h : ∀ c ∈ w, isWhite c = false) : whiteSplit w = [w] := by
  have := whiteSplit_append w [] [] [] h rfl
  simpa using this

theorem whiteSplit_gap {gap : GoStr} (hne : gap ≠ []) (h : ∀ c ∈ gap, isWhite c = true) {d : UInt8} (hd : isWhite d = false) (ds : GoStr) :
    whiteSplit (gap ++ d :: ds) = [] :: whiteSplit (d :: ds) := by
  induction gap with
  | nil => exact absurd rfl hne
  | cons c cs ih =>
    have hc := h c (by simp)
    cases cs with
    | nil =>
      rw [List.cons_append, List.nil_append, whiteSplit.eq_def]
      simp only [hc, if_true, hd, Bool.false_eq_true, if_false]
    | cons c' cs =>
      have := ih (by simp) fun x hx => h x (by simp [hx])
      rw [List.cons_append, List.cons_append, whiteSplit.eq_def]
      simp only [hc, if_true, h c' (by simp)]
      exact this

theorem Words.head {l : GoStr} {ws : List GoStr} (h : Words l ws) : ∃ d ds, l = d :: ds ∧ isWhite d = false := by
  cases h with
  | one h1 h2 =>
    obtain ⟨d, ds, rfl⟩ := List.exists_cons_of_ne_nil h1
    exact ⟨d, ds, rfl, (not_sliceBlank_iff d).1 (h2 d (by simp))⟩
  | cons h1 h2 =>
    rename_i w _ _ _ _ _ _
    obtain ⟨d, ds, rfl⟩ := List.exists_cons_of_ne_nil h1
    exact ⟨d, _, rfl, (not_sliceBlank_iff d).1 (h2 d (by simp))⟩

theorem Words.split {l : GoStr} {ws : List GoStr} (h : Words l ws) : whiteSplit l = ws := by
  induction h with
  | one h1 h2 => exact whiteSplit_word fun c hc => (not_sliceBlank_iff c).1 (h2 c hc)
  | @cons w gap more ws h1 h2 h3 h4 h5 ih =>
    obtain ⟨d, ds, rfl, hd⟩ := h5.head
    have hg := whiteSplit_gap h3 (fun c hc => (sliceBlank_iff c).1 (h4 c hc)) hd ds
    rw [List.append_assoc, whiteSplit_append _ _ _ _ (fun c hc => (not_sliceBlank_iff c).1 (h2 c hc)) hg, ih, List.append_nil]

/-- A line that is not empty and has no white characters around it. -/
def CleanEnds (l : GoStr) : Prop := (∃ d ds, l = d :: ds ∧ isWhite d = false) ∧ ∃ d, l.getLast? = some d ∧ isWhite d = false

theorem words_exists {l : GoStr} (h : CleanEnds l) : ∃ ws, Words l ws := by
  suffices H : ∀ n (l : GoStr), l.length ≤ n → CleanEnds l → ∃ ws, Words l ws from H _ l (Nat.le_refl _) h
  intro n
  induction n with
  | zero =>
    rintro l hl ⟨⟨d, ds, rfl, _⟩, _⟩
    simp at hl
  | succ n ih =>
    rintro l hl ⟨⟨d, ds, rfl, hd⟩, e, he, hew⟩
    have hw : ∀ c ∈ (d :: ds).takeWhile (fun c => !isWhite c), ¬ SliceBlank c := fun c hc => by
      have := List.all_eq_true.1 (List.all_takeWhile (p := fun c => !isWhite c) (l := d :: ds)) c hc
      rw [not_sliceBlank_iff]
      simpa using this
    have hw0 : (d :: ds).takeWhile (fun c => !isWhite c) ≠ [] := by simp [hd]
    have e1 := (List.takeWhile_append_dropWhile (p := fun c => !isWhite c) (l := d :: ds)).symm
    cases hr : (d :: ds).dropWhile (fun c => !isWhite c) with
    | nil =>
      rw [hr, List.append_nil] at e1
      rw [← e1] at hw
      exact ⟨_, .one (by simp) hw⟩
    | cons g gs =>
      rw [hr] at e1
      have hg : isWhite g = true := by
        have := List.head?_dropWhile_not (fun c => !isWhite c) (d :: ds)
        rw [hr] at this
        simpa using this
      have e2 := (List.takeWhile_append_dropWhile (p := isWhite) (l := g :: gs)).symm
      have hgap : ∀ c ∈ (g :: gs).takeWhile isWhite, SliceBlank c := fun c hc =>
        (sliceBlank_iff c).2 (List.all_eq_true.1 (List.all_takeWhile (p := isWhite) (l := g :: gs)) c hc)
      have hgap0 : (g :: gs).takeWhile isWhite ≠ [] := by simp [hg]
      have hlast : (g :: gs).getLast? = some e := by
        rw [e1, List.getLast?_append] at he
        cases hx : (g :: gs).getLast? with
        | none => simp at hx
        | some y => rw [hx] at he; simpa using he
      cases hr2 : (g :: gs).dropWhile isWhite with
      | nil =>
        rw [hr2, List.append_nil] at e2
        rw [e2] at hlast
        have := (sliceBlank_iff e).1 (hgap e (List.mem_of_getLast? hlast))
        rw [hew] at this
        simp at this
      | cons m ms =>
        rw [hr2] at e2
        have hm : isWhite m = false := by
          have := List.head?_dropWhile_not isWhite (g :: gs)
          rw [hr2] at this
          simpa using this
        have hlast2 : (m :: ms).getLast? = some e := by
          rw [e2, List.getLast?_append] at hlast
          cases hx : (m :: ms).getLast? with
          | none => simp at hx
          | some y => rw [hx] at hlast; simpa using hlast
        have hlen : (m :: ms).length ≤ n := by
          have h1 := congrArg List.length e1
          have h2 := congrArg List.length e2
          rw [List.length_append] at h1 h2
          have := List.length_pos_iff.2 hw0
          omega
        obtain ⟨ws, hws⟩ := ih (m :: ms) hlen ⟨⟨m, ms, rfl, hm⟩, e, hlast2, hew⟩
        have hc := Words.cons hw0 hw hgap0 hgap hws
        rw [List.append_assoc, ← e2, ← e1] at hc
        exact ⟨_, hc⟩

theorem words_iff {l : GoStr} (h : CleanEnds l) (ws : List GoStr) : Words l ws ↔ whiteSplit l = ws := by
  refine ⟨Words.split, fun e => ?_⟩
  obtain ⟨ws', h'⟩ := words_exists h
  rw [← e, h'.split]
  exact h'

/-! ## Names -/

theorem wideLetter_iff (c : UInt8) : WideLetter c ↔ (isLetterByte c || c = 95) = true :=
  forall_uint8 (p := fun c => (((65 ≤ c.toNat ∧ c.toNat ≤ 90) ∨ (97 ≤ c.toNat ∧ c.toNat ≤ 122) ∨ c = 95) ∨ c = 0xAA ∨ c = 0xB5 ∨ c = 0xBA ∨
    (0xC0 ≤ c.toNat ∧ c ≠ 0xD7 ∧ c ≠ 0xF7)) ↔ (isLetterByte c || c = 95) = true) (by decide +kernel) c

theorem wideDigit_iff (c : UInt8) : WideDigit c ↔ isNumberByte c = true :=
  forall_uint8 (p := fun c => ((48 ≤ c.toNat ∧ c.toNat ≤ 57) ∨ c = 0xB2 ∨ c = 0xB3 ∨ c = 0xB9 ∨ c = 0xBC ∨ c = 0xBD ∨ c = 0xBE) ↔ isNumberByte c = true)
    (by decide +kernel) c

theorem ofName?_none_iff (n : GoStr) : ColType.ofName? n = none ↔ ∀ ty : ColType, n ≠ ty.name := by
  constructor
  · rintro h ty rfl
    rw [ofName?_name] at h
    simp at h
  · intro h
    cases hx : ColType.ofName? n with
    | none => rfl
    | some ty => exact absurd (ofName?_eq hx) (h ty)

theorem colName_iff (n : GoStr) : ColName n ↔ isValidColName n = true := by
  rw [isValidColName, Bool.and_eq_true, Option.isNone_iff_eq_none, ofName?_none_iff]
  unfold ColName
  rw [← and_assoc]
  refine and_congr_left fun _ => ?_
  cases n with
  | nil => simp [isValidName]
  | cons c cs =>
    simp only [isValidName, Bool.and_eq_true, List.all_eq_true]
    rw [← wideLetter_iff]
    constructor
    · rintro ⟨⟨c', cs', e, hc⟩, h⟩
      cases e
      refine ⟨hc, fun x hx => ?_⟩
      rcases h x (by simp [hx]) with h | h
      · rw [(wideLetter_iff x).1 h]; rfl
      · rw [(wideDigit_iff x).1 h]; simp
    · rintro ⟨hc, h⟩
      refine ⟨⟨c, cs, rfl, hc⟩, fun x hx => ?_⟩
      rcases List.mem_cons.1 hx with rfl | hx
      · exact .inl hc
      · have := h x hx
        rw [Bool.or_eq_true] at this
        rcases this with h | h
        · exact .inl ((wideLetter_iff x).2 h)
        · exact .inr ((wideDigit_iff x).2 h)

theorem PlainName.ascii {n : GoStr} (h : PlainName n) : Ascii n := by
  intro c hc
  rcases h.2 c hc with (h | h | rfl) | h
  · omega
  · omega
  · decide
  · omega

theorem TableName.valid {n : GoStr} (h : TableName n) : isValidTableName n = true := by
  have h1 := h.1.valid
  have h2 := (ofName?_none_iff n).2 h.2
  have h3 : ¬ n.length < 1 := by
    obtain ⟨c, cs, rfl, _⟩ := h.1.1
    simp
  rw [isValidTableName, if_neg h3, h1, h2]
  rfl

end Verif
