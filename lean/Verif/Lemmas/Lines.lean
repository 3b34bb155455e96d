import Verif.Model.Parser
import Verif.Lemmas.Utf8
import Verif.Lemmas.ReadRow

/-!
# Lemmas: lines of text
-/

namespace Verif

/-- Spaces. -/
def sp (n : Nat) : GoStr := List.replicate n 32

theorem sp_succ (n : Nat) : sp (n + 1) = 32 :: sp n := rfl

theorem sp_add (m n : Nat) : sp (m + n) = sp m ++ sp n := by simp [sp]

/-- Tokens separated by one or more spaces. -/
def spaced (t : GoStr) : List (Nat × GoStr) → GoStr
  | [] => t
  | (k, t') :: r => t ++ 32 :: sp k ++ spaced t' r

/-! ## Splitting into lines -/

theorem splitLines_line (l rest : GoStr) (h : 10 ∉ l) : splitLines (l ++ 10 :: rest) = l :: splitLines rest := by
  induction l with
  | nil => simp [splitLines]
  | cons c cs ih =>
    simp only [List.mem_cons, not_or] at h
    rw [List.cons_append, splitLines, if_neg (fun e => h.1 e.symm), ih h.2]

theorem splitLines_lines (ls : List GoStr) (rest : GoStr) (h : ∀ l ∈ ls, 10 ∉ l) :
    splitLines ((ls.map fun l => l ++ [10]).flatten ++ rest) = ls ++ splitLines rest := by
  induction ls with
  | nil => simp
  | cons l ls ih =>
    simp only [List.map_cons, List.flatten_cons, List.append_assoc, List.cons_append, List.nil_append]
    rw [splitLines_line _ _ (h l (by simp)), ih fun x hx => h x (by simp [hx])]

/-! ## Trimming -/

/-- The byte is neither ASCII space nor the last byte of a longer space. -/
def endByte (c : UInt8) : Bool := !(isSpaceRune c.toNat || (0x80 ≤ c && c ≤ 0x8A) || c = 0x9F || c = 0xA0 || c = 0xA8 || c = 0xA9 || c = 0xAF)

theorem isSpaceRune_cases {r : Nat} (h : isSpaceRune r = true) :
    r ∈ [9, 10, 11, 12, 13, 0x20, 0x85, 0xA0, 0x1680, 0x2000, 0x2001, 0x2002, 0x2003, 0x2004, 0x2005, 0x2006, 0x2007, 0x2008, 0x2009, 0x200A,
      0x2028, 0x2029, 0x202F, 0x205F, 0x3000] := by
  simp only [isSpaceRune, Bool.or_eq_true, Bool.and_eq_true, decide_eq_true_eq] at h
  simp only [List.mem_cons, List.not_mem_nil, or_false]
  omega

/-- The last byte of an encoded space is not an `endByte`, and longer encodings have no ASCII bytes. -/
theorem encodeRune_space {r : Nat} (h : isSpaceRune r = true) :
    ∃ c, (encodeRune r).getLast? = some c ∧ endByte c = false ∧ (0x80 ≤ r → ∀ x ∈ encodeRune r, 0x80 ≤ x.toNat) := by
  have key : ∀ r ∈ [9, 10, 11, 12, 13, 0x20, 0x85, 0xA0, 0x1680, 0x2000, 0x2001, 0x2002, 0x2003, 0x2004, 0x2005, 0x2006, 0x2007, 0x2008, 0x2009, 0x200A,
      0x2028, 0x2029, 0x202F, 0x205F, 0x3000],
      ((encodeRune r).getLast?.map fun c => !endByte c).getD false = true ∧ (0x80 ≤ r → ∀ x ∈ encodeRune r, 0x80 ≤ x.toNat) := by decide +kernel
  obtain ⟨h1, h2⟩ := key r (isSpaceRune_cases h)
  cases hx : (encodeRune r).getLast? with
  | none => rw [hx] at h1; simp at h1
  | some c => rw [hx] at h1; exact ⟨c, rfl, by simpa using h1, h2⟩

theorem decodeRune?_ascii {c : UInt8} (h : c.toNat < 0x80) (cs : GoStr) : decodeRune? (c :: cs) = some (c.toNat, 1) := by
  simp [decodeRune?, h]

theorem trimSpaceLeft_ascii {c : UInt8} (h : c.toNat < 0x80) (hs : isSpaceRune c.toNat = false) (cs : GoStr) : trimSpaceLeft 0 (c :: cs) = c :: cs := by
  simp [trimSpaceLeft, decodeRune?_ascii h, hs]

theorem trimSpaceLeft_sp (n : Nat) (l : GoStr) : trimSpaceLeft 0 (sp n ++ l) = trimSpaceLeft 0 l := by
  induction n with
  | zero => rfl
  | succ n ih =>
    rw [sp_succ, List.cons_append]
    rw [trimSpaceLeft.eq_def]
    simp only
    rw [decodeRune?_ascii (by decide)]
    simp only
    rw [if_pos (by decide)]
    exact ih

theorem trimSpaceRev_sp (n : Nat) (l : GoStr) : trimSpaceRev (sp n ++ l) = trimSpaceRev l := by
  induction n with
  | zero => rfl
  | succ n ih =>
    rw [sp_succ, List.cons_append, trimSpaceRev.eq_def]
    simp only
    rw [if_pos (by decide), if_pos (by decide)]
    exact ih

theorem trimSpaceRev_end {c : UInt8} (h : endByte c = true) (cs : GoStr) : trimSpaceRev (c :: cs) = c :: cs := by
  have hsp : isSpaceRune c.toNat = false := by
    unfold endByte at h
    cases hx : isSpaceRune c.toNat
    · rfl
    · simp [hx] at h
  rw [trimSpaceRev.eq_def]
  simp only
  split
  · rw [if_neg (by simp [hsp])]
  · split
    · rfl
    · rename_i d ds
      have h1 : ¬ (d = 0xC2 ∧ (c = 0x85 ∨ c = 0xA0)) := by
        rintro ⟨_, rfl | rfl⟩ <;> exact absurd h (by decide)
      rw [if_neg h1]
      split
      · rfl
      · rename_i e es
        split
        · rename_i r hd
          split
          · rename_i hr
            obtain ⟨x, hx, hx2, _⟩ := encodeRune_space hr
            obtain ⟨_, hw, rest, he⟩ := encode_decode hd
            have hr0 : rest = [] := by
              have := congrArg List.length he
              rw [List.length_append, ← hw] at this
              simp at this
              exact this
            rw [hr0, List.append_nil] at he
            rw [← he] at hx
            simp at hx
            subst hx
            rw [h] at hx2
            simp at hx2
          · rfl
        · rfl

/-- Nothing is trimmed from the left of the text, whatever follows it, if that begins with an ASCII character. -/
def Starts (l : GoStr) : Prop := ∀ rest, (∀ x xs, rest = x :: xs → x.toNat < 0x80) → trimSpaceLeft 0 (l ++ rest) = l ++ rest

theorem Starts.append {l : GoStr} (h : Starts l) {c : UInt8} (hc : c.toNat < 0x80) (l' : GoStr) : Starts (l ++ c :: l') := by
  intro rest _
  rw [List.append_assoc]
  refine h _ fun x xs e => ?_
  simp only [List.cons_append, List.cons.injEq] at e
  rw [← e.1]; exact hc

theorem starts_ascii {c : UInt8} (h : c.toNat < 0x80) (hs : isSpaceRune c.toNat = false) (cs : GoStr) : Starts (c :: cs) := fun _ _ =>
  trimSpaceLeft_ascii h hs _

/-- A byte of a name. -/
def nameByte (c : UInt8) : Bool := isLetterByte c || c = 95 || isNumberByte c

theorem u8_all (p : UInt8 → Bool) (h : ∀ n : Fin 256, p (UInt8.ofNat n.val) = true) (c : UInt8) : p c = true := by
  have := h ⟨c.toNat, c.toNat_lt⟩
  simpa using this

theorem nameByte_facts (c : UInt8) (h : nameByte c = true) : endByte c = true ∧ isWhite c = false ∧ c ≠ 10 ∧ c ≠ 35 ∧ isSpaceRune c.toNat = false := by
  have := u8_all (fun c => !nameByte c || (endByte c && !isWhite c && c ≠ 10 && c ≠ 35 && !isSpaceRune c.toNat)) (by decide +kernel) c
  simp only [h, Bool.not_true, Bool.false_or, Bool.and_eq_true, decide_eq_true_eq, Bool.not_eq_eq_eq_not] at this
  exact ⟨this.1.1.1.1, this.1.1.1.2, by simpa using this.1.1.2, by simpa using this.1.2, this.2⟩

theorem starts_name {l : GoStr} (hne : l ≠ []) (h : ∀ c ∈ l, nameByte c = true) : Starts l := by
  intro rest hrest
  match l, hne with
  | c :: cs, _ =>
    have hc := nameByte_facts c (h c (by simp))
    rw [List.cons_append, trimSpaceLeft.eq_def]
    simp only
    cases hd : decodeRune? (c :: (cs ++ rest)) with
    | none => rfl
    | some rw =>
      obtain ⟨r, w⟩ := rw
      simp only
      split
      · rename_i hr
        exfalso
        obtain ⟨x, hx, hx2, hx3⟩ := encodeRune_space hr
        obtain ⟨_, _, more, he⟩ := encode_decode hd
        by_cases hlow : r < 0x80
        · have : encodeRune r = [UInt8.ofNat r] := by
            have hv : ValidRune r := by unfold ValidRune; omega
            simp only [encodeRune, if_pos hv, if_pos hlow]
          rw [this] at he
          simp only [List.cons_append, List.cons.injEq] at he
          have h5 := hc.2.2.2.2
          rw [he.1] at h5
          have : (UInt8.ofNat r).toNat = r := by
            rw [UInt8.toNat_ofNat']; omega
          rw [this, hr] at h5
          simp at h5
        · -- the encoding lies inside the name
          have hall := hx3 (by omega)
          obtain ⟨ds, hds⟩ := List.getLast?_eq_some_iff.1 hx
          have hle : (encodeRune r).length ≤ (c :: cs).length := by
            rcases Nat.lt_or_ge (c :: cs).length (encodeRune r).length with hlt | hge
            · exfalso
              have h1 : ((c :: cs) ++ rest)[(c :: cs).length]? = (encodeRune r ++ more)[(c :: cs).length]? := by
                rw [← he]; rfl
              rw [List.getElem?_append_right (Nat.le_refl _), Nat.sub_self, List.getElem?_append_left hlt] at h1
              cases hrr : rest with
              | nil =>
                rw [hrr, List.getElem?_eq_getElem hlt] at h1
                simp at h1
              | cons y ys =>
                rw [hrr, List.getElem?_eq_getElem hlt] at h1
                simp only [List.getElem?_cons_zero, Option.some.injEq] at h1
                have h2 := hall _ (List.getElem_mem hlt)
                rw [← h1] at h2
                have := hrest y ys hrr
                omega
            · exact hge
          have hmem : x ∈ c :: cs := by
            have h1 : encodeRune r <+: (c :: cs) ++ rest := ⟨more, by rw [← he]; rfl⟩
            have h2 : encodeRune r <+: c :: cs := List.prefix_of_prefix_length_le h1 (List.prefix_append _ _) hle
            exact h2.subset (by rw [hds]; simp)
          have := (nameByte_facts x (h x hmem)).1
          rw [hx2] at this
          simp at this
      · rfl

theorem trimSpace_core (a b : Nat) (core : GoStr) (h1 : Starts core) {c : UInt8} (h2 : core.getLast? = some c)
    (hc : endByte c = true) : trimSpace (sp a ++ core ++ sp b) = core := by
  have hstart : trimSpaceLeft 0 (core ++ sp b) = core ++ sp b := by
    refine h1 _ fun x xs e => ?_
    have : x ∈ sp b := by rw [e]; simp
    rw [List.eq_of_mem_replicate this]
    decide
  unfold trimSpace
  rw [List.append_assoc, trimSpaceLeft_sp, hstart, List.reverse_append]
  have : (sp b).reverse = sp b := by simp [sp]
  rw [this, trimSpaceRev_sp]
  obtain ⟨ds, rfl⟩ : ∃ ds, core = ds ++ [c] := by
    rw [List.getLast?_eq_some_iff] at h2
    exact h2
  rw [List.reverse_append]
  simp only [List.reverse_cons, List.reverse_nil, List.nil_append, List.cons_append]
  rw [trimSpaceRev_end hc]
  simp

/-! ## Tokens -/

theorem whiteSplit_cons {c : UInt8} (h : isWhite c = false) (cs p : GoStr) (ps : List GoStr) (hs : whiteSplit cs = p :: ps) :
    whiteSplit (c :: cs) = (c :: p) :: ps := by
  rw [whiteSplit.eq_def]
  simp only [h, hs, Bool.false_eq_true, if_false]

theorem whiteSplit_append (t rest p : GoStr) (ps : List GoStr) (h : ∀ c ∈ t, isWhite c = false) (hs : whiteSplit rest = p :: ps) :
    whiteSplit (t ++ rest) = (t ++ p) :: ps := by
  induction t with
  | nil => exact hs
  | cons c cs ih =>
    exact whiteSplit_cons (h c (by simp)) _ _ _ (ih fun x hx => h x (by simp [hx]))

theorem whiteSplit_sp (k : Nat) {d : UInt8} (hd : isWhite d = false) (ds : GoStr) : whiteSplit (32 :: sp k ++ d :: ds) = [] :: whiteSplit (d :: ds) := by
  induction k with
  | zero =>
    simp only [sp, List.replicate_zero, List.cons_append, List.nil_append]
    rw [whiteSplit.eq_def]
    simp only
    rw [if_pos (by decide), if_neg (by simp [hd])]
  | succ k ih =>
    rw [sp_succ]
    simp only [List.cons_append] at ih ⊢
    rw [whiteSplit.eq_def]
    simp only
    rw [if_pos (by decide), if_pos (by decide)]
    exact ih

/-- A token without white space. -/
def Token (t : GoStr) : Prop := t ≠ [] ∧ ∀ c ∈ t, isWhite c = false

theorem spaced_head (t : GoStr) (r : List (Nat × GoStr)) (h : t ≠ []) : ∃ d ds, spaced t r = d :: ds ∧ t.head? = some d := by
  match t, h with
  | d :: t, _ =>
    cases r with
    | nil => exact ⟨d, t, rfl, rfl⟩
    | cons x r => exact ⟨d, _, rfl, rfl⟩

theorem whiteSplit_spaced (t : GoStr) (r : List (Nat × GoStr)) (h : ∀ x ∈ t :: r.map Prod.snd, Token x) : whiteSplit (spaced t r) = t :: r.map Prod.snd := by
  induction r generalizing t with
  | nil =>
    have := whiteSplit_append t [] [] [] (h t (by simp)).2 rfl
    simpa [spaced] using this
  | cons x r ih =>
    obtain ⟨k, t'⟩ := x
    have ht' := h t' (by simp)
    have hih := ih t' (fun y hy => h y (by
      simp only [List.mem_cons, List.map_cons] at hy ⊢
      exact .inr hy))
    obtain ⟨d, ds, he, hd⟩ := spaced_head t' r ht'.1
    have hdw : isWhite d = false := ht'.2 d (List.mem_of_mem_head? hd)
    have hsp := whiteSplit_sp k hdw ds
    rw [← he, hih] at hsp
    have := whiteSplit_append t _ _ _ (h t (by simp)).2 hsp
    rw [List.append_nil] at this
    simp only [spaced, List.append_assoc, List.map_cons]
    exact this

theorem spaced_last (t : GoStr) (r : List (Nat × GoStr)) (h : ∀ x ∈ t :: r.map Prod.snd, ∃ c, x.getLast? = some c ∧ endByte c = true) :
    ∃ c, (spaced t r).getLast? = some c ∧ endByte c = true := by
  induction r generalizing t with
  | nil => exact h t (by simp)
  | cons x r ih =>
    obtain ⟨k, t'⟩ := x
    obtain ⟨c, hc, hc2⟩ := ih t' (fun y hy => h y (by
      simp only [List.mem_cons, List.map_cons] at hy ⊢
      exact .inr hy))
    refine ⟨c, ?_, hc2⟩
    rw [spaced, List.getLast?_append, hc]
    rfl

theorem spaced_starts (t : GoStr) (r : List (Nat × GoStr)) (h : Starts t) : Starts (spaced t r) := by
  cases r with
  | nil => exact h
  | cons x r =>
    rw [spaced, List.append_assoc]
    exact h.append (c := 32) (by decide) _

theorem spaced_noNewline (t : GoStr) (r : List (Nat × GoStr)) (h : ∀ x ∈ t :: r.map Prod.snd, 10 ∉ x) : 10 ∉ spaced t r := by
  induction r generalizing t with
  | nil => exact h t (by simp)
  | cons x r ih =>
    obtain ⟨k, t'⟩ := x
    have h1 := ih t' (fun y hy => h y (by
      simp only [List.mem_cons, List.map_cons] at hy ⊢
      exact .inr hy))
    have h2 := h t (by simp)
    simp only [spaced, List.mem_append, List.mem_cons, not_or]
    refine ⟨⟨h2, by decide, fun hx => ?_⟩, h1⟩
    have := List.eq_of_mem_replicate hx
    exact absurd this (by decide)

/-! ## Rows -/

/-- The text `tok` is read as `cell` in a column of type `ty`, whatever follows after a space, and no table is made. -/
def ReadsAs (env : TextEnv) (ty : ColType) (tok : GoStr) (cell : Cell Addr) : Prop :=
  ∀ H a rest, (rest = [] ∨ rest.head? = some 32) → readCell env H a ty (tok ++ rest) = .ok (H, cell, rest)

theorem trimBlanks_sp (k : Nat) (d : UInt8) (ds : GoStr) (h1 : d ≠ 32) (h2 : d ≠ 9) : trimBlanks (32 :: sp k ++ d :: ds) = d :: ds := by
  unfold trimBlanks
  rw [← sp_succ]
  induction k with
  | zero => simp [sp, h1, h2]
  | succ k ih =>
    rw [sp_succ, List.cons_append, List.dropWhile_cons_of_pos (by decide)]
    exact ih

/-- One column of a row: type, text and value. -/
abbrev RowItem := ColType × GoStr × Cell Addr

theorem readRow_spaced (env : TextEnv) (H : Heap) (a : Addr) (x : RowItem) (xs : List RowItem) (r : List (Nat × GoStr)) (names : List GoStr)
    (hr : r.map Prod.snd = xs.map fun x => x.2.1) (hn : names.length = xs.length + 1)
    (h : ∀ y ∈ x :: xs, ReadsAs env y.1 y.2.1 y.2.2 ∧ ∃ d ds, y.2.1 = d :: ds ∧ d ≠ 32 ∧ d ≠ 9) :
    readRow env a H names ((x :: xs).map fun y => y.1.name) (spaced x.2.1 r) = .ok (H, (x :: xs).map fun y => y.2.2) := by
  induction xs generalizing x r names with
  | nil =>
    have : r = [] := by simpa using hr
    subst this
    obtain ⟨h1, d, ds, e, _⟩ := h x (by simp)
    match names, hn with
    | [n], _ =>
      have hlen : (spaced x.2.1 []).length ≠ 0 := by simp [spaced, e]
      have := h1 H a [] (.inl rfl)
      rw [List.append_nil] at this
      rw [List.map_cons, readRow, if_neg hlen, ofName?_name]
      simp only [spaced]
      rw [this]
      rfl
  | cons y ys ih =>
    match r, hr with
    | (k, t') :: r, hr =>
      simp only [List.map_cons, List.cons.injEq] at hr
      obtain ⟨rfl, hr⟩ := hr
      match names, hn with
      | n :: names, hn =>
        obtain ⟨h1, d, ds, e, _⟩ := h x (by simp)
        obtain ⟨_, d', ds', e', hd1, hd2⟩ := h y (by simp)
        have hlen : (spaced x.2.1 ((k, y.2.1) :: r)).length ≠ 0 := by simp [spaced, e]
        have hrec := ih y r names hr (by simpa using hn) fun z hz => h z (by simp only [List.mem_cons] at hz ⊢; exact .inr hz)
        obtain ⟨c, cs, he, hc⟩ := spaced_head y.2.1 r (by simp [e'])
        have hcd : c = d' := by rw [e'] at hc; simpa using hc.symm
        have htrim := trimBlanks_sp k c cs (hcd ▸ hd1) (hcd ▸ hd2)
        have := h1 H a (32 :: sp k ++ spaced y.2.1 r) (.inr rfl)
        rw [List.map_cons, readRow, if_neg hlen, ofName?_name]
        simp only [spaced, List.append_assoc] at this ⊢
        rw [this]
        simp only [Out.bind]
        rw [he] at hrec ⊢
        simp only [List.cons_append] at htrim ⊢
        rw [htrim, hrec]
        rfl

end Verif
