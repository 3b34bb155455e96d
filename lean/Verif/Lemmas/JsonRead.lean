import Verif.Lemmas.JsonNum
import Verif.Lemmas.PrintTable
import Verif.Lemmas.ParseBlock
import Verif.Lemmas.FromTable
import Verif.Lemmas.Append
import Verif.Lemmas.Write
import Verif.Lemmas.Gob

/-!
# Lemmas: JSON texts of tables are read back
-/

namespace Verif
open Table FloatFmt

variable {P : PrintEnv} {E : JsonEnv} {H : Heap} {V : Cell Addr → Cell Addr → Prop}

/-! ## Texts -/

theorem quoteLoop_plain (hi : Nat → Bool) (s : GoStr) (h : PlainText s) : quoteLoop hi 0 s = s := by
  induction s with
  | nil => rfl
  | cons c cs ih =>
    obtain ⟨h1, h2, h3, h4⟩ := h c (by simp)
    have hv : ValidRune c.toNat := .inl (by omega)
    have he : encodeRune c.toNat = [c] := by
      unfold encodeRune
      simp only [if_pos hv, if_pos (show c.toNat < 0x80 by omega), UInt8.ofNat_toNat]
    have := quoteLoop_rune hi hv cs
    rw [he] at this
    rw [List.singleton_append] at this
    rw [this, ih fun x hx => h x (by simp [hx])]
    have hn1 : ¬ (c.toNat = 34 ∨ c.toNat = 92) := by
      rintro (e | e)
      · exact h3 (UInt8.toNat_inj.1 e)
      · exact h4 (UInt8.toNat_inj.1 e)
    have hp : isPrint hi c.toNat = true := by
      unfold isPrint
      rw [if_pos (by omega)]
      simp; omega
    unfold escapeRune
    rw [if_neg hn1, if_pos hp, he]
    rfl

theorem PlainText.jsonText {hi : Nat → Bool} {s : GoStr} (h : PlainText s) : JsonText hi s := by
  refine ⟨s.map UInt8.toNat, ?_, ?_⟩
  · induction s with
    | nil => rfl
    | cons c cs ih =>
      obtain ⟨h1, h2, h3, h4⟩ := h c (by simp)
      have hv : ValidRune c.toNat := .inl (by omega)
      have he : encodeRune c.toNat = [c] := by
        unfold encodeRune
        simp only [if_pos hv, if_pos (show c.toNat < 0x80 by omega), UInt8.ofNat_toNat]
      simp only [List.map_cons, List.flatten_cons, he, List.singleton_append]
      rw [← ih fun x hx => h x (by simp [hx])]
  · intro r hr
    obtain ⟨c, hc, rfl⟩ := List.mem_map.1 hr
    obtain ⟨h1, h2, _, _⟩ := h c hc
    exact ⟨.inl (by omega), by omega⟩

/-- Names are plain text. -/
theorem plain_name {s : GoStr} (h : isValidName s = true) (ha : Ascii s) : PlainText s := by
  intro c hc
  have h1 := (isValidName_bytes h).2 c hc
  have h2 := ha c hc
  have := u8_all (fun c => !decide (c.toNat < 0x80) || !nameByte c || (decide (32 ≤ c.toNat) && decide (c.toNat < 127) && decide (c ≠ 34) && decide (c ≠ 92))) (by decide +kernel) c
  simp only [h2, h1, decide_true, Bool.not_true, Bool.false_or, Bool.and_eq_true, decide_eq_true_eq] at this
  exact ⟨this.1.1.1, this.1.1.2, this.1.2, this.2⟩

theorem plain_type (ty : ColType) : PlainText ty.name := by
  have : ∀ ty : ColType, ∀ c ∈ ty.name, 32 ≤ c.toNat ∧ c.toNat < 127 ∧ c ≠ 34 ∧ c ≠ 92 := by
    intro ty; cases ty <;> decide
  exact this ty

theorem joinSep_more (hi : Nat → Bool) (l : List JVal) (v : JVal) : joinSep [44] ((v :: l).map fun v => v.render hi) = v.render hi ++ renderMore hi l := by
  induction l generalizing v with
  | nil => simp [joinSep, renderMore]
  | cons w ws ih =>
    have := ih w
    simp only [List.map_cons] at this ⊢
    simp only [joinSep, renderMore, this]
    simp

theorem joinSep_render (hi : Nat → Bool) (l : List JVal) : joinSep [44] (l.map fun v => v.render hi) = renderElems hi l := by
  cases l with
  | nil => rfl
  | cons v vs => exact joinSep_more hi vs v

/-! ## Memory -/

theorem IsNil.grow {K K' : Heap} {b : Addr} (h : IsNil K b) (hk : ∀ t, K[b]? = some t → ∃ p, K'[b]? = some { t with parent := p }) : IsNil K' b := by
  obtain ⟨t, h1, h2⟩ := h
  obtain ⟨p, h3⟩ := hk t h1
  exact ⟨_, h3, h2⟩

/-- Memory `K'` has what `K` has at the addresses from `lo` on, but for the parents; and possibly more. -/
def KeepsFrom (lo : Addr) (K K' : Heap) : Prop := ∀ x t, lo ≤ x → K[x]? = some t → ∃ p, K'[x]? = some { t with parent := p }

theorem SameCell.mono {K K' : Heap} {lo : Addr} (hk : KeepsFrom lo K K') {R R' : Addr → Addr → Prop} (hR : ∀ b b', R b b' → R' b b') {c c' : Cell Addr} (h : SameCell V H K lo R c c') :
    SameCell V H K' lo R' c c' := by
  cases c with
  | tbl v =>
    cases v with
    | none => exact h
    | some b =>
      obtain ⟨b', e, hlo, h⟩ := h
      refine ⟨b', e, hlo, ?_⟩
      rcases h with ⟨h1, h2⟩ | h
      · exact .inl ⟨h1, h2.grow fun t ht => hk b' t hlo ht⟩
      · exact .inr (hR _ _ h)
  | _ => exact h

/-- Changes of tables below `lo`, of parents, and new tables do not matter. -/
theorem JsonTree.mono {K K' : Heap} {lo : Addr} (hk : KeepsFrom lo K K') :
    ∀ {d : Nat} {a a' : Addr}, JsonTree V H K lo d a a' → JsonTree V H K' lo d a a' := by
  intro d
  induction d with
  | zero => intro a a' h; exact h
  | succ d ih =>
    intro a a' h
    obtain ⟨hlo, t, t', h1, h2, h3, h4, hw, hk0, h5, h6, h7, h8, h9⟩ := h
    obtain ⟨p, hp⟩ := hk a' t' hlo h2
    exact ⟨hlo, t, _, h1, hp, h3, h4, hw.setParent p, hk0, h5, h6, h7, h8, h9.mono fun r r' hr => hr.mono fun c c' hc => SameCell.mono hk (fun _ _ => ih) hc⟩

theorem SameCell.lower {K : Heap} {lo lo' : Addr} (hl : lo' ≤ lo) {R R' : Addr → Addr → Prop} (hR : ∀ b b', R b b' → R' b b') {c c' : Cell Addr} (h : SameCell V H K lo R c c') :
    SameCell V H K lo' R' c c' := by
  cases c with
  | tbl v =>
    cases v with
    | none => exact h
    | some b =>
      obtain ⟨b', e, hlo, h⟩ := h
      exact ⟨b', e, Nat.le_trans hl hlo, h.imp id (hR _ _)⟩
  | _ => exact h

theorem JsonTree.lower {K : Heap} {lo lo' : Addr} (hl : lo' ≤ lo) : ∀ {d : Nat} {a a' : Addr}, JsonTree V H K lo d a a' → JsonTree V H K lo' d a a' := by
  intro d
  induction d with
  | zero => intro a a' h; exact h
  | succ d ih =>
    intro a a' h
    obtain ⟨hlo, t, t', h1, h2, h3, h4, hw, hk0, h5, h6, h7, h8, h9⟩ := h
    exact ⟨Nat.le_trans hl hlo, t, _, h1, h2, h3, h4, hw, hk0, h5, h6, h7, h8, h9.mono fun r r' hr => hr.mono fun c c' hc => SameCell.lower hl (fun _ _ => ih) hc⟩

/-- A value of JSON stands for a cell: reading it sets the cell to the same value. -/
def JsonReads (V : Cell Addr → Cell Addr → Prop) (E : JsonEnv) (H : Heap) (nested : Heap → List (GoStr × JVal) → Out (Heap × Addr)) (d : Nat) (v : JVal) (ty : ColType) (c : Cell Addr) : Prop :=
  ∀ (K : Heap) (a' : Addr) (t' : Table Addr) (r j : Nat), K[a']? = some t' → WF t' → t'.colTypes[j]? = some ty → r < t'.rows.length →
    ∃ K' c', readJsonCell E nested a' r j K v = .ok K' ∧ c'.HasType ty ∧ K'[a']? = some (putCell t' j r c') ∧ K.length ≤ K'.length ∧
      (∀ x, x ≠ a' → x < K.length → K'[x]? = K[x]?) ∧ SameCell V H K' (a' + 1) (JsonTree V H K' (a' + 1) d) c c'

theorem setTypedAt_ok {K : Heap} {a' : Addr} {t' : Table Addr} {r j : Nat} {ty vt : ColType} {c : Cell Addr} (hK : K[a']? = some t') (hw : WF t')
    (hty : t'.colTypes[j]? = some ty) (hr : r < t'.rows.length) (hv : c.HasType vt) (hc : c.HasType ty) (hb : c ≠ .bytes none) :
    setTypedAt K a' vt j r c = .ok (K.set a' (putCell t' j r c)) := by
  have hcase := setTypedByColIndex_cases hw vt (j : Int) (r : Int) c hv
  have hset : t'.setTypedByColIndex vt (j : Int) (r : Int) c = (putCell t' j r c, .ok ()) := by
    rcases hcase with ⟨ci, ri, ty', h1, h2, _, _, _, _, h3⟩ | ⟨h1, _⟩ | ⟨_, h1, _⟩
    · have e1 : j = ci := by omega
      have e2 : r = ri := by omega
      rw [h3, e1, e2]
    · exact absurd ⟨j, r, ty, rfl, rfl, hty, hr, hc, hb⟩ h1
    · have := (List.getElem?_eq_some_iff.1 hty).1
      exact absurd ⟨by omega, by omega⟩ h1
  simp only [setTypedAt, hK, hset]

/-- Reading a value that makes no table. -/
theorem reads_plain (nested : Heap → List (GoStr × JVal) → Out (Heap × Addr)) (d : Nat) {v : JVal} {ty vt : ColType} {c c' : Cell Addr}
    (hread : ∀ (K : Heap) (a' : Addr) (t' : Table Addr) (r j : Nat), K[a']? = some t' → t'.colTypes[j]? = some ty →
      readJsonCell E nested a' r j K v = setTypedAt K a' vt j r c')
    (hv : c'.HasType vt) (hc : c'.HasType ty) (hb : c' ≠ .bytes none) (hs : V c c') (hn : ∀ b, c ≠ .tbl (some b)) : JsonReads V E H nested d v ty c := by
  intro K a' t' r j hK hw hty hr
  refine ⟨_, c', (hread K a' t' r j hK hty).trans (setTypedAt_ok hK hw hty hr hv hc hb), hc, ?_, by simp, ?_, ?_⟩
  · rw [List.getElem?_set_self (List.getElem?_eq_some_iff.1 hK).1]
  · intro x hx _
    rw [List.getElem?_set_ne (fun e => hx e.symm)]
  · cases c with
    | tbl v =>
      cases v with
      | none => exact hs
      | some b => exact absurd rfl (hn b)
    | _ => exact hs

/-! ## Cells -/

theorem jsonInt_type {ty : ColType} {k : IntKind} {v : Int} (h : (Cell.int k v : Cell Addr).HasType ty) (hr : ty ≠ .rune) :
    ty.jsonInt? = some k ∧ k.lo ≤ v ∧ v ≤ k.hi ∧ v.natAbs < 2 ^ 64 ∧ plainText P H ty (.int k v) = .ok (fmtInt v) ∧ jsonNumCell E ty = fun x => some (.int k (castInt E k x)) := by
  cases ty <;> cases k <;> simp only [Cell.HasType] at h
  case rune.int32 => exact absurd rfl hr
  all_goals
    refine ⟨rfl, ?_, ?_, by omega, rfl, rfl⟩
    · simpa [IntKind.lo] using h.1
    · simpa [IntKind.hi] using h.2

theorem castInt_exact {k : IntKind} {v : Int} {x : BitVec 64} (h : f64Trunc x = some v) (h1 : k.lo ≤ v) (h2 : v ≤ k.hi) : castInt E k x = v := by
  simp only [castInt, h, if_pos (show k.lo ≤ v ∧ v ≤ k.hi from ⟨h1, h2⟩)]

theorem byte_exact (hE : E.text.float = goFloat) (x : UInt8) : ∃ y, E.text.float.parse64 (fmtNat x.toNat) = some y ∧ UInt8.ofNat (castInt E .uint8 y).toNat = x := by
  have hlt := x.toNat_lt
  obtain ⟨y, h1, h2⟩ := int_exact (x.toNat : Int) x.toNat 0 (by simp) (by omega) (by simp; omega)
  refine ⟨y, ?_, ?_⟩
  · rw [hE, ← h1]
    rw [fmtInt, if_neg (by omega)]
    rfl
  · rw [castInt_exact h2 (by simp [IntKind.lo]) (by simp [IntKind.hi]; omega)]
    simp

theorem jsonBytes_ok (hE : E.text.float = goFloat) (b : List UInt8) : jsonBytes E (b.map fun x => .num (fmtNat x.toNat)) = .ok b := by
  induction b with
  | nil => rfl
  | cons x xs ih =>
    obtain ⟨y, h1, h2⟩ := byte_exact hE x
    simp only [List.map_cons, jsonBytes, h1, ih, Out.bind, h2]

theorem spaces_id {s : GoStr} (h : ∀ c ∈ s, c ≠ 32) : spacesToCommas s = s := by
  unfold spacesToCommas
  rw [List.map_congr_left (g := id)]
  · simp
  · intro c hc
    simp [h c hc]

theorem fmtNat_noSpace (n : Nat) : ∀ c ∈ fmtNat n, c ≠ 32 := by
  intro c hc e
  have := (fmtNat_digits n).2.1 c hc
  rw [e] at this
  exact absurd this (by decide)

theorem spaces_join (b : List UInt8) : spacesToCommas (joinSep [32] (b.map fun x => fmtNat x.toNat)) = joinSep [44] (b.map fun x => fmtNat x.toNat) := by
  induction b with
  | nil => rfl
  | cons x xs ih =>
    cases xs with
    | nil => exact spaces_id (fmtNat_noSpace _)
    | cons y ys =>
      simp only [List.map_cons, joinSep] at ih ⊢
      rw [spacesToCommas] at ih ⊢
      rw [List.map_append, List.map_append, ih]
      have := spaces_id (fmtNat_noSpace x.toNat)
      rw [spacesToCommas] at this
      rw [this]
      rfl

theorem bytes_render (hi : Nat → Bool) (b : Option (List UInt8)) :
    spacesToCommas (fmtBytes b) = (JVal.arr ((b.getD []).map fun x => .num (fmtNat x.toNat))).render hi := by
  have h1 := spaces_join (b.getD [])
  have h2 := joinSep_render hi ((b.getD []).map fun x => .num (fmtNat x.toNat))
  rw [List.map_map] at h2
  have h3 : ((fun v => JVal.render hi v) ∘ fun x : UInt8 => JVal.num (fmtNat x.toNat)) = fun x => fmtNat x.toNat := rfl
  rw [h3] at h2
  rw [spacesToCommas] at h1
  simp only [fmtBytes, spacesToCommas, List.cons_append, List.map_cons, List.map_append, JVal.render, ← h2, h1]
  rfl

/-- What is written of a table is read back. -/
def ReadsBack (V : Cell Addr → Cell Addr → Prop) (E : JsonEnv) (H : Heap) (hi : Nat → Bool) (d : Nat) (s : GoStr) (b : Addr) : Prop :=
  ∃ m, s = renderMembers hi m ∧ GoodMembers hi m ∧ ∀ D, s.length < D → ∀ K, ∃ K1, readJsonTable E D K m = .ok (K1, K.length) ∧ K.length < K1.length ∧
    (∀ x, x < K.length → K1[x]? = K[x]?) ∧ JsonTree V H K1 K.length d b K.length

theorem setTableAt_ok {K : Heap} {a' b : Addr} {t' tb : Table Addr} {r j : Nat} (hK : K[a']? = some t') (hb : K[b]? = some tb) (hne : b ≠ a') (hw : WF t')
    (hty : t'.colTypes[j]? = some .table) (hr : r < t'.rows.length) :
    setTableByColIndexAt K a' j r b = ((K.set b { tb with parent := some a' }).set a' (putCell t' j r (.tbl (some b))), .ok ()) := by
  have h1 : (K.set b { tb with parent := some a' })[a']? = some t' := by rw [List.getElem?_set_ne hne]; exact hK
  have h2 := setTypedAt_ok (c := .tbl (some b)) (vt := .table) h1 hw hty hr (by trivial) (by trivial) (by simp)
  simp only [setTypedAt, h1] at h2
  simp only [setTableByColIndexAt, hK, hb, h1]
  revert h2
  cases t'.setTypedByColIndex .table (j : Int) (r : Int) (.tbl (some b)) with
  | mk t2 o =>
    cases o with
    | ok u =>
      intro h2
      simp only [Out.ok.injEq] at h2
      rw [h2]
    | err e => intro h2; simp at h2
    | panic => intro h2; simp at h2

/-- Reading a nested table. -/
theorem reads_table {hi : Nat → Bool} {nestedR : Heap → List (GoStr × JVal) → Out (Heap × Addr)} {d : Nat} {m : List (GoStr × JVal)} {b : Addr}
    (h : ∀ K, ∃ K1, nestedR K m = .ok (K1, K.length) ∧ K.length < K1.length ∧ (∀ x, x < K.length → K1[x]? = K[x]?) ∧ JsonTree V H K1 K.length d b K.length) :
    JsonReads V E H nestedR d (.obj m) .table (.tbl (some b)) := by
  intro K a' t' r j hK hw hty hr
  obtain ⟨K1, h1, h2, h3, h4⟩ := h K
  have ha := (List.getElem?_eq_some_iff.1 hK).1
  have hne : K.length ≠ a' := by rintro rfl; exact Nat.lt_irrefl _ ha
  have hb := List.getElem?_eq_getElem h2
  have hset := setTableAt_ok (by rw [h3 a' ha]; exact hK) hb hne hw hty hr
  refine ⟨(K1.set K.length { K1[K.length] with parent := some a' }).set a' (putCell t' j r (.tbl (some K.length))), .tbl (some K.length), ?_, trivial, ?_, ?_, ?_, K.length, rfl, ha, .inr ?_⟩
  · simp only [readJsonCell, hK, hty, h1, Out.bind, if_true, hset]
  · rw [List.getElem?_set_self]
    simp only [List.length_set]
    exact Nat.lt_trans ha h2
  · simp only [List.length_set]; exact Nat.le_of_lt h2
  · intro x hx hl
    rw [List.getElem?_set_ne (fun e => hx e.symm), List.getElem?_set_ne (fun e => by rw [← e] at hl; exact Nat.lt_irrefl _ hl), h3 x hl]
  · refine JsonTree.lower (lo := K.length) ha (JsonTree.mono (K := K1) ?_ h4)
    intro x t hx ht
    rw [List.getElem?_set_ne (fun e => by rw [← e] at hx; exact absurd ha (Nat.not_lt.2 hx))]
    by_cases e : K.length = x
    · subst e
      rw [hb] at ht
      cases ht
      exact ⟨some a', List.getElem?_set_self h2⟩
    · exact ⟨t.parent, by rw [List.getElem?_set_ne e, ht]⟩

/-- Reading "no table". -/
theorem reads_null {nestedR : Heap → List (GoStr × JVal) → Out (Heap × Addr)} {d : Nat} {b : Addr} (hn : IsNil H b) :
    JsonReads V E H nestedR d .null .table (.tbl (some b)) := by
  intro K a' t' r j hK hw hty hr
  have ha := (List.getElem?_eq_some_iff.1 hK).1
  have hne : K.length ≠ a' := by rintro rfl; exact Nat.lt_irrefl _ ha
  have hb : (K ++ [newNilTable])[K.length]? = some newNilTable := by simp
  have hset := setTableAt_ok (K := K ++ [newNilTable]) (by rw [List.getElem?_append_left ha]; exact hK) hb hne hw hty hr
  refine ⟨((K ++ [newNilTable]).set K.length { (newNilTable : Table Addr) with parent := some a' }).set a' (putCell t' j r (.tbl (some K.length))), .tbl (some K.length), ?_, trivial, ?_, ?_, ?_,
    K.length, rfl, ha, .inl ⟨hn, ?_⟩⟩
  · simp only [readJsonCell, hK, hty, if_true, hset]
  · rw [List.getElem?_set_self]
    simp only [List.length_set, List.length_append, List.length_cons, List.length_nil]
    exact Nat.lt_succ_of_lt ha
  · simp
  · intro x hx hl
    rw [List.getElem?_set_ne (fun e => hx e.symm), List.getElem?_set_ne (fun e => by rw [← e] at hl; exact Nat.lt_irrefl _ hl), List.getElem?_append_left hl]
  · refine ⟨{ (newNilTable : Table Addr) with parent := some a' }, ?_, rfl⟩
    rw [List.getElem?_set_ne (fun e => hne e.symm), List.getElem?_set_self (by simp)]

theorem getVal_ok {t : Table Addr} (hw : WF t) {r j : Nat} {row : List (Cell Addr)} {c : Cell Addr} {ty : ColType} (hr : t.rows[r]? = some row) (hc : row[j]? = some c)
    (hty : t.colTypes[j]? = some ty) : t.getValByColIndex j r = .ok c ∧ c.HasType ty := by
  have hlr := (List.getElem?_eq_some_iff.1 hr).1
  have hlc := (List.getElem?_eq_some_iff.1 hty).1
  rw [hw.typesLen] at hlc
  obtain ⟨row', v, h1, h2, h3⟩ := getValByColIndex_nat hw hlc hlr
  rw [hr] at h1; cases h1
  rw [hc] at h2; cases h2
  exact ⟨h3, (hw.rowsOK row (List.mem_of_getElem? hr)).2 j ty c hty hc⟩

/-- The code point that is written for a value of a `rune` column. -/
def runeText (v : Int) : Nat := if 0 ≤ v ∧ ValidRune v.toNat then v.toNat else 0xFFFD

/-- What the value of a cell must satisfy to be read back as one related by `V`. -/
def CellSafe (V : Cell Addr → Cell Addr → Prop) (P : PrintEnv) (E : JsonEnv) (ty : ColType) : Cell Addr → Prop
  | .int k v => if ty = .rune then JsonRune P.printable (runeText v) ∧ V (.int k v) (.int k (runeText v))
      else ∃ x, goFloat.parse64 (fmtInt v) = some x ∧ V (.int k v) (.int k (castInt E k x)) ∧ k.Has (castInt E k x)
  | .f32 b => finite32 b ∧ ∃ x, goFloat.parse64 (goFloat.fmt32 b) = some x ∧ V (.f32 b) (.f32 (f64To32 x))
  | .time v => PlainText (P.fmtTime v) ∧ ∃ w, E.text.parseTime (P.fmtTime v) = some w ∧ V (.time v) (.time w)
  | c => JsonSafe P E ty c ∧ ∀ c', SameValue c c' → V c c'

theorem encodeRune_bad {r : Nat} (h : ¬ ValidRune r) : encodeRune r = encodeRune 0xFFFD := by
  unfold encodeRune
  rw [if_neg h, if_pos (show ValidRune 0xFFFD from .inr (by omega))]

theorem runeText_valid (v : Int) : ValidRune (runeText v) := by
  unfold runeText
  split
  · next h => exact h.2
  · exact .inr (by omega)

/-- The text of a code point. -/
theorem plainText_rune (P : PrintEnv) (H : Heap) (v : Int) : plainText P H .rune (.int .int32 v) = .ok (encodeRune (runeText v)) := by
  show Out.ok (encodeRune (if 0 ≤ v then v.toNat else 0x110000)) = _
  unfold runeText
  by_cases h0 : 0 ≤ v
  · rw [if_pos h0]
    by_cases hv : ValidRune v.toNat
    · rw [if_pos ⟨h0, hv⟩]
    · rw [if_neg (fun h => hv h.2), encodeRune_bad hv]
  · rw [if_neg h0, if_neg (fun h => h0 h.1), encodeRune_bad (by unfold ValidRune; omega)]

theorem jsonInt_has {ty : ColType} {k : IntKind} {v : Int} (h : ty.jsonInt? = some k) (hv : k.Has v) : (Cell.int k v : Cell Addr).HasType ty := by
  obtain ⟨h1, h2⟩ := hv
  cases ty <;> simp only [ColType.jsonInt?, Option.some.injEq, reduceCtorEq] at h <;> subst h <;> simp only [Cell.HasType, IntKind.lo, IntKind.hi] at * <;>
    exact ⟨h1, h2⟩

/-- The text written for a cell stands for a value that is read back. -/
theorem jsonCell_reads (hP : P.text.float = goFloat) (hE : E.text.float = goFloat) {nestedW : List Addr → Addr → Out (GoStr × List Addr)}
    {d : Nat} {t : Table Addr} (hw : WF t) (hnil : t.isNilTable = false) {r j : Nat} {row : List (Cell Addr)}
    {c : Cell Addr} {ty : ColType} (hr : t.rows[r]? = some row) (hc : row[j]? = some c) (hty : t.colTypes[j]? = some ty) (hsafe : CellSafe V P E ty c)
    {refs refs' : List Addr} {s : GoStr} (hok : jsonCell P H nestedW refs t r j = .ok (s, refs'))
    (hnest : ∀ b s' refs' , c = .tbl (some b) → ¬ IsNil H b → nestedW refs b = .ok (s', refs') → ReadsBack V E H P.printable d s' b) :
    ∃ v : JVal, s = v.render P.printable ∧ v.Good P.printable ∧ ∀ D, (v.render P.printable).length ≤ D → JsonReads V E H (readJsonTable E D) d v ty c := by
  obtain ⟨hval, hht⟩ := getVal_ok hw hr hc hty
  have hg : goGet? t.colTypes (j : Int) = some ty := by simp [goGet?, hty]
  have hstr : ∀ s, plainText P H ty c = .ok s → t.getValAsStringByColIndex P H j r = .ok s := by
    intro s hs
    simp only [getValAsStringByColIndex, hnil, hval, Out.bind, hg, hs]
    rfl
  cases c with
  | nil => cases ty <;> exact absurd hht (by simp [Cell.HasType])
  | str s0 =>
    cases ty <;> simp only [Cell.HasType] at hht
    simp only [jsonCell, hval, Out.bind, Out.ok.injEq, Prod.mk.injEq] at hok
    refine ⟨.str s0, hok.1.symm, hsafe.1, ?_⟩
    refine fun D _ => reads_plain (readJsonTable E D) d (vt := .string) (c' := .str s0) ?_ trivial trivial (by simp) (hsafe.2 _ rfl) (by simp)
    intro K a' t' r j hK hty
    simp only [readJsonCell, hK, hty]
  | bool b =>
    cases ty <;> simp only [Cell.HasType] at hht
    simp only [jsonCell, hval, Out.bind, hstr _ (rfl : plainText P H .bool (.bool b) = .ok _), Out.ok.injEq, Prod.mk.injEq] at hok
    refine ⟨.bool b, hok.1.symm, trivial, ?_⟩
    refine fun D _ => reads_plain (readJsonTable E D) d (vt := .bool) (c' := .bool b) ?_ trivial trivial (by simp) (hsafe.2 _ rfl) (by simp)
    intro K a' t' r j hK hty
    simp only [readJsonCell, hK, hty]
  | f32 b =>
    cases ty <;> simp only [Cell.HasType] at hht
    simp only [jsonCell, hval, Out.bind, hstr _ (rfl : plainText P H .float32 (.f32 b) = .ok _), Out.ok.injEq, Prod.mk.injEq] at hok
    obtain ⟨hf, x, hx, hV⟩ := hsafe
    rw [hP] at hok
    refine ⟨.num (goFloat.fmt32 b), hok.1.symm, jsonNum_f32 b hf, ?_⟩
    refine fun D _ => reads_plain (readJsonTable E D) d (vt := .float32) (c' := .f32 (f64To32 x)) ?_ trivial trivial (by simp) hV (by simp)
    intro K a' t' r j hK hty
    simp only [readJsonCell, hK, hty, hE, hx, jsonNumCell]
  | f64 b =>
    cases ty <;> simp only [Cell.HasType] at hht
    simp only [jsonCell, hval, Out.bind, hstr _ (rfl : plainText P H .float64 (.f64 b) = .ok _), Out.ok.injEq, Prod.mk.injEq] at hok
    rw [hP] at hok
    refine ⟨.num (goFloat.fmt64 b), hok.1.symm, jsonNum_f64 b hsafe.1, ?_⟩
    refine fun D _ => reads_plain (readJsonTable E D) d (vt := .float64) (c' := .f64 b) ?_ trivial trivial (by simp) (hsafe.2 _ (.inl rfl)) (by simp)
    intro K a' t' r j hK hty
    simp only [readJsonCell, hK, hty, hE, floatOK_go.back64 b hsafe.1, jsonNumCell]
  | time v =>
    cases ty <;> simp only [Cell.HasType] at hht
    simp only [jsonCell, hval, Out.bind, Out.ok.injEq, Prod.mk.injEq] at hok
    obtain ⟨hp, w, hpt, hV⟩ := hsafe
    refine ⟨.str (P.fmtTime v), ?_, hp.jsonText, ?_⟩
    · rw [← hok.1, JVal.render, strconvQuote_eq, quoteLoop_plain _ _ hp]
      rfl
    refine fun D _ => reads_plain (readJsonTable E D) d (vt := .time) (c' := .time w) ?_ trivial trivial (by simp) hV (by simp)
    intro K a' t' r j hK hty
    simp only [readJsonCell, hK, hty, hpt]
  | bytes b =>
    have htext : plainText P H ty (.bytes b) = .ok (fmtBytes b) := by
      cases ty <;> simp only [Cell.HasType] at hht <;> rfl
    simp only [jsonCell, hval, Out.bind, hstr _ htext, Out.ok.injEq, Prod.mk.injEq] at hok
    refine ⟨.arr ((b.getD []).map fun x => .num (fmtNat x.toNat)), ?_, ?_, ?_⟩
    · rw [← hok.1]; exact bytes_render _ b
    · rw [JVal.Good, goodElems_iff]
      intro v hv
      obtain ⟨x, _, rfl⟩ := List.mem_map.1 hv
      have := jsonNum_decimal false x.toNat 0
      show JsonNum _
      simpa [decimal] using this
    · have hht2 : (Cell.bytes (some (b.getD [])) : Cell Addr).HasType ty := by
        cases ty <;> simp only [Cell.HasType] at hht <;> trivial
      refine fun D _ => reads_plain (readJsonTable E D) d (vt := .byteSlice) (c' := .bytes (some (b.getD []))) ?_ trivial hht2 (by simp) (hsafe.2 _ ⟨_, rfl, rfl⟩) (by simp)
      intro K a' t' r j hK hty
      simp only [readJsonCell, hK, hty, jsonBytes_ok hE, Out.bind]
  | int k v =>
    by_cases hrune : ty = .rune
    · subst hrune
      cases k <;> simp only [Cell.HasType] at hht
      simp only [CellSafe, if_true] at hsafe
      obtain ⟨hjr, hV⟩ := hsafe
      simp only [jsonCell, hval, Out.bind, hstr _ (plainText_rune P H v), hg, Out.ok.injEq, Prod.mk.injEq] at hok
      refine ⟨.str (encodeRune (runeText v)), hok.1.symm, ⟨[runeText v], by simp, by simpa using hjr⟩, ?_⟩
      have hht' : (Cell.int .int32 (runeText v) : Cell Addr).HasType .rune := by
        have := runeText_valid v
        unfold ValidRune at this
        simp only [Cell.HasType]
        omega
      refine fun D _ => reads_plain (readJsonTable E D) d (vt := .rune) (c' := .int .int32 (runeText v)) ?_ hht' hht' (by simp) hV (by simp)
      intro K a' t' r j hK hty
      have hd := decode_encode hjr.1 []
      rw [List.append_nil] at hd
      have hfr : firstRune (encodeRune (runeText v)) = some (runeText v) := by
        unfold firstRune
        split
        · next h => rw [h] at hd; simp [decodeRune?] at hd
        · rw [hd]
      simp only [readJsonCell, hK, hty, hfr]
    · obtain ⟨h1, h2, h3, h4, h5, h6⟩ := jsonInt_type (P := P) (H := H) (E := E) hht hrune
      simp only [CellSafe, if_neg hrune] at hsafe
      obtain ⟨x, hx1, hx2, hx3⟩ := hsafe
      have hht' := jsonInt_has h1 hx3
      have hs : s = fmtInt v := by
        cases k with
        | int32 =>
          have : ty = .int32 := by cases ty <;> simp_all [Cell.HasType]
          subst this
          simp only [jsonCell, hval, Out.bind, hstr _ h5, hg, Out.ok.injEq, Prod.mk.injEq] at hok
          exact hok.1.symm
        | _ =>
          simp only [jsonCell, hval, Out.bind, hstr _ h5, Out.ok.injEq, Prod.mk.injEq] at hok
          exact hok.1.symm
      refine ⟨.num (fmtInt v), hs, jsonNum_int v, ?_⟩
      refine fun D _ => reads_plain (readJsonTable E D) d (vt := ty) (c' := .int k (castInt E k x)) ?_ hht' hht' (by simp) hx2 (by simp)
      intro K a' t' r j hK hty
      simp only [readJsonCell, hK, hty, hE, hx1, h6]
  | tbl o =>
    cases ty <;> cases o <;> simp only [Cell.HasType] at hht
    rename_i b
    have hget := getTypedByColIndex_table hty hr hc
    simp only [jsonCell, hval, Out.bind, hget] at hok
    split at hok
    · simp at hok
    split at hok
    · simp at hok
    rename_i hb
    split at hok
    · next hn =>
      simp only [Out.ok.injEq, Prod.mk.injEq] at hok
      exact ⟨.null, hok.1.symm, trivial, fun D _ => reads_null ⟨_, hb, hn⟩⟩
    · next hn =>
      split at hok
      · next p hnw =>
        obtain ⟨s', refs1⟩ := p
        simp only [Out.ok.injEq, Prod.mk.injEq] at hok
        obtain ⟨m, e, hm, hread⟩ := hnest b s' refs1 rfl (by rintro ⟨t2, h1, h2⟩; rw [hb] at h1; cases h1; exact hn h2) hnw
        refine ⟨.obj m, ?_, hm, fun D hD => reads_table (hi := P.printable) (hread D ?_)⟩
        case refine_2 =>
          rw [e]
          simp only [JVal.render, List.cons_append, List.length_cons, List.length_append] at hD
          omega
        rw [← hok.1, e]
        rfl
      · simp at hok
      · simp at hok

end Verif
