import Verif.Lemmas.YamlOut
import Verif.Lemmas.JsonTable

/-!
# Lemmas: YAML texts of tables are read back
-/

namespace Verif
open Table FloatFmt

variable {H : Heap} {okStr : GoStr → Prop} {okTime : GoTime → Prop}

/-! ## Values as they are read -/

theorem back_val (c : Cell Addr) : (GoVal.val c).back = backCell c := by rw [GoVal.back]
theorem back_list (l : List GoVal) : (GoVal.list l).back = .list (backList l) := by rw [GoVal.back]
theorem back_map (m : List (GoStr × GoVal)) : (GoVal.map m).back = .map (backMap m) := by rw [GoVal.back]

theorem backList_eq : ∀ (l : List GoVal), backList l = l.map GoVal.back
  | [] => by rw [backList]; rfl
  | v :: l => by rw [backList, backList_eq l]; rfl

theorem backMap_get (k : GoStr) : ∀ (m : List (GoStr × GoVal)), mapGet (backMap m) k = (mapGet m k).map GoVal.back
  | [] => by rw [backMap]; rfl
  | (k', v) :: m => by
    rw [backMap, mapGet, mapGet]
    split
    · rfl
    · exact backMap_get k m

theorem depth_list {v : GoVal} : ∀ {l : List GoVal}, v ∈ l → v.depth ≤ depthList l
  | x :: l, h => by
    rw [depthList]
    rcases List.mem_cons.1 h with rfl | h
    · exact Nat.le_max_left _ _
    · exact Nat.le_trans (depth_list h) (Nat.le_max_right _ _)

theorem depth_get {k : GoStr} {v : GoVal} : ∀ {m : List (GoStr × GoVal)}, mapGet m k = some v → v.depth ≤ depthMap m
  | (k', x) :: m, h => by
    rw [depthMap]
    rw [mapGet] at h
    split at h
    · cases h; exact Nat.le_max_left _ _
    · exact Nat.le_trans (depth_get h) (Nat.le_max_right _ _)

/-! ## Cells -/

/-- A value stands for a cell: reading it sets the cell to the same value. -/
def YamlReads (H : Heap) (nested : Heap → List (GoStr × GoVal) → Out (Heap × Addr)) (d : Nat) (v : GoVal) (ty : ColType) (c : Cell Addr) : Prop :=
  ∀ (K : Heap) (a' : Addr) (t' : Table Addr) (r j : Nat), K[a']? = some t' → WF t' → t'.colTypes[j]? = some ty → r < t'.rows.length →
    ∃ K' c', readYamlCell nested a' r j K v = .ok K' ∧ c'.HasType ty ∧ K'[a']? = some (putCell t' j r c') ∧ K.length ≤ K'.length ∧
      (∀ x, x ≠ a' → x < K.length → K'[x]? = K[x]?) ∧ SameCell SameValue H K' (a' + 1) (JsonTree SameValue H K' (a' + 1) d) c c'

theorem yreads_plain (nested : Heap → List (GoStr × GoVal) → Out (Heap × Addr)) (d : Nat) {v : GoVal} {ty vt : ColType} {c c' : Cell Addr}
    (hread : ∀ (K : Heap) (a' : Addr) (t' : Table Addr) (r j : Nat), K[a']? = some t' → t'.colTypes[j]? = some ty →
      readYamlCell nested a' r j K v = setTypedAt K a' vt j r c')
    (hv : c'.HasType vt) (hc : c'.HasType ty) (hb : c' ≠ .bytes none) (hs : SameValue c c') (hn : ∀ b, c ≠ .tbl (some b)) : YamlReads H nested d v ty c := by
  intro K a' t' r j hK hw hty hr
  refine ⟨_, c', (hread K a' t' r j hK hty).trans (setTypedAt_ok hK hw hty hr hv hc hb), hc, ?_, by simp, ?_, ?_⟩
  · rw [List.getElem?_set_self (List.getElem?_eq_some_iff.1 hK).1]
  · intro x hx _
    rw [List.getElem?_set_ne (fun e => hx e.symm)]
  · cases c with
    | tbl v =>
      cases v with
      | none => exact hs
      | some b => exact absurd rfl (hn b)
    | _ => exact hs

/-- Reading a nested table. -/
theorem yreads_table {nestedR : Heap → List (GoStr × GoVal) → Out (Heap × Addr)} {d : Nat} {m : List (GoStr × GoVal)} {b : Addr}
    (h : ∀ K, ∃ K1, nestedR K m = .ok (K1, K.length) ∧ K.length < K1.length ∧ (∀ x, x < K.length → K1[x]? = K[x]?) ∧
      ((IsNil H b ∧ IsNil K1 K.length) ∨ JsonTree SameValue H K1 K.length d b K.length)) :
    YamlReads H nestedR d (.map m) .table (.tbl (some b)) := by
  intro K a' t' r j hK hw hty hr
  obtain ⟨K1, h1, h2, h3, h4⟩ := h K
  have ha := (List.getElem?_eq_some_iff.1 hK).1
  have hne : K.length ≠ a' := by rintro rfl; exact Nat.lt_irrefl _ ha
  have hb := List.getElem?_eq_getElem h2
  have hset := setTableAt_ok (by rw [h3 a' ha]; exact hK) hb hne hw hty hr
  have hkeep : KeepsFrom K.length K1 ((K1.set K.length { K1[K.length] with parent := some a' }).set a' (putCell t' j r (.tbl (some K.length)))) := by
    intro x t hx ht
    rw [List.getElem?_set_ne (fun e => by rw [← e] at hx; exact absurd ha (Nat.not_lt.2 hx))]
    by_cases e : K.length = x
    · subst e
      rw [hb] at ht
      cases ht
      exact ⟨some a', List.getElem?_set_self h2⟩
    · exact ⟨t.parent, by rw [List.getElem?_set_ne e, ht]⟩
  refine ⟨(K1.set K.length { K1[K.length] with parent := some a' }).set a' (putCell t' j r (.tbl (some K.length))), .tbl (some K.length), ?_, trivial, ?_, ?_, ?_, K.length, rfl, ha, ?_⟩
  · simp only [readYamlCell, hK, hty, readYamlOther, h1, Out.bind, hset]
  · rw [List.getElem?_set_self]
    simp only [List.length_set]
    exact Nat.lt_trans ha h2
  · simp only [List.length_set]; exact Nat.le_of_lt h2
  · intro x hx hl
    rw [List.getElem?_set_ne (fun e => hx e.symm), List.getElem?_set_ne (fun e => by rw [← e] at hl; exact Nat.lt_irrefl _ hl), h3 x hl]
  · rcases h4 with ⟨n1, n2⟩ | h4
    · exact .inl ⟨n1, n2.grow fun t ht => hkeep _ _ (Nat.le_refl _) ht⟩
    · exact .inr (JsonTree.lower (lo := K.length) ha (JsonTree.mono hkeep h4))

theorem wrap_id {k : IntKind} {v : Int} (h1 : k.lo ≤ v) (h2 : v ≤ k.hi) : k.wrap v = v := by
  unfold IntKind.wrap
  rw [Int.emod_eq_of_lt (by omega) (by omega)]
  omega

theorem yamlInt_type {ty : ColType} {k : IntKind} {v : Int} (h : (Cell.int k v : Cell Addr).HasType ty) :
    ty.yamlInt? = some k ∧ k.lo ≤ v ∧ v ≤ k.hi ∧ yamlIntCell ty v = .ok (.int k v) ∧ (2 ^ 63 - 1 < v → (ty = .uint ∧ k = .uint) ∨ (ty = .uint64 ∧ k = .uint64)) := by
  have key : k.lo ≤ v ∧ v ≤ k.hi ∧ ty.yamlInt? = some k ∧ ty ≠ .float32 ∧ ty ≠ .time ∧ (2 ^ 63 - 1 < v → (ty = .uint ∧ k = .uint) ∨ (ty = .uint64 ∧ k = .uint64)) := by
    cases ty <;> cases k <;> simp only [Cell.HasType] at h
    all_goals
      refine ⟨?_, ?_, rfl, by simp, by simp, ?_⟩
      · simpa [IntKind.lo] using h.1
      · simpa [IntKind.hi] using h.2
      · first
        | (intro hv; exfalso; omega)
        | (intro _; simp)
  obtain ⟨h1, h2, h3, h4, h5, h6⟩ := key
  refine ⟨h3, h1, h2, ?_, h6⟩
  have hw := wrap_id h1 h2
  cases ty <;> simp only [yamlIntCell, h3, hw] <;> first | exact absurd rfl h4 | exact absurd rfl h5

theorem fmt64_back (b : BitVec 64) : SameValue (.f64 b : Cell Addr) (.f64 ((goFloat.parse64 (goFloat.fmt64 b)).getD b)) := by
  by_cases hf : finite64 b
  · rw [floatOK_go.back64 b hf]; exact .inl rfl
  · cases hn : isNaN64 b with
    | true =>
      obtain ⟨y, h1, h2⟩ := floatOK_go.nanBack64
      rw [floatOK_go.nan64 b hn, h1]
      exact .inr ⟨hn, y, rfl, h2⟩
    | false =>
      have : b = 0x7FF0000000000000#64 ∨ b = 0xFFF0000000000000#64 := by
        unfold finite64 at hf
        simp only [isNaN64, isNaNBits, decide_eq_false_iff_not] at hn
        have hlt := b.isLt
        rcases (show b.toNat = 0x7FF0000000000000 ∨ b.toNat = 0xFFF0000000000000 by omega) with e | e
        · exact .inl (BitVec.eq_of_toNat_eq e)
        · exact .inr (BitVec.eq_of_toNat_eq e)
      rcases this with rfl | rfl
      · exact .inl (by decide +kernel)
      · exact .inl (by decide +kernel)

/-- What the digits of a `float32` are read as. -/
def x32 (b : BitVec 32) : BitVec 64 := (goFloat.parse64 (goFloat.fmt32 b)).getD (if 2 ^ 31 ≤ b.toNat then 0xFFF0000000000000#64 else 0x7FF0000000000000#64)

theorem x32_nan : x32 0x7FC00000#32 = 0x7FF8000000000000#64 := by decide +kernel
theorem x32_inf : x32 0x7F800000#32 = 0x7FF0000000000000#64 := by decide +kernel
theorem x32_ninf : x32 0xFF800000#32 = 0xFFF0000000000000#64 := by decide +kernel

theorem fmt32_special {b : BitVec 32} (hf : ¬ finite32 b) : f64Trunc (x32 b) = none ∧ SameValue (.f32 b : Cell Addr) (.f32 (f64To32 (x32 b))) := by
  cases hn : isNaN32 b with
  | true =>
    have e : x32 b = x32 0x7FC00000#32 := by
      have h2 := floatOK_go.nan32 0x7FC00000#32 (by decide +kernel)
      obtain ⟨y, hy, _⟩ := floatOK_go.nanBack64
      unfold x32
      rw [floatOK_go.nan32 b hn, h2, hy, Option.getD_some, Option.getD_some]
    rw [e, x32_nan]
    have e1 : f64Trunc 0x7FF8000000000000#64 = none := by decide +kernel
    have e2 : isNaN32 (f64To32 0x7FF8000000000000#64) = true := by decide +kernel
    exact ⟨e1, .inr ⟨hn, _, rfl, e2⟩⟩
  | false =>
    have : b = 0x7F800000#32 ∨ b = 0xFF800000#32 := by
      unfold finite32 at hf
      simp only [isNaN32, isNaNBits, decide_eq_false_iff_not] at hn
      have hlt := b.isLt
      rcases (show b.toNat = 0x7F800000 ∨ b.toNat = 0xFF800000 by omega) with e | e
      · exact .inl (BitVec.eq_of_toNat_eq e)
      · exact .inr (BitVec.eq_of_toNat_eq e)
    rcases this with rfl | rfl
    · have e1 : f64Trunc 0x7FF0000000000000#64 = none := by decide +kernel
      have e2 : f64To32 0x7FF0000000000000#64 = 0x7F800000#32 := by decide +kernel
      rw [x32_inf, e2]
      exact ⟨e1, .inl rfl⟩
    · have e1 : f64Trunc 0xFFF0000000000000#64 = none := by decide +kernel
      have e2 : f64To32 0xFFF0000000000000#64 = 0xFF800000#32 := by decide +kernel
      rw [x32_ninf, e2]
      exact ⟨e1, .inl rfl⟩

/-- A value other than a nested table is read back. -/
theorem yamlCell_reads (nested : Heap → List (GoStr × GoVal) → Out (Heap × Addr)) (d : Nat) {ty : ColType} {c : Cell Addr} (hty : c.HasType ty) (hs : YamlSafe okStr okTime c)
    (hn : ∀ b, c ≠ .tbl b) : YamlReads H nested d (backCell c) ty c := by
  cases c with
  | nil => cases ty <;> simp [Cell.HasType] at hty
  | tbl b => exact absurd rfl (hn b)
  | str s =>
    refine yreads_plain nested d (vt := .string) (c' := .str s) ?_ trivial hty (by simp) rfl (by simp)
    intro K a' t' r j hK _
    simp only [backCell, readYamlCell, hK]
  | bool b =>
    refine yreads_plain nested d (vt := .bool) (c' := .bool b) ?_ trivial hty (by simp) rfl (by simp)
    intro K a' t' r j hK _
    simp only [backCell, readYamlCell, hK]
  | time v =>
    refine yreads_plain nested d (vt := .time) (c' := .time v) ?_ trivial hty (by simp) rfl (by simp)
    intro K a' t' r j hK _
    simp only [backCell, readYamlCell, hK]
  | int k v =>
    obtain ⟨_, _, _, h4, h5⟩ := yamlInt_type hty
    refine yreads_plain nested d (vt := ty) (c' := .int k v) ?_ hty hty (by simp) rfl (by simp)
    intro K a' t' r j hK hcol
    by_cases hv : v ≤ 2 ^ 63 - 1
    · simp only [backCell, if_pos hv, readYamlCell, hK, hcol, h4, Out.bind]
    · rcases h5 (by omega) with ⟨rfl, rfl⟩ | ⟨rfl, rfl⟩
      · simp only [backCell, if_neg hv, readYamlCell, hK, hcol, readYamlOther]
      · simp only [backCell, if_neg hv, readYamlCell, hK, hcol, readYamlOther]
  | f32 b =>
    have ht : ty = .float32 := by cases ty <;> simp [Cell.HasType] at hty ⊢
    subst ht
    have hx : backCell (.f32 b) = .val (backFloat (goFloat.fmt32 b) (x32 b)) := rfl
    by_cases hf : finite32 b
    · obtain ⟨x, e1, e2⟩ := hs.2 hf
      have ex : x32 b = x := by rw [x32, e1]; rfl
      rw [hx, ex]
      unfold backFloat
      cases htr : f64Trunc x with
      | none =>
        refine yreads_plain nested d (vt := .float32) (c' := .f32 b) ?_ trivial trivial (by simp) (.inl rfl) (by simp)
        intro K a' t' r j hK hcol
        simp only [readYamlCell, hK, hcol, e2]
      | some v =>
        dsimp only
        split
        · rename_i hw
          have htext : goFloat.fmt32 b = fmtInt v := hw.2.resolve_right fun h => hs.1 h.2
          refine yreads_plain nested d (vt := .float32) (c' := .f32 b) ?_ trivial trivial (by simp) (.inl rfl) (by simp)
          intro K a' t' r j hK hcol
          simp only [readYamlCell, hK, hcol, yamlIntCell, Out.bind, ← htext, floatOK_go.back32 b hf, Option.getD_some]
        · refine yreads_plain nested d (vt := .float32) (c' := .f32 b) ?_ trivial trivial (by simp) (.inl rfl) (by simp)
          intro K a' t' r j hK hcol
          simp only [readYamlCell, hK, hcol, e2]
    · obtain ⟨h1, h2⟩ := fmt32_special hf
      rw [hx]
      unfold backFloat
      rw [h1]
      refine yreads_plain nested d (vt := .float32) (c' := .f32 (f64To32 (x32 b))) ?_ trivial trivial (by simp) h2 (by simp)
      intro K a' t' r j hK hcol
      simp only [readYamlCell, hK, hcol]
  | f64 b =>
    have ht : ty = .float64 := by cases ty <;> simp [Cell.HasType] at hty ⊢
    subst ht
    have hx : backCell (.f64 b) = .val (.f64 ((goFloat.parse64 (goFloat.fmt64 b)).getD b)) := by
      simp only [backCell, backFloat]
      cases f64Trunc ((goFloat.parse64 (goFloat.fmt64 b)).getD b) with
      | none => rfl
      | some v =>
        dsimp only
        rw [if_neg]
        rintro ⟨h1, h2 | h2⟩
        · exact hs.2 v h1 h2
        · exact hs.1 h2.2
    rw [hx]
    refine yreads_plain nested d (vt := .float64) (c' := .f64 _) ?_ trivial trivial (by simp) (fmt64_back b) (by simp)
    intro K a' t' r j hK hcol
    simp only [readYamlCell, hK, hcol]
  | bytes b =>
    have hb : ∀ (l : List UInt8), yamlBytes (l.map fun x => .val (.int .int x.toNat)) = .ok l := by
      intro l
      induction l with
      | nil => rfl
      | cons x l ih =>
        have hx := x.toNat_lt
        have hw : IntKind.uint8.wrap (x.toNat : Int) = x.toNat := wrap_id (by simp [IntKind.lo]) (by simp [IntKind.hi]; omega)
        simp only [List.map_cons, yamlBytes, ih, Out.bind, hw, Int.toNat_natCast, UInt8.ofNat_toNat]
    have ht : ty = .byteSlice ∨ ty = .uint8Slice := by cases ty <;> simp [Cell.HasType] at hty ⊢
    refine yreads_plain nested d (vt := ty) (c' := .bytes (some (b.getD []))) ?_ ?_ ?_ (by simp) ⟨_, rfl, rfl⟩ (by simp)
    · intro K a' t' r j hK hcol
      rcases ht with rfl | rfl <;> simp only [backCell, readYamlCell, hK, hcol, readYamlOther, hb, Out.bind]
    · rcases ht with rfl | rfl <;> trivial
    · rcases ht with rfl | rfl <;> trivial

/-! ## Rows -/

/-- The rest of a row. -/
theorem yamlRow_ok {nested : Heap → List (GoStr × GoVal) → Out (Heap × Addr)} {d : Nat} {a' : Addr} {types : List ColType} {done : List (List (Cell Addr))} :
    ∀ (vs : List GoVal) (cs : List (Cell Addr)) (pre rest : List (Cell Addr)) (K : Heap) (t' : Table Addr),
      (∀ (i : Nat) v, vs[i]? = some v → ∃ ty c, types[pre.length + i]? = some ty ∧ cs[i]? = some c ∧ YamlReads H nested d v ty c) →
      cs.length = vs.length → rest.length = vs.length → K[a']? = some t' → WF t' → t'.colTypes = types → t'.rows = done ++ [pre ++ rest] →
      ∃ K' new, foldOut (fun H (p : Nat × GoVal) => readYamlCell nested a' done.length p.1 H p.2) K ((List.range' pre.length vs.length).zip vs) = .ok K' ∧
        K'[a']? = some { t' with rows := done ++ [pre ++ new] } ∧ WF { t' with rows := done ++ [pre ++ new] } ∧ K.length ≤ K'.length ∧
        (∀ x, x ≠ a' → x < K.length → K'[x]? = K[x]?) ∧ Pointwise (SameCell SameValue H K' (a' + 1) (JsonTree SameValue H K' (a' + 1) d)) cs new
  | [], cs, pre, rest, K, t', _, hcs, hrest, hK, hw, hty, hrows => by
    have hcs : cs = [] := List.eq_nil_of_length_eq_zero hcs
    have hrest : rest = [] := List.eq_nil_of_length_eq_zero hrest
    subst hcs hrest
    have e : { t' with rows := done ++ [pre ++ []] } = t' := by rw [← hrows]
    exact ⟨K, [], rfl, by rw [e]; exact hK, by rw [e]; exact hw, Nat.le_refl _, fun _ _ _ => rfl, trivial⟩
  | v :: vs, cs, pre, rest, K, t', hos, hcs, hrest, hK, hw, hty, hrows => by
    obtain ⟨ty, c, hty0, hc0, hread⟩ := hos 0 v rfl
    match cs, rest, hcs, hrest, hc0 with
    | c0 :: cs, x :: rest, hcs, hrest, hc0 =>
    simp only [List.getElem?_cons_zero, Option.some.injEq] at hc0
    subst hc0
    obtain ⟨K1, c', k1, k2, k3, k4, k5, k6⟩ := hread K a' t' done.length pre.length hK hw (by rw [hty]; simpa using hty0) (by rw [hrows]; simp)
    have hput : putCell t' pre.length done.length c' = { t' with rows := done ++ [(pre ++ [c']) ++ rest] } := by
      have h1 := putCell_last { t' with rows := done } (pre ++ x :: rest) pre.length c'
      rw [set_append] at h1
      have h2 : ({ ({ t' with rows := done } : Table Addr) with rows := done ++ [pre ++ x :: rest] }) = t' := by
        rw [← hrows]
      rw [h2] at h1
      rw [h1]
      simp
    have hw1 : WF (putCell t' pre.length done.length c') := hw.putCell (by rw [hty]; simpa using hty0) k2 (by rw [hrows]; simp)
    rw [hput] at hw1 k3
    obtain ⟨K', new, r1, r2, r3, r4, r5, r6⟩ := yamlRow_ok vs cs (pre ++ [c']) rest K1 { t' with rows := done ++ [(pre ++ [c']) ++ rest] }
      (fun i o ho => by
        obtain ⟨ty, c, q2, q3, q4⟩ := hos (i + 1) o (by simpa using ho)
        exact ⟨ty, c, by simpa [Nat.add_assoc, Nat.add_comm 1] using q2, by simpa using q3, q4⟩)
      (by simpa using hcs) (by simpa using hrest) k3 hw1 hty rfl
    refine ⟨K', c' :: new, ?_, ?_, ?_, Nat.le_trans k4 r4, ?_, ?_, r6⟩
    · simp only [List.length_cons, List.range'_succ, List.zip_cons_cons, foldOut, k1, Out.bind]
      have : (pre ++ [c']).length = pre.length + 1 := by simp
      rw [this] at r1
      exact r1
    · rw [r2]; simp
    · simpa using r3
    · intro x hx hl
      rw [r5 x hx (Nat.lt_of_lt_of_le hl k4), k5 x hx hl]
    · exact SameCell.mono (keeps_of r5) (fun _ _ => JsonTree.mono (keeps_of r5)) k6

/-- The rows of a table. -/
theorem yamlRows_ok {nested : Heap → List (GoStr × GoVal) → Out (Heap × Addr)} {d : Nat} {a' : Addr} {types : List ColType} :
    ∀ (data : List (List GoVal)) (rows : List (List (Cell Addr))) (done : List (List (Cell Addr))) (K : Heap) (t' : Table Addr),
      Pointwise (fun vs row => vs.length = types.length ∧ row.length = types.length ∧
        ∀ (i : Nat) v, vs[i]? = some v → ∃ ty c, types[i]? = some ty ∧ row[i]? = some c ∧ YamlReads H nested d v ty c) data rows →
      K[a']? = some t' → WF t' → t'.isNilTable = false → t'.colTypes = types → t'.rows = done →
      ∃ K' new, foldOut (fun H (p : Nat × List GoVal) => (appendRowAt H a').bind fun H1 => readYamlRow nested a' p.1 H1 p.2) K ((List.range' done.length data.length).zip data) = .ok K' ∧
        K'[a']? = some { t' with rows := done ++ new } ∧ WF { t' with rows := done ++ new } ∧ K.length ≤ K'.length ∧
        (∀ x, x ≠ a' → x < K.length → K'[x]? = K[x]?) ∧ Pointwise (Pointwise (SameCell SameValue H K' (a' + 1) (JsonTree SameValue H K' (a' + 1) d))) rows new
  | [], [], done, K, t', _, hK, hw, _, hty, hrows => by
    have e : { t' with rows := done ++ [] } = t' := by rw [List.append_nil, ← hrows]
    exact ⟨K, [], rfl, by rw [e]; exact hK, by rw [e]; exact hw, Nat.le_refl _, fun _ _ _ => rfl, trivial⟩
  | vs :: data, row :: rows, done, K, t', hp, hK, hw, hnil, hty, hrows => by
    obtain ⟨⟨ho1, ho2, ho3⟩, hp⟩ := hp
    obtain ⟨K1, a1, ⟨zrow, z1, z2, z3⟩, a3, a4⟩ := appendRowAt_eq hK hw hnil
    rw [hrows] at z2 z3
    rw [hty] at z1
    obtain ⟨K2, new, r1, r2, r3, r4, r5, r6⟩ := yamlRow_ok (done := done) (types := types) (d := d) (nested := nested) vs row [] zrow K1 _
      (fun i o h => by simpa using ho3 i o h) (by rw [ho1, ho2]) (by rw [z1, ho1]) z2 z3 hty rfl
    rw [List.nil_append] at r2 r3
    obtain ⟨K', news, q1, q2, q3, q4, q5, q6⟩ := yamlRows_ok data rows (done ++ [new]) K2 _ hp r2 r3 hnil hty rfl
    refine ⟨K', new :: news, ?_, ?_, ?_, Nat.le_trans a3 (Nat.le_trans r4 q4), ?_, ?_, q6⟩
    · simp only [List.length_cons, List.range'_succ, List.zip_cons_cons, foldOut, a1, Out.bind]
      have e : readYamlRow nested a' done.length K1 vs = .ok K2 := by
        rw [readYamlRow, List.range_eq_range']
        exact r1
      rw [e]
      have : (done ++ [new]).length = done.length + 1 := by simp
      rw [this] at q1
      exact q1
    · rw [q2]; simp
    · simpa using q3
    · intro x hx hl
      rw [q5 x hx (Nat.lt_of_lt_of_le hl (Nat.le_trans a3 r4)), r5 x hx (Nat.lt_of_lt_of_le hl a3), a4 x hx hl]
    · exact r6.mono fun c c' hc => SameCell.mono (keeps_of q5) (fun _ _ => JsonTree.mono (keeps_of q5)) hc

theorem trimQuote_type (ty : ColType) : trimQuote (typeText ty) = ty.name := by cases ty <;> rfl

theorem yamlCols_ok (K : Heap) (ps : List (GoStr × ColType)) (t : Table Addr) (hw : WF t) (hnil : t.isNilTable = false) (hrows : t.rows = [])
    (hn : ∀ x ∈ ps, isValidColName x.1 = true) (hnew : ∀ x ∈ ps, x.1 ∉ t.colNames) (hnd : (ps.map Prod.fst).Nodup) :
    ∃ cm, readYamlCols K.length (K ++ [t]) (ps.map fun x => .map [(x.1, .val (.str (typeText x.2)))]) =
      .ok (K ++ [{ t with colNames := t.colNames ++ ps.map Prod.fst, colTypes := t.colTypes ++ ps.map Prod.snd, colMap := cm }]) ∧
      WF { t with colNames := t.colNames ++ ps.map Prod.fst, colTypes := t.colTypes ++ ps.map Prod.snd, colMap := cm } := by
  obtain ⟨cm, h1, h2⟩ := appendCols_fresh K ps t hw hnil hrows hn hnew hnd
  refine ⟨cm, ?_, h2⟩
  rw [← h1]
  clear h1 h2 hn hnew hnd hw hnil hrows
  have hfold : ∀ (o : Out Heap), (o.bind fun K0 => readYamlCols K.length K0 (ps.map fun x => .map [(x.1, .val (.str (typeText x.2)))])) =
      (ps.map fun x => (x.1, x.2.name)).foldl (fun (o : Out Heap) (p : GoStr × GoStr) => o.bind fun H1 => appendColAt H1 K.length p.1 p.2) o := by
    induction ps with
    | nil => intro o; cases o <;> rfl
    | cons p ps ih =>
      intro o
      have := ih (o.bind fun H1 => appendColAt H1 K.length p.1 p.2.name)
      simp only [List.map_cons, List.foldl_cons]
      rw [← this]
      cases o with
      | ok K0 =>
        simp only [Out.bind, readYamlCols, foldOut, List.getLast?_singleton, trimQuote_type]
      | err e => rfl
      | panic => rfl
  exact hfold (.ok (K ++ [t]))

end Verif
