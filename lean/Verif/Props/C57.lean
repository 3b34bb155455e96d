import Verif.Props.C38

/-!
# C57: floats in the padded text

`String` writes the cells of a float column with as many digits after the point as the cell with the most digits has, and replaces zeros at the end by spaces.
-/

namespace Verif
open Table

/-- **C57**, as far as it holds: in the table that is read back, every finite float has the bits it had (a NaN is read back as a NaN, see `SameValue`).  `PadSafe` excludes 27 powers of two of
type float64 and one of type float32, with either sign.  For them the claim is false (`C57_changed64`, `C57_changed32`, `C57_exceptions64`). -/
theorem C57_floats_partial (P : PrintEnv) (hP : P.IsGo) (H H0 : Heap) (t : Table Addr) (h : Writable paddedType t)
    (hsafe : ∀ row ∈ t.rows, ∀ c ∈ row, PadSafe c) (hshape : t.isStructShape = false ∨ 1 < t.rows.length) :
    ∃ s t', stringPadded P H t = .ok s ∧ newTableFromString P.text H0 s = .ok (H0 ++ [t'], H0.length) ∧
      ∀ (r c : Nat) (row : List (Cell Addr)) (cell : Cell Addr), t.rows[r]? = some row → row[c]? = some cell →
        ∃ (row' : List (Cell Addr)) (cell' : Cell Addr), t'.rows[r]? = some row' ∧ row'[c]? = some cell' ∧
          (∀ b, cell = .f64 b → finite64 b → cell' = .f64 b) ∧ (∀ b, cell = .f32 b → finite32 b → cell' = .f32 b) := by
  obtain ⟨s, t', h1, h2, h3⟩ := C38_roundTrip_partial P hP H H0 t h hsafe hshape
  refine ⟨s, t', h1, h2, fun r c row cell hr hc => ?_⟩
  obtain ⟨row', hr', hrow⟩ := h3.rows.get r row hr
  obtain ⟨cell', hc', hv⟩ := hrow.get c cell hc
  refine ⟨row', cell', hr', hc', ?_, ?_⟩
  · rintro b rfl hb
    rcases hv with hv | ⟨hv, _⟩
    · exact hv
    · rw [finite64_not_nan b hb] at hv
      exact absurd hv (by simp)
  · rintro b rfl hb
    rcases hv with hv | ⟨hv, _⟩
    · exact hv
    · rw [finite32_not_nan b hb] at hv
      exact absurd hv (by simp)

/-! ## A concrete case -/

/-- A table with a column of floats and one of strings. -/
def Ex.tbl57 : Table Addr :=
  { (newNilTable : Table Addr) with
    name := gs! "T", isNilTable := false, colNames := [gs! "f", gs! "s"], colTypes := [.float64, .string], colMap := [(gs! "f", 0), (gs! "s", 1)],
    rows := [[.f64 0x3FF8000000000000#64, .str (gs! "a")], [.f64 0x3FB999999999999A#64, .str (gs! "b")], [.f64 0xC010800000000000#64, .str []],
      [.f64 0x4059000000000000#64, .str []], [.f64 0x8000000000000000#64, .str []]] }

theorem Ex.wf_tbl57 : WF Ex.tbl57 := by
  refine ⟨by decide, by decide, by decide, by decide, ?_, ?_, by decide, by decide, by simp [Ex.tbl57, newNilTable]⟩
  · intro n i
    by_cases h : i < 2
    · simp only [Ex.tbl57, GoMap.get?]
      match i, h with
      | 0, _ => grind
      | 1, _ => grind
    · have : Ex.tbl57.colNames[i]? = none := List.getElem?_eq_none (by simp [Ex.tbl57]; omega)
      rw [this]
      simp only [Ex.tbl57, GoMap.get?]
      grind
  · intro row hr
    simp only [Ex.tbl57, List.mem_cons, List.not_mem_nil, or_false] at hr
    rcases hr with rfl | rfl | rfl | rfl | rfl
    all_goals
      refine ⟨by decide, fun i ty c h1 h2 => ?_⟩
      simp only [Ex.tbl57] at h1
      match i with
      | 0 | 1 =>
        simp at h1 h2
        subst h1 h2
        simp [Cell.HasType]
      | i + 2 => simp at h1

theorem Ex.writable_tbl57 : Writable paddedType Ex.tbl57 ∧ ∀ row ∈ Ex.tbl57.rows, ∀ c ∈ row, PadSafe c := by
  refine ⟨⟨Ex.wf_tbl57, rfl, by unfold Ascii; decide, by decide, by decide, ?_⟩, ?_⟩
  · intro row hr
    simp only [Ex.tbl57, List.mem_cons, List.not_mem_nil, or_false] at hr
    rcases hr with rfl | rfl | rfl | rfl | rfl <;> simp [Ex.tbl57, Pointwise, TextSafe, finite64]
  · intro row hr
    simp only [Ex.tbl57, List.mem_cons, List.not_mem_nil, or_false] at hr
    rcases hr with rfl | rfl | rfl | rfl | rfl <;> simp [PadSafe, BadPower64, badPowers64]

example : stringPadded Ex.env [] Ex.tbl57 =
    .ok (gs! "[T]\n      f s\nfloat64 string\n  1.5   \"a\"\n  0.1   \"b\"\n -4.125 \"\"\n100.0   \"\"\n -0.0   \"\"\n") := by
  decide +kernel

/-! ## Counterexamples -/

/-- What is read back from the text of a table. -/
def Ex.readBack (t : Table Addr) : Option (List (List (Cell Addr))) :=
  match stringPadded Ex.env [] t with
  | .ok s =>
    match newTableFromString Ex.env.text [] s with
    | .ok (H, a) => (H[a]?).map Table.rows
    | _ => none
  | _ => none

/-- 2^-24, 2^-44, 2^-77 and 2^-97, each alone in its table, are read back as the next smaller float. -/
theorem C57_changed64 : ∀ n ∈ [24, 44, 77, 97],
    Ex.readBack (Ex.floatTable (BitVec.ofNat 64 ((1023 - n) * 2 ^ 52))) = some [[.f64 (BitVec.ofNat 64 ((1023 - n) * 2 ^ 52 - 1))]] := by
  decide +kernel

/-- The numbers of digits after the point with which the powers of two are changed.  For all but 2^-499, 2^-569 and 2^-645 this is the number of digits with which `String` writes the float if it is
alone in its column. -/
def Ex.badPrecisions : List (Nat × Nat) :=
  [(24, 23), (44, 29), (77, 39), (97, 45), (140, 58), (296, 105), (366, 126), (383, 131), (489, 163), (496, 165), (499, 166), (509, 169), (549, 181), (569, 187),
    (645, 210), (652, 212), (662, 215), (695, 225), (705, 228), (778, 250), (788, 253), (791, 254), (808, 259), (921, 293), (957, 304), (1007, 319), (1017, 322)]

theorem parse_prec64 (m p m' : Nat) (hm : m < 2047 * 2 ^ 52)
    (h : FloatFmt.f64.nearest (FloatFmt.nearestNat (FloatFmt.f64.units m * 10 ^ p) (2 ^ 1074) * 2 ^ 1074) (10 ^ p) = m') (hm' : m' < 2047 * 2 ^ 52) :
    goFloat.parse64 (goFloat.prec64 (BitVec.ofNat 64 m) p) = some (BitVec.ofNat 64 m') := by
  have h1 : (BitVec.ofNat 64 m).toNat = m := by rw [BitVec.toNat_ofNat]; omega
  show Option.map _ (FloatFmt.f64.parse (FloatFmt.f64.format (fun m => FloatFmt.f64.formatPrec m p) (decide (2 ^ 63 ≤ (BitVec.ofNat 64 m).toNat)) ((BitVec.ofNat 64 m).toNat % 2 ^ 63))) = _
  have h2 : decide (2 ^ 63 ≤ m) = false := by simp; omega
  rw [h1, h2, Nat.mod_eq_of_lt (by omega)]
  unfold FloatFmt.format
  rw [if_neg (show ¬ FloatFmt.f64.inf < m by simp only [FloatFmt.f64]; omega), if_neg (show ¬ m = FloatFmt.f64.inf by simp only [FloatFmt.f64]; omega)]
  have h3 : FloatFmt.f64.nearest (FloatFmt.nearestNat (FloatFmt.f64.units m * 10 ^ p) (2 ^ FloatFmt.f64.scale) * 2 ^ FloatFmt.f64.scale) (10 ^ p) = m' := h
  unfold FloatFmt.formatPrec
  rw [FloatFmt.parse_decimal FloatFmt.f64 false _ p (by rw [h3]; exact hm'), h3]
  simp

/-- No exception is superfluous: each of the 27 powers of two, written with a certain number of digits after the point, is read as the next smaller float. -/
theorem C57_exceptions64 : Ex.badPrecisions.map Prod.fst = badPowers64 ∧ ∀ x ∈ Ex.badPrecisions,
    goFloat.parse64 (goFloat.prec64 (BitVec.ofNat 64 ((1023 - x.1) * 2 ^ 52)) x.2) = some (BitVec.ofNat 64 ((1023 - x.1) * 2 ^ 52 - 1)) := by
  refine ⟨rfl, fun x hx => parse_prec64 _ _ _ (by omega) ?_ (by omega)⟩
  have key : ∀ x ∈ Ex.badPrecisions, FloatFmt.f64.nearest (FloatFmt.nearestNat (FloatFmt.f64.units ((1023 - x.1) * 2 ^ 52) * 10 ^ x.2) (2 ^ 1074) * 2 ^ 1074) (10 ^ x.2) =
      (1023 - x.1) * 2 ^ 52 - 1 := by decide +kernel
  exact key x hx

/-- A table with one float32. -/
def Ex.floatTable32 (b : BitVec 32) : Table Addr :=
  { (newNilTable : Table Addr) with
    name := gs! "T", isNilTable := false, colNames := [gs! "f"], colTypes := [.float32], colMap := [(gs! "f", 0)], rows := [[.f32 b]] }

/-- The float32 2^-96 is read back as the next smaller float. -/
theorem C57_changed32 : Ex.readBack (Ex.floatTable32 (BitVec.ofNat 32 ((127 - 96) * 2 ^ 23))) = some [[.f32 (BitVec.ofNat 32 ((127 - 96) * 2 ^ 23 - 1))]] := by
  decide +kernel

end Verif
