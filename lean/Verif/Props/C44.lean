import Verif.Props.C59
import Verif.Props.C38

/-!
# C44 Integers written as JSON and read back

The statement is false beyond 53 significant bits, as numbers are read as `float64` values.  What is true: an integer is replaced by a nearest integer of at most 53
significant bits.
-/

namespace Verif
open Table

/-- Every table that JSON can express is read back with its integers rounded to 53 significant bits, and all else the same. -/
theorem C44_nearest_partial (P : PrintEnv) (E : JsonEnv) (hP : P.text.float = goFloat) (hE : E.text.float = goFloat) (hc : CastOK E) (H : Heap) (d : Nat) (a : Addr) (s : GoStr)
    (h : getTableAsJSON P H d a = .ok s) (hready : JsonReady P E H a) (hnil : ¬ IsNil H a) (K : Heap) :
    ∃ K' a', newTableFromJSON E K s = .ok (K', a') ∧ (∀ x, x < K.length → K'[x]? = K[x]?) ∧ JsonTree JsonValue H K' K.length d a a' :=
  json_table hP hE h (fun b t hb ht hn => (hready b t hb ht hn).value hP hE hc) hnil K

theorem nearest_zero {v n : Int} (h : Nearest53 v n) : (0 ≤ v → 0 ≤ n) ∧ (v ≤ 0 → n ≤ 0) := by
  have := h.2 0 ⟨0, 0, by simp, by omega⟩
  have hb := h.1
  omega

theorem nearest_bound {v n : Int} {e : Nat} (h : Nearest53 v n) (hv : v.natAbs ≤ 2 ^ e) : n.natAbs ≤ 2 ^ e := by
  have h1 := h.2 (2 ^ e) ⟨1, e, by simp [Int.natAbs_pow], by omega⟩
  have h2 := h.2 (-(2 ^ e)) ⟨1, e, by simp [Int.natAbs_pow], by omega⟩
  have e1 : ((2 : Int) ^ e) = ((2 ^ e : Nat) : Int) := by simp
  rw [e1] at h1 h2
  have := nearest_zero h
  generalize 2 ^ e = z at *
  omega

/-- An integer of up to 62 bits survives if, and only if, it has at most 53 significant bits. -/
theorem C44_iff (P : PrintEnv) (E : JsonEnv) (hP : P.text.float = goFloat) (hE : E.text.float = goFloat) (hc : CastOK E) (H : Heap) (d : Nat) (a : Addr) (s : GoStr)
    (h : getTableAsJSON P H d a = .ok s) (hready : JsonReady P E H a) (t : Table Addr) (ht : H[a]? = some t) (hnil : t.isNilTable = false)
    (r c : Nat) (row : List (Cell Addr)) (k : IntKind) (v : Int) (hr : t.rows[r]? = some row) (hcell : row[c]? = some (.int k v)) (hv : v.natAbs ≤ 2 ^ 62) (K : Heap) :
    ∃ K' a' t' row', newTableFromJSON E K s = .ok (K', a') ∧ K'[a']? = some t' ∧ t'.rows[r]? = some row' ∧ (row'[c]? = some (.int k v) ↔ Bits53 v) := by
  have hnn : ¬ IsNil H a := by
    rintro ⟨t1, h1, h2⟩
    rw [ht] at h1; cases h1
    rw [hnil] at h2; cases h2
  obtain ⟨K', a', h1, -, h2⟩ := C44_nearest_partial P E hP hE hc H d a s h hready hnn K
  cases d with
  | zero => exact h2.elim
  | succ d =>
    obtain ⟨_, t1, t', e1, e2, _, _, _, _, _, _, _, _, hrows⟩ := h2
    rw [ht] at e1; cases e1
    obtain ⟨row', hr', hrow⟩ := hrows.get r row hr
    obtain ⟨c', hc', w, rfl, hw, hnear⟩ := hrow.get c _ hcell
    refine ⟨K', a', t', row', h1, e2, hr', ?_⟩
    rw [hc']
    have hwf := (hready a t (.inl rfl) ht hnil).wf
    have hht : k.Has v := by
      have hro := hwf.rowsOK row (List.mem_of_getElem? hr)
      have hlt := (List.getElem?_eq_some_iff.1 hcell).1
      rw [hro.1] at hlt
      exact has_of (hro.2 c _ _ (List.getElem?_eq_getElem hlt) hcell)
    have hnw : Nearest53 v w := by
      rcases hnear with hnear | ⟨n, hn, hout⟩
      · exact hnear
      · refine absurd ?_ hout
        have b0 := nearest_zero hn
        have b1 := fun e => nearest_bound (e := e) hn
        by_cases hb : Bits53 v
        · rw [hn.eq hb]; exact hht
        · have hbig : ¬ v.natAbs < 2 ^ 53 := fun hlt => hb (bits53_small hlt)
          have b2 := b1 62 hv
          obtain ⟨h1, h2⟩ := hht
          cases k <;> simp only [IntKind.Has, IntKind.lo, IntKind.hi] at h1 h2 ⊢ <;> omega
    simp only [Option.some.injEq, Cell.int.injEq, true_and]
    constructor
    · rintro rfl; exact hnw.1
    · exact hnw.eq

/-- Not all integers have 53 significant bits: `2 ^ 53 + 1` has 54. -/
theorem not_bits53 : ¬ Bits53 9007199254740993 := by
  rintro ⟨m, e, h1, h2⟩
  cases e with
  | zero => simp at h1; omega
  | succ e =>
    rw [Nat.pow_succ, ← Nat.mul_assoc] at h1
    omega

/-- The statement is false: there is a table with one 64-bit integer that comes back as another. -/
theorem C44_changed : ∃ (t : Table Addr) (s : GoStr) (K : Heap) (a : Addr) (t' : Table Addr), WF t ∧ t.rows = [[.int .int64 9007199254740993]] ∧
    getTableAsJSON Ex.env [t] 1 0 = .ok s ∧ newTableFromJSON Ex.jsonEnv [] s = .ok (K, a) ∧ K[a]? = some t' ∧ t'.rows = [[.int .int64 9007199254740992]] := by
  refine ⟨Ex.intTable .int64 .int64 [9007199254740993],
    gs! "{\"tableSetName\":\"\",\"tables\":[{\"tableName\":\"T\",\"metadata\":[{\"i\":\"int64\"}],\"data\":[[{\"i\":9007199254740993}]]}]}",
    [Ex.intTable .int64 .int64 [9007199254740992], { newNilTable with parent := some 0 }], 0, Ex.intTable .int64 .int64 [9007199254740992], Ex.wf_intTable _ _ _ ?_, rfl, ?_, ?_, rfl, rfl⟩
  · intro v hv
    rw [List.mem_singleton.1 hv]
    exact ⟨by decide, by decide⟩
  · decide +kernel
  · decide +kernel

theorem Ex.castOK : CastOK Ex.jsonEnv := fun k _ => ⟨Int.le_refl _, show k.lo ≤ k.hi by cases k <;> decide⟩

/-- The hypotheses are met by the example of C59. -/
example : ∃ K' a' t' row', newTableFromJSON Ex.jsonEnv [] (gs! "{\"tableSetName\":\"\",\"tables\":[{\"tableName\":\"A\",\"metadata\":[{\"s\":\"string\"},{\"i\":\"int64\"},{\"r\":\"rune\"},{\"f\":\"float64\"},{\"b\":\"[]byte\"}],\"data\":[[{\"s\":\"x \\\"y\\\"\\n\\\\\"},{\"i\":-9007199254740992},{\"r\":\"é\"},{\"f\":1.5},{\"b\":[1,255]}]]}]}") = .ok (K', a') ∧
    K'[a']? = some t' ∧ t'.rows[0]? = some row' ∧ (row'[1]? = some (.int .int64 (-9007199254740992)) ↔ Bits53 (-9007199254740992)) :=
  C44_iff Ex.env Ex.jsonEnv rfl rfl Ex.castOK Ex.tree59 3 0 _ (by decide +kernel)
    (fun b t hb ht hn => by
      refine Ex.tree59_ready.1 b t (.inr ?_) ht hn
      have h0 : Below Ex.tree59 1 0 := .direct (c := 0) (r := 0) ⟨Ex.holder 0, rfl, by decide +kernel⟩
      rcases hb with rfl | hb
      · exact h0
      · exact h0.trans hb) Ex.leaf59 rfl (by decide +kernel) 0 1 _ .int64 (-9007199254740992) (by rw [Ex.leaf59_rows]; rfl) rfl (by decide) []

end Verif
