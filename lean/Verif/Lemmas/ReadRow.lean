import Verif.Model.Parser
import Verif.Lemmas.Literal
import Verif.Lemmas.Preserve
import Verif.Lemmas.Utf8

/-!
# Lemmas: every cell that is read has the type of its column
-/

namespace Verif

theorem Out.bind_ok {α β : Type} {x : Out α} {f : α → Out β} {b : β} (h : x.bind f = .ok b) : ∃ a, x = .ok a ∧ f a = .ok b := by
  cases x with
  | ok a => exact ⟨a, rfl, h⟩
  | err => simp [Out.bind] at h
  | panic => simp [Out.bind] at h

theorem Out.bind_noPanic {α β : Type} {x : Out α} {f : α → Out β} (hx : x ≠ .panic) (hf : ∀ a, x = .ok a → f a ≠ .panic) : x.bind f ≠ .panic := by
  cases x with
  | ok a => exact hf a rfl
  | err => simp [Out.bind]
  | panic => exact absurd rfl hx

/-! ## Numbers -/

theorem parseUintLoop_bound {base maxVal : Nat} (s : GoStr) (n : Nat) (hn : n ≤ maxVal) :
    parseUintLoop base maxVal s n ≠ .panic ∧ ∀ v, parseUintLoop base maxVal s n = .ok v → v ≤ maxVal := by
  induction s generalizing n with
  | nil => simp [parseUintLoop, hn]
  | cons c s ih =>
    simp only [parseUintLoop]
    split
    · simp
    · split
      · simp
      · split
        · simp
        · split
          · simp
          · rename_i h
            exact ih _ (by omega)

theorem strconvParseUint_bound (s : GoStr) (base bits : Nat) :
    strconvParseUint s base bits ≠ .panic ∧ ∀ v, strconvParseUint s base bits = .ok v → v < 2 ^ bits := by
  have hp : 0 < 2 ^ bits := Nat.two_pow_pos _
  unfold strconvParseUint
  split
  · simp
  · have := parseUintLoop_bound (base := base) (maxVal := 2 ^ bits - 1) s 0 (by omega)
    exact ⟨this.1, fun v hv => by have := this.2 v hv; omega⟩

theorem strconvParseInt_bound (s : GoStr) (base bits : Nat) :
    strconvParseInt s base bits ≠ .panic ∧
    ∀ v, strconvParseInt s base bits = .ok v → -((2 ^ (bits - 1) : Nat) : Int) ≤ v ∧ v ≤ ((2 ^ (bits - 1) : Nat) : Int) - 1 := by
  have hp : 0 < 2 ^ (bits - 1) := Nat.two_pow_pos _
  unfold strconvParseInt
  split
  · simp
  · rename_i c cs
    simp only
    have hb := strconvParseUint_bound (if c = 43 ∨ c = 45 then cs else c :: cs) base bits
    split
    · rename_i h; exact absurd h hb.1
    · simp
    · rename_i un _
      generalize 2 ^ (bits - 1) = cut at *
      split
      · simp
      · split
        · simp
        · split
          · refine ⟨by simp, fun v hv => ?_⟩
            simp only [Out.ok.injEq] at hv
            subst hv
            simp_all
            omega
          · refine ⟨by simp, fun v hv => ?_⟩
            simp only [Out.ok.injEq] at hv
            subst hv
            simp_all
            omega

theorem parseInt_bound (s : GoStr) (bits : Nat) :
    parseInt s bits ≠ .panic ∧
    ∀ v, parseInt s bits = .ok v → -((2 ^ (bits - 1) : Nat) : Int) ≤ v ∧ v ≤ ((2 ^ (bits - 1) : Nat) : Int) - 1 := by
  unfold parseInt
  split
  · simp
  · split
    · exact strconvParseInt_bound ..
    · split
      · exact strconvParseInt_bound ..
      · split
        · exact strconvParseInt_bound ..
        · exact strconvParseInt_bound ..
  · exact strconvParseInt_bound ..

theorem parseUint_bound (s : GoStr) (bits : Nat) : parseUint s bits ≠ .panic ∧ ∀ v, parseUint s bits = .ok v → v < 2 ^ bits := by
  unfold parseUint
  split
  · simp
  · split
    · exact strconvParseUint_bound ..
    · split
      · exact strconvParseUint_bound ..
      · split
        · exact strconvParseUint_bound ..
        · exact strconvParseUint_bound ..
  · exact strconvParseUint_bound ..

theorem readInt_bound (k : IntKind) (l : GoStr) :
    readInt k l ≠ .panic ∧ ∀ v rest, readInt k l = .ok (v, rest) → k.lo ≤ v ∧ v ≤ k.hi := by
  unfold readInt
  split
  · simp
  · rename_i tok rest _
    split
    · rename_i hk
      obtain ⟨_, _, hlo, hhi⟩ := k.signed_facts hk
      have hb := parseInt_bound tok k.bits
      refine ⟨Out.bind_noPanic hb.1 (by simp), fun v r h => ?_⟩
      obtain ⟨x, hx, e⟩ := Out.bind_ok h
      simp only [Out.ok.injEq, Prod.mk.injEq] at e
      have := hb.2 x hx
      rw [hlo, hhi, ← e.1]
      exact this
    · rename_i hk
      obtain ⟨_, _, hlo, hhi⟩ := k.unsigned_facts (by simpa using hk)
      have hb := parseUint_bound tok k.bits
      refine ⟨Out.bind_noPanic hb.1 (by simp), fun v r h => ?_⟩
      obtain ⟨x, hx, e⟩ := Out.bind_ok h
      simp only [Out.ok.injEq, Prod.mk.injEq] at e
      have := hb.2 x hx
      rw [hlo, hhi, ← e.1]
      omega

theorem parseBytes_noPanic (l : List GoStr) : parseBytes l ≠ .panic := by
  induction l with
  | nil => simp [parseBytes]
  | cons p ps ih =>
    simp only [parseBytes]
    exact Out.bind_noPanic (parseUint_bound p 8).1 fun _ _ => Out.bind_noPanic ih (by simp)

/-! ## Runes -/

theorem readHex_bound (n : Nat) (s : GoStr) (v : Nat) {x : Nat} {rest : GoStr} (h : readHex n s v = some (x, rest)) : x < (v + 1) * 16 ^ n := by
  induction n generalizing s v with
  | zero => simp [readHex] at h; omega
  | succ n ih =>
    cases s with
    | nil => simp [readHex] at h
    | cons c cs =>
      simp only [readHex] at h
      have hd : ∀ d, unhex c = some d → d < 16 := by
        intro d hd
        unfold unhex at hd
        split at hd
        · rename_i h; simp only [UInt8.le_iff_toNat_le] at h; simp at hd; simp at h; omega
        · split at hd
          · rename_i h; simp only [UInt8.le_iff_toNat_le] at h; simp at hd; simp at h; omega
          · split at hd
            · rename_i h; simp only [UInt8.le_iff_toNat_le] at h; simp at hd; simp at h; omega
            · simp at hd
      split at h
      · rename_i d hx
        have h1 := ih _ _ h
        have h2 := hd d hx
        have : (v * 16 + d + 1) * 16 ^ n ≤ (v + 1) * 16 * 16 ^ n := Nat.mul_le_mul_right _ (by omega)
        rw [Nat.pow_succ, Nat.mul_comm (16 ^ n) 16, ← Nat.mul_assoc]
        omega
      · simp at h

theorem ite_some {α : Type} {p : Prop} [Decidable p] {a x : α} {b : Option α} (h : (if p then some a else b) = some x) : a = x ∨ b = some x := by
  split at h
  · simp at h; exact .inl h
  · exact .inr h

theorem unquoteChar_bound {s rest : GoStr} {q : UInt8} {v : Nat} {mb : Bool} (h : unquoteChar s q = some (v, mb, rest)) : v ≤ 0x10FFFF := by
  unfold unquoteChar at h
  split at h
  · simp at h
  · rename_i c cs
    have hc := c.toNat_lt
    split at h
    · simp at h
    · split at h
      · split at h
        · rename_i r w hd
          simp only [Option.some.injEq, Prod.mk.injEq] at h
          have := (encode_decode hd).1
          unfold ValidRune at this
          omega
        · simp only [Option.some.injEq, Prod.mk.injEq] at h; omega
      · split at h
        · simp only [Option.some.injEq, Prod.mk.injEq] at h; omega
        · unfold unescape at h
          split at h
          · simp at h
          · rename_i d ds
            have hd := d.toNat_lt
            iterate 7
              rcases ite_some h with h | h
              · simp only [Prod.mk.injEq] at h
                omega
            split at h
            · cases hx : readHex 2 ds 0 with
              | none => simp [hx] at h
              | some p =>
                obtain ⟨x, r⟩ := p
                have := readHex_bound _ _ _ hx
                simp only [hx, Option.map_some, Option.some.injEq, Prod.mk.injEq] at h
                omega
            · split at h
              · split at h
                · split at h
                  · rename_i hv
                    simp only [Option.some.injEq, Prod.mk.injEq] at h
                    unfold ValidRune at hv
                    omega
                  · simp at h
                · simp at h
              · split at h
                · split at h
                  · split at h
                    · simp only at h
                      split at h
                      · simp at h
                      · simp only [Option.some.injEq, Prod.mk.injEq] at h; omega
                    · simp at h
                  · simp at h
                · split at h
                  · simp only [Option.some.injEq, Prod.mk.injEq] at h; omega
                  · split at h
                    · split at h
                      · simp at h
                      · simp only [Option.some.injEq, Prod.mk.injEq] at h; omega
                    · simp at h

theorem readRune_bound (l : GoStr) :
    readRune l ≠ .panic ∧ ∀ v rest, readRune l = .ok (v, rest) → -2147483648 ≤ v ∧ v ≤ 2147483647 := by
  unfold readRune
  split
  · simp
  · rename_i content rest _
    split
    · simp
    · have hp : parseRune content ≠ .panic ∧ ∀ v, parseRune content = .ok v → 0 ≤ v ∧ v ≤ 0x10FFFF := by
        unfold parseRune
        split
        · simp
        · rename_i v mb tail hu
          have := unquoteChar_bound hu
          split
          · simp
          · refine ⟨by simp, fun x hx => ?_⟩
            simp only [Out.ok.injEq] at hx
            omega
      refine ⟨Out.bind_noPanic hp.1 (by simp), fun v r h => ?_⟩
      obtain ⟨x, hx, e⟩ := Out.bind_ok h
      simp only [Out.ok.injEq, Prod.mk.injEq] at e
      have := hp.2 x hx
      rw [← e.1]
      omega

/-! ## Cells -/

/-- Memory grew by tables without rows. -/
def Grows (H H' : Heap) : Prop := ∃ K : Heap, H' = H ++ K ∧ ∀ t ∈ K, WF t ∧ t.rows = []

theorem Grows.refl (H : Heap) : Grows H H := ⟨[], by simp⟩

theorem Grows.trans {H1 H2 H3 : Heap} (h : Grows H1 H2) (h' : Grows H2 H3) : Grows H1 H3 := by
  obtain ⟨K, rfl, hK⟩ := h
  obtain ⟨L, rfl, hL⟩ := h'
  refine ⟨K ++ L, by simp, fun t ht => ?_⟩
  rcases List.mem_append.1 ht with ht | ht
  · exact hK t ht
  · exact hL t ht

theorem Grows.length_le {H H' : Heap} (h : Grows H H') : H.length ≤ H'.length := by
  obtain ⟨K, rfl, _⟩ := h
  simp

theorem Grows.get? {H H' : Heap} (h : Grows H H') {a : Nat} {t : Table Addr} (ht : H[a]? = some t) : H'[a]? = some t := by
  obtain ⟨K, rfl, _⟩ := h
  rw [List.getElem?_append_left (List.getElem?_eq_some_iff.1 ht).1]
  exact ht

theorem WF.setParent {τ : Type} {t : Table τ} (h : WF t) (a : Option τ) : WF { t with parent := a } where
  namesNodup := h.namesNodup
  namesValid := h.namesValid
  typesLen := h.typesLen
  mapKeys := h.mapKeys
  mapIff := h.mapIff
  rowsOK := h.rowsOK
  nilEmpty := h.nilEmpty
  nameValid := h.nameValid
  keysOK := h.keysOK

theorem WF.setShape {τ : Type} {t : Table τ} (h : WF t) (b : Bool) : WF { t with isStructShape := b } where
  namesNodup := h.namesNodup
  namesValid := h.namesValid
  typesLen := h.typesLen
  mapKeys := h.mapKeys
  mapIff := h.mapIff
  rowsOK := h.rowsOK
  nilEmpty := h.nilEmpty
  nameValid := h.nameValid
  keysOK := h.keysOK

theorem readTable_ok (l : GoStr) :
    readTable l ≠ .panic ∧ ∀ t rest, readTable l = .ok (t, rest) → WF t ∧ t.rows = [] := by
  unfold readTable
  split
  · split
    · refine ⟨by simp, fun t rest h => ?_⟩
      simp only [Out.ok.injEq, Prod.mk.injEq] at h
      rw [← h.1]
      exact ⟨WF.newNilTable, rfl⟩
    · simp
  · rename_i n rest _
    split
    · rename_i t ht
      refine ⟨by simp, fun t' rest' h => ?_⟩
      simp only [Out.ok.injEq, Prod.mk.injEq] at h
      rw [← h.1]
      exact ⟨WF.newTable ht, by rw [(newTable_ok ht).2]; rfl⟩
    · simp
    · rename_i h
      exfalso
      cases hv : isValidTableName n
      · rw [newTable_err hv] at h; simp at h
      · rw [newTable_eq hv] at h; simp at h

theorem intKind?_hasType {ty : ColType} {k : IntKind} (h : ty.intKind? = some k) {v : Int} (hv : k.lo ≤ v ∧ v ≤ k.hi) :
    (Cell.int k v : Cell Addr).HasType ty := by
  cases ty <;> simp only [ColType.intKind?, Option.some.injEq, reduceCtorEq] at h <;> subst h <;> exact hv

theorem readCell_ok (env : TextEnv) (H : Heap) (a : Addr) (ty : ColType) (l : GoStr) :
    readCell env H a ty l ≠ .panic ∧
    ∀ H' c rest, readCell env H a ty l = .ok (H', c, rest) →
      Grows H H' ∧ c.HasType ty ∧ ∀ b, c = .tbl (some b) → b < H'.length := by
  unfold readCell
  split
  · rename_i k hk
    have hb := readInt_bound k l
    refine ⟨Out.bind_noPanic hb.1 (by simp), fun H' c rest h => ?_⟩
    obtain ⟨⟨v, r⟩, hx, e⟩ := Out.bind_ok h
    simp only [Out.ok.injEq, Prod.mk.injEq] at e
    obtain ⟨rfl, rfl, rfl⟩ := e
    exact ⟨.refl _, intKind?_hasType hk (hb.2 v r hx), by simp⟩
  · rename_i hk
    split
    · refine ⟨Out.bind_noPanic ?_ (by simp), fun H' c rest h => ?_⟩
      · unfold readString; split
        · split
          · simp
          · split <;> simp
        · simp
      · obtain ⟨⟨v, r⟩, hx, e⟩ := Out.bind_ok h
        simp only [Out.ok.injEq, Prod.mk.injEq] at e
        obtain ⟨rfl, rfl, rfl⟩ := e
        exact ⟨.refl _, trivial, by simp⟩
    · refine ⟨Out.bind_noPanic ?_ (by simp), fun H' c rest h => ?_⟩
      · unfold readBool; split
        · simp
        · split <;> simp
      · obtain ⟨⟨v, r⟩, hx, e⟩ := Out.bind_ok h
        simp only [Out.ok.injEq, Prod.mk.injEq] at e
        obtain ⟨rfl, rfl, rfl⟩ := e
        exact ⟨.refl _, trivial, by simp⟩
    iterate 2
      · refine ⟨Out.bind_noPanic ?_ (by simp), fun H' c rest h => ?_⟩
        · unfold readBytes; split
          · simp only
            split
            · simp
            · split
              · simp
              · exact Out.bind_noPanic (parseBytes_noPanic _) (by simp)
          · simp
        · obtain ⟨⟨v, r⟩, hx, e⟩ := Out.bind_ok h
          simp only [Out.ok.injEq, Prod.mk.injEq] at e
          obtain ⟨rfl, rfl, rfl⟩ := e
          exact ⟨.refl _, trivial, by simp⟩
    · have hb := readRune_bound l
      refine ⟨Out.bind_noPanic hb.1 (by simp), fun H' c rest h => ?_⟩
      obtain ⟨⟨v, r⟩, hx, e⟩ := Out.bind_ok h
      simp only [Out.ok.injEq, Prod.mk.injEq] at e
      obtain ⟨rfl, rfl, rfl⟩ := e
      exact ⟨.refl _, hb.2 v r hx, by simp⟩
    · refine ⟨Out.bind_noPanic ?_ (by simp), fun H' c rest h => ?_⟩
      · unfold readFloat32; split
        · simp
        · split
          · simp
          · split <;> simp
      · obtain ⟨⟨v, r⟩, hx, e⟩ := Out.bind_ok h
        simp only [Out.ok.injEq, Prod.mk.injEq] at e
        obtain ⟨rfl, rfl, rfl⟩ := e
        exact ⟨.refl _, trivial, by simp⟩
    · refine ⟨Out.bind_noPanic ?_ (by simp), fun H' c rest h => ?_⟩
      · unfold readFloat64; split
        · simp
        · split
          · simp
          · split <;> simp
      · obtain ⟨⟨v, r⟩, hx, e⟩ := Out.bind_ok h
        simp only [Out.ok.injEq, Prod.mk.injEq] at e
        obtain ⟨rfl, rfl, rfl⟩ := e
        exact ⟨.refl _, trivial, by simp⟩
    · have hb := readTable_ok l
      refine ⟨Out.bind_noPanic hb.1 (by simp), fun H' c rest h => ?_⟩
      obtain ⟨⟨t, r⟩, hx, e⟩ := Out.bind_ok h
      simp only [Out.ok.injEq, Prod.mk.injEq] at e
      obtain ⟨rfl, rfl, rfl⟩ := e
      have := hb.2 t r hx
      refine ⟨⟨[_], rfl, fun t' ht' => ?_⟩, trivial, ?_⟩
      · simp only [List.mem_singleton] at ht'
        subst ht'
        exact ⟨this.1.setParent _, this.2⟩
      · intro b hb
        simp only [Cell.tbl.injEq, Option.some.injEq] at hb
        subst hb
        simp
    · refine ⟨Out.bind_noPanic ?_ (by simp), fun H' c rest h => ?_⟩
      · unfold readTime; split
        · simp
        · split <;> simp
      · obtain ⟨⟨v, r⟩, hx, e⟩ := Out.bind_ok h
        simp only [Out.ok.injEq, Prod.mk.injEq] at e
        obtain ⟨rfl, rfl, rfl⟩ := e
        exact ⟨.refl _, trivial, by simp⟩
    · simp

theorem RowOK.cons {ty : ColType} {tys : List ColType} {c : Cell Addr} {cs : List (Cell Addr)} (h : c.HasType ty) (h' : RowOK tys cs) :
    RowOK (ty :: tys) (c :: cs) := by
  refine ⟨by simp [h'.1], fun i t x ht hx => ?_⟩
  cases i with
  | zero => simp at ht hx; subst ht; subst hx; exact h
  | succ i => simp at ht hx; exact h'.2 i t x ht hx

theorem readRow_ok (env : TextEnv) (a : Addr) (H : Heap) (names types : List GoStr) (l : GoStr) (hl : names.length = types.length) :
    readRow env a H names types l ≠ .panic ∧
    ∀ H' row, readRow env a H names types l = .ok (H', row) →
      Grows H H' ∧ (∃ tys : List ColType, types = tys.map ColType.name ∧ RowOK tys row) ∧ ∀ b, Cell.tbl (some b) ∈ row → b < H'.length := by
  induction types generalizing H names l with
  | nil =>
    cases names with
    | cons => simp at hl
    | nil =>
      simp only [readRow]
      split
      · simp
      · refine ⟨by simp, fun H' row h => ?_⟩
        simp only [List.map_nil, Out.ok.injEq, Prod.mk.injEq] at h
        obtain ⟨rfl, rfl⟩ := h
        exact ⟨.refl _, ⟨[], rfl, rfl, by simp⟩, by simp⟩
  | cons tyName types ih =>
    cases names with
    | nil => simp at hl
    | cons n names =>
      simp only [readRow]
      split
      · simp
      · split
        · simp
        · rename_i ty hty
          have hc := readCell_ok env H a ty l
          constructor
          · refine Out.bind_noPanic hc.1 fun ⟨H1, c, rest⟩ _ => ?_
            exact Out.bind_noPanic (ih H1 names _ (by simpa using hl)).1 (by simp)
          · intro H' row h
            obtain ⟨⟨H1, c, rest⟩, h1, h⟩ := Out.bind_ok h
            obtain ⟨⟨H2, cs⟩, h2, h⟩ := Out.bind_ok h
            simp only [Out.ok.injEq, Prod.mk.injEq] at h
            obtain ⟨rfl, rfl⟩ := h
            obtain ⟨g1, t1, b1⟩ := hc.2 _ _ _ h1
            obtain ⟨g2, ⟨tys, e2, r2⟩, b2⟩ := (ih H1 names _ (by simpa using hl)).2 _ _ h2
            refine ⟨g1.trans g2, ⟨ty :: tys, ?_, r2.cons t1⟩, fun b hb => ?_⟩
            · have := List.find?_some hty
              simp only [decide_eq_true_eq] at this
              simp [e2, this]
            · simp only [List.mem_cons] at hb
              rcases hb with hb | hb
              · have := b1 b hb.symm
                have := g2.length_le
                exact Nat.lt_of_lt_of_le ‹_› this
              · exact b2 b hb

end Verif
