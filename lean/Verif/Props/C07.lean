import Verif.Props.C03

/-!
# C07 AppendCol adds one zero-valued column and disturbs nothing
-/

namespace Verif
open Table

variable {τ : Type}

/-- `t'` is `t` with a last column `n` of type `ty` holding zero values. -/
def ZeroColAdded (t t' : Table τ) (n : GoStr) (ty : ColType) : Prop :=
  t'.colNames = t.colNames ++ [n] ∧ t'.colTypes = t.colTypes ++ [ty] ∧ t'.rows.length = t.rows.length ∧
  (∀ r, r < t.rows.length → ∃ c, At t' n r c ∧ Cell.IsZero ty c) ∧
  (∀ m r c, m ≠ n → (At t' m r c ↔ At t m r c)) ∧
  t'.name = t.name ∧ t'.sortKeys = t.sortKeys ∧ t'.isStructShape = t.isStructShape ∧ t'.isNilTable = t.isNilTable

theorem zeroCol_added (nt : Nat → Nat → τ) {t : Table τ} (h : WF t) (n : GoStr) (ty : ColType) (m : GoMap) :
    ZeroColAdded t { t with colNames := t.colNames ++ [n], colTypes := t.colTypes ++ [ty], colMap := m,
                            rows := addZeroCol nt t.colNames.length ty t.rows } n ty := by
  refine ⟨rfl, rfl, by simp [addZeroCol], ?_, ?_, rfl, rfl, rfl, rfl⟩
  · intro r hr
    have hrow : t.rows[r]? = some t.rows[r] := List.getElem?_eq_getElem hr
    have hl := h.rowLen hrow
    refine ⟨zeroCell (nt t.colNames.length r) ty,
      ⟨t.colNames.length, t.rows[r] ++ [zeroCell (nt t.colNames.length r) ty], by simp, by simp [addZeroCol, hrow], ?_⟩,
      zeroCell_isZero _ _⟩
    rw [← hl]; simp
  · intro a r c hne
    constructor
    · rintro ⟨i, row, hi, hrow, hc⟩
      simp only [addZeroCol, List.getElem?_mapIdx, Option.map_eq_some_iff] at hi hrow
      obtain ⟨row', h1, rfl⟩ := hrow
      have hil : i < t.colNames.length := by
        by_cases hlt : i < t.colNames.length
        · exact hlt
        · rw [List.getElem?_append_right (by omega)] at hi
          have := List.mem_of_getElem? hi
          simp at this; exact absurd this hne
      rw [List.getElem?_append_left hil] at hi
      rw [List.getElem?_append_left (by rw [h.rowLen h1]; exact hil)] at hc
      exact ⟨i, row', hi, h1, hc⟩
    · rintro ⟨i, row, hi, hrow, hc⟩
      have h1 := (List.getElem?_eq_some_iff.1 hi).1
      have h2 := (List.getElem?_eq_some_iff.1 hc).1
      exact ⟨i, row ++ [zeroCell (nt t.colNames.length r) ty], by simp only; rw [List.getElem?_append_left h1]; exact hi,
        by simp [addZeroCol, hrow], by rw [List.getElem?_append_left h2]; exact hc⟩

/-- **C07.** `AppendCol(n, ty)` succeeds iff the table is named, the name is valid and new and the type is one of the 20 types. -/
theorem C07_appendCol (nt : Nat → Nat → τ) (t : Table τ) (h : WF t) (n tyName : GoStr) :
    (∀ ty : ColType, t.isNilTable = false → isValidColName n = true → n ∉ t.colNames → tyName = ty.name →
      (t.appendCol nt n tyName).2 = .ok () ∧ ZeroColAdded t (t.appendCol nt n tyName).1 n ty ∧ WF (t.appendCol nt n tyName).1) ∧
    (¬ (t.isNilTable = false ∧ isValidColName n = true ∧ n ∉ t.colNames ∧ ∃ ty : ColType, tyName = ty.name) →
      (∃ e, (t.appendCol nt n tyName).2 = .err e) ∧ (t.appendCol nt n tyName).1 = t) := by
  have hw := h.appendCol nt n tyName
  rcases appendCol_cases nt h n tyName with ⟨ty, h1, h2, h3, h4, h5, e⟩ | ⟨hno, e, he⟩
  · constructor
    · intro ty' _ _ _ h5'
      have : ty = ty' := by
        have h6 := ofName?_name ty'
        rw [← h5', h4] at h6; exact Option.some.inj h6
      subst this
      refine ⟨by rw [e], ?_, hw⟩
      rw [e]; exact zeroCol_added nt h n ty _
    · intro hno; exact absurd ⟨h1, h2, h3, ty, h5⟩ hno
  · constructor
    · intro ty h1 h2 h3 h4
      exact absurd ⟨h1, h2, h3, ty, by rw [h4]; exact ofName?_name ty⟩ hno
    · intro _; rw [he]; exact ⟨⟨e, rfl⟩, rfl⟩

/-- The 20 type names are exactly the names `AppendCol` knows. -/
theorem C07_type_names (tyName : GoStr) :
    (∃ ty : ColType, tyName = ty.name) ↔ tyName ∈ [gs! "[]byte", gs! "[]uint8", gs! "bool", gs! "byte", gs! "float32",
      gs! "float64", gs! "int", gs! "int16", gs! "int32", gs! "rune", gs! "int64", gs! "int8", gs! "string", gs! "uint",
      gs! "uint16", gs! "uint32", gs! "uint64", gs! "uint8", gs! "*Table", gs! "time.Time"] := by
  constructor
  · rintro ⟨ty, rfl⟩
    cases ty <;> decide
  · intro h
    simp only [List.mem_cons, List.not_mem_nil, or_false] at h
    rcases h with h | h | h | h | h | h | h | h | h | h | h | h | h | h | h | h | h | h | h | h <;> subst h
    · exact ⟨.byteSlice, by decide⟩
    · exact ⟨.uint8Slice, by decide⟩
    · exact ⟨.bool, by decide⟩
    · exact ⟨.byte, by decide⟩
    · exact ⟨.float32, by decide⟩
    · exact ⟨.float64, by decide⟩
    · exact ⟨.int, by decide⟩
    · exact ⟨.int16, by decide⟩
    · exact ⟨.int32, by decide⟩
    · exact ⟨.rune, by decide⟩
    · exact ⟨.int64, by decide⟩
    · exact ⟨.int8, by decide⟩
    · exact ⟨.string, by decide⟩
    · exact ⟨.uint, by decide⟩
    · exact ⟨.uint16, by decide⟩
    · exact ⟨.uint32, by decide⟩
    · exact ⟨.uint64, by decide⟩
    · exact ⟨.uint8, by decide⟩
    · exact ⟨.table, by decide⟩
    · exact ⟨.time, by decide⟩

example : Ex.t.isNilTable = false ∧ isValidColName (gs! "x") = true ∧ gs! "x" ∉ Ex.t.colNames := by rw [Ex.t_eq]; decide +kernel
example : (Ex.t.appendCol (fun _ _ => ()) (gs! "x") (gs! "bool")).1.getVal (gs! "x") 2 = .ok (.bool false) := by decide +kernel
example : (Ex.t.appendCol (fun _ _ => ()) (gs! "x") (gs! "bool")).1.getVal (gs! "age") 1 = .ok (.int .int (-7)) := by decide +kernel
example : (Ex.t.appendCol (fun _ _ => ()) (gs! "age") (gs! "bool")).2 = .err .dupCol := by decide +kernel

end Verif
