import Verif.Spec.Gob
import Verif.Props.C53
import Verif.Props.C31
import Verif.Lemmas.PrintTable

/-!
# Lemmas on gob export and import
-/

namespace Verif
open Table

theorem GoMap.get?_iff_mem {m : GoMap} (h : (m.map Prod.fst).Nodup) (k : GoStr) (v : Nat) : m.get? k = some v ↔ (k, v) ∈ m := by
  induction m with
  | nil => simp [GoMap.get?]
  | cons p m ih =>
    obtain ⟨k', v'⟩ := p
    simp only [List.map_cons, List.nodup_cons] at h
    rw [GoMap.get?]
    by_cases hk : k' = k
    · subst hk
      simp only [if_true, List.mem_cons, Prod.mk.injEq, true_and]
      constructor
      · intro e; exact .inl (Option.some.inj e).symm
      · rintro (e | e)
        · rw [e]
        · exact absurd (List.mem_map.2 ⟨_, e, rfl⟩) h.1
    · simp only [hk, if_false, List.mem_cons, Prod.mk.injEq, ih h.2]
      constructor
      · exact .inr
      · rintro (e | e)
        · exact absurd e.1.symm hk
        · exact e

theorem GoMap.get?_perm {m m' : GoMap} (h : (m.map Prod.fst).Nodup) (hp : m.Perm m') (k : GoStr) (v : Nat) :
    m'.get? k = some v ↔ m.get? k = some v := by
  rw [GoMap.get?_iff_mem h, GoMap.get?_iff_mem ((hp.map Prod.fst).nodup_iff.1 h)]
  exact hp.mem_iff.symm

theorem importTypes_map (tys : List ColType) : importTypes (tys.map ColType.name) = some tys := by
  induction tys with
  | nil => rfl
  | cons ty tys ih => simp [importTypes, ofName?_name, ih]

theorem SameValue.hasType {τ : Type} {x y : Cell τ} (h : SameValue x y) (ty : ColType) (hx : x.HasType ty) : y.HasType ty := by
  cases x <;> simp only [SameValue] at h
  case f32 b =>
    rcases h with rfl | ⟨_, c, rfl, _⟩
    · exact hx
    · cases ty <;> simp_all [Cell.HasType]
  case f64 b =>
    rcases h with rfl | ⟨_, c, rfl, _⟩
    · exact hx
    · cases ty <;> simp_all [Cell.HasType]
  case bytes b =>
    obtain ⟨c, rfl, _⟩ := h
    cases ty <;> simp_all [Cell.HasType]
  all_goals (subst h; exact hx)

theorem RowOK.same {τ : Type} {types : List ColType} {row row' : List (Cell τ)} (h : RowOK types row) (hs : Pointwise SameValue row row') :
    RowOK types row' := by
  refine ⟨by rw [← hs.length]; exact h.1, fun i ty c hty hc => ?_⟩
  obtain ⟨c0, h0, h2⟩ := hs.back i c hc
  exact h2.hasType ty (h.2 i ty c0 hty h0)

/-- What is encoded of a table without sort keys. -/
def exported (t : Table Addr) : TableExported :=
  { tableName := t.name, colNames := t.colNames, colTypes := t.colTypes.map ColType.name, colNamesMap := t.colMap, rows := t.rows, sortKeys := [],
    structShape := t.isStructShape }

theorem flat_of_types {t : Table Addr} (h : ∀ ty ∈ t.colTypes, ty ≠ .table ∧ ty ≠ .time) : Flat t := by
  rintro n ⟨i, _, h2⟩
  exact (h _ (List.mem_of_getElem? h2)).1 rfl

theorem gobCell_of {t : Table Addr} (h : GobTable t) : ∀ row ∈ t.rows, ∀ c ∈ row, GobCell c := by
  intro row hr c hc
  obtain ⟨i, hi⟩ := List.mem_iff_getElem?.1 hc
  obtain ⟨hl, ht⟩ := h.wf.rowsOK row hr
  have hli : i < t.colTypes.length := by rw [← hl]; exact (List.getElem?_eq_some_iff.1 hi).1
  have e := List.getElem?_eq_getElem hli
  have := ht i _ c e hi
  have hn := h.types _ (List.mem_of_getElem? e)
  generalize t.colTypes[i] = ty at *
  cases c with
  | nil => cases ty <;> exact this
  | tbl b => cases ty <;> first | exact hn.1 rfl | exact this
  | time b => cases ty <;> first | exact hn.2 rfl | exact this
  | _ => trivial

theorem nestedIn_append {H : Heap} {t : Table Addr} (hf : Flat t) (hw : WF t) {a b : Addr} (h : NestedIn (H ++ [t]) a b) : NestedIn H a b := by
  obtain ⟨u, n, r, h1, h2⟩ := h
  by_cases ha : a < H.length
  · rw [List.getElem?_append_left ha] at h1
    exact ⟨u, n, r, h1, h2⟩
  · rw [List.getElem?_append_right (Nat.le_of_not_lt ha)] at h1
    have : u = t := by
      cases hk : a - H.length with
      | zero => rw [hk] at h1; simpa using h1.symm
      | succ k => rw [hk] at h1; simp at h1
    subst this
    obtain ⟨i, row, e1, e2, e3⟩ := h2
    exfalso
    obtain ⟨_, ht⟩ := hw.rowsOK row (List.mem_of_getElem? e2)
    have hl : i < u.colTypes.length := by rw [hw.typesLen]; exact (List.getElem?_eq_some_iff.1 e1).1
    have et := List.getElem?_eq_getElem hl
    have := ht i _ _ et e3
    refine hf n ⟨i, e1, ?_⟩
    rw [et]
    generalize u.colTypes[i] = ty at *
    cases ty <;> first | rfl | exact this.elim

end Verif
