import Verif.Props.C05
import Verif.Props.C06
import Verif.Props.C07
import Verif.Props.C08
import Verif.Props.C09
import Verif.Props.C10
import Verif.Props.C12

/-!
# C54 Failed calls leave the table unchanged
-/

namespace Verif
open Table

variable {τ : Type}

/-- The calls C54 speaks about. -/
def Op.Atomic : Op τ → Prop
  | .setName _ | .renameTable _ | .setStructShape _ | .appendCol .. | .deleteCol _ | .deleteColByColIndex _ | .renameCol ..
  | .renameColByColIndex .. | .appendRow _ | .appendRows .. | .deleteRow _ | .deleteRows .. | .deleteRowsAll
  | .setVal .. | .setValByColIndex .. | .setTyped .. | .setTypedByColIndex .. | .reorderCols _ | .reorderColsByColIndex _
  | .reverse | .shuffle _ | .appendSortKey _ => True
  | _ => False

/-- **C54.** If one of these calls returns an error, the table is exactly as before. -/
theorem C54_atomic (op : Op τ) (hop : op.Atomic) (t : Table τ) (h : WF t) (ha : op.ArgsOK) (e : Err)
    (he : (op.step t).2 = .err e) : (op.step t).1 = t := by
  cases op with
  | setName n | renameTable n =>
    simp only [Op.step, Table.setName] at he ⊢
    split
    · rfl
    · rename_i hx; simp [hx] at he
  | setStructShape b => simp [Op.step, Table.setStructShape] at he
  | appendCol nt n ty =>
    simp only [Op.step] at he ⊢
    rcases appendCol_cases nt h n ty with ⟨ty, h1, h2, h3, h4, h5, e'⟩ | ⟨_, e', h'⟩
    · rw [e'] at he; cases he
    · rw [h']
  | deleteCol n =>
    simp only [Op.step] at he ⊢
    by_cases hn : n ∈ t.colNames
    · rw [((C09_deleteCol t h n).1 hn).1] at he; cases he
    · exact ((C09_deleteCol t h n).2 hn).2
  | deleteColByColIndex c =>
    simp only [Op.step] at he ⊢
    by_cases hn : 0 ≤ c ∧ c < t.colNames.length
    · obtain ⟨n, _, h2, _⟩ := (C09_deleteColByColIndex t h c).1 hn
      rw [h2] at he; cases he
    · exact ((C09_deleteColByColIndex t h c).2 hn).2
  | renameCol a b =>
    simp only [Op.step] at he ⊢
    rcases renameCol_cases h a b with ⟨i, _, _, _, e'⟩ | ⟨_, e', h'⟩
    · rw [e'] at he; cases he
    · rw [h']
  | renameColByColIndex c b =>
    simp only [Op.step] at he ⊢
    by_cases hn : 0 ≤ c ∧ c < t.colNames.length
    · obtain ⟨ci, rfl⟩ := Int.eq_ofNat_of_zero_le hn.1
      have hlt : ci < t.colNames.length := by omega
      rw [(C10_renameColByColIndex t ci b).1 ci _ rfl (List.getElem?_eq_getElem hlt)] at he ⊢
      rcases renameCol_cases h t.colNames[ci] b with ⟨i, _, _, _, e'⟩ | ⟨_, e', h'⟩
      · rw [e'] at he; cases he
      · rw [h']
    · rw [(C10_renameColByColIndex t c b).2 hn]
  | appendRow nt =>
    simp only [Op.step] at he ⊢
    cases hnil : t.isNilTable
    · rw [((C06_appendRow nt t h).1 hnil).1] at he; cases he
    · exact ((C06_appendRow nt t h).2 hnil).2
  | appendRows nt n =>
    simp only [Op.step] at he ⊢
    by_cases hn : t.isNilTable = false ∧ 0 ≤ n
    · rw [((C06_appendRows nt t h n).1 hn).1] at he; cases he
    · exact ((C06_appendRows nt t h n).2 hn).2
  | deleteRow r =>
    simp only [Op.step] at he ⊢
    by_cases hn : 0 ≤ r ∧ r < t.rows.length
    · rw [((C08_deleteRow t r).1 hn).1] at he; cases he
    · exact ((C08_deleteRow t r).2 hn).2
  | deleteRows a b =>
    simp only [Op.step] at he ⊢
    by_cases hn : 0 ≤ a ∧ a ≤ b ∧ b < t.rows.length
    · rw [((C08_deleteRows t a b).1 hn).1] at he; cases he
    · exact ((C08_deleteRows t a b).2 hn).2
  | deleteRowsAll =>
    simp only [Op.step] at he ⊢
    rw [(C08_deleteRowsAll t).1] at he; cases he
  | setVal n r v =>
    simp only [Op.step] at he ⊢
    exact (C04_rejected t h n 0 r v ha).1 (by rw [he]; simp)
  | setValByColIndex c r v =>
    simp only [Op.step] at he ⊢
    exact (C04_rejected t h [] c r v ha).2 (by rw [he]; simp)
  | setTyped ty n r v =>
    simp only [Op.step] at he ⊢
    rcases ha with ha | ⟨_, rfl⟩
    · exact (C04_setTyped_iff t h ty n r v ha).2 (by rw [he]; simp)
    · rfl
  | setTypedByColIndex ty c r v =>
    simp only [Op.step] at he ⊢
    rcases ha with ha | ⟨_, rfl⟩
    · rcases setTypedByColIndex_cases h ty c r v ha with ⟨ci, ri, ty', rfl, rfl, _, _, _, _, e'⟩ | ⟨_, _, e', h'⟩ | ⟨_, _, h'⟩
      · rw [e'] at he; cases he
      · rw [h']
      · rw [h'] at he; cases he
    · rfl
  | reorderCols ns =>
    simp only [Op.step] at he ⊢
    rcases reorderCols_cases h ns with ⟨σ, _, _, _, e'⟩ | ⟨_, e', h'⟩
    · rw [e'] at he; cases he
    · rw [h']
  | reorderColsByColIndex order =>
    simp only [Op.step] at he ⊢
    rcases reorderColsByColIndex_cases h order with ⟨σ, _, _, e'⟩ | ⟨_, h'⟩
    · rw [e'] at he; cases he
    · rw [h']
  | reverse =>
    simp only [Op.step] at he ⊢
    rw [reverse_eq] at he; cases he
  | shuffle choose =>
    simp only [Op.step] at he ⊢
    obtain ⟨rows, _, e'⟩ := shuffle_eq choose t
    rw [e'] at he; cases he
  | appendSortKey n =>
    simp only [Op.step] at he ⊢
    simp only [Table.appendSortKey] at he ⊢
    rcases getColInfo_cases h n with ⟨i, ty, hi, hty, e'⟩ | ⟨_, e'⟩
    · rw [e'] at he ⊢
      simp only at he ⊢
      split
      · rfl
      · rename_i hx; simp [hx] at he
    · rw [e']
  | _ => exact hop.elim

/-- The same for a whole history: failing calls could be left out. -/
theorem C54_failing_calls_are_skips (t : Table τ) (h : WF t) (op : Op τ) (hop : op.Atomic) (ha : op.ArgsOK) (e : Err)
    (he : (op.step t).2 = .err e) (ops : List (Op τ)) : Op.run t (op :: ops) = Op.run t ops := by
  simp only [Op.run, C54_atomic op hop t h ha e he]

example : (Op.step Ex.t (.renameCol (gs! "age") (gs! "w"))).2 = .err .dupCol ∧
    (Op.renameCol (gs! "age") (gs! "w") : Op Unit).Atomic := ⟨by decide +kernel, trivial⟩
-- Not every call is atomic: `SetSortKeys` drops the old keys before it fails (C49).
example : (Op.step Ex.t (.setSortKeys [gs! "nosuch"])).2 = .err .noCol ∧
    (Op.step Ex.t (.setSortKeys [gs! "nosuch"])).1.sortKeys = [] := by decide +kernel

end Verif
