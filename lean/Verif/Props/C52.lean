import Verif.Model.Generate
import Verif.Spec.Accessors

/-!
# C52 Generated accessor names exist
-/

namespace Verif

/-- **C52.** For each of the 18 other column types, generated code calls the getter and the setter of that type; for `*Table` and `time.Time`
it calls methods that do not exist.  (The 20 column types are all there are, so the case distinction is complete.) -/
theorem C52_names_partial (ty : ColType) :
    ((ty ≠ .table ∧ ty ≠ .time) → (getterName ty.name, ty) ∈ getters ∧ (setterName ty.name, ty) ∈ setters) ∧
    ((ty = .table ∨ ty = .time) → (∀ ty', (getterName ty.name, ty') ∉ getters) ∧ (∀ ty', (setterName ty.name, ty') ∉ setters)) := by
  constructor
  · intro h
    cases ty <;> first | exact absurd rfl h.1 | exact absurd rfl h.2 | decide +kernel
  · intro h
    rcases h with rfl | rfl
    · exact ⟨fun ty' => by cases ty' <;> decide +kernel, fun ty' => by cases ty' <;> decide +kernel⟩
    · exact ⟨fun ty' => by cases ty' <;> decide +kernel, fun ty' => by cases ty' <;> decide +kernel⟩

example : getterName (gs! "[]byte") = gs! "GetByteSlice" := by decide +kernel
example : setterName (gs! "*Table") = gs! "Set*Table" ∧ setterName (gs! "time.Time") = gs! "SetTime.Time" := by decide +kernel

end Verif
