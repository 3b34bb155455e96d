import Verif.Lemmas.TimeScan
import Verif.Spec.Json
import Verif.Spec.Padded

/-!
# Lemmas: times in JSON
-/

namespace Verif

theorem fmtTime_plain (v : GoTime) : PlainText (goFormatTime v) := by
  intro c hc
  obtain ⟨h1, h2, h3⟩ := fmtTime_visible v c hc
  simp only [visible, Bool.and_eq_true, decide_eq_true_eq, UInt8.le_iff_toNat_le] at h1
  have e1 : (33 : UInt8).toNat = 33 := rfl
  have e2 : (126 : UInt8).toNat = 126 := rfl
  exact ⟨by omega, by omega, h2, h3⟩

/-- A time is read back from its text by `time.Parse`. -/
theorem goParseTime_fmt (lenient : GoStr → Option GoTime) {v : GoTime} (h : TimeSafe v) : goParseTime lenient (goFormatTime v) = some v := by
  have e : 60 * v.off.tdiv 60 = v.off := Int.mul_tdiv_cancel' h.minutes
  have hp := parse_format v ⟨h.fromYear0, h.toYear9999⟩ h.nanos h.lessThanADay
  rw [e, show v.sec + v.off - v.off = v.sec by omega] at hp
  simp only [goParseTime, hp]

end Verif
