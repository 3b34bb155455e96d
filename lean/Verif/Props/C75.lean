import Verif.Props.C38
import Verif.Props.C59
import Verif.Lemmas.TimeJson

/-!
# C75: times come back from their texts

Times are written with the layout RFC3339Nano and read with RFC3339, by `String` and the parser and in JSON.  `goFormatTime` and `goParseTime` are `time.Format` and `time.Parse`; what
`time.Parse` accepts beyond the strict form is the parameter `lenient`, about which nothing is assumed.
-/

namespace Verif
open Table

/-- **C75**, the texts: the text of a time in the years 0 to 9999, whose zone is a whole number of minutes from UTC, is parsed as the same time, with its nanoseconds and its zone. -/
theorem C75_parse (lenient : GoStr → Option GoTime) (v : GoTime) (h : TimeSafe v) : goParseTime lenient (goFormatTime v) = some v :=
  goParseTime_fmt lenient h

/-- **C75**, tables as text, as far as it holds: the times of a table that is written by `String` and read back are what they were, if the fraction of a second has nine digits or none.
Missing: other fractions (`C75_fraction`), years beyond 9999 (`C75_years`), zones with seconds (`C75_zone`), for which the claim is false. -/
theorem C75_text_partial (P : PrintEnv) (hP : P.IsGo) (H H0 : Heap) (t : Table Addr) (h : Writable paddedType t)
    (hsafe : ∀ row ∈ t.rows, ∀ c ∈ row, PadSafe c) (hshape : t.isStructShape = false ∨ 1 < t.rows.length) :
    ∃ s t', stringPadded P H t = .ok s ∧ newTableFromString P.text H0 s = .ok (H0 ++ [t'], H0.length) ∧ t'.rows.length = t.rows.length ∧
      ∀ (r c : Nat) (row row' : List (Cell Addr)) (v : GoTime), t.rows[r]? = some row → row[c]? = some (.time v) → t'.rows[r]? = some row' → row'[c]? = some (.time v) := by
  obtain ⟨s, t', h1, h2, h3⟩ := C38_roundTrip_partial P hP H H0 t h hsafe hshape
  refine ⟨s, t', h1, h2, h3.rows.length.symm, fun r c row row' v e1 e2 e3 => ?_⟩
  obtain ⟨row2, g1, g2⟩ := h3.rows.get r row e1
  rw [e3] at g1
  cases g1
  obtain ⟨x, g3, g4⟩ := Pointwise.get g2 c (.time v) e2
  rw [g3]
  exact congrArg some g4

/-- What JSON is not known to change; of a time, that its text determines it. -/
def JsonSafeGo (P : PrintEnv) (E : JsonEnv) (ty : ColType) : Cell Addr → Prop
  | .time v => TimeSafe v
  | c => JsonSafe P E ty c

/-- **C75**, JSON: a table with times of the years 0 to 9999 and whole minutes of zones, with any fraction of a second, is read back from its JSON text, nested tables included. -/
theorem C75_json (P : PrintEnv) (E : JsonEnv) (hP : P.IsGo) (hE : E.text.float = goFloat) (lenient : GoStr → Option GoTime) (hEt : E.text.parseTime = goParseTime lenient) (H : Heap)
    (d : Nat) (a : Addr) (s : GoStr) (h : getTableAsJSON P H d a = .ok s)
    (hready : ∀ b t, (b = a ∨ Below H a b) → H[b]? = some t → t.isNilTable = false →
      WF t ∧ Ascii t.name ∧ (∀ n ∈ t.colNames, Ascii n) ∧ ∀ row ∈ t.rows, Pointwise (fun ty c => JsonSafeGo P E ty c) t.colTypes row)
    (hnil : ¬ IsNil H a) (hsmall : SmallTree H a) (K : Heap) :
    ∃ K' a', newTableFromJSON E K s = .ok (K', a') ∧ (∀ x, x < K.length → K'[x]? = K[x]?) ∧ JsonTree SameValue H K' K.length d a a' := by
  refine C59_table P E hP.float hE H d a s h ?_ hnil hsmall K
  intro b t hb ht hn
  obtain ⟨g1, g2, g3, g4⟩ := hready b t hb ht hn
  refine ⟨g1, g2, g3, fun row hr => Pointwise.mono (fun ty c hc => ?_) (g4 row hr)⟩
  cases c with
  | time v =>
    show PlainText (P.fmtTime v) ∧ E.text.parseTime (P.fmtTime v) = some v
    rw [hP.fmtTime, hEt]
    exact ⟨fmtTime_plain v, goParseTime_fmt lenient hc⟩
  | _ => exact hc

/-- The claim is false of the text of a table: a time whose fraction of a second has one to eight digits is written so that the parser does not find a time there. -/
theorem C75_fraction (lenient : GoStr → Option GoTime) (v : GoTime) (h : TimeSafe v) (h0 : v.nsec ≠ 0) (h10 : v.nsec % 10 = 0) :
    ∃ e, readTime (goParseTime lenient) (goFormatTime v) = .err e := by
  refine ⟨.syntaxErr, ?_⟩
  rw [readTime, scanTime_none v ⟨h.fromYear0, h.toYear9999⟩ h.nanos h0 h10]

/-- A table with one time. -/
def Ex.timeTable (v : GoTime) : Table Addr :=
  { (newNilTable : Table Addr) with
    name := gs! "T", isNilTable := false, colNames := [gs! "t"], colTypes := [.time], colMap := [(gs! "t", 0)], rows := [[.time v]] }

theorem Ex.wf_timeTable (v : GoTime) : WF (Ex.timeTable v) := by
  refine ⟨by simp [Ex.timeTable], (by decide : ∀ n ∈ [gs! "t"], isValidColName n = true), rfl, by simp [Ex.timeTable], ?_, ?_, by simp [Ex.timeTable], fun _ => (by decide : isValidTableName (gs! "T") = true), by simp [Ex.timeTable, newNilTable]⟩
  · intro n i
    simp only [Ex.timeTable, GoMap.get?]
    match i with
    | 0 => grind
    | i + 1 => grind
  · intro row hr
    rw [List.mem_singleton.1 hr]
    refine ⟨rfl, fun i ty' c h1 h2 => ?_⟩
    match i with
    | 0 =>
      simp [Ex.timeTable] at h1 h2
      subst h1 h2
      trivial
    | i + 1 => simp [Ex.timeTable] at h1

/-- … for example half a second past midnight. -/
theorem C75_halfSecond : ∃ s, WF (Ex.timeTable { sec := 0, nsec := 500000000, off := 0 }) ∧ TimeSafe { sec := 0, nsec := 500000000, off := 0 } ∧
    stringPadded Ex.env [] (Ex.timeTable { sec := 0, nsec := 500000000, off := 0 }) = .ok s ∧ (newTableFromString Ex.env.text [] s).isOk = false := by
  have h1 : stringPadded Ex.env [] (Ex.timeTable { sec := 0, nsec := 500000000, off := 0 }) = .ok (gs! "[T]\nt\ntime.Time\n1970-01-01T00:00:00.5Z\n") := by decide +kernel
  have h2 : (newTableFromString Ex.env.text [] (gs! "[T]\nt\ntime.Time\n1970-01-01T00:00:00.5Z\n")).isOk = false := by decide +kernel
  exact ⟨_, Ex.wf_timeTable _, ⟨by decide, by decide, by decide, by decide, by decide⟩, h1, h2⟩

/-- The claim is false of zones that are not a whole number of minutes from UTC (as most were before they were standardised): the seconds of the offset are dropped, so that another
instant is read. -/
theorem C75_zone (lenient : GoStr → Option GoTime) (v : GoTime) (h1 : -62167219200 ≤ v.sec + v.off) (h2 : v.sec + v.off < 253402300800) (h3 : v.nsec < 10 ^ 9)
    (h4 : v.off.natAbs < 86400) (h5 : ¬ 60 ∣ v.off) :
    ∃ w, goParseTime lenient (goFormatTime v) = some w ∧ w.sec ≠ v.sec ∧ w.nsec = v.nsec ∧ w.sec + w.off = v.sec + v.off := by
  have hp := parse_format v ⟨h1, h2⟩ h3 h4
  refine ⟨{ sec := v.sec + v.off - 60 * v.off.tdiv 60, nsec := v.nsec, off := 60 * v.off.tdiv 60 }, by simp only [goParseTime, hp], ?_, rfl, ?_⟩
  · intro e
    simp only at e
    exact h5 ⟨v.off.tdiv 60, by omega⟩
  · simp only
    omega

/-- The claim is false of years beyond 9999: the beginning of the year 10000 is silently read as that of the year 0. -/
theorem C75_years : ∃ s H' a, WF (Ex.timeTable { sec := 253402300800, nsec := 0, off := 0 }) ∧
    stringPadded Ex.env [] (Ex.timeTable { sec := 253402300800, nsec := 0, off := 0 }) = .ok s ∧ newTableFromString Ex.env.text [] s = .ok (H', a) ∧
    (H'[a]?).map Table.rows = some [[.time { sec := -62167219200, nsec := 0, off := 0 }]] := by
  have h1 : stringPadded Ex.env [] (Ex.timeTable { sec := 253402300800, nsec := 0, off := 0 }) = .ok (gs! "[T]\nt\ntime.Time\n10000-01-01T00:00:00Z\n") := by decide +kernel
  have h2 : newTableFromString Ex.env.text [] (gs! "[T]\nt\ntime.Time\n10000-01-01T00:00:00Z\n") =
    .ok ([Ex.timeTable { sec := -62167219200, nsec := 0, off := 0 }], 0) := by decide +kernel
  exact ⟨_, _, _, Ex.wf_timeTable _, h1, h2, rfl⟩

/-! ## Concrete cases -/

/-- Nine digits of a fraction, an hour and a half west of UTC. -/
def Ex.time75 : GoTime := { sec := 951782400, nsec := 120000001, off := -5400 }

example : TimeSafe Ex.time75 ∧ goFormatTime Ex.time75 = gs! "2000-02-28T22:30:00.120000001-01:30" :=
  ⟨⟨by decide, by decide, by decide, by decide, by decide⟩, by decide +kernel⟩

example : ∃ s t', stringPadded Ex.env [] (Ex.timeTable Ex.time75) = .ok s ∧ newTableFromString Ex.env.text [] s = .ok ([t'], 0) ∧ t'.rows.length = 1 := by
  obtain ⟨s, t', h1, h2, h3, _⟩ := C75_text_partial Ex.env Ex.env_go [] [] (Ex.timeTable Ex.time75)
    ⟨Ex.wf_timeTable _, rfl, by unfold Ascii; decide, by decide, by decide, by intro row hr; rw [List.mem_singleton.1 hr]; exact ⟨trivial, trivial⟩⟩
    (by
      intro row hr c hc
      rw [List.mem_singleton.1 hr] at hc
      rw [List.mem_singleton.1 hc]
      exact ⟨⟨by decide, by decide, by decide, by decide, by decide⟩, .inr (by decide)⟩) (.inl rfl)
  exact ⟨s, t', h1, h2, h3⟩

/-- The mean solar time of Amsterdam, 19 minutes and 32 seconds east of UTC: read back 32 seconds later. -/
example : parseRFC3339 (goFormatTime { sec := -1262305172, nsec := 0, off := 1172 }) = some { sec := -1262305140, nsec := 0, off := 1140 } := by decide +kernel

end Verif
