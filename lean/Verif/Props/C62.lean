import Verif.Lemmas.TimeJson
import Verif.Lemmas.JsonBad
import Verif.Props.C59
import Verif.Props.C44

/-!
# C62 Which values survive being written as JSON

Strings and code points are written with `%q`, whose escapes `\a`, `\v`, `\x..` and `\U........` JSON does not have; floats are written with `%v`, also if they are infinite or NaN.
Of `Time.Format` it is only asked that it gives plain text.  Names are ASCII.
-/

namespace Verif
open Table

/-- The text of a set of tables is valid JSON exactly if the characters of its name and all values in its tables, at any depth, have a spelling in JSON. -/
theorem C62_set (P : PrintEnv) (hP : P.text.float = goFloat) (hT : ∀ v, PlainText (P.fmtTime v)) (H : Heap) (hw : HeapWF H) (d : Nat) (S : TableSet) (s : GoStr)
    (h : getTableSetAsJSON P H d S = .ok s) (hS : ∀ a ∈ S.tables, AsciiTree H a ∧ ¬ IsNil H a) :
    jsonDecode s ≠ none ↔ JsonText P.printable S.name ∧ ∀ a ∈ S.tables, SpelledTree P H a := set_told hP hT hw h hS

/-- The text of a table is valid JSON exactly if all values in it, at any depth, have a spelling in JSON. -/
theorem C62_valid (P : PrintEnv) (hP : P.text.float = goFloat) (hT : ∀ v, PlainText (P.fmtTime v)) (H : Heap) (hw : HeapWF H) (d : Nat) (a : Addr) (s : GoStr)
    (h : getTableAsJSON P H d a = .ok s) (ha : AsciiTree H a) (hn : ¬ IsNil H a) : jsonDecode s ≠ none ↔ SpelledTree P H a := by
  have h : getTableSetAsJSON P H d { newTableSet [] with tables := [a] } = .ok s := h
  have := set_told hP hT hw h (fun x hx => by rw [List.mem_singleton.1 hx]; exact ⟨ha, hn⟩)
  have hnil : JsonText P.printable [] := ⟨[], rfl, by simp⟩
  simpa [hnil, newTableSet] using this

/-- If one has not, the text cannot be read: all other values are lost with it. -/
theorem C62_refused (P : PrintEnv) (hP : P.text.float = goFloat) (hT : ∀ v, PlainText (P.fmtTime v)) (H : Heap) (hw : HeapWF H) (d : Nat) (a : Addr) (s : GoStr)
    (h : getTableAsJSON P H d a = .ok s) (ha : AsciiTree H a) (hn : ¬ IsNil H a) (hs : ¬ SpelledTree P H a) (E : JsonEnv) (K : Heap) :
    newTableFromJSON E K s = .err .syntaxErr := by
  have : jsonDecode s = none := Classical.byContradiction fun hd => hs ((C62_valid P hP hT H hw d a s h ha hn).1 hd)
  simp only [newTableFromJSON, newTableSetFromJSON, this, Out.bind]

/-- If all have, it is read, with the same names, columns, rows and nested tables, and `JsonRead` says with which values. -/
theorem C62_read (P : PrintEnv) (E : JsonEnv) (hP : P.text.float = goFloat) (hE : E.text.float = goFloat) (hT : ∀ v, PlainText (P.fmtTime v)) (hc : CastOK E) (H : Heap) (hw : HeapWF H)
    (d : Nat) (a : Addr) (s : GoStr) (h : getTableAsJSON P H d a = .ok s) (ha : AsciiTree H a) (hn : ¬ IsNil H a) (hs : SpelledTree P H a) (ht : TimesParse P E H a) (K : Heap) :
    ∃ K' a', newTableFromJSON E K s = .ok (K', a') ∧ (∀ x, x < K.length → K'[x]? = K[x]?) ∧ JsonTree (JsonRead P E) H K' K.length d a a' :=
  json_table hP hE h (spelledTree_safe hP hE hT hc hw ha hs ht) hn K

/-! ## Tables that cannot be read back -/

/-- A table of one column and one row. -/
def Ex.single (ty : GoStr) (c : Cell Addr) : Table Addr := Op.run newNilTable
  [.setName (gs! "T"), .appendCol (fun _ _ => 0) (gs! "c") ty, .appendRow (fun _ _ => 0), .setVal (gs! "c") 0 c]

/-- Not every table that is written can be read: a bell character, the code point 0, which a new row of a column of type `rune` has, an infinite float, and NaN. -/
theorem C62_false : ∀ t ∈ [Ex.single (gs! "string") (.str [7]), Ex.single (gs! "rune") (.int .int32 0), Ex.single (gs! "float64") (.f64 0x7FF0000000000000#64),
    Ex.single (gs! "float32") (.f32 0x7FC00000#32)], ∃ s, getTableAsJSON Ex.env [t] 1 0 = .ok s ∧ newTableFromJSON Ex.jsonEnv [] s = .err .syntaxErr := by
  intro t ht
  simp only [List.mem_cons, List.not_mem_nil, or_false] at ht
  rcases ht with rfl | rfl | rfl | rfl
  · exact ⟨gs! "{\"tableSetName\":\"\",\"tables\":[{\"tableName\":\"T\",\"metadata\":[{\"c\":\"string\"}],\"data\":[[{\"c\":\"\\a\"}]]}]}", by decide +kernel, rfl⟩
  · exact ⟨gs! "{\"tableSetName\":\"\",\"tables\":[{\"tableName\":\"T\",\"metadata\":[{\"c\":\"rune\"}],\"data\":[[{\"c\":\"\\x00\"}]]}]}", by decide +kernel, rfl⟩
  · exact ⟨gs! "{\"tableSetName\":\"\",\"tables\":[{\"tableName\":\"T\",\"metadata\":[{\"c\":\"float64\"}],\"data\":[[{\"c\":+Inf}]]}]}", by decide +kernel, rfl⟩
  · exact ⟨gs! "{\"tableSetName\":\"\",\"tables\":[{\"tableName\":\"T\",\"metadata\":[{\"c\":\"float32\"}],\"data\":[[{\"c\":NaN}]]}]}", by decide +kernel, rfl⟩

/-! ## Examples -/

/-- A code point that is not a valid one is read as U+FFFD. -/
example : ∃ K' a' t, newTableFromJSON Ex.jsonEnv [] (gs! "{\"tableSetName\":\"\",\"tables\":[{\"tableName\":\"T\",\"metadata\":[{\"c\":\"rune\"}],\"data\":[[{\"c\":\"\\ufffd\"}]]}]}") = .ok (K', a') ∧
    getTableAsJSON Ex.env [Ex.single (gs! "rune") (.int .int32 (-1))] 1 0 =
      .ok (gs! "{\"tableSetName\":\"\",\"tables\":[{\"tableName\":\"T\",\"metadata\":[{\"c\":\"rune\"}],\"data\":[[{\"c\":\"\\ufffd\"}]]}]}") ∧
    K'[a']? = some t ∧ t.rows = [[.int .int32 0xFFFD]] := ⟨_, 0, _, rfl, by decide +kernel, rfl, rfl⟩

theorem Ex.tree59_heap : HeapWF Ex.tree59 := by
  intro t ht
  simp only [Ex.tree59, List.mem_cons, List.not_mem_nil, or_false] at ht
  rcases ht with rfl | rfl
  · exact Ex.leaf59_wf
  · exact Ex.holder_wf 0

theorem Ex.tree59_spelled : AsciiTree Ex.tree59 1 ∧ SpelledTree Ex.env Ex.tree59 1 ∧ TimesParse Ex.env Ex.jsonEnv Ex.tree59 1 := by
  obtain ⟨h1, -, -⟩ := Ex.tree59_ready
  refine ⟨fun b t hb ht hn => ⟨(h1 b t hb ht hn).ascii, (h1 b t hb ht hn).asciiCols⟩, fun b t hb ht hn row hr => ?_, fun b t hb ht row hr v hv => ?_⟩
  · refine ((h1 b t hb ht hn).safe row hr).mono fun ty c hs => ?_
    cases c with
    | f32 b => exact hs.1
    | int k v => exact fun e _ _ => (hs e).2
    | str s => exact hs
    | f64 b => exact hs
    | _ => trivial
  · rcases Ex.tree59_reach hb ht with rfl | rfl
    · rw [Ex.leaf59_rows] at hr
      rw [List.mem_singleton.1 hr] at hv
      simp at hv
    · rw [show (Ex.holder 0).rows = [[.tbl (some 0)]] by decide +kernel] at hr
      rw [List.mem_singleton.1 hr] at hv
      simp at hv

theorem Ex.env_time : ∀ v, PlainText (Ex.env.fmtTime v) := fmtTime_plain

example : jsonDecode Ex.text59 ≠ none ∧ ∃ K' a', newTableFromJSON Ex.jsonEnv [] Ex.text59 = .ok (K', a') ∧ JsonTree (JsonRead Ex.env Ex.jsonEnv) Ex.tree59 K' 0 3 1 a' := by
  obtain ⟨h1, h2, h3⟩ := Ex.tree59_spelled
  have hn := Ex.tree59_ready.2.2
  refine ⟨(C62_valid Ex.env rfl Ex.env_time Ex.tree59 Ex.tree59_heap 3 1 _ Ex.text59_ok h1 hn).2 h2, ?_⟩
  obtain ⟨K', a', h, -, ht⟩ := C62_read Ex.env Ex.jsonEnv rfl rfl Ex.env_time Ex.castOK Ex.tree59 Ex.tree59_heap 3 1 _ Ex.text59_ok h1 hn h2 h3 []
  exact ⟨K', a', h, ht⟩

end Verif
