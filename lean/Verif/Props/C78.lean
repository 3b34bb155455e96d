import Verif.Lemmas.JsonIndentTable
import Verif.Model.Files
import Verif.Props.C62

/-!
# C78 JSON with line breaks is read like JSON without
-/

namespace Verif
open Table

/-- A set: the text with line breaks is read, by all readers, exactly as the text without them. -/
theorem C78_set (P : PrintEnv) (E : JsonEnv) (H : Heap) (d : Nat) (S : TableSet) (s' : GoStr) (h : getTableSetAsJSONIndent P H d S = .ok s') :
    ∃ s, getTableSetAsJSON P H d S = .ok s ∧ (∀ K, newTableSetFromJSON E K s' = newTableSetFromJSON E K s) ∧ (∀ K, newTableFromJSON E K s' = newTableFromJSON E K s) ∧
      ∀ K name, newTableFromJSONByTableName E K s' name = newTableFromJSONByTableName E K s name := by
  unfold getTableSetAsJSONIndent at h
  cases hs : getTableSetAsJSON P H d S with
  | err e => rw [hs] at h; cases h
  | panic => rw [hs] at h; cases h
  | ok s =>
    rw [hs] at h
    simp only [Out.bind] at h
    have key : ∀ K, newTableSetFromJSON E K s' = newTableSetFromJSON E K s := by
      unfold indentJSON at h
      split at h
      · rename_i hi; cases h; exact newTableSetFromJSON_decode (jsonIndent_decode hi)
      · cases h
    exact ⟨s, rfl, key, fun K => by rw [newTableFromJSON, newTableFromJSON, key], fun K name => by rw [newTableFromJSONByTableName, newTableFromJSONByTableName, key]⟩

/-- A table: the text with line breaks is read exactly as the text without them. -/
theorem C78_table (P : PrintEnv) (E : JsonEnv) (H : Heap) (d : Nat) (a : Addr) (s' : GoStr) (h : getTableAsJSONIndent P H d a = .ok s') :
    ∃ s, getTableAsJSON P H d a = .ok s ∧ (∀ K, newTableFromJSON E K s' = newTableFromJSON E K s) ∧ ∀ K, newTableSetFromJSON E K s' = newTableSetFromJSON E K s := by
  obtain ⟨s, h1, h2, h3, _⟩ := C78_set P E H d { newTableSet [] with tables := [a] } s' h
  exact ⟨s, h1, h3, h2⟩

/-- Nothing but white space is added or removed. -/
theorem C78_bytes (P : PrintEnv) (H : Heap) (d : Nat) (S : TableSet) (s s' : GoStr) (h : getTableSetAsJSON P H d S = .ok s) (h' : getTableSetAsJSONIndent P H d S = .ok s') :
    s'.filter (fun c => c ∉ [32, 9, 10, 13]) = s.filter (fun c => c ∉ [32, 9, 10, 13]) := by
  unfold getTableSetAsJSONIndent at h'
  rw [h] at h'
  simp only [Out.bind, indentJSON] at h'
  split at h'
  · rename_i x hi
    cases h'
    unfold jsonIndent at hi
    split at hi
    · rw [← Option.some.inj hi]
      exact indentLoop_bytes _ (fun c hc => by simpa using hc) s ..
    · cases hi
  · cases h'

/-- When there is a text: the form with line breaks gives an error, and no text, if a value cannot be spelled in JSON, where the form without gives a text that cannot be read. -/
theorem C78_refused (P : PrintEnv) (hP : P.text.float = goFloat) (hT : ∀ v, PlainText (P.fmtTime v)) (H : Heap) (hw : HeapWF H) (d : Nat) (a : Addr) (s : GoStr)
    (h : getTableAsJSON P H d a = .ok s) (ha : AsciiTree H a) (hn : ¬ IsNil H a) :
    (SpelledTree P H a → ∃ s', getTableAsJSONIndent P H d a = .ok s') ∧ (¬ SpelledTree P H a → getTableAsJSONIndent P H d a = .err .syntaxErr) := by
  have h0 : getTableSetAsJSON P H d { newTableSet [] with tables := [a] } = .ok s := h
  have hv := set_valid hP hT hw h0 (fun x hx => by rw [List.mem_singleton.1 hx]; exact ⟨ha, hn⟩)
  rw [C62_valid P hP hT H hw d a s h ha hn] at hv
  unfold getTableAsJSONIndent
  rw [h]
  simp only [Out.bind, indentJSON, jsonIndent]
  constructor
  · intro hs
    rw [if_pos (hv.2 hs)]
    exact ⟨_, rfl⟩
  · intro hs
    rw [if_neg fun hh => hs (hv.1 hh)]

/-- So a table whose values survive JSON survives JSON with line breaks. -/
theorem C78_roundTrip (P : PrintEnv) (E : JsonEnv) (hP : P.text.float = goFloat) (hE : E.text.float = goFloat) (H : Heap) (d : Nat) (a : Addr) (s' : GoStr)
    (h : getTableAsJSONIndent P H d a = .ok s') (hready : JsonReady P E H a) (hnil : ¬ IsNil H a) (hsmall : SmallTree H a) (K : Heap) :
    ∃ K' a', newTableFromJSON E K s' = .ok (K', a') ∧ (∀ x, x < K.length → K'[x]? = K[x]?) ∧ JsonTree SameValue H K' K.length d a a' := by
  obtain ⟨s, h1, h2, _⟩ := C78_table P E H d a s' h
  obtain ⟨K', a', h3⟩ := C59_table P E hP hE H d a s h1 hready hnil hsmall K
  exact ⟨K', a', by rw [h2]; exact h3.1, h3.2⟩

/-! ## Examples -/

/-- The tables of C59, one inside the other, with a text that has quotes and a backslash. -/
def Ex.text78 : GoStr := gs! "{\n\t\"tableSetName\": \"\",\n\t\"tables\": [\n\t\t{\n\t\t\t\"tableName\": \"T\",\n\t\t\t\"metadata\": [\n\t\t\t\t{\n\t\t\t\t\t\"p\": \"*Table\"\n\t\t\t\t}\n\t\t\t],\n\t\t\t\"data\": [\n\t\t\t\t[\n\t\t\t\t\t{\n\t\t\t\t\t\t\"p\": {\n\t\t\t\t\t\t\t\"tableName\": \"A\",\n\t\t\t\t\t\t\t\"metadata\": [\n\t\t\t\t\t\t\t\t{\n\t\t\t\t\t\t\t\t\t\"s\": \"string\"\n\t\t\t\t\t\t\t\t},\n\t\t\t\t\t\t\t\t{\n\t\t\t\t\t\t\t\t\t\"i\": \"int64\"\n\t\t\t\t\t\t\t\t},\n\t\t\t\t\t\t\t\t{\n\t\t\t\t\t\t\t\t\t\"r\": \"rune\"\n\t\t\t\t\t\t\t\t},\n\t\t\t\t\t\t\t\t{\n\t\t\t\t\t\t\t\t\t\"f\": \"float64\"\n\t\t\t\t\t\t\t\t},\n\t\t\t\t\t\t\t\t{\n\t\t\t\t\t\t\t\t\t\"b\": \"[]byte\"\n\t\t\t\t\t\t\t\t}\n\t\t\t\t\t\t\t],\n\t\t\t\t\t\t\t\"data\": [\n\t\t\t\t\t\t\t\t[\n\t\t\t\t\t\t\t\t\t{\n\t\t\t\t\t\t\t\t\t\t\"s\": \"x \\\"y\\\"\\n\\\\\"\n\t\t\t\t\t\t\t\t\t},\n\t\t\t\t\t\t\t\t\t{\n\t\t\t\t\t\t\t\t\t\t\"i\": -9007199254740992\n\t\t\t\t\t\t\t\t\t},\n\t\t\t\t\t\t\t\t\t{\n\t\t\t\t\t\t\t\t\t\t\"r\": \"é\"\n\t\t\t\t\t\t\t\t\t},\n\t\t\t\t\t\t\t\t\t{\n\t\t\t\t\t\t\t\t\t\t\"f\": 1.5\n\t\t\t\t\t\t\t\t\t},\n\t\t\t\t\t\t\t\t\t{\n\t\t\t\t\t\t\t\t\t\t\"b\": [\n\t\t\t\t\t\t\t\t\t\t\t1,\n\t\t\t\t\t\t\t\t\t\t\t255\n\t\t\t\t\t\t\t\t\t\t]\n\t\t\t\t\t\t\t\t\t}\n\t\t\t\t\t\t\t\t]\n\t\t\t\t\t\t\t]\n\t\t\t\t\t\t}\n\t\t\t\t\t}\n\t\t\t\t]\n\t\t\t]\n\t\t}\n\t]\n}"

theorem Ex.text78_ok : getTableAsJSONIndent Ex.env Ex.tree59 3 1 = .ok Ex.text78 := by decide +kernel

example (K : Heap) : ∃ K' a', newTableFromJSON Ex.jsonEnv K Ex.text78 = .ok (K', a') ∧ (∀ x, x < K.length → K'[x]? = K[x]?) ∧ JsonTree SameValue Ex.tree59 K' K.length 3 1 a' :=
  C78_roundTrip Ex.env Ex.jsonEnv rfl rfl _ _ _ _ Ex.text78_ok Ex.tree59_ready.1 Ex.tree59_ready.2.2 Ex.tree59_ready.2.1 K

example : ∃ s', getTableAsJSONIndent Ex.env Ex.tree59 3 1 = .ok s' :=
  (C78_refused Ex.env rfl Ex.env_time Ex.tree59 Ex.tree59_heap 3 1 _ Ex.text59_ok Ex.tree59_spelled.1 Ex.tree59_ready.2.2).1 Ex.tree59_spelled.2.1

/-- A bell character: a text without line breaks, and none with them. -/
example : (∃ s, getTableAsJSON Ex.env [Ex.single (gs! "string") (.str [7])] 1 0 = .ok s) ∧
    getTableAsJSONIndent Ex.env [Ex.single (gs! "string") (.str [7])] 1 0 = .err .syntaxErr :=
  ⟨⟨gs! "{\"tableSetName\":\"\",\"tables\":[{\"tableName\":\"T\",\"metadata\":[{\"c\":\"string\"}],\"data\":[[{\"c\":\"\\a\"}]]}]}", by decide +kernel⟩, by decide +kernel⟩

end Verif
