import Verif.Lemmas.JsonTable
import Verif.Props.C48
import Verif.Props.C36

/-!
# C59 Tables written as JSON are read back

`K` is the memory when the text is read; the tables that are made there are new ones.  `d` bounds the depth of nested tables (C61: any bound greater than the number of tables will do).
-/

namespace Verif
open Table

/-- A set of tables: reading its text gives a set of that name with the same tables in the same order, without touching other tables. -/
theorem C59_set (P : PrintEnv) (E : JsonEnv) (hP : P.text.float = goFloat) (hE : E.text.float = goFloat) (H : Heap) (d : Nat) (S : TableSet) (s : GoStr)
    (h : getTableSetAsJSON P H d S = .ok s) (hname : JsonText P.printable S.name) (hnd : (S.tables.map (nameAt H)).Nodup)
    (hready : ∀ a ∈ S.tables, JsonReady P E H a ∧ SmallTree H a ∧ ¬ IsNil H a) (K : Heap) :
    ∃ K' S', newTableSetFromJSON E K s = .ok (K', S') ∧ S'.name = S.name ∧ (∀ x, x < K.length → K'[x]? = K[x]?) ∧
      Pointwise (JsonTree SameValue H K' K.length d) S.tables S'.tables := by
  obtain ⟨K', tabs, h1, h2, h3⟩ := set_back (V := SameValue) hP hE h hname hnd
    (fun a ha b t hb ht hn => ((hready a ha).1 b t hb ht hn).same hP hE ((hready a ha).2.1 b t hb ht)) (fun a ha => (hready a ha).2.2) K
  exact ⟨K', _, h1, rfl, h2, h3⟩

/-- A table: reading its text gives the same table, nested tables included, made of new tables. -/
theorem C59_table (P : PrintEnv) (E : JsonEnv) (hP : P.text.float = goFloat) (hE : E.text.float = goFloat) (H : Heap) (d : Nat) (a : Addr) (s : GoStr)
    (h : getTableAsJSON P H d a = .ok s) (hready : JsonReady P E H a) (hnil : ¬ IsNil H a) (hsmall : SmallTree H a) (K : Heap) :
    ∃ K' a', newTableFromJSON E K s = .ok (K', a') ∧ (∀ x, x < K.length → K'[x]? = K[x]?) ∧ JsonTree SameValue H K' K.length d a a' :=
  json_table hP hE h (fun b t hb ht hn => (hready b t hb ht hn).same hP hE (hsmall b t hb ht)) hnil K

/-! ## An example -/

/-- A table with a text, an integer, a code point, a float and bytes; and one that holds it. -/
def Ex.leaf59 : Table Addr := Op.run newNilTable
  [.setName (gs! "A"), .appendCol (fun _ _ => 0) (gs! "s") (gs! "string"), .appendCol (fun _ _ => 0) (gs! "i") (gs! "int64"), .appendCol (fun _ _ => 0) (gs! "r") (gs! "rune"),
    .appendCol (fun _ _ => 0) (gs! "f") (gs! "float64"), .appendCol (fun _ _ => 0) (gs! "b") (gs! "[]byte"), .appendRow (fun _ _ => 0),
    .setVal (gs! "s") 0 (.str (gs! "x \"y\"\n\\")), .setVal (gs! "i") 0 (.int .int64 (-9007199254740992)), .setVal (gs! "r") 0 (.int .int32 0xE9),
    .setVal (gs! "f") 0 (.f64 0x3FF8000000000000#64), .setVal (gs! "b") 0 (.bytes (some [1, 255]))]

def Ex.tree59 : Heap := [Ex.leaf59, Ex.holder 0]

def Ex.jsonEnv : JsonEnv := { text := Ex.env.text, cast := fun k _ => k.lo }

theorem Ex.leaf59_wf : WF Ex.leaf59 := C01_history _ WF.newNilTable _ (by simp only [Op.ArgsOK, Cell.Real, List.forall_mem_cons]; simp; decide)

theorem Ex.tree59_reach {b : Addr} {t : Table Addr} (hb : b = 1 ∨ Below Ex.tree59 1 b) (ht : Ex.tree59[b]? = some t) : t = Ex.leaf59 ∨ t = Ex.holder 0 := by
  match b with
  | 0 => left; cases ht; rfl
  | 1 => right; cases ht; rfl
  | b + 2 => simp [Ex.tree59] at ht

theorem Ex.leaf59_rows : Ex.leaf59.rows = [[.str (gs! "x \"y\"\n\\"), .int .int64 (-9007199254740992), .int .int32 0xE9, .f64 0x3FF8000000000000#64, .bytes (some [1, 255])]] := by decide +kernel

theorem Ex.tree59_ready : JsonReady Ex.env Ex.jsonEnv Ex.tree59 1 ∧ SmallTree Ex.tree59 1 ∧ ¬ IsNil Ex.tree59 1 := by
  have e1 : (Ex.holder 0).rows = [[.tbl (some 0)]] := by decide +kernel
  refine ⟨?_, ?_, ?_⟩
  · intro b t hb ht _
    rcases Ex.tree59_reach hb ht with rfl | rfl
    · refine ⟨Ex.leaf59_wf, (by decide +kernel : ∀ c ∈ Ex.leaf59.name, c.toNat < 0x80), (by decide +kernel : ∀ n ∈ Ex.leaf59.colNames, ∀ c ∈ n, c.toNat < 0x80), ?_⟩
      have e2 : Ex.leaf59.colTypes = [.string, .int64, .rune, .float64, .byteSlice] := by decide +kernel
      rw [Ex.leaf59_rows, e2]
      intro row hr
      rw [List.mem_singleton.1 hr]
      refine ⟨⟨[120, 32, 34, 121, 34, 10, 92], by decide, ?_⟩, ?_, ?_, ?_, trivial, trivial⟩
      · intro r hr
        simp only [List.mem_cons, List.not_mem_nil, or_false] at hr
        rcases hr with rfl | rfl | rfl | rfl | rfl | rfl | rfl <;> exact ⟨.inl (by decide), by omega⟩
      · intro h; cases h
      · exact fun _ => ⟨by decide, .inl (by decide), by omega⟩
      · show finite64 _
        unfold finite64; decide
    · refine ⟨Ex.holder_wf 0, (by decide +kernel : ∀ c ∈ (Ex.holder 0).name, c.toNat < 0x80), (by decide +kernel : ∀ n ∈ (Ex.holder 0).colNames, ∀ c ∈ n, c.toNat < 0x80), ?_⟩
      have e2 : (Ex.holder 0).colTypes = [.table] := by decide +kernel
      rw [e1, e2]
      intro row hr
      rw [List.mem_singleton.1 hr]
      exact ⟨trivial, trivial⟩
  · intro b t hb ht
    rcases Ex.tree59_reach hb ht with rfl | rfl
    · intro row hr k v hv
      rw [Ex.leaf59_rows] at hr
      rw [List.mem_singleton.1 hr] at hv
      simp only [List.mem_cons, List.not_mem_nil, or_false, reduceCtorEq, false_or, Cell.int.injEq] at hv
      rcases hv with ⟨_, rfl⟩ | ⟨_, rfl⟩
      · exact ⟨1, 53, by decide, by decide⟩
      · exact ⟨0xE9, 0, by decide, by decide⟩
    · intro row hr k v hv
      rw [e1] at hr
      rw [List.mem_singleton.1 hr] at hv
      simp at hv
  · rintro ⟨t, h1, h2⟩
    cases h1
    exact absurd h2 (by decide +kernel)

def Ex.text59 : GoStr :=
  gs! "{\"tableSetName\":\"\",\"tables\":[{\"tableName\":\"T\",\"metadata\":[{\"p\":\"*Table\"}],\"data\":[[{\"p\":{\"tableName\":\"A\",\"metadata\":[{\"s\":\"string\"},{\"i\":\"int64\"},{\"r\":\"rune\"},{\"f\":\"float64\"},{\"b\":\"[]byte\"}],\"data\":[[{\"s\":\"x \\\"y\\\"\\n\\\\\"},{\"i\":-9007199254740992},{\"r\":\"é\"},{\"f\":1.5},{\"b\":[1,255]}]]}}]]}]}"

theorem Ex.text59_ok : getTableAsJSON Ex.env Ex.tree59 3 1 = .ok Ex.text59 := by decide +kernel

example : ∃ K' a', newTableFromJSON Ex.jsonEnv [] Ex.text59 = .ok (K', a') ∧ JsonTree SameValue Ex.tree59 K' 0 3 1 a' := by
  obtain ⟨h1, h2, h3⟩ := Ex.tree59_ready
  obtain ⟨K', a', h, _, ht⟩ := C59_table Ex.env Ex.jsonEnv rfl rfl Ex.tree59 3 1 _ Ex.text59_ok h1 h3 h2 []
  exact ⟨K', a', h, ht⟩

/-! ## What is asked of a `float32` -/

/-- It is not met by all: the text of this one, read as a `float64` and rounded again, gives the next one. -/
theorem C59_float32 : ∃ x, Ex.jsonEnv.text.float.parse64 (Ex.env.text.float.fmt32 0x15ae43fd#32) = some x ∧ f64To32 x = 0x15ae43fe#32 :=
  ⟨0x3AB5C87FB0000000#64, by decide +kernel, by decide +kernel⟩

/-- It is met by `0.1`. -/
example : JsonSafe Ex.env Ex.jsonEnv .float32 (.f32 0x3DCCCCCD#32) :=
  ⟨by unfold finite32; decide, 0x3FB999999999999A#64, by decide +kernel, by decide +kernel⟩

end Verif
