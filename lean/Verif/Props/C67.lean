import Verif.Lemmas.YamlTable
import Verif.Props.C66

/-!
# C67 Reading a YAML text gives the tables it was made from

`Y` is yaml.v3, of which `YamlOK` is assumed (Spec/Yaml.lean).  `YamlReady` says which values survive; what becomes of the others is the subject of C68.
-/

namespace Verif
open Table FloatFmt

variable {Doc : Type}

/-- **C67**: a set of tables of different names, none nested in itself, is written as a YAML text, and reading the text into any memory gives a set of the same name, of the same
tables in the same order, at new addresses; a table that stands for "no table" is read as one. -/
theorem C67_set (Y : YamlLib Doc) (okStr : GoStr → Prop) (okTime : GoTime → Prop) (hY : YamlOK Y okStr okTime) (H : Heap) (hw : HeapWF H) (hc : Closed H) (S : TableSet)
    (hS : ∀ a ∈ S.tables, a < H.length) (hno : ∀ a ∈ S.tables, NoCycle H a) (d : Nat) (hd : H.length ≤ d) (hname : okStr S.name) (hnd : (S.tables.map (nameAt H)).Nodup)
    (hready : ∀ a ∈ S.tables, YamlReady okStr okTime H a) :
    ∃ s, getTableSetAsYAML Y H d S = .ok s ∧ ∀ K, ∃ K' S', newTableSetFromYAML Y K s = .ok (K', S') ∧ S'.name = S.name ∧ (∀ x, x < K.length → K'[x]? = K[x]?) ∧
      Pointwise (fun a a' => K.length ≤ a' ∧ ((IsNil H a ∧ IsNil K' a') ∨ JsonTree SameValue H K' K.length d a a')) S.tables S'.tables := by
  obtain ⟨m, m1, m2⟩ := C66_map H hw hc S hS hno d hd
  obtain ⟨s, s1, s2, s3⟩ := hY.back m m2.keys.1 (setMap_kept hY.words hw m2 hname fun a ha => yamlReady_writable (hready a ha))
  refine ⟨s, by simp only [getTableSetAsYAML, m1, s1], fun K => ?_⟩
  obtain ⟨K', tabs, q1, q2, q3⟩ := yaml_set hw m2 hnd hready K
  refine ⟨K', { newTableSet S.name with tables := tabs }, by simp only [newTableSetFromYAML, s2, s3, Bool.false_eq_true, if_false]; exact q1, rfl, q2, q3.mono ?_⟩
  intro a a' h
  rcases h with ⟨h1, h2, h3⟩ | h
  · exact ⟨h3, .inl ⟨h1, _, h2, rfl⟩⟩
  · exact ⟨h.addr_lt.1, .inr h⟩

/-! ## Examples -/

/-- A library that meets the contract: the text is the map as it will be read. -/
def Ex.yaml : YamlLib (Option (List (GoStr × GoVal))) := { empty := none, isEmpty := Option.isNone, marshal := fun m => some (some (backMap m)), unmarshal := fun d => d }

theorem Ex.yaml_ok : YamlOK Ex.yaml (fun _ => True) (fun _ => True) := ⟨fun _ _ => trivial, fun m _ _ => ⟨some (backMap m), rfl, rfl, rfl⟩⟩

/-- A table with a value of every sort: the greatest `uint64`, a `float64` that is not whole, a whole `float32`. -/
def Ex.leaf67 : Table Addr := Op.run newNilTable
  [.setName (gs! "A"), .appendCol (fun _ _ => 0) (gs! "s") (gs! "string"), .appendCol (fun _ _ => 0) (gs! "u") (gs! "uint64"), .appendCol (fun _ _ => 0) (gs! "r") (gs! "rune"),
    .appendCol (fun _ _ => 0) (gs! "f") (gs! "float64"), .appendCol (fun _ _ => 0) (gs! "g") (gs! "float32"), .appendCol (fun _ _ => 0) (gs! "b") (gs! "[]byte"), .appendRow (fun _ _ => 0),
    .setVal (gs! "s") 0 (.str (gs! "x: \"y\"\n")), .setVal (gs! "u") 0 (.int .uint64 18446744073709551615), .setVal (gs! "r") 0 (.int .int32 0xE9),
    .setVal (gs! "f") 0 (.f64 0x3FF8000000000000#64), .setVal (gs! "g") 0 (.f32 0x40400000#32), .setVal (gs! "b") 0 (.bytes (some [1, 255]))]

/-- Two cells hold the table above, one a table that stands for "no table". -/
def Ex.top67 : Table Addr := Op.run newNilTable
  [.setName (gs! "T"), .appendCol (fun _ _ => 0) (gs! "p") (gs! "*Table"), .appendRow (fun _ _ => 0), .appendRow (fun _ _ => 0), .appendRow (fun _ _ => 0),
    .setVal (gs! "p") 0 (.tbl (some 0)), .setVal (gs! "p") 1 (.tbl (some 1)), .setVal (gs! "p") 2 (.tbl (some 0))]

def Ex.heap67 : Heap := [Ex.leaf67, newNilTable, Ex.top67]

theorem Ex.leaf67_rows : Ex.leaf67.rows =
    [[.str (gs! "x: \"y\"\n"), .int .uint64 18446744073709551615, .int .int32 0xE9, .f64 0x3FF8000000000000#64, .f32 0x40400000#32, .bytes (some [1, 255])]] := by decide +kernel

theorem Ex.top67_rows : Ex.top67.rows = [[.tbl (some 0)], [.tbl (some 1)], [.tbl (some 0)]] := by decide +kernel

theorem Ex.heap67_wf : HeapWF Ex.heap67 := by
  intro t ht
  simp only [Ex.heap67, List.mem_cons, List.not_mem_nil, or_false] at ht
  rcases ht with rfl | rfl | rfl
  · exact C01_history _ WF.newNilTable _ (by simp only [Op.ArgsOK, Cell.Real, List.forall_mem_cons]; simp; decide)
  · exact WF.newNilTable
  · exact C01_history _ WF.newNilTable _ (by simp [Op.ArgsOK, Cell.Real])

theorem Ex.heap67_holds {a b : Addr} {c r : Nat} (h : HoldsAt Ex.heap67 a c r b) : a = 2 ∧ b < 2 := by
  obtain ⟨t, h1, h2⟩ := h
  obtain ⟨row, h3, h4⟩ := nestedAt_some.1 h2
  match a with
  | 0 =>
    cases h1
    rw [Ex.leaf67_rows] at h3
    match r with
    | 0 =>
      cases h3
      have := List.mem_of_getElem? h4
      simp at this
    | r + 1 => simp at h3
  | 1 => cases h1; simp [newNilTable] at h3
  | 2 =>
    cases h1
    rw [Ex.top67_rows] at h3
    match r with
    | 0 | 1 | 2 =>
      cases h3
      match c with
      | 0 => cases h4; exact ⟨rfl, by decide⟩
      | c + 1 => simp at h4
    | r + 3 => simp at h3
  | a + 3 => simp [Ex.heap67] at h1

theorem Ex.heap67_acyclic : Acyclic Ex.heap67 (fun a => a) := by
  intro a b h
  obtain ⟨c, r, h⟩ := (nestedIn_iff Ex.heap67_wf).1 h
  obtain ⟨rfl, h2⟩ := Ex.heap67_holds h
  exact ⟨h2, Nat.lt_trans h2 (by decide)⟩

/-- The digits of an integer have no point. -/
theorem fmtInt_noPoint {s : GoStr} (h : 46 ∈ s) (v : Int) : s ≠ fmtInt v := by
  rintro rfl
  unfold fmtInt at h
  split at h
  · rcases List.mem_cons.1 h with h | h
    · cases h
    · exact absurd (fmtNat_visible _ _ h) (by decide)
  · exact absurd (fmtNat_visible _ _ h) (by decide)

theorem Ex.heap67_ready (a : Addr) : YamlReady (fun _ => True) (fun _ => True) Ex.heap67 a := by
  intro b t _ ht
  match b with
  | 0 =>
    cases ht
    refine ⟨fun h => absurd h (by decide +kernel), trivial, fun _ _ => trivial, ?_⟩
    intro row hr c hc
    rw [Ex.leaf67_rows] at hr
    rw [List.mem_singleton.1 hr] at hc
    simp only [List.mem_cons, List.not_mem_nil, or_false] at hc
    rcases hc with rfl | rfl | rfl | rfl | rfl | rfl
    · trivial
    · trivial
    · trivial
    · exact ⟨by decide +kernel, fun v _ => fmtInt_noPoint (by decide +kernel) v⟩
    · exact ⟨by decide +kernel, fun _ => ⟨0x4008000000000000#64, by decide +kernel, by decide +kernel⟩⟩
    · trivial
  | 1 => cases ht; exact ⟨fun _ => rfl, trivial, fun _ _ => trivial, fun row hr => by simp [newNilTable] at hr⟩
  | 2 =>
    cases ht
    refine ⟨fun h => absurd h (by decide +kernel), trivial, fun _ _ => trivial, ?_⟩
    intro row hr c hc
    rw [Ex.top67_rows] at hr
    simp only [List.mem_cons, List.not_mem_nil, or_false] at hr
    rcases hr with rfl | rfl | rfl <;> rw [List.mem_singleton.1 hc] <;> trivial
  | b + 3 => simp [Ex.heap67] at ht

example := C67_set Ex.yaml _ _ Ex.yaml_ok Ex.heap67 Ex.heap67_wf Ex.heap67_acyclic.closed ⟨gs! "S", [], [2, 0]⟩ (by simp [Ex.heap67])
  (fun a _ x _ hb => Nat.lt_irrefl _ (Below.rank Ex.heap67_wf Ex.heap67_acyclic hb)) 3 (by decide) trivial (by decide +kernel) (fun a _ => Ex.heap67_ready a)

end Verif
