import Verif.Lemmas.YamlRefuse
import Verif.Props.C67

/-!
# C68 What the package writes as YAML, it reads

It does not: yaml.v3 writes the `float64` 3 as `3`, which it reads as an `int`, and `NewTableSetFromYAML` has no case for an `int` in a column of type `float64`.
A whole `float32` is read: there the case exists.  `YamlWritable` says that names, strings and times are ones that yaml.v3 preserves.
-/

namespace Verif
open Table FloatFmt

variable {Doc : Type}

/-- **C68**, what is true of it: the text that was written for a set of tables is never met with a panic: it is read, or an error is returned. -/
theorem C68_noPanic_partial (Y : YamlLib Doc) (okStr : GoStr → Prop) (okTime : GoTime → Prop) (hY : YamlOK Y okStr okTime) (H : Heap) (hw : HeapWF H) (hc : Closed H) (S : TableSet)
    (hS : ∀ a ∈ S.tables, a < H.length) (hno : ∀ a ∈ S.tables, NoCycle H a) (d : Nat) (hd : H.length ≤ d) (hname : okStr S.name) (hok : ∀ a ∈ S.tables, YamlWritable okStr okTime H a) :
    ∃ s, getTableSetAsYAML Y H d S = .ok s ∧ ∀ K, newTableSetFromYAML Y K s ≠ .panic := by
  obtain ⟨m, m1, m2⟩ := C66_map H hw hc S hS hno d hd
  obtain ⟨s, s1, s2, s3⟩ := hY.back m m2.keys.1 (setMap_kept hY.words hw m2 hname hok)
  refine ⟨s, by simp only [getTableSetAsYAML, m1, s1], fun K => ?_⟩
  simp only [newTableSetFromYAML, s2, s3, Bool.false_eq_true, if_false]
  exact (yaml_set_tried hw m2 K).1

/-- **C68 is false of the code**, and generally so: if a table of the set, or one nested in it, has a `float64` that is a whole number below a million (0 among them), the set is written without
an error, and reading the text gives an error, whatever else is in the set. -/
theorem C68_refused (Y : YamlLib Doc) (okStr : GoStr → Prop) (okTime : GoTime → Prop) (hY : YamlOK Y okStr okTime) (H : Heap) (hw : HeapWF H) (hc : Closed H) (S : TableSet)
    (hS : ∀ a ∈ S.tables, a < H.length) (hno : ∀ a ∈ S.tables, NoCycle H a) (d : Nat) (hd : H.length ≤ d) (hname : okStr S.name) (hok : ∀ a ∈ S.tables, YamlWritable okStr okTime H a)
    (hbad : ∃ a ∈ S.tables, HasSmallWhole H a) :
    ∃ s, getTableSetAsYAML Y H d S = .ok s ∧ ∀ K, ∃ e, newTableSetFromYAML Y K s = .err e := by
  obtain ⟨m, m1, m2⟩ := C66_map H hw hc S hS hno d hd
  obtain ⟨s, s1, s2, s3⟩ := hY.back m m2.keys.1 (setMap_kept hY.words hw m2 hname hok)
  refine ⟨s, by simp only [getTableSetAsYAML, m1, s1], fun K => ?_⟩
  simp only [newTableSetFromYAML, s2, s3, Bool.false_eq_true, if_false]
  obtain ⟨h1, h2⟩ := yaml_set_tried hw m2 K
  cases hr : readYamlSet K (backMap m) with
  | panic => exact absurd hr h1
  | ok r => exact absurd hr (h2 hbad r)
  | err e => exact ⟨e, rfl⟩

/-! ## Examples -/

/-- A table that nobody has put anything into: a column of type `float64` and one new row. -/
def Ex.fresh68 : Table Addr := Op.run newNilTable [.setName (gs! "F"), .appendCol (fun _ _ => 0) (gs! "x") (gs! "float64"), .appendRow (fun _ _ => 0)]

/-- It is nested in another table, which has a string. -/
def Ex.top68 : Table Addr := Op.run newNilTable
  [.setName (gs! "T"), .appendCol (fun _ _ => 0) (gs! "s") (gs! "string"), .appendCol (fun _ _ => 0) (gs! "p") (gs! "*Table"), .appendRow (fun _ _ => 0), .setVal (gs! "p") 0 (.tbl (some 0))]

def Ex.heap68 : Heap := [Ex.fresh68, Ex.top68]

theorem Ex.fresh68_rows : Ex.fresh68.rows = [[.f64 0#64]] := by decide +kernel

theorem Ex.top68_rows : Ex.top68.rows = [[.str [], .tbl (some 0)]] := by decide +kernel

theorem Ex.heap68_wf : HeapWF Ex.heap68 := by
  intro t ht
  simp only [Ex.heap68, List.mem_cons, List.not_mem_nil, or_false] at ht
  rcases ht with rfl | rfl
  · exact C01_history _ WF.newNilTable _ (by simp [Op.ArgsOK, Cell.Real])
  · exact C01_history _ WF.newNilTable _ (by simp [Op.ArgsOK, Cell.Real])

theorem Ex.heap68_holds {a b : Addr} {c r : Nat} (h : HoldsAt Ex.heap68 a c r b) : a = 1 ∧ b = 0 := by
  obtain ⟨t, h1, h2⟩ := h
  obtain ⟨row, h3, h4⟩ := nestedAt_some.1 h2
  match a with
  | 0 =>
    cases h1
    rw [Ex.fresh68_rows] at h3
    have h5 := List.mem_singleton.1 (List.mem_of_getElem? h3)
    rw [h5] at h4
    have := List.mem_of_getElem? h4
    simp at this
  | 1 =>
    cases h1
    rw [Ex.top68_rows] at h3
    have h5 := List.mem_singleton.1 (List.mem_of_getElem? h3)
    rw [h5] at h4
    have := List.mem_of_getElem? h4
    simp at this
    exact ⟨rfl, this⟩
  | a + 2 => simp [Ex.heap68] at h1

theorem Ex.heap68_acyclic : Acyclic Ex.heap68 (fun a => a) := by
  intro a b h
  obtain ⟨c, r, h⟩ := (nestedIn_iff Ex.heap68_wf).1 h
  obtain ⟨rfl, rfl⟩ := Ex.heap68_holds h
  exact ⟨by decide, by decide⟩

theorem Ex.heap68_bad : HasSmallWhole Ex.heap68 1 := by
  have e : goFloat.fmt64 0#64 = fmtInt 0 := by decide +kernel
  exact ⟨0, Ex.fresh68, _, 0#64, .inr (.direct (c := 1) (r := 0) ⟨Ex.top68, rfl, by decide +kernel⟩), rfl,
    by rw [Ex.fresh68_rows]; exact List.mem_cons_self, List.mem_cons_self, 0, by decide, .inl e⟩

-- a new row of a nested table is enough
example : ∃ s, getTableSetAsYAML Ex.yaml Ex.heap68 2 ⟨gs! "S", [], [1]⟩ = .ok s ∧ ∀ K, ∃ e, newTableSetFromYAML Ex.yaml K s = .err e :=
  C68_refused Ex.yaml _ _ Ex.yaml_ok Ex.heap68 Ex.heap68_wf Ex.heap68_acyclic.closed _ (by simp [Ex.heap68])
    (fun a _ x _ hb => Nat.lt_irrefl _ (Below.rank Ex.heap68_wf Ex.heap68_acyclic hb)) 2 (by decide) trivial
    (fun a _ b t _ _ => ⟨trivial, fun _ _ => trivial, fun _ _ => ⟨fun _ _ => trivial, fun _ _ => trivial⟩⟩) ⟨1, by simp, Ex.heap68_bad⟩

example := C68_noPanic_partial Ex.yaml _ _ Ex.yaml_ok Ex.heap68 Ex.heap68_wf Ex.heap68_acyclic.closed ⟨gs! "S", [], [0, 1]⟩ (by simp [Ex.heap68])
  (fun a _ x _ hb => Nat.lt_irrefl _ (Below.rank Ex.heap68_wf Ex.heap68_acyclic hb)) 2 (by decide) trivial
  (fun a _ b t _ _ => ⟨trivial, fun _ _ => trivial, fun _ _ => ⟨fun _ _ => trivial, fun _ _ => trivial⟩⟩)

/-- A `float32` that is -0. -/
def Ex.minus68 : Table Addr := Op.run newNilTable
  [.setName (gs! "M"), .appendCol (fun _ _ => 0) (gs! "x") (gs! "float32"), .appendRow (fun _ _ => 0), .setVal (gs! "x") 0 (.f32 0x80000000#32)]

/-- The rows of the only table that is read. -/
def Ex.readRows (o : Out (Heap × TableSet)) : Option (List (List (Cell Addr))) :=
  match o with
  | .ok (K, s) => (s.tables[0]?.bind fun a => K[a]?).map Table.rows
  | _ => none

/-- -0 in a column of type `float32` is read as 0, without an error: the text is `-0`, the `int` is 0. -/
theorem C68_minusZero : Ex.minus68.rows = [[.f32 0x80000000#32]] ∧
    Ex.readRows ((getTableSetAsYAML Ex.yaml [Ex.minus68] 1 ⟨gs! "S", [], [0]⟩).bind (newTableSetFromYAML Ex.yaml [])) = some [[.f32 0#32]] := by
  constructor <;> decide +kernel

end Verif
