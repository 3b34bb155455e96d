import Verif.Props.C36
import Verif.Props.C31

/-!
# C37: a set of tables written by StringUnpadded is read back

`set.stringUnpadded P H` is `tableSet.StringUnpadded()` with memory `H`, and `newTableSetFromString P.text H0 s` is `NewTableSetFromString(s)` with memory `H0`.  The
assumptions about the tables are those of C36.
-/

namespace Verif
open Table

/-- The tables of a set can be written. -/
def SetWritable (H : Heap) (set : TableSet) : Prop :=
  ∀ a ∈ set.tables, ∃ t, H[a]? = some t ∧ Writable plainType t ∧ (t.isStructShape = false ∨ 1 < t.rows.length)

theorem setUnpadded_blocks (P : PrintEnv) (hF : FloatOK P.text.float) (H : Heap) (as : List Addr)
    (h : ∀ a ∈ as, ∃ t, H[a]? = some t ∧ Writable plainType t ∧ (t.isStructShape = false ∨ 1 < t.rows.length)) :
    ∃ bs : List Block, setUnpadded P H as = .ok (bs.map fun b => unlines b.lines) ∧ (∀ b ∈ bs, b.OK P.text) ∧ bs.map Block.name = as.map (nameAt H) ∧
      Pointwise (fun a (b : Block) => ∃ t, H[a]? = some t ∧ b.name = t.name ∧ b.names = t.colNames ∧ b.types = t.colTypes ∧ SameRows t.rows b.rows) as bs := by
  induction as with
  | nil => exact ⟨[], rfl, by simp, rfl, trivial⟩
  | cons a as ih =>
    obtain ⟨bs, h1, h2, h3, h4⟩ := ih fun x hx => h x (by simp [hx])
    obtain ⟨t, ht, hw, hs⟩ := h a (by simp)
    obtain ⟨ls, rows', g1, g2, g3, g4, g5⟩ := stringUnpadded_lines P hF H hw hs
    refine ⟨{ name := t.name, names := t.colNames, types := t.colTypes, rows := rows', lines := ls } :: bs, ?_, ?_, ?_, ⟨t, ht, rfl, rfl, rfl, g3⟩, h4⟩
    · simp [setUnpadded, ht, g1, h1, Out.bind]
    · intro b hb
      rcases List.mem_cons.1 hb with rfl | hb
      · exact ⟨g2, hw.wf.nameValid hw.notNil, hw.ascii, hw.wf.typesLen, hw.wf.namesValid, hw.wf.namesNodup, g4, g5⟩
      · exact h2 b hb
    · simp [nameAt, ht, h3]

/-- **C37**: if the tables of the set have distinct names, the text of the set is read back as a set of as many tables, each with the same name, columns, types and rows as the table
at the same place in the set.  The tables in memory are not changed. -/
theorem C37_roundTrip (P : PrintEnv) (hF : FloatOK P.text.float) (H H0 : Heap) (set : TableSet) (h : SetWritable H set) (hnd : (setNames H set).Nodup) :
    ∃ s ts set', set.stringUnpadded P H = .ok s ∧ newTableSetFromString P.text H0 s = .ok (H0 ++ ts, set') ∧ set'.tables.length = set.tables.length ∧
      ∀ (i : Nat) (a : Addr), set.tables[i]? = some a → ∃ (a' : Addr) (t t' : Table Addr), set'.tables[i]? = some a' ∧ H[a]? = some t ∧ (H0 ++ ts)[a']? = some t' ∧ TextSame t t' := by
  obtain ⟨bs, h1, h2, h3, h4⟩ := setUnpadded_blocks P hF H set.tables h
  obtain ⟨ts, e, hts⟩ := parseBlocks P.text H0 bs h2 (by rw [h3]; exact hnd)
  have hlen := h4.length
  refine ⟨_, ts, _, by simp only [TableSet.stringUnpadded, h1, Out.bind], e, by simp [hlen], fun i a hi => ?_⟩
  obtain ⟨b, hb, t, ht, b1, b2, b3, b4⟩ := h4.get i a hi
  obtain ⟨t', ht', hp⟩ := hts.get i b hb
  have hlt : i < bs.length := (List.getElem?_eq_some_iff.1 hb).1
  refine ⟨H0.length + i, t, t', by simp [hlt], ht, ?_, by rw [hp.name, b1], by rw [hp.colNames, b2], by rw [hp.colTypes, b3], by rw [hp.rows]; exact b4⟩
  rw [List.getElem?_append_right (Nat.le_add_right _ _), Nat.add_sub_cancel_left]
  exact ht'

/-! ## A concrete case: two tables, one without columns -/

def Ex.heap37 : Heap := [Ex.tbl36, { (newNilTable : Table Addr) with name := gs! "Empty", isNilTable := false }]
def Ex.set37 : TableSet := { newTableSet (gs! "Name") with tables := [1, 0] }

theorem Ex.writable_set37 : SetWritable Ex.heap37 Ex.set37 := by
  intro a ha
  simp only [Ex.set37, List.mem_cons, List.not_mem_nil, or_false] at ha
  rcases ha with rfl | rfl
  · refine ⟨_, rfl, ⟨WF.newTable (newTable_eq (by decide)), rfl, by unfold Ascii; decide, by simp [newNilTable], by simp [newNilTable], by simp [newNilTable]⟩, .inl rfl⟩
  · exact ⟨_, rfl, Ex.writable_tbl36, .inl rfl⟩

example : (setNames Ex.heap37 Ex.set37).Nodup := by decide

/-- The name of the set is not part of the text. -/
theorem C37_nameLost : Ex.set37.name = gs! "Name" ∧ ∃ s H' set', Ex.set37.stringUnpadded Ex.env Ex.heap37 = .ok s ∧
    newTableSetFromString Ex.env.text [] s = .ok (H', set') ∧ set'.name = [] := by
  obtain ⟨bs, h1, h2, h3, h4⟩ := setUnpadded_blocks Ex.env C36_floats Ex.heap37 Ex.set37.tables Ex.writable_set37
  obtain ⟨ts, e, hts⟩ := parseBlocks Ex.env.text [] bs h2 (by rw [h3]; decide)
  exact ⟨rfl, _, _, _, by simp only [TableSet.stringUnpadded, h1, Out.bind], e, rfl⟩

end Verif
