import Verif.Props.C37
import Verif.Props.C38
import Verif.Lemmas.DocumentLines

/-!
# C56: a set of tables written by String is read back, with its name

`set.stringPadded P H` is `tableSet.String()` with memory `H`, and `newTableSetFromString P.text H0 s` is `NewTableSetFromString(s)` with memory `H0`.  The assumptions about the
tables are those of C38.
-/

namespace Verif
open Table

/-- The tables of a set survive being written by `String`. -/
def SetWritablePadded (H : Heap) (set : TableSet) : Prop :=
  ∀ a ∈ set.tables, ∃ t, H[a]? = some t ∧ Writable paddedType t ∧ (∀ row ∈ t.rows, ∀ c ∈ row, PadSafe c) ∧ (t.isStructShape = false ∨ 1 < t.rows.length)

theorem setPadded_blocks (P : PrintEnv) (hP : P.IsGo) (H : Heap) (as : List Addr)
    (h : ∀ a ∈ as, ∃ t, H[a]? = some t ∧ Writable paddedType t ∧ (∀ row ∈ t.rows, ∀ c ∈ row, PadSafe c) ∧ (t.isStructShape = false ∨ 1 < t.rows.length)) :
    ∃ bs : List Block, setPadded P H as = .ok (bs.map fun b => unlines b.lines) ∧ (∀ b ∈ bs, b.OK P.text) ∧ bs.map Block.name = as.map (nameAt H) ∧
      Pointwise (fun a (b : Block) => ∃ t, H[a]? = some t ∧ b.name = t.name ∧ b.names = t.colNames ∧ b.types = t.colTypes ∧ SameRows t.rows b.rows) as bs := by
  induction as with
  | nil => exact ⟨[], rfl, by simp, rfl, trivial⟩
  | cons a as ih =>
    obtain ⟨bs, h1, h2, h3, h4⟩ := ih fun x hx => h x (by simp [hx])
    obtain ⟨t, ht, hw, hi, hs⟩ := h a (by simp)
    obtain ⟨ls, rows', g1, g2, g3, g4, g5⟩ := stringPadded_lines P hP H hw hi hs
    refine ⟨{ name := t.name, names := t.colNames, types := t.colTypes, rows := rows', lines := ls } :: bs, ?_, ?_, ?_, ⟨t, ht, rfl, rfl, rfl, g3⟩, h4⟩
    · simp [setPadded, ht, g1, h1, Out.bind]
    · intro b hb
      rcases List.mem_cons.1 hb with rfl | hb
      · exact ⟨g2, hw.wf.nameValid hw.notNil, hw.ascii, hw.wf.typesLen, hw.wf.namesValid, hw.wf.namesNodup, g4, g5⟩
      · exact h2 b hb
    · simp [nameAt, ht, h3]

/-- **C56**: if the tables of the set have distinct names, and the name of the set is empty or an ASCII identifier, the text is read back as a set with the same name and as many tables, each with the
same name, columns, types and rows as the table at the same place in the set.  The tables in memory are not changed. -/
theorem C56_roundTrip (P : PrintEnv) (hP : P.IsGo) (H H0 : Heap) (set : TableSet) (h : SetWritablePadded H set) (hnd : (setNames H set).Nodup)
    (hname : set.name = [] ∨ PlainName set.name) :
    ∃ s ts set', set.stringPadded P H = .ok s ∧ newTableSetFromString P.text H0 s = .ok (H0 ++ ts, set') ∧ set'.name = set.name ∧
      set'.tables.length = set.tables.length ∧ ∀ (i : Nat) (a : Addr), set.tables[i]? = some a →
        ∃ (a' : Addr) (t t' : Table Addr), set'.tables[i]? = some a' ∧ H[a]? = some t ∧ (H0 ++ ts)[a']? = some t' ∧ TextSame t t' := by
  obtain ⟨bs, h1, h2, h3, h4⟩ := setPadded_blocks P hP H set.tables h
  have hlen := h4.length
  have hparse : ∃ ts, newTableSetFromString P.text H0 ((if set.name = [] then [] else gs! "[[" ++ set.name ++ gs! "]]\n\n") ++ joinSep [10] (bs.map fun b => unlines b.lines)) =
      .ok (H0 ++ ts, { newTableSet set.name with tables := List.range' H0.length bs.length }) ∧ Pointwise Parsed bs ts := by
    rcases hname with hn | hp
    · rw [if_pos hn, hn]
      exact parseBlocks P.text H0 bs h2 (by rw [h3]; exact hnd)
    · rw [if_neg (isValidName_bytes hp.valid).1]
      exact parseBlocks_named P.text H0 set.name hp.valid hp.ascii bs h2 (by rw [h3]; exact hnd)
  obtain ⟨ts, e, hts⟩ := hparse
  refine ⟨_, ts, _, by simp only [TableSet.stringPadded, h1, Out.bind], e, rfl, by simp [hlen], fun i a hi => ?_⟩
  obtain ⟨b, hb, t, ht, b1, b2, b3, b4⟩ := h4.get i a hi
  obtain ⟨t', ht', hp⟩ := hts.get i b hb
  have hlt : i < bs.length := (List.getElem?_eq_some_iff.1 hb).1
  refine ⟨H0.length + i, t, t', by simp [hlt], ht, ?_, by rw [hp.name, b1], by rw [hp.colNames, b2], by rw [hp.colTypes, b3], by rw [hp.rows]; exact b4⟩
  rw [List.getElem?_append_right (Nat.le_add_right _ _), Nat.add_sub_cancel_left]
  exact ht'

/-! ## A concrete case -/

def Ex.heap56 : Heap := [{ (newNilTable : Table Addr) with name := gs! "Empty", isNilTable := false }, Ex.tbl38]
def Ex.set56 : TableSet := { newTableSet (gs! "Set_1") with tables := [1, 0] }

theorem Ex.writable_set56 : SetWritablePadded Ex.heap56 Ex.set56 ∧ (setNames Ex.heap56 Ex.set56).Nodup ∧ PlainName Ex.set56.name := by
  refine ⟨?_, by decide, ⟨_, _, rfl, by unfold NameLetter; decide⟩, by unfold NameLetter; decide⟩
  intro a ha
  simp only [Ex.set56, List.mem_cons, List.not_mem_nil, or_false] at ha
  rcases ha with rfl | rfl
  · exact ⟨_, rfl, Ex.writable_tbl38.1, Ex.writable_tbl38.2, .inl rfl⟩
  · refine ⟨_, rfl, ⟨WF.newTable (newTable_eq (by decide)), rfl, by unfold Ascii; decide, by simp [newNilTable], by simp [newNilTable], by simp [newNilTable]⟩, by simp [newNilTable], .inl rfl⟩

/-- `TableSet.SetName` accepts any text: with a name that is not an identifier the text cannot be read back. -/
theorem C56_badName : ∃ (set : TableSet) (s : GoStr), set.name = gs! "my set" ∧ set.tables = [] ∧ set.stringPadded Ex.env [] = .ok s ∧
    (newTableSetFromString Ex.env.text [] s).isOk = false :=
  ⟨newTableSet (gs! "my set"), gs! "[[my set]]\n\n", rfl, rfl, by decide +kernel, by decide +kernel⟩

end Verif
