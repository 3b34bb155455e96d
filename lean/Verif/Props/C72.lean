import Verif.Props.C71

/-!
# C72: tables in files

`D` is what is found on the disk, and `F` stands for the operating system (Model/Files.lean).  `set.writeFile P F H D path` is `tableSet.WriteFile(path, mode)`: the disk afterwards and the
result.  `newTableSetFromFile P.text F D H0 path` is `NewTableSetFromFile(path)` with memory `H0`.
-/

namespace Verif
open Table

/-- `path` is opened under the name `path'`: an absolute name is cleaned, any other is taken as it is. -/
def OpenedAs (F : FileEnv) (path path' : GoStr) : Prop := (F.isAbs path = true ∧ F.absPath path = .ok path') ∨ (F.isAbs path = false ∧ path' = path)

theorem openName_iff {F : FileEnv} {path path' : GoStr} : openName F path = .ok path' ↔ OpenedAs F path path' := by
  unfold openName OpenedAs
  cases F.isAbs path <;> simp [eq_comm]

/-- `path` is opened under the name `path'`, which is another name of the same file. -/
def OpensAs (F : FileEnv) (path path' : GoStr) : Prop := OpenedAs F path path' ∧ F.same path path' = true

/-- What a successful write does: the file has the content, and files with other names are not changed. -/
def Wrote (F : FileEnv) (D D' : Disk) (path content : GoStr) : Prop :=
  (∀ q, F.same path q = true → D' q = some (.file content)) ∧ ∀ q, F.same path q = false → D' q = D q

theorem writeBytes_cases (F : FileEnv) (D : Disk) (path content : GoStr) :
    (∃ D', writeBytes F D path content = (D', .ok ()) ∧ Wrote F D D' path content ∧ D path ≠ some .dir) ∨ (∃ e, writeBytes F D path content = (D, .err e)) := by
  unfold writeBytes
  by_cases h1 : D path = some .dir
  · rw [if_pos h1]; exact .inr ⟨_, rfl⟩
  · rw [if_neg h1]
    by_cases h2 : F.mayWrite D path = true
    · rw [if_pos h2]
      exact .inl ⟨_, rfl, ⟨fun q hq => by simp [hq], fun q hq => by simp [hq]⟩, h1⟩
    · rw [if_neg h2]; exact .inr ⟨_, rfl⟩

/-- **C72**, reading: the tables of a file are those of its content, and the set remembers the name under which the file was opened. -/
theorem C72_read (env : TextEnv) (F : FileEnv) (D : Disk) (H0 : Heap) (path : GoStr) (H : Heap) (set : TableSet) :
    newTableSetFromFile env F D H0 path = .ok (H, set) ↔ ∃ path' content set', OpenedAs F path path' ∧ D path' = some (.file content) ∧ F.mayRead D path' = true ∧
      newTableSetFromString env H0 content = .ok (H, set') ∧ set.name = set'.name ∧ set.tables = set'.tables ∧ set.fileName = path' := by
  simp only [← openName_iff]
  unfold newTableSetFromFile
  constructor
  · intro h
    cases ho : openName F path with
    | err e => rw [ho] at h; exact nomatch h
    | panic => rw [ho] at h; exact nomatch h
    | ok path' =>
      rw [ho] at h
      simp only [Out.bind] at h
      cases hd : D path' with
      | none => rw [hd] at h; exact nomatch h
      | some x =>
        cases x with
        | dir => rw [hd] at h; exact nomatch h
        | file content =>
          rw [hd] at h
          simp only at h
          split at h
          · rename_i hm
            cases hs : newTableSetFromString env H0 content with
            | err e => rw [hs] at h; exact nomatch h
            | panic => rw [hs] at h; exact nomatch h
            | ok p =>
              rw [hs] at h
              obtain ⟨K, set'⟩ := p
              cases h
              exact ⟨path', content, set', rfl, hd, hm, hs, rfl, rfl, rfl⟩
          · exact nomatch h
  · rintro ⟨path', content, set', h1, h2, h3, h4, h5, h6, h7⟩
    rw [h1]
    simp only [Out.bind, h2, h3, h4, if_true]
    rw [show ({ set' with fileName := path' } : TableSet) = set from by
      cases set; cases set'; simp only at h5 h6 h7; subst h5 h6 h7; rfl]

/-- **C72**, errors: a name without a file and the name of a directory are errors, and a file that cannot be read as tables is an error; no content makes the function panic. -/
theorem C72_errors (env : TextEnv) (F : FileEnv) (D : Disk) (H0 : Heap) (hw : HeapWF H0) (hcl : Closed H0) (path path' : GoStr) (h : OpenedAs F path path') :
    newTableSetFromFile env F D H0 path ≠ .panic ∧
    ((∀ content, D path' ≠ some (.file content)) → ∃ e, newTableSetFromFile env F D H0 path = .err e) ∧
    (∀ content, D path' = some (.file content) → (∀ r, newTableSetFromString env H0 content ≠ .ok r) → ∃ e, newTableSetFromFile env F D H0 path = .err e) := by
  have hnp : newTableSetFromFile env F D H0 path ≠ .panic := by
    unfold newTableSetFromFile
    rw [openName_iff.2 h]
    simp only [Out.bind]
    split
    · simp
    · simp
    · split
      · rename_i content _ _
        have := (C39_parser env H0 hw hcl content).1
        cases hs : newTableSetFromString env H0 content with
        | panic => exact absurd hs this
        | err e => simp
        | ok p => simp
      · simp
  have key : (∀ r, newTableSetFromFile env F D H0 path ≠ .ok r) → ∃ e, newTableSetFromFile env F D H0 path = .err e := by
    intro hno
    cases hr : newTableSetFromFile env F D H0 path with
    | ok r => exact absurd hr (hno r)
    | err e => exact ⟨e, rfl⟩
    | panic => exact absurd hr hnp
  refine ⟨hnp, fun hno => key ?_, fun content hc hno => key ?_⟩
  · rintro ⟨K, set⟩ hr
    obtain ⟨p, content, _, h1, h2, _⟩ := (C72_read env F D H0 path K set).1 hr
    have h1 := openName_iff.2 h1
    rw [openName_iff.2 h] at h1
    cases h1
    exact hno content h2
  · rintro ⟨K, set⟩ hr
    obtain ⟨p, content', set', h1, h2, _, h4, _⟩ := (C72_read env F D H0 path K set).1 hr
    have h1 := openName_iff.2 h1
    rw [openName_iff.2 h] at h1
    cases h1
    rw [hc] at h2
    cases h2
    exact hno _ h4

/-- **C72**, writing: a successful write replaces the content of that file by the text of the set and leaves other files alone; a failed one leaves the disk alone, and a write to a directory fails. -/
theorem C72_write (P : PrintEnv) (F : FileEnv) (H : Heap) (D : Disk) (set : TableSet) (path s : GoStr) (h : set.stringPadded P H = .ok s) :
    (∃ D', set.writeFile P F H D path = (D', .ok ()) ∧ Wrote F D D' path s ∧ D path ≠ some .dir) ∨ (∃ e, set.writeFile P F H D path = (D, .err e)) := by
  unfold TableSet.writeFile
  rw [h]
  exact writeBytes_cases F D path s

/-- **C72**, written and read: a set that was written to a file is read back from it, with its name, and each of its tables by its name. -/
theorem C72_set (P : PrintEnv) (hP : P.IsGo) (F : FileEnv) (H H0 : Heap) (hw : HeapWF H0) (hcl : Closed H0) (set : TableSet) (h : SetWritablePadded H set)
    (hnd : (setNames H set).Nodup) (hname : set.name = [] ∨ PlainName set.name)
    (D D' : Disk) (path path' : GoStr) (hwrite : set.writeFile P F H D path = (D', .ok ())) (hopen : OpensAs F path path') (hread : F.mayRead D' path' = true) :
    ∃ H' set', newTableSetFromFile P.text F D' H0 path = .ok (H', set') ∧ set'.fileName = path' ∧ set'.name = set.name ∧ set'.tables.length = set.tables.length ∧
      ∀ (i : Nat) (a : Addr), set.tables[i]? = some a → ∃ (a' : Addr) (t t' : Table Addr), set'.tables[i]? = some a' ∧
        newTableFromFileByTableName P.text F D' H0 path (nameAt H a) = .ok (H', a') ∧ H[a]? = some t ∧ H'[a']? = some t' ∧ TextSame t t' := by
  obtain ⟨s, ts, set', h1, h2, h3, h4, h5⟩ := C56_roundTrip P hP H H0 set h hnd hname
  have hD : D' path' = some (.file s) := by
    rcases C72_write P F H D set path s h1 with ⟨D'', e, g, _⟩ | ⟨e, g⟩
    · rw [hwrite] at e
      cases e
      exact g.1 _ hopen.2
    · rw [hwrite] at g
      exact nomatch (Prod.mk.inj g).2
  have hr : newTableSetFromFile P.text F D' H0 path = .ok (H0 ++ ts, { set' with fileName := path' }) :=
    (C72_read ..).2 ⟨path', s, set', hopen.1, hD, hread, h2, rfl, rfl, rfl⟩
  refine ⟨_, _, hr, rfl, h3, h4, fun i a hi => ?_⟩
  obtain ⟨a', t, t', g1, g2, g3, g4⟩ := h5 i a hi
  refine ⟨a', t, t', g1, ?_, g2, g3, g4⟩
  have hnd' : (setNames (H0 ++ ts) { set' with fileName := path' }).Nodup := ((C39_parser P.text H0 hw hcl s).2 _ _ h2).2.2.1
  unfold newTableFromFileByTableName
  rw [hr]
  simp only [Out.bind]
  rw [(getTable_iff hnd' _ a').2 ⟨List.mem_of_getElem? g1, by simp only [nameAt, g2, g3, g4.name]⟩]

/-- **C72**, one table: a table that was written to a file is read back by `NewTableFromFile`. -/
theorem C72_table (P : PrintEnv) (hP : P.IsGo) (F : FileEnv) (H H0 : Heap) (t : Table Addr) (h : Writable paddedType t)
    (hint : ∀ row ∈ t.rows, ∀ c ∈ row, PadSafe c) (hshape : t.isStructShape = false ∨ 1 < t.rows.length)
    (D D' : Disk) (path path' : GoStr) (hwrite : t.writeFile P F H D path = (D', .ok ())) (hopen : OpensAs F path path') (hread : F.mayRead D' path' = true) :
    ∃ H' a' t', newTableFromFile P.text F D' H0 path = .ok (H', a') ∧ H'[a']? = some t' ∧ TextSame t t' := by
  obtain ⟨s, t', h1, h2, h3⟩ := C38_roundTrip_partial P hP H H0 t h hint hshape
  have hD : D' path' = some (.file s) := by
    unfold Table.writeFile at hwrite
    rw [h1] at hwrite
    rcases writeBytes_cases F D path s with ⟨D'', e, g, _⟩ | ⟨e, g⟩
    · simp only [e] at hwrite
      cases hwrite
      exact g.1 _ hopen.2
    · simp only [g] at hwrite
      exact nomatch (Prod.mk.inj hwrite).2
  refine ⟨H0 ++ [t'], H0.length, t', ?_, by simp, h3⟩
  unfold newTableFromString at h2
  cases hs : newTableSetFromString P.text H0 s with
  | err e => rw [hs] at h2; exact nomatch h2
  | panic => rw [hs] at h2; exact nomatch h2
  | ok p =>
    obtain ⟨K, set⟩ := p
    have hr : newTableSetFromFile P.text F D' H0 path = .ok (K, { set with fileName := path' }) :=
      (C72_read ..).2 ⟨path', s, set, hopen.1, hD, hread, hs, rfl, rfl, rfl⟩
    rw [hs] at h2
    unfold newTableFromFile
    rw [hr]
    exact h2

/-! ## A concrete case -/

/-- Files are named by absolute and by relative paths; `/tmp` is a directory. -/
def Ex.fs : FileEnv :=
  { isAbs := fun p => p.head? = some 47, absPath := fun p => .ok (if p = gs! "/tmp/../a" then gs! "/a" else p),
    same := fun p q => p = q || (p = gs! "/tmp/../a" && q = gs! "/a"), mayRead := fun _ _ => true, mayWrite := fun _ _ => true }

def Ex.disk : Disk := fun p => if p = gs! "/tmp" then some .dir else none

example : OpensAs Ex.fs (gs! "/tmp/../a") (gs! "/a") ∧ (Ex.set56.writeFile Ex.env Ex.fs Ex.heap56 Ex.disk (gs! "/tmp/../a")).2 = .ok () := by
  refine ⟨⟨openName_iff.1 (by decide +kernel), by decide +kernel⟩, by decide +kernel⟩

example : ∃ H' set', newTableSetFromFile Ex.env.text Ex.fs (Ex.set56.writeFile Ex.env Ex.fs Ex.heap56 Ex.disk (gs! "/tmp/../a")).1 [] (gs! "/tmp/../a") = .ok (H', set') ∧
    set'.name = gs! "Set_1" ∧ set'.fileName = gs! "/a" := by
  have hok : (Ex.set56.writeFile Ex.env Ex.fs Ex.heap56 Ex.disk (gs! "/tmp/../a")).2 = .ok () := by decide +kernel
  obtain ⟨H', set', h1, h2, h3, _⟩ := C72_set Ex.env Ex.env_go Ex.fs Ex.heap56 [] (by intro t ht; cases ht) (by rintro a b ⟨t, c, r, h⟩; simp at h) Ex.set56 Ex.writable_set56.1
    Ex.writable_set56.2.1 (.inr Ex.writable_set56.2.2) Ex.disk _ (gs! "/tmp/../a") (gs! "/a") (by rw [← hok]) ⟨openName_iff.1 (by decide +kernel), by decide +kernel⟩ rfl
  exact ⟨H', set', h1, h3, h2⟩

end Verif
