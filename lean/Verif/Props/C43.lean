import Verif.Lemmas.Gob
import Verif.Props.C45

/-!
# C43 Gob export and import

`encoding/gob` itself is a parameter of which `GobOK` is asked (`Spec/Gob.lean`).  A table that is decoded is a new one in memory, `H` being the tables there before.
-/

namespace Verif
open Table

variable {B : Type}

theorem import_ok (H : Heap) (hw : HeapWF H) (hcl : Closed H) (d : Nat) (hd : H.length + 3 ≤ d) (t : Table Addr) (ht : GobTable t)
    (y : TableExported) (h1 : y.tableName = t.name) (h2 : y.colNames = t.colNames) (h3 : y.colTypes = t.colTypes.map ColType.name)
    (h4 : List.Perm t.colMap y.colNamesMap) (h5 : SameRows t.rows y.rows) (h6 : y.structShape = t.isStructShape) :
    ∃ t', importTable H d y = (H ++ [t'], .ok (some H.length)) ∧ GobSame t t' ∧ GobTable t' ∧ t'.sortKeys = [] ∧ t'.parent = none := by
  have hwf := ht.wf
  have hv := hwf.nameValid ht.notNil
  let t' : Table Addr :=
    { (newNilTable : Table Addr) with
      name := t.name, isNilTable := false, colNames := t.colNames, colTypes := t.colTypes, colMap := y.colNamesMap, rows := y.rows,
      sortKeys := [], isStructShape := t.isStructShape }
  have hwf' : WF t' := by
    refine ⟨hwf.namesNodup, hwf.namesValid, hwf.typesLen, (h4.map Prod.fst).nodup_iff.1 hwf.mapKeys, fun n i => ?_, fun row hr => ?_, fun h => ?_,
      fun _ => hv, fun k hk => ?_⟩
    · rw [← hwf.mapIff]; exact GoMap.get?_perm hwf.mapKeys h4 n i
    · obtain ⟨r, hr⟩ := List.mem_iff_getElem?.1 hr
      obtain ⟨row0, hr0, hs⟩ := h5.back r row hr
      exact (hwf.rowsOK row0 (List.mem_of_getElem? hr0)).same hs
    · simp [t'] at h
    · simp [t'] at hk
  have hflat : Flat t' := flat_of_types ht.types
  have hval : isValidTableAt (H ++ [t']) d H.length = .valid := by
    refine C53_flat _ (fun u hu => ?_) (fun a b hab => ?_) d (by simp; omega) H.length t' (by simp) rfl hflat
    · rcases List.mem_append.1 hu with hu | hu
      · exact hw u hu
      · rw [List.mem_singleton.1 hu]; exact hwf'
    · have := hcl a b (nestedIn_append hflat hwf' hab)
      simp only [List.length_append, List.length_singleton]
      exact Nat.lt_succ_of_lt this
  refine ⟨t', ?_, ⟨rfl, ht.notNil.symm, rfl, rfl, h5, rfl⟩, ⟨hwf', rfl, ht.types⟩, rfl, rfl⟩
  unfold importTable
  have hlen : (t.colTypes.map ColType.name).length = t.colNames.length := by rw [List.length_map, hwf.typesLen]
  rw [h1, newTable_eq hv]
  simp only [h2, h3, h6, hlen, Nat.lt_irrefl, if_false]
  rw [List.take_of_length_le (by omega), importTypes_map]
  simp only
  erw [hval]

theorem export_ok {t : Table Addr} (ht : GobTable t) (hk : t.sortKeys = []) :
    exportTable t = .ok (exported t) := by
  have hv := ht.wf.nameValid ht.notNil
  have h0 : t.name ≠ [] := by intro e; rw [e] at hv; exact absurd hv (by decide)
  have hl := ht.wf.typesLen
  unfold exportTable
  rw [if_neg h0, if_neg (by simp [hv]), if_neg (by simp [colCount, hl]), hk]
  simp only [exportKeys, Out.bind]
  rw [List.take_of_length_le (by simp [colCount, hl])]
  rfl

/-- **C43**, first part: a table without sort keys (and without tables and times, which are documented as not supported) is decoded as a new table with the same name, columns, shape and cells; the tables that were in memory
are unchanged. -/
theorem C43_table (G : Gob B) (hG : GobOK G) (H : Heap) (hw : HeapWF H) (hcl : Closed H) (d : Nat) (hd : H.length + 3 ≤ d)
    (t : Table Addr) (ht : GobTable t) (hk : t.sortKeys = []) :
    ∃ buf t', gobEncode G t = .ok buf ∧ gobDecodeTable G H d buf = (H ++ [t'], .ok (some H.length)) ∧ GobSame t t' ∧ GobTable t' ∧
      t'.sortKeys = [] ∧ t'.parent = none := by
  obtain ⟨b, y, e1, e2, h1, h2, h3, h4, h5, _, h6⟩ := hG.table (exported t) (gobCell_of ht)
  obtain ⟨t', i1, i2⟩ := import_ok H hw hcl d hd t ht y h1 h2 h3 h4 h5 h6
  refine ⟨b, t', ?_, ?_, i2⟩
  · simp only [gobEncode, export_ok ht hk, Out.bind, e1]
  · simp only [gobDecodeTable, e2, i1]

/-- **C43**, second part: it is false of the code.  Encoding any table with a sort key panics, whatever `encoding/gob` does. -/
theorem C43_keys (G : Gob B) (t : Table Addr) (hw : WF t) (hnil : t.isNilTable = false) (hk : t.sortKeys ≠ []) : gobEncode G t = .panic := by
  have hv := hw.nameValid hnil
  have h0 : t.name ≠ [] := by intro e; rw [e] at hv; exact absurd hv (by decide)
  have hl := hw.typesLen
  unfold gobEncode exportTable
  rw [if_neg h0, if_neg (by simp [hv]), if_neg (by simp [colCount, hl])]
  cases hs : t.sortKeys with
  | nil => exact absurd hs hk
  | cons k ks => simp [exportKeys, goSet?, Out.bind]

/-- The encoded tables of a set. -/
theorem encode_tables (G : Gob B) (hG : GobOK G) (H : Heap) (as : List Addr)
    (has : ∀ a ∈ as, ∃ t, H[a]? = some t ∧ GobTable t ∧ t.sortKeys = []) (d : Nat) :
    ∃ bs, gobEncodeTables G H as = .ok bs ∧ bs.length = as.length ∧
      ∀ (H1 : Heap) (s1 : TableSet), HeapWF H1 → Closed H1 → H1.length + as.length + 3 ≤ d → (∀ a ∈ s1.tables, a < H1.length) → (setNames H1 s1).Nodup →
        ((setNames H1 s1 ++ as.map (nameAt H)).Nodup →
          ∃ ts, forEach (gobDecodeStep G d) bs (H1, s1) =
              ((H1 ++ ts, { s1 with tables := s1.tables ++ List.range' H1.length as.length }), .ok ()) ∧
            Pointwise (fun a t' => ∃ t, H[a]? = some t ∧ GobSame t t' ∧ GobTable t') as ts) ∧
        (¬ (setNames H1 s1 ++ as.map (nameAt H)).Nodup → ∃ st e, forEach (gobDecodeStep G d) bs (H1, s1) = (st, .err e)) := by
  induction as with
  | nil =>
    refine ⟨[], rfl, rfl, fun H1 s1 _ _ _ _ hnd => ⟨fun _ => ⟨[], by simp [forEach], trivial⟩, fun h => ?_⟩⟩
    simp [hnd] at h
  | cons a as ih =>
    obtain ⟨t, ht, hg, hk⟩ := has a (by simp)
    obtain ⟨bs, e, hl, hrest⟩ := ih fun x hx => has x (by simp [hx])
    obtain ⟨b, y, e1, e2, h1, h2, h3, h4, h5, _, h6⟩ := hG.table (exported t) (gobCell_of hg)
    refine ⟨b :: bs, ?_, by simp [hl], fun H1 s1 hw1 hc1 hd1 hb1 hnd1 => ?_⟩
    · simp only [gobEncodeTables, ht, gobEncode, export_ok hg hk, Out.bind, e1, e]
    simp only [List.length_cons] at hd1
    obtain ⟨t', i1, i2, i3, _⟩ := import_ok H1 hw1 hc1 d (by omega) t hg y h1 h2 h3 h4 h5 h6
    have hn : nameAt H a = t.name := by simp [nameAt, ht]
    have hn' : nameAt (H1 ++ [t']) H1.length = t.name := by simp [nameAt, i2.1]
    have hsn : setNames (H1 ++ [t']) s1 = setNames H1 s1 := by
      refine setNames_congr fun x hx => ?_
      simp only [nameAt]
      rw [List.getElem?_append_left (hb1 x hx)]
    have hdec : gobDecodeTable G H1 d b = (H1 ++ [t'], .ok (some H1.length)) := by simp only [gobDecodeTable, e2, i1]
    have happ := C31_appendTable (H1 ++ [t']) s1 H1.length
    rw [hn', hsn] at happ
    by_cases hdup : t.name ∈ setNames H1 s1
    · obtain ⟨er, happ⟩ := happ.1 hdup
      refine ⟨fun h => ?_, fun _ => ⟨(H1 ++ [t'], s1), er, ?_⟩⟩
      · rw [List.nodup_append] at h
        exact h.2.2 _ hdup (nameAt H a) (by simp) hn.symm |>.elim
      · simp only [forEach, gobDecodeStep, hdec, happ]
    · have happ := happ.2 hdup
      have hsn2 : setNames (H1 ++ [t']) { s1 with tables := s1.tables ++ [H1.length] } = setNames H1 s1 ++ [t.name] := by
        rw [setNames_new H1 s1 t' hb1, i2.1]
      have hflat := flat_of_types i3.types
      obtain ⟨g1, g2⟩ := hrest (H1 ++ [t']) { s1 with tables := s1.tables ++ [H1.length] }
        (fun u hu => by
          rcases List.mem_append.1 hu with hu | hu
          · exact hw1 u hu
          · rw [List.mem_singleton.1 hu]; exact i3.wf)
        (fun x z hxz => by
          have := hc1 x z (nestedIn_append hflat i3.wf hxz)
          simp only [List.length_append, List.length_singleton]
          exact Nat.lt_succ_of_lt this)
        (by simp only [List.length_append, List.length_singleton]; omega)
        (fun x hx => by
          simp only [List.length_append, List.length_singleton]
          rcases List.mem_append.1 hx with hx | hx
          · exact Nat.lt_succ_of_lt (hb1 x hx)
          · rw [List.mem_singleton.1 hx]; exact Nat.lt_succ_self _)
        (by rw [hsn2, List.nodup_append]; exact ⟨hnd1, by simp, by rintro x hx z hz rfl; rw [List.mem_singleton.1 hz] at hx; exact hdup hx⟩)
      have hstep : forEach (gobDecodeStep G d) (b :: bs) (H1, s1) =
          forEach (gobDecodeStep G d) bs (H1 ++ [t'], { s1 with tables := s1.tables ++ [H1.length] }) := by
        simp only [forEach, gobDecodeStep, hdec, happ]
      rw [hsn2] at g1 g2
      rw [List.map_cons, hn, hstep]
      rw [List.append_assoc] at g1 g2
      refine ⟨fun h => ?_, fun h => g2 h⟩
      obtain ⟨ts, k1, k2⟩ := g1 h
      refine ⟨t' :: ts, ?_, ⟨t, ht, i2, i3⟩, k2⟩
      rw [k1]
      simp [List.range'_succ]

/-- **C43**, sets: the tables of a set (distinctly named, without sort keys, tables and times) are decoded as new tables in the same order, with the same names, columns, shapes and cells; so are the names of the set and of its
file; the tables that were in memory are unchanged. -/
theorem C43_set (G : Gob B) (hG : GobOK G) (H : Heap) (s : TableSet)
    (has : ∀ a ∈ s.tables, ∃ t, H[a]? = some t ∧ GobTable t ∧ t.sortKeys = []) (hnd : (s.tables.map (nameAt H)).Nodup)
    (H1 : Heap) (hw : HeapWF H1) (hcl : Closed H1) (d : Nat) (hd : H1.length + s.tables.length + 3 ≤ d) :
    ∃ bufs ts s', gobEncodeSet G H s = .ok bufs ∧ gobDecodeTableSet G H1 d bufs = (H1 ++ ts, .ok s') ∧ s'.name = s.name ∧ s'.fileName = s.fileName ∧
      Pointwise (fun a a' => ∃ t t', H[a]? = some t ∧ (H1 ++ ts)[a']? = some t' ∧ H1.length ≤ a' ∧ GobSame t t' ∧ GobTable t') s.tables s'.tables := by
  obtain ⟨bs, e, hl, hrest⟩ := encode_tables G hG H s.tables has d
  obtain ⟨hb, hh1, hh2⟩ := hG.header { tableSetName := s.name, fileName := s.fileName }
  obtain ⟨ts, k1, k2⟩ := (hrest H1 (newTableSet []) hw hcl hd (by simp [newTableSet]) (by simp [newTableSet, setNames])).1
    (by simpa [newTableSet, setNames] using hnd)
  refine ⟨bs ++ [hb], ts, { name := s.name, fileName := s.fileName, tables := List.range' H1.length s.tables.length }, ?_, ?_, rfl, rfl, ?_⟩
  · simp only [gobEncodeSet, e, Out.bind, hh1]
  · unfold gobDecodeTableSet
    have e1 : (bs ++ [hb]).take ((bs ++ [hb]).length - 1) = bs := by simp
    have e2 : goGet? (bs ++ [hb]) (((bs ++ [hb]).length : Int) - 1) = some hb := by
      simp [goGet?]
    rw [e1, k1]
    simp only [e2, hh2]
    simp [newTableSet]
  · have key : ∀ (as : List Addr) (ts : List (Table Addr)) (H2 : Heap) (n : Nat), H2.length = n →
        Pointwise (fun a t' => ∃ t, H[a]? = some t ∧ GobSame t t' ∧ GobTable t') as ts →
        Pointwise (fun a a' => ∃ t t', H[a]? = some t ∧ (H2 ++ ts)[a']? = some t' ∧ n ≤ a' ∧ GobSame t t' ∧ GobTable t') as (List.range' n as.length) := by
      intro as
      induction as with
      | nil => intro ts H2 n _ _; trivial
      | cons a as ih =>
        intro ts H2 n hn h
        cases ts with
        | nil => exact h.elim
        | cons t' ts =>
          obtain ⟨⟨t, h1, h2, h3⟩, h4⟩ := h
          refine ⟨⟨t, t', h1, by simp [← hn], Nat.le_refl _, h2, h3⟩, ?_⟩
          have := ih ts (H2 ++ [t']) (n + 1) (by simp [hn]) h4
          rw [List.append_assoc] at this
          refine Pointwise.mono ?_ this
          rintro x y ⟨u, u', q1, q2, q3, q4⟩
          exact ⟨u, u', q1, q2, by omega, q4⟩
    exact key _ _ H1 _ rfl k2

/-- **C43**: a set in which two tables have the same name is encoded (`TableSet.GobEncode` does not notice), but not decoded: that is an error. -/
theorem C43_duplicates (G : Gob B) (hG : GobOK G) (H : Heap) (s : TableSet)
    (has : ∀ a ∈ s.tables, ∃ t, H[a]? = some t ∧ GobTable t ∧ t.sortKeys = []) (hnd : ¬ (s.tables.map (nameAt H)).Nodup)
    (H1 : Heap) (hw : HeapWF H1) (hcl : Closed H1) (d : Nat) (hd : H1.length + s.tables.length + 3 ≤ d) :
    ∃ bufs H2 e, gobEncodeSet G H s = .ok bufs ∧ gobDecodeTableSet G H1 d bufs = (H2, .err e) := by
  obtain ⟨bs, e, hl, hrest⟩ := encode_tables G hG H s.tables has d
  obtain ⟨hb, hh1, hh2⟩ := hG.header { tableSetName := s.name, fileName := s.fileName }
  obtain ⟨st, er, k⟩ := (hrest H1 (newTableSet []) hw hcl hd (by simp [newTableSet]) (by simp [newTableSet, setNames])).2
    (by simpa [newTableSet, setNames] using hnd)
  refine ⟨bs ++ [hb], st.1, er, ?_, ?_⟩
  · simp only [gobEncodeSet, e, Out.bind, hh1]
  · unfold gobDecodeTableSet
    have e1 : (bs ++ [hb]).take ((bs ++ [hb]).length - 1) = bs := by simp
    rw [e1, k]

/-- **C43**, whatever bytes are decoded: a table that is returned has a valid name, distinct valid column names, as many types as names, rows with as many cells as there are columns, and no sort
keys; the tables that were in memory are unchanged. -/
theorem C43_decoded (G : Gob B) (H : Heap) (d : Nat) (buf : B) (H' : Heap) (a : Addr) (h : gobDecodeTable G H d buf = (H', .ok (some a))) :
    ∃ t, H' = H ++ [t] ∧ a = H.length ∧ isValidTableName t.name = true ∧ t.colNames.Nodup ∧ (∀ n ∈ t.colNames, isValidColName n = true) ∧
      t.colTypes.length = t.colNames.length ∧ (∀ row ∈ t.rows, row.length = t.colNames.length) ∧ t.sortKeys = [] ∧ t.isNilTable = false := by
  unfold gobDecodeTable at h
  split at h <;> try (simp at h; done)
  unfold importTable at h
  split at h <;> try (simp at h; done)
  rename_i x _ _ table hnew
  split at h
  · simp at h
  split at h
  · simp at h
  rename_i types _
  simp only at h
  split at h <;> try (simp at h; done)
  rename_i hv
  simp only [Prod.mk.injEq, Out.ok.injEq, Option.some.injEq] at h
  obtain ⟨rfl, rfl⟩ := h
  obtain ⟨p1, p2, p3, p4, p5, _⟩ := C53_detects _ d H.length _ (by simp; rfl) hv
  refine ⟨_, rfl, rfl, p1, p3, p2, p4, p5, rfl, ?_⟩
  rw [(newTable_ok hnew).2]

/-- Decoding a set from no buffers panics. -/
theorem C43_noBuffers (G : Gob B) (H : Heap) (d : Nat) : gobDecodeTableSet G H d [] = (H, .panic) := rfl

/-! ## The hypotheses are met -/

namespace Ex

/-- Bytes that are the value itself, the map the other way round. -/
def gob : Gob (TableExported ⊕ TableSetExported) where
  encTable x := .ok (.inl { x with colNamesMap := x.colNamesMap.reverse })
  decTable b := match b with | .inl x => .ok x | .inr _ => .err .other
  encHeader h := .ok (.inr h)
  decHeader b := match b with | .inr h => .ok h | .inl _ => .err .other

theorem sameValue_refl (c : Cell Addr) : SameValue c c := by
  cases c <;> simp [SameValue]

theorem sameRow_refl : ∀ row : List (Cell Addr), Pointwise SameValue row row
  | [] => trivial
  | c :: row => ⟨sameValue_refl c, sameRow_refl row⟩

theorem sameRows_refl : ∀ rows : List (List (Cell Addr)), SameRows rows rows
  | [] => trivial
  | row :: rows => ⟨sameRow_refl row, sameRows_refl rows⟩

theorem gob_ok : GobOK gob :=
  ⟨fun x _ => ⟨_, _, rfl, rfl, rfl, rfl, rfl, (List.reverse_perm _).symm, sameRows_refl _, rfl, rfl⟩, fun _ => ⟨_, rfl, rfl⟩⟩

/-- Two columns and a row; no sort keys. -/
def gobTable (n : GoStr) : Table Addr :=
  { (newNilTable : Table Addr) with
    name := n, isNilTable := false, colNames := [gs! "a", gs! "b"], colTypes := [.int, .uint8Slice], colMap := [(gs! "a", 0), (gs! "b", 1)],
    rows := [[.int .int 7, .bytes none]], isStructShape := true }

theorem gobTable_ok (n : GoStr) (hn : isValidTableName n = true) : GobTable (gobTable n) := by
  have hk : ([(gs! "a", 0), (gs! "b", 1)].map (Prod.fst (β := Nat))).Nodup := by decide +kernel
  refine ⟨⟨show [gs! "a", gs! "b"].Nodup by decide +kernel, show ∀ n ∈ [gs! "a", gs! "b"], isValidColName n = true by decide +kernel, rfl, hk, fun m i => ?_, ?_,
    by simp [gobTable], fun _ => hn, by simp [gobTable, newNilTable]⟩, rfl, show ∀ ty ∈ [ColType.int, .uint8Slice], ty ≠ .table ∧ ty ≠ .time by decide⟩
  · rw [GoMap.get?_iff_mem (show ((gobTable n).colMap.map Prod.fst).Nodup from hk)]
    simp only [gobTable, List.mem_cons, Prod.mk.injEq, List.not_mem_nil, or_false]
    match i with
    | 0 => simp [eq_comm]
    | 1 => simp [eq_comm]
    | i + 2 => simp
  · intro row hr
    simp only [gobTable, List.mem_singleton] at hr
    subst hr
    refine ⟨rfl, fun i ty c h1 h2 => ?_⟩
    match i with
    | 0 => simp [gobTable] at h1 h2; subst h1; subst h2; simp [Cell.HasType]
    | 1 => simp [gobTable] at h1 h2; subst h1; subst h2; trivial
    | i + 2 => simp at h2

end Ex

example : ∃ buf t', gobEncode Ex.gob (Ex.gobTable (gs! "T")) = .ok buf ∧ gobDecodeTable Ex.gob [] 3 buf = ([t'], .ok (some 0)) ∧ t'.rows = [[.int .int 7, .bytes none]] :=
  ⟨_, _, rfl, rfl, rfl⟩
example : ∃ buf t', gobEncode Ex.gob (Ex.gobTable (gs! "T")) = .ok buf ∧ gobDecodeTable Ex.gob [] 3 buf = ([t'], .ok (some 0)) ∧
    GobSame (Ex.gobTable (gs! "T")) t' := by
  obtain ⟨b, t', h1, h2, h3, _⟩ := C43_table Ex.gob Ex.gob_ok [] (by simp [HeapWF]) (by rintro a b ⟨t, n, r, h, _⟩; simp at h) 3 (by simp) _
    (Ex.gobTable_ok (gs! "T") (by decide)) rfl
  exact ⟨b, t', h1, h2, h3⟩
example : gobEncode Ex.gob ((Ex.gobTable (gs! "T")).setSortKeys [gs! "a"]).1 = .panic :=
  C43_keys _ _ ((Ex.gobTable_ok (gs! "T") (by decide)).wf.setSortKeys _) (by decide +kernel) (by decide +kernel)
-- two tables; and two of the same name
example : ∃ bufs H' s', gobEncodeSet Ex.gob [Ex.gobTable (gs! "T"), Ex.gobTable (gs! "U")] { name := gs! "S", fileName := gs! "f", tables := [1, 0] } = .ok bufs ∧
    gobDecodeTableSet Ex.gob [] 5 bufs = (H', .ok s') ∧ s'.name = gs! "S" ∧ H'.map Table.name = [gs! "U", gs! "T"] := by
  refine ⟨_, _, _, rfl, rfl, rfl, rfl⟩
example : ∃ bufs H' e, gobEncodeSet Ex.gob [Ex.gobTable (gs! "T")] { name := gs! "S", fileName := gs! "f", tables := [0, 0] } = .ok bufs ∧
    gobDecodeTableSet Ex.gob [] 5 bufs = (H', .err e) := by
  refine ⟨_, _, _, rfl, rfl⟩

/-- A damaged map of the column names: no table is returned, and no error either. -/
example : ∃ H', importTable [] 3 { exported (Ex.gobTable (gs! "T")) with colNamesMap := [(gs! "a", 1), (gs! "b", 0)] } = (H', .ok none) := ⟨_, rfl⟩

end Verif
