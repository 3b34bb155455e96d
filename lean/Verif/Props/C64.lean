import Verif.Props.C36
import Verif.Props.C28
import Verif.Props.C07
import Verif.Props.C63
import Verif.Model.Nest

/-!
# C64: Nest stores with every row the matching rows of the other table

`nest P H srt lower nt t nestable name` is `t.Nest(nestable, name)` with both tables afterwards.
-/

namespace Verif
open Table

/-- What `Nest` needs of its arguments: the sort keys of `t` (each column with one direction) are sortable columns of the same type in both tables,
without NaN; the name is that of a new column, in ASCII; the text format can express `nestable`. -/
structure NestInput (t nestable : Table Addr) (name : GoStr) : Prop where
  wf : WF t
  wfN : WF nestable
  someKey : t.sortKeys ≠ []
  directions : ConsistentDirections t.sortKeys
  key : ∀ k ∈ t.sortKeys, HasColT t k.colName k.colType ∧ HasColT nestable k.colName k.colType
  notNaN : ∀ k ∈ t.sortKeys, ∀ r v, At t k.colName r v → ¬ v.IsNaN
  notNaNN : ∀ k ∈ t.sortKeys, ∀ r v, At nestable k.colName r v → ¬ v.IsNaN
  nameValid : isValidColName name = true
  ascii : Ascii name
  fresh : name ∉ t.colNames
  plain : ∀ ty ∈ nestable.colTypes, plainType ty = true
  safe : ∀ row ∈ nestable.rows, Pointwise (fun ty c => TextSafe ty c) nestable.colTypes row

/-- `t'` is `t` sorted by its keys: the same but for the order of the rows. -/
def SortedFrom (lower : GoStr → GoStr) (t t' : Table Addr) : Prop :=
  SameHeader t t' ∧ t'.rows.Perm t.rows ∧ SortedByKeys lower t' ∧ WF t'

/-- The text `s` is read (into any memory) as a new table called `name` with the columns of `nestable` and, of its rows, exactly those that have the key
of row `r` of `t`, in order. -/
def NestedText (P : PrintEnv) (names : List GoStr) (t nestable : Table Addr) (name : GoStr) (r : Nat) (s : GoStr) : Prop :=
  ∃ a b : Nat, a ≤ b ∧ (∀ j, SameKey names t r nestable j ↔ a ≤ j ∧ j ≤ b) ∧
    ∀ H0 : Heap, ∃ new, newTableFromString P.text H0 s = .ok (H0 ++ [new], H0.length) ∧
      new.name = name ∧ new.colNames = nestable.colNames ∧ new.colTypes = nestable.colTypes ∧
      SameRows ((nestable.rows.drop a).take (b - a + 1)) new.rows

/-- The values of the keys of a row, as a search of another table. -/
theorem keyVals_ok {t : Table Addr} (h : WF t) {r : Nat} (hr : r < t.rows.length) (ks : List SortKey) (hk : ∀ k ∈ ks, HasColT t k.colName k.colType) :
    ∃ vs, t.keyVals r (ks.map (·.colName)) = .ok vs ∧ ValuesFit ks vs ∧ (∀ v ∈ vs, ∃ k ∈ ks, At t k.colName r v) ∧
      ∀ (u : Table Addr) j, RowMatches u ks vs j ↔ ∀ n ∈ ks.map (·.colName), ∃ a b, At t n r a ∧ At u n j b ∧ a.EqVal b := by
  induction ks with
  | nil => exact ⟨[], rfl, trivial, by simp, fun u j => by simp [RowMatches]⟩
  | cons k ks ih =>
    obtain ⟨vs, e, hf, hm, hu⟩ := ih fun k' hk' => hk k' (by simp [hk'])
    have hk1 := hk k (by simp)
    obtain ⟨v, hv⟩ := At_exists h hk1.mem hr
    have hvt : v.HasType k.colType := by
      obtain ⟨i, row, h1, h2, h3⟩ := hv
      obtain ⟨j, h4, h5⟩ := hk1
      have := h.map_unique h1 h4
      subst this
      exact (h.rowsOK row (List.mem_of_getElem? h2)).2 _ _ _ h5 h3
    refine ⟨v :: vs, ?_, ⟨hvt, hf⟩, ?_, ?_⟩
    · have : t.getVal k.colName r = .ok v := (getVal_ok_iff h).2 ⟨r, rfl, hv⟩
      simp only [List.map_cons, keyVals, this, Out.bind, e]
    · intro w hw
      rcases List.mem_cons.1 hw with rfl | hw
      · exact ⟨k, by simp, hv⟩
      · obtain ⟨k', h1, h2⟩ := hm w hw; exact ⟨k', by simp [h1], h2⟩
    · intro u j
      simp only [RowMatches, hu, List.map_cons, List.forall_mem_cons]
      constructor
      · rintro ⟨⟨a, h1, h2⟩, h3⟩; exact ⟨⟨v, a, hv, h1, EqVal.symm h2⟩, h3⟩
      · rintro ⟨⟨a, b, h1, h2, h4⟩, h3⟩
        rw [At_unique h h1 hv] at h4
        exact ⟨⟨b, h2, EqVal.symm h4⟩, h3⟩

theorem validTable_of_col {n : GoStr} (h : isValidColName n = true) : isValidTableName n = true := by
  cases n with
  | nil => exact absurd h (by decide)
  | cons a as => simpa [isValidTableName, isValidColName] using h

/-- One row of `Nest`. -/
theorem nestRow_cases (P : PrintEnv) (hF : FloatOK P.text.float) (H : Heap) (lower : GoStr → GoStr) (nt : Nat → Nat → Addr) {s N : Table Addr} {name : GoStr}
    (hs : WF s) (hN : SortedTable lower N) (hks : ∀ k ∈ N.sortKeys, HasColT s k.colName k.colType)
    (hnan : ∀ k ∈ N.sortKeys, ∀ r v, At s k.colName r v → ¬ v.IsNaN) (hname : isValidColName name = true) (hascii : Ascii name)
    (hplain : ∀ ty ∈ N.colTypes, plainType ty = true) (hsafe : ∀ row ∈ N.rows, Pointwise (fun ty c => TextSafe ty c) N.colTypes row)
    {r : Nat} (hr : r < s.rows.length) :
    ((∃ j, SameKey (N.sortKeys.map (·.colName)) s r N j) → ∃ text, NestedText P (N.sortKeys.map (·.colName)) s N name r text ∧
      nestRow P H lower nt N (N.sortKeys.map (·.colName)) name r s = s.setTyped .string name r (.str text)) ∧
    (¬ (∃ j, SameKey (N.sortKeys.map (·.colName)) s r N j) → ∃ e, nestRow P H lower nt N (N.sortKeys.map (·.colName)) name r s = (s, .err e)) := by
  obtain ⟨vs, e1, hfit, hvs, hmat⟩ := keyVals_ok hs hr N.sortKeys hks
  have hgood : GoodSearch N vs := ⟨hfit, fun v hv => by obtain ⟨k, hk, ha⟩ := hvs v hv; exact hnan k hk r v ha⟩
  have hsame : ∀ j, SameKey (N.sortKeys.map (·.colName)) s r N j ↔ MatchingRow N vs j := fun j => by
    simp only [SameKey, MatchingRow, hmat, hr, true_and]
  obtain ⟨s1, s2, s3⟩ := C20_searchRange lower N hN vs hgood
  constructor
  · rintro ⟨j, hj⟩
    cases e2 : N.searchRange lower vs with
    | panic => exact absurd e2 s3
    | err e => exact absurd ((hsame j).1 hj) (s2.1 ⟨e, e2⟩ j)
    | ok xy =>
      obtain ⟨x, y⟩ := xy
      obtain ⟨a, b, rfl, rfl, hab, hrange⟩ := (s1 x y).1 e2
      have hb : b < N.rows.length := ((hrange b).2 ⟨hab, Nat.le_refl _⟩).1
      have hcol : N.colNames ≠ [] := by
        obtain ⟨k, hk⟩ := List.exists_mem_of_ne_nil _ hN.someKey
        have := (hN.live k hk).mem
        intro hn; rw [hn] at this; cases this
      obtain ⟨new, e3, x1, x2, x3, x4, x5, x6, x7, x8⟩ := (C28_newTableFromRows nt N hN.wf hcol name a b).1 ⟨validTable_of_col hname, by omega, by omega, by omega⟩
      have en : ((b : Int) - a + 1).toNat = b - a + 1 := by omega
      have hw : Writable plainType new := by
        refine ⟨x8, x7, by rw [x1]; exact hascii, by rw [x3]; exact hplain, fun hn => absurd (x2 ▸ hn) hcol, ?_⟩
        rw [x3, x4]
        intro row hrow
        exact hsafe row (List.mem_of_mem_drop (List.mem_of_mem_take hrow))
      obtain ⟨text, _, e4, _⟩ := C36_roundTrip P hF H [] new hw (.inl x6)
      refine ⟨text, ⟨a, b, hab, fun j => (hsame j).trans (hrange j), fun H0 => ?_⟩, ?_⟩
      · obtain ⟨text', new', e5, e6, h1, h2, h3, h4⟩ := C36_roundTrip P hF H H0 new hw (.inl x6)
        have : text' = text := by rw [e4] at e5; exact (Out.ok.inj e5).symm
        subst this
        refine ⟨new', e6, h1.trans x1, h2.trans x2, h3.trans x3, ?_⟩
        rw [x4, Int.toNat_natCast, en] at h4
        exact h4
      · simp only [nestRow, e1, Out.bind, e2, e3, e4]
  · intro hno
    obtain ⟨e, e2⟩ := s2.2 fun j hj => hno ⟨j, (hsame j).2 hj⟩
    exact ⟨e, by simp only [nestRow, e1, Out.bind, e2]⟩

theorem SameKey.congr {names : List GoStr} {t t' u : Table Addr} {r j : Nat} (hl : t'.rows.length = t.rows.length)
    (h : ∀ n ∈ names, ∀ v, At t' n r v ↔ At t n r v) : SameKey names t' r u j ↔ SameKey names t r u j := by
  have e : (∀ n ∈ names, ∃ a b, At t' n r a ∧ At u n j b ∧ a.EqVal b) ↔ ∀ n ∈ names, ∃ a b, At t n r a ∧ At u n j b ∧ a.EqVal b :=
    ⟨fun g n hn => by obtain ⟨a, b, h1, h2⟩ := g n hn; exact ⟨a, b, (h n hn a).1 h1, h2⟩,
     fun g n hn => by obtain ⟨a, b, h1, h2⟩ := g n hn; exact ⟨a, b, (h n hn a).2 h1, h2⟩⟩
  simp only [SameKey, hl, e]

theorem NestedText.congr {P : PrintEnv} {names : List GoStr} {t t' u : Table Addr} {name : GoStr} {r : Nat} {s : GoStr} (hl : t'.rows.length = t.rows.length)
    (h : ∀ n ∈ names, ∀ v, At t' n r v ↔ At t n r v) (hn : NestedText P names t' u name r s) : NestedText P names t u name r s := by
  obtain ⟨a, b, h1, h2, h3⟩ := hn
  exact ⟨a, b, h1, fun j => (SameKey.congr hl h).symm.trans (h2 j), h3⟩

/-- Some row of `u` has the key of the row; this does not depend on the order of rows. -/
theorem SameKey.moved {names : List GoStr} {t t' u u' : Table Addr} (hc : t'.colNames = t.colNames) (hp : t'.rows.Perm t.rows)
    (hc' : u'.colNames = u.colNames) (hp' : u'.rows.Perm u.rows) {r : Nat} (hr : r < t.rows.length) :
    ∃ r', r' < t'.rows.length ∧ ((∃ j, SameKey names t r u j) ↔ ∃ j, SameKey names t' r' u' j) := by
  have move : ∀ {a b : Table Addr}, b.colNames = a.colNames → b.rows.Perm a.rows → ∀ {i}, i < a.rows.length →
      ∃ k, k < b.rows.length ∧ ∀ n v, At b n k v ↔ At a n i v := by
    intro a b hc hp i hi
    have : a.rows[i] ∈ b.rows := hp.mem_iff.2 (List.getElem_mem hi)
    obtain ⟨k, hk⟩ := List.getElem?_of_mem this
    refine ⟨k, (List.getElem?_eq_some_iff.1 hk).1, fun n v => ?_⟩
    simp only [At, hc, hk, List.getElem?_eq_getElem hi]
  obtain ⟨r', h1, h2⟩ := move hc hp hr
  refine ⟨r', h1, ?_⟩
  constructor
  · rintro ⟨j, hr, hj, g⟩
    obtain ⟨k, h3, h4⟩ := move hc' hp' hj
    exact ⟨k, h1, h3, fun n hn => by obtain ⟨a, b, ha, hb, e⟩ := g n hn; exact ⟨a, b, (h2 n a).2 ha, (h4 n b).2 hb, e⟩⟩
  · rintro ⟨j, _, hj, g⟩
    obtain ⟨k, h3, h4⟩ := move hc'.symm hp'.symm hj
    exact ⟨k, hr, h3, fun n hn => by obtain ⟨a, b, ha, hb, e⟩ := g n hn; exact ⟨a, b, (h2 n a).1 ha, (h4 n b).2 hb, e⟩⟩

/-- `t'` is `t`, sorted by its keys, with a last column `name` of texts: that of each row stands for the rows of `nestable` with the same key. -/
structure IsNested (P : PrintEnv) (lower : GoStr → GoStr) (t nestable : Table Addr) (name : GoStr) (t' : Table Addr) : Prop where
  wf : WF t'
  sameName : t'.name = t.name
  keys : t'.sortKeys = t.sortKeys
  cols : t'.colNames = t.colNames ++ [name]
  types : t'.colTypes = t.colTypes ++ [.string]
  len : t'.rows.length = t.rows.length
  rest : ∃ s, SortedFrom lower t s ∧ ∀ n r v, n ≠ name → (At t' n r v ↔ At s n r v)
  nested : ∀ r, r < t.rows.length → ∃ text, At t' name r (.str text) ∧ NestedText P (t.sortKeys.map (·.colName)) t' nestable name r text

/-- **C64.** If every row of `t` has a row of `nestable` with the same key then `Nest` succeeds, and the new column holds, row by row, a text that
`NewTableFromString` reads as the table of exactly the rows with this key; otherwise it answers an error.  In either case `nestable` gets the sort keys
of `t` and is sorted. -/
theorem C64_nest (P : PrintEnv) (hF : FloatOK P.text.float) (H : Heap) (srt : GoSort (List (Cell Addr))) (lower : GoStr → GoStr) (nt : Nat → Nat → Addr)
    (t nestable : Table Addr) (name : GoStr) (h : NestInput t nestable name) :
    ∃ t' n' o, nest P H srt lower nt t nestable name = ((t', n'), o) ∧
      n'.sortKeys.map (fun k => (k.colName, k.reverse)) = t.sortKeys.map (fun k => (k.colName, k.reverse)) ∧
      SortedFrom lower { nestable with sortKeys := n'.sortKeys } n' ∧
      ((∀ r, r < t.rows.length → ∃ j, SameKey (t.sortKeys.map (·.colName)) t r nestable j) → o = .ok () ∧ IsNested P lower t n' name t') ∧
      (¬ (∀ r, r < t.rows.length → ∃ j, SameKey (t.sortKeys.map (·.colName)) t r nestable j) → ∃ e, o = .err e) := by
  have hsort : ∀ k ∈ t.sortKeys, SortableCol nestable k.colName := fun k hk => ⟨_, (h.key k hk).2, (h.wf.keysOK k hk).1⟩
  obtain ⟨ks, e1, d, hlive⟩ := C23_setSortKeysFromTable nestable t h.wfN h.someKey hsort h.directions
  have hn : ks.map (·.colName) = t.sortKeys.map (·.colName) := by rw [dirs_names, show dirs ks = dirs t.sortKeys from d, ← dirs_names]
  have w1 : WF { nestable with sortKeys := ks } := by have := h.wfN.setSortKeysFromTable t; rw [e1] at this; exact this
  have hkeys : ∀ k ∈ ks, ∃ k' ∈ t.sortKeys, k'.colName = k.colName ∧ k'.colType = k.colType := by
    intro k hk
    have : k.colName ∈ t.sortKeys.map (·.colName) := by rw [← hn]; exact List.mem_map.2 ⟨k, hk, rfl⟩
    obtain ⟨k', hk', e⟩ := List.mem_map.1 this
    refine ⟨k', hk', e, HasColT.unique h.wfN (n := k.colName) ?_ (hlive k hk)⟩
    rw [← show k'.colName = k.colName from e]; exact (h.key k' hk').2
  have hks0 : ks ≠ [] := fun e => by rw [e] at hn; exact h.someKey (List.map_eq_nil_iff.1 hn.symm)
  -- both tables sorted
  obtain ⟨rows, e2, p, so⟩ := sort_eq srt lower h.wf h.someKey (fun k hk => (h.key k hk).1) h.notNaN
  have w2 : WF { t with rows := rows } := by have := h.wf.sort srt lower []; rw [e2] at this; exact this
  have nn : ∀ k ∈ ks, ∀ r v, At nestable k.colName r v → ¬ v.IsNaN := fun k hk r v hv => by
    obtain ⟨k', hk', e, _⟩ := hkeys k hk
    rw [← e] at hv; exact h.notNaNN k' hk' r v hv
  obtain ⟨rowsN, e3, pN, soN⟩ := sort_eq srt lower w1 hks0 hlive nn
  have w3 : WF { nestable with sortKeys := ks, rows := rowsN } := by have := w1.sort srt lower []; rw [e3] at this; exact this
  have moveN : ∀ n r v, At { nestable with sortKeys := ks, rows := rowsN } n r v → ∃ r', At nestable n r' v := by
    rintro n r v ⟨i, row, g1, g2, g3⟩
    obtain ⟨r', hr'⟩ := List.getElem?_of_mem (pN.mem_iff.1 (List.mem_of_getElem? g2))
    exact ⟨r', i, row, g1, hr', g3⟩
  have moveT : ∀ n r v, At { t with rows := rows } n r v → ∃ r', At t n r' v := by
    rintro n r v ⟨i, row, g1, g2, g3⟩
    obtain ⟨r', hr'⟩ := List.getElem?_of_mem (p.mem_iff.1 (List.mem_of_getElem? g2))
    exact ⟨r', i, row, g1, hr', g3⟩
  have hN : SortedTable lower { nestable with sortKeys := ks, rows := rowsN } :=
    ⟨w3, hks0, hlive, fun k hk r v hv => by obtain ⟨r', hr'⟩ := moveN _ _ _ hv; exact nn k hk r' v hr', soN⟩
  -- the new column
  have tnil : t.isNilTable = false := by
    cases hnil : t.isNilTable with
    | false => rfl
    | true =>
      obtain ⟨k, hk⟩ := List.exists_mem_of_ne_nil _ h.someKey
      have := (h.key k hk).1.mem
      rw [(h.wf.nilEmpty hnil).1] at this; cases this
  obtain ⟨e4, ⟨c1, c2, c3, c4, c5, c6, c7, c8, c9⟩, w4⟩ := (C07_appendCol nt { t with rows := rows } w2 name (gs! "string")).1 .string tnil h.nameValid h.fresh rfl
  generalize et2 : (Table.appendCol nt { t with rows := rows } name (gs! "string")).1 = t2 at c1 c2 c3 c4 c5 c6 c7 c8 c9 w4
  have e4 : Table.appendCol nt { t with rows := rows } name (gs! "string") = (t2, .ok ()) := by rw [← et2, ← e4]
  have hlen2 : t2.rows.length = t.rows.length := c3.trans p.length_eq
  have hcol : t2.colNames[t.colNames.length]? = some name ∧ t2.colTypes[t.colNames.length]? = some .string := by
    refine ⟨by rw [c1]; simp, ?_⟩
    have : t.colTypes.length = t.colNames.length := h.wf.typesLen
    rw [c2, ← this]; simp
  have hne : ∀ k ∈ ks, k.colName ≠ name := fun k hk e => by
    obtain ⟨k', hk', e', _⟩ := hkeys k hk
    exact h.fresh (e ▸ e' ▸ (h.key k' hk').1.mem)
  have hcolT : ∀ k ∈ ks, HasColT t2 k.colName k.colType := fun k hk => by
    obtain ⟨k', hk', e', e''⟩ := hkeys k hk
    obtain ⟨i, g1, g2⟩ := (h.key k' hk').1
    rw [e'] at g1; rw [e''] at g2
    exact ⟨i, by rw [c1, List.getElem?_append_left (List.getElem?_eq_some_iff.1 g1).1]; exact g1,
      by rw [c2, List.getElem?_append_left (List.getElem?_eq_some_iff.1 g2).1]; exact g2⟩
  have hl0 : ¬ t.sortKeys.length = 0 := by simpa using h.someKey
  -- the loop
  have hkeyAt : ∀ (pre : List Nat) s, Over t2 s (fun n r => n = name ∧ r ∈ pre)
      (fun _ r v => ∃ text, v = .str text ∧ NestedText P (ks.map (·.colName)) t2 { nestable with sortKeys := ks, rows := rowsN } name r text) →
      ∀ k ∈ ks, ∀ r v, At s k.colName r v ↔ At t2 k.colName r v := fun pre s hs k hk r v => hs.old _ _ _ fun g => hne k hk g.1
  have hstep := fun pre s hs i (hi : i < t2.rows.length) => nestRow_cases P hF H lower nt (s := s) (N := { nestable with sortKeys := ks, rows := rowsN }) (name := name)
    (Over.wf hs) hN
    (fun k hk => by
      obtain ⟨j, g1, g2⟩ := hcolT k hk
      exact ⟨j, by rw [hs.header.2.1]; exact g1, by rw [hs.header.2.2.1]; exact g2⟩)
    (fun k hk r v hv => by
      obtain ⟨r', hr'⟩ := moveT _ _ _ ((c5 _ _ _ (hne k hk)).1 ((hkeyAt pre s hs k hk r v).1 hv))
      obtain ⟨k', hk', e', _⟩ := hkeys k hk
      rw [← e'] at hr'
      exact h.notNaN k' hk' r' v hr')
    h.nameValid h.ascii h.plain (fun row hrow => h.safe row (pN.mem_iff.1 hrow)) (r := i) (by rw [hs.len]; exact hi)
  have hsk : ∀ (pre : List Nat) s, Over t2 s (fun n r => n = name ∧ r ∈ pre) (fun _ r v => ∃ text, v = .str text ∧
        NestedText P (ks.map (·.colName)) t2 { nestable with sortKeys := ks, rows := rowsN } name r text) →
      ∀ r, ∀ n ∈ ks.map (·.colName), ∀ v, At s n r v ↔ At t2 n r v := by
    intro pre s hs r n hn v
    obtain ⟨k, hk, rfl⟩ := List.mem_map.1 hn
    exact hkeyAt pre s hs k hk r v
  have hmem : ∀ pre i post, List.range t2.rowCount = pre ++ i :: post → i < t2.rows.length := fun pre i post e => by
    have : i ∈ List.range t2.rowCount := by rw [e]; simp
    exact List.mem_range.1 this
  have hloop := forEach_decide (f := nestRow P H lower nt { nestable with sortKeys := ks, rows := rowsN } (ks.map (·.colName)) name)
    (fun r => ∃ j, SameKey (ks.map (·.colName)) t2 r { nestable with sortKeys := ks, rows := rowsN } j)
    (fun pre s => Over t2 s (fun n r => n = name ∧ r ∈ pre)
      (fun _ r v => ∃ text, v = .str text ∧ NestedText P (ks.map (·.colName)) t2 { nestable with sortKeys := ks, rows := rowsN } name r text))
    (List.range t2.rowCount) ?good ?bad t2 (Over.refl w4 _ (by simp))
  case good =>
    intro pre i post el hp s hs
    have hi := hmem pre i post el
    obtain ⟨j, hj⟩ := hp
    obtain ⟨text, ht, et⟩ := (hstep pre s hs i hi).1 ⟨j, (SameKey.congr hs.len (hsk pre s hs i)).2 hj⟩
    have g1 : s.colNames[t.colNames.length]? = some name := by rw [hs.header.2.1]; exact hcol.1
    have g2 : s.colTypes[t.colNames.length]? = some .string := by rw [hs.header.2.2.1]; exact hcol.2
    have hi' : i < s.rows.length := by rw [hs.len]; exact hi
    rcases setTyped_cases hs.wf .string name i (.str text) trivial with ⟨ci, ri, ty, q1, q2, q3, q4, q5, q6, q7⟩ | ⟨q, _⟩
    · have : ri = i := by omega
      subst this
      have := hs.wf.map_unique q1 g1
      subst this
      refine ⟨_, et.trans q7, ?_⟩
      refine (hs.put q1 q3 q5 q4 ⟨text, rfl, ht.congr hs.len (hsk pre s hs _)⟩).congr fun n r _ => ?_
      simp only [List.mem_append, List.mem_singleton]
      constructor
      · rintro (⟨g, g'⟩ | ⟨g, g'⟩)
        · exact ⟨g, .inl g'⟩
        · exact ⟨g, .inr g'⟩
      · rintro ⟨g, g' | g'⟩
        · exact .inl ⟨g, g'⟩
        · exact .inr ⟨g, g'⟩
    · exact absurd ⟨_, i, _, g1, rfl, g2, hi', trivial, by simp⟩ q
  case bad =>
    intro pre i post el hp s hs
    have hi := hmem pre i post el
    obtain ⟨e, ee⟩ := (hstep pre s hs i hi).2 fun ⟨j, hj⟩ => hp ⟨j, (SameKey.congr hs.len (hsk pre s hs i)).1 hj⟩
    exact ⟨s, e, ee⟩
  have hnest : nest P H srt lower nt t nestable name =
      (((forEach (nestRow P H lower nt { nestable with sortKeys := ks, rows := rowsN } (ks.map (·.colName)) name) (List.range t2.rowCount) t2).1,
        { nestable with sortKeys := ks, rows := rowsN }),
       (forEach (nestRow P H lower nt { nestable with sortKeys := ks, rows := rowsN } (ks.map (·.colName)) name) (List.range t2.rowCount) t2).2) := by
    simp only [nest, hl0, if_false, e1, e2, e3, e4, hn]
  -- whether every row has a match does not depend on the order
  have hall : (∀ r, r < t.rows.length → ∃ j, SameKey (t.sortKeys.map (·.colName)) t r nestable j) ↔
      ∀ i ∈ List.range t2.rowCount, ∃ j, SameKey (ks.map (·.colName)) t2 i { nestable with sortKeys := ks, rows := rowsN } j := by
    have hc : ∀ i j, SameKey (ks.map (·.colName)) t2 i { nestable with sortKeys := ks, rows := rowsN } j ↔
        SameKey (ks.map (·.colName)) { t with rows := rows } i { nestable with sortKeys := ks, rows := rowsN } j := fun i j =>
      SameKey.congr c3 fun n hn v => by
        obtain ⟨k, hk, rfl⟩ := List.mem_map.1 hn
        exact c5 _ _ _ (hne k hk)
    simp only [hc]
    constructor
    · intro g i hi
      have hi : i < rows.length := by have := List.mem_range.1 hi; rw [show t2.rowCount = rows.length from c3] at this; exact this
      obtain ⟨r, hr, hiff⟩ := SameKey.moved (names := t.sortKeys.map (·.colName)) (t := { t with rows := rows }) (t' := t)
        (u := { nestable with sortKeys := ks, rows := rowsN }) (u' := nestable) rfl p.symm rfl pN.symm hi
      rw [hn]; exact hiff.2 (g r hr)
    · intro g r hr
      obtain ⟨i, hi, hiff⟩ := SameKey.moved (names := t.sortKeys.map (·.colName)) (t := t) (t' := { t with rows := rows })
        (u := nestable) (u' := { nestable with sortKeys := ks, rows := rowsN }) rfl p rfl pN hr
      refine hiff.2 ?_
      rw [← hn]
      exact g i (List.mem_range.2 (by rw [show t2.rowCount = rows.length from c3]; exact hi))
  refine ⟨_, _, _, hnest, d, ⟨by simp [SameHeader], pN, soN, w3⟩, ?_, ?_⟩
  · intro g
    rcases hloop with ⟨_, s, es, hs⟩ | ⟨⟨i, hi, hno⟩, _⟩
    · rw [es]
      refine ⟨rfl, ⟨hs.wf, hs.header.1.trans c6, hs.header.2.2.2.2.1.trans c7, hs.header.2.1.trans c1, hs.header.2.2.1.trans c2, hs.len.trans hlen2,
        ⟨{ t with rows := rows }, ⟨by simp [SameHeader], p, so, w2⟩, fun n r v hne' => (hs.old n r v fun g => hne' g.1).trans (c5 n r v hne')⟩, ?_⟩⟩
      intro r hr
      have hr2 : r < s.rows.length := by rw [hs.len, hlen2]; exact hr
      obtain ⟨v, hv⟩ := At_exists hs.wf (n := name) (by rw [hs.header.2.1, c1]; simp) hr2
      obtain ⟨text, rfl, ht⟩ := hs.new name r v ⟨rfl, List.mem_range.2 (by rw [show t2.rowCount = t2.rows.length from rfl, hlen2]; exact hr)⟩ hv
      refine ⟨text, hv, ?_⟩
      rw [← hn]
      exact ht.congr hs.len.symm fun n hn v => (hsk _ s hs r n hn v).symm
    · exact absurd (hall.1 g i hi) hno
  · intro g
    rcases hloop with ⟨hy, _⟩ | ⟨_, s, e, es⟩
    · exact absurd (hall.2 hy) g
    · exact ⟨e, by rw [es]⟩

/-- **C64.** Without sort keys of `t` it answers an error and changes nothing, although "whichever table has sort keys" is to be used: those of
`nestable` are not. -/
theorem C64_no_keys (P : PrintEnv) (H : Heap) (srt : GoSort (List (Cell Addr))) (lower : GoStr → GoStr) (nt : Nat → Nat → Addr) (t nestable : Table Addr)
    (name : GoStr) (h : t.sortKeys = []) : nest P H srt lower nt t nestable name = ((t, nestable), .err .noSortKeys) := by
  simp [nest, h, setSortKeysFromTable]

/-! ## Examples -/

/-- Key `k`: 5, 2. -/
def Ex.nestA : Table Addr := Op.run newNilTable
  [.setName (gs! "a"), .appendCol (fun _ _ => 0) (gs! "k") (gs! "int"), .appendRows (fun _ _ => 0) 2, .setVal (gs! "k") 0 (.int .int 5),
   .setVal (gs! "k") 1 (.int .int 2), .setSortKeys [gs! "k"]]

/-- (`s`, `k`): ("x", 5), ("y", 2), ("z", 5), ("", 0). -/
def Ex.nestB : Table Addr := Op.run newNilTable
  [.setName (gs! "b"), .appendCol (fun _ _ => 0) (gs! "s") (gs! "string"), .appendCol (fun _ _ => 0) (gs! "k") (gs! "int"), .appendRows (fun _ _ => 0) 4,
   .setVal (gs! "k") 0 (.int .int 5), .setVal (gs! "k") 1 (.int .int 2), .setVal (gs! "k") 2 (.int .int 5),
   .setVal (gs! "s") 0 (.str (gs! "x")), .setVal (gs! "s") 1 (.str (gs! "y")), .setVal (gs! "s") 2 (.str (gs! "z"))]

theorem Ex.nestA_wf : WF Ex.nestA := C01_history _ WF.newNilTable _ (by simp [Op.ArgsOK, Cell.Real, IntKind.lo, IntKind.hi])
theorem Ex.nestB_wf : WF Ex.nestB := C01_history _ WF.newNilTable _ (by simp [Op.ArgsOK, Cell.Real, IntKind.lo, IntKind.hi])

theorem Ex.intCol {t : Table Addr} (h : WF t) {n : GoStr} (hc : HasColT t n .int) (r : Nat) (v : Cell Addr) (hv : At t n r v) : ¬ v.IsNaN := by
  have := C01_cell_types t h n .int r v hc hv
  cases v <;> simp_all [Cell.HasType, Cell.IsNaN]

-- the hypotheses are met
example : NestInput Ex.nestA Ex.nestB (gs! "part") := by
  have hk : Ex.nestA.sortKeys = [{ colName := gs! "k", colType := .int, reverse := false }] := by decide +kernel
  have hA : HasColT Ex.nestA (gs! "k") .int := ⟨0, by decide +kernel, by decide +kernel⟩
  have hB : HasColT Ex.nestB (gs! "k") .int := ⟨1, by decide +kernel, by decide +kernel⟩
  refine ⟨Ex.nestA_wf, Ex.nestB_wf, by rw [hk]; simp, ?_, ?_, ?_, ?_, by decide +kernel, by unfold Ascii; decide, by decide +kernel, by decide +kernel, ?_⟩
  · rw [hk]; intro a ha b hb _; rw [List.mem_singleton.1 ha, List.mem_singleton.1 hb]
  · rw [hk]; intro a ha; rw [List.mem_singleton.1 ha]; exact ⟨hA, hB⟩
  · rw [hk]; intro a ha; rw [List.mem_singleton.1 ha]; exact Ex.intCol Ex.nestA_wf hA
  · rw [hk]; intro a ha; rw [List.mem_singleton.1 ha]; exact Ex.intCol Ex.nestB_wf hB
  · have hr : Ex.nestB.rows = [[.str (gs! "x"), .int .int 5], [.str (gs! "y"), .int .int 2], [.str (gs! "z"), .int .int 5], [.str [], .int .int 0]] := by
      decide +kernel
    have ht : Ex.nestB.colTypes = [.string, .int] := by decide +kernel
    rw [hr, ht]
    intro row hrow
    simp only [List.mem_cons, List.not_mem_nil, or_false] at hrow
    rcases hrow with rfl | rfl | rfl | rfl <;> simp [Pointwise, TextSafe]

example : let r := nest Ex.env [] (insertionSort _) Ex.asciiLower (fun _ _ => 0) Ex.nestA Ex.nestB (gs! "part")
    r.2 = .ok () ∧ r.1.1.rows = [[.int .int 2, .str (gs! "[part]\ns k\nstring int\n\"y\" 2\n")],
      [.int .int 5, .str (gs! "[part]\ns k\nstring int\n\"z\" 5\n\"x\" 5\n")]] := by decide +kernel

-- a row without a match: an error, and the new column is left behind
example : let r := nest Ex.env [] (insertionSort _) Ex.asciiLower (fun _ _ => 0) ((Ex.nestA.setVal (gs! "k") 0 (.int .int 7)).1) Ex.nestB (gs! "part")
    r.2 = .err .notFound ∧ r.1.1.colNames = [gs! "k", gs! "part"] := by decide +kernel

end Verif
