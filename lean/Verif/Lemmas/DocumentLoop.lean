import Verif.Lemmas.Document

/-!
# Lemmas: blocks of lines and whole texts
-/

namespace Verif
open Table

theorem BlockReads.length {env : TextEnv} {H : Heap} {last : Bool} {ls : List GoStr} {n : GoStr} {H' : Heap} (h : BlockReads env H last ls n H') : H.length < H'.length := by
  cases h with
  | bare _ => simp
  | lost _ _ _ => simp
  | table _ _ _ _ _ hr => have := hr.length; simp at this; omega
  | struct _ _ _ _ _ => simp
  | values _ _ hr => have := hr.length; simp at this; omega

theorem BlockReads.name {env : TextEnv} {H : Heap} {last : Bool} {ls : List GoStr} {n : GoStr} {H' : Heap} (h : BlockReads env H last ls n H') :
    TableName n ∧ ∃ bl, ls = (91 :: n ++ [93]) :: bl := by
  cases h with
  | bare hn => exact ⟨hn, _, rfl⟩
  | lost hn _ _ => exact ⟨hn, _, rfl⟩
  | table hn _ _ _ _ hr => exact ⟨hn, _, rfl⟩
  | struct hn _ _ _ _ => exact ⟨hn, _, rfl⟩
  | values hn _ hr => exact ⟨hn, _, rfl⟩

theorem block_sound {env : TextEnv} (hF : NanOK env.float) {H : Heap} {n : GoStr} (hn : TableName n) (ms : List GoStr) (hclean : ∀ m ∈ ms, Clean m) (p : PState)
    (he : p.expecting = .colNames) (hs : p.shape = .undefined) (hh : p.heap = H ++ [readTableOf n [] [] false]) (ha : p.table = H.length)
    (q : PState) (h : runTrimmed env p ms = .ok q) :
    ∃ bl rest p', ms = bl ++ rest ∧ (∀ l ∈ bl, l ≠ []) ∧ BlockEnd rest ∧ BlockReads env H rest.isEmpty ((91 :: n ++ [93]) :: bl) n p'.heap ∧
      runTrimmed env p' rest = .ok q ∧ p'.set = p.set ∧ p'.nameSet = p.nameSet ∧ (p'.expecting ≠ .colTypes ∨ rest = []) := by
  have htab : p.heap[p.table]? = some (readTableOf n [] [] false) := by rw [hh, ha]; simp
  match ms, hclean, h with
  | [], _, h => exact ⟨[], [], p, rfl, by simp, .inl rfl, hh ▸ .bare hn, h, rfl, rfl, .inr rfl⟩
  | m :: ms, hclean, h =>
    by_cases hm : m = []
    · subst hm
      exact ⟨[], [] :: ms, p, rfl, by simp, .inr ⟨_, rfl⟩, hh ▸ .bare hn, h, rfl, rfl, .inl (by rw [he]; simp)⟩
    have hcm := hclean m (by simp)
    have hcl : ∀ x ∈ ms, Clean x := fun x hx => hclean x (by simp [hx])
    cases hsh : getTableShape (whiteSplit m) with
    | err e =>
      rw [runTrimmed_names he hcm hm] at h
      simp [stepColNames, hs, hsh, Out.bind] at h
    | panic =>
      rw [runTrimmed_names he hcm hm] at h
      simp [stepColNames, hs, hsh, Out.bind] at h
    | ok x =>
      obtain ⟨sh, hd⟩ := x
      have hcases := getTableShape_cases hsh
      by_cases htb : sh = .table
      · subst htb
        rw [runTrimmed_table he hs hcm hm hsh] at h
        split at h
        · next hall =>
          have hw := (words_iff (hcm.2.2 hm) _).2 rfl
          have hall' : ∀ x ∈ whiteSplit m, ColName x := fun x hx => (colName_iff x).2 (List.all_eq_true.1 hall x hx)
          match ms, hcl, h with
          | [], _, h =>
            refine ⟨[m], [], _, rfl, by simpa using hm, .inl rfl, ?_, h, rfl, rfl, .inr rfl⟩
            simp only [hh]
            exact .lost hn hw hall'
          | m2 :: ms, hcl, h =>
            by_cases hm2 : m2 = []
            · subst hm2
              rw [runTrimmed_blankTypes rfl] at h
              simp at h
            · have hcm2 := hcl m2 (by simp)
              rw [runTrimmed_types rfl hcm2 hm2] at h
              obtain ⟨p2, h1, h2⟩ := Out.bind_ok h
              obtain ⟨cols, hc1, hc2, hc3, hc4, rfl⟩ := (stepColTypes_iff hn (by exact hh) (by exact ha) _ _).1 h1
              simp only at hc1
              have hw2 := (words_iff (hcm2.2.2 hm2) _).2 rfl
              have hg : (H ++ [readTableOf n cols [] false])[p.table]? = some (readTableOf n cols [] false) := by rw [ha]; simp
              obtain ⟨rl, rest, H', rfl, h3, h4, h5, h6⟩ := rows_sound hF ms (fun x hx => hcl x (by simp [hx])) _ (readTableOf n cols [] false) rfl hg
                (by simp only [hc2, readTableOf, List.map_map]; rfl) (by simp only; rw [hc1, hc2]; simp) q h2
              simp only [ha] at h5
              refine ⟨m :: m2 :: rl, rest, _, rfl, ?_, h4, .table hn (hc1 ▸ hw) (hc2 ▸ hw2) hc3 hc4 h5, h6, rfl, rfl, .inl (by simp)⟩
              intro l hl
              rcases List.mem_cons.1 hl with rfl | hl
              · exact hm
              · rcases List.mem_cons.1 hl with rfl | hl
                · exact hm2
                · exact h3 l hl
        · simp at h
      · rcases hcases with e | ⟨rfl, rfl, c, ty, hws, hc⟩ | ⟨rfl, rfl, c, ty, w, more, hws, hc⟩
        · exact absurd e htb
        · rw [runTrimmed_shape he hs hcm hm hsh, runTrimmed_struct (p := { p with shape := .struct, structHasRowData := false }) he rfl hcm hm] at h
          obtain ⟨p2, h1, h2⟩ := Out.bind_ok h
          obtain ⟨c', ty', more, hw, h3, _, rfl⟩ := (stepStruct_field_iff (p := { p with shape := .struct, structHasRowData := false }) hn (by simp) (by simp) hh ha rfl m _ p2).1 h1
          rw [hws] at hw
          simp only [List.cons.injEq] at hw
          obtain ⟨rfl, e2, rfl⟩ := hw
          have e3 := ofName?_name ty
          rw [e2, ofName?_name] at e3
          simp only [Option.some.injEq] at e3
          subst e3
          obtain ⟨fl, rest, new, rfl, h5, h6, h7, h8, h9⟩ := fields_sound hn ms hcl [(c, ty')] (by simpa using hc) (by simp)
            { p with shape := .struct, structHasRowData := false, heap := H ++ [readTableOf n [(c, ty')] [] true] } he rfl rfl rfl ha q h2
          refine ⟨m :: fl, rest, _, rfl, ?_, h6, .struct (col := (c, ty')) hn hc ((words_iff (hcm.2.2 hm) _).2 hws) h7 h8, h9, rfl, rfl, .inl (by simp [he])⟩
          intro l hl
          rcases List.mem_cons.1 hl with rfl | hl
          · exact hm
          · exact h5 l hl
        · rw [runTrimmed_shape he hs hcm hm hsh] at h
          obtain ⟨fl, rest, H', h1, h2, h3, h4, h5⟩ := values_sound hF hn (m :: ms) hclean [] (by simp) (by simp) [] (by simp [RowOK]) false
            { p with shape := .struct, structHasRowData := true } he rfl rfl htab q h
          cases fl with
          | nil =>
            rcases h3 with rfl | ⟨r, rfl⟩
            · simp at h1
            · simp only [List.nil_append, List.cons.injEq] at h1
              exact absurd h1.1 hm
          | cons l fl =>
            simp only [List.cons_append, List.cons.injEq] at h1
            obtain ⟨rfl, rfl⟩ := h1
            simp only [ha, hh] at h4
            exact ⟨m :: fl, rest, _, rfl, h2, h3, .values hn ((words_iff (hcm.2.2 hm) _).2 hws) h4, h5, rfl, rfl, .inl (by simp [he])⟩

theorem block_complete {env : TextEnv} (hF : NanOK env.float) {H : Heap} {n : GoStr} {bl rest : List GoStr} {H' : Heap}
    (hb : BlockReads env H rest.isEmpty ((91 :: n ++ [93]) :: bl) n H') (hclean : ∀ m ∈ bl, Clean m) (hne : ∀ m ∈ bl, m ≠ []) (p : PState)
    (he : p.expecting = .colNames) (hs : p.shape = .undefined) (hh : p.heap = H ++ [readTableOf n [] [] false]) (ha : p.table = H.length) :
    ∃ p', runTrimmed env p (bl ++ rest) = runTrimmed env p' rest ∧ p'.heap = H' ∧ p'.set = p.set ∧ p'.nameSet = p.nameSet ∧ (p'.expecting ≠ .colTypes ∨ rest = []) := by
  generalize hbl : (91 :: n ++ [93]) :: bl = ls at hb
  generalize hlast : rest.isEmpty = last at hb
  cases hb with
  | bare hn =>
    simp only [List.cons.injEq, true_and] at hbl
    subst hbl
    exact ⟨p, rfl, hh, rfl, rfl, .inl (by rw [he]; simp)⟩
  | @lost _ l ns hn hw hall =>
    simp only [List.cons.injEq, true_and] at hbl
    subst hbl
    have hcl := hclean l (by simp)
    have hl := hne l (by simp)
    have hrest : rest = [] := by simpa using hlast
    subst hrest
    have hv : ∀ x ∈ ns, isValidColName x = true := fun x hx => (colName_iff x).1 (hall x hx)
    cases ns with
    | nil => exact absurd hw (by rintro ⟨⟩)
    | cons x xs =>
      obtain ⟨b, hsh⟩ := getTableShape_names x xs hv
      rw [← hw.split] at hsh
      refine ⟨{ p with shape := .table, structHasRowData := b, colNames := whiteSplit l, expecting := .colTypes }, ?_, ?_, ?_, ?_, .inr rfl⟩
      · rw [List.append_nil, runTrimmed_table he hs hcl hl hsh, if_pos (by rw [hw.split]; simpa using hv)]
      · exact hh
      · rfl
      · rfl
  | @table _ _ l1 l2 cols rows _ hn hw1 hw2 hc hnd hr =>
    simp only [List.cons.injEq, true_and] at hbl
    subst hbl
    have hcl1 := hclean l1 (by simp)
    have hl1 := hne l1 (by simp)
    have hcl2 := hclean l2 (by simp)
    have hl2 := hne l2 (by simp)
    have hv : ∀ x ∈ cols.map Prod.fst, isValidColName x = true := by
      intro x hx
      obtain ⟨c, hc1, rfl⟩ := List.mem_map.1 hx
      exact (colName_iff _).1 (hc c hc1)
    cases hns : cols.map Prod.fst with
    | nil => rw [hns] at hw1; exact absurd hw1 (by rintro ⟨⟩)
    | cons x xs =>
      obtain ⟨b, hsh⟩ := getTableShape_names x xs (hns ▸ hv)
      rw [← hns, ← hw1.split] at hsh
      have hstep := (stepColTypes_iff (p := { p with shape := .table, structHasRowData := b, colNames := whiteSplit l1, expecting := .colTypes }) hn hh ha (whiteSplit l2) _).2
        ⟨cols, hw1.split, hw2.split, hc, hnd, rfl⟩
      have hg : (H ++ [readTableOf n cols [] false])[p.table]? = some (readTableOf n cols [] false) := by rw [ha]; simp
      refine ⟨{ p with shape := .table, structHasRowData := b, colNames := whiteSplit l1, expecting := .colRows, colTypes := whiteSplit l2, heap := H' },
        ?_, ?_, ?_, ?_, .inl ?_⟩
      · rw [List.cons_append, List.cons_append, runTrimmed_table he hs hcl1 hl1 hsh, if_pos (by rw [hw1.split, List.all_eq_true]; exact hv),
          runTrimmed_types rfl hcl2 hl2, hstep]
        exact rows_complete hF hr (fun x hx => hclean x (by simp [hx])) (fun x hx => hne x (by simp [hx]))
          { p with shape := .table, structHasRowData := b, colNames := whiteSplit l1, expecting := .colRows, colTypes := whiteSplit l2,
                   heap := H ++ [readTableOf n cols [] false] } rfl ha rfl (by rw [← ha]; exact hg)
          (by simp only [hw2.split, readTableOf, List.map_map]; rfl) (by simp only; rw [hw1.split, hw2.split]; simp) rest
      · rfl
      · rfl
      · rfl
      · simp
  | @struct _ _ l col ls cols hn hc hw hp hnd =>
    simp only [List.cons.injEq, true_and] at hbl
    subst hbl
    have hcl := hclean l (by simp)
    have hl := hne l (by simp)
    have hsh := getTableShape_struct hc col.2
    rw [← hw.split] at hsh
    have hstep := (stepStruct_field_iff (env := env) (p := { p with shape := .struct, structHasRowData := false }) hn (cols := []) (by simp) (by simp) hh ha rfl l (whiteSplit l) _).2
        ⟨col.1, col.2, [], hw.split, hc, by simp, rfl⟩
    refine ⟨{ p with shape := .struct, structHasRowData := false, heap := H ++ [readTableOf n (col :: cols) [] true] }, ?_, ?_, ?_, ?_, .inl ?_⟩
    · rw [List.cons_append, runTrimmed_shape he hs hcl hl hsh, runTrimmed_struct (p := { p with shape := .struct, structHasRowData := false }) he rfl hcl hl, hstep]
      exact fields_complete hn ls cols hp (fun x hx => hclean x (by simp [hx])) (fun x hx => hne x (by simp [hx])) [col] (by simpa using hc) (by simpa using hnd)
        { p with shape := .struct, structHasRowData := false, heap := H ++ [readTableOf n [col] [] true] } he rfl rfl rfl ha rest
    · rfl
    · rfl
    · rfl
    · simp [he]
  | @values _ _ l c ty w more ls _ hn hw hr =>
    simp only [List.cons.injEq, true_and] at hbl
    subst hbl
    have hcl := hclean l (by simp)
    have hl := hne l (by simp)
    have hc : ColName c := by
      cases hr with
      | cons h3 hw' _ _ _ _ =>
        have := hw.split.symm.trans hw'.split
        simp only [List.cons.injEq] at this
        rw [this.1]; exact h3
    have hsh := getTableShape_value hc ty w more
    rw [← hw.split] at hsh
    refine ⟨{ p with shape := .struct, structHasRowData := true, heap := H' }, ?_, ?_, ?_, ?_, .inl ?_⟩
    · rw [List.cons_append, runTrimmed_shape he hs hcl hl hsh, ← List.cons_append]
      exact values_complete hF hn hr hclean hne (by simp) (by simp) (by simp [RowOK]) false { p with shape := .struct, structHasRowData := true } he rfl rfl hh ha
        (by simp [structRows]) rest
    · rfl
    · rfl
    · rfl
    · simp [he]

/-! ## Whole texts -/

theorem doc_sound {env : TextEnv} (hF : NanOK env.float) (k : Nat) (ms : List GoStr) (hk : ms.length ≤ k) (hclean : ∀ m ∈ ms, Clean m) (p : PState)
    (he : p.expecting = .tableName) (hb : ∀ b ∈ p.set.tables, b < p.heap.length) (q : PState) (h : runTrimmed env p ms = .ok q) :
    DocReads env p.heap p.set p.nameSet ms q.heap q.set := by
  induction k generalizing ms p with
  | zero =>
    match ms, hk, h with
    | [], _, h =>
      simp only [runTrimmed, Out.ok.injEq] at h
      subst h
      exact .nil
  | succ k ih =>
    match ms, hk, hclean, h with
    | [], _, _, h =>
      simp only [runTrimmed, Out.ok.injEq] at h
      subst h
      exact .nil
    | m :: ms, hk, hclean, h =>
      simp only [List.length_cons] at hk
      have hcl : ∀ x ∈ ms, Clean x := fun x hx => hclean x (by simp [hx])
      by_cases hm : m = []
      · subst hm
        rw [runTrimmed_blank (by rw [he]; simp)] at h
        exact .blank (ih ms (by omega) hcl { p with expecting := .tableName } rfl hb h)
      · rw [runTrimmed_line (hclean m (by simp)) hm, he] at h
        obtain ⟨r, h1, h2⟩ := Out.bind_ok h
        rcases (stepTableName_iff hb m r).1 h1 with ⟨hset, n, hn, rfl, rfl⟩ | ⟨n, hn, rfl, hfresh, rfl⟩
        · rw [hset]
          exact .name hn (ih ms (by omega) hcl { p with set := { p.set with name := n }, nameSet := true } he hb h2)
        · obtain ⟨bl, rest, p', rfl, h3, h4, h5, h6, h7, h8, h9⟩ := block_sound hF (H := p.heap) hn ms hcl _ rfl rfl rfl rfl q h2
          simp only at h7 h8
          have hlen := h5.length
          refine .table (ls := (91 :: n ++ [93]) :: bl) h5 ?_ h4 hfresh ?_
          · intro l hl
            rcases List.mem_cons.1 hl with rfl | hl
            · exact hm
            · exact h3 l hl
          · rw [← h7, ← h8]
            rcases h4 with rfl | ⟨more, rfl⟩
            · simp only [runTrimmed, Out.ok.injEq] at h6
              subst h6
              exact .nil
            · have h9 : p'.expecting ≠ .colTypes := h9.resolve_right (by simp)
              rw [runTrimmed_blank h9] at h6
              refine .blank (ih more ?_ (fun x hx => hcl x (by simp [hx])) { p' with expecting := .tableName } rfl ?_ h6)
              · simp only [List.length_append, List.length_cons] at hk
                omega
              · simp only [h7, List.mem_append, List.mem_singleton]
                rintro b (hb' | rfl)
                · exact Nat.lt_trans (hb b hb') hlen
                · exact hlen

theorem doc_complete {env : TextEnv} (hF : NanOK env.float) {H : Heap} {set : TableSet} {named : Bool} {ms : List GoStr} {H' : Heap} {set' : TableSet}
    (h : DocReads env H set named ms H' set') (hclean : ∀ m ∈ ms, Clean m) (p : PState)
    (he : ms = [] ∨ (∃ more, ms = [] :: more ∧ p.expecting ≠ .colTypes) ∨ p.expecting = .tableName) (hb : ∀ b ∈ set.tables, b < H.length)
    (hh : p.heap = H) (hset : p.set = set) (hnm : p.nameSet = named) :
    ∃ q, runTrimmed env p ms = .ok q ∧ q.heap = H' ∧ q.set = set' := by
  induction h generalizing p with
  | nil => exact ⟨p, rfl, hh, hset⟩
  | @blank H set named ls H' set' _ ih =>
    have he' : p.expecting ≠ .colTypes := by
      rcases he with e | ⟨_, _, e⟩ | e
      · simp at e
      · exact e
      · rw [e]; simp
    rw [runTrimmed_blank he']
    exact ih (fun x hx => hclean x (by simp [hx])) { p with expecting := .tableName } (.inr (.inr rfl)) hb hh hset hnm
  | @name H set n ls H' set' hn _ ih =>
    have he' : p.expecting = .tableName := by
      rcases he with e | ⟨_, e, _⟩ | e
      · simp at e
      · simp at e
      · exact e
    subst hh hset
    rw [runTrimmed_line (hclean _ (by simp)) (by simp), he']
    simp only
    rw [(stepTableName_iff hb _ _).2 (.inl ⟨hnm, n, hn, rfl, rfl⟩)]
    exact ih (fun x hx => hclean x (by simp [hx])) { p with set := { p.set with name := n }, nameSet := true } (.inr (.inr he')) hb rfl rfl rfl
  | @table H set named ls n H1 rest H' set' hblock hne hend hfresh hrest ih =>
    obtain ⟨hn, bl, rfl⟩ := hblock.name
    have he' : p.expecting = .tableName := by
      rcases he with e | ⟨_, e, _⟩ | e
      · simp at e
      · simp at e
      · exact e
    subst hh hset
    have hlen := hblock.length
    rw [List.cons_append, runTrimmed_line (hclean _ (by simp)) (by simp), he']
    simp only
    rw [(stepTableName_iff hb _ _).2 (.inr ⟨n, hn, rfl, hfresh, rfl⟩)]
    obtain ⟨p', h1, h2, h3, h4, h5⟩ := block_complete hF (rest := rest) hblock (fun x hx => hclean x (by simp [hx])) (fun x hx => hne x (by simp [hx]))
      { p with heap := p.heap ++ [readTableOf n [] [] false], set := { p.set with tables := p.set.tables ++ [p.heap.length] }, table := p.heap.length,
               shape := .undefined, expecting := .colNames } rfl rfl rfl rfl
    simp only [Out.bind]
    rw [h1]
    refine ih (fun x hx => hclean x (by simp [hx])) p' ?_ ?_ h2 h3 (h4.trans hnm)
    · rcases hend with rfl | ⟨more, rfl⟩
      · exact .inl rfl
      · exact .inr (.inl ⟨more, rfl, h5.resolve_right (by simp)⟩)
    · simp only [List.mem_append, List.mem_singleton]
      rintro b (hb' | rfl)
      · exact Nat.lt_trans (hb b hb') hlen
      · exact hlen

theorem textReads_iff {env : TextEnv} (hF : NanOK env.float) (H : Heap) (s : GoStr) (H' : Heap) (set : TableSet) :
    newTableSetFromString env H s = .ok (H', set) ↔ TextReads env H s H' set := by
  have hne : splitLines s ≠ [] := splitLines_ne s
  have hlines := LinesOf.split s
  have hclean := clean_content hlines.noNewline
  have key : newTableSetFromString env H s = .ok (H', set) ↔ DocReads env H (newTableSet []) false (withoutComments ((splitLines s).map trimSpace)) H' set := by
    unfold newTableSetFromString
    rw [parseLines_trimmed env _ _ hne]
    constructor
    · intro h
      obtain ⟨q, h1, h2⟩ := Out.bind_ok h
      simp only [Out.ok.injEq, Prod.mk.injEq] at h2
      obtain ⟨rfl, rfl⟩ := h2
      exact doc_sound hF _ _ (Nat.le_refl _) hclean (startState H) rfl (by simp [startState, newTableSet]) q h1
    · intro h
      obtain ⟨q, h1, rfl, rfl⟩ := doc_complete hF h hclean (startState H) (.inr (.inr rfl)) (by simp [newTableSet]) rfl rfl rfl
      rw [h1]
      rfl
  rw [key]
  constructor
  · intro h
    exact ⟨_, _, hlines, (pointwise_trimmed _ _).2 rfl, h⟩
  · rintro ⟨ls, ms, h1, h2, h3⟩
    rw [(pointwise_trimmed _ _).1 h2, ← h1.splitLines] at h3
    exact h3

end Verif
