import Verif.Lemmas.DocumentLines

/-!
# Lemmas: the steps of the parser, one line at a time
-/

namespace Verif
open Table

/-! ## Names of tables and table sets -/

theorem noSpace_plain {n : GoStr} (h : PlainName n) {a b : GoStr} (ha : ∀ c ∈ a, c = 91) (hb : ∀ c ∈ b, c = 93) : hasSpace 0 (a ++ n ++ b) = false := by
  refine hasSpace_ascii _ fun c hc => ?_
  rcases List.mem_append.1 hc with hc | hc
  · rcases List.mem_append.1 hc with hc | hc
    · rw [ha c hc]; decide
    · exact ⟨h.ascii c hc, (nameByte_facts c ((isValidName_bytes h.valid).2 c hc)).2.2.2.2⟩
  · rw [hb c hc]; decide

theorem scanName_close (cs n rest : GoStr) : scanName cs = some (n, 93 :: rest) ↔ cs = n ++ 93 :: rest ∧ PlainName n := by
  have h := scanTableName_iff (91 :: cs) n rest
  have e : scanTableName (91 :: cs) = some (n, rest) ↔ scanName cs = some (n, 93 :: rest) := by
    simp only [scanTableName]
    split
    · next n' rest' hs =>
      rw [hs]
      simp
    · next hs =>
      constructor
      · intro h; simp at h
      · intro h
        exact absurd h (hs n rest)
  rw [← e, h]
  simp

theorem getTableSetName_iff (line n : GoStr) : getTableSetName line = some n ↔ PlainName n ∧ line = 91 :: 91 :: n ++ [93, 93] := by
  constructor
  · intro h
    unfold getTableSetName at h
    split at h
    · simp at h
    · split at h
      · next cs =>
        split at h
        · next n' hs =>
          simp only [Option.some.injEq] at h
          subst h
          obtain ⟨e, hn⟩ := (scanName_close _ _ _).1 hs
          exact ⟨hn, by rw [e]; rfl⟩
        · simp at h
      · simp at h
  · rintro ⟨hn, rfl⟩
    have hs := noSpace_plain hn (a := [91, 91]) (b := [93, 93]) (by simp) (by simp)
    have hs' : hasSpace 0 (91 :: 91 :: (n ++ [93, 93])) = false := by simpa using hs
    simp only [getTableSetName, List.cons_append, hs', Bool.false_eq_true, if_false]
    rw [(scanName_close (n ++ [93, 93]) n [93]).2 ⟨rfl, hn⟩]
    rfl

theorem getTableName_iff (line n : GoStr) : getTableName line = .ok n ∧ isValidTableName n = true ↔ TableName n ∧ line = 91 :: n ++ [93] := by
  constructor
  · rintro ⟨h, hv⟩
    unfold getTableName at h
    split at h
    · simp at h
    · split at h
      · simp at h
      · next x hs =>
        obtain ⟨m, rest⟩ := x
        obtain ⟨rfl, hm⟩ := (scanTableName_iff _ _ _).1 hs
        simp only [List.cons_append, List.drop_succ_cons, List.drop_zero, Out.ok.injEq] at h
        have hr : rest = [] := by
          cases rest with
          | nil => rfl
          | cons r rs =>
            have hmem : 93 ∈ n := by
              rw [← h, List.dropLast_append_of_ne_nil (by simp), List.dropLast_cons_of_ne_nil (by simp)]
              simp
            exact absurd ((isValidName_bytes (isValidTableName_name hv)).2 93 hmem) (by decide)
        subst hr
        have : m = n := by rw [← h]; simp
        subst this
        refine ⟨⟨hm, (ofName?_none_iff m).1 ?_⟩, rfl⟩
        unfold isValidTableName at hv
        split at hv
        · simp at hv
        · simp only [Bool.and_eq_true, Option.isNone_iff_eq_none] at hv
          exact hv.2
  · rintro ⟨hn, rfl⟩
    exact ⟨getTableName_header hn.valid hn.1.ascii, hn.valid⟩

theorem readTableOf_new (n : GoStr) : readTableOf n [] [] false = { (newNilTable : Table Addr) with name := n, isNilTable := false } := rfl

theorem stepTableName_iff {p : PState} (hb : ∀ b ∈ p.set.tables, b < p.heap.length) (line : GoStr) (r : PState × Bool) :
    stepTableName p line = .ok r ↔
      (p.nameSet = false ∧ ∃ n, PlainName n ∧ line = 91 :: 91 :: n ++ [93, 93] ∧ r = ({ p with set := { p.set with name := n }, nameSet := true }, true)) ∨
      ∃ n, TableName n ∧ line = 91 :: n ++ [93] ∧ (∀ b ∈ p.set.tables, nameAt p.heap b ≠ n) ∧
        r = ({ p with heap := p.heap ++ [readTableOf n [] [] false], set := { p.set with tables := p.set.tables ++ [p.heap.length] }, table := p.heap.length,
                      shape := .undefined, expecting := .colNames }, false) := by
  constructor
  · intro h
    unfold stepTableName at h
    split at h
    · next n hn =>
      cases hs : p.nameSet with
      | true => rw [hs] at hn; simp at hn
      | false =>
        rw [hs] at hn
        simp only [Bool.false_eq_true, if_false] at hn
        obtain ⟨h1, h2⟩ := (getTableSetName_iff _ _).1 hn
        simp only [Out.ok.injEq] at h
        exact .inl ⟨rfl, n, h1, h2, h.symm⟩
    · obtain ⟨n, hn, h⟩ := Out.bind_ok h
      obtain ⟨t, ht, h⟩ := Out.bind_ok h
      have hv : isValidTableName n = true := by
        cases hv : isValidTableName n with
        | true => rfl
        | false => rw [newTable_err hv] at ht; simp at ht
      rw [newTable_eq hv] at ht
      simp only [Out.ok.injEq] at ht
      subst ht
      obtain ⟨h1, h2⟩ := (getTableName_iff _ _).1 ⟨hn, hv⟩
      have hname : nameAt (p.heap ++ [{ (newNilTable : Table Addr) with name := n, isNilTable := false }]) p.heap.length = n := by simp [nameAt]
      have hset : setNames (p.heap ++ [{ (newNilTable : Table Addr) with name := n, isNilTable := false }]) p.set = setNames p.heap p.set := by
        refine setNames_congr fun a ha => ?_
        simp only [nameAt]
        rw [List.getElem?_append_left (hb a ha)]
      have happ := C31_appendTable (p.heap ++ [{ (newNilTable : Table Addr) with name := n, isNilTable := false }]) p.set p.heap.length
      rw [hname, hset] at happ
      by_cases hm : n ∈ setNames p.heap p.set
      · obtain ⟨e, he⟩ := happ.1 hm
        simp only [he] at h
        simp at h
      · simp only [happ.2 hm, Out.ok.injEq] at h
        refine .inr ⟨n, h1, h2, fun b hbm e => hm ?_, h.symm⟩
        rw [← e]
        exact List.mem_map_of_mem hbm
  · rintro (⟨hs, n, hn, hl, rfl⟩ | ⟨n, hn, rfl, hnew, rfl⟩)
    · have := (getTableSetName_iff line n).2 ⟨hn, hl⟩
      unfold stepTableName
      rw [hs, this]
      rfl
    · refine stepTableName_header hn.valid hn.1.ascii hb ?_
      intro hm
      obtain ⟨b, hbm, e⟩ := List.mem_map.1 hm
      exact hnew b hbm e

/-! ## Columns -/

theorem GoMap.insert_fresh (m : GoMap) (k : GoStr) (v : Nat) (h : k ∉ m.map Prod.fst) : m.insert k v = m ++ [(k, v)] := by
  induction m with
  | nil => rfl
  | cons x m ih =>
    obtain ⟨k', v'⟩ := x
    simp only [List.map_cons, List.mem_cons, not_or] at h
    simp only [GoMap.insert, if_neg (Ne.symm h.1), ih h.2, List.cons_append]

/-- Appending a column to a table as it is read. -/
theorem appendColAt_iff {H : Heap} {a : Addr} {n : GoStr} {cols : List (GoStr × ColType)} {rows : List (List (Cell Addr))} {b : Bool}
    (ht : H[a]? = some (readTableOf n cols rows b)) (hw : WF (readTableOf n cols rows b)) (c tyn : GoStr) (H' : Heap) :
    appendColAt H a c tyn = .ok H' ↔
      ∃ ty : ColType, tyn = ty.name ∧ ColName c ∧ c ∉ cols.map Prod.fst ∧
        H' = H.set a (readTableOf n (cols ++ [(c, ty)]) (addZeroCol (fun _ r => H.length + r) cols.length ty rows) b) ++ List.replicate rows.length newNilTable := by
  have hres : ∀ ty : ColType, c ∉ cols.map Prod.fst →
      ({ readTableOf n cols rows b with
          colNames := (readTableOf n cols rows b).colNames ++ [c], colTypes := (readTableOf n cols rows b).colTypes ++ [ty],
          colMap := (readTableOf n cols rows b).colMap.insert c (readTableOf n cols rows b).colNames.length,
          rows := addZeroCol (fun _ r => H.length + r) (readTableOf n cols rows b).colNames.length ty (readTableOf n cols rows b).rows } : Table Addr) =
        readTableOf n (cols ++ [(c, ty)]) (addZeroCol (fun _ r => H.length + r) cols.length ty rows) b := by
    intro ty hc
    have hm : (cols.map Prod.fst).zipIdx.map Prod.fst = cols.map Prod.fst := by simp [List.zipIdx_map_fst]
    have hi : GoMap.insert ((cols.map Prod.fst).zipIdx : GoMap) c (cols.map Prod.fst).length = (cols.map Prod.fst).zipIdx ++ [(c, (cols.map Prod.fst).length)] :=
      GoMap.insert_fresh _ _ _ (by rw [hm]; exact hc)
    simp only [readTableOf, hi]
    simp only [List.map_append, List.map_cons, List.map_nil, List.zipIdx_append, List.length_map, List.zipIdx_singleton, Nat.zero_add]
  simp only [appendColAt, ht]
  rcases appendCol_cases (fun _ r => H.length + r) hw c tyn with ⟨ty, _, h1, h2, _, h3, e⟩ | ⟨hno, er, e⟩
  · have h2' : c ∉ cols.map Prod.fst := h2
    rw [e]
    simp only [Out.ok.injEq]
    rw [hres ty h2']
    constructor
    · intro h
      exact ⟨ty, h3, (colName_iff c).2 h1, h2', h.symm⟩
    · rintro ⟨ty', e', _, _, rfl⟩
      have : ty' = ty := by
        have h := ofName?_name ty'
        rw [← e', h3, ofName?_name] at h
        exact (Option.some.inj h).symm
      rw [this]
      rfl
  · rw [e]
    simp only [reduceCtorEq, false_iff]
    rintro ⟨ty, e', h1, h2, _⟩
    exact hno ⟨rfl, (colName_iff c).1 h1, h2, ty, by rw [e', ofName?_name]⟩

theorem GoMap.get?_zipIdx (l : List GoStr) (hnd : l.Nodup) (k : Nat) (n : GoStr) (i : Nat) :
    GoMap.get? (l.zipIdx k) n = some i ↔ k ≤ i ∧ l[i - k]? = some n := by
  induction l generalizing k with
  | nil => simp [GoMap.get?]
  | cons x l ih =>
    simp only [List.nodup_cons] at hnd
    simp only [List.zipIdx_cons, GoMap.get?]
    by_cases hx : x = n
    · subst hx
      simp only [if_true, Option.some.injEq]
      constructor
      · rintro rfl
        simp
      · rintro ⟨h1, h2⟩
        by_cases he : k = i
        · exact he
        · have : i - k = (i - k - 1) + 1 := by omega
          rw [this, List.getElem?_cons_succ] at h2
          exact absurd (List.mem_of_getElem? h2) hnd.1
    · rw [if_neg hx, ih hnd.2]
      constructor
      · rintro ⟨h1, h2⟩
        refine ⟨by omega, ?_⟩
        rw [show i - k = (i - (k + 1)) + 1 by omega, List.getElem?_cons_succ]
        exact h2
      · rintro ⟨h1, h2⟩
        by_cases he : k = i
        · subst he
          simp at h2
          exact absurd h2 hx
        · rw [show i - k = (i - (k + 1)) + 1 by omega, List.getElem?_cons_succ] at h2
          exact ⟨by omega, h2⟩

theorem WF.readTableOf {n : GoStr} {cols : List (GoStr × ColType)} (hn : TableName n) (hc : ∀ c ∈ cols, ColName c.1) (hnd : (cols.map Prod.fst).Nodup) (b : Bool)
    (rows : List (List (Cell Addr))) (hrows : ∀ row ∈ rows, RowOK (cols.map Prod.snd) row) : WF (readTableOf n cols rows b) where
  namesNodup := hnd
  namesValid := by
    intro x hx
    obtain ⟨c, hm, rfl⟩ := List.mem_map.1 hx
    exact (colName_iff _).1 (hc c hm)
  typesLen := by simp [Verif.readTableOf]
  mapKeys := by
    have : (Verif.readTableOf n cols rows b).colMap.map Prod.fst = cols.map Prod.fst := List.zipIdx_map_fst ..
    rw [this]
    exact hnd
  mapIff := by
    intro x i
    have := GoMap.get?_zipIdx (cols.map Prod.fst) hnd 0 x i
    rw [Nat.sub_zero] at this
    exact this.trans ⟨fun h => h.2, fun h => ⟨Nat.zero_le _, h⟩⟩
  rowsOK := hrows
  nilEmpty := by simp [Verif.readTableOf]
  nameValid := fun _ => hn.valid
  keysOK := by simp [Verif.readTableOf, Verif.newNilTable]

/-- Appending a column to a table without rows at the end of the memory. -/
theorem appendColAt_bare {H : Heap} {n : GoStr} {cols : List (GoStr × ColType)} {b : Bool} (hw : WF (readTableOf n cols [] b)) (c tyn : GoStr) (H' : Heap) :
    appendColAt (H ++ [readTableOf n cols [] b]) H.length c tyn = .ok H' ↔
      ∃ ty : ColType, tyn = ty.name ∧ ColName c ∧ c ∉ cols.map Prod.fst ∧ H' = H ++ [readTableOf n (cols ++ [(c, ty)]) [] b] := by
  rw [appendColAt_iff (n := n) (cols := cols) (rows := []) (b := b) (by simp) hw]
  simp [addZeroCol]

theorem appendCols_iff (H : Heap) (n : GoStr) (hn : TableName n) (b : Bool) (ps : List (GoStr × GoStr)) (cols : List (GoStr × ColType)) (hc : ∀ c ∈ cols, ColName c.1)
    (hnd : (cols.map Prod.fst).Nodup) (H' : Heap) :
    ps.foldl (fun (o : Out Heap) (p : GoStr × GoStr) => o.bind fun H1 => appendColAt H1 H.length p.1 p.2) (.ok (H ++ [readTableOf n cols [] b])) = .ok H' ↔
      ∃ new : List (GoStr × ColType), ps = new.map (fun c => (c.1, c.2.name)) ∧ (∀ c ∈ new, ColName c.1) ∧ ((cols ++ new).map Prod.fst).Nodup ∧
        H' = H ++ [readTableOf n (cols ++ new) [] b] := by
  induction ps generalizing cols with
  | nil =>
    simp only [List.foldl_nil, Out.ok.injEq]
    constructor
    · rintro rfl
      exact ⟨[], rfl, by simp, by simpa using hnd, by simp⟩
    · rintro ⟨new, e, _, _, rfl⟩
      have : new = [] := by cases new with
        | nil => rfl
        | cons => simp at e
      subst this
      simp
  | cons p ps ih =>
    simp only [List.foldl_cons, Out.bind]
    have hcol := appendColAt_bare (H := H) (WF.readTableOf hn hc hnd b [] (by simp)) p.1 p.2
    cases hx : appendColAt (H ++ [readTableOf n cols [] b]) H.length p.1 p.2 with
    | panic =>
      exfalso
      have hw := WF.readTableOf hn hc hnd b [] (by simp)
      simp only [appendColAt] at hx
      rw [show (H ++ [readTableOf n cols [] b])[H.length]? = some (readTableOf n cols [] b) by simp] at hx
      simp only at hx
      rcases appendCol_cases (fun _ r => (H ++ [readTableOf n cols [] b]).length + r) hw p.1 p.2 with ⟨ty, _, _, _, _, _, e⟩ | ⟨_, er, e⟩
      · rw [e] at hx; simp at hx
      · rw [e] at hx; simp at hx
    | err e =>
      have hf := foldErr H.length e ps
      simp only [Out.bind] at hf
      rw [hf]
      simp only [reduceCtorEq, false_iff]
      rintro ⟨new, e1, h1, h2, _⟩
      cases new with
      | nil => simp at e1
      | cons c new =>
        simp only [List.map_cons, List.cons.injEq] at e1
        have := (hcol (H ++ [readTableOf n (cols ++ [c]) [] b])).2 ⟨c.2, by rw [e1.1], by rw [e1.1]; exact h1 c (by simp), by
          rw [e1.1]
          rw [List.map_append, List.nodup_append] at h2
          intro hm
          exact h2.2.2 _ hm _ (by simp) rfl, by rw [e1.1]⟩
        rw [hx] at this
        simp at this
    | ok H1 =>
      obtain ⟨ty, e1, h1, h2, rfl⟩ := (hcol H1).1 hx
      have hc' : ∀ c ∈ cols ++ [(p.1, ty)], ColName c.1 := by
        intro c hm
        rcases List.mem_append.1 hm with hm | hm
        · exact hc c hm
        · simp only [List.mem_singleton] at hm
          rw [hm]; exact h1
      have hnd' : ((cols ++ [(p.1, ty)]).map Prod.fst).Nodup := by
        rw [List.map_append, List.nodup_append]
        refine ⟨hnd, by simp, ?_⟩
        intro x hx y hy
        simp only [List.map_cons, List.map_nil, List.mem_singleton] at hy
        rintro rfl
        exact h2 (hy ▸ hx)
      have := ih _ hc' hnd'
      simp only [Out.bind] at this
      rw [this]
      constructor
      · rintro ⟨new, rfl, h3, h4, rfl⟩
        refine ⟨(p.1, ty) :: new, ?_, ?_, ?_, ?_⟩
        · simp [← e1]
        · intro c hm
          rcases List.mem_cons.1 hm with rfl | hm
          · exact h1
          · exact h3 c hm
        · simpa using h4
        · simp
      · rintro ⟨new, e2, h3, h4, rfl⟩
        cases new with
        | nil => simp at e2
        | cons c new =>
          simp only [List.map_cons, List.cons.injEq] at e2
          have hty : ty = c.2 := by
            have h := ofName?_name ty
            rw [← e1, e2.1, ofName?_name] at h
            exact (Option.some.inj h).symm
          have hp : (p.1, ty) = c := by rw [hty, e2.1]
          refine ⟨new, e2.2, fun x hm => h3 x (by simp [hm]), ?_, ?_⟩
          · rw [hp]; simpa using h4
          · rw [hp]; simp

theorem stepColTypes_iff {p : PState} {H : Heap} {n : GoStr} (hn : TableName n) (hh : p.heap = H ++ [readTableOf n [] [] false]) (ha : p.table = H.length)
    (ws : List GoStr) (p' : PState) :
    stepColTypes p ws = .ok p' ↔
      ∃ cols : List (GoStr × ColType), p.colNames = cols.map Prod.fst ∧ ws = (cols.map fun c => c.2.name) ∧ (∀ c ∈ cols, ColName c.1) ∧ (cols.map Prod.fst).Nodup ∧
        p' = { p with heap := H ++ [readTableOf n cols [] false], colTypes := ws, expecting := .colRows } := by
  have hfold := appendCols_iff H n hn false (p.colNames.zip ws) [] (by simp) (by simp)
  constructor
  · intro h
    unfold stepColTypes at h
    split at h
    · simp at h
    · split at h
      · simp at h
      · next hl =>
        obtain ⟨H1, h1, h⟩ := Out.bind_ok h
        simp only [Out.ok.injEq] at h
        rw [appendColsAt, if_neg (by omega), hh, ha] at h1
        obtain ⟨new, e, h2, h3, rfl⟩ := (hfold H1).1 h1
        have e1 : p.colNames = new.map Prod.fst := by
          have := congrArg (List.map Prod.fst) e
          rw [List.map_fst_zip (by omega)] at this
          rw [this, List.map_map]
          rfl
        have e2 : ws = new.map fun c => c.2.name := by
          have := congrArg (List.map Prod.snd) e
          rw [List.map_snd_zip (by omega)] at this
          rw [this, List.map_map]
          rfl
        exact ⟨new, e1, e2, h2, by simpa using h3, by rw [← h]; simp⟩
  · rintro ⟨cols, e1, e2, h1, h2, rfl⟩
    have hl : p.colNames.length = ws.length := by rw [e1, e2]; simp
    have hall : ws.all (fun ty => (ColType.ofName? ty).isSome) = true := by
      rw [e2, List.all_map]
      simp [Function.comp_def, ofName?_name]
    unfold stepColTypes
    rw [hall, if_neg (by simp), if_neg (by omega), appendColsAt, if_neg (by omega), hh, ha]
    have := (hfold (H ++ [readTableOf n cols [] false])).2 ⟨cols, by
      rw [e1, e2]
      clear hfold e1 e2 hl hall h1 h2
      induction cols with
      | nil => rfl
      | cons c cols ih => simp only [List.map_cons, List.zip_cons_cons, ih], h1, by simpa using h2, by simp⟩
    rw [this]
    rfl

theorem stepColRows_iff {env : TextEnv} (hF : NanOK env.float) {p : PState} {t : Table Addr} (ht : p.heap[p.table]? = some t)
    (hty : p.colTypes = t.colTypes.map ColType.name) (hlen : p.colNames.length = p.colTypes.length) {line : GoStr} (hl : 10 ∉ line) (p' : PState) :
    stepColRows env p line = .ok p' ↔
      ∃ H1 cells, RowReads env p.table t.colTypes p.heap line H1 cells ∧ p' = { p with heap := H1.set p.table { t with rows := t.rows ++ [cells] } } := by
  have hrow := readRow_iff hF p.table p.colNames t.colTypes (by rw [hlen, hty]; simp) p.heap line hl
  rw [← hty] at hrow
  constructor
  · intro h
    obtain ⟨⟨H1, row⟩, h1, h⟩ := Out.bind_ok h
    have hr := (hrow H1 row).1 h1
    obtain ⟨⟨K, rfl⟩, hc⟩ := hr.grows
    have hg : (p.heap ++ K)[p.table]? = some t := by
      rw [List.getElem?_append_left (List.getElem?_eq_some_iff.1 ht).1, ht]
    simp only [hg] at h
    rw [if_neg (by rw [hty, hc]; simp)] at h
    simp only [Out.ok.injEq] at h
    exact ⟨_, row, hr, h.symm⟩
  · rintro ⟨H1, cells, hr, rfl⟩
    obtain ⟨⟨K, rfl⟩, hc⟩ := hr.grows
    have hg : (p.heap ++ K)[p.table]? = some t := by
      rw [List.getElem?_append_left (List.getElem?_eq_some_iff.1 ht).1, ht]
    unfold stepColRows
    rw [(hrow _ _).2 hr]
    simp only [Out.bind, hg]
    rw [if_neg (by rw [hty, hc]; simp)]

end Verif
