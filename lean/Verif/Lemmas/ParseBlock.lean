import Verif.Lemmas.Lines
import Verif.Lemmas.Parser
import Verif.Spec.Text

/-!
# Lemmas: the lines of a table are parsed to that table
-/

namespace Verif
open Table

/-- The steps of the loop for lines that are not the last ones. -/
def runLines (env : TextEnv) (p : PState) : List GoStr → Out PState
  | [] => .ok p
  | line :: rest => (step env p (trimSpace line)).bind fun (p', _) => runLines env p' rest

theorem parseLines_append (env : TextEnv) (p : PState) (ls rest : List GoStr) (h : rest ≠ []) :
    parseLines env p (ls ++ rest) = (runLines env p ls).bind fun p' => parseLines env p' rest := by
  induction ls generalizing p with
  | nil => rfl
  | cons l ls ih =>
    simp only [List.cons_append, parseLines, runLines]
    cases hs : step env p (trimSpace l) with
    | err e => rfl
    | panic => rfl
    | ok x =>
      obtain ⟨p', b⟩ := x
      simp only [Out.bind]
      rw [if_neg (by simp [h])]
      exact ih p'

theorem runLines_append (env : TextEnv) (p : PState) (ls rest : List GoStr) :
    runLines env p (ls ++ rest) = (runLines env p ls).bind fun p' => runLines env p' rest := by
  induction ls generalizing p with
  | nil => rfl
  | cons l ls ih =>
    simp only [List.cons_append, runLines]
    cases hs : step env p (trimSpace l) with
    | err e => rfl
    | panic => rfl
    | ok x =>
      obtain ⟨p', b⟩ := x
      simp only [Out.bind]
      exact ih p'

/-- A line that is neither empty nor a comment. -/
theorem step_line (env : TextEnv) (p : PState) {line : GoStr} (h : ∃ d ds, line = d :: ds ∧ d ≠ 35) :
    step env p line =
      match p.expecting with
      | .tableName => stepTableName p line
      | .colNames => (stepColNames env p line (whiteSplit line)).bind fun p' => .ok (p', false)
      | .colTypes => (stepColTypes p (whiteSplit line)).bind fun p' => .ok (p', false)
      | .colRows => (stepColRows env p line).bind fun p' => .ok (p', false) := by
  obtain ⟨d, ds, rfl, hd⟩ := h
  unfold step
  split
  · simp at *
  · rename_i heq
    simp only [List.cons.injEq] at heq
    exact absurd heq.1 hd
  · rfl

/-! ## Names -/

theorem isValidName_bytes {s : GoStr} (h : isValidName s = true) : s ≠ [] ∧ ∀ c ∈ s, nameByte c = true := by
  match s, h with
  | [], h => simp [isValidName] at h
  | c :: cs, h =>
    simp only [isValidName, Bool.and_eq_true, List.all_eq_true, Bool.or_eq_true, decide_eq_true_eq] at h
    refine ⟨by simp, fun x hx => ?_⟩
    rcases List.mem_cons.1 hx with rfl | hx
    · rcases h.1 with h | h <;> simp [nameByte, h]
    · rcases h.2 x hx with (h | h) | h <;> simp [nameByte, h]

theorem isValidTableName_name {s : GoStr} (h : isValidTableName s = true) : isValidName s = true := by
  unfold isValidTableName at h
  split at h
  · simp at h
  · simp only [Bool.and_eq_true] at h
    exact h.1

theorem isValidColName_name {s : GoStr} (h : isValidColName s = true) : isValidName s = true ∧ ColType.ofName? s = none := by
  simp only [isValidColName, Bool.and_eq_true, Option.isNone_iff_eq_none] at h
  exact h

theorem scanName_valid {s : GoStr} (h : isValidName s = true) (ha : Ascii s) (rest : GoStr) : scanName (s ++ 93 :: rest) = some (s, 93 :: rest) := by
  have key : ∀ c : UInt8, c.toNat < 0x80 → ((isLetterByte c || c = 95) = true → isNameStart c = true) ∧ (nameByte c = true → isNameChar c = true) := by
    intro c hc
    have := u8_all (fun c => !decide (c.toNat < 0x80) || ((!(isLetterByte c || decide (c = 95)) || isNameStart c) && (!nameByte c || isNameChar c))) (by decide +kernel) c
    simp only [hc, decide_true, Bool.not_true, Bool.false_or, Bool.and_eq_true] at this
    constructor
    · intro h; rw [h] at this; simpa using this.1
    · intro h; rw [h] at this; simpa using this.2
  have hb := (isValidName_bytes h).2
  match s, h with
  | c :: cs, h =>
    simp only [isValidName, Bool.and_eq_true] at h
    have h1 := (key c (ha c (by simp))).1 h.1
    have h2 : ∀ x ∈ cs, isNameChar x = true := fun x hx => (key x (ha x (by simp [hx]))).2 (hb x (by simp [hx]))
    have h93 : isNameChar 93 = false := by decide
    simp only [scanName, List.cons_append, if_pos h1]
    rw [List.takeWhile_append_of_pos h2, List.dropWhile_append_of_pos h2]
    simp [h93]

theorem hasSpace_ascii (s : GoStr) (h : ∀ c ∈ s, c.toNat < 0x80 ∧ isSpaceRune c.toNat = false) : hasSpace 0 s = false := by
  induction s with
  | nil => rfl
  | cons c cs ih =>
    have hc := h c (by simp)
    simp only [hasSpace, decodeRune?_ascii hc.1, hc.2, Bool.false_or]
    exact ih fun x hx => h x (by simp [hx])

/-- The line `[name]`. -/
def headerLine (n : GoStr) : GoStr := 91 :: n ++ [93]

theorem getTableName_header {n : GoStr} (h : isValidTableName n = true) (ha : Ascii n) : getTableName (headerLine n) = .ok n := by
  have hv := isValidTableName_name h
  have hb := (isValidName_bytes hv).2
  have hs : hasSpace 0 (headerLine n) = false := by
    refine hasSpace_ascii _ fun c hc => ?_
    simp only [headerLine, List.cons_append, List.mem_cons, List.mem_append, List.not_mem_nil, or_false] at hc
    rcases hc with rfl | hc | rfl
    · decide
    · exact ⟨ha c hc, (nameByte_facts c (hb c hc)).2.2.2.2⟩
    · decide
  have hscan : scanTableName (headerLine n) = some (n, []) := by
    simp only [headerLine, scanTableName, List.cons_append, scanName_valid hv ha]
  simp only [getTableName, hs, hscan, Bool.false_eq_true, if_false]
  simp [headerLine]

theorem getTableSetName_header {n : GoStr} (h : isValidTableName n = true) : getTableSetName (headerLine n) = none := by
  have hv := isValidTableName_name h
  have hb := isValidName_bytes hv
  match n, hb with
  | c :: cs, hb =>
    have hc : c ≠ 91 := by
      rintro rfl
      exact absurd (hb.2 91 (by simp)) (by decide)
    unfold getTableSetName headerLine
    split
    · rfl
    · simp only [List.cons_append]
      split
      · rename_i heq
        simp only [List.cons.injEq, true_and] at heq
        exact absurd heq.1 hc
      · rfl

theorem trimSpace_header {n : GoStr} : trimSpace (headerLine n) = headerLine n := by
  have h := trimSpace_core 0 0 (headerLine n) (starts_ascii (by decide) (by decide) _) (c := 93) (by rw [headerLine, List.getLast?_append]; rfl) (by decide)
  simpa [sp] using h

theorem stepTableName_header {p : PState} {n : GoStr} (h : isValidTableName n = true) (ha : Ascii n) (hlen : ∀ a ∈ p.set.tables, a < p.heap.length)
    (hnew : n ∉ setNames p.heap p.set) :
    stepTableName p (headerLine n) =
      .ok ({ p with heap := p.heap ++ [{ (newNilTable : Table Addr) with name := n, isNilTable := false }],
                    set := { p.set with tables := p.set.tables ++ [p.heap.length] }, table := p.heap.length, shape := .undefined,
                    expecting := .colNames }, false) := by
  have e1 : (if p.nameSet then none else getTableSetName (headerLine n)) = none := by
    rw [getTableSetName_header h]; split <;> rfl
  have hname : nameAt (p.heap ++ [{ (newNilTable : Table Addr) with name := n, isNilTable := false }]) p.heap.length = n := by
    simp [nameAt]
  have hset : setNames (p.heap ++ [{ (newNilTable : Table Addr) with name := n, isNilTable := false }]) p.set = setNames p.heap p.set := by
    refine setNames_congr fun a ha => ?_
    simp only [nameAt]
    rw [List.getElem?_append_left (hlen a ha)]
  have happ := (C31_appendTable (p.heap ++ [{ (newNilTable : Table Addr) with name := n, isNilTable := false }]) p.set p.heap.length).2
    (by rw [hname, hset]; exact hnew)
  unfold stepTableName
  rw [e1]
  simp only [getTableName_header h ha, newTable_eq h, Out.bind]
  rw [happ]

/-! ## Column names and types -/

theorem getTableShape_names (n : GoStr) (ns : List GoStr) (h : ∀ x ∈ n :: ns, isValidColName x = true) :
    ∃ b, getTableShape (n :: ns) = .ok (.table, b) := by
  have h61 : ∀ x ∈ n :: ns, x ≠ [61] := by
    rintro x hx rfl
    exact absurd (h _ hx) (by decide)
  have hty : ∀ x ∈ n :: ns, (ColType.ofName? x).isSome = false := fun x hx => by simp [(isValidColName_name (h x hx)).2]
  match ns with
  | [] => exact ⟨false, rfl⟩
  | [x] =>
    refine ⟨false, ?_⟩
    simp [getTableShape, hty x (by simp)]
  | [x, y] =>
    refine ⟨false, ?_⟩
    simp [getTableShape, h61 y (by simp)]
  | x :: y :: z :: zs =>
    refine ⟨false, ?_⟩
    simp [getTableShape, looksLikeStruct, hty x (by simp)]

theorem appendCol_fresh (H : Heap) (t : Table Addr) (hw : WF t) (hnil : t.isNilTable = false) (hrows : t.rows = []) (n : GoStr) (ty : ColType)
    (hn : isValidColName n = true) (hnew : n ∉ t.colNames) :
    appendColAt (H ++ [t]) H.length n ty.name =
      .ok (H ++ [{ t with colNames := t.colNames ++ [n], colTypes := t.colTypes ++ [ty], colMap := t.colMap.insert n t.colNames.length }]) ∧
    WF { t with colNames := t.colNames ++ [n], colTypes := t.colTypes ++ [ty], colMap := t.colMap.insert n t.colNames.length } := by
  have hget : t.colMap.get? n = none := by
    cases hx : t.colMap.get? n with
    | none => rfl
    | some i => exact absurd (List.mem_of_getElem? ((hw.mapIff n i).1 hx)) hnew
  have e := appendCol_eq (fun _ r => (H ++ [t]).length + r) hnil hw.typesLen (by simp [hrows]) (ty := ty) hn hget
  have hz : addZeroCol (fun _ r => (H ++ [t]).length + r) t.colNames.length ty t.rows = t.rows := by simp [hrows, addZeroCol]
  rw [hz] at e
  have hw' := hw.appendCol (fun _ r => (H ++ [t]).length + r) n ty.name
  rw [e] at hw'
  refine ⟨?_, hw'⟩
  have hgetH : (H ++ [t])[H.length]? = some t := by simp
  simp only [appendColAt, hgetH, e]
  simp [hrows]

theorem appendCols_fresh (H : Heap) (ps : List (GoStr × ColType)) (t : Table Addr) (hw : WF t) (hnil : t.isNilTable = false) (hrows : t.rows = [])
    (hn : ∀ x ∈ ps, isValidColName x.1 = true) (hnew : ∀ x ∈ ps, x.1 ∉ t.colNames) (hnd : (ps.map Prod.fst).Nodup) :
    ∃ cm, (ps.map fun x => (x.1, x.2.name)).foldl (fun (o : Out Heap) (p : GoStr × GoStr) => o.bind fun H1 => appendColAt H1 H.length p.1 p.2) (.ok (H ++ [t])) =
      .ok (H ++ [{ t with colNames := t.colNames ++ ps.map Prod.fst, colTypes := t.colTypes ++ ps.map Prod.snd, colMap := cm }]) ∧
      WF { t with colNames := t.colNames ++ ps.map Prod.fst, colTypes := t.colTypes ++ ps.map Prod.snd, colMap := cm } := by
  induction ps generalizing t with
  | nil => exact ⟨t.colMap, by simp, by simpa using hw⟩
  | cons x ps ih =>
    obtain ⟨n, ty⟩ := x
    obtain ⟨e1, w1⟩ := appendCol_fresh H t hw hnil hrows n ty (hn (n, ty) (by simp)) (hnew (n, ty) (by simp))
    simp only [List.map_cons, List.nodup_cons] at hnd
    obtain ⟨cm, e2, w2⟩ := ih { t with colNames := t.colNames ++ [n], colTypes := t.colTypes ++ [ty], colMap := t.colMap.insert n t.colNames.length } w1 hnil hrows
      (fun x hx => hn x (by simp [hx])) (fun x hx hm => by
        simp only [List.mem_append, List.mem_singleton] at hm
        rcases hm with hm | hm
        · exact hnew x (by simp [hx]) hm
        · exact hnd.1 (by rw [← hm]; exact List.mem_map_of_mem hx)) hnd.2
    refine ⟨cm, ?_, ?_⟩
    · simp only [List.map_cons, List.foldl_cons]
      rw [show ((Out.ok (H ++ [t])).bind fun H1 => appendColAt H1 H.length n ty.name) = _ from e1, e2]
      simp
    · simpa using w2

/-! ## A whole table -/

/-- Text lines whose tokens, separated by spaces, are read as the cells of a row. -/
def RowLine (env : TextEnv) (types : List ColType) (line : GoStr) (cells : List (Cell Addr)) : Prop :=
  ∃ (x : RowItem) (xs : List RowItem) (r : List (Nat × GoStr)),
    trimSpace line = spaced x.2.1 r ∧ r.map Prod.snd = xs.map (fun y => y.2.1) ∧
    (x :: xs).map (fun y => y.1) = types ∧ (x :: xs).map (fun y => y.2.2) = cells ∧
    (∃ d ds, x.2.1 = d :: ds ∧ d ≠ 35) ∧
    ∀ y ∈ x :: xs, ReadsAs env y.1 y.2.1 y.2.2 ∧ ∃ d ds, y.2.1 = d :: ds ∧ d ≠ 32 ∧ d ≠ 9

/-- A line with the given tokens separated by spaces. -/
def TokenLine (line : GoStr) (toks : List GoStr) : Prop :=
  ∃ t r, trimSpace line = spaced t r ∧ toks = t :: r.map Prod.snd ∧ (∀ x ∈ toks, Token x) ∧ ∃ d ds, t = d :: ds ∧ d ≠ 35

theorem TokenLine.whiteSplit {line : GoStr} {toks : List GoStr} (h : TokenLine line toks) :
    Verif.whiteSplit (trimSpace line) = toks ∧ ∃ d ds, trimSpace line = d :: ds ∧ d ≠ 35 := by
  obtain ⟨t, r, h1, rfl, h3, d, ds, rfl, hd⟩ := h
  rw [h1]
  refine ⟨whiteSplit_spaced _ _ h3, ?_⟩
  obtain ⟨d', ds', e, e'⟩ := spaced_head (d :: ds) r (by simp)
  refine ⟨d', ds', e, ?_⟩
  simp only [List.head?_cons, Option.some.injEq] at e'
  rw [← e']; exact hd

/-- The lines of a table. -/
inductive TableLines (env : TextEnv) (name : GoStr) : List GoStr → List ColType → List (List (Cell Addr)) → List GoStr → Prop
  | noCols : TableLines env name [] [] [] [headerLine name]
  | cols {names types rows nl tl rls} : TokenLine nl names → TokenLine tl (types.map ColType.name) → Pointwise (RowLine env types) rls rows →
      TableLines env name names types rows (headerLine name :: nl :: tl :: rls)

theorem runRows (env : TextEnv) (H : Heap) (a : Addr) (ha : a = H.length) (types : List ColType) (names : List GoStr) (hlen : names.length = types.length)
    (rls : List GoStr) (rows : List (List (Cell Addr))) (h : Pointwise (RowLine env types) rls rows) (p : PState) (t : Table Addr)
    (hp : p.heap = H ++ [t]) (hpt : p.table = a) (hpn : p.colNames = names) (hpty : p.colTypes = types.map ColType.name) (hpe : p.expecting = .colRows) :
    runLines env p rls = .ok { p with heap := H ++ [{ t with rows := t.rows ++ rows }] } := by
  induction rls generalizing rows p t with
  | nil =>
    cases rows with
    | nil => simp [runLines, ← hp]
    | cons r rows => simp [Pointwise] at h
  | cons l rls ih =>
    cases rows with
    | nil => simp [Pointwise] at h
    | cons row rows =>
      obtain ⟨⟨x, xs, r, h1, h2, h3, h4, ⟨d, ds, hd, hd35⟩, h5⟩, h6⟩ := h
      have hn : names.length = xs.length + 1 := by
        rw [hlen, ← h3]; simp
      have hread := readRow_spaced env p.heap a x xs r names h2 hn h5
      have hty : ((x :: xs).map fun y => y.1.name) = p.colTypes := by
        rw [hpty, ← h3, List.map_map]; rfl
      rw [hty, h4, ← h1] at hread
      obtain ⟨d', ds', e, e'⟩ := spaced_head x.2.1 r (by simp [hd])
      have hd' : d' = d := by rw [hd] at e'; simpa using e'.symm
      have hrl : p.colTypes.length = row.length := by
        rw [← hty, ← h4]; simp
      have hstep : step env p (trimSpace l) = .ok ({ p with heap := H ++ [{ t with rows := t.rows ++ [row] }] }, false) := by
        rw [step_line env p ⟨d', ds', by rw [h1, e], by rw [hd']; exact hd35⟩]
        simp only [hpe, stepColRows, hpt, hpn, hread, Out.bind]
        have hget : p.heap[a]? = some t := by rw [hp, ha]; simp
        rw [hget]
        simp only
        rw [if_neg (by simp [hrl])]
        have : p.heap.set a { t with rows := t.rows ++ [row] } = H ++ [{ t with rows := t.rows ++ [row] }] := by
          rw [hp, ha]; simp
        simp only [this, Out.bind]
      simp only [runLines, hstep, Out.bind]
      have := ih rows h6 { p with heap := H ++ [{ t with rows := t.rows ++ [row] }] } { t with rows := t.rows ++ [row] } rfl hpt hpn hpty hpe
      rw [this]
      simp

/-- The parser after the line with the name of a table. -/
def afterName (p : PState) (name : GoStr) : PState :=
  { p with heap := p.heap ++ [{ (newNilTable : Table Addr) with name := name, isNilTable := false }],
           set := { p.set with tables := p.set.tables ++ [p.heap.length] }, table := p.heap.length, shape := .undefined,
           expecting := .colNames }

theorem runTableState (env : TextEnv) {name : GoStr} {names : List GoStr} {types : List ColType} {rows : List (List (Cell Addr))} {lines : List GoStr}
    (h : TableLines env name names types rows lines) (hname : isValidTableName name = true) (ha : Ascii name)
    (hlen : types.length = names.length) (hv : ∀ n ∈ names, isValidColName n = true) (hnd : names.Nodup)
    (p : PState) (hexp : p.expecting = .tableName) (hb : ∀ a ∈ p.set.tables, a < p.heap.length) (hnew : name ∉ setNames p.heap p.set) :
    ∃ p' t', runLines env p lines = .ok p' ∧ p'.heap = p.heap ++ [t'] ∧ p'.set = { p.set with tables := p.set.tables ++ [p.heap.length] } ∧
      p'.expecting ≠ .colTypes ∧ t'.name = name ∧ t'.colNames = names ∧ t'.colTypes = types ∧ t'.rows = rows ∧ t'.isStructShape = false ∧
      t'.isNilTable = false ∧ t'.sortKeys = [] ∧
      (names ≠ [] → p'.expecting = .colRows ∧ p'.table = p.heap.length ∧ p'.colNames = names ∧ p'.colTypes = types.map ColType.name) := by
  have hhead : step env p (trimSpace (headerLine name)) = .ok (afterName p name, false) := by
    rw [trimSpace_header, step_line env p (line := headerLine name) ⟨91, name ++ [93], rfl, by decide⟩]
    simp only [hexp]
    exact stepTableName_header hname ha hb hnew
  cases h with
  | noCols =>
    exact ⟨_, _, by rw [runLines, hhead]; rfl, rfl, rfl, by simp [afterName], rfl, rfl, rfl, rfl, rfl, rfl, rfl, by simp⟩
  | @cols _ _ _ nl tl rls hnl htl hrows =>
    obtain ⟨hw1, hd1⟩ := hnl.whiteSplit
    obtain ⟨hw2, hd2⟩ := htl.whiteSplit
    obtain ⟨n, ns, hns⟩ : ∃ n ns, names = n :: ns := by
      obtain ⟨t, r, _, rfl, _⟩ := hnl
      exact ⟨_, _, rfl⟩
    obtain ⟨b, hshape⟩ := getTableShape_names n ns (hns ▸ hv)
    have hall : names.all isValidColName = true := by simpa using hv
    let t0 : Table Addr := { (newNilTable : Table Addr) with name := name, isNilTable := false }
    have hw0 : WF t0 := WF.newTable (newTable_eq hname)
    let p1 : PState := afterName p name
    let p2 : PState := { p1 with shape := .table, structHasRowData := b, colNames := names, expecting := .colTypes }
    have hs1 : step env p1 (trimSpace nl) = .ok (p2, false) := by
      rw [step_line env p1 hd1]
      simp only [p1, afterName, hw1, stepColNames]
      rw [hns] at hall ⊢
      simp only [hshape, if_true, Out.bind, reduceCtorEq, if_false, hall, p2, p1, afterName, hns]
    obtain ⟨cm, hcols, hwf⟩ := appendCols_fresh p.heap (names.zip types) t0 hw0 rfl rfl
      (fun x hx => hv x.1 (List.of_mem_zip hx).1) (fun x hx => by simp [t0, newNilTable]) (by rw [List.map_fst_zip (by omega)]; exact hnd)
    have hz1 : (names.zip types).map Prod.fst = names := List.map_fst_zip (by omega)
    have hz2 : (names.zip types).map Prod.snd = types := List.map_snd_zip (by omega)
    have hz3 : (names.zip types).map (fun x => (x.1, x.2.name)) = names.zip (types.map ColType.name) := by
      rw [List.zip_map_right]; rfl
    rw [hz1, hz2, hz3] at hcols
    let t1 : Table Addr := { t0 with colNames := t0.colNames ++ names, colTypes := t0.colTypes ++ types, colMap := cm }
    let p3 : PState := { p2 with heap := p.heap ++ [t1], colTypes := types.map ColType.name, expecting := .colRows }
    have hs2 : step env p2 (trimSpace tl) = .ok (p3, false) := by
      rw [step_line env p2 hd2]
      simp only [p2, hw2, stepColTypes]
      have h1 : (types.map ColType.name).all (fun ty => (ColType.ofName? ty).isSome) = true := by simp [ofName?_name]
      have h2 : (types.map ColType.name).length = names.length := by simp [hlen]
      rw [if_neg (by simp [h1]), if_neg (by simp [h2])]
      simp only [appendColsAt, h2, ne_eq, not_true_eq_false, if_false, p1, afterName]
      rw [hcols]
      rfl
    have hr := runRows env p.heap p.heap.length rfl types names hlen.symm rls rows hrows p3 t1 rfl rfl rfl rfl rfl
    refine ⟨{ p3 with heap := p.heap ++ [{ t1 with rows := t1.rows ++ rows }] }, { t1 with rows := t1.rows ++ rows }, ?_, rfl, rfl, ?_, ?_⟩
    · rw [runLines, hhead]
      simp only [Out.bind]
      rw [runLines, hs1]
      simp only [Out.bind]
      rw [runLines, hs2]
      simp only [Out.bind]
      exact hr
    all_goals simp [p3, p2, p1, t1, t0, afterName, newNilTable]

theorem runTable (env : TextEnv) {name : GoStr} {names : List GoStr} {types : List ColType} {rows : List (List (Cell Addr))} {lines : List GoStr}
    (h : TableLines env name names types rows lines) (hname : isValidTableName name = true) (ha : Ascii name)
    (hlen : types.length = names.length) (hv : ∀ n ∈ names, isValidColName n = true) (hnd : names.Nodup)
    (p : PState) (hexp : p.expecting = .tableName) (hb : ∀ a ∈ p.set.tables, a < p.heap.length) (hnew : name ∉ setNames p.heap p.set) :
    ∃ p' t', runLines env p lines = .ok p' ∧ p'.heap = p.heap ++ [t'] ∧ p'.set = { p.set with tables := p.set.tables ++ [p.heap.length] } ∧
      p'.expecting ≠ .colTypes ∧ t'.name = name ∧ t'.colNames = names ∧ t'.colTypes = types ∧ t'.rows = rows ∧ t'.isStructShape = false ∧
      t'.isNilTable = false ∧ t'.sortKeys = [] := by
  obtain ⟨p', t', h1, h2, h3, h4, h5, h6, h7, h8, h9, h10, h11, _⟩ := runTableState env h hname ha hlen hv hnd p hexp hb hnew
  exact ⟨p', t', h1, h2, h3, h4, h5, h6, h7, h8, h9, h10, h11⟩

end Verif
