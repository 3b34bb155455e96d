import Verif.Lemmas.DocumentStruct

/-!
# Lemmas: the parser reads exactly the texts of the grammar
-/

namespace Verif
open Table

/-! ## The loop over lines without comments -/

/-- The steps of the parser over lines that are trimmed. -/
def runTrimmed (env : TextEnv) (p : PState) : List GoStr → Out PState
  | [] => .ok p
  | m :: ms => (step env p m).bind fun (p', _) => runTrimmed env p' ms

theorem isComment_iff (l : GoStr) : isComment l = true ↔ ∃ cs, l = 35 :: cs := by
  cases l with
  | nil => simp [isComment]
  | cons c cs => simp [isComment]

theorem withoutComments_cons (m : GoStr) {ms : List GoStr} (h : ms ≠ []) :
    withoutComments (m :: ms) = if isComment m then withoutComments ms else m :: withoutComments ms := by
  have hl : (m :: ms).getLast? = ms.getLast? := by
    cases ms with
    | nil => exact absurd rfl h
    | cons x xs => rw [List.getLast?_cons_cons]
  simp only [withoutComments, hl, List.filter_cons]
  cases isComment m <;> simp

theorem step_skipped {env : TextEnv} {p p' : PState} {m : GoStr} (hc : isComment m = false) (h : step env p m = .ok (p', true)) : p'.expecting = .tableName := by
  cases m with
  | nil =>
    simp only [step] at h
    split at h <;> simp at h
  | cons c cs =>
    have hc35 : c ≠ 35 := by
      rintro rfl
      rw [(isComment_iff _).2 ⟨cs, rfl⟩] at hc
      simp at hc
    rw [step_line env p ⟨c, cs, rfl, hc35⟩] at h
    split at h
    · next he =>
      unfold stepTableName at h
      split at h
      · simp only [Out.ok.injEq, Prod.mk.injEq, and_true] at h
        rw [← h]
        exact he
      · obtain ⟨n, _, h⟩ := Out.bind_ok h
        obtain ⟨t, _, h⟩ := Out.bind_ok h
        simp only at h
        split at h <;> simp at h
    · obtain ⟨_, _, h⟩ := Out.bind_ok h
      simp at h
    · obtain ⟨_, _, h⟩ := Out.bind_ok h
      simp at h
    · obtain ⟨_, _, h⟩ := Out.bind_ok h
      simp at h

theorem step_comment (env : TextEnv) (p : PState) (cs : GoStr) : step env p (35 :: cs) = .ok (p, true) := rfl

theorem parseLines_trimmed (env : TextEnv) (p : PState) (ls : List GoStr) (h : ls ≠ []) :
    parseLines env p ls = runTrimmed env p (withoutComments (ls.map trimSpace)) := by
  induction ls generalizing p with
  | nil => exact absurd rfl h
  | cons l ls ih =>
    by_cases he : ls = []
    · subst he
      simp only [parseLines, List.map_cons, List.map_nil, if_true]
      cases hc : isComment (trimSpace l) with
      | true =>
        obtain ⟨cs, e⟩ := (isComment_iff _).1 hc
        have hw : withoutComments [trimSpace l] = [[]] := by simp [withoutComments, hc]
        rw [hw, e, step_comment]
        rfl
      | false =>
        have hw : withoutComments [trimSpace l] = [trimSpace l] := by simp [withoutComments, hc]
        rw [hw]
        simp only [runTrimmed]
        cases hs : step env p (trimSpace l) with
        | err e => rfl
        | panic => rfl
        | ok x =>
          obtain ⟨p', b⟩ := x
          simp only [Out.bind]
          cases b with
          | false => simp
          | true =>
            have := step_skipped hc hs
            obtain ⟨a1, a2, a3, a4, a5, a6, a7, a8, a9⟩ := p'
            simp only at this
            subst this
            simp [step]
    · rw [parseLines, List.map_cons, withoutComments_cons _ (by simpa using he)]
      cases hc : isComment (trimSpace l) with
      | true =>
        obtain ⟨cs, e⟩ := (isComment_iff _).1 hc
        rw [e, step_comment]
        simp only [Out.bind, if_neg he, if_true]
        exact ih p he
      | false =>
        simp only [Bool.false_eq_true, if_false, runTrimmed]
        cases hs : step env p (trimSpace l) with
        | err e => rfl
        | panic => rfl
        | ok x =>
          obtain ⟨p', b⟩ := x
          simp only [Out.bind, if_neg he]
          exact ih p' he

/-- Lines as the parser sees them. -/
def Clean (m : GoStr) : Prop := 10 ∉ m ∧ isComment m = false ∧ (m ≠ [] → CleanEnds m)

theorem encodeRune_ascii {c : UInt8} (h : c.toNat < 0x80) : encodeRune c.toNat = [c] := by
  have hv : ValidRune c.toNat := by unfold ValidRune; omega
  unfold encodeRune
  rw [if_pos hv, if_pos h]
  simp

theorem isWhite_space {c : UInt8} (h : isWhite c = true) : c.toNat < 0x80 ∧ SpaceRune c.toNat := by
  rcases (sliceBlank_iff c).2 h with rfl | rfl | rfl | rfl | rfl <;> exact ⟨by decide, by simp [SpaceRune]⟩

theorem Trimmed.cleanEnds {l m : GoStr} (h : Trimmed l m) (hm : m ≠ []) : CleanEnds m := by
  obtain ⟨p, q, _, _, _, hr⟩ := h
  constructor
  · obtain ⟨d, ds, rfl⟩ := List.exists_cons_of_ne_nil hm
    refine ⟨d, ds, rfl, ?_⟩
    cases hw : isWhite d with
    | false => rfl
    | true =>
      obtain ⟨h1, h2⟩ := isWhite_space hw
      exact absurd ⟨ds, by rw [encodeRune_ascii h1]; rfl⟩ (hr _ h2).1
  · refine ⟨m.getLast hm, List.getLast?_eq_some_getLast hm, ?_⟩
    cases hw : isWhite (m.getLast hm) with
    | false => rfl
    | true =>
      obtain ⟨h1, h2⟩ := isWhite_space hw
      exact absurd ⟨m.dropLast, by rw [encodeRune_ascii h1]; exact List.dropLast_concat_getLast hm⟩ (hr _ h2).2

theorem trimmed_noNewline {l m : GoStr} (h : Trimmed l m) (hl : 10 ∉ l) : 10 ∉ m := by
  obtain ⟨p, q, rfl, _⟩ := h
  intro hm
  exact hl (by simp [hm])

theorem clean_content {ls : List GoStr} (h : ∀ l ∈ ls, 10 ∉ l) : ∀ m ∈ withoutComments (ls.map trimSpace), Clean m := by
  intro m hm
  simp only [withoutComments, List.mem_append, List.mem_filter, List.mem_map, Bool.not_eq_true'] at hm
  rcases hm with ⟨⟨l, hl, rfl⟩, hc⟩ | hm
  · exact ⟨trimmed_noNewline (Trimmed.trim l) (h l hl), hc, fun hne => (Trimmed.trim l).cleanEnds hne⟩
  · split at hm
    · simp only [List.mem_singleton] at hm
      subst hm
      exact ⟨by simp, rfl, fun h => absurd rfl h⟩
    · simp at hm

/-! ## One line -/

theorem Clean.line {m : GoStr} (h : Clean m) (hm : m ≠ []) : ∃ d ds, m = d :: ds ∧ d ≠ 35 := by
  obtain ⟨d, ds, rfl⟩ := List.exists_cons_of_ne_nil hm
  refine ⟨d, ds, rfl, ?_⟩
  rintro rfl
  have := h.2.1
  rw [(isComment_iff _).2 ⟨ds, rfl⟩] at this
  simp at this

theorem runTrimmed_line {env : TextEnv} {p : PState} {m : GoStr} (h : Clean m) (hm : m ≠ []) (ms : List GoStr) :
    runTrimmed env p (m :: ms) =
      (match p.expecting with
      | .tableName => stepTableName p m
      | .colNames => (stepColNames env p m (whiteSplit m)).bind fun p' => .ok (p', false)
      | .colTypes => (stepColTypes p (whiteSplit m)).bind fun p' => .ok (p', false)
      | .colRows => (stepColRows env p m).bind fun p' => .ok (p', false)).bind fun x => runTrimmed env x.1 ms := by
  rw [runTrimmed, step_line env p (h.line hm)]
  rfl

theorem runTrimmed_rows {env : TextEnv} {p : PState} (he : p.expecting = .colRows) {m : GoStr} (h : Clean m) (hm : m ≠ []) (ms : List GoStr) :
    runTrimmed env p (m :: ms) = (stepColRows env p m).bind fun p' => runTrimmed env p' ms := by
  rw [runTrimmed_line h hm, he]
  cases stepColRows env p m <;> rfl

theorem runTrimmed_types {env : TextEnv} {p : PState} (he : p.expecting = .colTypes) {m : GoStr} (h : Clean m) (hm : m ≠ []) (ms : List GoStr) :
    runTrimmed env p (m :: ms) = (stepColTypes p (whiteSplit m)).bind fun p' => runTrimmed env p' ms := by
  rw [runTrimmed_line h hm, he]
  cases stepColTypes p (whiteSplit m) <;> rfl

theorem runTrimmed_names {env : TextEnv} {p : PState} (he : p.expecting = .colNames) {m : GoStr} (h : Clean m) (hm : m ≠ []) (ms : List GoStr) :
    runTrimmed env p (m :: ms) = (stepColNames env p m (whiteSplit m)).bind fun p' => runTrimmed env p' ms := by
  rw [runTrimmed_line h hm, he]
  cases stepColNames env p m (whiteSplit m) <;> rfl

theorem runTrimmed_struct {env : TextEnv} {p : PState} (he : p.expecting = .colNames) (hs : p.shape = .struct) {m : GoStr} (h : Clean m) (hm : m ≠ []) (ms : List GoStr) :
    runTrimmed env p (m :: ms) = (stepStruct env p m (whiteSplit m)).bind fun p' => runTrimmed env p' ms := by
  rw [runTrimmed_names he h hm]
  have : stepColNames env p m (whiteSplit m) = stepStruct env p m (whiteSplit m) := by
    unfold stepColNames
    rw [if_neg (by rw [hs]; simp)]
    simp only [Out.bind]
    rw [if_pos hs]
  rw [this]

theorem runTrimmed_blank {env : TextEnv} {p : PState} (he : p.expecting ≠ .colTypes) (ms : List GoStr) :
    runTrimmed env p ([] :: ms) = runTrimmed env { p with expecting := .tableName } ms := by
  simp only [runTrimmed, step, if_neg he]
  rfl

theorem runTrimmed_blankTypes {env : TextEnv} {p : PState} (he : p.expecting = .colTypes) (ms : List GoStr) :
    runTrimmed env p ([] :: ms) = .err .syntaxErr := by
  simp only [runTrimmed, step, he, if_true]
  rfl

/-- What follows the lines of a table. -/
def BlockEnd (rest : List GoStr) : Prop := rest = [] ∨ ∃ more, rest = [] :: more

/-! ## Rows -/

theorem RowsRead.length {env : TextEnv} {a : Addr} {t : Table Addr} {H : Heap} {ls : List GoStr} {H' : Heap} (h : RowsRead env a t H ls H') : H.length ≤ H'.length := by
  induction h with
  | nil => exact Nat.le_refl _
  | cons hr _ ih =>
    obtain ⟨⟨K, rfl⟩, _⟩ := hr.grows
    simp only [List.length_set, List.length_append] at ih
    omega

theorem rows_sound {env : TextEnv} (hF : NanOK env.float) (ms : List GoStr) (hclean : ∀ m ∈ ms, Clean m) (p : PState) (t : Table Addr)
    (he : p.expecting = .colRows) (ht : p.heap[p.table]? = some t) (hty : p.colTypes = t.colTypes.map ColType.name) (hlen : p.colNames.length = p.colTypes.length)
    (q : PState) (h : runTrimmed env p ms = .ok q) :
    ∃ rl rest H', ms = rl ++ rest ∧ (∀ l ∈ rl, l ≠ []) ∧ BlockEnd rest ∧ RowsRead env p.table t p.heap rl H' ∧ runTrimmed env { p with heap := H' } rest = .ok q := by
  induction ms generalizing p t with
  | nil => exact ⟨[], [], p.heap, rfl, by simp, .inl rfl, .nil, h⟩
  | cons m ms ih =>
    by_cases hm : m = []
    · subst hm
      exact ⟨[], [] :: ms, p.heap, rfl, by simp, .inr ⟨_, rfl⟩, .nil, h⟩
    · have hcm := hclean m (by simp)
      rw [runTrimmed_rows he hcm hm] at h
      obtain ⟨p', h1, h2⟩ := Out.bind_ok h
      obtain ⟨H1, cells, hr, rfl⟩ := (stepColRows_iff hF ht hty hlen hcm.1 p').1 h1
      have hal : p.table < H1.length := by
        obtain ⟨⟨K, rfl⟩, _⟩ := hr.grows
        exact Nat.lt_of_lt_of_le (List.getElem?_eq_some_iff.1 ht).1 (by simp)
      obtain ⟨rl, rest, H', rfl, h3, h4, h5, h6⟩ := ih (fun x hx => hclean x (by simp [hx])) { p with heap := H1.set p.table { t with rows := t.rows ++ [cells] } }
        { t with rows := t.rows ++ [cells] } he (List.getElem?_set_self hal) hty hlen h2
      exact ⟨m :: rl, rest, H', rfl, by
        intro l hl
        rcases List.mem_cons.1 hl with rfl | hl
        · exact hm
        · exact h3 l hl, h4, .cons hr h5, h6⟩

theorem rows_complete {env : TextEnv} (hF : NanOK env.float) {a : Addr} {t : Table Addr} {H : Heap} {rl : List GoStr} {H' : Heap} (h : RowsRead env a t H rl H')
    (hclean : ∀ m ∈ rl, Clean m) (hne : ∀ m ∈ rl, m ≠ []) (p : PState) (hh : p.heap = H) (ha : p.table = a) (he : p.expecting = .colRows) (ht : H[a]? = some t)
    (hty : p.colTypes = t.colTypes.map ColType.name) (hlen : p.colNames.length = p.colTypes.length) (rest : List GoStr) :
    runTrimmed env p (rl ++ rest) = runTrimmed env { p with heap := H' } rest := by
  induction h generalizing p with
  | nil => subst hh; rfl
  | @cons t H l H1 cells ls H' hr _ ih =>
    subst hh ha
    have hcl := hclean l (by simp)
    rw [List.cons_append, runTrimmed_rows he hcl (hne l (by simp)), (stepColRows_iff hF ht hty hlen hcl.1 _).2 ⟨H1, cells, hr, rfl⟩]
    have hal : p.table < H1.length := by
      obtain ⟨⟨K, rfl⟩, _⟩ := hr.grows
      exact Nat.lt_of_lt_of_le (List.getElem?_eq_some_iff.1 ht).1 (by simp)
    exact ih (fun x hx => hclean x (by simp [hx])) (fun x hx => hne x (by simp [hx])) { p with heap := H1.set p.table { t with rows := t.rows ++ [cells] } } rfl rfl he
      (List.getElem?_set_self hal) hty hlen

/-! ## Structs without values -/

theorem nodup_snoc {cols : List (GoStr × ColType)} {c : GoStr} {ty : ColType} (hnd : (cols.map Prod.fst).Nodup) (hnew : c ∉ cols.map Prod.fst) :
    ((cols ++ [(c, ty)]).map Prod.fst).Nodup := by
  rw [List.map_append, List.nodup_append]
  refine ⟨hnd, by simp, ?_⟩
  intro x hx y hy
  simp only [List.map_cons, List.map_nil, List.mem_singleton] at hy
  rintro rfl
  exact hnew (hy ▸ hx)

theorem colName_snoc {cols : List (GoStr × ColType)} {c : GoStr} {ty : ColType} (hc : ∀ x ∈ cols, ColName x.1) (h : ColName c) :
    ∀ x ∈ cols ++ [(c, ty)], ColName x.1 := by
  intro x hm
  rcases List.mem_append.1 hm with hm | hm
  · exact hc x hm
  · simp only [List.mem_singleton] at hm
    rw [hm]; exact h

theorem fields_sound {env : TextEnv} {H : Heap} {n : GoStr} (hn : TableName n) (ms : List GoStr) (hclean : ∀ m ∈ ms, Clean m) (cols : List (GoStr × ColType))
    (hc : ∀ c ∈ cols, ColName c.1) (hnd : (cols.map Prod.fst).Nodup) (p : PState) (he : p.expecting = .colNames) (hs : p.shape = .struct)
    (hd : p.structHasRowData = false) (hh : p.heap = H ++ [readTableOf n cols [] true]) (ha : p.table = H.length) (q : PState) (h : runTrimmed env p ms = .ok q) :
    ∃ fl rest new, ms = fl ++ rest ∧ (∀ l ∈ fl, l ≠ []) ∧ BlockEnd rest ∧ Pointwise FieldLine fl new ∧ ((cols ++ new).map Prod.fst).Nodup ∧
      runTrimmed env { p with heap := H ++ [readTableOf n (cols ++ new) [] true] } rest = .ok q := by
  induction ms generalizing p cols with
  | nil =>
    refine ⟨[], [], [], rfl, by simp, .inl rfl, by simp [Pointwise], by simpa using hnd, ?_⟩
    rw [List.append_nil, ← hh]
    exact h
  | cons m ms ih =>
    by_cases hm : m = []
    · subst hm
      refine ⟨[], [] :: ms, [], rfl, by simp, .inr ⟨_, rfl⟩, by simp [Pointwise], by simpa using hnd, ?_⟩
      rw [List.append_nil, ← hh]
      exact h
    · have hcm := hclean m (by simp)
      rw [runTrimmed_struct he hs hcm hm] at h
      obtain ⟨p', h1, h2⟩ := Out.bind_ok h
      obtain ⟨c, ty, more, hw, h3, h4, rfl⟩ := (stepStruct_field_iff hn hc hnd hh ha hd m _ p').1 h1
      obtain ⟨fl, rest, new, rfl, h5, h6, h7, h8, h9⟩ := ih (fun x hx => hclean x (by simp [hx])) (cols ++ [(c, ty)]) (colName_snoc hc h3) (nodup_snoc hnd h4)
        { p with heap := H ++ [readTableOf n (cols ++ [(c, ty)]) [] true] } he hs hd rfl ha h2
      refine ⟨m :: fl, rest, (c, ty) :: new, rfl, ?_, h6, ⟨⟨h3, more, (words_iff (hcm.2.2 hm) _).2 hw⟩, h7⟩, by simpa using h8, ?_⟩
      · intro l hl
        rcases List.mem_cons.1 hl with rfl | hl
        · exact hm
        · exact h5 l hl
      · rw [← h9]
        simp

theorem fields_complete {env : TextEnv} {H : Heap} {n : GoStr} (hn : TableName n) (fl : List GoStr) (new : List (GoStr × ColType)) (hp : Pointwise FieldLine fl new)
    (hclean : ∀ m ∈ fl, Clean m) (hne : ∀ m ∈ fl, m ≠ []) (cols : List (GoStr × ColType)) (hc : ∀ c ∈ cols, ColName c.1)
    (hnd : ((cols ++ new).map Prod.fst).Nodup) (p : PState) (he : p.expecting = .colNames) (hs : p.shape = .struct)
    (hd : p.structHasRowData = false) (hh : p.heap = H ++ [readTableOf n cols [] true]) (ha : p.table = H.length) (rest : List GoStr) :
    runTrimmed env p (fl ++ rest) = runTrimmed env { p with heap := H ++ [readTableOf n (cols ++ new) [] true] } rest := by
  induction fl generalizing p cols new with
  | nil =>
    cases new with
    | nil => rw [List.append_nil, ← hh]; rfl
    | cons => simp [Pointwise] at hp
  | cons m fl ih =>
    cases new with
    | nil => simp [Pointwise] at hp
    | cons c new =>
      obtain ⟨⟨h1, more, hw⟩, h2⟩ := hp
      have hcm := hclean m (by simp)
      have hnd0 : (cols.map Prod.fst).Nodup := by
        rw [List.map_append, List.nodup_append] at hnd
        exact hnd.1
      have hnew : c.1 ∉ cols.map Prod.fst := by
        rw [List.map_append, List.nodup_append] at hnd
        intro hm
        exact hnd.2.2 _ hm _ (by simp) rfl
      rw [List.cons_append, runTrimmed_struct he hs hcm (hne m (by simp)),
        (stepStruct_field_iff hn hc hnd0 hh ha hd m _ _).2 ⟨c.1, c.2, more, hw.split, h1, hnew, rfl⟩]
      have := ih new h2 (fun x hx => hclean x (by simp [hx])) (fun x hx => hne x (by simp [hx])) (cols ++ [c]) (colName_snoc hc h1) (by simpa using hnd)
        { p with heap := H ++ [readTableOf n (cols ++ [c]) [] true] } he hs hd rfl ha
      simp only [Out.bind]
      rw [this]
      simp

/-! ## Structs with values -/

theorem FieldsRead.length {env : TextEnv} {a : Addr} {n : GoStr} {cols : List (GoStr × ColType)} {row : List (Cell Addr)} {H : Heap} {ls : List GoStr} {H' : Heap}
    (h : FieldsRead env a n cols row H ls H') : H.length ≤ H'.length := by
  induction h with
  | nil => exact Nat.le_refl _
  | cons _ _ _ _ hr _ ih =>
    obtain ⟨⟨K, rfl⟩, _⟩ := hr.grows
    simp only [List.length_set, List.length_append] at ih
    omega

theorem spare_eq (a : Addr) (cols : List (GoStr × ColType)) :
    spare a cols.isEmpty = { (newNilTable : Table Addr) with parent := if cols = [] then some a else none } := by
  cases cols <;> rfl

theorem structRows_snoc (cols : List (GoStr × ColType)) (x : GoStr × ColType) (row : List (Cell Addr)) : structRows (cols ++ [x]) row = [row] := by
  simp [structRows]

theorem values_sound {env : TextEnv} (hF : NanOK env.float) {n : GoStr} (hn : TableName n) (ms : List GoStr) (hclean : ∀ m ∈ ms, Clean m)
    (cols : List (GoStr × ColType)) (hc : ∀ c ∈ cols, ColName c.1) (hnd : (cols.map Prod.fst).Nodup) (row : List (Cell Addr)) (hrow : RowOK (cols.map Prod.snd) row)
    (b : Bool) (p : PState) (he : p.expecting = .colNames) (hs : p.shape = .struct)
    (hd : p.structHasRowData = true) (ht : p.heap[p.table]? = some (readTableOf n cols (structRows cols row) b)) (q : PState) (h : runTrimmed env p ms = .ok q) :
    ∃ fl rest H', ms = fl ++ rest ∧ (∀ l ∈ fl, l ≠ []) ∧ BlockEnd rest ∧ FieldsRead env p.table n cols row p.heap fl H' ∧
      runTrimmed env { p with heap := H' } rest = .ok q := by
  induction ms generalizing p cols row b with
  | nil => exact ⟨[], [], p.heap, rfl, by simp, .inl rfl, .nil, h⟩
  | cons m ms ih =>
    by_cases hm : m = []
    · subst hm
      exact ⟨[], [] :: ms, p.heap, rfl, by simp, .inr ⟨_, rfl⟩, .nil, h⟩
    · have hcm := hclean m (by simp)
      rw [runTrimmed_struct he hs hcm hm] at h
      obtain ⟨p', h1, h2⟩ := Out.bind_ok h
      obtain ⟨c, ty, w1, w2, more, value, H1, cell, hw, h3, h4, h5, hr, rfl⟩ := (stepStruct_value_iff hF hn hc hnd hrow ht hd hcm.1 _ p').1 h1
      have hal : p.table < H1.length := by
        obtain ⟨⟨K, rfl⟩, _⟩ := hr.grows
        exact Nat.lt_of_lt_of_le (List.getElem?_eq_some_iff.1 ht).1 (by simp only [List.length_append, Nat.add_assoc]; exact Nat.le_add_right _ _)
      have hcell := hr.typed hF (h5.noNewline hcm.1)
      obtain ⟨fl, rest, H', rfl, h6, h7, h8, h9⟩ := ih (fun x hx => hclean x (by simp [hx])) (cols ++ [(c, ty)]) (colName_snoc hc h3) (nodup_snoc hnd h4)
        (row ++ [cell]) (by rw [List.map_append]; exact hrow.append hcell) true
        { p with heap := H1.set p.table (readTableOf n (cols ++ [(c, ty)]) [row ++ [cell]] true) } he hs hd
        (by rw [structRows_snoc]; exact List.getElem?_set_self hal) h2
      rw [spare_eq] at hr
      refine ⟨m :: fl, rest, H', rfl, ?_, h7, .cons h3 ((words_iff (hcm.2.2 hm) _).2 hw) h4 h5 hr h8, h9⟩
      intro l hl
      rcases List.mem_cons.1 hl with rfl | hl
      · exact hm
      · exact h6 l hl

theorem values_complete {env : TextEnv} (hF : NanOK env.float) {n : GoStr} (hn : TableName n) {a : Addr} {cols : List (GoStr × ColType)} {row : List (Cell Addr)}
    {H : Heap} {fl : List GoStr} {H' : Heap} (h : FieldsRead env a n cols row H fl H') (hclean : ∀ m ∈ fl, Clean m) (hne : ∀ m ∈ fl, m ≠ [])
    (hc : ∀ c ∈ cols, ColName c.1) (hnd : (cols.map Prod.fst).Nodup) (hrow : RowOK (cols.map Prod.snd) row)
    (b : Bool) (p : PState) (he : p.expecting = .colNames) (hs : p.shape = .struct)
    (hd : p.structHasRowData = true) (hh : p.heap = H) (ha : p.table = a) (ht : H[a]? = some (readTableOf n cols (structRows cols row) b)) (rest : List GoStr) :
    runTrimmed env p (fl ++ rest) = runTrimmed env { p with heap := H' } rest := by
  induction h generalizing p b with
  | nil => subst hh; rfl
  | @cons cols row H l c ty w1 w2 more value H1 cell ls H' h3 hw h4 h5 hr _ ih =>
    subst hh ha
    have hcm := hclean l (by simp)
    have hal : p.table < H1.length := by
      obtain ⟨⟨K, rfl⟩, _⟩ := hr.grows
      exact Nat.lt_of_lt_of_le (List.getElem?_eq_some_iff.1 ht).1 (by simp only [List.length_append, Nat.add_assoc]; exact Nat.le_add_right _ _)
    have hcell := hr.typed hF (h5.noNewline hcm.1)
    rw [← spare_eq] at hr
    rw [List.cons_append, runTrimmed_struct he hs hcm (hne l (by simp)),
      (stepStruct_value_iff hF hn hc hnd hrow ht hd hcm.1 _ _).2 ⟨c, ty, w1, w2, more, value, H1, cell, hw.split, h3, h4, h5, hr, rfl⟩]
    exact ih (fun x hx => hclean x (by simp [hx])) (fun x hx => hne x (by simp [hx])) (colName_snoc hc h3) (nodup_snoc hnd h4)
      (by rw [List.map_append]; exact hrow.append hcell) true
      { p with heap := H1.set p.table (readTableOf n (cols ++ [(c, ty)]) [row ++ [cell]] true) } he hs hd rfl rfl
      (by rw [structRows_snoc]; exact List.getElem?_set_self hal)

/-! ## Shapes -/

theorem getTableShape_cases {ws : List GoStr} {sh : Shape} {hd : Bool} (h : getTableShape ws = .ok (sh, hd)) :
    sh = .table ∨ (sh = .struct ∧ hd = false ∧ ∃ c ty, ws = [c, ColType.name ty] ∧ ColName c) ∨
      (sh = .struct ∧ hd = true ∧ ∃ c ty w more, ws = c :: ColType.name ty :: gs! "=" :: w :: more ∧ ColName c) := by
  unfold getTableShape at h
  split at h
  · simp only [Out.ok.injEq, Prod.mk.injEq] at h
    exact .inl h.1.symm
  · next c tyn =>
    split at h
    · next hx =>
      simp only [Out.ok.injEq, Prod.mk.injEq] at h
      simp only [Bool.and_eq_true, Option.isSome_iff_exists] at hx
      obtain ⟨h1, ty, h2⟩ := hx
      refine .inr (.inl ⟨h.1.symm, h.2.symm, c, ty, ?_, (colName_iff c).2 h1⟩)
      rw [ofName?_eq h2]
    · simp only [Out.ok.injEq, Prod.mk.injEq] at h
      exact .inl h.1.symm
  · split at h
    · simp at h
    · simp only [Out.ok.injEq, Prod.mk.injEq] at h
      exact .inl h.1.symm
  · next h1 h2 h3 =>
    split at h
    · next hx =>
      simp only [Out.ok.injEq, Prod.mk.injEq] at h
      unfold looksLikeStruct at hx
      split at hx
      · next c tyn eq more =>
        simp only [Bool.and_eq_true, Option.isSome_iff_exists, decide_eq_true_eq] at hx
        obtain ⟨⟨hc, ty, hty⟩, rfl⟩ := hx
        cases more with
        | nil => exact absurd rfl (h3 c tyn [61])
        | cons w more =>
          refine .inr (.inr ⟨h.1.symm, h.2.symm, c, ty, w, more, ?_, (colName_iff c).2 hc⟩)
          rw [ofName?_eq hty]
      · simp at hx
    · simp only [Out.ok.injEq, Prod.mk.injEq] at h
      exact .inl h.1.symm

theorem getTableShape_struct {c : GoStr} (hc : ColName c) (ty : ColType) : getTableShape [c, ty.name] = .ok (.struct, false) := by
  simp [getTableShape, (colName_iff c).1 hc, ofName?_name]

theorem getTableShape_value {c : GoStr} (hc : ColName c) (ty : ColType) (w : GoStr) (more : List GoStr) :
    getTableShape (c :: ty.name :: gs! "=" :: w :: more) = .ok (.struct, true) := by
  simp [getTableShape, looksLikeStruct, (colName_iff c).1 hc, ofName?_name]

theorem runTrimmed_shape {env : TextEnv} {p : PState} (he : p.expecting = .colNames) (hs : p.shape = .undefined) {m : GoStr} (h : Clean m) (hm : m ≠ [])
    {hd : Bool} (hsh : getTableShape (whiteSplit m) = .ok (.struct, hd)) (ms : List GoStr) :
    runTrimmed env p (m :: ms) = runTrimmed env { p with shape := .struct, structHasRowData := hd } (m :: ms) := by
  rw [runTrimmed_names he h hm, runTrimmed_names (p := { p with shape := .struct, structHasRowData := hd }) he h hm]
  congr 1
  simp only [stepColNames, hs, if_true, hsh]
  rfl

theorem runTrimmed_table {env : TextEnv} {p : PState} (he : p.expecting = .colNames) (hs : p.shape = .undefined) {m : GoStr} (h : Clean m) (hm : m ≠ [])
    {hd : Bool} (hsh : getTableShape (whiteSplit m) = .ok (.table, hd)) (ms : List GoStr) :
    runTrimmed env p (m :: ms) =
      if (whiteSplit m).all isValidColName then
        runTrimmed env { p with shape := .table, structHasRowData := hd, colNames := whiteSplit m, expecting := .colTypes } ms
      else .err .syntaxErr := by
  rw [runTrimmed_names he h hm]
  simp only [stepColNames, hs, if_true, hsh, Out.bind]
  rw [if_neg (by simp)]
  by_cases hx : (whiteSplit m).all isValidColName = true
  · rw [if_pos hx, if_pos hx]
  · rw [if_neg hx, if_neg hx]

end Verif
