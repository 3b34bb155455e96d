import Verif.Lemmas.DocumentSteps

/-!
# Lemmas: the lines of a struct
-/

namespace Verif
open Table

/-! ## The text of a value -/

theorem afterEquals_iff (l v : GoStr) : afterEquals l = some v ↔ ∃ front, l = front ++ 61 :: v ∧ 61 ∉ front := by
  induction l with
  | nil => simp [afterEquals]
  | cons c cs ih =>
    simp only [afterEquals]
    by_cases hc : c = 61
    · subst hc
      simp only [if_true, Option.some.injEq]
      constructor
      · rintro rfl
        exact ⟨[], rfl, by simp⟩
      · rintro ⟨front, e, hf⟩
        cases front with
        | nil => simpa using e
        | cons d ds =>
          simp only [List.cons_append, List.cons.injEq] at e
          exact absurd (by simp [← e.1]) hf
    · rw [if_neg hc, ih]
      constructor
      · rintro ⟨front, rfl, hf⟩
        exact ⟨c :: front, rfl, by simp [Ne.symm hc, hf]⟩
      · rintro ⟨front, e, hf⟩
        cases front with
        | nil =>
          simp only [List.nil_append, List.cons.injEq] at e
          exact absurd e.1 hc
        | cons d ds =>
          simp only [List.cons_append, List.cons.injEq] at e
          exact ⟨ds, e.2, fun hm => hf (by simp [hm])⟩

theorem fieldValue_iff (l value : GoStr) : FieldValue l value ↔ ∃ v, afterEquals l = some v ∧ trimBlankLines v = value := by
  constructor
  · rintro ⟨front, blanks, rfl, h1, h2, h3⟩
    refine ⟨blanks ++ value, (afterEquals_iff _ _).2 ⟨front, by simp, h1⟩, ?_⟩
    unfold trimBlankLines
    rw [List.dropWhile_append_of_pos (fun c hc => by rcases h2 c hc with rfl | rfl | rfl | rfl <;> decide)]
    cases value with
    | nil => rfl
    | cons c cs =>
      have := h3 c cs rfl
      simp only [not_or] at this
      simp [this.1, this.2.1, this.2.2.1, this.2.2.2]
  · rintro ⟨v, h, rfl⟩
    obtain ⟨front, rfl, hf⟩ := (afterEquals_iff _ _).1 h
    refine ⟨front, v.takeWhile (fun c => c = 32 || c = 9 || c = 13 || c = 10), ?_, hf, fun c hc => ?_, fun c cs e => ?_⟩
    · unfold trimBlankLines
      rw [List.append_assoc, List.cons_append, List.takeWhile_append_dropWhile]
    · have := List.all_eq_true.1 (List.all_takeWhile (p := fun c : UInt8 => c = 32 || c = 9 || c = 13 || c = 10) (l := v)) c hc
      simpa [or_assoc] using this
    · have := List.head?_dropWhile_not (fun c : UInt8 => c = 32 || c = 9 || c = 13 || c = 10) v
      unfold trimBlankLines at e
      rw [e] at this
      simpa [and_assoc] using this

theorem FieldValue.noNewline {l value : GoStr} (h : FieldValue l value) (hl : 10 ∉ l) : 10 ∉ value := by
  obtain ⟨front, blanks, rfl, _⟩ := h
  intro hm
  exact hl (by simp [hm])

/-! ## Reading does not depend on what is in memory -/

theorem CellReads.transport {env : TextEnv} {a : Addr} {ty : ColType} {H : Heap} {l : GoStr} {H' : Heap} {c : Cell Addr} {rest : GoStr}
    (h : CellReads env a ty H l H' c rest) : ∃ K, H' = H ++ K ∧ ∀ G : Heap, G.length = H.length → CellReads env a ty G l (G ++ K) c rest := by
  cases h with
  | noTable => exact ⟨_, rfl, fun G hG => by rw [← hG]; exact .noTable⟩
  | table h1 h2 => exact ⟨_, rfl, fun G hG => by rw [← hG]; exact .table h1 h2⟩
  | int h1 h2 => exact ⟨[], by simp, fun G _ => by rw [List.append_nil]; exact .int h1 h2⟩
  | string h1 => exact ⟨[], by simp, fun G _ => by rw [List.append_nil]; exact .string h1⟩
  | bool h1 => exact ⟨[], by simp, fun G _ => by rw [List.append_nil]; exact .bool h1⟩
  | noBytes h1 => exact ⟨[], by simp, fun G _ => by rw [List.append_nil]; exact .noBytes h1⟩
  | bytes h1 h2 => exact ⟨[], by simp, fun G _ => by rw [List.append_nil]; exact .bytes h1 h2⟩
  | rune h1 h2 => exact ⟨[], by simp, fun G _ => by rw [List.append_nil]; exact .rune h1 h2⟩
  | float32 h1 h2 h3 => exact ⟨[], by simp, fun G _ => by rw [List.append_nil]; exact .float32 h1 h2 h3⟩
  | float64 h1 h2 h3 => exact ⟨[], by simp, fun G _ => by rw [List.append_nil]; exact .float64 h1 h2 h3⟩
  | nan32 h1 h2 h3 => exact ⟨[], by simp, fun G _ => by rw [List.append_nil]; exact .nan32 h1 h2 h3⟩
  | nan64 h1 h2 h3 => exact ⟨[], by simp, fun G _ => by rw [List.append_nil]; exact .nan64 h1 h2 h3⟩
  | time h1 h2 => exact ⟨[], by simp, fun G _ => by rw [List.append_nil]; exact .time h1 h2⟩

theorem RowReads.transport {env : TextEnv} {a : Addr} {tys : List ColType} {H : Heap} {l : GoStr} {H' : Heap} {cs : List (Cell Addr)}
    (h : RowReads env a tys H l H' cs) : ∃ K, H' = H ++ K ∧ ∀ G : Heap, G.length = H.length → RowReads env a tys G l (G ++ K) cs := by
  induction h with
  | nil => exact ⟨[], by simp, fun G _ => by rw [List.append_nil]; exact .nil⟩
  | cons hc h1 h2 _ ih =>
    obtain ⟨K1, rfl, hK1⟩ := hc.transport
    obtain ⟨K2, rfl, hK2⟩ := ih
    refine ⟨K1 ++ K2, by simp, fun G hG => ?_⟩
    rw [← List.append_assoc]
    exact .cons (hK1 G hG) h1 h2 (hK2 _ (by simp [hG]))

theorem RowReads.typed {env : TextEnv} (hF : NanOK env.float) {a : Addr} {ty : ColType} {H : Heap} {l : GoStr} (hl : 10 ∉ l) {H' : Heap} {c : Cell Addr}
    (h : RowReads env a [ty] H l H' [c]) : c.HasType ty := by
  have := (readRow_iff hF a [[]] [ty] rfl H l hl H' [c]).2 h
  obtain ⟨_, ⟨tys, e, hok⟩, _⟩ := (readRow_ok env a H [[]] ([ty].map ColType.name) l rfl).2 _ _ this
  match tys, e with
  | [ty'], e =>
    simp only [List.map_cons, List.map_nil, List.cons.injEq, and_true] at e
    have hty : ty' = ty := by
      have h := ofName?_name ty'
      rw [← e, ofName?_name] at h
      exact (Option.some.inj h).symm
    subst hty
    exact hok.2 0 _ c rfl rfl

/-! ## Struct lines -/

/-- The table that a struct line leaves in memory. -/
def spare (a : Addr) (first : Bool) : Table Addr := { (newNilTable : Table Addr) with parent := if first then some a else none }

theorem setVal_last {n : GoStr} {cols : List (GoStr × ColType)} {row : List (Cell Addr)} {c : GoStr} {ty : ColType} {z v : Cell Addr}
    (hw : WF (readTableOf n (cols ++ [(c, ty)]) [row ++ [z]] true)) (hlen : row.length = cols.length) (hv : v.HasType ty) :
    (readTableOf n (cols ++ [(c, ty)]) [row ++ [z]] true).setValByColIndex (((row ++ [z]).length : Int) - 1) 0 v =
      (readTableOf n (cols ++ [(c, ty)]) [row ++ [v]] true, .ok ()) := by
  have hi : (((row ++ [z]).length : Int) - 1) = ((row.length : Nat) : Int) := by simp
  rw [hi]
  have hty : (readTableOf n (cols ++ [(c, ty)]) [row ++ [z]] true).colTypes[row.length]? = some ty := by
    simp only [readTableOf, List.map_append, hlen]
    rw [List.getElem?_append_right (by simp)]
    simp
  rcases setValByColIndex_cases hw ((row.length : Nat) : Int) 0 v (hasType_real hv) with ⟨ci, ri, ty', h1, h2, h3, h4, h5, e⟩ | ⟨hno, _⟩
  · rw [e]
    have h1 : row.length = ci := by exact_mod_cast h1
    have h2 : ri = 0 := by omega
    subst h1 h2
    simp [putCell, readTableOf]
  · exact absurd ⟨row.length, 0, ty, rfl, rfl, hty, by simp [readTableOf], hv⟩ hno

/-- The rows of a struct with values: none before the first line. -/
def structRows (cols : List (GoStr × ColType)) (row : List (Cell Addr)) : List (List (Cell Addr)) := if cols = [] then [] else [row]

/-- The first row is made before the first value is read. -/
def withRow (G : Heap) (a : Addr) (t0 : Table Addr) : Out Heap :=
  if t0.rowCount = 0 then
    (appendRowAt G a).bind fun H1 =>
      match H1[a]? with
      | none => .panic
      | some t1 => .ok (H1.set a { t1 with isStructShape := true })
  else .ok G

/-- The value that was read is put into the last column. -/
def putValue (a : Addr) (H3 : Heap) (cells : List (Cell Addr)) : Out Heap :=
  match cells[0]?, H3[a]? with
  | some val, some t3 =>
    match t3.rows[0]? with
    | none => .panic
    | some row =>
      match t3.setValByColIndex ((row.length : Int) - 1) 0 val with
      | (t4, .ok ()) => .ok (H3.set a t4)
      | (_, .err e) => .err e
      | (_, .panic) => .panic
  | _, _ => .panic

theorem stepStructValue_eq (env : TextEnv) {G : Heap} {a : Addr} {t0 : Table Addr} (ht0 : G[a]? = some t0) (line : GoStr) (ws : List GoStr) (c tyn : GoStr) :
    stepStructValue env G a line ws c tyn =
      match afterEquals line with
      | none => .err .syntaxErr
      | some v =>
        if ws.length < 4 then .err .syntaxErr
        else (withRow G a t0).bind fun H2 => (readRow env a H2 [c] [tyn] (trimBlankLines v)).bind fun x => putValue a x.1 x.2 := by
  unfold stepStructValue
  cases afterEquals line with
  | none => rfl
  | some v =>
    simp only [ht0]
    rfl

/-- Before the value of a line is read the table has a zero in its place. -/
theorem structPrep {H : Heap} {a : Addr} {n : GoStr} {cols : List (GoStr × ColType)} {row : List (Cell Addr)} (hal : a < H.length)
    (hrow : RowOK (cols.map Prod.snd) row) (c : GoStr) (ty : ColType) (nt : Nat → Nat → Addr) (G : Heap)
    (hG : G = H.set a (readTableOf n (cols ++ [(c, ty)]) (addZeroCol nt cols.length ty (structRows cols row)) true) ++ List.replicate (structRows cols row).length newNilTable) :
    ∃ z : Cell Addr, z.HasType ty ∧ ∃ t0 : Table Addr, G[a]? = some t0 ∧
      withRow G a t0 = .ok (H.set a (readTableOf n (cols ++ [(c, ty)]) [row ++ [z]] true) ++ [spare a cols.isEmpty]) := by
  by_cases he : cols = []
  · subst he
    have hr0 : row = [] := List.eq_nil_of_length_eq_zero (by simpa using hrow.1)
    subst hr0
    simp only [structRows, if_true, addZeroCol, List.mapIdx_nil, List.length_nil, List.replicate_zero, List.append_nil, List.nil_append] at hG
    subst hG
    refine ⟨zeroCell ((H.set a (readTableOf n [(c, ty)] [] true)).length + 0) ty, zeroCell_hasType _ _, _, List.getElem?_set_self hal, ?_⟩
    have hget : (H.set a (readTableOf n [(c, ty)] [] true))[a]? = some (readTableOf n [(c, ty)] [] true) := List.getElem?_set_self hal
    have happ := appendRow_eq (fun (x _ : Nat) => (H.set a (readTableOf n [(c, ty)] [] true)).length + x) (t := readTableOf n [(c, ty)] [] true) rfl rfl
    have hA : appendRowAt (H.set a (readTableOf n [(c, ty)] [] true)) a =
        .ok ((H.set a (readTableOf n [(c, ty)] [] true)).set a
          (readTableOf n [(c, ty)] [[zeroCell ((H.set a (readTableOf n [(c, ty)] [] true)).length + 0) ty]] true) ++ [spare a true]) := by
      simp only [appendRowAt, hget]
      rw [happ]
      rfl
    rw [withRow, if_pos (show (readTableOf n [(c, ty)] [] true).rowCount = 0 from rfl), hA, List.set_set]
    have hget2 : (H.set a (readTableOf n [(c, ty)] [[zeroCell ((H.set a (readTableOf n [(c, ty)] [] true)).length + 0) ty]] true) ++ [spare a true])[a]? =
        some (readTableOf n [(c, ty)] [[zeroCell ((H.set a (readTableOf n [(c, ty)] [] true)).length + 0) ty]] true) := by
      rw [List.getElem?_append_left (by simpa using hal), List.getElem?_set_self hal]
    simp only [Out.bind, hget2]
    rw [List.set_append_left _ _ (by simpa using hal), List.set_set]
    rfl
  · simp only [structRows, if_neg he, addZeroCol, List.mapIdx_cons, List.mapIdx_nil, List.length_cons, List.length_nil, List.replicate_one] at hG
    subst hG
    refine ⟨zeroCell (nt cols.length 0) ty, zeroCell_hasType _ _, readTableOf n (cols ++ [(c, ty)]) [row ++ [zeroCell (nt cols.length 0) ty]] true, ?_, ?_⟩
    · rw [List.getElem?_append_left (by simpa using hal), List.getElem?_set_self hal]
    · rw [withRow, if_neg (by simp [rowCount, readTableOf])]
      have : cols.isEmpty = false := by simpa using he
      rw [this]
      rfl

theorem stepStructValue_iff {env : TextEnv} (hF : NanOK env.float) {H : Heap} {a : Addr} {n : GoStr} {cols : List (GoStr × ColType)} {row : List (Cell Addr)}
    (hal : a < H.length) (hn : TableName n) (hc : ∀ c ∈ cols, ColName c.1) (hnd : (cols.map Prod.fst).Nodup)
    (hrow : RowOK (cols.map Prod.snd) row) (c : GoStr) (hcn : ColName c) (hnew : c ∉ cols.map Prod.fst) (ty : ColType) (nt : Nat → Nat → Addr) (G : Heap)
    (hG : G = H.set a (readTableOf n (cols ++ [(c, ty)]) (addZeroCol nt cols.length ty (structRows cols row)) true) ++ List.replicate (structRows cols row).length newNilTable)
    {line : GoStr} (hl : 10 ∉ line) (ws : List GoStr) (H' : Heap) :
    stepStructValue env G a line ws c ty.name = .ok H' ↔
      4 ≤ ws.length ∧ ∃ value H1 cell, FieldValue line value ∧ RowReads env a [ty] (H ++ [spare a cols.isEmpty]) value H1 [cell] ∧
        H' = H1.set a (readTableOf n (cols ++ [(c, ty)]) [row ++ [cell]] true) := by
  obtain ⟨z, hz, t0, ht0, hprep⟩ := structPrep (n := n) hal hrow c ty nt G hG
  have hc' : ∀ x ∈ cols ++ [(c, ty)], ColName x.1 := by
    intro x hm
    rcases List.mem_append.1 hm with hm | hm
    · exact hc x hm
    · simp only [List.mem_singleton] at hm
      rw [hm]; exact hcn
  have hnd' : ((cols ++ [(c, ty)]).map Prod.fst).Nodup := by
    rw [List.map_append, List.nodup_append]
    refine ⟨hnd, by simp, ?_⟩
    intro x hx y hy
    simp only [List.map_cons, List.map_nil, List.mem_singleton] at hy
    rintro rfl
    exact hnew (hy ▸ hx)
  have hwz : WF (readTableOf n (cols ++ [(c, ty)]) [row ++ [z]] true) := WF.readTableOf hn hc' hnd' true _ (by
    intro r hr
    simp only [List.mem_singleton] at hr
    rw [hr, List.map_append]
    exact hrow.append hz)
  have hrl : row.length = cols.length := by rw [hrow.1]; simp
  generalize hT : readTableOf n (cols ++ [(c, ty)]) [row ++ [z]] true = T at hprep hwz
  have hread := fun v (hv : 10 ∉ v) => readRow_iff hF a [c] [ty] rfl (H.set a T ++ [spare a cols.isEmpty]) v hv
  -- what follows the reading of the value
  have hfin : ∀ K (cell : Cell Addr), cell.HasType ty →
      putValue a (H.set a T ++ [spare a cols.isEmpty] ++ K) [cell] = .ok ((H ++ [spare a cols.isEmpty] ++ K).set a (readTableOf n (cols ++ [(c, ty)]) [row ++ [cell]] true)) := by
    intro K cell hty
    have hg : (H.set a T ++ [spare a cols.isEmpty] ++ K)[a]? = some T := by
      rw [List.append_assoc, List.getElem?_append_left (by simpa using hal), List.getElem?_set_self hal]
    have hr : T.rows[0]? = some (row ++ [z]) := by rw [← hT]; rfl
    have hs := setVal_last (n := n) (c := c) (z := z) (hT ▸ hwz) hrl hty
    rw [hT] at hs
    simp only [putValue, List.getElem?_cons_zero, hg, hr, hs]
    rw [List.append_assoc, List.append_assoc, List.set_append_left _ _ (by simpa using hal), List.set_append_left _ _ hal, List.set_set]
  constructor
  · intro h
    rw [stepStructValue_eq env ht0, hprep] at h
    split at h
    · simp at h
    · next v hv =>
      split at h
      · simp at h
      · next h4 =>
        simp only [Out.bind] at h
        have hfv : FieldValue line (trimBlankLines v) := (fieldValue_iff _ _).2 ⟨v, hv, rfl⟩
        cases hr : readRow env a (H.set a T ++ [spare a cols.isEmpty]) [c] [ty.name] (trimBlankLines v) with
        | err e => rw [hr] at h; simp at h
        | panic => rw [hr] at h; simp at h
        | ok x =>
          obtain ⟨H3, cells⟩ := x
          have hrr := (hread _ (hfv.noNewline hl) H3 cells).1 hr
          have hlen := hrr.grows.2
          match cells, hlen with
          | [cell], _ =>
            have hty := hrr.typed hF (hfv.noNewline hl)
            obtain ⟨K, rfl, hK⟩ := hrr.transport
            rw [hr] at h
            simp only at h
            rw [hfin K cell hty] at h
            simp only [Out.ok.injEq] at h
            exact ⟨by omega, _, _, cell, hfv, hK (H ++ [spare a cols.isEmpty]) (by simp), h.symm⟩
  · rintro ⟨h4, value, H1, cell, hfv, hrr, rfl⟩
    obtain ⟨v, hv, rfl⟩ := (fieldValue_iff _ _).1 hfv
    have hty := hrr.typed hF (hfv.noNewline hl)
    obtain ⟨K, rfl, hK⟩ := hrr.transport
    have hr := (hread _ (hfv.noNewline hl) _ _).2 (hK (H.set a T ++ [spare a cols.isEmpty]) (by simp))
    have hr' : readRow env a (H.set a T ++ [spare a cols.isEmpty]) [c] [ty.name] (trimBlankLines v) = _ := hr
    rw [stepStructValue_eq env ht0, hprep, hv]
    simp only
    rw [if_neg (by omega)]
    simp only [Out.bind, hr']
    exact hfin K cell hty

theorem stepStruct_value_iff {env : TextEnv} (hF : NanOK env.float) {p : PState} {n : GoStr} {cols : List (GoStr × ColType)} {row : List (Cell Addr)} {b : Bool}
    (hn : TableName n) (hc : ∀ c ∈ cols, ColName c.1) (hnd : (cols.map Prod.fst).Nodup) (hrow : RowOK (cols.map Prod.snd) row)
    (ht : p.heap[p.table]? = some (readTableOf n cols (structRows cols row) b)) (hd : p.structHasRowData = true)
    {line : GoStr} (hl : 10 ∉ line) (ws : List GoStr) (p' : PState) :
    stepStruct env p line ws = .ok p' ↔
      ∃ c ty w1 w2 more value H1 cell, ws = c :: ColType.name ty :: w1 :: w2 :: more ∧ ColName c ∧ c ∉ cols.map Prod.fst ∧ FieldValue line value ∧
        RowReads env p.table [ty] (p.heap ++ [spare p.table cols.isEmpty]) value H1 [cell] ∧
        p' = { p with heap := H1.set p.table (readTableOf n (cols ++ [(c, ty)]) [row ++ [cell]] true) } := by
  have hal := (List.getElem?_eq_some_iff.1 ht).1
  have hwf : WF (readTableOf n cols (structRows cols row) true) := WF.readTableOf hn hc hnd true _ (by
    intro r hr
    unfold structRows at hr
    split at hr
    · simp at hr
    · simp only [List.mem_singleton] at hr; rw [hr]; exact hrow)
  have hadd := fun c tyn G => appendColAt_iff (H := p.heap.set p.table (readTableOf n cols (structRows cols row) true)) (a := p.table) (List.getElem?_set_self hal) hwf c tyn G
  have hst : ({ readTableOf n cols (structRows cols row) b with isStructShape := true } : Table Addr) = readTableOf n cols (structRows cols row) true := rfl
  constructor
  · intro h
    unfold stepStruct at h
    rw [ht] at h
    simp only [hst] at h
    split at h
    · next c tyn more =>
      split at h
      · simp at h
      · split at h
        · simp at h
        · obtain ⟨G, hG, h⟩ := Out.bind_ok h
          obtain ⟨ty, rfl, h1, h2, hG⟩ := (hadd c tyn G).1 hG
          obtain ⟨H2, hH2, hres⟩ := Out.bind_ok h
          rw [List.set_set] at hG
          obtain ⟨h4, value, H1, cell, hfv, hrr, e⟩ := (stepStructValue_iff hF hal hn hc hnd hrow c h1 h2 ty _ G hG hl _ H2).1 hH2
          simp only [Out.ok.injEq] at hres
          rw [e] at hres
          match more, h4 with
          | w1 :: w2 :: more, _ => exact ⟨c, ty, w1, w2, more, value, H1, cell, rfl, h1, h2, hfv, hrr, hres.symm⟩
    · simp at h
  · rintro ⟨c, ty, w1, w2, more, value, H1, cell, rfl, h1, h2, hfv, hrr, rfl⟩
    have hG := (hadd c ty.name _).2 ⟨ty, rfl, h1, h2, rfl⟩
    unfold stepStruct
    rw [ht]
    simp only [hst]
    rw [if_neg (by rw [(colName_iff c).1 h1]; simp), if_neg (by rw [ofName?_name]; simp), hG]
    simp only [Out.bind, hd, if_true]
    rw [(stepStructValue_iff hF hal hn hc hnd hrow c h1 h2 ty _ _ (by rw [List.set_set]) hl _ _).2 ⟨by simp, value, H1, cell, hfv, hrr, rfl⟩]

theorem stepStruct_field_iff {env : TextEnv} {p : PState} {H : Heap} {n : GoStr} {cols : List (GoStr × ColType)} {b : Bool}
    (hn : TableName n) (hc : ∀ c ∈ cols, ColName c.1) (hnd : (cols.map Prod.fst).Nodup)
    (hh : p.heap = H ++ [readTableOf n cols [] b]) (ha : p.table = H.length) (hd : p.structHasRowData = false) (line : GoStr) (ws : List GoStr) (p' : PState) :
    stepStruct env p line ws = .ok p' ↔
      ∃ c ty more, ws = c :: ColType.name ty :: more ∧ ColName c ∧ c ∉ cols.map Prod.fst ∧ p' = { p with heap := H ++ [readTableOf n (cols ++ [(c, ty)]) [] true] } := by
  have ht : p.heap[p.table]? = some (readTableOf n cols [] b) := by rw [hh, ha]; simp
  have hst : ({ readTableOf n cols [] b with isStructShape := true } : Table Addr) = readTableOf n cols [] true := rfl
  have hset : p.heap.set p.table (readTableOf n cols [] true) = H ++ [readTableOf n cols [] true] := by rw [hh, ha]; simp
  have hadd : ∀ c tyn G, appendColAt (H ++ [readTableOf n cols [] true]) p.table c tyn = .ok G ↔
      ∃ ty : ColType, tyn = ty.name ∧ ColName c ∧ c ∉ cols.map Prod.fst ∧ G = H ++ [readTableOf n (cols ++ [(c, ty)]) [] true] := by
    intro c tyn G
    rw [ha]
    exact appendColAt_bare (H := H) (WF.readTableOf hn hc hnd true [] (by simp)) c tyn G
  constructor
  · intro h
    unfold stepStruct at h
    rw [ht] at h
    simp only [hst, hset] at h
    split at h
    · next c tyn more =>
      split at h
      · simp at h
      · split at h
        · simp at h
        · obtain ⟨G, hG, h⟩ := Out.bind_ok h
          obtain ⟨ty, rfl, h1, h2, rfl⟩ := (hadd c tyn G).1 hG
          rw [if_neg (by simp [hd])] at h
          simp only [Out.ok.injEq] at h
          exact ⟨c, ty, more, rfl, h1, h2, h.symm⟩
    · simp at h
  · rintro ⟨c, ty, more, rfl, h1, h2, rfl⟩
    unfold stepStruct
    rw [ht]
    simp only [hst, hset]
    rw [if_neg (by rw [(colName_iff c).1 h1]; simp), if_neg (by rw [ofName?_name]; simp), (hadd c ty.name _).2 ⟨ty, rfl, h1, h2, rfl⟩]
    simp only [Out.bind, hd, Bool.false_eq_true, if_false]

end Verif
