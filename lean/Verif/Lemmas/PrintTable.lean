import Verif.Lemmas.PrintCell
import Verif.Lemmas.ParseBlock

/-!
# Lemmas: printed tables consist of lines that are parsed back
-/

namespace Verif
open Table

theorem Pointwise.length {α β : Type} {R : α → β → Prop} : ∀ {as : List α} {bs : List β}, Pointwise R as bs → as.length = bs.length
  | [], [], _ => rfl
  | _ :: _, _ :: _, h => by simp [Pointwise.length h.2]

theorem Pointwise.get {α β : Type} {R : α → β → Prop} : ∀ {as : List α} {bs : List β}, Pointwise R as bs → ∀ (i : Nat) a, as[i]? = some a →
    ∃ b, bs[i]? = some b ∧ R a b
  | a :: _, b :: _, h, 0, a', e => ⟨b, rfl, by simp at e; rw [← e]; exact h.1⟩
  | _ :: _, _ :: _, h, i + 1, a', e => by simpa using Pointwise.get h.2 i a' (by simpa using e)

theorem Pointwise.back {α β : Type} {R : α → β → Prop} : ∀ {as : List α} {bs : List β}, Pointwise R as bs → ∀ (i : Nat) b, bs[i]? = some b →
    ∃ a, as[i]? = some a ∧ R a b
  | [], [], _, _, _, e => by simp at e
  | a :: _, b :: _, h, 0, b', e => ⟨a, rfl, by simp at e; rw [← e]; exact h.1⟩
  | _ :: _, _ :: _, h, i + 1, b', e => by simpa using Pointwise.back h.2 i b' (by simpa using e)

theorem Pointwise.mono {α β : Type} {R S : α → β → Prop} (hRS : ∀ a b, R a b → S a b) : ∀ {as : List α} {bs : List β}, Pointwise R as bs → Pointwise S as bs
  | [], [], _ => trivial
  | _ :: _, _ :: _, h => ⟨hRS _ _ h.1, Pointwise.mono hRS h.2⟩

/-! ## Lines of tokens -/

/-- The line consists of the tokens, with spaces between them and perhaps around them. -/
def LineToks (line : GoStr) (toks : List GoStr) : Prop :=
  ∃ a b t r, line = sp a ++ spaced t r ++ sp b ∧ toks = t :: r.map Prod.snd

theorem joinSep_spaced (t : GoStr) (ts : List GoStr) : joinSep [32] (t :: ts) = spaced t (ts.map fun x => (0, x)) := by
  induction ts generalizing t with
  | nil => rfl
  | cons x ts ih =>
    simp only [joinSep, List.map_cons, spaced, ih x]
    simp [sp]

theorem lineToks_join {toks : List GoStr} (h : toks ≠ []) : LineToks (joinSep [32] toks) toks := by
  match toks, h with
  | t :: ts, _ =>
    refine ⟨0, 0, t, ts.map fun x => (0, x), by simp [sp, joinSep_spaced], ?_⟩
    simp [List.map_map, Function.comp_def]

theorem LineToks.trim {line : GoStr} {toks : List GoStr} (h : LineToks line toks) (hs : ∀ x, toks.head? = some x → Starts x)
    (hl : ∀ x ∈ toks, ∃ c, x.getLast? = some c ∧ endByte c = true) :
    ∃ t r, trimSpace line = spaced t r ∧ toks = t :: r.map Prod.snd := by
  obtain ⟨a, b, t, r, rfl, rfl⟩ := h
  obtain ⟨c, hc, he⟩ := spaced_last t r hl
  exact ⟨t, r, trimSpace_core a b _ (spaced_starts t r (hs t rfl)) hc he, rfl⟩

theorem sp_noNewline (a : Nat) : 10 ∉ sp a := fun h => absurd (List.eq_of_mem_replicate h) (by decide)

theorem LineToks.noNewline {line : GoStr} {toks : List GoStr} (h : LineToks line toks) (hn : ∀ x ∈ toks, 10 ∉ x) : 10 ∉ line := by
  obtain ⟨a, b, t, r, rfl, rfl⟩ := h
  simp only [List.mem_append, not_or]
  exact ⟨⟨sp_noNewline a, spaced_noNewline t r hn⟩, sp_noNewline b⟩

theorem lineToks_names {line : GoStr} {names : List GoStr} (h : LineToks line names) (hv : ∀ n ∈ names, isValidColName n = true) :
    TokenLine line names ∧ 10 ∉ line := by
  have hb : ∀ n ∈ names, n ≠ [] ∧ ∀ c ∈ n, nameByte c = true := fun n hn => isValidName_bytes (isValidColName_name (hv n hn)).1
  have hnl : ∀ x ∈ names, 10 ∉ x := fun x hx hm => (nameByte_facts 10 ((hb x hx).2 10 hm)).2.2.1 rfl
  refine ⟨?_, h.noNewline hnl⟩
  obtain ⟨t, r, h1, h2⟩ := h.trim (fun x hx => starts_name (hb x (List.mem_of_mem_head? hx)).1 (hb x (List.mem_of_mem_head? hx)).2) (fun x hx => by
    cases hl : x.getLast? with
    | none => rw [List.getLast?_eq_none_iff] at hl; exact absurd hl (hb x hx).1
    | some c => exact ⟨c, rfl, (nameByte_facts c ((hb x hx).2 c (List.mem_of_getLast? hl))).1⟩)
  refine ⟨t, r, h1, h2, fun x hx => ⟨(hb x hx).1, fun c hc => (nameByte_facts c ((hb x hx).2 c hc)).2.1⟩, ?_⟩
  have ht := hb t (by rw [h2]; simp)
  match t, ht with
  | d :: ds, ht => exact ⟨d, ds, rfl, (nameByte_facts d (ht.2 d (by simp))).2.2.2.1⟩

theorem typeName_good (ty : ColType) : ty.name ≠ [] ∧ (∀ c ∈ ty.name, visible c = true ∧ isWhite c = false) ∧ ty.name.head? ≠ some 35 := by
  cases ty <;> decide

theorem GoodText.starts {s : GoStr} (h : GoodText s) : Starts s := by
  obtain ⟨⟨d, ds, rfl, h1, h2, _⟩, _⟩ := h
  exact starts_ascii h1 h2 ds

theorem lineToks_types {line : GoStr} {types : List ColType} (h : LineToks line (types.map ColType.name)) :
    TokenLine line (types.map ColType.name) ∧ 10 ∉ line := by
  have hg : ∀ x ∈ types.map ColType.name, GoodText x ∧ Token x := by
    intro x hx
    obtain ⟨ty, _, rfl⟩ := List.mem_map.1 hx
    have := typeName_good ty
    exact ⟨goodText_visible this.1 (fun c hc => (this.2.1 c hc).1) this.2.2, this.1, fun c hc => (this.2.1 c hc).2⟩
  refine ⟨?_, h.noNewline fun x hx => (hg x hx).1.2.2⟩
  obtain ⟨t, r, h1, h2⟩ := h.trim (fun x hx => (hg x (List.mem_of_mem_head? hx)).1.starts) (fun x hx => (hg x hx).1.2.1)
  refine ⟨t, r, h1, h2, fun x hx => (hg x hx).2, ?_⟩
  obtain ⟨⟨d, ds, hd, _, _, h35⟩, _⟩ := (hg t (by rw [h2]; simp)).1
  exact ⟨d, ds, hd, h35⟩

theorem notBlank_of {d : UInt8} (h : isSpaceRune d.toNat = false) : d ≠ 32 ∧ d ≠ 9 := by
  constructor <;> (rintro rfl; exact absurd h (by decide))

theorem lineToks_row (env : TextEnv) {line : GoStr} {items : List RowItem} (h : LineToks line (items.map fun y => y.2.1))
    (hg : ∀ y ∈ items, GoodText y.2.1 ∧ ReadsAs env y.1 y.2.1 y.2.2) :
    RowLine env (items.map fun y => y.1) line (items.map fun y => y.2.2) ∧ 10 ∉ line := by
  have hg' : ∀ x ∈ items.map fun y => y.2.1, GoodText x := by
    intro x hx
    obtain ⟨y, hy, rfl⟩ := List.mem_map.1 hx
    exact (hg y hy).1
  refine ⟨?_, h.noNewline fun x hx => (hg' x hx).2.2⟩
  obtain ⟨t, r, h1, h2⟩ := h.trim (fun x hx => (hg' x (List.mem_of_mem_head? hx)).starts) (fun x hx => (hg' x hx).2.1)
  match items, h2, hg with
  | x :: xs, h2, hg =>
    simp only [List.map_cons, List.cons.injEq] at h2
    refine ⟨x, xs, r, by rw [h1, h2.1], h2.2.symm, rfl, rfl, ?_, fun y hy => ⟨(hg y hy).2, ?_⟩⟩
    · obtain ⟨⟨d, ds, hd, _, _, h35⟩, _⟩ := (hg x (by simp)).1
      exact ⟨d, ds, hd, h35⟩
    · obtain ⟨⟨d, ds, hd, _, hsp, _⟩, _⟩ := (hg y hy).1
      exact ⟨d, ds, hd, notBlank_of hsp⟩

/-! ## Without padding -/

theorem plainType_facts {ty : ColType} (h : plainType ty = true) : ty.unpadded = true ∧ ty ≠ .table ∧ ty ≠ .time := by
  cases ty <;> simp_all [plainType, ColType.unpadded]

theorem row_items (P : PrintEnv) (hF : FloatOK P.text.float) (H : Heap) (types : List ColType) (cells : List (Cell Addr))
    (hty : ∀ ty ∈ types, ty ≠ .table ∧ ty ≠ .time) (hlen : cells.length = types.length)
    (hc : ∀ (i : Nat) (ty : ColType) (c : Cell Addr), types[i]? = some ty → cells[i]? = some c → c.HasType ty) (hs : Pointwise (fun ty c => TextSafe ty c) types cells) :
    ∃ items : List RowItem, Pointwise (fun (x : ColType × Cell Addr) (y : RowItem) => cellText P H x.1 x.2 = .ok y.2.1) (types.zip cells) items ∧ items.map (fun y => y.1) = types ∧
      Pointwise SameValue cells (items.map fun y => y.2.2) ∧ ∀ y ∈ items, GoodText y.2.1 ∧ ReadsAs P.text y.1 y.2.1 y.2.2 := by
  induction types generalizing cells with
  | nil =>
    match cells, hlen with
    | [], _ => exact ⟨[], trivial, rfl, trivial, by simp⟩
  | cons ty types ih =>
    match cells, hlen, hs with
    | c :: cells, hlen, hs =>
      have hp := hty ty (by simp)
      obtain ⟨s, c', h1, h2, h3, h4⟩ := cellText_reads P hF H (hc 0 ty c rfl rfl) hs.1 hp.1 hp.2
      obtain ⟨items, i1, i2, i3, i4⟩ := ih cells (fun x hx => hty x (by simp [hx])) (by simpa using hlen)
        (fun i ty c h1 h2 => hc (i + 1) ty c (by simpa using h1) (by simpa using h2)) hs.2
      refine ⟨(ty, s, c') :: items, ⟨h1, i1⟩, by simp [i2], ⟨h4, i3⟩, ?_⟩
      intro y hy
      rcases List.mem_cons.1 hy with rfl | hy
      · exact ⟨h2, h3⟩
      · exact i4 y hy

theorem rowUnpadded_items (P : PrintEnv) (hF : FloatOK P.text.float) (H : Heap) (types : List ColType) (cells : List (Cell Addr))
    (hty : ∀ ty ∈ types, plainType ty = true) (hlen : cells.length = types.length)
    (hc : ∀ (i : Nat) (ty : ColType) (c : Cell Addr), types[i]? = some ty → cells[i]? = some c → c.HasType ty) (hs : Pointwise (fun ty c => TextSafe ty c) types cells) :
    ∃ items : List RowItem, rowUnpadded P H types cells = .ok (some (items.map fun y => y.2.1)) ∧ items.map (fun y => y.1) = types ∧
      Pointwise SameValue cells (items.map fun y => y.2.2) ∧ ∀ y ∈ items, GoodText y.2.1 ∧ ReadsAs P.text y.1 y.2.1 y.2.2 := by
  obtain ⟨items, h1, h2, h3, h4⟩ := row_items P hF H types cells (fun ty h => (plainType_facts (hty ty h)).2) hlen hc hs
  refine ⟨items, ?_, h2, h3, h4⟩
  clear h2 h3 h4 hc hs
  induction types generalizing cells items with
  | nil =>
    match items, h1 with
    | [], _ => rfl
  | cons ty types ih =>
    match cells, items, hlen, h1 with
    | c :: cells, y :: items, hlen, h1 =>
      have := ih cells (fun x hx => hty x (by simp [hx])) (by simpa using hlen) items h1.2
      simp [rowUnpadded, (plainType_facts (hty ty (by simp))).1, h1.1, this, Out.bind]

theorem rowsUnpadded_lines (P : PrintEnv) (hF : FloatOK P.text.float) (H : Heap) (types : List ColType) (hne : types ≠ []) (rows : List (List (Cell Addr)))
    (hty : ∀ ty ∈ types, plainType ty = true) (hok : ∀ row ∈ rows, row.length = types.length ∧
      (∀ (i : Nat) (ty : ColType) (c : Cell Addr), types[i]? = some ty → row[i]? = some c → c.HasType ty) ∧ Pointwise (fun ty c => TextSafe ty c) types row) :
    ∃ rs rows', rowsUnpadded P H types rows = .ok (some rs) ∧ Pointwise (RowLine P.text types) (rs.map (joinSep [32])) rows' ∧ SameRows rows rows' ∧
      ∀ l ∈ rs, 10 ∉ joinSep [32] l := by
  induction rows with
  | nil => exact ⟨[], [], rfl, trivial, trivial, by simp⟩
  | cons row rows ih =>
    obtain ⟨hl, hc, hs⟩ := hok row (by simp)
    obtain ⟨items, i1, i2, i3, i4⟩ := rowUnpadded_items P hF H types row hty hl hc hs
    obtain ⟨rs, rows', r1, r2, r3, r4⟩ := ih fun r hr => hok r (by simp [hr])
    have hitems : items.map (fun y => y.2.1) ≠ [] := by
      intro e
      rw [List.map_eq_nil_iff] at e
      rw [e] at i2
      exact hne i2.symm
    obtain ⟨l1, l2⟩ := lineToks_row P.text (lineToks_join hitems) i4
    rw [i2] at l1
    refine ⟨(items.map fun y => y.2.1) :: rs, (items.map fun y => y.2.2) :: rows', ?_, ⟨l1, r2⟩, ⟨i3, r3⟩, ?_⟩
    · simp [rowsUnpadded, i1, r1, Out.bind]
    · intro l hl
      rcases List.mem_cons.1 hl with rfl | hl
      · exact l2
      · exact r4 l hl

theorem headerLine_noNewline {n : GoStr} (h : isValidTableName n = true) : 10 ∉ headerLine n := by
  intro hm
  simp only [headerLine, List.cons_append, List.mem_cons, List.mem_append, List.not_mem_nil, or_false] at hm
  rcases hm with hm | hm | hm
  · exact absurd hm (by decide)
  · exact (nameByte_facts 10 ((isValidName_bytes (isValidTableName_name h)).2 10 hm)).2.2.1 rfl
  · exact absurd hm (by decide)

/-- The text of lines. -/
def unlines (ls : List GoStr) : GoStr := (ls.map fun l => l ++ [10]).flatten

theorem stringUnpadded_lines (P : PrintEnv) (hF : FloatOK P.text.float) (H : Heap) {t : Table Addr} (h : Writable plainType t)
    (hshape : t.isStructShape = false ∨ 1 < t.rows.length) :
    ∃ ls rows', stringUnpadded P H t = .ok (unlines ls) ∧ TableLines P.text t.name t.colNames t.colTypes rows' ls ∧ SameRows t.rows rows' ∧
      ls ≠ [] ∧ ∀ l ∈ ls, 10 ∉ l := by
  have hs : ¬ (t.isStructShape = true ∧ t.rows.length ≤ 1) := by
    rintro ⟨h1, h2⟩
    rcases hshape with h | h
    · simp [h] at h1
    · omega
  have hh := headerLine_noNewline (h.wf.nameValid h.notNil)
  by_cases hn : t.colNames = []
  · have ht : t.colTypes = [] := by
      have := h.wf.typesLen
      rw [hn] at this
      exact List.eq_nil_of_length_eq_zero this
    have hr := h.hasCols hn
    refine ⟨[headerLine t.name], [], ?_, ?_, ?_, by simp, ?_⟩
    · rw [stringUnpadded, if_neg hs]
      simp [hr, rowsUnpadded, hn, ht, Out.bind, unlines, headerLine]
    · rw [hn, ht]; exact .noCols
    · rw [hr]; exact trivial
    · simpa using hh
  · have ht : t.colTypes ≠ [] := by
      intro e
      have := h.wf.typesLen
      rw [e] at this
      exact hn (List.eq_nil_of_length_eq_zero this.symm)
    obtain ⟨rs, rows', r1, r2, r3, r4⟩ := rowsUnpadded_lines P hF H t.colTypes ht t.rows h.colTypes fun row hr => by
      have hrow := h.wf.rowsOK row hr
      refine ⟨hrow.1, hrow.2, h.safe row hr⟩
    obtain ⟨n1, n2⟩ := lineToks_names (lineToks_join hn) h.wf.namesValid
    obtain ⟨t1, t2⟩ := lineToks_types (lineToks_join (toks := t.colTypes.map ColType.name) (by simpa using ht))
    refine ⟨headerLine t.name :: joinSep [32] t.colNames :: joinSep [32] (t.colTypes.map ColType.name) :: rs.map (joinSep [32]), rows', ?_, .cols n1 t1 r2, r3,
      by simp, ?_⟩
    · simp only [stringUnpadded, hs, if_false, r1, Out.bind, hn, ht, unlines, textLine]
      simp [headerLine, List.map_map, Function.comp_def]
      rfl
    · intro l hl
      simp only [List.mem_cons, List.mem_map] at hl
      rcases hl with rfl | rfl | rfl | ⟨l', hl', rfl⟩
      · exact hh
      · exact n2
      · exact t2
      · exact r4 l' hl'

/-! ## Parsing several tables -/

/-- A table as written: the name, columns, types and rows to be read from the lines. -/
structure Block where
  name : GoStr
  names : List GoStr
  types : List ColType
  rows : List (List (Cell Addr))
  lines : List GoStr

/-- The lines are those of a table. -/
structure Block.OK (env : TextEnv) (b : Block) : Prop where
  lines : TableLines env b.name b.names b.types b.rows b.lines
  name : isValidTableName b.name = true
  ascii : Ascii b.name
  len : b.types.length = b.names.length
  names : ∀ n ∈ b.names, isValidColName n = true
  nodup : b.names.Nodup
  ne : b.lines ≠ []
  noNewline : ∀ l ∈ b.lines, 10 ∉ l

/-- The table that is parsed. -/
structure Parsed (b : Block) (t : Table Addr) : Prop where
  name : t.name = b.name
  colNames : t.colNames = b.names
  colTypes : t.colTypes = b.types
  rows : t.rows = b.rows
  shape : t.isStructShape = false
  notNil : t.isNilTable = false
  keys : t.sortKeys = []

theorem nameAt_new (H : Heap) (t : Table Addr) : nameAt (H ++ [t]) H.length = t.name := by simp [nameAt]

theorem setNames_new (H : Heap) (set : TableSet) (t : Table Addr) (hb : ∀ a ∈ set.tables, a < H.length) :
    setNames (H ++ [t]) { set with tables := set.tables ++ [H.length] } = setNames H set ++ [t.name] := by
  have : setNames (H ++ [t]) set = setNames H set := by
    refine setNames_congr fun a ha => ?_
    simp only [nameAt]
    rw [List.getElem?_append_left (hb a ha)]
  simp only [setNames, List.map_append, List.map_cons, List.map_nil, nameAt_new] at this ⊢
  rw [this]

theorem runBlocks (env : TextEnv) (bs : List Block) (hbs : ∀ b ∈ bs, b.OK env) (p : PState) (hexp : p.expecting = .tableName)
    (hb : ∀ a ∈ p.set.tables, a < p.heap.length) (hnew : ∀ b ∈ bs, b.name ∉ setNames p.heap p.set) (hnd : (bs.map Block.name).Nodup) :
    ∃ p' ts, runLines env p (bs.map fun b => b.lines ++ [[]]).flatten = .ok p' ∧ p'.heap = p.heap ++ ts ∧
      p'.set = { p.set with tables := p.set.tables ++ List.range' p.heap.length bs.length } ∧ Pointwise Parsed bs ts := by
  induction bs generalizing p with
  | nil => exact ⟨p, [], by simp [runLines], by simp, by simp, trivial⟩
  | cons b bs ih =>
    have hbo := hbs b (by simp)
    obtain ⟨p1, t, h1, h2, h3, h4, hP⟩ := runTable env hbo.lines hbo.name hbo.ascii hbo.len hbo.names hbo.nodup p hexp hb (hnew b (by simp))
    simp only [List.map_cons, List.nodup_cons] at hnd
    have hlen : p1.heap.length = p.heap.length + 1 := by rw [h2]; simp
    obtain ⟨p2, ts, g1, g2, g3, g4⟩ := ih (fun x hx => hbs x (by simp [hx])) { p1 with expecting := .tableName } rfl
      (by
        intro a ha
        simp only [h3, List.mem_append, List.mem_singleton] at ha
        show a < p1.heap.length
        rw [hlen]
        rcases ha with ha | ha
        · exact Nat.lt_succ_of_lt (hb a ha)
        · rw [ha]; exact Nat.lt_succ_self _)
      (by
        intro x hx
        show x.name ∉ setNames p1.heap p1.set
        rw [h2, h3, setNames_new _ _ _ hb, hP.1]
        simp only [List.mem_append, List.mem_singleton, not_or]
        exact ⟨hnew x (by simp [hx]), fun e => hnd.1 (by rw [← e]; exact List.mem_map_of_mem hx)⟩) hnd.2
    refine ⟨p2, t :: ts, ?_, ?_, ?_, ⟨hP.1, hP.2.1, hP.2.2.1, hP.2.2.2.1, hP.2.2.2.2.1, hP.2.2.2.2.2.1, hP.2.2.2.2.2.2⟩, g4⟩
    · simp only [List.map_cons, List.flatten_cons, List.append_assoc]
      rw [runLines_append, h1]
      simp only [Out.bind, List.cons_append, List.nil_append, runLines]
      have : trimSpace ([] : GoStr) = [] := rfl
      simp only [this, step, h4, if_false, Out.bind]
      exact g1
    · rw [g2, h2]; simp
    · rw [g3, h3, hlen]
      simp [List.range'_succ]

theorem splitLines_blocks (env : TextEnv) (bs : List Block) (hbs : ∀ b ∈ bs, b.OK env) (hne : bs ≠ []) :
    splitLines (joinSep [10] (bs.map fun b => unlines b.lines)) = (bs.map fun b => b.lines ++ [[]]).flatten := by
  induction bs with
  | nil => exact absurd rfl hne
  | cons b bs ih =>
    have hb := (hbs b (by simp)).noNewline
    cases bs with
    | nil =>
      have := splitLines_lines b.lines [] hb
      simpa [joinSep, unlines, splitLines] using this
    | cons b' bs =>
      have hi := ih (fun x hx => hbs x (by simp [hx])) (by simp)
      simp only [List.map_cons, joinSep, List.append_assoc] at hi ⊢
      rw [unlines, splitLines_lines b.lines _ hb]
      simp only [List.cons_append, List.nil_append, splitLines, if_true]
      rw [hi]
      simp

theorem splitLines_ne (s : GoStr) : splitLines s ≠ [] := by
  match s with
  | [] => simp [splitLines]
  | c :: cs =>
    rw [splitLines.eq_def]
    simp only
    split
    · simp
    · split <;> simp

/-- The blocks are parsed, from a state in which the name of a table is expected. -/
theorem parseLines_blocks (env : TextEnv) (bs : List Block) (hbs : ∀ b ∈ bs, b.OK env) (hnd : (bs.map Block.name).Nodup) (p : PState) (hexp : p.expecting = .tableName)
    (htab : p.set.tables = []) :
    ∃ p' ts, parseLines env p (splitLines (joinSep [10] (bs.map fun b => unlines b.lines))) = .ok p' ∧ p'.heap = p.heap ++ ts ∧
      p'.set = { p.set with tables := List.range' p.heap.length bs.length } ∧ Pointwise Parsed bs ts := by
  by_cases hne : bs = []
  · subst hne
    refine ⟨p, [], ?_, by simp, ?_, trivial⟩
    · obtain ⟨_, _, _, _, _, _, _, _, _⟩ := p
      simp only at hexp
      subst hexp
      simp [joinSep, splitLines, parseLines, Out.bind, step, trimSpace, trimSpaceLeft, trimSpaceRev]
    · obtain ⟨_, ⟨_, _, _⟩, _, _, _, _, _, _, _⟩ := p
      simp only at htab
      subst htab
      rfl
  · obtain ⟨p', ts, h1, h2, h3, h4⟩ := runBlocks env bs hbs p hexp (by simp [htab]) (by simp [setNames, htab]) hnd
    rw [htab, List.nil_append] at h3
    refine ⟨p', ts, ?_, h2, h3, h4⟩
    rw [splitLines_blocks env bs hbs hne]
    have hsplit : ∀ l : List Block, l ≠ [] → ∃ X : List GoStr, (l.map fun b => b.lines ++ [[]]).flatten = X ++ [[]] := by
      intro l
      induction l with
      | nil => intro h; exact absurd rfl h
      | cons b l ih =>
        intro _
        by_cases hl : l = []
        · exact ⟨b.lines, by simp [hl]⟩
        · obtain ⟨X, hX⟩ := ih hl
          exact ⟨b.lines ++ [[]] ++ X, by simp only [List.map_cons, List.flatten_cons, hX, List.append_assoc]⟩
    obtain ⟨X, hX⟩ := hsplit bs hne
    rw [hX] at h1 ⊢
    rw [parseLines_append _ _ _ _ (by simp)]
    rw [runLines_append] at h1
    cases hr : runLines env p X with
    | err e => rw [hr] at h1; simp [Out.bind] at h1
    | panic => rw [hr] at h1; simp [Out.bind] at h1
    | ok q =>
      rw [hr] at h1
      have e : trimSpace ([] : GoStr) = [] := rfl
      simp only [Out.bind, runLines, parseLines, e, step] at h1 ⊢
      by_cases hc : q.expecting = .colTypes
      · simp [hc] at h1
      · simp only [hc, if_false, Out.ok.injEq] at h1
        simp only [hc, if_false, if_true, Bool.false_eq_true, h1]

theorem parseBlocks (env : TextEnv) (H0 : Heap) (bs : List Block) (hbs : ∀ b ∈ bs, b.OK env) (hnd : (bs.map Block.name).Nodup) :
    ∃ ts, newTableSetFromString env H0 (joinSep [10] (bs.map fun b => unlines b.lines)) =
      .ok (H0 ++ ts, { newTableSet [] with tables := List.range' H0.length bs.length }) ∧ Pointwise Parsed bs ts := by
  obtain ⟨p', ts, h1, h2, h3, h4⟩ := parseLines_blocks env bs hbs hnd (startState H0) rfl rfl
  refine ⟨ts, ?_, h4⟩
  rw [newTableSetFromString, h1]
  simp only [Out.bind, h2, h3]
  rfl

/-- The name of a set before the blocks. -/
theorem parseBlocks_named (env : TextEnv) (H0 : Heap) (name : GoStr) (hname : isValidName name = true) (hascii : Ascii name) (bs : List Block) (hbs : ∀ b ∈ bs, b.OK env)
    (hnd : (bs.map Block.name).Nodup) :
    ∃ ts, newTableSetFromString env H0 (gs! "[[" ++ name ++ gs! "]]\n\n" ++ joinSep [10] (bs.map fun b => unlines b.lines)) =
      .ok (H0 ++ ts, { newTableSet name with tables := List.range' H0.length bs.length }) ∧ Pointwise Parsed bs ts := by
  let p1 : PState := { startState H0 with set := { newTableSet [] with name := name }, nameSet := true }
  obtain ⟨p', ts, h1, h2, h3, h4⟩ := parseLines_blocks env bs hbs hnd p1 rfl rfl
  refine ⟨ts, ?_, h4⟩
  have hb := (isValidName_bytes hname).2
  have hnl : 10 ∉ gs! "[[" ++ name ++ gs! "]]" := by
    simp only [List.mem_append, not_or]
    exact ⟨⟨by decide, fun hm => (nameByte_facts 10 (hb 10 hm)).2.2.1 rfl⟩, by decide⟩
  have hsplit : splitLines (gs! "[[" ++ name ++ gs! "]]\n\n" ++ joinSep [10] (bs.map fun b => unlines b.lines)) =
      (gs! "[[" ++ name ++ gs! "]]") :: [] :: splitLines (joinSep [10] (bs.map fun b => unlines b.lines)) := by
    have := splitLines_lines [gs! "[[" ++ name ++ gs! "]]", []] (joinSep [10] (bs.map fun b => unlines b.lines)) (by
      intro l hl
      simp only [List.mem_cons, List.not_mem_nil, or_false] at hl
      rcases hl with rfl | rfl
      · exact hnl
      · simp)
    simpa using this
  have htrim : trimSpace (gs! "[[" ++ name ++ gs! "]]") = gs! "[[" ++ name ++ gs! "]]" := by
    have := trimSpace_core 0 0 (gs! "[[" ++ name ++ gs! "]]") (starts_ascii (by decide) (by decide) _) (c := 93)
      (by rw [List.getLast?_append]; rfl) (by decide)
    simpa [sp] using this
  have hs : hasSpace 0 (gs! "[[" ++ name ++ gs! "]]") = false := by
    refine hasSpace_ascii _ fun c hc => ?_
    simp only [List.mem_append] at hc
    rcases hc with (hc | hc) | hc
    · revert c; decide
    · exact ⟨hascii c hc, (nameByte_facts c (hb c hc)).2.2.2.2⟩
    · revert c; decide
  have hget : getTableSetName (gs! "[[" ++ name ++ gs! "]]") = some name := by
    have := scanName_valid hname hascii [93]
    simp only [getTableSetName, hs, Bool.false_eq_true, if_false]
    simp only [List.cons_append, List.nil_append, this]
  have hstep : step env (startState H0) (trimSpace (gs! "[[" ++ name ++ gs! "]]")) = .ok (p1, true) := by
    rw [htrim, step_line env _ (line := gs! "[[" ++ name ++ gs! "]]") ⟨91, 91 :: (name ++ gs! "]]"), by simp, by decide⟩]
    simp only [startState, stepTableName, hget, Bool.false_eq_true, if_false]
    rfl
  rw [newTableSetFromString, hsplit, parseLines, hstep]
  have e : trimSpace ([] : GoStr) = [] := rfl
  simp only [Out.bind, reduceCtorEq, if_false, parseLines, e, step, splitLines_ne, p1, startState]
  have h1' : parseLines env { p1 with expecting := .tableName } (splitLines (joinSep [10] (bs.map fun b => unlines b.lines))) = .ok p' := h1
  simp only [p1, startState] at h1'
  rw [h1']
  simp only [h2, h3]
  rfl

end Verif
