import Verif.Lemmas.JsonRead

/-!
# Lemmas: JSON texts of tables are read back, continued
-/

namespace Verif
open Table FloatFmt

variable {P : PrintEnv} {E : JsonEnv} {H : Heap} {V : Cell Addr → Cell Addr → Prop}

/-! ## Writing rows -/

theorem jsonCells_writes {nestedW : List Addr → Addr → Out (GoStr × List Addr)} {t : Table Addr} {r : Nat} {Q : Nat → JVal → Prop} :
    ∀ (l : List (Nat × GoStr)) (refs : List Addr) (ss : List GoStr) (refs' : List Addr), jsonCells P H nestedW t r refs l = .ok (ss, refs') →
      (∀ p ∈ l, ∀ refs s refs', jsonCell P H nestedW refs t r p.1 = .ok (s, refs') → ∃ v : JVal, s = v.render P.printable ∧ Q p.1 v) →
      ∃ os : List JVal, ss = os.map (fun o => o.render P.printable) ∧ Pointwise (fun p o => ∃ v : JVal, o = .obj [(p.2, v)] ∧ Q p.1 v) l os
  | [], refs, ss, refs', h, _ => by
    simp only [jsonCells, Out.ok.injEq, Prod.mk.injEq] at h
    exact ⟨[], by rw [← h.1]; rfl, trivial⟩
  | (j, n) :: l, refs, ss, refs', h, hq => by
    rw [jsonCells] at h
    cases h1 : jsonCell P H nestedW refs t r j with
    | err e => rw [h1] at h; cases h
    | panic => rw [h1] at h; cases h
    | ok p1 =>
      obtain ⟨s1, refs1⟩ := p1
      rw [h1] at h
      simp only [Out.bind] at h
      cases h2 : jsonCells P H nestedW t r refs1 l with
      | err e => rw [h2] at h; cases h
      | panic => rw [h2] at h; cases h
      | ok p2 =>
        obtain ⟨ss2, refs2⟩ := p2
        rw [h2] at h
        simp only [Out.ok.injEq, Prod.mk.injEq] at h
        obtain ⟨v, v1, v3⟩ := hq (j, n) (by simp) refs s1 refs1 h1
        obtain ⟨os, o1, o2⟩ := jsonCells_writes l refs1 ss2 refs2 h2 fun p hp => hq p (by simp [hp])
        refine ⟨.obj [(n, v)] :: os, ?_, ⟨v, rfl, v3⟩, o2⟩
        rw [← h.1, o1, v1]
        simp [JVal.render, renderMembers, renderMoreMembers]

theorem jsonRows_writes {nestedW : List Addr → Addr → Out (GoStr × List Addr)} {t : Table Addr} {Q : Nat → Nat → JVal → Prop} :
    ∀ (l : List Nat) (refs : List Addr) (ss : List GoStr) (refs' : List Addr), jsonRows P H nestedW t refs l = .ok (ss, refs') →
      (∀ r ∈ l, ∀ p ∈ (List.range t.colNames.length).zip t.colNames, ∀ refs s refs', jsonCell P H nestedW refs t r p.1 = .ok (s, refs') →
        ∃ v : JVal, s = v.render P.printable ∧ Q r p.1 v) →
      ∃ arrs : List JVal, ss = arrs.map (fun o => o.render P.printable) ∧ Pointwise (fun r o => ∃ os, o = .arr os ∧
        Pointwise (fun p o => ∃ v : JVal, o = .obj [(p.2, v)] ∧ Q r p.1 v) ((List.range t.colNames.length).zip t.colNames) os) l arrs
  | [], refs, ss, refs', h, _ => by
    simp only [jsonRows, Out.ok.injEq, Prod.mk.injEq] at h
    exact ⟨[], by rw [← h.1]; rfl, trivial⟩
  | r :: l, refs, ss, refs', h, hq => by
    rw [jsonRows] at h
    cases h1 : jsonCells P H nestedW t r refs ((List.range t.colNames.length).zip t.colNames) with
    | err e => rw [h1] at h; cases h
    | panic => rw [h1] at h; cases h
    | ok p1 =>
      obtain ⟨s1, refs1⟩ := p1
      rw [h1] at h
      simp only [Out.bind] at h
      cases h2 : jsonRows P H nestedW t refs1 l with
      | err e => rw [h2] at h; cases h
      | panic => rw [h2] at h; cases h
      | ok p2 =>
        obtain ⟨ss2, refs2⟩ := p2
        rw [h2] at h
        simp only [Out.ok.injEq, Prod.mk.injEq] at h
        obtain ⟨os, v1, v2⟩ := jsonCells_writes _ _ _ _ h1 (hq r (by simp))
        obtain ⟨arrs, o1, o2⟩ := jsonRows_writes l refs1 ss2 refs2 h2 fun p hp => hq p (by simp [hp])
        refine ⟨.arr os :: arrs, ?_, ⟨os, rfl, v2⟩, o2⟩
        rw [← h.1, o1, v1, joinSep_render]
        simp [JVal.render]

/-! ## Reading rows -/

theorem keeps_of {K K' : Heap} {a' : Addr} (h : ∀ x, x ≠ a' → x < K.length → K'[x]? = K[x]?) : KeepsFrom (a' + 1) K K' := by
  intro x t hx ht
  refine ⟨t.parent, ?_⟩
  rw [h x (fun e => by rw [e] at hx; exact Nat.not_succ_le_self _ hx) (List.getElem?_eq_some_iff.1 ht).1, ht]

theorem set_append {α : Type} (as : List α) (b c : α) (cs : List α) : (as ++ b :: cs).set as.length c = as ++ c :: cs := by
  induction as with
  | nil => rfl
  | cons a as ih => simp [ih]

/-- The rest of a row. -/
theorem jsonRow_ok {nested : Heap → List (GoStr × JVal) → Out (Heap × Addr)} {d : Nat} {a' : Addr} {types : List ColType} {done : List (List (Cell Addr))} :
    ∀ (os : List JVal) (cs : List (Cell Addr)) (pre rest : List (Cell Addr)) (K : Heap) (t' : Table Addr),
      (∀ (i : Nat) o, os[i]? = some o → ∃ n v ty c, o = .obj [(n, v)] ∧ types[pre.length + i]? = some ty ∧ cs[i]? = some c ∧ JsonReads V E H nested d v ty c) →
      cs.length = os.length → rest.length = os.length → K[a']? = some t' → WF t' → t'.colTypes = types → t'.rows = done ++ [pre ++ rest] →
      ∃ K' new, foldOut (fun H (p : Nat × JVal) => match p.2 with
          | .obj m => foldOut (readJsonCell E nested a' done.length p.1) H ((jsonEntries m).map Prod.snd)
          | _ => .panic) K ((List.range' pre.length os.length).zip os) = .ok K' ∧
        K'[a']? = some { t' with rows := done ++ [pre ++ new] } ∧ WF { t' with rows := done ++ [pre ++ new] } ∧ K.length ≤ K'.length ∧
        (∀ x, x ≠ a' → x < K.length → K'[x]? = K[x]?) ∧ Pointwise (SameCell V H K' (a' + 1) (JsonTree V H K' (a' + 1) d)) cs new
  | [], cs, pre, rest, K, t', _, hcs, hrest, hK, hw, hty, hrows => by
    have hcs : cs = [] := List.eq_nil_of_length_eq_zero hcs
    have hrest : rest = [] := List.eq_nil_of_length_eq_zero hrest
    subst hcs hrest
    have e : { t' with rows := done ++ [pre ++ []] } = t' := by rw [← hrows]
    exact ⟨K, [], rfl, by rw [e]; exact hK, by rw [e]; exact hw, Nat.le_refl _, fun _ _ _ => rfl, trivial⟩
  | o :: os, cs, pre, rest, K, t', hos, hcs, hrest, hK, hw, hty, hrows => by
    obtain ⟨n, v, ty, c, rfl, hty0, hc0, hread⟩ := hos 0 o rfl
    match cs, rest, hcs, hrest, hc0 with
    | c0 :: cs, x :: rest, hcs, hrest, hc0 =>
    simp only [List.getElem?_cons_zero, Option.some.injEq] at hc0
    subst hc0
    obtain ⟨K1, c', k1, k2, k3, k4, k5, k6⟩ := hread K a' t' done.length pre.length hK hw (by rw [hty]; simpa using hty0) (by rw [hrows]; simp)
    have hput : putCell t' pre.length done.length c' = { t' with rows := done ++ [(pre ++ [c']) ++ rest] } := by
      have h1 := putCell_last { t' with rows := done } (pre ++ x :: rest) pre.length c'
      rw [set_append] at h1
      have h2 : ({ ({ t' with rows := done } : Table Addr) with rows := done ++ [pre ++ x :: rest] }) = t' := by
        rw [← hrows]
      rw [h2] at h1
      rw [h1]
      simp
    have hw1 : WF (putCell t' pre.length done.length c') := hw.putCell (by rw [hty]; simpa using hty0) k2 (by rw [hrows]; simp)
    rw [hput] at hw1 k3
    obtain ⟨K', new, r1, r2, r3, r4, r5, r6⟩ := jsonRow_ok os cs (pre ++ [c']) rest K1 { t' with rows := done ++ [(pre ++ [c']) ++ rest] }
      (fun i o ho => by
        obtain ⟨n, v, ty, c, q1, q2, q3, q4⟩ := hos (i + 1) o (by simpa using ho)
        exact ⟨n, v, ty, c, q1, by simpa [Nat.add_assoc, Nat.add_comm 1] using q2, by simpa using q3, q4⟩)
      (by simpa using hcs) (by simpa using hrest) k3 hw1 hty rfl
    refine ⟨K', c' :: new, ?_, ?_, ?_, Nat.le_trans k4 r4, ?_, ?_, r6⟩
    · have e : (jsonEntries [(n, v)]).map Prod.snd = [v] := rfl
      simp only [List.length_cons, List.range'_succ, List.zip_cons_cons, foldOut, e, k1, Out.bind]
      have : (pre ++ [c']).length = pre.length + 1 := by simp
      rw [this] at r1
      exact r1
    · rw [r2]; simp
    · simpa using r3
    · intro x hx hl
      rw [r5 x hx (Nat.lt_of_lt_of_le hl k4), k5 x hx hl]
    · exact SameCell.mono (keeps_of r5) (fun _ _ => JsonTree.mono (keeps_of r5)) k6

theorem appendRowAt_eq {K : Heap} {a' : Addr} {t' : Table Addr} (hK : K[a']? = some t') (hw : WF t') (hnil : t'.isNilTable = false) :
    ∃ K1, appendRowAt K a' = .ok K1 ∧ (∃ row, row.length = t'.colTypes.length ∧ K1[a']? = some { t' with rows := t'.rows ++ [row] } ∧ WF { t' with rows := t'.rows ++ [row] }) ∧
      K.length ≤ K1.length ∧ (∀ x, x ≠ a' → x < K.length → K1[x]? = K[x]?) := by
  have ha := (List.getElem?_eq_some_iff.1 hK).1
  have e := appendRow_eq (fun c _ => K.length + c) hnil hw.typesLen
  have hw1 := hw.appendRow (fun c _ => K.length + c)
  rw [e] at hw1
  have e2 : appendRowAt K a' = .ok (K.set a' { t' with rows := t'.rows ++ [zeroRow (fun c _ => K.length + c) t'.colTypes t'.rows.length] } ++ List.replicate t'.colTypes.length { (newNilTable : Table Addr) with parent := some a' }) := by
    simp only [appendRowAt, hK, e]
  refine ⟨_, e2, ⟨_, (zeroRow_ok (fun c _ => K.length + c) t'.colTypes t'.rows.length).1, ?_, hw1⟩, by simp, ?_⟩
  · rw [List.getElem?_append_left (by simpa using ha), List.getElem?_set_self ha]
  · intro x hx hl
    rw [List.getElem?_append_left (by simpa using hl), List.getElem?_set_ne (fun e => hx e.symm)]

/-- The rows of a table. -/
theorem jsonRows_ok {nested : Heap → List (GoStr × JVal) → Out (Heap × Addr)} {d : Nat} {a' : Addr} {types : List ColType} :
    ∀ (arrs : List JVal) (rows : List (List (Cell Addr))) (done : List (List (Cell Addr))) (K : Heap) (t' : Table Addr),
      Pointwise (fun arr row => ∃ os, arr = .arr os ∧ os.length = types.length ∧ row.length = types.length ∧
        ∀ (i : Nat) o, os[i]? = some o → ∃ n v ty c, o = .obj [(n, v)] ∧ types[i]? = some ty ∧ row[i]? = some c ∧ JsonReads V E H nested d v ty c) arrs rows →
      K[a']? = some t' → WF t' → t'.isNilTable = false → t'.colTypes = types → t'.rows = done →
      ∃ K' new, foldOut (fun H (p : Nat × JVal) => (appendRowAt H a').bind fun H1 => match p.2 with
          | .arr cells => readJsonRow E nested a' p.1 H1 cells
          | _ => .panic) K ((List.range' done.length arrs.length).zip arrs) = .ok K' ∧
        K'[a']? = some { t' with rows := done ++ new } ∧ WF { t' with rows := done ++ new } ∧ K.length ≤ K'.length ∧
        (∀ x, x ≠ a' → x < K.length → K'[x]? = K[x]?) ∧ Pointwise (Pointwise (SameCell V H K' (a' + 1) (JsonTree V H K' (a' + 1) d))) rows new
  | [], [], done, K, t', _, hK, hw, _, hty, hrows => by
    have e : { t' with rows := done ++ [] } = t' := by rw [List.append_nil, ← hrows]
    exact ⟨K, [], rfl, by rw [e]; exact hK, by rw [e]; exact hw, Nat.le_refl _, fun _ _ _ => rfl, trivial⟩
  | arr :: arrs, row :: rows, done, K, t', hp, hK, hw, hnil, hty, hrows => by
    obtain ⟨⟨os, rfl, ho1, ho2, ho3⟩, hp⟩ := hp
    obtain ⟨K1, a1, ⟨zrow, z1, z2, z3⟩, a3, a4⟩ := appendRowAt_eq hK hw hnil
    rw [hrows] at z2 z3
    rw [hty] at z1
    obtain ⟨K2, new, r1, r2, r3, r4, r5, r6⟩ := jsonRow_ok (done := done) (types := types) (d := d) (nested := nested) os row [] zrow K1 _
      (fun i o h => by simpa using ho3 i o h) (by rw [ho1, ho2]) (by rw [z1, ho1]) z2 z3 hty rfl
    rw [List.nil_append] at r2 r3
    obtain ⟨K', news, q1, q2, q3, q4, q5, q6⟩ := jsonRows_ok arrs rows (done ++ [new]) K2 _ hp r2 r3 hnil hty rfl
    refine ⟨K', new :: news, ?_, ?_, ?_, Nat.le_trans a3 (Nat.le_trans r4 q4), ?_, ?_, q6⟩
    · simp only [List.length_cons, List.range'_succ, List.zip_cons_cons, foldOut, a1, Out.bind]
      have e : readJsonRow E nested a' done.length K1 os = .ok K2 := by
        rw [readJsonRow, List.range_eq_range']
        exact r1
      rw [e]
      have : (done ++ [new]).length = done.length + 1 := by simp
      rw [this] at q1
      exact q1
    · rw [q2]; simp
    · simpa using q3
    · intro x hx hl
      rw [q5 x hx (Nat.lt_of_lt_of_le hl (Nat.le_trans a3 r4)), r5 x hx (Nat.lt_of_lt_of_le hl a3), a4 x hx hl]
    · exact r6.mono fun c c' hc => SameCell.mono (keeps_of q5) (fun _ _ => JsonTree.mono (keeps_of q5)) hc

theorem jsonCols_ok (K : Heap) (ps : List (GoStr × ColType)) (t : Table Addr) (hw : WF t) (hnil : t.isNilTable = false) (hrows : t.rows = [])
    (hn : ∀ x ∈ ps, isValidColName x.1 = true) (hnew : ∀ x ∈ ps, x.1 ∉ t.colNames) (hnd : (ps.map Prod.fst).Nodup) :
    ∃ cm, readJsonCols K.length (K ++ [t]) (ps.map fun x => .obj [(x.1, .str x.2.name)]) =
      .ok (K ++ [{ t with colNames := t.colNames ++ ps.map Prod.fst, colTypes := t.colTypes ++ ps.map Prod.snd, colMap := cm }]) ∧
      WF { t with colNames := t.colNames ++ ps.map Prod.fst, colTypes := t.colTypes ++ ps.map Prod.snd, colMap := cm } := by
  obtain ⟨cm, h1, h2⟩ := appendCols_fresh K ps t hw hnil hrows hn hnew hnd
  refine ⟨cm, ?_, h2⟩
  rw [← h1]
  clear h1 h2 hn hnew hnd hw hnil hrows
  have hfold : ∀ (o : Out Heap), (o.bind fun K0 => readJsonCols K.length K0 (ps.map fun x => .obj [(x.1, .str x.2.name)])) =
      (ps.map fun x => (x.1, x.2.name)).foldl (fun (o : Out Heap) (p : GoStr × GoStr) => o.bind fun H1 => appendColAt H1 K.length p.1 p.2) o := by
    induction ps with
    | nil => intro o; cases o <;> rfl
    | cons p ps ih =>
      intro o
      have := ih (o.bind fun H1 => appendColAt H1 K.length p.1 p.2.name)
      simp only [List.map_cons, List.foldl_cons]
      rw [← this]
      cases o with
      | ok K0 => rfl
      | err e => rfl
      | panic => rfl
  exact hfold (.ok (K ++ [t]))

/-! ## Whole tables -/

/-- What a table must satisfy to be read back as one whose values are related by `V`. -/
structure TableSafe (V : Cell Addr → Cell Addr → Prop) (P : PrintEnv) (E : JsonEnv) (t : Table Addr) : Prop where
  wf : WF t
  ascii : Ascii t.name
  asciiCols : ∀ n ∈ t.colNames, Ascii n
  safe : ∀ row ∈ t.rows, Pointwise (fun ty c => CellSafe V P E ty c) t.colTypes row

theorem pointwise_of {α β : Type} {R : α → β → Prop} : ∀ {as : List α} {bs : List β}, as.length = bs.length →
    (∀ (i : Nat) a b, as[i]? = some a → bs[i]? = some b → R a b) → Pointwise R as bs
  | [], [], _, _ => trivial
  | a :: as, b :: bs, hl, h => ⟨h 0 a b rfl rfl, pointwise_of (by simpa using hl) fun i x y hx hy => h (i + 1) x y (by simpa using hx) (by simpa using hy)⟩

theorem quote_plain {hi : Nat → Bool} {s : GoStr} (h : PlainText s) : strconvQuote hi s = 34 :: (s ++ [34]) := by
  rw [strconvQuote_eq, quoteLoop_plain hi s h]

theorem renderMore_mem {hi : Nat → Bool} {o : JVal} {l : List JVal} (h : o ∈ l) : (o.render hi).length ≤ (renderMore hi l).length := by
  induction l with
  | nil => cases h
  | cons v vs ih =>
    rcases List.mem_cons.1 h with rfl | h
    · simp only [renderMore, List.length_append, List.length_cons]; omega
    · have := ih h
      simp only [renderMore, List.length_append, List.length_cons]; omega

theorem renderElems_mem {hi : Nat → Bool} {o : JVal} {l : List JVal} (h : o ∈ l) : (o.render hi).length ≤ (renderElems hi l).length := by
  cases l with
  | nil => cases h
  | cons v vs =>
    rcases List.mem_cons.1 h with rfl | h
    · simp only [renderElems, List.length_append]; omega
    · have := renderMore_mem (hi := hi) h
      simp only [renderElems, List.length_append]; omega

theorem metas_render {hi : Nat → Bool} (ps : List (GoStr × ColType)) (h : ∀ p ∈ ps, PlainText p.1) :
    joinSep [44] (ps.map fun (n, ty) => gs! "{\"" ++ n ++ gs! "\":\"" ++ ty.name ++ gs! "\"}") = renderElems hi (ps.map fun x => .obj [(x.1, .str x.2.name)]) := by
  rw [← joinSep_render, List.map_map]
  congr 1
  apply List.map_congr_left
  intro p hp
  simp only [Function.comp, JVal.render, renderMembers, renderMoreMembers, quote_plain (h p hp), quote_plain (plain_type p.2)]
  simp

/-- The members of the object that is written for a table. -/
def tableMembers (t : Table Addr) (arrs : List JVal) : List (GoStr × JVal) :=
  (gs! "tableName", .str t.name) :: ((if t.isStructShape then [(gs! "isStructShape", JVal.bool true)] else []) ++
    [(gs! "metadata", .arr ((t.colNames.zip t.colTypes).map fun x => .obj [(x.1, .str x.2.name)])), (gs! "data", .arr arrs)])

theorem tableMembers_get (t : Table Addr) (arrs : List JVal) :
    jsonGet (tableMembers t arrs) (gs! "tableName") = some (.str t.name) ∧
    jsonGet (tableMembers t arrs) (gs! "isStructShape") = (if t.isStructShape then some (.bool true) else none) ∧
    jsonGet (tableMembers t arrs) (gs! "metadata") = some (.arr ((t.colNames.zip t.colTypes).map fun x => .obj [(x.1, .str x.2.name)])) ∧
    jsonGet (tableMembers t arrs) (gs! "data") = some (.arr arrs) := by
  cases h : t.isStructShape <;> simp [tableMembers, h, jsonGet]

theorem plain_lit1 : PlainText (gs! "tableName") := show ∀ c ∈ (gs! "tableName"), 32 ≤ c.toNat ∧ c.toNat < 127 ∧ c ≠ 34 ∧ c ≠ 92 by decide
theorem plain_lit2 : PlainText (gs! "isStructShape") := show ∀ c ∈ (gs! "isStructShape"), 32 ≤ c.toNat ∧ c.toNat < 127 ∧ c ≠ 34 ∧ c ≠ 92 by decide
theorem plain_lit3 : PlainText (gs! "metadata") := show ∀ c ∈ (gs! "metadata"), 32 ≤ c.toNat ∧ c.toNat < 127 ∧ c ≠ 34 ∧ c ≠ 92 by decide
theorem plain_lit4 : PlainText (gs! "data") := show ∀ c ∈ (gs! "data"), 32 ≤ c.toNat ∧ c.toNat < 127 ∧ c ≠ 34 ∧ c ≠ 92 by decide

theorem tableMembers_render {hi : Nat → Bool} (t : Table Addr) (arrs : List JVal) (h : ∀ p ∈ t.colNames.zip t.colTypes, PlainText p.1) :
    gs! "\"tableName\":" ++ strconvQuote hi t.name ++ gs! "," ++
        (if t.isStructShape then gs! "\"isStructShape\":true," else []) ++
        gs! "\"metadata\":[" ++ joinSep [44] ((t.colNames.zip t.colTypes).map fun (n, ty) => gs! "{\"" ++ n ++ gs! "\":\"" ++ ty.name ++ gs! "\"}") ++ gs! "]," ++
        gs! "\"data\":[" ++ joinSep [44] (arrs.map fun o => o.render hi) ++ gs! "]" = renderMembers hi (tableMembers t arrs) := by
  rw [metas_render (hi := hi) _ h, joinSep_render]
  cases hs : t.isStructShape <;>
    simp [tableMembers, hs, renderMembers, renderMoreMembers, JVal.render, quote_plain plain_lit1, quote_plain plain_lit2, quote_plain plain_lit3, quote_plain plain_lit4]

theorem tableMembers_good {hi : Nat → Bool} (t : Table Addr) (arrs : List JVal) (hn : PlainText t.name) (h : ∀ p ∈ t.colNames.zip t.colTypes, PlainText p.1)
    (ha : ∀ v ∈ arrs, v.Good hi) : GoodMembers hi (tableMembers t arrs) := by
  have hm : GoodElems hi ((t.colNames.zip t.colTypes).map fun x => .obj [(x.1, .str x.2.name)]) := by
    rw [goodElems_iff]
    intro v hv
    obtain ⟨p, hp, rfl⟩ := List.mem_map.1 hv
    exact ⟨(h p hp).jsonText, (plain_type p.2).jsonText, trivial⟩
  have ha := (goodElems_iff hi arrs).2 ha
  cases hs : t.isStructShape
  · simp only [tableMembers, hs]
    exact ⟨plain_lit1.jsonText, hn.jsonText, plain_lit3.jsonText, hm, plain_lit4.jsonText, ha, trivial⟩
  · simp only [tableMembers, hs]
    exact ⟨plain_lit1.jsonText, hn.jsonText, plain_lit2.jsonText, trivial, plain_lit3.jsonText, hm, plain_lit4.jsonText, ha, trivial⟩

theorem tableMembers_data {hi : Nat → Bool} (t : Table Addr) (arrs : List JVal) : (renderElems hi arrs).length ≤ (renderMembers hi (tableMembers t arrs)).length := by
  cases hs : t.isStructShape <;> simp [tableMembers, hs, renderMembers, renderMoreMembers, JVal.render] <;> omega

/-- What is written for a tree of tables is read back. -/
theorem table_back (hP : P.text.float = goFloat) (hE : E.text.float = goFloat) : ∀ (d : Nat) (refs : List Addr) (a : Addr) (s : GoStr) (refs' : List Addr),
    jsonTable P H d refs a = .ok (s, refs') → (∀ b t, (b = a ∨ Below H a b) → H[b]? = some t → t.isNilTable = false → TableSafe V P E t) → ¬ IsNil H a →
    ReadsBack V E H P.printable d s a := by
  intro d
  induction d with
  | zero => intro refs a s refs' h; cases h
  | succ d ih =>
    intro refs a s refs' h hwr hnn
    rw [jsonTable] at h
    cases hH : H[a]? with
    | none => simp only [hH] at h; cases h
    | some t =>
    simp only [hH] at h
    have hnil : t.isNilTable = false := by
      cases e : t.isNilTable with
      | false => rfl
      | true => exact absurd ⟨t, hH, e⟩ hnn
    have hjw := hwr a t (.inl rfl) hH hnil
    have hw := hjw.wf
    have hname := hw.nameValid hnil
    cases hrow : jsonRows P H (jsonTable P H d) t (a :: refs) (List.range t.rows.length) with
    | err e => rw [hrow] at h; cases h
    | panic => rw [hrow] at h; cases h
    | ok pr =>
    obtain ⟨rows, refs1⟩ := pr
    rw [hrow] at h
    simp only [Out.bind, Out.ok.injEq, Prod.mk.injEq] at h
    obtain ⟨hs, -⟩ := h
    have hplain : ∀ p ∈ t.colNames.zip t.colTypes, PlainText p.1 := fun p hp => by
      have := (List.of_mem_zip hp).1
      exact plain_name (isValidColName_name (hw.namesValid _ this)).1 (hjw.asciiCols _ this)
    obtain ⟨arrs, ha1, ha2⟩ := jsonRows_writes (Q := fun r j v => v.Good P.printable ∧ ∀ row c ty, t.rows[r]? = some row → row[j]? = some c → t.colTypes[j]? = some ty →
        ∀ D, (v.render P.printable).length ≤ D → JsonReads V E H (readJsonTable E D) d v ty c) _ _ _ _ hrow (by
      intro r hr p hp refs2 s2 refs3 hcell
      have hr := List.mem_range.1 hr
      have hj := List.mem_range.1 (List.of_mem_zip hp).1
      have hrr := List.getElem?_eq_getElem hr
      have hro := hw.rowsOK _ (List.getElem_mem hr)
      have hj2 : p.1 < t.colTypes.length := by rw [hw.typesLen]; exact hj
      have hj3 : p.1 < t.rows[r].length := by rw [hro.1]; exact hj2
      have hcc := List.getElem?_eq_getElem hj3
      have htt := List.getElem?_eq_getElem hj2
      obtain ⟨c, hc, hsafe⟩ := (hjw.safe _ (List.getElem_mem hr)).get _ _ htt
      obtain ⟨v, v1, v2, v3⟩ := jsonCell_reads hP hE hw hnil hrr hc htt hsafe hcell (d := d) (by
        intro b s' refs' hcb hbn hbw
        have hold : HoldsAt H a p.1 r b := ⟨t, hH, by simp only [nestedAt, hrr, hc, hcb]⟩
        refine ih _ _ _ _ hbw (fun x tx hx => hwr x tx (.inr ?_)) hbn
        rcases hx with rfl | hx
        · exact .direct hold
        · exact .cons hold hx)
      refine ⟨v, v1, v2, ?_⟩
      intro row c' ty e1 e2 e3
      rw [hrr] at e1; cases e1
      rw [hc] at e2; cases e2
      rw [htt] at e3; cases e3
      exact v3)
    have hgood : ∀ v ∈ arrs, v.Good P.printable := by
      intro v hv
      obtain ⟨i, hi⟩ := List.mem_iff_getElem?.1 hv
      obtain ⟨r, -, os, rfl, hos⟩ := ha2.back i v hi
      show GoodElems _ os
      rw [goodElems_iff]
      intro o ho
      obtain ⟨k, hk⟩ := List.mem_iff_getElem?.1 ho
      obtain ⟨p, hp, w, rfl, hw2, -⟩ := hos.back k o hk
      have hp := (List.of_mem_zip (List.mem_of_getElem? hp)).2
      exact ⟨(plain_name (isValidColName_name (hw.namesValid _ hp)).1 (hjw.asciiCols _ hp)).jsonText, hw2, trivial⟩
    rw [ha1, tableMembers_render t arrs hplain] at hs
    refine ⟨tableMembers t arrs, hs.symm, tableMembers_good t arrs (plain_name (isValidTableName_name hname) hjw.ascii) hplain hgood, ?_⟩
    intro D hD K
    obtain ⟨D, rfl⟩ : ∃ D', D = D' + 1 := ⟨D - 1, by omega⟩
    have hD : (renderElems P.printable arrs).length ≤ D := by
      have := tableMembers_data (hi := P.printable) t arrs
      rw [hs] at this
      omega
    obtain ⟨g1, g2, g3, g4⟩ := tableMembers_get t arrs
    have hzip1 : (t.colNames.zip t.colTypes).map Prod.fst = t.colNames := List.map_fst_zip (by rw [hw.typesLen]; exact Nat.le_refl _)
    have hzip2 : (t.colNames.zip t.colTypes).map Prod.snd = t.colTypes := List.map_snd_zip (by rw [hw.typesLen]; exact Nat.le_refl _)
    let t0 : Table Addr := { (newNilTable : Table Addr) with name := t.name, isNilTable := false, isStructShape := t.isStructShape }
    have ht0 : (match jsonGet (tableMembers t arrs) (gs! "isStructShape") with
          | some (.bool b) => { ({ (newNilTable : Table Addr) with name := t.name, isNilTable := false } : Table Addr) with isStructShape := b }
          | _ => { (newNilTable : Table Addr) with name := t.name, isNilTable := false }) = t0 := by
      rw [g2]
      cases e : t.isStructShape <;> simp [t0, e, newNilTable]
    have hw0 : WF t0 := by
      have := WF.newTable (newTable_eq (τ := Addr) hname)
      exact ⟨this.1, this.2, this.3, this.4, this.5, this.6, this.7, this.8, this.9⟩
    obtain ⟨cm, c1, c2⟩ := jsonCols_ok K (t.colNames.zip t.colTypes) t0 hw0 rfl rfl
      (fun x hx => hw.namesValid _ (List.of_mem_zip hx).1) (fun x _ => by simp [t0, newNilTable]) (by rw [hzip1]; exact hw.namesNodup)
    rw [hzip1, hzip2] at c1 c2
    have hpw : Pointwise (fun arr row => ∃ os, arr = .arr os ∧ os.length = t.colTypes.length ∧ row.length = t.colTypes.length ∧
        ∀ (i : Nat) o, os[i]? = some o → ∃ n v ty c, o = .obj [(n, v)] ∧ t.colTypes[i]? = some ty ∧ row[i]? = some c ∧ JsonReads V E H (readJsonTable E D) d v ty c) arrs t.rows := by
      apply pointwise_of
      · have := ha2.length
        simpa using this.symm
      intro i arr row hi hr
      obtain ⟨r, hr2, os, rfl, hos⟩ := ha2.back i arr hi
      have hir : r = i := by
        have := List.getElem?_eq_some_iff.1 hr2
        obtain ⟨h1, h2⟩ := this
        simpa using h2.symm
      subst hir
      have hro := hw.rowsOK _ (List.mem_of_getElem? hr)
      have hlen := hos.length
      rw [List.length_zip, List.length_range, Nat.min_self] at hlen
      refine ⟨os, rfl, by rw [hw.typesLen]; exact hlen.symm, hro.1, ?_⟩
      intro k o hk
      obtain ⟨p, hp, v, rfl, -, hv⟩ := hos.back k o hk
      have hkl : k < t.colTypes.length := by rw [hw.typesLen, hlen]; exact (List.getElem?_eq_some_iff.1 hk).1
      have hpk : p.1 = k := by
        rw [List.getElem?_zip_eq_some] at hp
        obtain ⟨h1, h2⟩ := List.getElem?_eq_some_iff.1 hp.1
        simpa using h2.symm
      have hkr : k < row.length := by rw [hro.1]; exact hkl
      rw [hpk] at hv
      refine ⟨p.2, v, _, _, rfl, List.getElem?_eq_getElem hkl, List.getElem?_eq_getElem hkr, ?_⟩
      refine hv row _ _ hr (List.getElem?_eq_getElem hkr) (List.getElem?_eq_getElem hkl) D ?_
      have b1 := renderElems_mem (hi := P.printable) (List.mem_of_getElem? hi)
      have b2 := renderElems_mem (hi := P.printable) (List.mem_of_getElem? hk)
      simp only [JVal.render, renderMembers, renderMoreMembers, List.length_append, List.length_cons] at b1 b2
      omega
    have ha : (K ++ [{ t0 with colNames := t0.colNames ++ t.colNames, colTypes := t0.colTypes ++ t.colTypes, colMap := cm }])[K.length]? = some
        { t0 with colNames := t0.colNames ++ t.colNames, colTypes := t0.colTypes ++ t.colTypes, colMap := cm } := by simp
    obtain ⟨K', new, q1, q2, q3, q4, q5, q6⟩ := jsonRows_ok arrs t.rows [] _ _ hpw ha c2 rfl rfl rfl
    refine ⟨K', ?_, ?_, ?_, ?_⟩
    · rw [readJsonTable]
      simp only [g1, g3, g4, newTable_eq hname]
      have h1 : readJsonRows E (readJsonTable E D) K.length (K ++ [{ t0 with colNames := t0.colNames ++ t.colNames, colTypes := t0.colTypes ++ t.colTypes, colMap := cm }]) arrs = .ok K' := by
        rw [readJsonRows, List.range_eq_range']
        exact q1
      have h2 : ((readJsonCols K.length (K ++ [t0]) ((t.colNames.zip t.colTypes).map fun x => .obj [(x.1, .str x.2.name)])).bind fun H1 =>
          (readJsonRows E (readJsonTable E D) K.length H1 arrs).bind fun H2 => .ok (H2, K.length)) = .ok (K', K.length) := by
        rw [c1, Out.bind, h1]
        rfl
      rw [← ht0] at h2
      exact h2
    · simp only [List.length_append, List.length_singleton] at q4
      omega
    · intro x hx
      rw [q5 x (fun e => by rw [e] at hx; exact Nat.lt_irrefl _ hx) (by simp only [List.length_append, List.length_singleton]; exact Nat.lt_succ_of_lt hx),
        List.getElem?_append_left hx]
    · refine ⟨Nat.le_refl _, t, _, hH, q2, hnil, rfl, q3, rfl, rfl, rfl, rfl, rfl, ?_⟩
      exact q6.mono fun r r' hr => hr.mono fun c c' hc => SameCell.lower (Nat.le_succ _) (fun _ _ => JsonTree.lower (Nat.le_succ _)) hc

/-! ## Sets of tables -/

/-- The text of a table is an object that is read back. -/
theorem private_back (hP : P.text.float = goFloat) (hE : E.text.float = goFloat) {d : Nat} {a : Addr} {s : GoStr} (h : jsonTablePrivate P H d a = .ok s)
    (hwr : ∀ b t, (b = a ∨ Below H a b) → H[b]? = some t → t.isNilTable = false → TableSafe V P E t) (hnn : ¬ IsNil H a) :
    ∃ m, s = (JVal.obj m).render P.printable ∧ GoodMembers P.printable m ∧ ∀ D, s.length ≤ D → ∀ K, ∃ K1, readJsonTable E D K m = .ok (K1, K.length) ∧ K.length < K1.length ∧
      (∀ x, x < K.length → K1[x]? = K[x]?) ∧ JsonTree V H K1 K.length d a K.length := by
  unfold jsonTablePrivate at h
  cases h1 : jsonTable P H d [] a with
  | err e => rw [h1] at h; cases h
  | panic => rw [h1] at h; cases h
  | ok pr =>
    obtain ⟨s1, refs1⟩ := pr
    rw [h1] at h
    simp only [Out.bind, Out.ok.injEq] at h
    obtain ⟨m, m1, m2, m3⟩ := table_back hP hE d [] a s1 refs1 h1 hwr hnn
    subst m1
    refine ⟨m, h.symm, m2, fun D hD => m3 D ?_⟩
    rw [← h] at hD
    simp only [List.length_append, List.length_cons] at hD
    omega

theorem tables_back (hP : P.text.float = goFloat) (hE : E.text.float = goFloat) {d : Nat} :
    ∀ (as : List Addr) (ss : List GoStr), jsonTables P H d as = .ok ss →
      (∀ a ∈ as, ∀ b t, (b = a ∨ Below H a b) → H[b]? = some t → t.isNilTable = false → TableSafe V P E t) → (∀ a ∈ as, ¬ IsNil H a) →
      ∃ os : List JVal, ss = os.map (fun o => o.render P.printable) ∧ (∀ o ∈ os, o.Good P.printable) ∧
        Pointwise (fun a o => ∃ m, o = .obj m ∧ ∀ D, (o.render P.printable).length ≤ D → ∀ K, ∃ K1, readJsonTable E D K m = .ok (K1, K.length) ∧ K.length < K1.length ∧
          (∀ x, x < K.length → K1[x]? = K[x]?) ∧ JsonTree V H K1 K.length d a K.length) as os
  | [], ss, h, _, _ => by
    simp only [jsonTables, Out.ok.injEq] at h
    exact ⟨[], by rw [← h]; rfl, by simp, trivial⟩
  | a :: as, ss, h, hwr, hnn => by
    rw [jsonTables] at h
    cases h1 : jsonTablePrivate P H d a with
    | err e => rw [h1] at h; cases h
    | panic => rw [h1] at h; cases h
    | ok s1 =>
      rw [h1] at h
      simp only [Out.bind] at h
      cases h2 : jsonTables P H d as with
      | err e => rw [h2] at h; cases h
      | panic => rw [h2] at h; cases h
      | ok ss2 =>
        rw [h2] at h
        simp only [Out.ok.injEq] at h
        obtain ⟨m, m1, m2, m3⟩ := private_back hP hE h1 (hwr a (by simp)) (hnn a (by simp))
        obtain ⟨os, o1, o2, o3⟩ := tables_back hP hE as ss2 h2 (fun x hx => hwr x (by simp [hx])) fun x hx => hnn x (by simp [hx])
        refine ⟨.obj m :: os, by rw [← h, o1, m1]; rfl, ?_, ⟨m, rfl, ?_⟩, o3⟩
        · intro o ho
          rcases List.mem_cons.1 ho with rfl | ho
          · exact m2
          · exact o2 o ho
        · rw [← m1]; exact m3

theorem nameTaken_false {K : Heap} {n : GoStr} {l : List Addr} (h : ∀ a ∈ l, nameAt K a ≠ n) : TableSet.nameTaken K n l = false := by
  induction l with
  | nil => rfl
  | cons a as ih => rw [TableSet.nameTaken, if_neg (h a (by simp)), ih fun x hx => h x (by simp [hx])]

theorem JsonTree.nameAt {K : Heap} {lo : Addr} {d : Nat} {a a' : Addr} (h : JsonTree V H K lo d a a') : nameAt K a' = nameAt H a := by
  cases d with
  | zero => exact h.elim
  | succ d =>
    obtain ⟨_, t, t', h1, h2, _, _, _, _, h3, _⟩ := h
    simp only [Verif.nameAt, h1, h2, h3]

theorem pointwise_snoc {α β : Type} {R : α → β → Prop} : ∀ {as : List α} {bs : List β} {a : α} {b : β}, Pointwise R as bs → R a b → Pointwise R (as ++ [a]) (bs ++ [b])
  | [], [], _, _, _, h => ⟨h, trivial⟩
  | _ :: _, _ :: _, _, _, h, h' => ⟨h.1, pointwise_snoc h.2 h'⟩

theorem JsonTree.addr_lt {K : Heap} {lo : Addr} {d : Nat} {a a' : Addr} (h : JsonTree V H K lo d a a') : lo ≤ a' ∧ a' < K.length := by
  cases d with
  | zero => exact h.elim
  | succ d =>
    obtain ⟨h0, t, t', h1, h2, _⟩ := h
    exact ⟨h0, (List.getElem?_eq_some_iff.1 h2).1⟩

theorem readTables_ok {d D : Nat} {lo : Addr} : ∀ (as : List Addr) (os : List JVal) (done : List Addr) (K : Heap) (S : TableSet),
    Pointwise (fun a o => ∃ m, o = .obj m ∧ ∀ K, ∃ K1, readJsonTable E D K m = .ok (K1, K.length) ∧ K.length < K1.length ∧
      (∀ x, x < K.length → K1[x]? = K[x]?) ∧ JsonTree V H K1 K.length d a K.length) as os →
    ((done ++ as).map (nameAt H)).Nodup → lo ≤ K.length → Pointwise (JsonTree V H K lo d) done S.tables →
    ∃ K' tabs, readJsonTables E D (K, S) os = .ok (K', { S with tables := tabs }) ∧ (∀ x, x < K.length → K'[x]? = K[x]?) ∧
      Pointwise (JsonTree V H K' lo d) (done ++ as) tabs
  | [], [], done, K, S, _, _, _, hd => ⟨K, S.tables, rfl, fun _ _ => rfl, by rw [List.append_nil]; exact hd⟩
  | a :: as, o :: os, done, K, S, hp, hnd, hlo, hd => by
    obtain ⟨⟨m, rfl, hm⟩, hp⟩ := hp
    obtain ⟨K1, k1, k2, k3, k4⟩ := hm K
    have hk : KeepsFrom lo K K1 := fun x t _ ht => ⟨t.parent, by rw [k3 x (List.getElem?_eq_some_iff.1 ht).1, ht]⟩
    have hd1 : Pointwise (JsonTree V H K1 lo d) done S.tables := hd.mono fun _ _ h => h.mono hk
    have hfree : TableSet.nameTaken K1 (nameAt K1 K.length) S.tables = false := by
      apply nameTaken_false
      intro x hx e
      obtain ⟨i, hi⟩ := List.mem_iff_getElem?.1 hx
      obtain ⟨y, hy, hxy⟩ := hd1.back i x hi
      rw [hxy.nameAt, k4.nameAt] at e
      rw [List.map_append, List.nodup_append] at hnd
      exact hnd.2.2 _ (List.mem_map_of_mem (List.mem_of_getElem? hy)) _ (List.mem_map_of_mem (by simp)) e
    obtain ⟨K', tabs, q1, q2, q3⟩ := readTables_ok as os (done ++ [a]) K1 { S with tables := S.tables ++ [K.length] } hp
      (by rw [List.append_assoc]; exact hnd) (Nat.le_trans hlo (Nat.le_of_lt k2)) (pointwise_snoc hd1 (k4.lower hlo))
    refine ⟨K', tabs, ?_, fun x hx => by rw [q2 x (Nat.lt_trans hx k2), k3 x hx], by rw [List.append_assoc] at q3; exact q3⟩
    rw [readJsonTables, foldOut]
    simp only [k1, Out.bind, TableSet.appendTable, hfree]
    exact q1

/-- The members of the object that is written for a set of tables. -/
def setMembers (name : GoStr) (os : List JVal) : List (GoStr × JVal) := [(gs! "tableSetName", .str name), (gs! "tables", .arr os)]

theorem plain_lit5 : PlainText (gs! "tableSetName") := show ∀ c ∈ (gs! "tableSetName"), 32 ≤ c.toNat ∧ c.toNat < 127 ∧ c ≠ 34 ∧ c ≠ 92 by decide
theorem plain_lit6 : PlainText (gs! "tables") := show ∀ c ∈ (gs! "tables"), 32 ≤ c.toNat ∧ c.toNat < 127 ∧ c ≠ 34 ∧ c ≠ 92 by decide

theorem set_back (hP : P.text.float = goFloat) (hE : E.text.float = goFloat) {d : Nat} {S : TableSet} {s : GoStr} (h : getTableSetAsJSON P H d S = .ok s)
    (hname : JsonText P.printable S.name) (hnd : (S.tables.map (nameAt H)).Nodup)
    (hwr : ∀ a ∈ S.tables, ∀ b t, (b = a ∨ Below H a b) → H[b]? = some t → t.isNilTable = false → TableSafe V P E t) (hnn : ∀ a ∈ S.tables, ¬ IsNil H a) (K : Heap) :
    ∃ K' tabs, newTableSetFromJSON E K s = .ok (K', { newTableSet S.name with tables := tabs }) ∧ (∀ x, x < K.length → K'[x]? = K[x]?) ∧
      Pointwise (JsonTree V H K' K.length d) S.tables tabs := by
  unfold getTableSetAsJSON at h
  cases h1 : jsonTables P H d S.tables with
  | err e => rw [h1] at h; cases h
  | panic => rw [h1] at h; cases h
  | ok ss =>
    rw [h1] at h
    simp only [Out.bind, Out.ok.injEq] at h
    obtain ⟨os, o1, o2, o3⟩ := tables_back hP hE S.tables ss h1 hwr hnn
    have hs : s = (JVal.obj (setMembers S.name os)).render P.printable := by
      rw [← h, o1, joinSep_render]
      simp [setMembers, JVal.render, renderMembers, renderMoreMembers, quote_plain plain_lit5, quote_plain plain_lit6]
    have hgood : GoodMembers P.printable (setMembers S.name os) := ⟨plain_lit5.jsonText, hname, plain_lit6.jsonText, (goodElems_iff _ _).2 o2, trivial⟩
    have hdec := jsonDecode_render P.printable _ hgood
    rw [← hs] at hdec
    have hlen : (renderElems P.printable os).length ≤ s.length := by
      rw [hs]
      simp only [setMembers, JVal.render, renderMembers, renderMoreMembers, List.length_append, List.length_cons]
      omega
    have hpw : Pointwise (fun a o => ∃ m, o = .obj m ∧ ∀ K, ∃ K1, readJsonTable E (s.length + 1) K m = .ok (K1, K.length) ∧ K.length < K1.length ∧
        (∀ x, x < K.length → K1[x]? = K[x]?) ∧ JsonTree V H K1 K.length d a K.length) S.tables os := by
      apply pointwise_of o3.length
      intro i a o ha ho
      obtain ⟨b, hb, m, m1, m2⟩ := o3.get i a ha
      rw [ho] at hb; cases hb
      refine ⟨m, m1, m2 _ ?_⟩
      have := renderElems_mem (hi := P.printable) (List.mem_of_getElem? ho)
      omega
    obtain ⟨K', tabs, q1, q2, q3⟩ := readTables_ok (lo := K.length) S.tables os [] K (newTableSet S.name) hpw hnd (Nat.le_refl _) trivial
    refine ⟨K', tabs, ?_, q2, q3⟩
    have g1 : jsonGet (setMembers S.name os) (gs! "tableSetName") = some (.str S.name) := by simp [setMembers, jsonGet]
    have g2 : jsonGet (setMembers S.name os) (gs! "tables") = some (.arr os) := by simp [setMembers, jsonGet]
    rw [newTableSetFromJSON]
    simp only [hdec, g1, g2, q1]

theorem json_table (hP : P.text.float = goFloat) (hE : E.text.float = goFloat) {d : Nat} {a : Addr} {s : GoStr} (h : getTableAsJSON P H d a = .ok s)
    (hwr : ∀ b t, (b = a ∨ Below H a b) → H[b]? = some t → t.isNilTable = false → TableSafe V P E t) (hnn : ¬ IsNil H a) (K : Heap) :
    ∃ K' a', newTableFromJSON E K s = .ok (K', a') ∧ (∀ x, x < K.length → K'[x]? = K[x]?) ∧ JsonTree V H K' K.length d a a' := by
  have h : getTableSetAsJSON P H d { newTableSet [] with tables := [a] } = .ok s := h
  obtain ⟨K', tabs, h1, h2, h3⟩ := set_back (V := V) hP hE h ⟨[], rfl, by simp⟩ (by simp)
    (fun x hx => by rw [List.mem_singleton.1 hx]; exact hwr) (fun x hx => by rw [List.mem_singleton.1 hx]; exact hnn) K
  match tabs, h3 with
  | [a'], h3 =>
  refine ⟨K', a', ?_, h2, h3.1⟩
  rw [newTableFromJSON, h1]
  rfl

/-! ## The two relations -/

theorem Bits53.nearest {v : Int} (h : Bits53 v) : Nearest53 v v := ⟨h, fun u _ => by rw [Int.sub_self]; exact Nat.zero_le _⟩

theorem Nearest53.eq {v w : Int} (h : Nearest53 v w) (hv : Bits53 v) : w = v := by
  have := h.2 v hv
  omega

/-- What an integer becomes. -/
theorem castInt_near {k : IntKind} {v : Int} (hv : k.Has v) (hc : CastOK E) :
    ∃ x n, goFloat.parse64 (fmtInt v) = some x ∧ Nearest53 v n ∧ k.Has (castInt E k x) ∧ (k.Has n → castInt E k x = n) := by
  have hlt : v.natAbs < 2 ^ 64 := by
    obtain ⟨h1, h2⟩ := hv
    cases k <;> simp only [IntKind.lo, IntKind.hi] at h1 h2 <;> omega
  obtain ⟨x, n, h1, h2, h3, h4⟩ := int_near v hlt
  refine ⟨x, n, h1, ⟨h3, h4⟩, ?_, fun hn => castInt_exact h2 hn.1 hn.2⟩
  by_cases hn : k.Has n
  · rw [castInt_exact h2 hn.1 hn.2]; exact hn
  · simp only [castInt, h2]
    rw [if_neg (show ¬ (k.lo ≤ n ∧ n ≤ k.hi) from hn)]
    exact hc k x

theorem has_of {ty : ColType} {k : IntKind} {v : Int} (h : (Cell.int k v : Cell Addr).HasType ty) : k.Has v := by
  cases ty <;> cases k <;> simp only [Cell.HasType] at h <;> exact ⟨by simpa [IntKind.lo] using h.1, by simpa [IntKind.hi] using h.2⟩

theorem bits53_small {v : Int} (h : v.natAbs < 2 ^ 53) : Bits53 v := ⟨v.natAbs, 0, by simp, h⟩

theorem rune_small {v : Int} {hi : Nat → Bool} (h0 : 0 ≤ v) (h : JsonRune hi v.toNat) : Bits53 v := by
  apply bits53_small
  have := h.1
  unfold ValidRune at this
  omega

/-- Any table that JSON can express. -/
theorem JsonWritable.value (hP : P.text.float = goFloat) (hE : E.text.float = goFloat) {t : Table Addr} (h : JsonWritable P E t) (hc : CastOK E) : TableSafe JsonValue P E t := by
  refine ⟨h.wf, h.ascii, h.asciiCols, fun row hr => ?_⟩
  apply pointwise_of (h.safe row hr).length
  intro i ty c hty hcell
  obtain ⟨c', hc', hs⟩ := (h.safe row hr).get i ty hty
  rw [hcell] at hc'; cases hc'
  cases c with
  | int k v =>
    have hht := has_of ((h.wf.rowsOK row hr).2 i ty _ hty hcell)
    simp only [CellSafe]
    split
    · next e =>
      obtain ⟨h0, h1⟩ := hs e
      rw [runeText, if_pos ⟨h0, h1.1⟩, Int.toNat_of_nonneg h0]
      exact ⟨h1, v, rfl, hht, .inl (rune_small h0 h1).nearest⟩
    · obtain ⟨x, n, h1, h2, h3, h4⟩ := castInt_near hht hc
      refine ⟨x, h1, ⟨_, rfl, h3, ?_⟩, h3⟩
      by_cases hn : k.Has n
      · rw [h4 hn]; exact .inl h2
      · exact .inr ⟨n, h2, hn⟩
  | f32 b =>
    obtain ⟨h1, x, hx, hb⟩ := hs
    rw [hP, hE] at hx
    exact ⟨h1, x, hx, by rw [hb]; exact .inl rfl⟩
  | time v => exact ⟨hs.1, v, hs.2, rfl⟩
  | _ => exact ⟨hs, fun _ h => h⟩

/-- … and whose integers are small. -/
theorem JsonWritable.same (hP : P.text.float = goFloat) (hE : E.text.float = goFloat) {t : Table Addr} (h : JsonWritable P E t) (hsm : SmallInts t) : TableSafe SameValue P E t := by
  refine ⟨h.wf, h.ascii, h.asciiCols, fun row hr => ?_⟩
  apply pointwise_of (h.safe row hr).length
  intro i ty c hty hcell
  obtain ⟨c', hc', hs⟩ := (h.safe row hr).get i ty hty
  rw [hcell] at hc'; cases hc'
  cases c with
  | int k v =>
    have hht := has_of ((h.wf.rowsOK row hr).2 i ty _ hty hcell)
    have hb := hsm row hr k v (List.mem_of_getElem? hcell)
    simp only [CellSafe]
    split
    · next e =>
      obtain ⟨h0, h1⟩ := hs e
      rw [runeText, if_pos ⟨h0, h1.1⟩, Int.toNat_of_nonneg h0]
      exact ⟨h1, rfl⟩
    · have hlt : v.natAbs < 2 ^ 64 := by
        obtain ⟨h1, h2⟩ := hht
        cases k <;> simp only [IntKind.lo, IntKind.hi] at h1 h2 <;> omega
      obtain ⟨m, e, hm, hl⟩ := hb
      obtain ⟨x, hx, hv⟩ := int_exact v m e hm hl hlt
      refine ⟨x, hx, ?_⟩
      rw [castInt_exact hv hht.1 hht.2]
      exact ⟨rfl, hht⟩
  | f32 b =>
    obtain ⟨h1, x, hx, hb⟩ := hs
    rw [hP, hE] at hx
    exact ⟨h1, x, hx, by rw [hb]; exact .inl rfl⟩
  | time v => exact ⟨hs.1, v, hs.2, rfl⟩
  | _ => exact ⟨hs, fun _ h => h⟩

end Verif
