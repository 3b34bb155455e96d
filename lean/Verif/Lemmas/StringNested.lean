import Verif.Model.StringNested
import Verif.Spec.StringNested
import Verif.Lemmas.Prints
import Verif.Lemmas.Tree
import Verif.Lemmas.ParseBlock
import Verif.Lemmas.Preserve
import Verif.Lemmas.PrintCell

/-!
# The text of a table and all tables in it: helpers
-/

namespace Verif
open Table

variable {P : PrintEnv} {H H0 : Heap}

/-! ## Order -/

/-- The tables in one cell, in order. -/
def belowCell (H : Heap) (d : Nat) (t : Table Addr) (c r : Nat) : List Addr :=
  match nestedAt t c r with
  | some b => b :: belowOrder H d b
  | none => []

theorem belowOrder_succ {d : Nat} {a : Addr} {t : Table Addr} (ht : H[a]? = some t) :
    belowOrder H (d + 1) a = (List.range t.colNames.length).flatMap fun c => (List.range t.rows.length).flatMap fun r => belowCell H d t c r := by
  simp only [belowOrder, ht]
  rfl

theorem mem_belowCell {d : Nat} {t : Table Addr} {c r : Nat} {x : Addr} : x ∈ belowCell H d t c r ↔ ∃ b, nestedAt t c r = some b ∧ (x = b ∨ x ∈ belowOrder H d b) := by
  cases hn : nestedAt t c r <;> simp [belowCell, hn]

theorem mem_belowOrder {d : Nat} {a x : Addr} : x ∈ belowOrder H (d + 1) a ↔ ∃ c r b, HoldsAt H a c r b ∧ c < (H[a]?.elim 0 fun t => t.colNames.length) ∧ (x = b ∨ x ∈ belowOrder H d b) := by
  cases ht : H[a]? with
  | none => simp [HoldsAt, ht, belowOrder]
  | some t =>
    rw [belowOrder_succ ht]
    simp only [List.mem_flatMap, List.mem_range, HoldsAt, ht, Option.elim, mem_belowCell]
    constructor
    · rintro ⟨c, hc, r, hr, b, hn, hx⟩
      exact ⟨c, r, b, ⟨t, rfl, hn⟩, hc, hx⟩
    · rintro ⟨c, r, b, ⟨t', e, hn⟩, hc, hx⟩
      cases e
      obtain ⟨row, h1, _⟩ := nestedAt_some.1 hn
      exact ⟨c, hc, r, (List.getElem?_eq_some_iff.1 h1).1, b, hn, hx⟩

theorem belowOrder_below {d : Nat} {a x : Addr} (h : x ∈ belowOrder H d a) : Below H a x := by
  induction d generalizing a with
  | zero => simp [belowOrder] at h
  | succ d ih =>
    obtain ⟨c, r, b, h1, _, hx⟩ := mem_belowOrder.1 h
    rcases hx with rfl | hx
    · exact .direct h1
    · exact (ih hx).cons h1

theorem below_belowOrder (hw : HeapWF H) {rank : Addr → Nat} (hac : Acyclic H rank) {d : Nat} {a x : Addr} (hd : rank a < d) (h : Below H a x) : x ∈ belowOrder H d a := by
  induction d generalizing a with
  | zero => omega
  | succ d ih =>
    obtain ⟨c, r, b, h1, h2⟩ := h.first
    have hr := (hac _ _ (h1.nestedIn hw)).1
    refine mem_belowOrder.2 ⟨c, r, b, h1, ?_, ?_⟩
    · obtain ⟨t, e, hn⟩ := h1
      rw [e]
      obtain ⟨_, _, _, _, hc, _⟩ := nestedAt_At (hw t (List.mem_of_getElem? e)) hn
      exact hc
    · rcases h2 with rfl | h2
      · exact .inl rfl
      · exact .inr (ih (by omega) h2)

theorem belowOrder_nodup (hw : HeapWF H) (hns : NoSharing H) {rank : Addr → Nat} (hac : Acyclic H rank) (d : Nat) (a : Addr) : (belowOrder H d a).Nodup := by
  induction d generalizing a with
  | zero => simp [belowOrder]
  | succ d ih =>
    cases ht : H[a]? with
    | none => simp [belowOrder, ht]
    | some t =>
      rw [belowOrder_succ ht, nodup_grid t.colNames.length t.rows.length fun r c => belowCell H d t c r]
      constructor
      · intro c _ r _
        cases hn : nestedAt t c r with
        | none => simp [belowCell, hn]
        | some b =>
          simp only [belowCell, hn]
          refine List.nodup_cons.2 ⟨fun hb => ?_, ih b⟩
          have := (belowOrder_below hb).rank hw hac
          omega
      · intro c _ r _ c' _ r' _ hne x hx hx'
        obtain ⟨b, hn, hx⟩ := mem_belowCell.1 hx
        obtain ⟨b', hn', hx'⟩ := mem_belowCell.1 hx'
        refine disjoint_cells hw hns hac ⟨t, ht, hn⟩ ⟨t, ht, hn'⟩ (fun h => hne ⟨h.2, h.1⟩) (x := x) ?_ ?_
        · rcases hx with rfl | hx
          · exact .inl rfl
          · exact .inr (belowOrder_below hx)
        · rcases hx' with rfl | hx'
          · exact .inl rfl
          · exact .inr (belowOrder_below hx')

/-! ## Names -/

theorem nameByte_letters (s : GoStr) (h : (s.all nameByte) = true) : ∀ c ∈ s, nameByte c = true := by simpa using h

theorem isDec_nameByte {c : UInt8} (h : isDec c = true) : nameByte c = true := by
  have := u8_all (fun c => !isDec c || nameByte c) (by decide +kernel) c
  simpa [h] using this

theorem WF.name_bytes {t : Table Addr} (hw : WF t) (hn : t.isNilTable = true → t.name = []) : ∀ c ∈ t.name, nameByte c = true := by
  cases hb : t.isNilTable with
  | true => rw [hn hb]; simp
  | false => exact (isValidName_bytes (isValidTableName_name (hw.nameValid hb))).2

theorem TailName.bytes (hw : HeapWF H) (hn : NilUnnamed H) {a x : Addr} {tail : GoStr} (h : TailName H a x tail) : ∀ c ∈ tail, nameByte c = true := by
  induction h with
  | top => simp
  | @down b c r d t col tail _ h1 h2 _ ih =>
    have ht := List.mem_of_getElem? h1
    intro x hx
    simp only [List.mem_append] at hx
    rcases hx with (((((hx | hx) | hx) | hx) | hx) | hx) | hx
    · exact nameByte_letters _ (by decide +kernel) x hx
    · exact (hw t ht).name_bytes (hn t ht) x hx
    · exact nameByte_letters _ (by decide +kernel) x hx
    · exact (isValidName_bytes (isValidColName_name ((hw t ht).namesValid _ (List.mem_of_getElem? h2))).1).2 x hx
    · exact nameByte_letters _ (by decide +kernel) x hx
    · exact isDec_nameByte (fmtNat_visible r x hx)
    · exact ih x hx

theorem ofName?_underscore {s : GoStr} (h : 95 ∈ s) : ColType.ofName? s = none := by
  cases ho : ColType.ofName? s with
  | none => rfl
  | some ty =>
    rw [ofName?_eq ho] at h
    cases ty <;> exact absurd h (by decide)

/-- A name followed by an underscore and name bytes is a valid name. -/
theorem tail_valid {t : Table Addr} (hw : WF t) (hn : t.isNilTable = true → t.name = []) {rest : GoStr} (hr : ∀ c ∈ rest, nameByte c = true) :
    isValidTableName (t.name ++ 95 :: rest) = true := by
  have h1 : isValidName (t.name ++ 95 :: rest) = true := by
    have hall : ∀ c ∈ t.name ++ 95 :: rest, nameByte c = true := by
      intro c hc
      simp only [List.mem_append, List.mem_cons] at hc
      rcases hc with hc | rfl | hc
      · exact hw.name_bytes hn c hc
      · decide
      · exact hr c hc
    have hfirst : ∀ c cs, t.name ++ 95 :: rest = c :: cs → (isLetterByte c || decide (c = 95)) = true := by
      intro c cs e
      cases hname : t.name with
      | nil => rw [hname] at e; simp only [List.nil_append, List.cons.injEq] at e; rw [← e.1]; decide
      | cons x xs =>
        rw [hname] at e
        simp only [List.cons_append, List.cons.injEq] at e
        have hb : t.isNilTable = false := by
          cases hb : t.isNilTable with
          | false => rfl
          | true => have := hn hb; rw [hname] at this; simp at this
        have := isValidTableName_name (hw.nameValid hb)
        rw [hname] at this
        simp only [isValidName, Bool.and_eq_true] at this
        rw [← e.1]; exact this.1
    cases hs : t.name ++ 95 :: rest with
    | nil => simp at hs
    | cons c cs =>
      simp only [isValidName, Bool.and_eq_true, List.all_eq_true]
      exact ⟨hfirst c cs hs, fun x hx => hall x (by rw [hs]; simp [hx])⟩
  have h2 : ColType.ofName? (t.name ++ 95 :: rest) = none := ofName?_underscore (by simp)
  simp [isValidTableName, h1, h2]

/-! ## Cells -/

theorem isTableColByColIndex_eq {t : Table Addr} (hw : WF t) {c : Nat} (hc : c < t.colNames.length) : t.isTableColByColIndex (c : Int) = .ok (decide (t.colTypes[c]? = some .table)) := by
  have hlt : c < t.colTypes.length := by rw [hw.typesLen]; exact hc
  have e := List.getElem?_eq_getElem hlt
  have h : t.colTypeByColIndex (c : Int) = .ok t.colTypes[c] := colTypeByColIndex_ok.2 ⟨by omega, by simpa using e⟩
  unfold isTableColByColIndex
  rw [h, e]
  simp only [Out.bind, Out.ok.injEq, Option.some.injEq, decide_eq_decide]
  cases t.colTypes[c] <;> decide

theorem mem_tableCells {t : Table Addr} (hw : WF t) {c r : Nat} : (c, r) ∈ tableCells t ↔ t.colTypes[c]? = some .table ∧ r < t.rows.length := by
  simp only [tableCells, List.mem_flatMap, List.mem_range]
  constructor
  · rintro ⟨c', hc, hx⟩
    rw [isTableColByColIndex_eq hw hc] at hx
    by_cases ht : t.colTypes[c']? = some .table
    · simp only [ht, decide_true, List.mem_map, List.mem_range, Prod.mk.injEq] at hx
      obtain ⟨r', hr, rfl, rfl⟩ := hx
      exact ⟨ht, hr⟩
    · simp [ht] at hx
  · rintro ⟨ht, hr⟩
    have hc : c < t.colNames.length := by rw [← hw.typesLen]; exact (List.getElem?_eq_some_iff.1 ht).1
    refine ⟨c, hc, ?_⟩
    rw [isTableColByColIndex_eq hw hc]
    simp only [ht, decide_true, List.mem_map, List.mem_range, Prod.mk.injEq]
    exact ⟨r, hr, by simp⟩

theorem tableCells_flatMap {t : Table Addr} (hw : WF t) (F : Nat → Nat → List Addr) (hF : ∀ c r, t.colTypes[c]? ≠ some .table → F c r = []) :
    ((tableCells t).flatMap fun p => F p.1 p.2) = (List.range t.colNames.length).flatMap fun c => (List.range t.rows.length).flatMap fun r => F c r := by
  have key : ∀ cs : List Nat, (∀ c ∈ cs, c < t.colNames.length) →
      ((cs.flatMap fun (c : Nat) => match t.isTableColByColIndex (c : Int) with
        | .ok true => (List.range t.rowCount).map fun (r : Nat) => (c, r)
        | _ => []).flatMap fun p => F p.1 p.2) = cs.flatMap fun c => (List.range t.rows.length).flatMap fun r => F c r := by
    intro cs hcs
    induction cs with
    | nil => rfl
    | cons c cs ih =>
      rw [List.flatMap_cons, List.flatMap_append, ih fun x hx => hcs x (by simp [hx]), List.flatMap_cons]
      congr 1
      rw [isTableColByColIndex_eq hw (hcs c (by simp))]
      by_cases ht : t.colTypes[c]? = some .table
      · simp only [ht, decide_true, List.flatMap_map]
        rfl
      · simp only [ht, decide_false, List.flatMap_nil]
        symm
        rw [List.flatMap_eq_nil_iff]
        exact fun r _ => hF c r ht
  exact key (List.range t.colNames.length) (by simp)

theorem tableCells_nodup {t : Table Addr} (hw : WF t) : (tableCells t).Nodup := by
  have key : ∀ cs : List Nat, cs.Nodup → (∀ c ∈ cs, c < t.colNames.length) →
      (cs.flatMap fun (c : Nat) => match t.isTableColByColIndex (c : Int) with
        | .ok true => (List.range t.rowCount).map fun (r : Nat) => (c, r)
        | _ => []).Nodup ∧ ∀ p ∈ (cs.flatMap fun (c : Nat) => match t.isTableColByColIndex (c : Int) with
        | .ok true => (List.range t.rowCount).map fun (r : Nat) => (c, r)
        | _ => []), p.1 ∈ cs := by
    intro cs hnd hcs
    induction cs with
    | nil => simp
    | cons c cs ih =>
      obtain ⟨h1, h2⟩ := ih (List.nodup_cons.1 hnd).2 fun x hx => hcs x (by simp [hx])
      rw [List.flatMap_cons, isTableColByColIndex_eq hw (hcs c (by simp))]
      by_cases ht : t.colTypes[c]? = some .table
      · simp only [ht, decide_true]
        constructor
        · rw [List.nodup_append]
          refine ⟨?_, h1, ?_⟩
          · rw [List.Nodup, List.pairwise_map]
            exact List.Pairwise.imp (fun h e => h (Prod.mk.inj e).2) (List.nodup_range (n := t.rowCount))
          · intro x hx y hy e
            subst e
            have := h2 x hy
            simp only [List.mem_map] at hx
            obtain ⟨r, _, rfl⟩ := hx
            exact (List.nodup_cons.1 hnd).1 this
        · intro p hp
          rcases List.mem_append.1 hp with hp | hp
          · simp only [List.mem_map] at hp
            obtain ⟨r, _, rfl⟩ := hp
            simp
          · simp [h2 p hp]
      · simp only [ht, decide_false, List.nil_append]
        exact ⟨h1, fun p hp => by simp [h2 p hp]⟩
  exact (key _ List.nodup_range (fun c hc => by simpa [colCount] using hc)).1

/-! ## The walk -/

theorem OnlyNames.refl (H : Heap) : OnlyNames H H := ⟨rfl, fun _ t ht => ⟨t.name, t.isNilTable, ht⟩⟩

theorem OnlyNames.set {H0 H : Heap} (h : OnlyNames H0 H) {b : Addr} {t : Table Addr} (hb : H[b]? = some t) (n : GoStr) (nil : Bool) :
    OnlyNames H0 (H.set b { t with name := n, isNilTable := nil }) := by
  refine ⟨by rw [List.length_set]; exact h.1, fun x tx hx => ?_⟩
  obtain ⟨n', nil', e⟩ := h.2 x tx hx
  by_cases hbx : b = x
  · subst hbx
    rw [hb] at e
    cases e
    rw [List.getElem?_set_self (List.getElem?_eq_some_iff.1 hb).1]
    exact ⟨n, nil, rfl⟩
  · rw [List.getElem?_set_ne hbx]
    exact ⟨n', nil', e⟩

theorem heapWF_set {H : Heap} (h : HeapWF H) (a : Addr) {t : Table Addr} (ht : WF t) : HeapWF (H.set a t) := by
  intro x hx
  rcases List.mem_or_eq_of_mem_set hx with hx | rfl
  · exact h x hx
  · exact ht

/-- The part is as it should be: the name of the table is followed by the way to it, and its text is that of the table with the new name, the tables in its
cells having their old names. -/
def NestedPart.Good (P : PrintEnv) (H0 H' : Heap) (root : Addr) (e : NestedPart) : Prop :=
  TailName H0 root e.addr e.tail ∧
    ∃ t, H0[e.addr]? = some t ∧ stringPadded P H0 { t with name := t.name ++ e.tail, isNilTable := false } = .ok e.text ∧
      H'[e.addr]? = some { t with name := t.name ++ e.tail, isNilTable := false }

/-- What one call does. -/
def RecDoes (P : PrintEnv) (H0 : Heap) (root : Addr) (d : Nat) (recur : Addr → GoStr → GoStr → Heap × GoStr → Out (Heap × GoStr)) (b : Addr) : Prop :=
  ∀ (t t' : Table Addr) (tail : GoStr) (H : Heap) (s : GoStr), H0[b]? = some t → TailName H0 root b tail → OnlyNames H0 H → HeapWF H → H[b]? = some t' →
    (∀ x, Below H0 b x → H[x]? = H0[x]?) →
    ∃ H' text parts, recur b t.name tail (H, s) = .ok (H', s ++ text ++ [10] ++ partsText parts) ∧ OnlyNames H0 H' ∧ HeapWF H' ∧
      (∀ x, ¬ Below H0 b x → H'[x]? = H[x]?) ∧ stringPadded P H0 t' = .ok text ∧ parts.map NestedPart.addr = belowOrder H0 d b ∧ ∀ e ∈ parts, e.Good P H0 H' root

theorem cells_does (hw : HeapWF H0) (hns : NoSharing H0) {rank : Addr → Nat} (hac : Acyclic H0 rank) (hnil : NilUnnamed H0) {root a : Addr} {d : Nat}
    {recur : Addr → GoStr → GoStr → Heap × GoStr → Out (Heap × GoStr)} (hrec : ∀ c r b, HoldsAt H0 a c r b → RecDoes P H0 root d recur b)
    {ta : Table Addr} {tail : GoStr} (ha : H0[a]? = some ta) (htail : TailName H0 root a tail) (cells : List (Nat × Nat)) (hnd : cells.Nodup)
    (hcells : ∀ p ∈ cells, ∃ b, nestedAt ta p.1 p.2 = some b) (H : Heap) (s : GoStr) (hon : OnlyNames H0 H) (hwH : HeapWF H)
    (hsame : ∀ p ∈ cells, ∀ b, nestedAt ta p.1 p.2 = some b → ∀ x, Reached H0 b x → H[x]? = H0[x]?) :
    ∃ H' parts, stringNestedCells recur a ta.name tail cells (H, s) = .ok (H', s ++ partsText parts) ∧ OnlyNames H0 H' ∧ HeapWF H' ∧
      (∀ x, (∀ p ∈ cells, ∀ b, nestedAt ta p.1 p.2 = some b → ¬ Reached H0 b x) → H'[x]? = H[x]?) ∧
      parts.map NestedPart.addr = (cells.flatMap fun p => belowCell H0 d ta p.1 p.2) ∧ ∀ e ∈ parts, e.Good P H0 H' root := by
  induction cells generalizing H s with
  | nil => exact ⟨H, [], by simp [stringNestedCells, partsText], hon, hwH, fun _ _ => rfl, rfl, by simp⟩
  | cons p cells ih =>
    obtain ⟨c, r⟩ := p
    obtain ⟨b, hb⟩ := hcells (c, r) (by simp)
    simp only at hb
    have hold : HoldsAt H0 a c r b := ⟨ta, ha, hb⟩
    have hblt := (hac _ _ (hold.nestedIn hw)).2
    have eb := List.getElem?_eq_getElem hblt
    generalize H0[b] = tb at eb
    have hbH : H[b]? = some tb := by rw [hsame (c, r) (by simp) b hb b (.inl rfl)]; exact eb
    obtain ⟨na, nila, haH⟩ := hon.2 a ta ha
    obtain ⟨col, hcol, _, _, _, _⟩ := nestedAt_At (hw ta (List.mem_of_getElem? ha)) hb
    have hgetn : nestedAt { ta with name := na, isNilTable := nila } c r = some b := hb
    have hget := getTyped_nestedAt (hwH _ (List.mem_of_getElem? haH)) hgetn
    have hcn : Table.colName ({ ta with name := na, isNilTable := nila } : Table Addr) (c : Int) = .ok col := colName_nat hcol
    have htb := hw tb (List.mem_of_getElem? eb)
    have hnb := hnil tb (List.mem_of_getElem? eb)
    have htail2 : TailName H0 root b (nestedTail ta.name col r tail) := .down htail ha hcol hb
    have hvalid : isValidTableName (tb.name ++ nestedTail ta.name col r tail) = true := by
      have hbytes := htail2.bytes hw hnil
      have : ∃ rest, nestedTail ta.name col r tail = 95 :: rest := by
        simp only [nestedTail, List.cons_append]
        exact ⟨_, rfl⟩
      obtain ⟨rest, e⟩ := this
      rw [e] at hbytes ⊢
      exact tail_valid htb hnb fun x hx => hbytes x (by simp [hx])
    have hset : tb.setName (tb.name ++ nestedTail ta.name col r tail) =
        ({ tb with name := tb.name ++ nestedTail ta.name col r tail, isNilTable := false }, .ok ()) := by
      simp [Table.setName, hvalid]
    have hwb : WF ({ tb with name := tb.name ++ nestedTail ta.name col r tail, isNilTable := false } : Table Addr) := by
      have := htb.setName (tb.name ++ nestedTail ta.name col r tail)
      rw [hset] at this; exact this
    generalize hτ : nestedTail ta.name col r tail = τ at hset hwb htail2 hvalid
    -- after the new name is set
    have hon2 := hon.set hbH (tb.name ++ τ) false
    have hw2 := heapWF_set hwH b hwb
    have hbb : ¬ Below H0 b b := fun h => by have := h.rank hw hac; omega
    have hlt : b < H.length := (List.getElem?_eq_some_iff.1 hbH).1
    have hne2 : ∀ x, Below H0 b x → b ≠ x := by rintro x h rfl; exact hbb h
    obtain ⟨H3, text, parts1, e1, on3, w3, same3, htext, hord1, hgood1⟩ := hrec c r b hold tb _ τ (H.set b { tb with name := tb.name ++ τ, isNilTable := false }) s eb htail2 hon2 hw2
      (List.getElem?_set_self hlt) (fun x hx => by
        rw [List.getElem?_set_ne (hne2 x hx)]
        exact hsame (c, r) (by simp) b hb x (.inr hx))
    have hreach3 : ∀ x, ¬ Reached H0 b x → H3[x]? = H[x]? := by
      intro x hx
      rw [same3 x fun h => hx (.inr h), List.getElem?_set_ne (fun e => hx (.inl e.symm))]
    have hdis : ∀ p ∈ cells, ∀ b', nestedAt ta p.1 p.2 = some b' → ∀ x, Reached H0 b' x → ¬ Reached H0 b x := by
      intro p hp b' hb' x hx' hx
      refine disjoint_cells hw hns hac hold ⟨ta, ha, hb'⟩ ?_ hx hx'
      rintro ⟨h1, h2⟩
      have : p = (c, r) := by rw [h1, h2]
      rw [this] at hp
      exact (List.nodup_cons.1 hnd).1 hp
    obtain ⟨H4, parts2, e2, on4, w4, same4, hord2, hgood2⟩ := ih (List.nodup_cons.1 hnd).2 (fun p hp => hcells p (by simp [hp])) H3 (s ++ text ++ [10] ++ partsText parts1) on3 w3
      (fun p hp b' hb' x hx => by
        rw [hreach3 x (hdis p hp b' hb' x hx)]
        exact hsame p (by simp [hp]) b' hb' x hx)
    have hkeep : ∀ x, Reached H0 b x → H4[x]? = H3[x]? := fun x hx => same4 x fun p hp b' hb' hx' => hdis p hp b' hb' x hx' hx
    refine ⟨H4, ⟨b, τ, text⟩ :: parts1 ++ parts2, ?_, on4, w4, ?_, ?_, ?_⟩
    · simp only [stringNestedCells, haH, hget, hbH, hcn, hτ, hset, e1, Out.bind]
      rw [e2]
      simp [partsText]
    · intro x hx
      rw [same4 x fun p hp => hx p (by simp [hp])]
      exact hreach3 x (hx (c, r) (by simp) b hb)
    · simp only [List.map_cons, List.map_append, List.flatMap_cons, hord1, hord2, List.cons_append, belowCell, hb]
    · intro e he
      simp only [List.cons_append, List.mem_cons, List.mem_append] at he
      rcases he with rfl | he | he
      · refine ⟨htail2, tb, eb, htext, ?_⟩
        simp only
        rw [hkeep b (.inl rfl), same3 b hbb, List.getElem?_set_self hlt]
      · obtain ⟨g1, t, g2, g3, g4⟩ := hgood1 e he
        refine ⟨g1, t, g2, g3, ?_⟩
        rw [hkeep e.addr (.inr (belowOrder_below (d := d) (by rw [← hord1]; exact List.mem_map_of_mem he)))]
        exact g4
      · exact hgood2 e he

theorem rec_does (hw : HeapWF H0) (hns : NoSharing H0) {rank : Addr → Nat} (hac : Acyclic H0 rank) (hnil : NilUnnamed H0) {root : Addr} (d : Nat) (b : Addr) (hd : rank b < d) :
    RecDoes P H0 root d (stringNestedRec P d) b := by
  induction d generalizing b with
  | zero => omega
  | succ d ih =>
    intro t t' tail H s hb htail hon hwH hbH hbelow
    obtain ⟨n, nil, e⟩ := hon.2 b t hb
    rw [hbH] at e
    have ht' := Option.some.inj e
    have hwt := hwH t' (List.mem_of_getElem? hbH)
    have hwt0 := hw t (List.mem_of_getElem? hb)
    have hrows : t'.rows = t.rows := by rw [ht']
    obtain ⟨text, htext⟩ := stringPadded_ok P H0 hwt
    have hcong : stringPadded P H t' = .ok text := by
      rw [← htext]
      refine stringPadded_congr P t' fun row hrow x hx => ?_
      rw [hrows] at hrow
      obtain ⟨r, hr, hr'⟩ := List.getElem_of_mem hrow
      obtain ⟨c, hc, hc'⟩ := List.getElem_of_mem hx
      have hx : HoldsAt H0 b c r x := ⟨t, hb, nestedAt_some.2 ⟨row, by rw [List.getElem?_eq_getElem hr, hr'], by rw [List.getElem?_eq_getElem hc, hc']⟩⟩
      simp only [nameAt, hbelow x (.direct hx)]
    have hcellsEq : tableCells t' = tableCells t := by rw [ht']; rfl
    have hmem : ∀ p ∈ tableCells t, ∃ x, nestedAt t p.1 p.2 = some x := by
      rintro ⟨c, r⟩ hp
      obtain ⟨h1, h2⟩ := (mem_tableCells hwt0).1 hp
      exact nestedAt_of_table hwt0 h1 h2
    obtain ⟨H', parts, e1, on, w, same, hord, hgood⟩ := cells_does (P := P) hw hns hac hnil
      (fun c r x hx => ih x (by have := (hac _ _ (hx.nestedIn hw)).1; omega)) hb htail (tableCells t) (tableCells_nodup hwt0) hmem H (s ++ text ++ [10]) hon hwH
      (fun p _ x hx y hy => hbelow y (Reached.of_holds ⟨t, hb, hx⟩ hy))
    refine ⟨H', text, parts, ?_, on, w, ?_, htext, ?_, hgood⟩
    · simp only [stringNestedRec, hbH, hcong, Out.bind, hcellsEq, e1]
    · exact fun x hx => same x fun p _ y hy hr => hx (Reached.of_holds ⟨t, hb, hy⟩ hr)
    · rw [hord, belowOrder_succ hb]
      refine tableCells_flatMap hwt0 (fun c r => belowCell H0 d t c r) fun c r hne => ?_
      cases hn : nestedAt t c r with
      | none => simp [belowCell, hn]
      | some x => obtain ⟨_, _, _, h, _⟩ := nestedAt_At hwt0 hn; exact absurd h hne

/-! ## Any memory, with or without cycles -/

/-- What holds of the memory at all times. -/
structure Named (H0 H : Heap) : Prop where
  only : OnlyNames H0 H
  wf : HeapWF H
  nil : NilUnnamed H

/-- What one call does, if it returns; and it does not return if the table leads to a cycle. -/
def RecAny (H0 : Heap) (recur : Addr → GoStr → GoStr → Heap × GoStr → Out (Heap × GoStr)) (b : Addr) : Prop :=
  ∀ (p tail : GoStr) (H : Heap) (s : GoStr), (∀ c ∈ p, nameByte c = true) → (∀ c ∈ tail, nameByte c = true) → Named H0 H →
    (∃ H' s', recur b p tail (H, s) = .ok (H', s') ∧ Named H0 H' ∧ (∀ x, ¬ Below H0 b x → H'[x]? = H[x]?) ∧ ¬ ∃ x, Reached H0 b x ∧ Below H0 x x) ∨
      recur b p tail (H, s) = .panic

theorem nestedTail_bytes {p col tail : GoStr} (r : Nat) (hp : ∀ c ∈ p, nameByte c = true) (hcol : ∀ c ∈ col, nameByte c = true) (ht : ∀ c ∈ tail, nameByte c = true) :
    ∀ c ∈ nestedTail p col r tail, nameByte c = true := by
  intro x hx
  simp only [nestedTail, List.mem_append] at hx
  rcases hx with (((((hx | hx) | hx) | hx) | hx) | hx) | hx
  · exact nameByte_letters _ (by decide +kernel) x hx
  · exact hp x hx
  · exact nameByte_letters _ (by decide +kernel) x hx
  · exact hcol x hx
  · exact nameByte_letters _ (by decide +kernel) x hx
  · exact isDec_nameByte (fmtNat_visible r x hx)
  · exact ht x hx

theorem cells_any (hw : HeapWF H0) (hcl : Closed H0) {a : Addr} {recur : Addr → GoStr → GoStr → Heap × GoStr → Out (Heap × GoStr)}
    (hrec : ∀ c r b, HoldsAt H0 a c r b → RecAny H0 recur b) {ta : Table Addr} {p tail : GoStr} (ha : H0[a]? = some ta)
    (hp : ∀ c ∈ p, nameByte c = true) (ht : ∀ c ∈ tail, nameByte c = true) (cells : List (Nat × Nat))
    (hcells : ∀ q ∈ cells, ∃ b, nestedAt ta q.1 q.2 = some b) (H : Heap) (s : GoStr) (hn : Named H0 H) :
    (∃ H' s', stringNestedCells recur a p tail cells (H, s) = .ok (H', s') ∧ Named H0 H' ∧ (∀ x, ¬ Below H0 a x → H'[x]? = H[x]?) ∧
      ∀ q ∈ cells, ∀ b, nestedAt ta q.1 q.2 = some b → ¬ ∃ x, Reached H0 b x ∧ Below H0 x x) ∨
      stringNestedCells recur a p tail cells (H, s) = .panic := by
  induction cells generalizing H s with
  | nil => exact .inl ⟨H, s, rfl, hn, fun _ _ => rfl, by simp⟩
  | cons q cells ih =>
    obtain ⟨c, r⟩ := q
    obtain ⟨b, hb⟩ := hcells (c, r) (by simp)
    simp only at hb
    have hold : HoldsAt H0 a c r b := ⟨ta, ha, hb⟩
    have hblt := hcl _ _ (hold.nestedIn hw)
    have eb := List.getElem?_eq_getElem hblt
    generalize H0[b] = tb at eb
    obtain ⟨nb, nilb, hbH⟩ := hn.only.2 b tb eb
    generalize ({ tb with name := nb, isNilTable := nilb } : Table Addr) = tb' at hbH
    obtain ⟨na, nila, haH⟩ := hn.only.2 a ta ha
    obtain ⟨col, hcol, _, _, _, _⟩ := nestedAt_At (hw ta (List.mem_of_getElem? ha)) hb
    have hgetn : nestedAt { ta with name := na, isNilTable := nila } c r = some b := hb
    have hget := getTyped_nestedAt (hn.wf _ (List.mem_of_getElem? haH)) hgetn
    have hcn : Table.colName ({ ta with name := na, isNilTable := nila } : Table Addr) (c : Int) = .ok col := colName_nat hcol
    have htb := hn.wf tb' (List.mem_of_getElem? hbH)
    have hnb := hn.nil tb' (List.mem_of_getElem? hbH)
    have hcolb := (isValidName_bytes (isValidColName_name ((hw ta (List.mem_of_getElem? ha)).namesValid _ (List.mem_of_getElem? hcol))).1).2
    have hτb := nestedTail_bytes r hp hcolb ht
    have hvalid : isValidTableName (tb'.name ++ nestedTail p col r tail) = true := by
      have : ∃ rest, nestedTail p col r tail = 95 :: rest := by
        simp only [nestedTail, List.cons_append]
        exact ⟨_, rfl⟩
      obtain ⟨rest, e⟩ := this
      have hbytes := hτb
      rw [e] at hbytes ⊢
      exact tail_valid htb hnb fun x hx => hbytes x (by simp [hx])
    have hset : tb'.setName (tb'.name ++ nestedTail p col r tail) = ({ tb' with name := tb'.name ++ nestedTail p col r tail, isNilTable := false }, .ok ()) := by
      simp [Table.setName, hvalid]
    have hwb : WF ({ tb' with name := tb'.name ++ nestedTail p col r tail, isNilTable := false } : Table Addr) := by
      have := htb.setName (tb'.name ++ nestedTail p col r tail)
      rw [hset] at this; exact this
    have hlt : b < H.length := (List.getElem?_eq_some_iff.1 hbH).1
    have hn2 : Named H0 (H.set b { tb' with name := tb'.name ++ nestedTail p col r tail, isNilTable := false }) := by
      refine ⟨hn.only.set hbH _ _, heapWF_set hn.wf b hwb, fun t hm => ?_⟩
      rcases List.mem_or_eq_of_mem_set hm with hm | rfl
      · exact hn.nil t hm
      · intro h; cases h
    have hstep : stringNestedCells recur a p tail ((c, r) :: cells) (H, s) =
        (recur b tb'.name (nestedTail p col r tail) (H.set b { tb' with name := tb'.name ++ nestedTail p col r tail, isNilTable := false }, s)).bind
          (stringNestedCells recur a p tail cells) := by
      simp only [stringNestedCells, haH, hget, hbH, hcn, hset]
    rw [hstep]
    rcases hrec c r b hold tb'.name (nestedTail p col r tail) _ s (htb.name_bytes hnb) hτb hn2 with ⟨H3, s3, e3, n3, same3, hno⟩ | e3
    · rw [e3]
      simp only [Out.bind]
      rcases ih (fun q hq => hcells q (by simp [hq])) H3 s3 n3 with ⟨H4, s4, e4, n4, same4, hno4⟩ | e4
      · refine .inl ⟨H4, s4, e4, n4, fun x hx => ?_, ?_⟩
        · rw [same4 x hx, same3 x fun h => hx (h.cons hold), List.getElem?_set_ne (by rintro rfl; exact hx (.direct hold))]
        · intro q hq b' hb'
          rcases List.mem_cons.1 hq with rfl | hq
          · simp only at hb'
            rw [hb] at hb'; cases hb'; exact hno
          · exact hno4 q hq b' hb'
      · exact .inr e4
    · rw [e3]; exact .inr rfl

theorem rec_any (P : PrintEnv) (hw : HeapWF H0) (hcl : Closed H0) (d : Nat) (b : Addr) (hb : b < H0.length) : RecAny H0 (stringNestedRec P d) b := by
  induction d generalizing b with
  | zero => exact fun _ _ _ _ _ _ _ => .inr rfl
  | succ d ih =>
    intro p tail H s hp ht hn
    have eb := List.getElem?_eq_getElem hb
    generalize H0[b] = t at eb
    obtain ⟨n, nil, hbH⟩ := hn.only.2 b t eb
    have hwt0 := hw t (List.mem_of_getElem? eb)
    obtain ⟨text, htext⟩ := stringPadded_ok P H (hn.wf _ (List.mem_of_getElem? hbH))
    have hcellsEq : tableCells { t with name := n, isNilTable := nil } = tableCells t := rfl
    have hmem : ∀ q ∈ tableCells t, ∃ x, nestedAt t q.1 q.2 = some x := by
      rintro ⟨c, r⟩ hq
      obtain ⟨h1, h2⟩ := (mem_tableCells hwt0).1 hq
      exact nestedAt_of_table hwt0 h1 h2
    have hstep : stringNestedRec P (d + 1) b p tail (H, s) = stringNestedCells (stringNestedRec P d) b p tail (tableCells t) (H, s ++ text ++ [10]) := by
      simp only [stringNestedRec, hbH, htext, Out.bind, hcellsEq]
    rw [hstep]
    rcases cells_any hw hcl (fun c r x hx => ih x (hcl _ _ (hx.nestedIn hw))) eb hp ht (tableCells t) hmem H (s ++ text ++ [10]) hn with ⟨H', s', e1, n1, same1, hno⟩ | e1
    · refine .inl ⟨H', s', e1, n1, same1, ?_⟩
      rintro ⟨x, hx, hxx⟩
      -- the first step towards the cycle
      have hbx : Below H0 b x := by
        rcases hx with rfl | hx
        · exact hxx
        · exact hx
      obtain ⟨c, r, y, hy, hyx⟩ := hbx.first
      obtain ⟨t', e', hy'⟩ := hy
      rw [eb] at e'; cases e'
      obtain ⟨_, _, _, h1, _, h2⟩ := nestedAt_At hwt0 hy'
      exact hno (c, r) ((mem_tableCells hwt0).2 ⟨h1, h2⟩) y hy' ⟨x, hyx, hxx⟩
    · exact .inr e1

end Verif
