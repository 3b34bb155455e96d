import Verif.Lemmas.Parser
import Verif.Model.NewTree
import Verif.Spec.Tree

/-!
# Lemmas: the parents the parser sets
-/

namespace Verif
open Table

/-- If `v` is a table, its parent is `a`. -/
def Owned (H : Heap) (a : Addr) (v : Cell Addr) : Prop := ∀ b, v = .tbl (some b) → parentTable H b = some a

/-- All cells hold tables whose parent is the table of the cell, with exceptions. -/
def OwnedBut (E : Addr → Nat → Prop) (H : Heap) : Prop :=
  ∀ x t, H[x]? = some t → ∀ (i : Nat) (row : List (Cell Addr)) (j : Nat) (v : Cell Addr), t.rows[i]? = some row → row[j]? = some v → E x j ∨ Owned H x v

def NoExc : Addr → Nat → Prop := fun _ _ => False

theorem ownedBut_iff {H : Heap} : OwnedBut NoExc H ↔ ∀ a c r b, HoldsAt H a c r b → parentTable H b = some a := by
  constructor
  · rintro h a c r b ⟨t, ht, hn⟩
    unfold nestedAt at hn
    split at hn
    · cases hn
    · rename_i row hrow
      split at hn
      · rename_i b' hc
        cases hn
        rcases h a t ht r row c _ hrow hc with h | h
        · exact h.elim
        · exact h b rfl
      · cases hn
  · intro h x t ht i row j v hi hj
    refine .inr fun b hb => h x j i b ⟨t, ht, ?_⟩
    subst hb
    simp only [nestedAt, hi, hj]

theorem parentTable_append {H : Heap} (K : Heap) {b a : Addr} (h : parentTable H b = some a) : parentTable (H ++ K) b = some a := by
  unfold parentTable at h ⊢
  cases hb : H[b]? with
  | none => rw [hb] at h; cases h
  | some t =>
    rw [List.getElem?_append_left (List.getElem?_eq_some_iff.1 hb).1, hb]
    rw [hb] at h; exact h

theorem parentTable_set {H : Heap} {a : Addr} {t t' : Table Addr} (ht : H[a]? = some t) (hp : t'.parent = t.parent) (b : Addr) :
    parentTable (H.set a t') b = parentTable H b := by
  unfold parentTable
  by_cases e : a = b
  · subst e
    rw [List.getElem?_set_self (List.getElem?_eq_some_iff.1 ht).1, ht]
    exact hp
  · rw [List.getElem?_set_ne e]

theorem Owned.append {H : Heap} (K : Heap) {a : Addr} {v : Cell Addr} (h : Owned H a v) : Owned (H ++ K) a v :=
  fun b hb => parentTable_append K (h b hb)

theorem Owned.grows {H H' : Heap} (g : Grows H H') {a : Addr} {v : Cell Addr} (h : Owned H a v) : Owned H' a v := by
  obtain ⟨K, rfl, _⟩ := g
  exact h.append K

theorem OwnedBut.grows {E : Addr → Nat → Prop} {H H' : Heap} (h : OwnedBut E H) (g : Grows H H') : OwnedBut E H' := by
  obtain ⟨K, rfl, hK⟩ := g
  intro x t ht i row j v hi hj
  by_cases hx : x < H.length
  · rw [List.getElem?_append_left hx] at ht
    exact (h x t ht i row j v hi hj).imp id (·.append K)
  · rw [List.getElem?_append_right (Nat.le_of_not_lt hx)] at ht
    rw [(hK t (List.mem_of_getElem? ht)).2] at hi
    cases hi

theorem OwnedBut.put {E E' : Addr → Nat → Prop} {H : Heap} (h : OwnedBut E H) {a : Addr} {t t' : Table Addr} (ht : H[a]? = some t)
    (hp : t'.parent = t.parent) (hE : ∀ x j, x ≠ a → E x j → E' x j)
    (hc : ∀ (i : Nat) (row : List (Cell Addr)) (j : Nat) (v : Cell Addr), t'.rows[i]? = some row → row[j]? = some v → E' a j ∨ Owned H a v) : OwnedBut E' (H.set a t') := by
  intro x u hu i row j v hi hj
  have key : E' x j ∨ Owned H x v := by
    by_cases e : a = x
    · subst e
      rw [List.getElem?_set_self (List.getElem?_eq_some_iff.1 ht).1] at hu
      cases hu
      exact hc i row j v hi hj
    · rw [List.getElem?_set_ne e] at hu
      exact (h x u hu i row j v hi hj).imp (hE x j (Ne.symm e)) id
  exact key.imp id fun k b hb => (parentTable_set ht hp b).trans (k b hb)

theorem owned_of_not {H : Heap} {a : Addr} {v : Cell Addr} (h : ∀ b, v ≠ .tbl (some b)) : Owned H a v := fun b hb => absurd hb (h b)

theorem readCell_owned (env : TextEnv) (H : Heap) (a : Addr) (ty : ColType) (l : GoStr) (H' : Heap) (c : Cell Addr) (rest : GoStr)
    (h : readCell env H a ty l = .ok (H', c, rest)) : Owned H' a c := by
  unfold readCell at h
  split at h
  · obtain ⟨_, _, e⟩ := Out.bind_ok h
    simp only [Out.ok.injEq, Prod.mk.injEq] at e
    obtain ⟨rfl, rfl, rfl⟩ := e
    exact owned_of_not (by simp)
  · split at h
    case h_8 =>
      obtain ⟨⟨t, r⟩, _, e⟩ := Out.bind_ok h
      simp only [Out.ok.injEq, Prod.mk.injEq] at e
      obtain ⟨rfl, rfl, rfl⟩ := e
      intro b hb
      cases hb
      simp [parentTable]
    all_goals first
      | (obtain ⟨_, _, e⟩ := Out.bind_ok h
         simp only [Out.ok.injEq, Prod.mk.injEq] at e
         obtain ⟨rfl, rfl, rfl⟩ := e
         exact owned_of_not (by simp))
      | cases h

theorem readRow_owned (env : TextEnv) (a : Addr) (H : Heap) (names types : List GoStr) (l : GoStr) (hl : names.length = types.length)
    (H' : Heap) (row : List (Cell Addr)) (h : readRow env a H names types l = .ok (H', row)) : ∀ v ∈ row, Owned H' a v := by
  induction types generalizing H names l row with
  | nil =>
    cases names with
    | cons => simp at hl
    | nil =>
      simp only [readRow] at h
      split at h
      · cases h
      · simp only [List.map_nil, Out.ok.injEq, Prod.mk.injEq] at h
        obtain ⟨_, rfl⟩ := h
        simp
  | cons tyName types ih =>
    cases names with
    | nil => simp at hl
    | cons n names =>
      simp only [readRow] at h
      split at h
      · cases h
      · split at h
        · cases h
        · rename_i ty hty
          obtain ⟨⟨H1, c, rest⟩, h1, h⟩ := Out.bind_ok h
          obtain ⟨⟨H2, cs⟩, h2, h⟩ := Out.bind_ok h
          simp only [Out.ok.injEq, Prod.mk.injEq] at h
          obtain ⟨rfl, rfl⟩ := h
          have g2 := ((readRow_ok env a H1 names types _ (by simpa using hl)).2 _ _ h2).1
          intro v hv
          rcases List.mem_cons.1 hv with rfl | hv
          · exact (readCell_owned env H a ty l H1 v rest h1).grows g2
          · exact ih H1 names _ (by simpa using hl) cs h2 v hv

variable {H0 H : Heap} {set : TableSet}

/-- The cells of a new column are exceptions: their tables have no parent. -/
theorem appendColAt_owned (h : Inv H0 H set) (ho : OwnedBut NoExc H) {a : Addr} (ha : a ∈ set.tables) (n tyName : GoStr) (H' : Heap)
    (e : appendColAt H a n tyName = .ok H') (t : Table Addr) (ht : H[a]? = some t) :
    ∃ t', H'[a]? = some t' ∧ t'.rows.length = t.rows.length ∧ t'.colTypes.length = t.colTypes.length + 1 ∧
      OwnedBut (fun x j => x = a ∧ j = t.colTypes.length ∧ t.rows ≠ []) H' := by
  obtain ⟨ha0, hal, t0, ht0, hnil, hw, hb⟩ := h.get ha
  rw [ht] at ht0; cases ht0
  obtain ⟨t', ty, h1, _, h2, h3⟩ := ((appendColAt_ok h ha n tyName).2 H' e).2 t ht
  refine ⟨t', h1, h3, by rw [h2]; simp, ?_⟩
  simp only [appendColAt, ht] at e
  rcases appendCol_cases (fun _ r => H.length + r) hw n tyName with ⟨ty', _, _, _, _, hty, e'⟩ | ⟨_, er, e'⟩
  · rw [e'] at e
    simp only [Out.ok.injEq] at e
    subst e
    have hg := grows_nil H t.rows.length none
    rw [← List.set_append_left _ _ hal]
    refine (ho.grows hg).put (hg.get? ht) rfl (fun x j _ hE => hE.elim) ?_
    intro i row j v hi hj
    simp only [addZeroCol, List.getElem?_mapIdx, Option.map_eq_some_iff] at hi
    obtain ⟨row0, hrow0, rfl⟩ := hi
    by_cases hlt : j < row0.length
    · rw [List.getElem?_append_left hlt] at hj
      refine .inr ?_
      rcases ho a t ht i row0 j v hrow0 hj with h | h
      · exact h.elim
      · exact h.grows hg
    · refine .inl ⟨rfl, ?_, fun h => by rw [h] at hrow0; cases hrow0⟩
      have hl : row0.length = t.colTypes.length := (hw.rowsOK row0 (List.mem_of_getElem? hrow0)).1
      have := (List.getElem?_eq_some_iff.1 hj).1
      simp only [List.length_append, List.length_singleton] at this
      omega
  · rw [e'] at e; cases e

/-- The tables in the cells of a new row have the table as their parent. -/
theorem appendRowAt_owned (h : Inv H0 H set) {E : Addr → Nat → Prop} (ho : OwnedBut E H) {a : Addr} (ha : a ∈ set.tables) (H' : Heap)
    (e : appendRowAt H a = .ok H') : OwnedBut E H' := by
  obtain ⟨ha0, hal, t, ht, hnil, hw, hb⟩ := h.get ha
  simp only [appendRowAt, ht] at e
  rw [appendRow_eq _ hnil hw.typesLen] at e
  simp only [Out.ok.injEq] at e
  subst e
  have hg := grows_nil H t.colTypes.length (some a)
  rw [← List.set_append_left _ _ hal]
  refine (ho.grows hg).put (hg.get? ht) rfl (fun x j _ hE => hE) ?_
  intro i row j v hi hj
  by_cases hlt : i < t.rows.length
  · rw [List.getElem?_append_left hlt] at hi
    exact (ho a t ht i row j v hi hj).imp id (·.grows hg)
  · rw [List.getElem?_append_right (Nat.le_of_not_lt hlt)] at hi
    have hrow : row = zeroRow (fun c _ => H.length + c) t.colTypes t.rows.length := by
      have := List.mem_of_getElem? hi
      simpa using this
    subst hrow
    refine .inr fun b hb => ?_
    simp only [zeroRow, List.getElem?_mapIdx, Option.map_eq_some_iff] at hj
    obtain ⟨ty, hty, rfl⟩ := hj
    rw [zeroCell_tbl hb]
    have hj' := (List.getElem?_eq_some_iff.1 hty).1
    simp only [parentTable]
    rw [List.getElem?_append_right (Nat.le_add_right _ _), Nat.add_sub_cancel_left, List.getElem?_replicate, if_pos hj']
    rfl

theorem OwnedBut.setShape {E : Addr → Nat → Prop} (ho : OwnedBut E H) {a : Addr} {t : Table Addr} (ht : H[a]? = some t) (b : Bool) :
    OwnedBut E (H.set a { t with isStructShape := b }) :=
  ho.put ht rfl (fun _ _ _ h => h) fun i row j v hi hj => ho a t ht i row j v hi hj

theorem stepStructValue_owned (env : TextEnv) (h : Inv H0 H set) {a : Addr} (ha : a ∈ set.tables) (line : GoStr) (split : List GoStr) (n ty : GoStr)
    (t : Table Addr) (ht : H[a]? = some t) (hlen : t.rows.length ≤ 1) (k : Nat) (hk : t.colTypes.length = k + 1)
    (ho : OwnedBut (fun x j => x = a ∧ j = k) H) (H' : Heap) (e : stepStructValue env H a line split n ty = .ok H') :
    OwnedBut NoExc H' ∧ ∃ t', H'[a]? = some t' ∧ t'.rows.length = 1 := by
  unfold stepStructValue at e
  split at e
  · cases e
  · rename_i valueData _
    split at e
    · cases e
    · obtain ⟨ha0, hal, t0, ht0, hnil, hw, hb⟩ := h.get ha
      rw [ht] at ht0; cases ht0
      simp only [ht] at e
      obtain ⟨H2, hH2, e⟩ := Out.bind_ok e
      have s2 : Inv H0 H2 set ∧ OwnedBut (fun x j => x = a ∧ j = k) H2 ∧ ∃ t2, H2[a]? = some t2 ∧ t2.rows.length = 1 ∧ t2.colTypes.length = k + 1 := by
        split at hH2
        · rename_i hrc
          obtain ⟨H1, hH1, hH2⟩ := Out.bind_ok hH2
          have ho1 := appendRowAt_owned h ho ha H1 hH1
          obtain ⟨hi, hx⟩ := (appendRowAt_ok h ha).2 H1 hH1
          obtain ⟨t', ht', hty', hlen'⟩ := hx t ht
          simp only [ht', Out.ok.injEq] at hH2
          subst hH2
          have hal' := (List.getElem?_eq_some_iff.1 ht').1
          have hm := List.mem_of_getElem? ht'
          refine ⟨hi.put ht' ha0 ((hi.wf _ hm).setShape true) (hi.below t' hm) rfl rfl, ho1.setShape ht' true, _, List.getElem?_set_self hal', ?_, by simp only; rw [hty']; exact hk⟩
          simp only [Table.rowCount] at hrc ⊢
          omega
        · rename_i hrc
          simp only [Out.ok.injEq] at hH2
          subst hH2
          refine ⟨h, ho, t, ht, ?_, hk⟩
          simp only [Table.rowCount] at hrc
          omega
      obtain ⟨hi2, ho2, t2, ht2, hr2, hk2⟩ := s2
      obtain ⟨⟨H3, cells⟩, hread, e⟩ := Out.bind_ok e
      obtain ⟨g, ⟨tys, e0, hok⟩, hbelow⟩ := (readRow_ok env a H2 [n] [ty] (trimBlankLines valueData) rfl).2 _ _ hread
      have hown := readRow_owned env a H2 [n] [ty] (trimBlankLines valueData) rfl H3 cells hread
      have ht3 := g.get? ht2
      have hi3 := hi2.grow g
      have hw3 := hi3.wf t2 (List.mem_of_getElem? ht3)
      cases hc0 : cells[0]? with
      | none => simp only [hc0] at e; cases e
      | some c =>
        simp only [hc0, ht3] at e
        split at e
        · cases e
        · rename_i row hrow
          have hreal : c.Real := by
            have hl2 : 0 < tys.length := by
              have h1 := congrArg List.length e0
              simp at h1
              omega
            exact hasType_real (hok.2 0 _ c (List.getElem?_eq_getElem hl2) hc0)
          have hrl : row.length = k + 1 := by rw [(hw3.rowsOK row (List.mem_of_getElem? hrow)).1]; exact hk2
          rcases setValByColIndex_cases hw3 ((row.length : Int) - 1) 0 c hreal with ⟨ci, ri, ty', hci, hri, _, _, _, e1⟩ | ⟨_, er, e1⟩
          · rw [e1] at e
            simp only [Out.ok.injEq] at e
            subst e
            have hci' : ci = k := by omega
            have hri' : ri = 0 := by omega
            subst hci' hri'
            have hal3 := (List.getElem?_eq_some_iff.1 ht3).1
            refine ⟨?_, _, List.getElem?_set_self hal3, by simp only [putCell, List.length_modify]; exact hr2⟩
            refine (ho2.grows g).put ht3 rfl (fun x j hx hE => absurd hE.1 hx) ?_
            intro i row' j v hi hj
            refine .inr ?_
            have hi0 : i = 0 := by
              have := (List.getElem?_eq_some_iff.1 hi).1
              simp only [putCell, List.length_modify] at this
              omega
            subst hi0
            simp only [putCell, List.getElem?_modify, hrow, Option.map_eq_map, Option.map_some, if_true, Option.some.injEq] at hi
            subst hi
            rw [List.getElem?_set] at hj
            split at hj
            · split at hj
              · cases hj; exact hown c (List.mem_of_getElem? hc0)
              · cases hj
            · rename_i hne
              rcases (ho2.grows g) a t2 ht3 0 row j v hrow hj with hE | hE
              · exact absurd hE.2.symm hne
              · exact hE
          · rw [e1] at e; cases e

/-- What the parser keeps true of parents. -/
structure Parented (p : PState) : Prop where
  owned : OwnedBut NoExc p.heap
  rows : p.expecting = .colNames → ∃ t, p.heap[p.table]? = some t ∧ t.rows.length ≤ 1 ∧ (p.shape = .undefined ∨ p.structHasRowData = false → t.rows = [])
  empty : p.expecting = .colTypes → ∃ t, p.heap[p.table]? = some t ∧ t.rows = []

theorem stepTableName_owned {p : PState} (h : Parented p) (hi : PInv H0 p) (hexp : p.expecting = .tableName) (line : GoStr) (p' : PState) (b : Bool)
    (e : stepTableName p line = .ok (p', b)) : Parented p' := by
  unfold stepTableName at e
  split at e
  · simp only [Out.ok.injEq, Prod.mk.injEq] at e
    obtain ⟨rfl, rfl⟩ := e
    exact ⟨h.owned, fun hx => by simp_all, fun hx => by simp_all⟩
  · obtain ⟨n, _, e⟩ := Out.bind_ok e
    obtain ⟨t, ht, e⟩ := Out.bind_ok e
    have htr : t.rows = [] := by rw [(newTable_ok ht).2]; rfl
    have hg : Grows p.heap (p.heap ++ [t]) := ⟨[t], rfl, fun x hx => by simp only [List.mem_singleton] at hx; subst hx; exact ⟨WF.newTable ht, htr⟩⟩
    simp only at e
    split at e
    · simp only [Out.ok.injEq, Prod.mk.injEq] at e
      obtain ⟨rfl, rfl⟩ := e
      exact ⟨h.owned.grows hg, fun _ => ⟨t, by simp, by rw [htr]; simp, fun _ => htr⟩, fun hx => by simp at hx⟩
    · cases e
    · cases e

theorem stepStruct_owned (env : TextEnv) {p : PState} (h : Parented p) (hi : PInv H0 p) (hexp : p.expecting = .colNames) (line : GoStr) (split : List GoStr)
    (hshape : p.shape = .struct) (p' : PState) (e : stepStruct env p line split = .ok p') : Parented p' := by
  have ha := hi.current (by rw [hexp]; simp)
  obtain ⟨ha0, hal, t, ht, hnil, hw, hb⟩ := hi.inv.get ha
  obtain ⟨t0, ht0, hl, hemp⟩ := h.rows hexp
  rw [ht] at ht0; cases ht0
  have hi1 := hi.inv.put ht ha0 (hw.setShape true) hb rfl rfl
  have ho1 := h.owned.setShape ht true
  have ht1 : (p.heap.set p.table { t with isStructShape := true })[p.table]? = some { t with isStructShape := true } := List.getElem?_set_self hal
  unfold stepStruct at e
  simp only [ht] at e
  split at e
  · rename_i n ty rest
    split at e
    · cases e
    · split at e
      · cases e
      · obtain ⟨H1, hH1, e⟩ := Out.bind_ok e
        have hi2 := ((appendColAt_ok hi1 ha n ty).2 H1 hH1).1
        obtain ⟨t', ht', hr', hty', ho'⟩ := appendColAt_owned hi1 ho1 ha n ty H1 hH1 _ ht1
        simp only at hr' hty'
        split at e
        · obtain ⟨H2, hH2, e⟩ := Out.bind_ok e
          simp only [Out.ok.injEq] at e
          subst e
          obtain ⟨ho2, t2, ht2, hr2⟩ := stepStructValue_owned env hi2 ha line _ n ty t' ht' (by rw [hr']; exact hl) t.colTypes.length hty'
            (fun x u hu i row j v hi hj => (ho' x u hu i row j v hi hj).imp (fun k => ⟨k.1, k.2.1⟩) id) H2 hH2
          refine ⟨ho2, fun _ => ⟨t2, ht2, by omega, fun hx => ?_⟩, fun hx => by simp_all⟩
          simp_all
        · rename_i hns
          simp only [Out.ok.injEq] at e
          subst e
          have hr0 : t.rows = [] := hemp (.inr (by simpa using hns))
          have hr0' : t'.rows = [] := by
            have : t'.rows.length = 0 := by rw [hr', hr0]; rfl
            exact List.length_eq_zero_iff.1 this
          refine ⟨fun x u hu i row j v hi hj => ?_, fun _ => ⟨t', ht', by rw [hr0']; simp, fun _ => hr0'⟩, fun hx => by simp_all⟩
          rcases ho' x u hu i row j v hi hj with hE | hE
          · exact absurd hr0 hE.2.2
          · exact .inr hE
  · cases e

theorem stepColNames_owned (env : TextEnv) {p : PState} (h : Parented p) (hi : PInv H0 p) (hexp : p.expecting = .colNames) (line : GoStr)
    (split : List GoStr) (p' : PState) (e : stepColNames env p line split = .ok p') : Parented p' := by
  have ha := hi.current (by rw [hexp]; simp)
  obtain ⟨t, ht, hl, hemp⟩ := h.rows hexp
  have key : ∀ p1 : PState, p1.heap = p.heap → p1.set = p.set → p1.table = p.table → p1.expecting = p.expecting →
      (p1.shape ≠ .struct → t.rows = []) → (p1.structHasRowData = false → t.rows = []) →
      (if p1.shape = .struct then stepStruct env p1 line split
        else if split.all isValidColName then .ok { p1 with colNames := split, expecting := .colTypes } else .err .syntaxErr) = .ok p' → Parented p' := by
    intro p1 e1 e2 e3 e4 h1 h2 e
    by_cases hs : p1.shape = .struct
    · rw [if_pos hs] at e
      refine stepStruct_owned (H0 := H0) env ⟨by rw [e1]; exact h.owned, fun _ => ⟨t, by rw [e1, e3]; exact ht, hl, ?_⟩, fun hx => by simp_all⟩ ?_ (by rw [e4, hexp]) line split hs p' e
      · rintro (hx | hx)
        · simp_all
        · exact h2 hx
      · exact ⟨by rw [e1, e2]; exact hi.inv, fun _ => by rw [e2, e3]; exact ha, fun _ => by rw [hs]; simp,
          fun hx => by rcases hx with ⟨_, hx⟩ | hx <;> simp_all, fun hx => by simp_all⟩
    · rw [if_neg hs] at e
      split at e
      · simp only [Out.ok.injEq] at e
        subst e
        exact ⟨by rw [e1]; exact h.owned, fun hx => by simp at hx, fun _ => ⟨t, by simp only; rw [e1, e3]; exact ht, h1 hs⟩⟩
      · cases e
  unfold stepColNames at e
  by_cases hu : p.shape = .undefined
  · rw [if_pos hu] at e
    obtain ⟨p1, hp1, e⟩ := Out.bind_ok e
    obtain ⟨⟨sh, b⟩, hg, hp1⟩ := Out.bind_ok hp1
    simp only [Out.ok.injEq] at hp1
    subst hp1
    exact key { p with shape := sh, structHasRowData := b } rfl rfl rfl rfl (fun _ => hemp (.inl hu)) (fun _ => hemp (.inl hu)) e
  · rw [if_neg hu] at e
    refine key p rfl rfl rfl rfl (fun hs => ?_) (fun hx => hemp (.inr hx)) e
    have hns := hi.shape hexp
    cases hx : p.shape
    · exact absurd hx hu
    · exact absurd hx hns
    · exact absurd hx hs

theorem appendCols_fold_owned (set : TableSet) (a : Addr) (ha : a ∈ set.tables) (ps : List (GoStr × GoStr)) (H : Heap) (hi : Inv H0 H set)
    (ho : OwnedBut NoExc H) (t : Table Addr) (ht : H[a]? = some t) (hr : t.rows = []) (H' : Heap)
    (e : ps.foldl (fun (o : Out Heap) (p : GoStr × GoStr) => o.bind fun H => appendColAt H a p.1 p.2) (.ok H) = .ok H') : OwnedBut NoExc H' := by
  induction ps generalizing H t with
  | nil => cases e; exact ho
  | cons p ps ih =>
    simp only [List.foldl_cons, Out.bind] at e
    cases hx : appendColAt H a p.1 p.2 with
    | panic => exact absurd hx (appendColAt_ok hi ha p.1 p.2).1
    | err er =>
      rw [hx] at e
      have := (foldErr a er ps).symm.trans e
      cases this
    | ok H1 =>
      rw [hx] at e
      obtain ⟨t', ht', hr', _, ho'⟩ := appendColAt_owned hi ho ha p.1 p.2 H1 hx t ht
      refine ih H1 ((appendColAt_ok hi ha p.1 p.2).2 H1 hx).1 ?_ t' ht' ?_ e
      · intro x u hu i row j v hi hj
        rcases ho' x u hu i row j v hi hj with hE | hE
        · exact absurd hr hE.2.2
        · exact .inr hE
      · have : t'.rows.length = 0 := by rw [hr', hr]; rfl
        exact List.length_eq_zero_iff.1 this

theorem step_owned (env : TextEnv) {p : PState} (h : Parented p) (hi : PInv H0 p) (line : GoStr) (p' : PState) (b : Bool)
    (e : step env p line = .ok (p', b)) : Parented p' := by
  unfold step at e
  split at e
  · split at e
    · cases e
    · simp only [Out.ok.injEq, Prod.mk.injEq] at e
      obtain ⟨rfl, rfl⟩ := e
      exact ⟨h.owned, fun hx => by simp at hx, fun hx => by simp at hx⟩
  · simp only [Out.ok.injEq, Prod.mk.injEq] at e
    obtain ⟨rfl, rfl⟩ := e
    exact h
  · split at e
    · rename_i hexp
      exact stepTableName_owned h hi hexp line p' b e
    · rename_i hexp
      obtain ⟨q, hq, e⟩ := Out.bind_ok e
      simp only [Out.ok.injEq, Prod.mk.injEq] at e
      obtain ⟨rfl, rfl⟩ := e
      exact stepColNames_owned env h hi hexp line _ q hq
    · rename_i hexp
      obtain ⟨q, hq, e⟩ := Out.bind_ok e
      simp only [Out.ok.injEq, Prod.mk.injEq] at e
      obtain ⟨rfl, rfl⟩ := e
      have ha := hi.current (by rw [hexp]; simp)
      obtain ⟨t, ht, hr⟩ := h.empty hexp
      unfold stepColTypes at hq
      split at hq
      · cases hq
      · split at hq
        · cases hq
        · obtain ⟨H', hH', hq⟩ := Out.bind_ok hq
          simp only [Out.ok.injEq] at hq
          subst hq
          unfold appendColsAt at hH'
          split at hH'
          · cases hH'
          · exact ⟨appendCols_fold_owned p.set p.table ha _ p.heap hi.inv h.owned t ht hr H' hH', fun hx => by simp at hx, fun hx => by simp at hx⟩
    · rename_i hexp
      obtain ⟨q, hq, e⟩ := Out.bind_ok e
      simp only [Out.ok.injEq, Prod.mk.injEq] at e
      obtain ⟨rfl, rfl⟩ := e
      have ha := hi.current (by rw [hexp]; simp)
      obtain ⟨ha0, hal, t, ht, hnil, hw, hb⟩ := hi.inv.get ha
      have hlen := (hi.types hexp).1
      unfold stepColRows at hq
      obtain ⟨⟨H', row⟩, hread, hq⟩ := Out.bind_ok hq
      have g := ((readRow_ok env p.table p.heap p.colNames p.colTypes line hlen).2 _ _ hread).1
      have hown := readRow_owned env p.table p.heap p.colNames p.colTypes line hlen H' row hread
      simp only [g.get? ht] at hq
      split at hq
      · cases hq
      · simp only [Out.ok.injEq] at hq
        subst hq
        refine ⟨(h.owned.grows g).put (g.get? ht) rfl (fun _ _ _ hE => hE) ?_, fun hx => by simp_all, fun hx => by simp_all⟩
        intro i r j v hi' hj
        refine .inr ?_
        simp only at hi'
        by_cases hlt : i < t.rows.length
        · rw [List.getElem?_append_left hlt] at hi'
          rcases (h.owned.grows g) _ t (g.get? ht) i r j v hi' hj with hE | hE
          · exact hE.elim
          · exact hE
        · rw [List.getElem?_append_right (Nat.le_of_not_lt hlt)] at hi'
          have hrow : r = row := by
            have := List.mem_of_getElem? hi'
            simpa using this
          subst hrow
          exact hown v (List.mem_of_getElem? hj)

theorem parseLines_owned (env : TextEnv) {p : PState} (h : Parented p) (hi : PInv H0 p) (lines : List GoStr) (p' : PState)
    (e : parseLines env p lines = .ok p') : Parented p' := by
  induction lines generalizing p with
  | nil => simp only [parseLines, Out.ok.injEq] at e; subst e; exact h
  | cons line rest ih =>
    simp only [parseLines] at e
    obtain ⟨⟨p1, b⟩, h1, e⟩ := Out.bind_ok e
    have hp1 := (step_ok env hi (trimSpace line)).2 _ _ h1
    have hq1 := step_owned env h hi _ _ _ h1
    simp only at e
    split at e
    · split at e
      · obtain ⟨⟨p2, b2⟩, h2, e⟩ := Out.bind_ok e
        simp only [Out.ok.injEq] at e
        subst e
        exact step_owned env hq1 hp1 _ _ _ h2
      · simp only [Out.ok.injEq] at e
        subst e; exact hq1
    · exact ih hq1 hp1 e

end Verif
