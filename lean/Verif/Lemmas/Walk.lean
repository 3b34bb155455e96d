import Verif.Model.Tree
import Verif.Spec.Tree
import Verif.Lemmas.Equals

/-!
# Walk: what exactly is visited
-/

namespace Verif
open Table

variable {σ : Type}

/-- The visitor calls for table `a` and, if `deep`, the tables nested in it, to depth `d`: the table, then row by row the row and its cells,
each cell followed by the table in it. -/
def treeTrace (deep : Bool) (H : Heap) : Nat → Addr → List Event
  | 0, _ => []
  | d + 1, a =>
    match H[a]? with
    | none => []
    | some t =>
      .table a :: (List.range t.rows.length).flatMap fun r =>
        .row a r :: (List.range t.colNames.length).flatMap fun c =>
          .cell a c r ::
            match nestedAt t c r with
            | some b => if deep then treeTrace deep H d b else []
            | none => []

/-- The nested tables met on the way, except those standing for "no table". -/
def nestedSeq (deep : Bool) (H : Heap) : Nat → Addr → List Addr
  | 0, _ => []
  | d + 1, a =>
    match H[a]? with
    | none => []
    | some t =>
      (List.range t.rows.length).flatMap fun r =>
        (List.range t.colNames.length).flatMap fun c =>
          match nestedAt t c r with
          | some b =>
            if deep then
              (match H[b]? with
              | some n => if n.isNilTable then [] else [b]
              | none => []) ++ nestedSeq deep H d b
            else []
          | none => []

/-- Tables are nested less than `d` deep. -/
def Within (deep : Bool) (H : Heap) : Nat → Addr → Prop
  | 0, _ => False
  | d + 1, a => ∀ c r b, deep = true → HoldsAt H a c r b → Within deep H d b

/-- On the tables `H` the visitor does what `vis` does to its own variables, and nothing to the tables. -/
def Reads (H : Heap) (visit : Event → WalkStep σ) (vis : Event → σ → σ × Out Unit) : Prop :=
  ∀ e safe u, visit e ⟨H, safe, u⟩ = (⟨H, safe, (vis e u).1⟩, (vis e u).2)

/-- A piece of a walk succeeds exactly if it is not too deep, meets no table twice, and the visitor agrees; and then it has visited `evs`. -/
def Exact (H : Heap) (vis : Event → σ → σ × Out Unit) (step : WalkStep σ) (good : Prop) (nodes : List Addr) (evs : List Event) : Prop :=
  ∀ safe u, safe.Nodup →
    ((good ∧ (nodes.reverse ++ safe).Nodup ∧ (forEach vis evs u).2 = .ok ()) →
      step ⟨H, safe, u⟩ = (⟨H, nodes.reverse ++ safe, (forEach vis evs u).1⟩, .ok ())) ∧
    ((step ⟨H, safe, u⟩).2 = .ok () → good ∧ (nodes.reverse ++ safe).Nodup ∧ (forEach vis evs u).2 = .ok ())

variable {H : Heap} {vis : Event → σ → σ × Out Unit} {visit : Event → WalkStep σ}

theorem Exact.congr {step : WalkStep σ} {g g' : Prop} {n n' : List Addr} {e e' : List Event} (h : Exact H vis step g n e)
    (hg : g ↔ g') (hn : n = n') (he : e = e') : Exact H vis step g' n' e' := by
  subst hn; subst he
  have : g = g' := propext hg
  subst this; exact h

theorem Exact.id : Exact H vis (fun s => (s, .ok ())) True [] [] := by
  intro safe u hs
  simp [forEach, hs]

theorem Exact.call (hv : Reads H visit vis) (e : Event) : Exact H vis (visit e) True [] [e] := by
  intro safe u hs
  rw [hv]
  rcases h : vis e u with ⟨u', (_ | er | _)⟩ <;> simp [forEach, h, hs]

theorem forEach_append_ok {ι : Type} (f : ι → σ → σ × Out Unit) (l1 l2 : List ι) (u : σ) :
    (forEach f (l1 ++ l2) u).2 = .ok () ↔ (forEach f l1 u).2 = .ok () ∧ (forEach f l2 (forEach f l1 u).1).2 = .ok () := by
  rw [forEach_append]
  rcases h : forEach f l1 u with ⟨u', (_ | er | _)⟩ <;> simp

theorem forEach_append_fst {ι : Type} (f : ι → σ → σ × Out Unit) (l1 l2 : List ι) (u : σ) (h : (forEach f l1 u).2 = .ok ()) :
    (forEach f (l1 ++ l2) u).1 = (forEach f l2 (forEach f l1 u).1).1 := by
  rw [forEach_append]
  rcases h' : forEach f l1 u with ⟨u', (_ | er | _)⟩ <;> simp [h'] at h ⊢

theorem Exact.andThen {s1 s2 : WalkStep σ} {g1 g2 : Prop} {n1 n2 : List Addr} {e1 e2 : List Event}
    (h1 : Exact H vis s1 g1 n1 e1) (h2 : Exact H vis s2 g2 n2 e2) :
    Exact H vis (andThen s1 s2) (g1 ∧ g2) (n1 ++ n2) (e1 ++ e2) := by
  intro safe u hs
  have hrev : (n1 ++ n2).reverse ++ safe = n2.reverse ++ (n1.reverse ++ safe) := by simp
  have hsub : ((n1 ++ n2).reverse ++ safe).Nodup → (n1.reverse ++ safe).Nodup := by
    rw [hrev]; intro h; exact (List.nodup_append.1 h).2.1
  obtain ⟨a1, b1⟩ := h1 safe u hs
  constructor
  · rintro ⟨⟨hg1, hg2⟩, hnd, hok⟩
    rw [forEach_append_ok] at hok
    have e := a1 ⟨hg1, hsub hnd, hok.1⟩
    have e2 := (h2 _ (forEach vis e1 u).1 (hsub hnd)).1 ⟨hg2, by rw [← hrev]; exact hnd, hok.2⟩
    unfold Verif.andThen
    rw [e]
    simp only
    rw [e2, forEach_append_fst _ _ _ _ hok.1, hrev]
  · intro h
    unfold Verif.andThen at h
    rcases e : s1 ⟨H, safe, u⟩ with ⟨s', (_ | er | _)⟩
    · obtain ⟨c1, c2, c3⟩ := b1 (by rw [e])
      have e' := a1 ⟨c1, c2, c3⟩
      rw [e'] at h
      simp only at h
      obtain ⟨d1, d2, d3⟩ := (h2 _ (forEach vis e1 u).1 c2).2 h
      rw [forEach_append_ok, hrev]
      exact ⟨⟨c1, d1⟩, d2, c3, d3⟩
    · rw [e] at h; simp at h
    · rw [e] at h; simp at h

theorem forEach_andThen {ι : Type} (f : ι → WalkStep σ) (i : ι) (is : List ι) :
    forEach f (i :: is) = andThen (f i) (forEach f is) := by
  funext s
  simp only [forEach, andThen]
  rcases f i s with ⟨s', (_ | e | _)⟩ <;> rfl

theorem Exact.forEach {ι : Type} {f : ι → WalkStep σ} {g : ι → Prop} {n : ι → List Addr} {e : ι → List Event} (l : List ι)
    (h : ∀ i ∈ l, Exact H vis (f i) (g i) (n i) (e i)) :
    Exact H vis (Verif.forEach f l) (∀ i ∈ l, g i) (l.flatMap n) (l.flatMap e) := by
  induction l with
  | nil => exact Exact.id.congr (by simp) rfl rfl
  | cons i is ih =>
    rw [forEach_andThen]
    exact ((h i (by simp)).andThen (ih fun j hj => h j (by simp [hj]))).congr (by simp) (by simp) (by simp)

theorem nestedAt_some {t : Table Addr} {c r : Nat} {b : Addr} :
    nestedAt t c r = some b ↔ ∃ row, t.rows[r]? = some row ∧ row[c]? = some (.tbl (some b)) := by
  unfold nestedAt
  cases h : t.rows[r]? with
  | none => simp
  | some row =>
    cases h2 : row[c]? with
    | none => simp [h2]
    | some x =>
      cases x with
      | tbl o => cases o <;> simp [h2]
      | _ => simp [h2]

theorem nestedAt_At {t : Table Addr} (hwf : WF t) {c r : Nat} {b : Addr} (h : nestedAt t c r = some b) :
    ∃ n, t.colNames[c]? = some n ∧ At t n r (.tbl (some b)) ∧ t.colTypes[c]? = some .table ∧ c < t.colNames.length ∧ r < t.rows.length := by
  obtain ⟨row, h1, h2⟩ := nestedAt_some.1 h
  obtain ⟨l, hok⟩ := hwf.rowsOK row (List.mem_of_getElem? h1)
  have hc := (List.getElem?_eq_some_iff.1 h2).1
  have hr := (List.getElem?_eq_some_iff.1 h1).1
  have hcn : c < t.colNames.length := by rw [← hwf.typesLen, ← l]; exact hc
  have hct : c < t.colTypes.length := by rw [← l]; exact hc
  have e1 := List.getElem?_eq_getElem hcn
  have e2 := List.getElem?_eq_getElem hct
  have := hok c _ _ e2 h2
  refine ⟨_, e1, ⟨c, row, e1, h1, h2⟩, ?_, hcn, hr⟩
  rw [e2]
  cases hty : t.colTypes[c] <;> rw [hty] at this <;> simp [Cell.HasType] at this ⊢

theorem nestedAt_of_table {t : Table Addr} (hwf : WF t) {c r : Nat} (hty : t.colTypes[c]? = some .table) (hr : r < t.rows.length) :
    ∃ b, nestedAt t c r = some b := by
  have e1 := List.getElem?_eq_getElem hr
  obtain ⟨l, hok⟩ := hwf.rowsOK _ (List.getElem_mem hr)
  have hc : c < t.rows[r].length := by rw [l]; exact (List.getElem?_eq_some_iff.1 hty).1
  have e2 := List.getElem?_eq_getElem hc
  have := hok c _ _ hty e2
  cases hx : t.rows[r][c] with
  | tbl o =>
    cases o with
    | none => rw [hx] at this; simp [Cell.HasType] at this
    | some b => exact ⟨b, nestedAt_some.2 ⟨_, e1, by rw [e2, hx]⟩⟩
  | _ => rw [hx] at this; simp [Cell.HasType] at this

theorem HoldsAt.nestedIn (hw : HeapWF H) {a b : Addr} {c r : Nat} (h : HoldsAt H a c r b) : NestedIn H a b := by
  obtain ⟨t, h1, h2⟩ := h
  obtain ⟨n, _, h3, _⟩ := nestedAt_At (hw t (List.mem_of_getElem? h1)) h2
  exact ⟨t, n, r, h1, h3⟩

theorem nestedIn_iff (hw : HeapWF H) {a b : Addr} : NestedIn H a b ↔ ∃ c r, HoldsAt H a c r b := by
  constructor
  · rintro ⟨t, n, r, h1, i, row, _, h3, h4⟩
    exact ⟨i, r, t, h1, nestedAt_some.2 ⟨row, h3, h4⟩⟩
  · rintro ⟨c, r, h⟩; exact h.nestedIn hw

theorem getTyped_nestedAt {t : Table Addr} (hwf : WF t) {c r : Nat} {b : Addr} (h : nestedAt t c r = some b) :
    getTypedByColIndex .table t c r = .ok (.tbl (some b)) := by
  obtain ⟨row, h1, h2⟩ := nestedAt_some.1 h
  obtain ⟨n, _, _, h3, _⟩ := nestedAt_At hwf h
  exact getTypedByColIndex_table h3 h1 h2

theorem walk_exact (hw : HeapWF H) (hcl : Closed H) (hv : Reads H visit vis) (deep : Bool) (d : Nat) (a : Addr) (ha : a < H.length) :
    Exact H vis (walk visit deep d a) (Within deep H d a) (nestedSeq deep H d a) (treeTrace deep H d a) := by
  induction d generalizing a with
  | zero => intro safe u hs; simp [walk, Within]
  | succ d ih =>
    have ea : H[a]? = some H[a] := List.getElem?_eq_getElem ha
    have hwf := hw _ (List.getElem_mem ha)
    generalize hta : H[a] = t at ea hwf
    have hcell : ∀ r ∈ List.range t.rows.length, ∀ c ∈ List.range t.colNames.length,
        Exact H vis (walkCell visit deep (walk visit deep d) a r c) (∀ b, deep = true → nestedAt t c r = some b → Within deep H d b)
          (match nestedAt t c r with
          | some b =>
            if deep then
              (match H[b]? with
              | some n => if n.isNilTable then [] else [b]
              | none => []) ++ nestedSeq deep H d b
            else []
          | none => [])
          (.cell a c r ::
            match nestedAt t c r with
            | some b => if deep then treeTrace deep H d b else []
            | none => []) := by
      intro r hr c hc
      rw [List.mem_range] at hr hc
      have hct : c < t.colTypes.length := by rw [hwf.typesLen]; exact hc
      have ect := List.getElem?_eq_getElem hct
      have ecn : t.colName (c : Int) = .ok t.colNames[c] := colName_nat (List.getElem?_eq_getElem hc)
      have estep : ∀ safe (u : σ), walkCell visit deep (walk visit deep d) a r c ⟨H, safe, u⟩ =
          andThen (visit (.cell a c r)) (if deep = true ∧ t.colTypes[c] = .table then walkNested (walk visit deep d) a c r
            else fun s => (s, .ok ())) ⟨H, safe, u⟩ := by
        intro safe u
        simp only [walkCell, ea, ect, ecn]
      have key : Exact H vis (andThen (visit (.cell a c r)) (if deep = true ∧ t.colTypes[c] = .table then walkNested (walk visit deep d) a c r
            else fun s => (s, .ok ()))) (True ∧ ∀ b, deep = true → nestedAt t c r = some b → Within deep H d b)
          ([] ++ match nestedAt t c r with
          | some b =>
            if deep then
              (match H[b]? with
              | some n => if n.isNilTable then [] else [b]
              | none => []) ++ nestedSeq deep H d b
            else []
          | none => [])
          ([.cell a c r] ++ match nestedAt t c r with
            | some b => if deep then treeTrace deep H d b else []
            | none => []) := by
        refine (Exact.call hv _).andThen ?_
        by_cases hcond : deep = true ∧ t.colTypes[c] = .table
        · rw [if_pos hcond]
          obtain ⟨b, hb⟩ := nestedAt_of_table hwf (c := c) (r := r) (by rw [ect, hcond.2]) hr
          have hbl : b < H.length := hcl a b (HoldsAt.nestedIn hw (c := c) (r := r) ⟨t, ea, hb⟩)
          have eb := List.getElem?_eq_getElem hbl
          simp only [hb, hcond.1, eb, if_true, Option.some.injEq, forall_eq', forall_const]
          have hn : ∀ s : WalkState σ, s.heap = H → walkNested (walk visit true d) a c r s =
              if H[b].isNilTable = false then
                if b ∈ s.safe then (s, .err .circular) else walk visit true d b { s with safe := b :: s.safe }
              else walk visit true d b s := by
            intro s hs
            simp only [walkNested, hs, ea, getTyped_nestedAt hwf hb, eb]
          have hex := ih b hbl
          rw [hcond.1] at hex
          intro safe u hsn
          rw [hn _ rfl]
          by_cases hnil : H[b].isNilTable = true
          · simp only [hnil, Bool.true_eq_false, if_false, if_true, List.nil_append]
            exact hex safe u hsn
          · have hnf : H[b].isNilTable = false := by simpa using hnil
            simp only [hnf, if_true, Bool.false_eq_true, if_false]
            by_cases hmem : b ∈ safe
            · simp only [hmem, if_true]
              constructor
              · rintro ⟨_, hnd, _⟩
                exfalso
                have : ([b] ++ nestedSeq true H d b).reverse ++ safe = (nestedSeq true H d b).reverse ++ (b :: safe) := by simp
                rw [this] at hnd
                exact (List.nodup_cons.1 (List.nodup_append.1 hnd).2.1).1 hmem
              · intro h; simp at h
            · simp only [hmem, if_false]
              have hrev : ([b] ++ nestedSeq true H d b).reverse ++ safe = (nestedSeq true H d b).reverse ++ (b :: safe) := by simp
              rw [hrev]
              exact hex (b :: safe) u (List.nodup_cons.2 ⟨hmem, hsn⟩)
        · rw [if_neg hcond]
          have : deep = false ∨ nestedAt t c r = none := by
            cases hd : deep with
            | false => exact .inl rfl
            | true =>
              right
              cases hb : nestedAt t c r with
              | none => rfl
              | some b =>
                obtain ⟨_, _, _, h4, _⟩ := nestedAt_At hwf hb
                rw [ect] at h4
                exact absurd ⟨hd, by simpa using h4⟩ hcond
          rcases this with h | h
          · subst h
            refine Exact.id.congr (by simp) ?_ ?_
            · cases nestedAt t c r <;> simp
            · cases nestedAt t c r <;> simp
          · simp only [h]
            exact Exact.id.congr (by simp) rfl rfl
      intro safe u hs
      rw [estep]
      have := key safe u hs
      simpa using this
    have hall : ∀ safe (u : σ), walk visit deep (d + 1) a ⟨H, safe, u⟩ =
        andThen (visit (.table a)) (forEach (walkRow visit deep (walk visit deep d) a t.colNames.length) (List.range t.rows.length)) ⟨H, safe, u⟩ := by
      intro safe u
      simp only [walk, ea, colCount, rowCount]
    have hrows := (Exact.call hv (.table a)).andThen (Exact.forEach (List.range t.rows.length) fun r hr =>
      (Exact.call hv (.row a r)).andThen (Exact.forEach (List.range t.colNames.length) fun c hc => hcell r hr c hc))
    have hfin := hrows.congr (g' := Within deep H (d + 1) a) (n' := nestedSeq deep H (d + 1) a) (e' := treeTrace deep H (d + 1) a)
      (by
        simp only [true_and, Within, List.mem_range]
        constructor
        · rintro h c r b hd ⟨t', ht', hb⟩
          rw [ea] at ht'; cases ht'
          obtain ⟨_, _, _, _, h5, h6⟩ := nestedAt_At hwf hb
          exact h r h6 c h5 b hd hb
        · intro h r _ c _ b hd hb
          exact h c r b hd ⟨t, ea, hb⟩)
      (by simp only [nestedSeq, ea, List.nil_append])
      (by simp only [treeTrace, ea, List.singleton_append])
    intro safe u hs
    rw [hall]
    exact hfin safe u hs

end Verif
