import Verif.Model.JsonIndent
import Verif.Lemmas.JsonIndent
import Verif.Lemmas.JsonShape
import Verif.Lemmas.JsonBad

/-!
# Reading indented JSON
-/

namespace Verif
open Table

/-! ### The bound on nested tables does not matter -/

theorem foldOut_congr {σ α : Type} {f g : σ → α → Out σ} : ∀ (l : List α), (∀ x ∈ l, ∀ s, f s x = g s x) → ∀ s, foldOut f s l = foldOut g s l
  | [], _, _ => rfl
  | x :: l, h, s => by
    simp only [foldOut]
    rw [h x (.head _) s]
    exact congrArg _ (funext fun s' => foldOut_congr l (fun y hy => h y (.tail _ hy)) s')

variable {E : JsonEnv}

theorem readJsonCell_congr {f g : Heap → List (GoStr × JVal) → Out (Heap × Addr)} (a : Addr) (r c : Nat) (H : Heap) (v : JVal) (h : ∀ m, v = .obj m → ∀ K, f K m = g K m) :
    readJsonCell E f a r c H v = readJsonCell E g a r c H v := by
  unfold readJsonCell
  cases v with
  | obj m => simp only [h m rfl]
  | _ => rfl

theorem readJsonRow_congr {f g : Heap → List (GoStr × JVal) → Out (Heap × Addr)} (a : Addr) (r : Nat) (H : Heap) (cells : List JVal)
    (h : ∀ v ∈ cells, ∀ m, v = .obj m → ∀ p ∈ m, ∀ m', p.2 = .obj m' → ∀ K, f K m' = g K m') : readJsonRow E f a r H cells = readJsonRow E g a r H cells := by
  unfold readJsonRow
  apply foldOut_congr
  rintro ⟨ci, v⟩ hx s
  have hv := (List.of_mem_zip hx).2
  cases v with
  | obj m =>
    simp only
    apply foldOut_congr
    intro v hv' K
    obtain ⟨p, hp, e⟩ := List.mem_map.mp hv'
    exact readJsonCell_congr a r ci K v fun m' e' => h _ hv m rfl p (entries_mem hp) m' (e.trans e')
  | _ => rfl

theorem readJsonTable_depth : ∀ (d d' : Nat) (m : List (GoStr × JVal)), depthMembers m < d → depthMembers m < d' → ∀ H, readJsonTable E d H m = readJsonTable E d' H m
  | 0, _, _, h, _, _ => absurd h (Nat.not_lt_zero _)
  | _ + 1, 0, _, _, h, _ => absurd h (Nat.not_lt_zero _)
  | d + 1, d' + 1, m, h, h', H => by
    have rows (data : List JVal) (hd : depthElems data ≤ depthMembers m) (a : Addr) (K : Heap) :
        readJsonRows E (readJsonTable E d) a K data = readJsonRows E (readJsonTable E d') a K data := by
      unfold readJsonRows
      apply foldOut_congr
      rintro ⟨ri, v⟩ hx s
      have hv := (List.of_mem_zip hx).2
      cases v with
      | arr cells =>
        simp only
        congr 1
        funext H1
        apply readJsonRow_congr
        intro w hw m1 e1 p hp m' e' K'
        have d1 := depth_elem hv
        have d2 := depth_elem hw
        have d3 := depth_member (k := p.1) (v := p.2) hp
        rw [e'] at d3
        rw [e1] at d2
        simp only [JVal.depth] at d1 d2 d3
        exact readJsonTable_depth d d' m' (by omega) (by omega) K'
      | _ => rfl
    unfold readJsonTable
    split
    · split
      · rfl
      · rfl
      · simp only
        split
        · congr 1
          funext H1
          split
          · rename_i data hdata
            have := depth_member (jsonGet_mem hdata)
            rw [rows data (by simpa only [JVal.depth] using this)]
          · rfl
        · rfl
    · rfl

theorem readJsonTables_depth {d d' : Nat} (l : List JVal) (h : depthElems l < d) (h' : depthElems l < d') (st : Heap × TableSet) :
    readJsonTables E d st l = readJsonTables E d' st l := by
  unfold readJsonTables
  apply foldOut_congr
  rintro v hv ⟨H, S⟩
  cases v with
  | obj m =>
    have := depth_elem hv
    simp only [JVal.depth] at this
    simp only
    rw [readJsonTable_depth d d' m (by omega) (by omega)]
  | _ => rfl

/-- What is read depends only on the decoded text. -/
theorem newTableSetFromJSON_decode {s s' : GoStr} (h : jsonDecode s' = jsonDecode s) (K : Heap) : newTableSetFromJSON E K s' = newTableSetFromJSON E K s := by
  unfold newTableSetFromJSON
  rw [h]
  cases hd : jsonDecode s with
  | none => rfl
  | some m =>
    have h1 := jsonDecode_depth hd
    rw [hd] at h
    have h2 := jsonDecode_depth h
    simp only
    split
    · split
      · rename_i tables ht
        have := depth_member (jsonGet_mem ht)
        simp only [JVal.depth] at this
        exact readJsonTables_depth tables (by omega) (by omega) _
      · rfl
    · rfl

/-! ### Which texts are indented -/

theorem jsonIndent_some {s : GoStr} : (∃ s', jsonIndent s = some s') ↔ jsonValid s = true := by
  unfold jsonIndent
  split <;> simp [*]

theorem jsonValue_brace {n : Nat} {x : GoStr} {v : JVal} {r : GoStr} (h : jsonValue n (123 :: x) = some (v, r)) : ∃ m, v = .obj m := by
  cases n with
  | zero => simp [jsonValue] at h
  | succ n =>
    rw [jsonValue, jsonSpace_cons (by decide)] at h
    simp only [if_true] at h
    split at h
    · obtain ⟨rfl, _⟩ := Prod.mk.inj (Option.some.inj h)
      exact ⟨_, rfl⟩
    · obtain ⟨p, _, h3⟩ := Option.map_eq_some_iff.mp h
      exact ⟨p.1, (Prod.mk.inj h3).1.symm⟩

theorem jsonValid_render (hi : Nat → Bool) (m : List (GoStr × JVal)) (h : ToldMembers hi m) : jsonValid ((JVal.obj m).render hi) = true ↔ GoodMembers hi m := by
  constructor
  · intro hv
    refine (jsonDecode_iff hi m h).1 fun hd => ?_
    unfold jsonValid at hv
    split at hv
    · rename_i v r h1
      unfold jsonDecode at hd
      rw [h1] at hd
      have : ∃ m', v = .obj m' := by
        obtain ⟨x, e⟩ : ∃ x, (JVal.obj m).render hi = 123 :: x := ⟨_, rfl⟩
        rw [e] at h1
        exact jsonValue_brace h1
      obtain ⟨m', rfl⟩ := this
      simp at hd
    · simp at hv
  · intro hg
    have := jsonValue_render hi (.obj m) hg (2 * ((JVal.obj m).render hi).length + 2) [] (by omega) (.inl rfl)
    rw [List.append_nil] at this
    unfold jsonValid
    rw [this]
    rfl

variable {P : PrintEnv} {H : Heap}

/-- The text of a set of tables is indented exactly if it can be decoded. -/
theorem set_valid (hP : P.text.float = goFloat) (hT : ∀ v, PlainText (P.fmtTime v)) (hw : HeapWF H) {d : Nat} {S : TableSet} {s : GoStr} (h : getTableSetAsJSON P H d S = .ok s)
    (hwr : ∀ a ∈ S.tables, AsciiTree H a ∧ ¬ IsNil H a) : jsonValid s = true ↔ jsonDecode s ≠ none := by
  unfold getTableSetAsJSON at h
  cases h1 : jsonTables P H d S.tables with
  | err e => rw [h1] at h; cases h
  | panic => rw [h1] at h; cases h
  | ok ss =>
    rw [h1] at h
    simp only [Out.bind, Out.ok.injEq] at h
    obtain ⟨os, o1, o2, o3⟩ := tables_told hP hT hw S.tables ss h1 hwr
    have hs : s = (JVal.obj (setMembers S.name os)).render P.printable := by
      rw [← h, o1, joinSep_render]
      simp [setMembers, JVal.render, renderMembers, renderMoreMembers, quote_plain plain_lit5, quote_plain plain_lit6]
    have ht : ToldMembers P.printable (setMembers S.name os) := ⟨plain_lit5.jsonText, trivial, plain_lit6.jsonText, o2, trivial⟩
    rw [hs, jsonDecode_iff P.printable _ ht, jsonValid_render P.printable _ ht]

/-- Indenting changes nothing but white space. -/
theorem indentLoop_bytes (keep : UInt8 → Bool) (hk : ∀ c, keep c = true → ¬ (c = 32 ∨ c = 9 ∨ c = 10 ∨ c = 13)) :
    ∀ (s : GoStr) (m : IndentAt) (ni : Bool) (d : Nat) (st : Bool), (indentLoop m ni d st s).filter keep = s.filter keep
  | [], m, ni, d, st => by cases m <;> simp [indentLoop]
  | c :: cs, .str, ni, d, st => by
    rw [indentLoop, List.filter_cons, List.filter_cons, indentLoop_bytes keep hk cs]
  | c :: cs, .esc, ni, d, st => by
    rw [indentLoop, List.filter_cons, List.filter_cons, indentLoop_bytes keep hk cs]
  | c :: cs, .out, ni, d, st => by
    have no {x : UInt8} (hx : x = 32 ∨ x = 9 ∨ x = 10 ∨ x = 13) : keep x = false := by
      cases hh : keep x with
      | false => rfl
      | true => exact absurd hx (hk x hh)
    have nl (d : Nat) (l : GoStr) : (indentNewline d ++ l).filter keep = l.filter keep := by
      have : (List.replicate d (9 : UInt8)).filter keep = [] := by
        rw [List.filter_replicate, no (by simp)]; rfl
      simp [indentNewline, no, this]
    simp only [indentLoop]
    split
    · rename_i hc
      have drop (l : GoStr) : (c :: l).filter keep = l.filter keep := List.filter_cons_of_neg (by simp [no hc])
      rw [drop]
      split
      · rw [drop, indentLoop_bytes keep hk cs]
      · exact indentLoop_bytes keep hk cs ..
    split
    · split
      · rw [List.filter_cons, List.filter_cons, indentLoop_bytes keep hk cs]
      · rw [nl, List.filter_cons, List.filter_cons, indentLoop_bytes keep hk cs]
    have pre (x : GoStr) : ((if ni = true then indentNewline (if ni = true then d + 1 else d) else []) ++ x).filter keep = x.filter keep := by
      cases ni with
      | true => exact nl _ _
      | false => rfl
    rw [pre]
    split
    · rw [List.filter_cons, List.filter_cons, indentLoop_bytes keep hk cs]
    split
    · rw [List.filter_cons, List.filter_cons, nl, indentLoop_bytes keep hk cs]
    split
    · have drop (l : GoStr) : (32 :: l).filter keep = l.filter keep := List.filter_cons_of_neg (by simp [no])
      rw [List.filter_cons (x := c), drop, List.filter_cons, indentLoop_bytes keep hk cs]
    split
    · rw [List.filter_cons, List.filter_cons, indentLoop_bytes keep hk cs]
    · rw [List.filter_cons, List.filter_cons, indentLoop_bytes keep hk cs]

end Verif
