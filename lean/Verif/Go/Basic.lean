/-!
# The fragment of Go used by the model

Go strings are byte sequences.  Go slices of length `n` are lists of length `n`; indexing outside
`0..n-1` panics.  A Go `map[string]int` is an association list with distinct keys.
A Go method with a pointer receiver is a function from the receiver's old value to its new value
paired with an outcome.
-/

namespace Verif

/-- A Go `string`: an arbitrary sequence of bytes (not necessarily valid UTF-8). -/
abbrev GoStr := List UInt8

open Lean in
/-- `gs! "abc"` is the byte list of the UTF-8 encoding of the literal `"abc"`. -/
macro "gs!" s:str : term => do
  let bs := s.getString.toUTF8.toList
  let elems ← bs.mapM fun b => `(( $(quote b.toNat) : UInt8))
  let arr := elems.toArray
  `(([ $arr,* ] : List UInt8))

/-- Kinds of `error` values.  Only the kind is modelled, not the message text. -/
inductive Err where
  | nilTable      -- "table is an unnamed NilTable"
  | badTableName
  | badColName
  | badColType
  | dupCol
  | noCol
  | noRow
  | nilVal
  | typeMismatch
  | negCount
  | badRange
  | badOrder
  | notFloat
  | noSortKeys
  | badSortKey
  | notFound
  | badSearch
  | sameCol
  | dupTable
  | noTable
  | badTableIndex
  | notEqual
  | syntaxErr
  | circular
  | other
  deriving DecidableEq, Repr

/-- Outcome of a call: normal return, returned `error`, or run-time panic. -/
inductive Out (α : Type) where
  | ok (a : α)
  | err (e : Err)
  | panic
  deriving DecidableEq, Repr

namespace Out

/-- Sequencing of calls that do not change state. -/
def bind {α β : Type} (x : Out α) (f : α → Out β) : Out β :=
  match x with
  | ok a => f a
  | err e => err e
  | panic => panic

def isOk {α : Type} : Out α → Bool
  | ok _ => true
  | _ => false

def isPanic {α : Type} : Out α → Bool
  | panic => true
  | _ => false

end Out

/-- Go slice indexing `l[i]`; `none` is the run-time panic. -/
def goGet? {α : Type} (l : List α) (i : Int) : Option α :=
  if 0 ≤ i then l[i.toNat]? else none

/-- Go slice element assignment `l[i] = v`; `none` is the run-time panic. -/
def goSet? {α : Type} (l : List α) (i : Int) (v : α) : Option (List α) :=
  if 0 ≤ i ∧ i.toNat < l.length then some (l.set i.toNat v) else none

/-- `for _, x := range l { if err := f(x); err != nil { return err } }` where the body updates
state `σ`.  Stops at the first error or panic and keeps the state reached so far. -/
def forEach {ι σ : Type} (f : ι → σ → σ × Out Unit) : List ι → σ → σ × Out Unit
  | [], s => (s, .ok ())
  | i :: is, s =>
    match f i s with
    | (s', .ok ()) => forEach f is s'
    | (s', .err e) => (s', .err e)
    | (s', .panic) => (s', .panic)

/-- A Go `map[string]int`, as an association list. -/
abbrev GoMap := List (GoStr × Nat)

namespace GoMap

/-- `v, ok := m[k]` -/
def get? (m : GoMap) (k : GoStr) : Option Nat :=
  match m with
  | [] => none
  | (k', v) :: rest => if k' = k then some v else get? rest k

/-- `m[k] = v` -/
def insert (m : GoMap) (k : GoStr) (v : Nat) : GoMap :=
  match m with
  | [] => [(k, v)]
  | (k', v') :: rest => if k' = k then (k, v) :: rest else (k', v') :: insert rest k v

/-- `delete(m, k)` -/
def erase (m : GoMap) (k : GoStr) : GoMap :=
  match m with
  | [] => []
  | (k', v') :: rest => if k' = k then erase rest k else (k', v') :: erase rest k

end GoMap

end Verif
