import Verif.Go.Basic

/-!
# UTF-8 (package unicode/utf8)

Library code, not in /repo; written after the documented behaviour of the package.
-/

namespace Verif

/-- `utf8.ValidRune`. -/
def ValidRune (r : Nat) : Prop := r < 0xD800 ∨ (0xE000 ≤ r ∧ r ≤ 0x10FFFF)

instance (r : Nat) : Decidable (ValidRune r) := by unfold ValidRune; exact inferInstance

/-- Least second byte after the first byte (unicode/utf8 `acceptRanges`). -/
def utf8Lo (c0 : Nat) : Nat := if c0 = 0xE0 then 0xA0 else if c0 = 0xF0 then 0x90 else 0x80
/-- Greatest second byte after the first byte. -/
def utf8Hi (c0 : Nat) : Nat := if c0 = 0xED then 0x9F else if c0 = 0xF4 then 0x8F else 0xBF

/-- A continuation byte. -/
def isCont (c : UInt8) : Prop := 0x80 ≤ c.toNat ∧ c.toNat ≤ 0xBF

instance (c : UInt8) : Decidable (isCont c) := by unfold isCont; exact inferInstance

/-- `utf8.DecodeRuneInString`: the first code point and its width; `none` is `(RuneError, 1)`, the result for an invalid encoding
(or `(RuneError, 0)` for the empty string). -/
def decodeRune? (l : GoStr) : Option (Nat × Nat) :=
  match l with
  | [] => none
  | c0 :: cs =>
    let a := c0.toNat
    if a < 0x80 then some (a, 1)
    else if a < 0xC2 then none
    else if a < 0xE0 then
      match cs with
      | c1 :: _ => if isCont c1 then some ((a - 0xC0) * 64 + (c1.toNat - 0x80), 2) else none
      | [] => none
    else if a < 0xF0 then
      match cs with
      | c1 :: c2 :: _ =>
        if utf8Lo a ≤ c1.toNat ∧ c1.toNat ≤ utf8Hi a ∧ isCont c2 then
          some ((a - 0xE0) * 4096 + (c1.toNat - 0x80) * 64 + (c2.toNat - 0x80), 3)
        else none
      | _ => none
    else if a < 0xF5 then
      match cs with
      | c1 :: c2 :: c3 :: _ =>
        if utf8Lo a ≤ c1.toNat ∧ c1.toNat ≤ utf8Hi a ∧ isCont c2 ∧ isCont c3 then
          some ((a - 0xF0) * 262144 + (c1.toNat - 0x80) * 4096 + (c2.toNat - 0x80) * 64 + (c3.toNat - 0x80), 4)
        else none
      | _ => none
    else none

/-- `utf8.AppendRune`, `string(r)`: an invalid code point is encoded as U+FFFD. -/
def encodeRune (r : Nat) : GoStr :=
  let r := if ValidRune r then r else 0xFFFD
  if r < 0x80 then [UInt8.ofNat r]
  else if r < 0x800 then [UInt8.ofNat (0xC0 + r / 64), UInt8.ofNat (0x80 + r % 64)]
  else if r < 0x10000 then [UInt8.ofNat (0xE0 + r / 4096), UInt8.ofNat (0x80 + r / 64 % 64), UInt8.ofNat (0x80 + r % 64)]
  else [UInt8.ofNat (0xF0 + r / 262144), UInt8.ofNat (0x80 + r / 4096 % 64), UInt8.ofNat (0x80 + r / 64 % 64), UInt8.ofNat (0x80 + r % 64)]

-- U+00E9, U+20AC, U+1F600, surrogate, overlong, truncated
example : encodeRune 0xE9 = gs! "é" ∧ encodeRune 0x20AC = gs! "€" ∧ encodeRune 0x1F600 = gs! "😀" := by decide +kernel
example : decodeRune? (gs! "€x") = some (0x20AC, 3) ∧ decodeRune? [0xED, 0xA0, 0x80] = none ∧ decodeRune? [0xC0, 0x80] = none ∧
    decodeRune? [0xE2, 0x82] = none := by decide +kernel

end Verif
