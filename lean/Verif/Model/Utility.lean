import Verif.Model.Types

/-!
# Utilities for commands
-/

namespace Verif

/-- `UtilRound` (util.go:546-559), where `val * 10^places` is the fraction `num/den`: the result is the returned number of units `10^-places`.
`math.Modf` truncates towards zero, and the fraction has the sign of the number; `math.Ceil` and `math.Floor` are as usual.
Simplification: the arithmetic is exact.  (In floating point it is exact for `places` = 0, where `val` is multiplied and divided by 1;
otherwise the product and the quotient are rounded.) -/
def utilRound (num : Int) (den : Nat) : Int :=
  if 2 * num.tmod den ≥ den then -((-num) / (den : Int)) else num / (den : Int)

/-- `UtilStringFlag` (util.go:58-63); only whether there is an error is kept of `err`. -/
structure StringFlag where
  val : GoStr := []
  doesExist : Bool := false
  set : Bool := false
  err : Bool := false
  deriving DecidableEq

/-- `strings.HasPrefix(s, "-")` (util.go:69, 159). -/
def dashed (s : GoStr) : Bool := s.head? = some 45

/-- `UtilStringFlag.Set` (util.go:66-78). -/
def StringFlag.setVal (sf : StringFlag) (s : GoStr) : StringFlag :=
  if dashed s then { sf with doesExist := true, val := s, err := true } else { sf with doesExist := true, set := true, val := s }

/-- `UtilStringFlag.AllOk` (util.go:107-109), with `Exists`, `IsSet` and `Error` (util.go:86-98). -/
def StringFlag.allOk (sf : StringFlag) : Bool := sf.doesExist && sf.set && !sf.err

/-- `UtilCheckStringFlag` (util.go:150-180): whether the flag exists, and whether there is an error. -/
def utilCheckStringFlag (arg : GoStr) (required : Bool) : Bool × Bool :=
  let exists_ := !arg.isEmpty
  let hasValidLookingArg := exists_ && !dashed arg
  if required && !exists_ then (false, true)
  else if exists_ && !hasValidLookingArg then (false, true)
  else (exists_, false)

end Verif
