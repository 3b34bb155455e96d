import Verif.Model.Json
import Verif.Go.JsonIndent

/-!
# JSON with line breaks and tabs
-/

namespace Verif

/-- `indentJSON` (json.go:677-689). -/
def indentJSON (s : GoStr) : Out GoStr :=
  match jsonIndent s with
  | some s' => .ok s'
  | none => .err .syntaxErr

/-- `GetTableAsJSONIndent` (json.go:244-258). -/
def getTableAsJSONIndent (P : PrintEnv) (H : Heap) (depth : Nat) (a : Addr) : Out GoStr := (getTableAsJSON P H depth a).bind indentJSON

/-- `GetTableSetAsJSONIndent` (json.go:502-519). -/
def getTableSetAsJSONIndent (P : PrintEnv) (H : Heap) (depth : Nat) (s : TableSet) : Out GoStr := (getTableSetAsJSON P H depth s).bind indentJSON

end Verif
