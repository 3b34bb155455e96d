import Verif.Model.Types

/-!
# The accessors that exist in helpers.go
-/

namespace Verif

/-- The methods `Set…(colName, rowIndex, newVal)` and the column type each one is for (helpers.go:67-905). -/
def setters : List (GoStr × ColType) :=
  [(gs! "SetByteSlice", .byteSlice), (gs! "SetUint8Slice", .uint8Slice), (gs! "SetBool", .bool), (gs! "SetByte", .byte),
   (gs! "SetFloat32", .float32), (gs! "SetFloat64", .float64), (gs! "SetInt", .int), (gs! "SetInt16", .int16), (gs! "SetInt32", .int32),
   (gs! "SetInt64", .int64), (gs! "SetInt8", .int8), (gs! "SetRune", .rune), (gs! "SetString", .string), (gs! "SetUint", .uint),
   (gs! "SetUint16", .uint16), (gs! "SetUint32", .uint32), (gs! "SetUint64", .uint64), (gs! "SetUint8", .uint8), (gs! "SetTable", .table),
   (gs! "SetTime", .time)]

/-- The methods `Get…(colName, rowIndex)` and the column type each one is for (helpers.go:1681-2460). -/
def getters : List (GoStr × ColType) :=
  [(gs! "GetByteSlice", .byteSlice), (gs! "GetUint8Slice", .uint8Slice), (gs! "GetBool", .bool), (gs! "GetByte", .byte),
   (gs! "GetFloat32", .float32), (gs! "GetFloat64", .float64), (gs! "GetInt", .int), (gs! "GetInt16", .int16), (gs! "GetInt32", .int32),
   (gs! "GetInt64", .int64), (gs! "GetInt8", .int8), (gs! "GetRune", .rune), (gs! "GetString", .string), (gs! "GetUint", .uint),
   (gs! "GetUint16", .uint16), (gs! "GetUint32", .uint32), (gs! "GetUint64", .uint64), (gs! "GetUint8", .uint8), (gs! "GetTable", .table),
   (gs! "GetTime", .time)]

end Verif
