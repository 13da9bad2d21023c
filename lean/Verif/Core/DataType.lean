import Verif.Core.Str
/-!
Names of data types and units: `ParamName`, `ParamFormat`, `NodeContext_FindDataType`, `NodeContext_TypeName` and
`NodeContext_UnitName`, corec/corec/node/node.c:64-131, 1876-1907, with the constants of corec/corec/node/nodebase.h:19-62, 82-101.
-/
namespace Verif.DataType
open Verif Verif.Core

/-- The characters of a literal. -/
def lit (s : String) : Bytes := s.toList.map fun c => UInt8.ofNat c.toNat

def nm (s : String) : Option Bytes := some (lit s)

/-- `ParamName`, node.c:64-108. -/
def paramName : List (Option Bytes) :=
  [nm "none", nm "boolean", nm "integer", nm "fraction", nm "string", nm "rectangle", nm "point", nm "rgb", nm "fourcc",
   nm "filepos", nm "node", none, nm "packet", none, none, nm "pointer", none, none, nm "integer_8", nm "integer_16",
   nm "integer_32", nm "integer_64", none, nm "node_ref", none, nm "pin", nm "event", none, nm "point_16", nm "rect_16", none,
   none, none, nm "datetime", nm "db_no", nm "guid", nm "fix_16", none, none, none, none, nm "size"]

/-- `ParamFormat`, node.c:110-131: 32 places, those not given are `NULL`. -/
def paramFormat : List (Option Bytes) :=
  [none, nm "kbyte", nm "second", nm "mhz", nm "xcoord", nm "ycoord", nm "byterate", nm "folder", nm "number", nm "fix16",
   nm "ip", nm "coord", nm "password", nm "upper", nm "checklist", nm "percent", nm "hex", nm "task"] ++ List.replicate 14 none

/-- The loop over the units, node.c:1884-1890, from `j` on. `none`: outside of the array, or not done within `fuel` steps. -/
def unitLoop (format : Bytes) (i : Nat) : Nat → Nat → Option Nat
  | 0, _ => none
  | fuel + 1, j =>
    if (j <<< 24) &&& 0x1F000000 = 0 then some i
    else
      match paramFormat[j]? with
      | none => none
      | some none => unitLoop format i fuel (j + 1)
      | some (some n) => if isame format n then some (i ||| (j <<< 24)) else unitLoop format i fuel (j + 1)

/-- The loop over the types, node.c:1879-1894, from `i` on. -/
def typeLoop (type : Bytes) (format : Option Bytes) : Nat → Nat → Option Nat
  | 0, _ => none
  | fuel + 1, i =>
    if i < 42 then
      match paramName[i]? with
      | none => none
      | some none => typeLoop type format fuel (i + 1)
      | some (some n) =>
        if isame type n then
          match format with
          | none => some i
          | some [] => some i
          | some f => unitLoop f i 32 1
        else typeLoop type format fuel (i + 1)
    else some 0

/-- `NodeContext_FindDataType`, node.c:1876-1895; `format` may be `NULL`. -/
def findDataType (type : Bytes) (format : Option Bytes) : Option Nat := typeLoop type format 43 0

/-- `NodeContext_TypeName`, node.c:1897-1901. `none`: outside of the array; `some none`: `NULL`. -/
def typeName (t : Nat) : Option (Option Bytes) := paramName[t &&& 0x3F]?

/-- `NodeContext_UnitName`, node.c:1903-1907. -/
def unitName (u : Nat) : Option (Option Bytes) := paramFormat[(u &&& 0x1F000000) >>> 24]?

end Verif.DataType
