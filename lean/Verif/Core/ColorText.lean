import Verif.Core.Scanf
/-!
GUIDs and colours as text: `GUIDToString` and `RGBToString`, corec/corec/helpers/parser/strtypes.c:36-41, 125-130, with `SWAP32`,
corec/corec/helper.h:10-11, as `INT32BE` on little-endian machines (helper.h:28). The format is read by the model of `stprintf_s`.
-/
namespace Verif.Color
open Verif Verif.Mkv Verif.Scanf

/-- `cc_guid`, portab.h:165-171. -/
structure Guid where
  v1 : Nat
  v2 : Nat
  v3 : Nat
  b0 : Nat
  b1 : Nat
  b2 : Nat
  b3 : Nat
  b4 : Nat
  b5 : Nat
  b6 : Nat
  b7 : Nat
deriving DecidableEq, Repr

/-- `GUIDToString`, strtypes.c:36-41, into a buffer of `n` characters. -/
def guidToString (n : Nat) (g : Guid) : Printf.O :=
  Printf.printf n (lit "%08x-%04x-%04x-%02x%02x-%02x%02x%02x%02x%02x%02x")
    [.int (low32 g.v1), .int g.v2, .int g.v3, .int g.b0, .int g.b1, .int g.b2, .int g.b3, .int g.b4, .int g.b5, .int g.b6, .int g.b7]

/-- `SWAP32`, helper.h:10-11; bits that do not overlap are added. -/
def swap32 (a : Nat) : Nat := a / 2 ^ 24 % 256 + a / 2 ^ 16 % 256 * 2 ^ 8 + a / 2 ^ 8 % 256 * 2 ^ 16 + a % 256 * 2 ^ 24

/-- strtypes.c:128-129 on the buffer. -/
def cutAlpha (t : List Nat) : List Nat :=
  if 1 + 8 ≤ t.dropLast.length ∧ t[7]? = some 0x30 ∧ t[8]? = some 0x30 then t.take 7 ++ [0] else t

/-- `RGBToString`, strtypes.c:125-130, into a buffer of `n` characters. -/
def rgbToString (n : Nat) (rgb : Nat) : Printf.O :=
  match Printf.printf n (lit "#%08X") [.int (low32 (swap32 rgb))] with
  | .done t => .done (cutAlpha t)
  | o => o

end Verif.Color
