import Verif.Core.Str
/-!
Four-character codes in expressions: `ExprIsFourCC` and `ExprSkipAfter`, corec/corec/helpers/parser/parser2.c:576-589, 826-838, over
`StringToFourCC` (Verif/Core/Str.lean). Strings are lists of their characters, without the NUL at the end.
-/
namespace Verif.FourccRead
open Verif Verif.Core

/-- `ExprSkipAfter`, parser2.c:576-589, for a character: what stands behind its first occurrence; `none` is the result 0. -/
def skipAfter (ch : UInt8) : Bytes → Option Bytes
  | [] => none
  | c :: r => if c = ch then some r else skipAfter ch r

/-- `ExprIsFourCC`, parser2.c:826-838: the code (its four bytes in memory order) and the text behind; `none` is the result 0. -/
def exprFourcc (s : Bytes) : Option (Bytes × Bytes) :=
  match s with
  | 0x40 :: 0x27 :: t =>
    match skipAfter 0x27 t with
    | none => none
    | some u =>
      let len := s.length - u.length
      if len ≤ 7 then some (stringToFourcc ((s.drop 2).take (min (len - 3) 15)) false, u) else none
  | _ => none

end Verif.FourccRead
