import Verif.Core.ColorText
/-!
Reading colours: `ExprIsRGB`, corec/corec/helpers/parser/parser2.c:815-824, with `ReadHex(&s,Out,1,0)`, parser2.c:764-793.
`intptr_t` has 64 bits; overflow is the outcome `bad`.
-/
namespace Verif.Color
open Verif Verif.Mkv Verif.Scanf

/-- `ExprIsRGB`, parser2.c:815-824: the colour and the text behind it; `none` is the result 0. -/
def exprRGB : Str → Out (Option (Nat × Str))
  | [] => .ok none
  | c :: s =>
    if c ≠ 0x23 then .ok none
    else if s.head?.bind hex = none then .ok none
    else (number 16 hex s (-1) 0).bind fun r =>
      let v := if s.length - r.2.length ≤ 6 then r.1 * 2 ^ 8 else r.1
      .ok (some (swap32 (v % 2 ^ 32).toNat, r.2))

end Verif.Color
