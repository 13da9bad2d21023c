import Verif.Core.Frac
/-!
Data rates as text: `ByteRateToString`, corec/corec/helpers/parser/strtypes.c:162-178, with `Scale32`, corec/corec/helper.h:47-57.
-/
namespace Verif.Rate
open Verif Verif.Mkv Verif.Scanf

/-- `Scale32`, helper.h:54-57: the product is an `int64_t`, the result is cut to an `int`. -/
def scale32 (v num den : Int) : Int := if den ≠ 0 then low32 ((v * num).tdiv den) else 0

/-- `ByteRateToString`, strtypes.c:162-178, into a buffer of `n` characters. -/
def byteRateToString (n : Nat) (rate : Int) : Out Printf.O :=
  let kb := scale32 rate 8 1000
  if kb ≥ 1000 then (Frac.fractionToString n kb 1000 0 2).bind fun o => .ok (Frac.catText n (lit " Mbit/s") o)
  else .ok (Frac.catText n (lit " kbit/s") (intToString n kb false))

end Verif.Rate
