import Verif.Core.Frac
/-!
Model of `DoubleToFrac` (`/repo/corec/corec/helpers/parser/parser2.c:1014-1028`). The shift of a 64-bit one by a negative number, or by
63 and more, is undefined.
-/
namespace Verif.Frac
open Verif Verif.Mkv Verif.Scanf

/-- `DoubleToFrac`, parser2.c:1014-1028, of the bits of a double as an `int64_t`. -/
def doubleToFrac (v : Int) : Out (Int × Int) :=
  if v = 0 then .ok (0, 1)
  else
    let e := (v / 2 ^ 52) % 2 ^ 12 - 1023
    let mant := v % 2 ^ 52 + 2 ^ 52
    if 52 - e < 0 ∨ 52 - e ≥ 63 then .bad
    else (simplify mant (2 ^ (52 - e).toNat)).bind fun r => .ok (if v < 0 then -r.1 else r.1, r.2)

end Verif.Frac
