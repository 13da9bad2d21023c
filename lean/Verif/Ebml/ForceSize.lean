import Verif.Ebml.EltLemmas
/-! Giving an element of unknown size its size afterwards; IDs as text. -/
namespace Verif.Ebml
open Verif

/-- `EBML_ElementInfiniteForceSize`, ebmlelement.c:184-205 (with assertions enabled, an element whose size is known aborts the
program, line 189): the element and the result. -/
def infiniteForceSize (b : Base) (newSize : Int) : Base × Bool :=
  if b.finite then (b, false)
  else
    let old := codedSizeLength b.dataSize b.sizeLength b.finite
    let b' := { b with dataSize := newSize }
    if codedSizeLength b'.dataSize b'.sizeLength b'.finite = old then ({ b' with finite := false }, true) else (b, false)

/-- A hexadecimal digit as `%X` writes it. -/
def hexUpper (n : Nat) : Char := if n < 10 then Char.ofNat (48 + n) else Char.ofNat (55 + n)

/-- `"[%02X]"` for a number below 256. -/
def bracket (n : Nat) : List Char := ['[', hexUpper (n / 16), hexUpper (n % 16), ']']

/-- The loop of `EBML_IdToString`, ebmlelement.c:234-238, from byte `i` on: `i` counts down from 4, `out` is what is in `Out`. -/
def idToStringLoop (id : Nat) : Nat → List Char → List Char
  | 0, out => out
  | i + 1, out =>
    let byte := (id >>> (8 * i)) &&& 0xFF
    idToStringLoop id i (if out ≠ [] ∨ byte ≠ 0 then out ++ bracket byte else out)

/-- `EBML_IdToString`, ebmlelement.c:228-240: the text and the result; `none` if there is too little room (result 0). -/
def idToString (room id : Nat) : Option (List Char × Nat) :=
  if room < idLength id * 4 + 1 then none else some (idToStringLoop id 4 [], idLength id * 4)

end Verif.Ebml
