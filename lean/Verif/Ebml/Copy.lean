import Verif.Ebml.Elt
/-!
Model of `EBML_ElementCopy` (`/repo/libebml2/ebmlnumber.c:338-370`, `ebmlstring.c:189-213`, `ebmlbinary.c:75-90`,
`ebmlvoid.c:39-53`, `ebmlmaster.c:557-584`).

Simplifications: allocations succeed; positions are left out (nothing in `Elt` holds them); the classes of
libmatroska that copy more (blocks, tracks) are not covered.
-/
namespace Verif.Ebml

/-- `Copy` of the string class: `strncpy` of `DataSize + 1` bytes. `none`: there is no buffer, or no room for the
terminator. -/
def copyStr (dataSize : Int) (buf : Option Bytes) : Option Bytes :=
  match buf with
  | none => none
  | some s =>
    if dataSize < (cstr s).length then none
    else some (cstr s ++ List.replicate (dataSize.toNat - (cstr s).length) 0)

mutual
/-- `EBML_ElementCopy`; the mark for an unknown size is not copied. `none` is undefined behaviour. -/
def copy : Elt → Option Elt
  | .leaf b d (.str buf) =>
    match copyStr b.dataSize buf with
    | none => none
    | some s => some (.leaf { b with finite := true } d (.str (some s)))
  | .leaf b d v => some (.leaf { b with finite := true } d v)
  | .master b crc ch =>
    match copyList ch with
    | none => none
    | some [] => some (.master { b with finite := true } crc [])
    | some ch' => some (.master { b with finite := true, valueSet := true, needUpdate := true } crc ch')
def copyList : List Elt → Option (List Elt)
  | [] => some []
  | e :: es =>
    match copy e, copyList es with
    | some e', some es' => some (e' :: es')
    | _, _ => none
end

end Verif.Ebml
