import Verif.Base.Bytes
/-!
Model of the EBML variable-length size fields and element IDs
(`/repo/libebml2/ebmlmain.c`, `/repo/libebml2/ebmlelement.c`).

Simplifications: the `(InBuffer, *BufferSize)` pair is one `List UInt8` holding exactly the
available bytes; `filepos_t` (64-bit signed) is `Int`/`Nat` - every shift in these functions
stays below 2^63 for the lengths 1..8 they handle.
-/
namespace Verif.Ebml

/-- Result of `EBML_ReadCodedSizeValue`: the returned value, `*BufferSize` on return and
`*SizeUnknown` on return. -/
structure CodedSize where
  value : Nat
  len : Nat
  unknown : Nat
deriving DecidableEq, Repr

/-- The search loop of `EBML_ReadCodedSizeValue`, ebmlmain.c:117-143: smallest
`SizeIdx < *BufferSize && SizeIdx < 8` with `InBuffer[0] & (0x80 >> SizeIdx)`.
`n` counts the remaining iterations. -/
def findMarker (b0 : UInt8) (avail : Nat) : (n : Nat) → Option Nat
  | 0 => none
  | n + 1 =>
    let idx := 8 - (n + 1)
    if idx < avail then
      if b0 &&& (0x80 >>> UInt8.ofNat idx) ≠ 0 then some idx else findMarker b0 avail n
    else none

/-- `*SizeUnknown`: starts at 0x7F and is updated by `<<= 7; |= 0xFF` once per failed
iteration, ebmlmain.c:116,141-142. -/
def unknownMark : Nat → Nat
  | 0 => 0x7F
  | n + 1 => (unknownMark n <<< 7) ||| 0xFF

/-- `EBML_ReadCodedSizeValue`, ebmlmain.c:108-147. On failure the code leaves
`*SizeUnknown` after the iterations made; no caller uses it, the model reports 0. -/
def readCodedSize (buf : Bytes) : CodedSize :=
  match buf with
  | [] => ⟨0, 0, 0⟩
  | b0 :: rest =>
    match findMarker b0 buf.length 8 with
    | none => ⟨0, 0, 0⟩
    | some idx =>
      -- SizeBitMask >>= SizeIdx; PossibleSize[0] & ~SizeBitMask, then the following bytes
      let first := b0 &&& ~~~(0x80 >>> UInt8.ofNat idx)
      ⟨beNat (first :: rest.take idx), idx + 1, unknownMark idx⟩

/-- Bias subtracted by `EBML_ReadCodedSizeSignedValue`, ebmlmain.c:155-169. -/
def readBias : Nat → Int
  | 1 => 63
  | 2 => 8191
  | 3 => 1048575
  | 4 => 134217727
  | _ => 0

/-- `EBML_ReadCodedSizeSignedValue`, ebmlmain.c:149-173: value and length. -/
def readCodedSizeSigned (buf : Bytes) : Int × Nat :=
  let r := readCodedSize buf
  ((r.value : Int) - readBias r.len, r.len)

/-- `EBML_CodedSizeLength`, ebmlmain.c:379-404. -/
def codedSizeLength (length : Int) (sizeLength : Nat) (finite : Bool) : Nat :=
  let coded :=
    if !finite then 1
    else if length < 127 then 1
    else if length < 16383 then 2
    else if length < 2097151 then 3
    else if length < 268435455 then 4
    else 5
  if sizeLength ≠ 0 ∧ coded < sizeLength then sizeLength else coded

/-- `EBML_CodedSizeLengthSigned`, ebmlmain.c:406-426. -/
def codedSizeLengthSigned (length : Int) (sizeLength : Nat) : Nat :=
  let coded :=
    if -64 < length ∧ length < 64 then 1
    else if -8192 < length ∧ length < 8192 then 2
    else if -1048576 < length ∧ length < 1048576 then 3
    else if -134217728 < length ∧ length < 134217728 then 4
    else 5
  if sizeLength > 0 ∧ coded < sizeLength then sizeLength else coded

/-- `MAX_FILEPOS` for 64-bit file positions, corec/corec/portab.h. -/
def maxFilepos : Int := 2 ^ 63 - 1

/-- `Length & 0xFF & _SizeMask` after `n-1` halvings of `_SizeMask = 0xFF` and `n-1` right
shifts of `Length`, then OR-ed with the marker `1 << (8-n)`, ebmlmain.c:439-447.  -/
def codedFirst (length : Int) (n : Nat) : UInt8 :=
  UInt8.ofNat (1 <<< (8 - n)) |||
    (lowByte (length / (256 ^ (n - 1) : Nat)) &&& (0xFF >>> UInt8.ofNat (n - 1)))

/-- `EBML_CodedValueLength`, ebmlmain.c:429-453: the bytes put in `OutBuffer`. Defined for
`1 ≤ CodedSize ≤ 8` (outside, the C shift `8 - CodedSize` is meaningless). -/
def codedValue (length : Int) (n : Nat) (finite : Bool) : Bytes :=
  let length := if finite then length else maxFilepos
  codedFirst length n :: beBytes (n - 1) length

/-- Bias added by `EBML_CodedValueLengthSigned`, ebmlmain.c:457-464 (chosen from the value). -/
def writeBias (length : Int) : Int :=
  if -64 < length ∧ length < 64 then 63
  else if -8192 < length ∧ length < 8192 then 8191
  else if -1048576 < length ∧ length < 1048576 then 1048575
  else if -134217728 < length ∧ length < 134217728 then 134217727
  else 0

/-- `EBML_CodedValueLengthSigned`, ebmlmain.c:455-467. -/
def codedValueSigned (length : Int) (n : Nat) : Bytes :=
  codedValue (length + writeBias length) n true

/-- `GetIdLength`, ebmlelement.c:207-216 (`fourcc_t` is a 32-bit unsigned number). -/
def idLength (id : Nat) : Nat :=
  if id &&& 0xFFFFFF00 = 0 then 1
  else if id &&& 0xFFFF0000 = 0 then 2
  else if id &&& 0xFF000000 = 0 then 3
  else 4

/-- `EBML_FillBufferID`, ebmlelement.c:218-226: `none` is the return value 0 (buffer too small). -/
def fillBufferID (bufSize : Nat) (id : Nat) : Option Bytes :=
  if bufSize < idLength id then none else some (beBytes (idLength id) id)

/-- `EBML_BufferToID`, ebmlelement.c:242-255. `none` models a read past the given bytes
(the function has no length parameter). -/
def bufferToID (buf : Bytes) : Option Nat :=
  match buf with
  | [] => none
  | b0 :: rest =>
    if b0 &&& 0x80 ≠ 0 then some b0.toNat
    else if b0 &&& 0x40 ≠ 0 then
      match rest with
      | b1 :: _ => some (b0.toNat * 2 ^ 8 + b1.toNat)
      | _ => none
    else if b0 &&& 0x20 ≠ 0 then
      match rest with
      | b1 :: b2 :: _ => some (b0.toNat * 2 ^ 16 + b1.toNat * 2 ^ 8 + b2.toNat)
      | _ => none
    else if b0 &&& 0x10 ≠ 0 then
      match rest with
      | b1 :: b2 :: b3 :: _ =>
        some (b0.toNat * 2 ^ 24 + b1.toNat * 2 ^ 16 + b2.toNat * 2 ^ 8 + b3.toNat)
      | _ => none
    else some 0

/-- `EBML_IdFromBuffer`, ebmlmain.c:175-184 (`FOURCCBE` packs big-endian). -/
def idFromBuffer (buf : Bytes) (idLen : Nat) : Nat :=
  beNat (buf.take (if idLen = 1 then 1 else if idLen = 2 then 2 else if idLen = 3 then 3 else 4))

end Verif.Ebml
