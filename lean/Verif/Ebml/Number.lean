import Verif.Base.Bytes
/-!
Model of the integer, float and date payloads
(`/repo/libebml2/ebmlnumber.c`, `/repo/libebml2/ebmldate.c`).

`Element->Value` (int64_t) is a `BitVec 64`. The stream is reduced to the bytes written or
read (`Stream_Read` of `DataSize` bytes succeeded). `double`/`float` are their IEEE bit
patterns; the conversions between the two formats are parameters.
-/
namespace Verif.Ebml

/-- `ReadDataInt` loop, ebmlnumber.c:37-42: `Value <<= 8; Value |= (uint8_t)Buffer[i]`.
`none` is ERR_INVALID_DATA (more than 8 bytes, ebmlnumber.c:27-31). -/
def readInt (buf : Bytes) : Option (BitVec 64) :=
  if buf.length > 8 then none
  else some (buf.foldl (fun v b => (v <<< 8) ||| b.toBitVec.zeroExtend 64) 0#64)

/-- `ReadDataSignedInt`, ebmlnumber.c:66-84: `char Buffer[8]`, so `Value |= Buffer[i]`
promotes a plain `char`, which is sign-extended where `char` is signed (`charSigned`).
Line 76 looks at `Buffer[0]` even when no byte was read: `junk` is that stale byte. -/
def readSignedInt (charSigned : Bool) (junk : UInt8) (buf : Bytes) : Option (BitVec 64) :=
  if buf.length > 8 then none
  else
    let b0 := buf.headD junk
    let v0 : BitVec 64 := if b0 &&& 0x80 ≠ 0 then -1#64 else 0#64
    some (buf.foldl (fun v b => (v <<< 8) |||
      (if charSigned then b.toBitVec.signExtend 64 else b.toBitVec.zeroExtend 64)) v0)

/-- `UpdateSizeInt`, ebmlnumber.c:293-308 (value taken as `uint64_t`). -/
def naturalSizeInt (v : BitVec 64) : Nat :=
  if v.toNat ≤ 0xFF then 1
  else if v.toNat ≤ 0xFFFF then 2
  else if v.toNat ≤ 0xFFFFFF then 3
  else if v.toNat ≤ 0xFFFFFFFF then 4
  else if v.toNat ≤ 0xFFFFFFFFFF then 5
  else if v.toNat ≤ 0xFFFFFFFFFFFF then 6
  else if v.toNat ≤ 0xFFFFFFFFFFFFFF then 7
  else 8

/-- `UpdateSizeSignedInt`, ebmlnumber.c:268-283. -/
def naturalSizeSigned (v : BitVec 64) : Nat :=
  if v.toInt ≤ 0x7F ∧ v.toInt ≥ -0x80 then 1
  else if v.toInt ≤ 0x7FFF ∧ v.toInt ≥ -0x8000 then 2
  else if v.toInt ≤ 0x7FFFFF ∧ v.toInt ≥ -0x800000 then 3
  else if v.toInt ≤ 0x7FFFFFFF ∧ v.toInt ≥ -0x80000000 then 4
  else if v.toInt ≤ 0x7FFFFFFFFF ∧ v.toInt ≥ -0x8000000000 then 5
  else if v.toInt ≤ 0x7FFFFFFFFFFF ∧ v.toInt ≥ -0x800000000000 then 6
  else if v.toInt ≤ 0x7FFFFFFFFFFFFF ∧ v.toInt ≥ -0x80000000000000 then 7
  else 8

/-- Base-class `UpdateDataSize`, ebmlelement.c:38-39: raise to `DefaultSize`. -/
def updateDataSize (natural : Nat) (defaultSize : Int) : Nat :=
  if defaultSize > natural then defaultSize.toNat else natural

/-- `RenderDataInt`/`RenderDataSignedInt`, ebmlnumber.c:91-161: the bytes written to the
stream. `DataSize == 0` writes nothing. When `DefaultSize > DataSize` the loop at lines
113/149 fills only `DefaultSize - DataSize` bytes and the remaining ones are whatever the
stack held (`junk`). The arithmetic shift of the signed version and the logical shift of the
unsigned one give the same bytes for up to 8 bytes. -/
def renderInt (v : BitVec 64) (dataSize : Nat) (defaultSize : Int) (junk : UInt8) : Bytes :=
  if dataSize = 0 then []
  else if defaultSize > dataSize then
    beBytes (defaultSize.toNat - dataSize) v.toInt ++ List.replicate dataSize junk
  else beBytes dataSize v.toInt

/-- Memory image of a number on the little-endian hosts the project targets. -/
def memImage (n x : Nat) : Bytes := leBytes n x

/-- `RenderDataFloat`, ebmlnumber.c:163-192: `LOAD64BE` of the memory image of the double
(`LOAD32BE` of the float), then the memory image of that number is written. Any `DataSize`
other than 8 writes 4 bytes. -/
def renderFloat (toF32 : BitVec 64 → BitVec 32) (v : BitVec 64) (dataSize : Nat) : Bytes :=
  if dataSize = 8 then memImage 8 (beNat (memImage 8 v.toNat))
  else memImage 4 (beNat (memImage 4 (toF32 v).toNat))

/-- `ReadDataFloat`, ebmlnumber.c:205-252. `none` is ERR_INVALID_DATA. -/
def readFloat (toF64 : BitVec 32 → BitVec 64) (buf : Bytes) : Option (BitVec 64) :=
  if buf.length = 4 then some (toF64 (BitVec.ofNat 32 (beNat buf)))
  else if buf.length = 8 then some (BitVec.ofNat 64 (beNat buf))
  else none

/-- `EBML_DateSetDateTime`, ebmldate.c:17-23, with `Scale64(Date,1000000000,1)`
(corec/corec/helper.h:47-52); dates are `int32_t`, 0 is INVALID_DATETIME_T.
`none` is ERR_INVALID_PARAM (the element is left unchanged). -/
def dateSet (date : Int) : Option (BitVec 64) :=
  if date = 0 then none else some (BitVec.ofInt 64 (date * 1000000000 / 1))

/-- `EBML_DateTime`, ebmldate.c:9-15: `(int)((Value * 1) / 1000000000)`, C division truncates. -/
def dateGet (valueIsSet : Bool) (v : BitVec 64) : Int :=
  if !valueIsSet then 0 else ((v.toInt * 1).tdiv 1000000000).bmod (2 ^ 32)

/-- Date `ReadData`, ebmldate.c:47-65: bytes reversed into the little-endian memory image of
the value, missing high bytes are zero. -/
def dateRead (buf : Bytes) : Option (BitVec 64) :=
  if buf.length > 8 then none else some (BitVec.ofNat 64 (leNat buf.reverse))

end Verif.Ebml
