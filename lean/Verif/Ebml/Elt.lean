import Verif.Ebml.Vint
import Verif.Ebml.Number
import Verif.Ebml.Crc
/-!
Model of element trees: size bookkeeping and rendering
(`/repo/libebml2/ebmlelement.c`, `ebmlmaster.c`, `ebmlnumber.c`, `ebmlstring.c`,
`ebmlbinary.c`, `ebmlvoid.c`).

Simplifications:
* the output stream accepts every write, so rendering yields the bytes written;
* allocations succeed;
* mandatory-element checks (only `assert`s while rendering) are left out;
* the memory-stream shortcut for checksums (ebmlmaster.c:523-542) has the same effect as the
  temporary buffer (ebmlmaster.c:491-521); only the latter is modelled;
* `DefaultSize` is fixed by the class: nothing in the library changes it after creation.
-/
namespace Verif.Ebml

/-- What the code takes from its environment. -/
structure Env where
  /-- `(float)` of a double, on bit patterns -/
  toF32 : BitVec 64 → BitVec 32
  /-- `(double)` of a float -/
  toF64 : BitVec 32 → BitVec 64
  /-- `==` of doubles -/
  feq : BitVec 64 → BitVec 64 → Bool
  /-- is plain `char` signed -/
  charSigned : Bool
  /-- stale stack byte -/
  junk : UInt8

/-- The fields of `ebml_element` used here, libebml2/ebml2/ebml_classes.h:33-50.
`dataSize = -1` is INVALID_FILEPOS_T; `finite` is the negation of EBML_ELEMENT_INFINITESIZE. -/
structure Base where
  id : Nat
  dataSize : Int
  sizeLength : Nat
  valueSet : Bool
  needUpdate : Bool
  finite : Bool
deriving DecidableEq, Repr

/-- Class and value of an element that is not a master. A string buffer is the bytes before
the terminator the library appends (`none` is NULL). -/
inductive Leaf where
  | uint (v : BitVec 64)
  | sint (v : BitVec 64)
  | date (v : BitVec 64)
  | float (v : BitVec 64)
  | str (buf : Option Bytes)
  | bin (data : Bytes)
  | void
deriving DecidableEq, Repr

/-- An element: base fields, default value (`HasDefault`/`DefaultValue` of its context) and value,
or a master with `CheckSumStatus` and children. -/
inductive Elt where
  | leaf (b : Base) (dflt : Option Leaf) (val : Leaf)
  | master (b : Base) (crc : Nat) (children : List Elt)
deriving Repr

namespace Elt

def base : Elt → Base
  | .leaf b _ _ => b
  | .master b _ _ => b

def setBase (b : Base) : Elt → Elt
  | .leaf _ d v => .leaf b d v
  | .master _ c ch => .master b c ch

end Elt

/-- The C string in a buffer: `strlen` stops at the first zero byte. -/
def cstr (buf : Bytes) : Bytes := buf.takeWhile (· ≠ 0)

/-- `DefaultSize` per class: ebmlelement.c:18, ebmlnumber.c:317,325,333, ebmldate.c:73. -/
def Leaf.defaultSize : Leaf → Int
  | .uint _ => 1
  | .sint _ => 1
  | .date _ => 8
  | .float _ => 4
  | _ => -1

/-- `IsDefaultValue`: ebmlnumber.c:255-262, ebmlstring.c:174-177, ebmlbinary.c:57-60,
ebmlvoid.c:9-12, ebmlmaster.c:154-169. -/
def isDefault (env : Env) : Elt → Bool
  | .leaf b (some d) v =>
    match d, v with
    | .uint x, .uint y => !b.valueSet || y == x
    | .sint x, .sint y => !b.valueSet || y == x
    | .date x, .date y => !b.valueSet || y == x
    | .float x, .float y => !b.valueSet || env.feq y x
    | .str (some x), .str (some y) => !b.valueSet || cstr y == cstr x
    | .str _, .str _ => !b.valueSet
    | _, _ => false
  | .leaf _ none _ => false
  | .master _ _ _ => false

mutual
/-- `NeedsDataSizeUpdate`: ebmlelement.c:24-31, ebmlmaster.c:198-210. -/
def needs (env : Env) (d : Bool) : Elt → Bool
  | .leaf b dflt v => b.needUpdate && (d || !isDefault env (.leaf b dflt v))
  | .master b _ ch => b.needUpdate || needsList env d ch
/-- The loop over the children, ebmlmaster.c:204-208. -/
def needsList (env : Env) (d : Bool) : List Elt → Bool
  | [] => false
  | e :: es => needs env d e || needsList env d es
end

/-- Payload size computed by the class-specific part of `UpdateDataSize` for an element whose
flag says so: ebmlnumber.c:264-312, ebmlstring.c:158-172, ebmlbinary.c:62-67; floats and Voids
keep the old one. (`strlen(NULL)` is undefined; the model keeps the size and rendering reports
it.) -/
def Leaf.natural (old : Int) : Leaf → Int
  | .uint v => naturalSizeInt v
  | .sint v => naturalSizeSigned v
  | .date v => naturalSizeSigned v
  | .float _ => old
  | .str none => old
  | .str (some buf) => (cstr buf).length
  | .bin data => data.length
  | .void => old

/-- Does the class recompute even when the flag is clear (binaries do, ebmlbinary.c:64). -/
def Leaf.always : Leaf → Bool
  | .bin _ => true
  | _ => false

/-- Base-class `UpdateDataSize`, ebmlelement.c:33-46, for an element of the given default size. -/
def baseUpdate (skip : Bool) (defaultSize : Int) (b : Base) : Base :=
  if skip then b
  else { b with
    dataSize := if defaultSize > b.dataSize then defaultSize else b.dataSize,
    needUpdate := false }

/-- `EBML_ElementFullSize` for an element that is saved, ebmlelement.c:120-125. -/
def fullSizeBase (b : Base) : Int :=
  b.dataSize + idLength b.id + codedSizeLength b.dataSize b.sizeLength b.finite

mutual
/-- `UpdateDataSize`: ebmlnumber.c:264-312, ebmlstring.c:158-172, ebmlbinary.c:62-67,
ebmlmaster.c:212-248. -/
def update (env : Env) (d : Bool) : Elt → Elt
  | .leaf b dflt v =>
    let skip := !d && isDefault env (.leaf b dflt v)
    let b1 := if v.always || needs env d (.leaf b dflt v) then { b with dataSize := v.natural b.dataSize } else b
    .leaf (baseUpdate skip v.defaultSize b1) dflt v
  | .master b crc ch =>
    if needs env d (.master b crc ch) then
      match updateList env d ch (if crc ≠ 0 then 6 else 0) with
      | (ch', total, true) => .master (baseUpdate false (-1) { b with dataSize := total }) crc ch'
      | (ch', total, false) => .master { b with dataSize := total } crc ch'
    else .master (baseUpdate false (-1) b) crc ch
/-- The loop over the children, ebmlmaster.c:231-240: new children, accumulated `DataSize`, and
`false` when a child has no valid size (the function returns early). -/
def updateList (env : Env) (d : Bool) : List Elt → Int → List Elt × Int × Bool
  | [], acc => ([], acc, true)
  | e :: es, acc =>
    if !d && isDefault env e then
      let r := updateList env d es acc
      (e :: r.1, r.2)
    else
      let e' := update env d e
      if e'.base.dataSize = -1 then (e' :: es, acc, false)
      else
        let r := updateList env d es (acc + fullSizeBase e'.base)
        (e' :: r.1, r.2)
end

/-- Outcome of rendering: bytes, a reported error, or undefined behaviour. -/
inductive Res where
  | ok (out : Bytes)
  | err
  | undef
deriving DecidableEq, Repr

/-- `EBML_ElementRenderHead`, ebmlelement.c:302-326. -/
def renderHead (b : Base) : Bytes :=
  (fillBufferID 12 b.id).getD [] ++
    codedValue b.dataSize (codedSizeLength b.dataSize b.sizeLength b.finite) b.finite

/-- `RenderData` of the leaf classes: ebmlnumber.c:91-192, ebmlstring.c:96-117,
ebmlbinary.c:43-50, ebmlvoid.c:21-36. A negative Void size makes the loop count `(size_t)`
huge; a string shorter than `DataSize` is read out of bounds. -/
def renderLeafData (env : Env) (b : Base) : Leaf → Res
  | .uint v => .ok (renderInt v b.dataSize.toNat 1 env.junk)
  | .sint v => .ok (renderInt v b.dataSize.toNat 1 env.junk)
  | .date v => .ok (renderInt v b.dataSize.toNat 8 env.junk)
  | .float v => .ok (renderFloat env.toF32 v b.dataSize.toNat)
  | .str none => .undef
  | .str (some buf) =>
    if b.dataSize < 0 ∨ (buf.length : Int) + 1 < b.dataSize then .undef
    else .ok ((buf ++ [0]).take b.dataSize.toNat)
  | .bin data => .ok data
  | .void => if b.dataSize < 0 then .undef else .ok (List.replicate b.dataSize.toNat 0)

/-- The CRC-32 element as rendered in front of the children, ebmlmaster.c:505-511 with
ebmlcrc.c:155-165: ID 0xBF, size 4, the value. -/
def renderCrcElt (data : Bytes) : Bytes :=
  renderHead ⟨0xBF, 4, 0, true, false, true⟩ ++ Crc.renderCrc (Crc.finalize (Crc.addBuffer Crc.init data))

/-- Append head and data. -/
def Res.prepend (h : Bytes) : Res → Res
  | .ok x => .ok (h ++ x)
  | r => r

/-- Sequence of two renderings. -/
def Res.append : Res → Res → Res
  | .ok x, .ok y => .ok (x ++ y)
  | .ok _, r => r
  | r, _ => r

/-- Checksum path of master `RenderData`, ebmlmaster.c:473-521: the children go to a buffer of
`DataSize - 6` bytes. More data than that is refused by the memory stream; less leaves
uninitialised bytes that are written nevertheless. -/
def crcPayload (dataSize : Int) : Res → Res
  | .ok x =>
    if dataSize - 6 < 0 ∨ dataSize - 6 < x.length then .err
    else if (x.length : Int) < dataSize - 6 then .undef
    else .ok (renderCrcElt x ++ x)
  | r => r

/-- `EBML_ElementRender`, ebmlelement.c:258-300, with master `InternalRender`/`RenderData`,
ebmlmaster.c:446-554. `fuel` bounds the nesting depth. -/
def render (env : Env) (d : Bool) : Nat → Elt → Res
  | 0, _ => .undef
  | fuel + 1, e =>
    if !(e.base.valueSet || (d && isDefault env e)) then .err
    else if !d && isDefault env e then .err
    else
      match (if needs env d e then update env d e else e) with
      | .leaf b _ v => (renderLeafData env b v).prepend (renderHead b)
      | .master b crc ch =>
        let body := (ch.filter (fun c => d || !isDefault env c)).foldr
          (fun c acc => (render env d fuel c).append acc) (.ok [])
        (if crc = 0 then body else crcPayload b.dataSize body).prepend (renderHead b)

mutual
/-- Nesting depth. -/
def depth : Elt → Nat
  | .leaf _ _ _ => 1
  | .master _ _ ch => depthList ch + 1
def depthList : List Elt → Nat
  | [] => 0
  | e :: es => max (depth e) (depthList es)
end

/-- `EBML_IntegerSetValue`, ebmlnumber.c:411-416, `EBML_FloatSetValue`, ebmlnumber.c:435-440. -/
def setNumber (v : Leaf) : Elt → Elt
  | .leaf b dflt _ => .leaf { b with valueSet := true, needUpdate := true } dflt v
  | e => e

/-- `EBML_StringSetValue`, ebmlstring.c:23-35 (the argument is a C string). -/
def setString (s : Bytes) : Elt → Elt
  | .leaf b dflt _ => .leaf { b with valueSet := true, needUpdate := false, dataSize := s.length } dflt (.str (some s))
  | e => e

/-- `EBML_BinarySetData`, ebmlbinary.c:103-112. -/
def setBinary (s : Bytes) : Elt → Elt
  | .leaf b dflt _ => .leaf { b with valueSet := true, needUpdate := false, dataSize := s.length } dflt (.bin s)
  | e => e

/-- `EBML_MasterAppend`, ebmlmaster.c:84-95. -/
def appendChild (c : Elt) : Elt → Elt
  | .master b crc ch => .master { b with valueSet := true, needUpdate := true } crc (ch ++ [c])
  | e => e

/-- `EBML_VoidSetFullSize`, ebmlvoid.c:65-72: new base fields and the return value. -/
def voidSetFullSize (b : Base) (full : Int) : Base × Bool :=
  let size := full - 1 - codedSizeLength full 0 true
  ({ b with dataSize := size, valueSet := true, needUpdate := false }, decide (size ≥ 0))

/-- A new Void element, ebmlelement.c:16-22,48-53. -/
def newVoid : Base := ⟨0xEC, -1, 0, false, true, true⟩

/-- `EBML_VoidReplaceWith`, ebmlvoid.c:74-114, for a Void and a replacement of the given full
sizes: `none` is INVALID_FILEPOS_T; otherwise the base fields of the filler Void whose head is
written behind the replacement, if there is one. -/
def voidReplaceWith (voidFull replFull : Int) : Option (Option Base) :=
  if voidFull < replFull then none
  else if voidFull - replFull = 1 then none
  else if voidFull - replFull > 1 then
    let tmp := (voidSetFullSize newVoid (voidFull - replFull)).1
    let headBefore := fullSizeBase tmp - tmp.dataSize
    let tmp := { tmp with dataSize := tmp.dataSize - codedSizeLength tmp.dataSize tmp.sizeLength tmp.finite }
    let headAfter := fullSizeBase tmp - tmp.dataSize
    let tmp := if headBefore ≠ headAfter then
      { tmp with sizeLength :=
        ((codedSizeLength tmp.dataSize tmp.sizeLength tmp.finite : Int) - (headAfter - headBefore)).toNat }
      else tmp
    some (some tmp)
  else some none

end Verif.Ebml
