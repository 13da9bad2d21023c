import Verif.Core.NodeData
/-!
Model of setting and reading an attribute of a node, `MetaSet` and `MetaGet`, corec/corec/node/node.c:2041-2334, behind
the lookup of the attribute in its class (`Verif/Core/Classes.lean`), with the comparison of values, node.c:1909-1982.

Simplifications: a node is the bytes of its structure and its values of `Verif/Core/NodeData.lean`. Of the attribute the
entry found is given: an attribute with functions of its own (`META_PARAM_SET`, `META_PARAM_GET`) or an event is not
modelled, nor are `TYPE_NODE_REF` (C193), `TYPE_ARRAY` and the types of expressions. What the functions of a class do
before the value is released and after it was changed, and the notification, is not modelled: `told` says that they are
run. `MetaUnSet`, node.c:2336-2543, is the same code behind another lookup. Numbers are little-endian; `tchar_t` is `char`. -/
namespace Verif.Attr
open Verif Verif.Core

/-- Types, nodebase.h:19-42. -/
def tyFraction : Nat := 3
def tyString : Nat := 4
def tyBit : Nat := 24

/-- What the platform decides: `ParamSize`, node.c:18-62, `MAXDATA`, nodebase.h:14, and the width of `uint_fast32_t`. -/
structure Plat where
  psize : Nat → Nat
  maxData : Nat
  w : Nat

/-- An attribute as `MetaSet` and `MetaGet` find it: its type, where its value is in the structure (`none`: among the
values of the node, `META_DYNAMIC`), its `META_PARAM_SIZE`, the bit of it (`META_PARAM_BIT`), and of its
`META_PARAM_DATA_FLAGS` `DFLAG_CMP` and `DFLAG_NODEFAULT`. -/
structure Attr where
  id : Nat
  ty : Nat
  place : Option Nat
  size : Nat
  bit : BitVec 32
  cmp : Bool
  noDefault : Bool

/-- A node: its structure and its values. -/
structure Obj where
  mem : Bytes
  dyn : NodeData.Store

inductive Err where
  | none | invalidData
deriving DecidableEq, Repr

/-- `Node_MaxDataSize`, node.c:1963-1982. -/
def maxSize (P : Plat) (a : Attr) : Nat :=
  if a.ty = 0 then 0
  else if P.psize a.ty = P.maxData ∧ a.ty ≠ tyString then (if a.size = 0 then P.maxData else a.size)
  else P.psize a.ty

/-- A number of two's complement. -/
def signed (b : Bytes) : Int :=
  if 2 * leNat b < 256 ^ b.length then (leNat b : Int) else (leNat b : Int) - (256 ^ b.length : Nat)

/-- Does a product fit `int64_t`? -/
def fits64 (x : Int) : Bool := - 2 ^ 63 ≤ x ∧ x < 2 ^ 63

/-- Numerator and denominator of a `cc_fraction` of `n` bytes, portab.h:173-177. -/
def num (n : Nat) (b : Bytes) : Int := signed (b.take (n / 2))
def den (n : Nat) (b : Bytes) : Int := signed ((b.drop (n / 2)).take (n / 2))

/-- `EqFrac`, node.c:1909-1916; `none`: a product does not fit. -/
def eqFrac (an ad bn bd : Int) : Option Bool :=
  if ad = bd ∧ an = bn then some true
  else if ad = 0 then some (decide (bd = 0))
  else if bd = 0 then some false
  else if fits64 (bd * an) ∧ fits64 (ad * bn) then some (decide (bd * an = ad * bn))
  else none

/-- `EqData`, node.c:1920-1956; `none` in an argument is NULL. -/
def eqData (ty : Nat) (a b : Option Bytes) (size : Nat) : Option Bool :=
  if ty = tyString then some (strcmp ((a.map cstr).getD []) ((b.map cstr).getD []) = 0)
  else
    match a, b with
    | none, none => some true
    | some x, some y =>
      if ty = tyFraction then eqFrac (num size x) (den size x) (num size y) (den size y)
      else some (decide (x.take size = y.take size))
    | some x, none => some (!NodeData.nonZero (x.take size))
    | none, some y => some (!NodeData.nonZero (y.take size))

/-- A `bool_t` of `n` bytes. -/
def boolBytes (n : Nat) (v : Bool) : Bytes := leBytes n (if v then 1 else 0)

/-- `*(uint32_t*)Ptr`. -/
def word (mem : Bytes) (off : Nat) : BitVec 32 := BitVec.ofNat 32 (leNat ((mem.drop off).take 4))

/-- What `MetaSet` gives: the error and whether the functions behind a change are run. -/
structure Res where
  err : Err
  told : Bool
deriving DecidableEq, Repr

/-- The value is written into the structure, node.c:2267-2308; `none`: outside of it. -/
def writeAt (P : Plat) (a : Attr) (off : Nat) (data : Option Bytes) (mem : Bytes) : Option Bytes :=
  if a.ty = tyString then strcpyS mem off a.size ((data.map cstr).getD [])
  else if a.ty = tyBit then
    let v := (data.map fun d => NodeData.nonZero (d.take (P.psize tyBit))).getD false
    store mem off (leBytes 4 (if v then word mem off ||| a.bit else word mem off &&& ~~~a.bit).toNat)
  else
    match data with
    | some d => store mem off (d.take (maxSize P a))
    | none => store mem off (List.replicate (maxSize P a) 0)

/-- What the new value is compared with in the structure, node.c:2234-2249. -/
def current (P : Plat) (a : Attr) (off : Nat) (mem : Bytes) : Bytes :=
  if a.ty = tyBit then boolBytes (P.psize tyBit) (word mem off &&& a.bit != 0) else mem.drop off

/-- `Node_DataSize`, node.c:1984-2008. -/
def realSize (P : Plat) (a : Attr) : Option Bytes → Nat
  | none => 0
  | some d => if a.ty = tyString then (cstr d).length + 1 else maxSize P a

/-- The bytes `Node_SetData` takes, node.c:2222 and 547-584. -/
def kept (P : Plat) (a : Attr) : Option Bytes → Bytes
  | none => []
  | some d => if a.ty = tyString then cstr d ++ [0] else d.take (maxSize P a)

/-- `MetaSet` behind the lookup, node.c:2174-2330: `data` is what the pointer leads to (`none`: NULL), `size` the size
given. `none`: a write outside of the structure, or a product that does not fit. -/
def set (P : Plat) (a : Attr) (data : Option Bytes) (size : Nat) (o : Obj) : Option (Res × Obj) :=
  match a.place with
  | none =>
    if a.ty ≠ tyString ∧ realSize P a data > size then some (⟨.invalidData, false⟩, o)
    else
      (if a.cmp then eqData a.ty data (NodeData.getData P.w a.id a.ty o.dyn) (maxSize P a) else some false).map fun same =>
        if same then (⟨.none, false⟩, o)
        else
          (⟨.none, true⟩, { o with dyn := NodeData.setData P.w a.id a.ty (kept P a data) o.dyn })
  | some off =>
    if data.isSome ∧ size ≠ maxSize P a ∧ a.ty ≠ tyString then some (⟨.invalidData, false⟩, o)
    else
      (if a.cmp then eqData a.ty (some (current P a off o.mem)) data (maxSize P a) else some false).bind fun same =>
        if same then some (⟨.none, false⟩, o)
        else (writeAt P a off data o.mem).map fun m => (⟨.none, true⟩, { o with mem := m })

/-- `MetaGet` behind the lookup, node.c:2061-2119, into a buffer: the error and the bytes of the buffer then; `none`: a
write behind it. -/
def get (P : Plat) (a : Attr) (buf : Bytes) (o : Obj) : Option (Err × Bytes) :=
  let ptr := match a.place with
    | none => NodeData.getData P.w a.id a.ty o.dyn
    | some off => some (o.mem.drop off)
  match ptr with
  | none => if a.noDefault then some (.invalidData, buf) else some (.none, List.replicate buf.length 0)
  | some p =>
    if a.ty = tyString then (strcpyS buf 0 buf.length (cstr p)).map fun b => (.none, b)
    else if a.ty = tyBit then
      if buf.length ≠ P.psize tyBit then some (.invalidData, buf)
      else some (.none, boolBytes buf.length (BitVec.ofNat 32 (leNat (p.take 4)) &&& a.bit != 0))
    else if maxSize P a ≠ buf.length then some (.invalidData, buf)
    else some (.none, p.take (maxSize P a))

end Verif.Attr
