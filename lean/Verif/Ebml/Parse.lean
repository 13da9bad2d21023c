import Verif.Ebml.Scan
import Verif.Ebml.Elt
/-!
Model of reading elements: `ReadData` of masters (`/repo/libebml2/ebmlmaster.c:271-421`) and of the
other classes, with `EBML_ElementSkipData` (`ebmlelement.c:93-108`).

The stream is its bytes and a position (`mem` says whether it is a memory stream, which the code
distinguishes). Simplifications:
* allocations succeed; a seek inside or behind the data succeeds;
* scope SCOPE_ALL_DATA; the Matroska block classes (their own `ReadData`) are outside this model;
* `EBML_ElementIsType(…, CRC-32)` is "class CRC" (the one context of that class).
-/
namespace Verif.Ebml.Scan

/-- A loaded element. -/
inductive Node where
  | leaf (b : Base) (v : Leaf)
  | crc (b : Base) (v : BitVec 32)
  | dummy (b : Base) (data : Bytes)
  | master (b : Base) (checkSumStatus : Nat) (children : List Node)
deriving Repr

/-- Outcome of reading: the element and the stream position, a reported error, an access outside
memory or through NULL, or not enough fuel. -/
inductive RRes where
  | ok (n : Node) (pos : Nat)
  | err (pos : Nat)
  | bad
  | fuelOut
deriving Repr

/-- `ElementIsFiniteSize`/ID of what was found. -/
def Found.id (S : Schema) (f : Found) : Nat :=
  match f.kind with
  | .known r => (S.ctx r).id
  | .dummy i => i

/-- `EBML_ElementPositionData`, ebmlelement.c:167-177 (`SizeLength` goes through int8_t and
uint8_t). -/
def Found.posData (f : Found) : Nat :=
  if f.finite then (f.sizePos + codedSizeLength f.dataSize (f.sizeLen % 256).toNat true).toNat
  else (f.sizePos + f.sizeLen).toNat

/-- Base fields after reading; dates and checksums are created with `bNeedDataSizeUpdate` clear
(ebmldate.c:74, ebmlcrc.c:193), everything else with it set (ebmlelement.c:48-53). -/
def Found.base (S : Schema) (f : Found) (valueSet : Bool) : Base :=
  ⟨f.id S, f.dataSize, (f.sizeLen % 256).toNat, valueSet, f.kind.cls S != .date && f.kind.cls S != .crc, f.finite⟩

/-- `Stream_Read` of exactly `n` bytes: the bytes, or an error with the stream at its end. -/
def readExact (data : Bytes) (pos n : Nat) : Option Bytes :=
  if n ≤ (data.drop pos).length then some ((data.drop pos).take n) else none

/-- The value read from a payload by the leaf classes: ebmlnumber.c:10-86,205-252,
ebmldate.c:30-67, ebmlstring.c:51-94, ebmlbinary.c:9-41. -/
def readLeaf (env : Env) (p : Bytes) : Cls → Option Leaf
  | .uint => (readInt p).map .uint
  | .sint => (readSignedInt env.charSigned env.junk p).map .sint
  | .date => (dateRead p).map .date
  | .float => (readFloat env.toF64 p).map .float
  | .str => some (.str (some p))
  | .bin => some (.bin p)
  | _ => none

/-- `ReadData` of everything that is not a master; the checksum reads from the current position
(ebmlcrc.c:141-152), the Void does not read (ebmlvoid.c:14-18). -/
def readFlat (S : Schema) (env : Env) (data : Bytes) (f : Found) : RRes :=
  match f.kind.cls S with
  | .void => .ok (.leaf (f.base S false) .void) f.endPos.toNat
  | .crc =>
    match readExact data f.streamPos.toNat 4 with
    | none => .err data.length
    | some p => .ok (.crc (f.base S true) (BitVec.ofNat 32 (leNat p))) (f.streamPos.toNat + 4)
  | .dummy =>
    match readExact data f.posData f.dataSize.toNat with
    | none => .err data.length
    | some p => .ok (.dummy (f.base S true) p) (f.posData + p.length)
  | c =>
    match readExact data f.posData f.dataSize.toNat with
    | none => .err data.length
    | some p =>
      match readLeaf env p c with
      | some v => .ok (.leaf (f.base S true) v) (f.posData + p.length)
      | none => .err (f.posData + p.length)

/-- The state of the loop over the children: the stream now used and its position, `bFirst`, the
checksum taken with the data it covers (`none` inside: CRCData stays NULL), `MaxSizeToRead` and
the children so far. -/
structure LSt where
  data : Bytes
  mem : Bool
  pos : Nat
  first : Bool
  crc : Option (BitVec 32 × Option Bytes)
  maxSize : Int
  kids : List Node

/-- `EBML_ElementSkipData`, ebmlelement.c:93-108: the new position; `none` if the finder is out of
fuel or misbehaves. -/
def skipData (S : Schema) (a : Bool) (data : Bytes) (pos : Nat) (ctx : List PCtx) (g : Found) : Option Nat :=
  if g.finite then some g.endPos.toNat
  else
    match findNext S a (data.length + 1) data pos ctx 0 with
    | .found h => some h.posData
    | .none _ p => some p
    | _ => none

/-- Taking a checksum, ebmlmaster.c:307-357, for child `g` of master `f`; `none` is an access
outside the memory stream. -/
def takeCrc (f g : Found) (v : BitVec 32) (n : Node) (s : LSt) : Option LSt :=
  if f.finite then
    if s.mem then
      let size := f.dataSize - (g.dataSize + (g.sizePos - g.pos) + codedSizeLength g.dataSize (g.sizeLen % 256).toNat true)
      if size < 0 then none
      else
        match readExact s.data g.endPos.toNat size.toNat with
        | some d => some { s with first := false, crc := some (v, some d) }
        | none => none
    else
      match readExact s.data g.endPos.toNat (f.endPos - g.endPos).toNat with
      | some d => some { s with
          first := false, data := s.data.take f.endPos.toNat, mem := true, crc := some (v, if d = [] then none else some d) }
      | none => some { s with first := false, kids := s.kids ++ [n] }
  else some { s with first := false, kids := s.kids ++ [n] }

/-- Appending the child or taking it as checksum, ebmlmaster.c:307-359. -/
def addChild (k : Nat) (f g : Found) (s : LSt) : Node → Option LSt
  | .crc b v =>
    if s.first && k != 0 && s.crc.isNone then takeCrc f g v (.crc b v) s
    else some { s with kids := s.kids ++ [.crc b v] }
  | n => some { s with kids := s.kids ++ [n] }

/-- The end of `ReadData`, ebmlmaster.c:396-419; `pos` is the position of the original stream. -/
def finish (S : Schema) (f : Found) (s : LSt) (pos : Nat) : RRes :=
  .ok (.master (f.base S true)
    (match s.crc with
     | some (v, some d) => if Crc.crcMatches v d then 2 else 1
     | _ => 0) s.kids) pos

/-- The element found, or the ways there is none: ebmlmaster.c:299,394,411-416. With an upper
level reported and no element the code uses a NULL pointer (line 414). -/
def next (S : Schema) (f : Found) (s : LSt) (o : Out) (cont : Found → RRes) : RRes :=
  match o with
  | .bad => .bad
  | .fuelOut => .fuelOut
  | .none lv p => if lv > 0 then .bad else finish S f s p
  | .found g =>
    if g.levels > 0 then finish S f s g.pos.toNat
    else if f.finite && decide (g.endPos > f.endPos) then finish S f s g.streamPos.toNat
    else cont g

/-- Looking for the next child, ebmlmaster.c:371-394. -/
def turn (S : Schema) (a : Bool) (f : Found) (s : LSt) (ctx : List PCtx) (cont : LSt → Found → RRes) : RRes :=
  if f.finite && decide (s.maxSize ≤ 0) then finish S f s s.pos
  else next S f s (findNext S a (s.data.length + 1) s.data s.pos ctx 0) (cont s)

mutual
/-- `EBML_ElementReadData`; masters: ebmlmaster.c:271-301. `ctx` is the parser context of the
element, `k` is `DepthCheckCRC`. -/
def readElt (S : Schema) (env : Env) (a : Bool) : Nat → Bytes → Bool → List PCtx → Nat → Found → RRes
  | 0, _, _, _, _, _ => .fuelOut
  | fuel + 1, data, mem, ctx, k, f =>
    match f.kind with
    | .dummy _ => readFlat S env data f
    | .known r =>
      if (S.ctx r).cls = .master then
        let s : LSt := ⟨data, mem, f.posData, true, none, f.dataSize, []⟩
        if f.dataSize > 0 ∨ !f.finite then
          next S f s (findNext S a (data.length + 1) data f.posData (⟨r, f.endPos⟩ :: ctx) 0)
            (fun g => readLoop S env a fuel (⟨r, f.endPos⟩ :: ctx) k f s g)
        else finish S f s f.streamPos.toNat
      else readFlat S env data f
/-- One turn of the loop over the children and the following ones, ebmlmaster.c:299-395. -/
def readLoop (S : Schema) (env : Env) (a : Bool) : Nat → List PCtx → Nat → Found → LSt → Found → RRes
  | 0, _, _, _, _, _ => .fuelOut
  | fuel + 1, ctx, k, f, s, g =>
    if !a && g.kind.isDummy S then
      match skipData S a s.data g.streamPos.toNat ctx g with
      | none => .bad
      | some p => turn S a f { s with pos := p } ctx (fun s g => readLoop S env a fuel ctx k f s g)
    else
      match readElt S env a fuel s.data s.mem ctx (k - 1) g with
      | .bad => .bad
      | .fuelOut => .fuelOut
      | .err p => turn S a f { s with pos := p } ctx (fun s g => readLoop S env a fuel ctx k f s g)
      | .ok n p =>
        match addChild k f g s n with
        | none => .bad
        | some s =>
          match skipData S a s.data p ctx g with
          | none => .bad
          | some p =>
            turn S a f { s with pos := p, maxSize := f.endPos - g.endPos } ctx
              (fun s g => readLoop S env a fuel ctx k f s g)
end

/-- Loading a document: find the first element of the root context from `start` and read it. -/
def load (S : Schema) (env : Env) (a : Bool) (fuel : Nat) (data : Bytes) (mem : Bool) (start : Nat) (root k : Nat) : RRes :=
  match findNext S a (data.length + 1) data start [⟨root, -1⟩] 0 with
  | .found f => readElt S env a fuel data mem [⟨root, -1⟩] k f
  | .none _ p => .err p
  | .bad => .bad
  | .fuelOut => .fuelOut

end Verif.Ebml.Scan
