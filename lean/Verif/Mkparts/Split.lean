import Verif.Props.MkvSchema
import Verif.Ebml.ScanFirst
/-!
Model of mkparts (`/repo/mkparts/mkparts.c:124-142` and `215-333`): looking for the documents in a file and copying each to a
file of its own.

The input is its bytes. Simplifications:
* the input is read as file_libc.c:94-111 reads a regular file: a read of more bytes than are left delivers them with
  `ERR_END_OF_FILE`; `ReadOneOrMore` is `Read` (streams.c:58-61). Seeks and writes succeed;
* whether a file for a part can be opened is a parameter; its name is C155;
* `UpperElement`, which the code never initialises and never uses, is 0; the elements it forgets to delete are not modelled,
  nor the text it prints.
-/
namespace Verif.Mkparts
open Verif.Ebml Verif.Ebml.Scan
open Verif.Ebml.Master (mkvScan)

/-- Row of the EBML header. -/
abbrev rHead : Nat := 1
/-- Row of the Segment. -/
abbrev rSegment : Nat := 269

/-- `EBML_FindNextElement` in the stream context without limit, mkparts.c:216-221. -/
def find (dummies : Bool) (data : Bytes) (pos : Nat) : Scan.Out :=
  findNext mkvScan dummies (data.length + 1) data pos [⟨0, -1⟩] 0

/-- A `SegmentStart`, mkparts.c:117-122. -/
structure Part where
  headPos : Int
  headSize : Int
  segPos : Int
  segSize : Int
deriving DecidableEq, Repr

/-- `EBML_ElementFullSize`, ebmlelement.c:120-125, of an element of known size with an ID of four bytes. -/
def fullSize (f : Found) : Int := f.dataSize + 4 + codedSizeLength f.dataSize (f.sizeLen % 256).toNat f.finite

/-- What the search for a Segment ends with. -/
inductive Inner where
  | done (head seg : Found) (warned : Bool)
  | crash
  | fuelOut
deriving DecidableEq, Repr

/-- The search for the Segment, mkparts.c:242-249: an EBML header met replaces the one before. When nothing is found the
type of a NULL element is asked for (line 244). -/
def inner (data : Bytes) : (fuel : Nat) → (head : Found) → (pos : Nat) → (warned : Bool) → Inner
  | 0, _, _, _ => .fuelOut
  | fuel + 1, head, pos, warned =>
    match find false data pos with
    | .found f =>
      if f.kind = .known rSegment then .done head f warned
      else if f.kind = .known rHead then inner data fuel f f.streamPos.toNat true
      else inner data fuel head f.streamPos.toNat warned
    | .none _ _ => .crash
    | _ => .fuelOut

/-- `EBML_ElementSkipData` with dummies allowed, ebmlelement.c:93-108: the element behind and the position. `none`: the finder
misbehaves. -/
def skip (data : Bytes) (seg : Found) : Option (Option Found × Nat) :=
  if seg.finite then some (none, seg.endPos.toNat)
  else
    match find true data seg.streamPos.toNat with
    | .found f => some (some f, f.posData)
    | .none _ p => some (none, p)
    | _ => none

/-- The part for a header and a Segment, mkparts.c:253-272; `next` and `pos` are what `skip` yields. -/
def mkPart (head seg : Found) (next : Option Found) (pos : Nat) : Part where
  headPos := head.pos
  headSize := if head.finite then fullSize head else seg.pos - head.pos
  segPos := seg.pos
  segSize :=
    if seg.finite then fullSize seg
    else match next with
      | some f => f.pos - seg.pos
      | none => pos

/-- What the search for documents ends with. -/
inductive Scanned where
  | parts (l : List Part) (warned : Bool)
  | crash
  | fuelOut
deriving DecidableEq, Repr

/-- The loop over the documents, mkparts.c:222-280: `EbmlHead`, the position of the input, the parts so far and whether a
warning was given. A Segment behind something that is no header is dropped (line 251). -/
def outer (data : Bytes) : (fuel : Nat) → (head : Option Found) → (pos : Nat) → (acc : List Part) → (warned : Bool) → Scanned
  | _, none, _, acc, warned => .parts acc warned
  | 0, some _, _, _, _ => .fuelOut
  | fuel + 1, some head, pos, acc, warned =>
    match inner data (data.length + 1) head pos (warned || head.kind != .known rHead) with
    | .crash => .crash
    | .fuelOut => .fuelOut
    | .done head seg warned =>
      if head.kind = .known rHead then
        match skip data seg with
        | none => .fuelOut
        | some (next, pos) =>
          let acc := acc ++ [mkPart head seg next pos]
          match next with
          | some f => outer data fuel (some f) pos acc warned
          | none =>
            match find false data pos with
            | .found f => outer data fuel (some f) f.streamPos.toNat acc warned
            | .none _ p => outer data fuel none p acc warned
            | _ => .fuelOut
      else outer data fuel (some head) seg.streamPos.toNat acc warned

/-- The parts of a file, mkparts.c:221-280. -/
def scan (data : Bytes) : Scanned :=
  match find false data 0 with
  | .found f => outer data (data.length + 1) (some f) f.streamPos.toNat [] false
  | .none _ _ => .parts [] false
  | _ => .fuelOut

/-- What is written and whether the copying ends. -/
structure Copied where
  bytes : Bytes
  ends : Bool
deriving DecidableEq, Repr

/-- `CopyTo` behind its seek, mkparts.c:131-140, in pieces of 8192 bytes. A read that does not deliver all it was asked for is
an error, its bytes are dropped, nothing is counted, and the loop starts over at the end of the input, where all reads fail
(line 134). The loop runs once per piece. -/
def copyLoop : (fuel : Nat) → (rest : Bytes) → (size : Nat) → Copied
  | 0, _, _ => ⟨[], false⟩
  | fuel + 1, rest, size =>
    if size = 0 then ⟨[], true⟩
    else if min size 8192 ≤ rest.length then
      let c := copyLoop fuel (rest.drop (min size 8192)) (size - min size 8192)
      ⟨rest.take (min size 8192) ++ c.bytes, c.ends⟩
    else ⟨[], false⟩

/-- `CopyTo`, mkparts.c:124-142. A negative size is taken for a huge one and every read fails (file_libc.c:96-97). -/
def copyTo (data : Bytes) (start size : Int) : Copied :=
  if size < 0 then ⟨[], false⟩ else copyLoop (size.toNat + 1) (data.drop start.toNat) size.toNat

/-- How the program ends: it returns, uses a NULL pointer, closes a closed stream, or never ends. -/
inductive Ending where
  | exit (code : Int)
  | crash
  | closedTwice
  | endless
deriving DecidableEq, Repr

/-- Writing the parts, mkparts.c:293-322, from part `j` on: the files written, and whether all could be opened and copied. -/
def writeParts (opens : Nat → Bool) (data : Bytes) : (j : Nat) → List Part → List Bytes × Ending
  | _, [] => ([], .closedTwice)
  | j, p :: ps =>
    if opens j then
      let h := copyTo data p.headPos p.headSize
      if h.ends then
        let s := copyTo data p.segPos p.segSize
        if s.ends then
          let r := writeParts opens data (j + 1) ps
          ((h.bytes ++ s.bytes) :: r.1, r.2)
        else ([h.bytes ++ s.bytes], .endless)
      else ([h.bytes], .endless)
    else ([], .exit (-5))

/-- The whole run, mkparts.c:215-333: the contents of the files written and the end. Behind the loop over the parts `Output`
still points to the last stream, which is closed already (lines 321 and 329-330). -/
def run (opens : Nat → Bool) (data : Bytes) : List Bytes × Ending :=
  match scan data with
  | .crash => ([], .crash)
  | .fuelOut => ([], .endless)
  | .parts l _ =>
    if l.length = 0 then ([], .exit (-3))
    else if l.length = 1 then ([], .exit (-3))
    else writeParts opens data 0 l

end Verif.Mkparts
