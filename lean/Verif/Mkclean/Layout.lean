import Verif.Ebml.Elt
/-!
Model of how mkclean lays out the Clusters behind the Cues
(`/repo/mkclean/mkclean.c`, `/repo/libmatroska2/matroskamain.c`).

Simplifications:
* a Cluster is its payload size without PrevSize, its own PrevSize, the length of its size field
  and its position: nothing else enters the layout (its other children keep their sizes while the
  Cues are settled, and PrevSize is moved but not resized by `NodeTree_SetParent`);
* a CuePoint is the values written to it and the Cluster its linked Block is in; its children are
  erased and created again by each update (matroskamain.c:866-867), so they are rebuilt here;
* allocations succeed.
-/
namespace Verif.Mkclean
open Verif.Ebml

/-- Fields of a new element whose value was set: ebmlelement.c:16-22, ebmlnumber.c:411-416. -/
def newBase (id : Nat) : Base := ⟨id, -1, 0, true, true, true⟩

/-- An unsigned integer element without default value that was created and set. -/
def newUint (id : Nat) (v : BitVec 64) : Elt := .leaf (newBase id) none (.uint v)

/-- The children `MATROSKA_CuePointUpdate` gives a CuePoint, matroskamain.c:858-895: CueTime and
CueTrackPositions with CueTrack and CueClusterPosition (IDs: matroska_sem.c:1172-1185). A mandatory
CueCodecState (matroska_sem.c:844,1178) holds its default and is never saved. -/
def cuePointElt (crc : Nat) (time track pos : BitVec 64) : Elt :=
  .master (newBase 0xBB) crc
    [newUint 0xB3 time, .master (newBase 0xB7) 0 [newUint 0xF7 track, newUint 0xF1 pos]]

/-- A CuePoint: CueTime, CueTrack and CueClusterPosition, `CheckSumStatus`, and the number of the
Cluster holding its Block (`none`: `Cue->Block` is NULL). -/
structure Cue where
  time : BitVec 64
  track : BitVec 64
  pos : BitVec 64
  crc : Nat
  cluster : Option Nat
deriving DecidableEq, Repr

/-- The Cues: `CheckSumStatus`, `DataSize`, `SizeLength` and the CuePoints. -/
structure Cues where
  crc : Nat
  dataSize : Int
  sizeLength : Nat
  points : List Cue
deriving DecidableEq, Repr

/-- The element tree of the Cues. -/
def Cues.elt (c : Cues) : Elt :=
  .master ⟨0x1C53BB6B, c.dataSize, c.sizeLength, true, true, true⟩ c.crc
    (c.points.map fun p => cuePointElt p.crc p.time p.track p.pos)

/-- `EBML_ElementFullSize(Cues,0)`, ebmlelement.c:120-125. -/
def Cues.fullSize (c : Cues) : Int :=
  fullSizeBase ⟨0x1C53BB6B, c.dataSize, c.sizeLength, true, true, true⟩

/-- A Cluster: payload without PrevSize, length of the size field, PrevSize, position. -/
structure Clu where
  body : Nat
  sizeLength : Nat
  prevSize : Option (BitVec 64)
  pos : Int
deriving DecidableEq, Repr

/-- Payload of a Cluster: a PrevSize takes its ID, a size byte and its value
(matroska_sem.c:1015, ebmlnumber.c:293-308). -/
def Clu.dataSize (c : Clu) : Nat :=
  c.body + match c.prevSize with
    | none => 0
    | some v => 2 + naturalSizeInt v

/-- `EBML_ElementFullSize` of a Cluster. -/
def Clu.fullSize (c : Clu) : Int :=
  fullSizeBase ⟨0x1F43B675, c.dataSize, c.sizeLength, true, false, true⟩

/-- The loop over the Clusters in `SettleClustersWithCues`, mkclean.c:361-389, at position `pos`
behind a Cluster of size `prev`. -/
def place (safe : Bool) : Int → Option Int → List Clu → List Clu
  | _, _, [] => []
  | pos, prev, c :: cs =>
    let c1 := { c with
      pos := pos
      prevSize := if safe then (match prev with | some s => some (BitVec.ofInt 64 s) | none => c.prevSize)
        else c.prevSize }
    c1 :: place safe (pos + c1.fullSize) (some c1.fullSize) cs

/-- `MATROSKA_CuePointUpdate` of one CuePoint, matroskamain.c:858-895, for a Segment whose data
starts at `seg`: `none` when it has no Block (`Cue->Block` is followed). -/
def updateCue (clusters : List Clu) (seg : Int) (c : Cue) : Option Cue :=
  match c.cluster with
  | none => none
  | some k =>
    match clusters[k]? with
    | none => none
    | some cl => some { c with pos := BitVec.ofInt 64 (cl.pos - seg) }

/-- `UpdateCues`, mkclean.c:337-350. -/
def updateCues (clusters : List Clu) (seg : Int) : List Cue → Option (List Cue)
  | [] => some []
  | c :: cs =>
    match updateCue clusters seg c, updateCues clusters seg cs with
    | some c', some cs' => some (c' :: cs')
    | _, _ => none

/-- Outcome of `SettleClustersWithCues`. -/
inductive Settle where
  | done (clusters : List Clu) (cues : Cues)
  /-- a NULL pointer is followed -/
  | crash
  /-- out of fuel -/
  | more
deriving DecidableEq, Repr

/-- `SettleClustersWithCues`, mkclean.c:352-397; `fuel` bounds the recursion. -/
def settle (env : Env) (safe : Bool) (start seg : Int) : Nat → List Clu → Cues → Settle
  | 0, _, _ => .more
  | fuel + 1, clusters, cues =>
    let clusters' := place safe (start + cues.fullSize) none clusters
    match updateCues clusters' seg cues.points with
    | none => .crash
    | some ps =>
      let cues' := { cues with points := ps }
      let size := (update env false cues'.elt).base.dataSize
      if size = cues.dataSize then .done clusters' { cues' with dataSize := size }
      else settle env safe start seg fuel clusters' { cues' with dataSize := size }

end Verif.Mkclean
