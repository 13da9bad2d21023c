import Verif.Mkclean.Layout
import Verif.Mkclean.Cue
import Verif.Mkv.Seek
/-!
Model of how mkclean lays out and writes the output file (`/repo/mkclean/mkclean.c:2012-2030`, `2095-2200`,
`2934-3199`, without `--live`).

Simplifications:
* the Segment Info, Tracks, Chapters, Attachments and Tags are the bytes they are rendered to (C22) and the size they
  had while the first positions were guessed; which of them there are is settled;
* Cues are only there together with Tracks (mkclean.c:3008);
* the Timestamp of a Cluster is its first child, stored in its shortest form, PrevSize the second one
  (mkclean.c:376-378), and the announced size of a block is its written size (C34);
* a block that cannot be read is deleted: the CuePoints that refer to it would keep it (TYPE_NODE_REF,
  matroskamain.c:2492), those are not modelled;
* when the Timestamp of a Cluster is incremented its blocks keep their bytes (their time relative to the Cluster is not
  in the statements);
* the file accepts every write and seek; allocations succeed.
-/
namespace Verif.Mkclean
open Verif.Ebml Verif.Mkv

/-- The bytes rendered. Errors are ignored where mkclean does not look at the result (mkclean.c:676). -/
def bytesOf : Res → Bytes
  | .ok b => b
  | _ => []

/-- `EBML_ElementRender(Element,Output,0,0,1,…)`. -/
def rendered (env : Ebml.Env) (e : Elt) : Bytes := bytesOf (render env false (depth e) e)

/-- Write `data` at `pos` of a file at least that long. -/
def writeAt (file : Bytes) (pos : Nat) (data : Bytes) : Bytes :=
  file.take pos ++ data ++ file.drop (pos + data.length)

/-- A section written in front of the Cues. -/
structure Part where
  id : Nat
  /-- `EBML_ElementFullSize` while the positions are guessed -/
  oldSize : Nat
  bytes : Bytes
deriving DecidableEq, Repr

/-- A Cluster to write: its time, `SizeLength`, `CheckSumStatus`, and its blocks and whether `MATROSKA_BlockReadData`
can read them. -/
structure OutCluster where
  time : Int
  sizeLength : Nat
  crc : Nat
  blocks : List (Bool × Elt)
deriving Repr

/-- What is to be written. -/
structure Job where
  /-- `!Unsafe` -/
  safe : Bool
  /-- the EBML head as rendered -/
  head : Bytes
  /-- `DataSize` of the source's Segment, `none` when its size is unknown -/
  srcSize : Option Nat
  /-- Segment Info, Tracks, Chapters, Attachments, Tags: those there are, in this order -/
  parts : List Part
  cues : Option Cues
  clusters : List OutCluster
  /-- TimestampScale -/
  scale : Int
  /-- `ClustersNeedRead` -/
  needRead : Bool
  /-- CueTime of a CuePoint when the Cues are updated after the Clusters were written -/
  retime : Cue → BitVec 64

/-- Tree of a Cluster with the given PrevSize. -/
def OutCluster.elt (scale : Int) (prev : Option (BitVec 64)) (c : OutCluster) : Elt :=
  .master ⟨0x1F43B675, -1, c.sizeLength, true, true, true⟩ c.crc
    (newUint 0xE7 (BitVec.ofInt 64 (scale64 c.time scale)) ::
      ((prev.map (newUint 0xAB)).toList ++ c.blocks.map (·.2)))

/-- `ReadClusterData`, mkclean.c:245-279: the blocks that can be read are kept; did that change the Cluster? -/
def OutCluster.read (c : OutCluster) : OutCluster × Bool :=
  ({ c with blocks := c.blocks.filter (·.1) }, (c.blocks.any (fun b => !b.1)))

/-- What `SettleClustersWithCues` knows of a Cluster. -/
def OutCluster.clu (env : Ebml.Env) (scale : Int) (c : OutCluster) : Clu :=
  ⟨(update env false (c.elt scale none)).base.dataSize.toNat, c.sizeLength, none, -1⟩

/-- A SeekHead with entries for elements of the given IDs at the given positions, in a Segment whose data starts at
`seg`: mkclean.c:691-697 with matroskamain.c:486-516. (The entries are updated in place by the code; the children come
out the same.) -/
def seekHeadElt (safe : Bool) (seg : Int) (entries : List (Nat × Int)) : Elt :=
  .master ⟨0x114D9B74, -1, 0, true, true, true⟩ (if safe then 1 else 0)
    (entries.map fun e => .master ⟨0x4DBB, -1, 0, true, true, true⟩ (if safe then 1 else 0) (metaSeekUpdate seg e.1 e.2 []))

/-- `ExtraVoidSize`, mkclean.c:2934-2942: room for entries of two unknown elements and of the Tags, Attachments and
Chapters that are missing. -/
def extraVoid (parts : List Part) : Nat :=
  2 * 22 + (if parts.any (·.id = 0x1254C367) then 0 else 22) + (if parts.any (·.id = 0x1941A469) then 0 else 22) +
    (if parts.any (·.id = 0x1043A770) then 0 else 22)

/-- First guess of where the first section is, mkclean.c:2101-2105. -/
def firstGuess (safe : Bool) (parts : List Part) : Int :=
  38 + 4 * (if safe then 23 else 17) + (if parts.any (·.id = 0x1941A469) then (if safe then 24 else 18) else 0) +
    (if parts.any (·.id = 0x1043A770) then (if safe then 23 else 17) else 0)

/-- The guesses, mkclean.c:2107-2194: the Segment Info is given 60 bytes more. -/
def guesses (pos : Int) : List Part → List (Nat × Int) × Int
  | [] => ([], pos)
  | p :: ps =>
    let r := guesses (pos + p.oldSize + (if p.id = 0x1549A966 then 60 else 0)) ps
    ((p.id, pos) :: r.1, r.2)

/-- Positions of the sections written one behind the other from `pos` on, and the position behind them. -/
def partsFrom (pos : Int) : List Part → List (Nat × Int) × Int
  | [] => ([], pos)
  | p :: ps =>
    let r := partsFrom (pos + p.bytes.length) ps
    ((p.id, pos) :: r.1, r.2)

/-- Entries of the SeekHead: the sections, the Cues if there are any, the first Cluster if there is one
(mkclean.c:2925-2952). -/
def entriesOf (parts : List (Nat × Int)) (cues : Option Int) (cluster : Option Int) : List (Nat × Int) :=
  parts ++ (cues.map fun p => (0x1C53BB6B, p)).toList ++ (cluster.map fun p => (0x1F43B675, p)).toList

/-- `WriteCluster`, mkclean.c:657-689, up to the rendering: the Cluster as written, the time to compare the next one
with, and whether the Cues changed. -/
def writeCluster (scale prev : Int) (c : OutCluster) : OutCluster × Int × Bool :=
  let late : Bool := decide (prev ≠ invalidTs ∧ prev ≥ c.time)
  let t := if late then s64 (prev + scale) else c.time
  ({ c.read.1 with time := t }, t, c.read.2 || late)

/-- The loop that writes the Clusters, mkclean.c:3109-3121, from position `pos`: the bytes of each and its position, and
whether the Cues changed. The list gives each Cluster with its PrevSize. -/
def writeClusters (env : Ebml.Env) (scale : Int) : (prev pos : Int) → List (OutCluster × Option (BitVec 64)) →
    List (Bytes × Int) × Bool
  | _, _, [] => ([], false)
  | prev, pos, c :: cs =>
    let w := writeCluster scale prev c.1
    let b := rendered env (w.1.elt scale c.2)
    let r := writeClusters env scale w.2.1 (pos + b.length) cs
    ((b, pos) :: r.1, w.2.2 || r.2)

/-- How it ends: the file, or the exit code, or following a NULL pointer. -/
inductive Out where
  | done (file : Bytes)
  | fail (code : Int)
  | crash
deriving DecidableEq, Repr

/-- The layout before anything is written, mkclean.c:2925-3020: PrevSizes and positions of the Clusters, the Cues, the
entries of the SeekHead that is written first, and the size of the SeekHead that the Cues and Clusters were placed behind.
`none` is a NULL pointer followed. -/
structure Plan where
  clusters : List (OutCluster × Option (BitVec 64))
  cues : Option Cues
  entries : List (Nat × Int)
  supposed : Nat

def plan (env : Ebml.Env) (j : Job) (seg : Int) : Option Plan :=
  let g := guesses (firstGuess j.safe j.parts) j.parts
  let cuesGuess := j.cues.map fun _ => g.2
  let behind := g.2 + (match j.cues with | some c => c.fullSize | none => 0)
  let cluGuess := j.clusters.head?.map fun _ => behind + extraVoid j.parts
  -- 2955-2959
  let m1 := (rendered env (seekHeadElt j.safe seg (entriesOf g.1 cuesGuess cluGuess))).length
  -- 2962-3002
  let p := partsFrom (seg + m1 + extraVoid j.parts) j.parts
  -- 3004-3005
  let m2 := (rendered env (seekHeadElt j.safe seg (entriesOf p.1 cuesGuess cluGuess))).length
  let start := p.2 + (m2 - m1)
  match j.cues with
  | some c =>
    -- 3010-3012
    let cs := j.clusters.map fun c => if j.needRead then c.read.1 else c
    match settle env j.safe start seg (7 * c.points.length + 2) (cs.map (·.clu env j.scale)) c with
    | .done placed c' =>
      some ⟨cs.zip (placed.map (·.prevSize)), some c', entriesOf p.1 (some start) (placed.head?.map (·.pos)), m2⟩
    | _ => none
  | none =>
    -- 3014-3015
    let cluPos := if j.clusters.length = 1 then j.clusters.head?.map (fun _ => start) else cluGuess
    some ⟨j.clusters.map (fun c => (c, none)), none, entriesOf p.1 none cluPos, m2⟩

/-- Head of the Segment, mkclean.c:2012-2025: with a known size in the source its size field is as long as that size
needs, else 8 bytes. -/
def tempHead (srcSize : Option Nat) : Base :=
  match srcSize with
  | some n => ⟨0x18538067, n, 0, true, true, true⟩
  | none => ⟨0x18538067, -1, 8, true, true, true⟩

/-- Head of the Segment at the end, mkclean.c:3171-3173. -/
def finalHead (temp : Base) (size : Int) : Base :=
  let b := if codedSizeLength temp.dataSize 0 true > codedSizeLength size 0 true then
      { temp with sizeLength := codedSizeLength temp.dataSize 0 true }
    else temp
  { b with dataSize := size }

/-- The Void behind the SeekHead, mkclean.c:3032-3041. -/
def voidBytes (env : Ebml.Env) (n : Nat) : Bytes := rendered env (.leaf (voidSetFullSize newVoid n).1 none .void)

/-- What is on disk after the Clusters were written, and where. -/
structure Written where
  seek : Bytes
  void : Bytes
  /-- IDs and positions of the sections -/
  parts : List (Nat × Int)
  cuesPos : Int
  cues : Bytes
  /-- bytes and position of each Cluster -/
  clusters : List (Bytes × Int)
  /-- `CuesChanged` -/
  changed : Bool

/-- mkclean.c:3017-3121: the SeekHead, the Void, the sections, the Cues and the Clusters. -/
def writeAll (env : Ebml.Env) (j : Job) (seg : Int) (pl : Plan) : Written :=
  let seek := rendered env (seekHeadElt j.safe seg pl.entries)
  let void := voidBytes env (extraVoid j.parts)
  let parts := partsFrom (seg + seek.length + void.length) j.parts
  let cues := match pl.cues with | some c => rendered env c.elt | none => []
  let w := writeClusters env j.scale invalidTs (parts.2 + cues.length) pl.clusters
  ⟨seek, void, parts.1, parts.2, cues, w.1, w.2⟩

/-- What follows the SeekHead. -/
def Written.rest (w : Written) (parts : List Part) : Bytes :=
  w.void ++ (parts.map (·.bytes)).flatten ++ w.cues ++ (w.clusters.map (·.1)).flatten

/-- `SegmentSize`. -/
def Written.size (w : Written) (parts : List Part) : Nat :=
  w.seek.length + w.void.length + (parts.map (·.bytes.length)).sum + w.cues.length +
    (w.clusters.map (·.1.length)).sum

/-- How rewriting the Cues ends. -/
inductive Rewrite where
  /-- they are left as they are -/
  | keep
  /-- these bytes are written over them -/
  | over (b : Bytes)
  /-- they do not fit -/
  | misfit
  /-- a NULL pointer is followed -/
  | crash

/-- Rewriting the Cues, mkclean.c:3124-3154. -/
def rewriteCues (env : Ebml.Env) (j : Job) (seg : Int) (cues : Option Cues) (w : Written) : Rewrite :=
  match cues with
  | none => .keep
  | some c =>
    if !w.changed then .keep
    else
      match updateCues (w.clusters.map fun x => ⟨0, 0, none, x.2⟩) seg
          (c.points.map fun p => { p with time := j.retime p }) with
      | none => .crash
      | some ps =>
        let b := rendered env { c with points := ps }.elt
        if w.cues.length ≥ b.length + 2 then .over (b ++ voidBytes env (w.cues.length - b.length))
        else if b.length = w.cues.length then .over b
        else .misfit

/-- The final Segment head and SeekHead, mkclean.c:3157-3199: the head is written over the first one, the SeekHead
directly behind it. -/
def finish (env : Ebml.Env) (j : Job) (pl : Plan) (w : Written) (file : Bytes) : Out :=
  let fin := finalHead (tempHead j.srcSize) (w.size j.parts)
  let seg : Nat := j.head.length + (renderHead fin).length
  let seek := rendered env (seekHeadElt j.safe seg
    (entriesOf w.parts (pl.cues.map fun _ => w.cuesPos) (w.clusters.head?.map (·.2))))
  if seek.length = w.seek.length then .done (writeAt (writeAt file j.head.length (renderHead fin)) seg seek)
  else .fail (-23)

/-- mkclean.c:2012-2030 and 2925-3199: the whole output. -/
def clean (env : Ebml.Env) (j : Job) : Out :=
  let seg : Nat := j.head.length + (renderHead (tempHead j.srcSize)).length
  match plan env j seg with
  | none => .crash
  | some pl =>
    let w := writeAll env j seg pl
    let file := j.head ++ renderHead (tempHead j.srcSize) ++ w.seek ++ w.rest j.parts
    match rewriteCues env j seg pl.cues w with
    | .keep => finish env j pl w file
    | .over b => finish env j pl w (writeAt file w.cuesPos.toNat b)
    | .misfit => .fail (-18)
    | .crash => .crash

end Verif.Mkclean
