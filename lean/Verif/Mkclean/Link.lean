import Verif.Mkv.Life
import Verif.Mkv.Time
/-!
Model of how the blocks of a file are linked with their tracks: `MATROSKA_LinkBlockWithReadTracks` and
`MATROSKA_LinkClusterBlocks` (`/repo/libmatroska2/matroskamain.c:323-347`, `928-963`), `LinkClusters` and the
lines around it in mkclean (`/repo/mkclean/mkclean.c:451-528`, `1942-1953`, `2206-2236`, `2753-2775`).

Simplifications:
* a track is its number, its type and its encodings, a block what these functions look at; other elements are
  a number that tells them apart;
* the blocks were just loaded: no data is read and nothing is linked;
* `ReduceSize` (mkclean.c:484) is in `Verif.Ebml.Master`, not here;
* release build: the assertions are not there;
* `ArrayResize` fails for the sizes that come from an overflow, and only for them.
-/
namespace Verif.Mkclean.Link
open Verif Verif.Mkv

/-- A child of Tracks: its TrackNumber, if there is one with a value, its TrackType and its
ContentEncodings. A child that is no TrackEntry has none of them. -/
structure TEntry where
  number : Option Int
  type : Option Int
  enc : Mkv.Track

/-- A block: `TrackNumber` (a `uint16_t`), `SizeList`, `IsKeyframe`, `IsDiscardable`, `ReadTrack`. -/
structure Blk where
  num : Nat
  sizes : List Nat
  key : Bool
  disc : Bool
  track : Option TEntry

/-- A child of a Cluster: a SimpleBlock, a BlockGroup with its first Block (if any) and what else is in it, or
something else. -/
inductive Child where
  | simple (b : Blk)
  | group (b : Option Blk) (rest : Nat)
  | other (what : Nat)

/-- A Cluster: the value of its Timestamp, and the other children. -/
structure Cluster where
  time : Option Int
  children : List Child

/-- The loop of `MATROSKA_LinkBlockWithReadTracks`, matroskamain.c:331-334: the first child of Tracks with
that number. -/
def findTrack (ts : List TEntry) (n : Nat) : Option TEntry :=
  ts.find? fun t => t.number == some (n : Int)

/-- What `MATROSKA_LinkClusterBlocks` does with one block, matroskamain.c:947-950 and 957-960; `none` when it
is deleted. `keep` is `KeepUnmatched`. -/
def linkOne (keep : Bool) (ts : List TEntry) (b : Blk) : Out (Option Blk) :=
  match findTrack ts b.num with
  | none => .ok (if keep then some b else none)
  | some t =>
    match linkRead t.enc true (LBlk.fresh b.sizes) with
    | .ok l => .ok (some { b with sizes := l.sizes, track := some t })
    | .err => .ok (if keep then some { b with track := some t } else none)
    | .bad => .bad
    | .hang => .hang

/-- One child of a Cluster, matroskamain.c:939-961: what is left of it. -/
def linkChild (keep : Bool) (ts : List TEntry) : Child → Out (List Child)
  | .simple b => (linkOne keep ts b).bind fun r => .ok (r.toList.map .simple)
  | .group (some b) x => (linkOne keep ts b).bind fun r => .ok (r.toList.map fun b => .group (some b) x)
  | c => .ok [c]

/-- `MATROSKA_LinkClusterBlocks`, matroskamain.c:937-962, on the children of the Cluster. -/
def linkChildren (keep : Bool) (ts : List TEntry) : List Child → Out (List Child)
  | [] => .ok []
  | c :: cs => (linkChild keep ts c).bind fun r => (linkChildren keep ts cs).bind fun rs => .ok (r ++ rs)

/-- mkclean.c:473-485: the Timestamp is moved by `offset` (for live streams) and the blocks are linked.
`EBML_MasterGetChild` creates a Timestamp of 0 when there is none. -/
def linkCluster (offset : Option Int) (ts : List TEntry) (c : Cluster) : Out Cluster :=
  (linkChildren false ts c.children).bind fun cs =>
    .ok ⟨match offset with
         | none => c.time
         | some o => some (s64 (o + c.time.getD 0)), cs⟩

/-- Audio (2) or subtitles (17), mkclean.c:500 and 516. -/
def keyType (y : Int) : Bool := y == 2 || y == 17

/-- Lines 496-508 and 512-524 for one block: its new marks; `none` where the loop continues at once. `group`
tells a Block, for which `MATROSKA_BlockSetDiscardable` does nothing (matroskamain.c:775). -/
def markBlock (group : Bool) (b : Blk) : Option Blk :=
  match b.track with
  | none => none
  | some t =>
    match t.type with
    | none => none
    | some y => some (if keyType y then { b with key := true, disc := b.disc && group } else b)

/-- Line 507-508, 523-524: note that a block of the track has several frames; an index behind the array is
`bad`. -/
def noteLaced (laced : List Bool) (b : Blk) : Out (List Bool) :=
  if b.sizes.length > 1 then
    if b.num < laced.length then .ok (laced.set b.num true) else .bad
  else .ok laced

/-- The second loop for one child, mkclean.c:490-526. -/
def markChild (laced : List Bool) (c : Child) : Out (Child × List Bool) :=
  match c with
  | .simple b =>
    match markBlock false b with
    | none => .ok (c, laced)
    | some b' => (noteLaced laced b').bind fun l => .ok (.simple b', l)
  | .group (some b) x =>
    match markBlock true b with
    | none => .ok (c, laced)
    | some b' => (noteLaced laced b').bind fun l => .ok (.group (some b') x, l)
  | _ => .ok (c, laced)

def markChildren : List Bool → List Child → Out (List Child × List Bool)
  | laced, [] => .ok ([], laced)
  | laced, c :: cs => (markChild laced c).bind fun r => (markChildren r.2 cs).bind fun rs => .ok (r.1 :: rs.1, rs.2)

/-- The second loop, mkclean.c:487-527. -/
def markClusters : List Bool → List Cluster → Out (List Cluster × List Bool)
  | laced, [] => .ok ([], laced)
  | laced, c :: cs => (markChildren laced c.children).bind fun r =>
      (markClusters r.2 cs).bind fun rs => .ok (⟨c.time, r.1⟩ :: rs.1, rs.2)

def linkAll (offset : Option Int) (ts : List TEntry) : List Cluster → Out (List Cluster)
  | [] => .ok []
  | c :: cs => (linkCluster offset ts c).bind fun r => (linkAll offset ts cs).bind fun rs => .ok (r :: rs)

def Child.isSimple : Child → Bool
  | .simple _ => true
  | _ => false

/-- Conversion to `int`. -/
def toInt (v : Int) : Int := (v + 2 ^ 31) % 2 ^ 32 - 2 ^ 31

/-- Lines 1943-1950: `i`. -/
def maxNumber : Int → List TEntry → Int
  | i, [] => i
  | i, t :: ts =>
    match t.number with
    | none => maxNumber i ts
    | some n => maxNumber (max i (toInt n)) ts

/-- Line 1951: the number of entries of `WTracks`; with `i` = 2^31-1 the sum overflows. -/
def wtracks (ts : List TEntry) : Nat :=
  let i := maxNumber (-1) ts
  if i = 2 ^ 31 - 1 then 0 else (i + 1).toNat

/-- `LinkClusters`, mkclean.c:451-528: the Clusters and which tracks have laces; `err` is the result -32.
`old` is `dstProfile == PROFILE_MATROSKA_V1 || dstProfile == PROFILE_DIVX`. -/
def linkClusters (old : Bool) (offset : Option Int) (ts : List TEntry) (cs : List Cluster) : Out (List Cluster × List Bool) :=
  if old && cs.any (fun c => c.children.any Child.isSimple) then .err
  else (linkAll offset ts cs).bind fun l => markClusters (List.replicate (wtracks ts) false) l

/-- Lines 2213-2235 for one block: `MATROSKA_LinkBlockWithWriteTracks` (matroskamain.c:373-393) with the
tracks to write. The block is linked for writing already if it is for reading (945 and 956), so that the
encodings are not looked at again. -/
def writeLinked (ws : List TEntry) (b : Blk) : Out Bool :=
  match findTrack ws b.num with
  | none => .ok false
  | some _ =>
    match b.track with
    | some _ => .ok true
    | none => .bad

/-- Lines 2210-2236: the children of a Cluster that stay. -/
def writeChildren (ws : List TEntry) : List Child → Out (List Child)
  | [] => .ok []
  | c :: cs =>
    let keep : Out Bool :=
      match c with
      | .simple b => writeLinked ws b
      | .group (some b) _ => writeLinked ws b
      | _ => .ok true
    keep.bind fun k => (writeChildren ws cs).bind fun rs => .ok (if k then c :: rs else rs)

/-- Lines 2759-2774: the FlagLacing of a TrackEntry with the number `n`: `none` is an element that was deleted
(the value is 1 then). `EBML_IntegerValue` is converted to `size_t`. -/
def flagLacing (laced : List Bool) (n : Int) : Out (Option Int) :=
  match laced[(n % 2 ^ 64).toNat]? with
  | none => .bad
  | some true => .ok none
  | some false => .ok (some 0)

end Verif.Mkclean.Link
