import Verif.Mkclean.Cue
/-!
Model of the times mkclean writes for blocks: mkclean/mkclean.c (linking 483 and 2206-2240, `GenerateCueEntries` 778,
reclustering 2403, 2460-2467 and 2505-2710) with libmatroska2/matroskamain.c (`ClusterTimeChanged` 106-142,
`MATROSKA_BlockAppendFrame` 1593-1604, `CopyBlockInfo` 1947-1976) and the functions of Mkv/Time.lean.

Simplifications:
* The TrackTimestampScale of the track is 1 (`id` for the product with it).
* One block and its Cluster; what is put into the same Cluster does not matter.
* `MATROSKA_ClusterSetTimestamp` of a Cluster that follows one with a later or equal time (670) is C123 and left out.
-/
namespace Verif.Mkclean.BlockTimes
open Verif Verif.Mkv

/-- A block as read: its local time and its track are known. -/
def readBlk (loc : Int) : TBlk := ⟨loc, true, invalidTs, true⟩

/-- What the blocks are linked with from mkclean.c:2221 and 2231 on: the old Info for reading, the new one for writing. -/
def env (old new : Int) : Env := ⟨old, new, id⟩

/-- What becomes of a Cluster. -/
inductive Way
  /-- `--remux`: the block goes to the Cluster that starts at this time. -/
  | remux (start : Int)
  /-- The Cluster is linked with the new Info by `GenerateCueEntries`. -/
  | relinked
  /-- The Cluster stays linked with the old Info; `asked`: the time of the block is asked for, by the search for the block of
  a Cue (`MATROSKA_GetBlockForTimestamp`, matroskamain.c:897-926). -/
  | kept (asked : Bool)
deriving DecidableEq, Repr

/-- The Cluster `*Tst` starts, mkclean.c:2463-2467; linking it before sets a time that is overwritten. -/
def newCluster (old new start : Int) : TClu := (cluSetTs (env old new) ⟨invalidTs, none⟩ [] start).1

/-- The Cluster and the block that are written for a block with the local time `loc` in a Cluster with the Timestamp `ticks`;
`none`: mkclean gives up ("Impossible to remux", exit code -46, 2713-2721). -/
def outBlock (w : Way) (old new ticks loc : Int) : Option (TClu × TBlk) :=
  let c := outCluster false old new ticks
  let e := env old new
  match w with
  | .remux start =>
    let n := newCluster old new start
    -- its time was asked for at 2403; 2698-2709
    (moveTo e (some c) (some n) (blkTs e (some c) (readBlk loc)).2).map fun b => (n, b)
  | .relinked =>
    -- `ClusterTimeChanged`: 115-116, then the loop 118-140
    let r := cluSetTs e c [readBlk loc] (cluTs e c)
    some (r.1, retime e r.1 (cluTs e c) (r.2.headD (readBlk loc)))
  | .kept asked => some (c, if asked then (blkTs e (some c) (readBlk loc)).2 else readBlk loc)

/-- A piece of a laced block that is split, mkclean.c:2513-2533 and 2580-2600: a copy without a time takes that of its first
frame (`MATROSKA_BlockAppendFrame` 1595-1596, an error is ignored) and goes to the Cluster. As the copy had no parent,
`SetBlockParent` does nothing. -/
def outPiece (old new start frame : Int) : TClu × TBlk :=
  let b : TBlk := ⟨0, false, invalidTs, true⟩
  (newCluster old new start, if frame = invalidTs then b else (setTs (env old new) b frame start).getD b)

/-- The BlockDuration of a BlockGroup (and every ReferenceBlock), in ticks: nothing in mkclean.c changes it, 2206-2240 and
2460-2730. -/
def outDuration (ticks : Int) : Int := ticks

end Verif.Mkclean.BlockTimes
