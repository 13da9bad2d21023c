import Verif.Mkv.Block
import Verif.Mkv.Time
import Verif.Core.Sort
/-!
Model of `mkclean --remux`: the blocks of all tracks are dealt out to new Clusters
(`/repo/mkclean/mkclean.c:2297-2735`).

Simplifications:
* no 3D tracks (`Alternate3DTracks` is empty);
* a frame is its bytes and the timestamp `MATROSKA_BlockGetFrameEnd` gives for it;
* `EBML_MasterAppend` of a whole block can be refused (the timestamp does not fit the Cluster), which
  ends the program; a copy made to hold some of the frames is not in any Cluster yet, so that it is
  not refused (`moveTo`, matroskamain.c:1362-1395);
* timestamps are unbounded integers.
-/
namespace Verif.Mkclean
open Verif.Mkv Verif.Core

/-- A frame: its bytes and its end (`invalidTs` when not known). -/
structure RFrame where
  data : Bytes
  finish : Int
deriving DecidableEq, Repr

/-- `block_info` with the block: timestamp, `DecodeTime`, keyframe flag, lacing, can its data be read,
does `MATROSKA_BlockProcessFrameDurations` succeed, frames. -/
structure RBlk where
  ts : Int
  dt : Int
  key : Bool
  laced : Bool
  readable : Bool
  hasDur : Bool
  frames : List RFrame
deriving DecidableEq, Repr

/-- The decoding time of all blocks of a track, mkclean.c:2397-2416, behind a block of decoding
time `prev`. -/
def decodeTimes : Int → List RBlk → List RBlk
  | _, [] => []
  | prev, b :: bs =>
    let dt := match bs with
      | [] => b.ts
      | n :: _ => if prev ≠ invalidTs ∧ b.ts > n.ts then prev + (b.ts - n.ts) / 4 else b.ts
    { b with dt := dt } :: decodeTimes dt bs

/-- `TimcodeCmp`, mkclean.c:835-844. -/
def timeCmp (a b : Int) : Int := if a = b then 0 else if a > b then 1 else -1

/-- The loop that drops timestamps too close to be Cluster boundaries, mkclean.c:2439-2454, at
index `i`; `none` is a loop that does not end. The entry is looked up by a binary search. -/
def thin : Nat → List Int → Nat → Int → Option (List Int)
  | 0, _, _, _ => none
  | fuel + 1, arr, i, prev =>
    match arr[i]? with
    | none => some arr
    | some t =>
      if prev ≠ invalidTs ∧ t < prev + 1000000000 ∧
          (arr[i + 1]?).any (fun n => n < prev + 2000000000) = true then
        match removeEx timeCmp arr t with
        | none => none
        | some (_, arr') => thin fuel arr' i prev
      else thin fuel arr (i + 1) t

/-- What is left of a track: blocks, and `FrameStartIndex` of the first. -/
structure Trk where
  todo : List RBlk
  from' : Nat
deriving DecidableEq, Repr

/-- Number of frames that end before the Cluster. -/
def fitting (master : Int) : List RFrame → Nat
  | [] => 0
  | f :: fs => if f.finish ≥ master then 0 else fitting master fs + 1

/-- One block put in a Cluster: its frames, unless there are none. -/
def piece (fs : List RFrame) : List (List RFrame) := if fs = [] then [] else [fs]

/-- `MainBlockEnd` and `BlockEnd`, the decoding time of the next block, mkclean.c:2474-2480, 2492-2498. -/
def blockEnd (todo : List RBlk) : Int :=
  match todo with
  | _ :: n :: _ => n.dt
  | _ => invalidTs

/-- The loop over the blocks of one track, mkclean.c:2489-2729: what is left, the blocks put in the
Cluster and `ReachedClusterEnd`. `mainEnd` and `master` are `MainBlockEnd` and `MasterEndTimestamp`. -/
def dealTrack (fits : RBlk → Bool) (isMain : Bool) (mainEnd master : Int) :
    Nat → List RBlk → Out (Trk × List (List RFrame) × Bool)
  | _, [] => .ok (⟨[], 0⟩, [], false)
  | start, b :: rest =>
    if b.dt > mainEnd ∧ isMain = false then .ok (⟨b :: rest, start⟩, [], false)
    else if start ≠ 0 then
      let k := start + fitting master (b.frames.drop start)
      let p := piece ((b.frames.drop start).take (k - start))
      if k ≠ b.frames.length then .ok (⟨b :: rest, k⟩, p, false)
      else
        match dealTrack fits isMain mainEnd master 0 rest with
        | .ok (t, out, r) => .ok (t, p ++ out, r)
        | .err => .err
        | .bad => .bad
        | .hang => .hang
    else if mainEnd ≠ invalidTs ∧ blockEnd (b :: rest) > master ∧ isMain = false ∧ b.laced = true ∧ b.readable = true then
      let k := if b.hasDur then fitting master b.frames else b.frames.length
      if k = b.frames.length then .ok (⟨b :: rest, 0⟩, [], false)
      else .ok (⟨b :: rest, k⟩, piece (b.frames.take k), false)
    else if b.frames ≠ [] then
      if !fits b then .err
      else if isMain then
        .ok (⟨rest, 0⟩, [b.frames], decide (mainEnd = invalidTs ∨ blockEnd (b :: rest) = master))
      else
        match dealTrack fits isMain mainEnd master 0 rest with
        | .ok (t, out, r) => .ok (t, b.frames :: out, r)
        | .err => .err
        | .bad => .bad
        | .hang => .hang
    else if isMain then .ok (⟨b :: rest, 0⟩, [], decide (mainEnd = invalidTs ∨ blockEnd (b :: rest) = master))
    else .hang

/-- A block in a Cluster: track number and frames. -/
abbrev Piece := Nat × List RFrame

/-- The loop over the tracks, mkclean.c:2486-2731. -/
def dealRound (fits : Nat → RBlk → Bool) (main : Nat) (mainEnd master : Int) :
    List Nat → (Nat → Trk) → Out ((Nat → Trk) × List Piece × Bool)
  | [], s => .ok (s, [], false)
  | t :: ts, s =>
    match dealTrack (fits t) (t == main) mainEnd master (s t).from' (s t).todo with
    | .err => .err
    | .bad => .bad
    | .hang => .hang
    | .ok (tr, out, r) =>
      match dealRound fits main mainEnd master ts (fun u => if u = t then tr else s u) with
      | .err => .err
      | .bad => .bad
      | .hang => .hang
      | .ok (s', out', r') => .ok (s', out.map (fun fs => (t, fs)) ++ out', r || r')

/-- The loop that fills one Cluster, mkclean.c:2471-2732. -/
def dealCluster (fits : Nat → RBlk → Bool) (order : List Nat) (main : Nat) (master : Int) :
    Nat → (Nat → Trk) → Out ((Nat → Trk) × List Piece)
  | 0, _ => .hang
  | fuel + 1, s =>
    if (s main).todo = [] then .ok (s, [])
    else
      match dealRound fits main (blockEnd (s main).todo) master order s with
      | .err => .err
      | .bad => .bad
      | .hang => .hang
      | .ok (s', out, r) =>
        if r then .ok (s', out)
        else
          match dealCluster fits order main master fuel s' with
          | .err => .err
          | .bad => .bad
          | .hang => .hang
          | .ok (s'', out') => .ok (s'', out ++ out')

/-- The loop over the boundaries, mkclean.c:2458-2733; `fits` may depend on the Cluster. -/
def dealAll (fits : Int → Nat → RBlk → Bool) (order : List Nat) (main : Nat) (fuel : Nat) :
    List Int → (Nat → Trk) → Out (List (List Piece))
  | [], _ => .ok []
  | t :: ts, s =>
    let master := match ts with | [] => invalidTs | n :: _ => n
    match dealCluster (fits t) order main master fuel s with
    | .err => .err
    | .bad => .bad
    | .hang => .hang
    | .ok (s', out) =>
      match dealAll fits order main fuel ts s' with
      | .err => .err
      | .bad => .bad
      | .hang => .hang
      | .ok outs => .ok (out :: outs)

/-- The key timestamps of a track, mkclean.c:2420-2430. -/
def keyTimes (bs : List RBlk) : List Int := (bs.filter (·.key)).map (·.dt)

/-- Remuxing, mkclean.c:2396-2735. When the main track has a single block, `pBlockInfo` points behind
its array as it is used in line 2483. -/
def remux (fits : Int → Nat → RBlk → Bool) (order : List Nat) (main : Nat) (tracks : Nat → List RBlk) :
    Out (List (List Piece)) :=
  let timed := fun t => decodeTimes invalidTs (tracks t)
  let keys := keyTimes (timed main)
  if keys = [] then .err
  else
    match thin (keys.length + 1) keys 0 invalidTs with
    | none => .hang
    | some bounds =>
      if (timed main).length = 1 then .bad
      else dealAll fits order main ((timed main).length + 1) bounds (fun t => ⟨timed t, 0⟩)

end Verif.Mkclean
