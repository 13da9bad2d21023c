import Verif.Mkv.Life
/-!
Model of `mkclean --alt-3d`: the track has the fields of left and right eye in alternating blocks, and remuxing puts two of them
into one block (`/repo/mkclean/mkclean.c:1606-1622`, `2649-2727`), with what the library does with a block frames were appended to
(`/repo/libmatroska2/matroskamain.c:975-991`, `1014-1360`, `1561-1604`, `1978-1986`).

Simplifications:
* one track, the blocks that come into one Cluster, so that line 2507 does not forget the marker in between; the blocks have frames
  (line 2649 passes over others);
* linking the pushed block and appending it to the Cluster succeed (2694-2710), see Remux.lean for them;
* timestamps and durations of frames are not modelled;
* a block is timed when `GlobalTimestamp` is valid, which it is for all blocks of a Cluster with a Timestamp.
-/
namespace Verif.Mkclean.Fields3D
open Verif Verif.Ebml Verif.Mkv

/-- A block as this part of mkclean sees it: the fields of `LBlk`, `Lacing == LACING_AUTO`, `FirstFrameLocation`, and whether it is a
SimpleBlock. -/
structure FBlk where
  b : LBlk
  auto : Bool
  loc : Nat
  simple : Bool

/-- `MATROSKA_BlockReadData`, matroskamain.c:1014-1360: as `readFrames`, but a block with `LACING_AUTO` ends in the `default` of the
switch over the lacing (1342-1345). That comes behind the look at the encoding of the track. -/
def readF (file : Bytes) (x : FBlk) : Out FBlk :=
  match x.b.valueSet, x.auto, x.b.readTrack with
  | false, true, some (.enc _) => .err
  | _, _, _ => (readFrames file x.loc x.b).bind fun b => .ok { x with b := b }

/-- `MATROSKA_BlockAppendFrame`, matroskamain.c:1593-1604. -/
def append (f : Bytes) (x : FBlk) : FBlk :=
  { x with b := { x.b with sizes := x.b.sizes ++ [f.length], data := x.b.data ++ f, valueSet := true }, auto := true }

/-- `MATROSKA_BlockGetFrame` for frame 0 with data, matroskamain.c:1561-1591, as mkclean.c:2686-2695 uses it: the result of the call
is not looked at, so that an error leaves `FrameData` as it was. The frame is read from the data, which must have it. For a Block in a
BlockGroup the call is about a copy made by `EBML_ElementCopy`, which has no frames. -/
def firstFrame (x : FBlk) : Out Bytes :=
  if x.simple = false then .bad
  else match x.b.sizes with
    | [] => .bad
    | n :: _ => if x.b.data = [] ∨ x.b.data.length < n then .bad else .ok (x.b.data.take n)

/-- `MATROSKA_BlockReleaseData` with 0. -/
def releaseF (x : FBlk) : Out FBlk := (release false x.b).bind fun b => .ok { x with b := b }

/-- mkclean.c:2667 and 2673-2697: the first frame of `c` goes into `p`. An error of reading `p` ends mkclean (2715-2722); an error of
reading `c` as well, but only behind the use of the frame, which is not there then. -/
def merge (file : Bytes) (p c : FBlk) : Out FBlk :=
  match readF file p with
  | .ok p' =>
    match readF file c with
    | .ok c' => (firstFrame c').bind fun f => (releaseF c').bind fun _ => releaseF (append f p')
    | .err => .bad
    | .bad => .bad
    | .hang => .hang
  | .err => .err
  | .bad => .bad
  | .hang => .hang

/-- One block of the track, mkclean.c:2649-2714: `out` are the blocks in the Cluster, newest first; the newest is the one the mark of
the track points to, `MARKER3D` when there is none. -/
def step (file : Bytes) (out : List FBlk) (c : FBlk) : Out (List FBlk) :=
  match out with
  | [] => .ok [c]
  | p :: ps => if p.b.sizes.length ≥ 2 then .ok (c :: p :: ps) else (merge file p c).bind fun x => .ok (x :: ps)

/-- The blocks of the track in their order. -/
def fields (file : Bytes) : List FBlk → List FBlk → Out (List FBlk)
  | out, [] => .ok out
  | out, c :: cs => (step file out c).bind fun out => fields file out cs

/-- What comes of a block when the Cluster is written: `ReadClusterData` (mkclean.c:245-279) reads it and deletes it when that fails.
`settled`: the size of the Cluster was computed before, which chooses a lacing for `LACING_AUTO` (matroskamain.c:1985-1986). The result is
the block with its frames. -/
def written (file : Bytes) (settled : Bool) (x : FBlk) : Option FBlk :=
  match readF file { x with auto := x.auto && !settled } with
  | .ok y => some y
  | _ => none

/-- Marking a track, mkclean.c:1614-1621: the array of marks grows to `TrackId+1`. -/
def mark (ms : List Bool) (t : Nat) : List Bool :=
  (ms ++ List.replicate (t + 1 - ms.length) false).set t true

/-- Looking up the mark of a track, mkclean.c:2506 and 2653: the number of marks is only compared with 0. -/
def lookup (ms : List Bool) (t : Nat) : Out Bool :=
  if ms = [] then .ok false
  else match ms[t]? with
    | some m => .ok m
    | none => .bad

end Verif.Mkclean.Fields3D
