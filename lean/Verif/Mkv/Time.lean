import Verif.Base.Bytes
/-!
Model of timestamps: libmatroska2/matroskamain.c (`MATROSKA_ClusterTimestamp` 676-686,
`MATROSKA_ClusterSetTimestamp` 633-674, `MATROSKA_BlockSetTimestamp` 697-712,
`MATROSKA_BlockTimestamp` 714-731, `SetBlockParent` 1362-1377, `SetBlockGroupParent`
1379-1395, `MATROSKA_BlockGetFrame` 1561-1591, `MATROSKA_BlockAppendFrame` 1593-1604) and
libmatroska2/matroskablock.c 305-354.

Simplifications:
* 64-bit overflow (undefined behaviour in C) is modelled as wrapping two's complement.
* The product of a tick count or of the timestamp scale with the track's timestamp scale is
  computed in `double` and truncated; it is a parameter (`Env.mul`). For a track scale of 1,
  the default, it is the identity at least up to 2^53.
* Elements are reduced to the fields the functions use; the walk from a block to its cluster
  is an optional cluster argument.
-/
namespace Verif.Mkv
open Verif

/-- Two's complement reading of the low 64 bits. -/
def s64 (x : Int) : Int := (x + 2 ^ 63) % 2 ^ 64 - 2 ^ 63

/-- `INVALID_TIMESTAMP_T`, libmatroska2/matroska2/matroska.h:38. -/
def invalidTs : Int := 2 ^ 63 - 1

/-- `Scale64(v,1,Den)`, corec/corec/helper.h:47-52: C division truncates towards zero. -/
def scale64 (v den : Int) : Int := if den = 0 then 0 else Int.tdiv v den

/-- What the functions consult outside the block and the cluster. -/
structure Env where
  /-- `MATROSKA_SegmentInfoTimestampScale(Block->ReadSegInfo)`, 812-823. -/
  readScale : Int
  /-- `MATROSKA_SegmentInfoTimestampScale(Block->WriteSegInfo)`. -/
  writeScale : Int
  /-- `(int64_t)(x * MATROSKA_TrackTimestampScale(Track))`, 825-833. -/
  mul : Int → Int

/-- The fields of a block: libmatroska2/matroska2/matroska_classes.h:22-44. -/
structure TBlk where
  /-- `LocalTimestamp`, an `int16_t`. -/
  loc : Int
  /-- `LocalTimestampUsed`. -/
  used : Bool
  /-- `GlobalTimestamp`, `INVALID_TIMESTAMP_T` when not known. -/
  glob : Int
  /-- `ReadTrack != NULL`. -/
  track : Bool
deriving DecidableEq, Repr

/-- The fields of a cluster: matroskamain.c:80-86. -/
structure TClu where
  /-- `GlobalTimestamp`. -/
  glob : Int
  /-- Value of the Timestamp child. -/
  elt : Option Int
deriving DecidableEq, Repr

/-- `MATROSKA_ClusterTimestamp`, 676-686 (the value; it is also cached). -/
def cluTs (env : Env) (c : TClu) : Int :=
  if c.glob = invalidTs then
    match c.elt with
    | some v => s64 (v * env.readScale)
    | none => c.glob
  else c.glob

/-- `MATROSKA_BlockSetTimestamp`, 697-712; `none` is `ERR_INVALID_DATA`. Written with
`CONFIG_EBML_WRITING`. -/
def setTs (env : Env) (b : TBlk) (ts ct : Int) : Option TBlk :=
  let n := scale64 (s64 (ts - ct)) (env.mul env.writeScale)
  if n > 32767 ∨ n < -32768 then none
  else some { b with loc := n, used := true }

/-- `MATROSKA_BlockTimestamp`, 714-731: the value and the block afterwards. The error of the
inner `MATROSKA_BlockSetTimestamp` is ignored. -/
def blkTs (env : Env) (c : Option TClu) (b : TBlk) : Int × TBlk :=
  if b.glob ≠ invalidTs then (b.glob, b)
  else if !b.track then (invalidTs, b)
  else
    match c with
    | none => (invalidTs, b)
    | some c =>
      let g := s64 (cluTs env c + env.mul (s64 (b.loc * env.readScale)))
      let b' := { b with glob := g }
      (g, (setTs env b' g (cluTs env c)).getD b')

/-- `SetBlockParent` 1362-1377 and `SetBlockGroupParent` 1379-1395: give the block, which is
inside `old` (`none`: not in any cluster), the cluster `new`. `none` is a refused move. -/
def moveTo (env : Env) (old new : Option TClu) (b : TBlk) : Option TBlk :=
  match old, new with
  | some o, some n =>
    if b.used then
      let r := blkTs env (some o) b
      setTs env r.2 r.1 (cluTs env n)
    else some b
  | _, _ => some b

/-- One block in the loop of `MATROSKA_ClusterSetTimestamp`, 648-669. -/
def retime (env : Env) (c : TClu) (ts : Int) (b : TBlk) : TBlk :=
  let r := blkTs env (some c) b
  if r.1 ≠ invalidTs then (setTs env r.2 r.1 ts).getD r.2 else r.2

/-- `MATROSKA_ClusterSetTimestamp`, 633-674, on a cluster and its blocks. -/
def cluSetTs (env : Env) (c : TClu) (blks : List TBlk) (ts : Int) : TClu × List TBlk :=
  let c' : TClu := { c with glob := ts, elt := some (scale64 ts env.writeScale) }
  (c', blks.map (retime env c' ts))

/-! ### Frames of a block -/

/-- The fields of a block that describe its frames. -/
structure FBlk where
  data : Bytes
  sizes : List Nat
  durs : List Int
deriving DecidableEq, Repr

/-- `matroska_frame`, libmatroska2/matroska2/matroska.h:47-54. -/
structure Frame where
  data : Bytes
  ts : Int
  dur : Int
deriving DecidableEq, Repr

/-- `MATROSKA_BlockGetFrameDuration`, matroskablock.c:317-322. -/
def frameDur (b : FBlk) (n : Nat) : Int :=
  match b.durs[n]? with
  | some d => d
  | none => invalidTs

/-- The loop of `MATROSKA_BlockGetFrameStart`, 334-339. -/
def startLoop : Int → List Int → Int
  | s, [] => s
  | s, d :: ds => if d = invalidTs then invalidTs else startLoop (s64 (s + d)) ds

/-- `MATROSKA_BlockGetFrameStart`, 324-343; `t` is the timestamp of the block. -/
def frameStart (t : Int) (b : FBlk) (n : Nat) : Int :=
  if n ≥ b.durs.length then invalidTs
  else if t ≠ invalidTs then startLoop t (b.durs.take n)
  else t

/-- `MATROSKA_BlockGetFrameEnd`, 345-354. -/
def frameEnd (t : Int) (b : FBlk) (n : Nat) : Int :=
  let r := frameStart t b n
  if r = invalidTs then invalidTs
  else
    let a := frameDur b n
    if a = invalidTs then invalidTs else s64 (r + a)

/-- Timestamp in the loop of `MATROSKA_BlockGetFrame`, matroskamain.c:1572-1581, for frames
whose durations are `ds` (`none` past the end of the list). -/
def frameTsLoop : Int → List (Option Int) → Int
  | t, [] => t
  | t, d :: ds =>
    frameTsLoop (if t = invalidTs then t else
      match d with
      | some d => if d = invalidTs then invalidTs else s64 (t + d)
      | none => invalidTs) ds

/-- `MATROSKA_BlockGetFrame` with data, matroskamain.c:1561-1591. `Out`: `err` stands for an
error code, `bad` for a frame outside of the data of the block. -/
inductive Got
  | ok (f : Frame)
  | err
  | bad
deriving DecidableEq, Repr

/-- See `Got`. -/
def getFrame (t : Int) (b : FBlk) (n : Nat) : Got :=
  if b.data = [] then .err
  else
    match b.sizes[n]? with
    | none => .err
    | some sz =>
      let off := (b.sizes.take n).sum
      if b.data.length < off + sz then .bad
      else .ok ⟨(b.data.drop off).take sz,
        frameTsLoop t ((List.range n).map fun i => b.durs[i]?), frameDur b n⟩

/-- `MATROSKA_BlockAppendFrame`, matroskamain.c:1593-1604, on the frames (the first frame also
sets the timestamp of the block, ignoring failure). -/
def appendFrame (b : FBlk) (f : Frame) : FBlk :=
  ⟨b.data ++ f.data, b.sizes ++ [f.data.length], b.durs ++ [f.dur]⟩

end Verif.Mkv
