import Verif.Mkv.Block
/-!
Model of the life of a block after its head was read: linking it with tracks, reading its frames,
releasing them and seeking to them (`/repo/libmatroska2/matroskamain.c:268-412`, `975-1010`,
`1014-1360`).

Simplifications:
* a track is its encoding; finding the track by its number is done (`MATROSKA_LinkBlockReadTrack`
  and the matching branch of `MATROSKA_LinkBlockWithReadTracks` do the same from there on);
* what is left of a block after an error is not modelled: an error ends the life;
* release build: the assertions are not there;
* allocations succeed.
-/
namespace Verif.Mkv
open Verif Verif.Ebml

/-- The `ContentEncodings` of a track: an encoding (or none), one the library does not support
(encryption, several encodings, an algorithm not compiled in), or a ContentEncodings element without a
ContentEncoding inside. -/
inductive Track where
  | enc (e : Enc)
  | unsupported
  | empty

/-- The fields of a block the functions below use, matroska_classes.h:22-44: `SizeList`, `SizeListIn`,
`Data`, `bValueIsSet`, `ReadTrack`, `WriteTrack` and whether `GlobalTimestamp` is valid. -/
structure LBlk where
  sizes : List Nat
  sizesIn : List Nat
  data : Bytes
  valueSet : Bool
  readTrack : Option Track
  writeTrack : Option Track
  timed : Bool

/-- A block after `ReadBlockData` with the sizes stored in it. -/
def LBlk.fresh (sizes : List Nat) : LBlk := ⟨sizes, [], [], false, none, none, false⟩

/-- `CheckCompression`, matroskamain.c:268-321. It looks at the track for reading whichever is linked. -/
def checkCompression (b : LBlk) : Out LBlk :=
  match b.readTrack with
  | none => .bad
  | some (.enc .plain) => .ok b
  | some t =>
    if b.data ≠ [] then .err
    else
      match t with
      | .empty => .bad
      | .unsupported => .err
      | .enc (.strip hdr _) => .ok { b with sizes := b.sizes.map fun n : Nat => u32 ((n : Int) + hdr.length) }
      | .enc _ => .ok b

/-- `MATROSKA_LinkBlockReadTrack`, matroskamain.c:350-371, and 323-348; `both` is `UseForWriteToo`. -/
def linkRead (t : Track) (both : Bool) (b : LBlk) : Out LBlk :=
  let b' := { b with readTrack := some t, writeTrack := if both then some t else b.writeTrack }
  if b.readTrack.isSome then .ok b' else checkCompression b'

/-- `MATROSKA_LinkBlockWriteTrack`, matroskamain.c:396-412, and 374-394. -/
def linkWrite (t : Track) (b : LBlk) : Out LBlk :=
  let b' := { b with writeTrack := some t }
  if b.writeTrack.isSome then .ok b' else checkCompression b'

/-- `MATROSKA_BlockReadData`, matroskamain.c:1014-1360; `file` is the stream and `loc` is
`FirstFrameLocation`. -/
def readFrames (file : Bytes) (loc : Nat) (b : LBlk) : Out LBlk :=
  if b.valueSet then .ok b
  else
    match b.readTrack with
    | none => .bad
    | some .empty => .bad
    | some .unsupported => .err
    | some (.enc (.strip hdr _)) =>
      if bufSize b.sizes < 0 then .err
      else (readStrip hdr (bufSize b.sizes) (file.drop loc) b.sizes).bind fun r =>
        .ok { b with sizesIn := b.sizes, data := r, valueSet := true }
    | some (.enc (.zlib _ inflate true)) =>
      (readPlain b.sizes loc file).bind fun raw => (readZlib inflate raw b.sizes).bind fun r =>
        .ok { b with sizesIn := b.sizes, sizes := r.1, data := r.2, valueSet := true }
    | some (.enc _) =>
      (readPlain b.sizes loc file).bind fun raw => .ok { b with data := raw, valueSet := true }

/-- `MATROSKA_BlockReleaseData`, matroskamain.c:975-991; `all` is `IncludingNotRead`. The copy back runs
over as many entries as `SizeListIn` has. -/
def release (all : Bool) (b : LBlk) : Out LBlk :=
  if !all && !b.timed then .ok b
  else if b.sizesIn = [] then .ok { b with data := [], valueSet := false }
  else if b.sizes.length < b.sizesIn.length then .bad
  else .ok { b with data := [], valueSet := false, sizesIn := [], sizes := b.sizesIn ++ b.sizes.drop b.sizesIn.length }

/-- `MATROSKA_BlockSkipToFrame`, matroskamain.c:993-1010: the position it seeks to; `pos` is the position
of the block's payload, `loc` is `FirstFrameLocation`. -/
def skipToFrame (h : Head) (pos loc : Nat) (sizes : List Nat) (n : Nat) : Option Nat :=
  if n ≥ sizes.length then none
  else if h.lacing = .none then some (pos + headSize h)
  else some (loc + (sizes.take n).sum)

/-- What a program does with a block. -/
inductive LOp where
  | linkRead (t : Track) (both : Bool)
  | linkWrite (t : Track)
  | read
  | release (all : Bool)
  | time (known : Bool)

/-- One step. `time`: something sets or forgets the global timestamp. -/
def LOp.run (file : Bytes) (loc : Nat) (b : LBlk) : LOp → Out LBlk
  | .linkRead t both => Mkv.linkRead t both b
  | .linkWrite t => Mkv.linkWrite t b
  | .read => readFrames file loc b
  | .release all => Mkv.release all b
  | .time known => .ok { b with timed := known }

/-- Any number of steps. -/
def runOps (file : Bytes) (loc : Nat) : List LOp → LBlk → Out LBlk
  | [], b => .ok b
  | o :: os, b => (o.run file loc b).bind (runOps file loc os)

end Verif.Mkv
