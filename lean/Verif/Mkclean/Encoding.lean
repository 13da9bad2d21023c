import Verif.Mkv.Private
import Verif.Core.Url
/-!
Model of how mkclean chooses the content encoding of each track it writes
(`/repo/mkclean/mkclean.c:2254-2266` and `2744-2880`).

The track is `PTrack` of Mkv/Private.lean, as read from the source and copied with its TrackEntry
(matroskamain.c:2360-2366). Simplifications: zlib is a parameter; the codec ID is the string `EBML_StringGet` returns, and
`tcsisame_ascii` on it is `Url.ieq`; a TrackEntry without a TrackNumber, which the code skips, is not modelled; the flags
for lacing (2763-2774) and `ClustersNeedRead` are in other files or left out. `CompressFrameZLib` reports the size it needed
(matroskamain.c:184-221), and is called here for non-empty data only. Reading the frames of a track whose ContentEncodings is empty,
which `BlockIsCompressed` does not survive (1416-1417), is left out.
-/
namespace Verif.Enc
open Verif Verif.Mkv

/-- The options that matter: `Optimize` (`--optimize`, `--optimize_nv`), `OptimizeVideo` (off for `--optimize_nv`),
`UnOptimize` (`--no-optimize` or WebM) and `CompressionAlgo`, mkclean.c:1580-1642. -/
structure Opts where
  optimize : Bool := false
  optimizeVideo : Bool := true
  unOptimize : Bool := false
  compalgo : Bool := false
deriving DecidableEq, Repr

/-- A track of the output before the choice: what its TrackEntry says, and the bytes all its frames begin with (the
`TrackMaxHeader`, Mkclean/Header.lean). -/
structure Trk where
  codec : Url.Str
  video : Bool
  header : Bytes
  t : PTrack
deriving DecidableEq, Repr

/-- `CompressionAlgo`, mkclean.c:1520 and 1634-1635. -/
def cliAlgo (o : Opts) : Int := if o.compalgo then compZlib else compNone

/-- Headers are searched at all, 2238. -/
def searching (o : Opts) : Bool := o.optimize && !o.unOptimize

/-- Video tracks that are not to be optimized lose their ContentEncodings, 2250-2266. -/
def exempt (o : Opts) (k : Trk) : Bool := searching o && !o.optimizeVideo && k.video

/-- The codecs whose frames are worth a compression with zlib, 2799-2801. -/
def packable (codec : Url.Str) : Bool :=
  Url.ieq codec (Url.lit "S_USF") || Url.ieq codec (Url.lit "S_VOBSUB") || Url.ieq codec (Url.lit "S_HDMV/PGS") ||
    Url.ieq codec (Url.lit "B_VOBBTN") || Url.ieq codec (Url.lit "V_UNCOMPRESSED") || (Url.lit "A_PCM").isPrefixOf codec

/-- The track when the choice begins: without the encodings dropped at 2260-2261, and an empty CodecPrivate, 2776-2781. -/
def start (o : Opts) (k : Trk) : PTrack :=
  let t := if exempt o k then { k.t with enc := none } else k.t
  if t.priv = some [] then { t with priv := none } else t

/-- The common bytes kept for the track: none for a track that was exempted (its array was never begun, 2247 and 2268). -/
def kept (o : Opts) (k : Trk) : Bytes := if exempt o k then [] else k.header

/-- `encoding` as first chosen, 2784-2814. -/
def first (o : Opts) (k : Trk) : Int :=
  if o.unOptimize then compNone
  else if !o.optimize then blockAlgo (start o k)
  else if o.compalgo then compZlib
  else if packable k.codec then compZlib
  else if kept o k ≠ [] then compStrip
  else compNone

/-- `compress_scope`, 2757 and 2815-2828. -/
def scope (o : Opts) (k : Trk) : Nat :=
  if first o k = compNone then 0
  else
    match (start o k).enc with
    | some (some e) => e.scope.getD 1
    | _ => 1

/-- The bytes the elements for the compression are taken to cost, 2835-2837. -/
def extra (o : Opts) (k : Trk) : Nat := (if first o k = compNone then 13 else 3) + (if o.compalgo then 0 else 1)

/-- The CodecPrivate gets shorter by more than `n` bytes, 2833-2848. -/
def saves (z : Zlib) (t : PTrack) (n : Nat) : Bool :=
  match t.priv with
  | some p => (z.deflate p).length + n < p.length
  | none => false

/-- The CodecPrivate is found to be worth a compression, 2831-2848. -/
def worth (z : Zlib) (o : Opts) (k : Trk) : Bool :=
  (o.optimize || first o k ≠ compNone) && first o k ≠ compStrip && scope o k ≠ 2 && saves z (start o k) (extra o k)

/-- `encoding` and `compress_scope` in the end, 2849-2852. -/
def chosen (z : Zlib) (o : Opts) (k : Trk) : Int × Nat :=
  if worth z o k then (cliAlgo o, scope o k ||| 2) else (first o k, scope o k)

/-- The encoding is set, 2858-2875 (`HeaderData` is set with `Optimize` only, 2806; 1 is bzlib, 2 is LZO). -/
def apply (z : Zlib) (o : Opts) (k : Trk) : PTrack :=
  let c := chosen z o k
  if c.1 = compZlib ∨ c.1 = 1 ∨ c.1 = 2 then (setAlgo c.2 compZlib (start o k)).1
  else if c.1 = compStrip then (if o.optimize then (setHeader (kept o k) (start o k)).1 else start o k)
  else (setNone (start o k)).1

/-- The track as written: its size is computed on the way. -/
def written (z : Zlib) (o : Opts) (k : Trk) : Out PTrack := updateTrack z (apply z o k)

end Verif.Enc
