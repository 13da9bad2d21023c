import Verif.Core.Scanf
import Verif.Core.Url
/-!
Model of what mkclean decides before it reads the Segment, and of how it ends, `/repo/mkclean/mkclean.c`:
the command line (1556-1732), the EBML head (557-655 and 1739-1769), the TimestampScale (1870-1878), the head that is
written (1956-2007), every way to the label `exit` (the `goto exit` from 1592 to 3195) and the end (3201-3239).

A string is the list of its characters; `tcsisame_ascii` is `Url.ieq` (compare C76). `InputPathIndex` is kept as the list
of the arguments from there on. Not modelled: the messages, memory that cannot be allocated, `Quiet`.
-/
namespace Verif.Setup
open Verif Verif.Mkv

abbrev Str := List Nat

abbrev lit := Url.lit

/-- `tcsisame_ascii`. -/
abbrev same (a : Str) (b : String) : Bool := Url.ieq a (lit b)

/-! ### Profiles -/

/-- `PROFILE_MATROSKA_V1` and so on, matroska.h:22-28. -/
abbrev pV1 : Nat := 1
abbrev pV2 : Nat := 2
abbrev pV3 : Nat := 4
abbrev pWebm : Nat := 8
abbrev pDivx : Nat := 16
abbrev pV4 : Nat := 32
abbrev pV5 : Nat := 64

/-! ### The command line -/

/-- The variables the options set, mkclean.c:1519-1526 with the statics 162-170. `alt3d` are the marked places of
`Alternate3DTracks`; `zlib` is `CompressionAlgo` being zlib; `rest` are the arguments from `InputPathIndex` on. -/
structure Settings where
  keepCues : Bool := false
  remux : Bool := false
  live : Bool := false
  profile : Nat := 0
  scale : Int := 0
  alt3d : List Nat := []
  noSafety : Bool := false
  optimize : Bool := false
  optimizeVideo : Bool := true
  zlib : Bool := false
  regression : Bool := false
  unOptimize : Bool := false
  quiet : Bool := false
  showVersion : Bool := false
  showUsage : Bool := false
  rest : List Str := []
deriving DecidableEq, Repr

/-- How the loop over the arguments goes on. `bad`: it writes outside of its memory. -/
inductive Parsed where
  | go (s : Settings)
  | stop (code : Int)
  | bad
deriving DecidableEq, Repr

/-- Options without a value, mkclean.c:1563-1565, 1624-1626 and 1645-1649. -/
def flag (a : Str) (s : Settings) : Option Settings :=
  if same a "--keep-cues" then some { s with keepCues := true }
  else if same a "--remux" then some { s with remux := true }
  else if same a "--live" then some { s with live := true }
  else if same a "--unsafe" then some { s with noSafety := true }
  else if same a "--optimize" then some { s with optimize := true, optimizeVideo := true }
  else if same a "--optimize_nv" then some { s with optimize := true, optimizeVideo := false }
  else if same a "--regression" then some { s with regression := true }
  else if same a "--no-optimize" then some { s with unOptimize := true }
  else if same a "--quiet" then some { s with quiet := true }
  else if same a "--version" then some { s with showVersion := true }
  else if same a "--help" then some { s with showVersion := true, showUsage := true }
  else none

/-- The profile of a `--doctype`, mkclean.c:1573-1593. -/
def doctype (v : Str) : Option Nat :=
  if same v "1" then some pV1
  else if same v "2" then some pV2
  else if same v "3" then some pV3
  else if same v "4" then some pWebm
  else if same v "5" then some pDivx
  else if same v "6" then some pV4
  else if same v "7" then some pV5
  else none

/-- Options with a value, mkclean.c:1566-1623 and 1627-1644; `none` is another argument. A negative number for `--alt-3d`
makes `TrackId` huge: `TrackId+1` is 0 or its size in bytes wraps around, and the store goes to `Alternate3DTracks[-1]` or
the like. -/
def valued (a v : Str) (s : Settings) : Option Parsed :=
  if same a "--doctype" then
    match doctype v with
    | some p => some (.go { s with profile := p })
    | none => some (.stop (-8))
  else if same a "--timecodescale" then
    match Scanf.stringToInt64 v with
    | .ok n => some (.go { s with scale := n })
    | _ => some .bad
  else if same a "--alt-3d" then
    match Scanf.stringToInt v 0 with
    | .ok n => some (if 0 ≤ n then .go { s with alt3d := s.alt3d ++ [n.toNat] } else .bad)
    | _ => some .bad
  else if same a "--compalgo" then
    some (if same v "0" then .go { s with zlib := true } else .stop (-8))
  else none

/-- The loop, mkclean.c:1556-1651. An option takes the next argument as its value if there is another one behind it
(`i+1<argc-1`). -/
def parse : List Str → Settings → Parsed
  | [], s => .go s
  | [a], s =>
    match flag a s with
    | some s => .go { s with rest := [] }
    | none => .go s
  | [a, b], s =>
    match flag a s with
    | some s => parse [b] { s with rest := [b] }
    | none => parse [b] s
  | a :: v :: b :: more, s =>
    match flag a s with
    | some s => parse (v :: b :: more) { s with rest := v :: b :: more }
    | none =>
      match valued a v s with
      | some (.go s) => parse (b :: more) { s with rest := b :: more }
      | some o => o
      | none => parse (v :: b :: more) s

/-- What mkclean does with its arguments: it ends, or reads a file and writes another; without a name (`none`) the output
is that of `Url.cleanName`. -/
inductive Start where
  | stop (code : Int)
  | bad
  | run (s : Settings) (src : Str) (dst : Option Str)
deriving DecidableEq, Repr

/-- mkclean.c:1653-1732 behind the loop: `argc < (1+InputPathIndex)` is the empty list, `InputPathIndex==argc-1` a list of
one. -/
def start (args : List Str) : Start :=
  match parse args { rest := args } with
  | .stop c => .stop c
  | .bad => .bad
  | .go s =>
    match s.rest with
    | [] => .stop (-1)
    | src :: more => if s.showVersion then .stop (-1) else .run s src more.getLast?

/-! ### The EBML head -/

/-- What `EBML_FindNextElement` finds in the head of the source; `none`: the data could not be read. -/
inductive Item where
  | readVersion (v : Option Int)
  | maxId (v : Option Int)
  | maxSize (v : Option Int)
  | docType (t : Option Str)
  | docTypeReadVersion (v : Option Int)
  | other
  | segment
deriving DecidableEq, Repr

/-- The statics `SrcProfile` and `DocVersion`, mkclean.c:162-163. -/
structure Doc where
  profile : Nat := 0
  version : Int := 1
deriving DecidableEq, Repr

/-- A value of `int64_t` that is not above `limit`. -/
def within (limit : Int) : Option Int → Bool
  | some v => v ≤ limit
  | none => false

/-- `CheckMatroskaHead`, mkclean.c:557-655: whether the Segment was found, and the statics. The limits are
`EBML_MAX_VERSION`, `EBML_MAX_ID`, `EBML_MAX_SIZE` (ebml.h:22-24) and `MATROSKA_VERSION` (matroska.h:32). -/
def checkHead : List Item → Doc → Bool × Doc
  | [], d => (false, d)
  | .segment :: _, d => (true, d)
  | .other :: l, d => checkHead l d
  | .readVersion v :: l, d => if within 1 v then checkHead l d else (false, d)
  | .maxId v :: l, d => if within 4 v then checkHead l d else (false, d)
  | .maxSize v :: l, d => if within 8 v then checkHead l d else (false, d)
  | .docType t :: l, d =>
    if t = some (lit "matroska") then checkHead l { d with profile := pV1 }
    else if t = some (lit "webm") then checkHead l { d with profile := pWebm }
    else (false, d)
  | .docTypeReadVersion v :: l, d =>
    match v with
    | some v => if v ≤ 2 then checkHead l { d with version := Scanf.low32 v } else (false, d)
    | none => (false, d)

/-- The profile of the source, mkclean.c:1748-1755. -/
def srcProfile (d : Doc) : Nat :=
  if d.profile = pV1 ∧ d.version = 2 then pV2
  else if d.profile = pV1 ∧ d.version = 3 then pV3
  else if d.profile = pV1 ∧ d.version = 4 then pV4
  else if d.profile = pV1 ∧ d.version = 5 then pV5
  else d.profile

/-- `DstProfile`, mkclean.c:1757-1758. -/
def dstProfile (asked : Nat) (d : Doc) : Nat := if asked = 0 then srcProfile d else asked

/-- WebM turns optimizations off, mkclean.c:1760-1764. -/
def webmSettings (p : Nat) (s : Settings) : Settings :=
  if p = pWebm then { s with unOptimize := true, optimize := false } else s

/-- `DocType` and the two versions of the output, mkclean.c:1966-1985 and 1993-2004, for the profile behind
`CleanTracks`. -/
def headOf (p : Nat) (d : Doc) : Str × Int :=
  (if p = pWebm then lit "webm" else lit "matroska",
   if p = pV2 ∨ p = pWebm then 2 else if p = pV3 then 3 else if p = pV4 then 4 else if p = pV5 then 5 else d.version)

/-! ### The TimestampScale -/

/-- One `TimestampScale <<= 1`, in 64 bits. -/
def double (v : Int) : Int := Scanf.wrap64 (v * 2)

/-- The loop of mkclean.c:1875-1876, at most `fuel` times. -/
def grow : Nat → Int → Out Int
  | 0, v => if v < 100000 then .hang else .ok v
  | fuel + 1, v => if v < 100000 then grow fuel (double v) else .ok v

/-- The TimestampScale of the output, mkclean.c:1871-1877, from that of the option and that of the source. -/
def newScale (asked old : Int) : Out Int := if asked = 0 then grow 64 old else .ok asked

/-! ### The end -/

/-- What mkclean meets while working, in the order of the code; `wrote` are the bytes in the output when it stops. -/
structure Facts where
  /-- the source begins with an EBML head, 1740 -/
  hasHead : Bool := true
  /-- what is in it, 1747 -/
  head : List Item := [.docType (some (lit "matroska")), .docTypeReadVersion (some 2), .segment]
  /-- a Segment Info was read, 1854 -/
  hasInfo : Bool := true
  /-- its TimestampScale, 1870 -/
  oldScale : Int := 1000000
  /-- there are Tracks, 1908 -/
  hasTracks : Bool := true
  /-- there are Clusters, 1908 -/
  hasClusters : Bool := true
  /-- the result of `CleanTracks`, 1917 -/
  cleaned : Int := 0
  /-- `CleanTracks` left a track marked with `--alt-3d`, 1365-1374 -/
  alt3dLeft : Bool := true
  /-- `CleanTracks` found an old StereoMode and changed the profile, 1150 -/
  stereo : Bool := false
  /-- the EBML head could not be written, 2006 -/
  headFails : Bool := false
  /-- the Segment head could not be written, 2024 -/
  segmentFails : Bool := false
  /-- the result of `LinkClusters`, 2202 -/
  linked : Int := 0
  /-- `GetMainTrack` found a video or audio track among those with blocks, 2361-2396 -/
  mainTrack : Bool := true
  /-- the main track has a keyframe, 2429-2433 -/
  keyframe : Bool := true
  /-- appending a block failed, 2642 and 2717 -/
  appendFails : Bool := false
  /-- the first failing check or write of the output, 3025 to 3194 -/
  writeFails : Option Int := none
deriving DecidableEq, Repr

/-- How the work ends: with a file that is complete, at a `goto exit` that leaves `Result` at 0, at one with a negative
`Result`, with a null pointer, or never. -/
inductive Work where
  | complete
  | quits
  | crash
  | fails (code : Int)
  | hangs
deriving DecidableEq, Repr

/-- The profile behind `CleanTracks`. -/
def finalProfile (s : Settings) (f : Facts) : Nat :=
  if f.hasTracks ∧ f.stereo then pV3 else dstProfile s.profile (checkHead f.head {}).2

/-- `Alternate3DTracks` is not empty behind `CleanTracks`, which needs Tracks, 1914-1917. -/
def alt3dOn (s : Settings) (f : Facts) : Bool := !s.alt3d.isEmpty && (!f.hasTracks || f.alt3dLeft)

/-- The check of `--alt-3d`, mkclean.c:1987-1991. -/
def alt3dRefused (s : Settings) (f : Facts) : Bool :=
  let p := finalProfile s f
  alt3dOn s f && p != pV3 && p != pV4 && p != pV5

/-- `--remux` and marked 3D tracks (2075) redo the Clusters. -/
def remuxes (s : Settings) (f : Facts) : Bool := s.remux || (!s.regression && alt3dOn s f)

/-- `--optimize_nv` without Tracks looks for a TrackEntry below `NULL`, 2238-2253 with ebmlmaster.c:54. -/
def crashes (s : Settings) (f : Facts) : Bool :=
  let s := webmSettings (dstProfile s.profile (checkHead f.head {}).2) s
  s.optimize && !s.unOptimize && !s.optimizeVideo && !f.hasTracks

/-- From the opened files to the label `exit`, mkclean.c:1734-3199. -/
def work (s : Settings) (f : Facts) : Work :=
  if ¬ f.hasHead then .fails (-4)
  else if ¬ (checkHead f.head {}).1 then .fails (-5)
  else if ¬ f.hasInfo then .fails (-6)
  else
    match newScale s.scale f.oldScale with
    | .ok _ =>
      if ¬ f.hasTracks ∧ f.hasClusters then .fails (-7)
      else if f.hasTracks ∧ f.cleaned ≠ 0 then .fails f.cleaned
      else if alt3dRefused s f then .quits
      else if f.headFails then .quits
      else if f.segmentFails then .fails (-10)
      else if f.linked ≠ 0 then .fails f.linked
      else if crashes s f then .crash
      else if remuxes s f ∧ f.hasTracks ∧ ¬ f.mainTrack then .quits
      else if remuxes s f ∧ f.hasTracks ∧ ¬ f.keyframe then .quits
      else if remuxes s f ∧ f.hasTracks ∧ f.appendFails then .fails (-46)
      else
        match f.writeFails with
        | some c => .fails c
        | none => .complete
    | _ => .hangs

/-! ### The files -/

/-- A file: what is in it, and whether it may be written. -/
structure File where
  data : List Nat
  writable : Bool := true
deriving DecidableEq, Repr

/-- The files, and whether the directory of a path may be written to. -/
structure Fs where
  file : Str → Option File
  dirWritable : Str → Bool := fun _ => true

/-- The files with another one at a path. -/
def Fs.set (fs : Fs) (p : Str) (x : Option File) : Fs := { fs with file := fun q => if q = p then x else fs.file q }

/-- `StreamOpen(Path,SFLAG_WRONLY|SFLAG_CREATE)`, which is `open` with `O_CREAT|O_TRUNC`, file_libc.c:60-76. -/
def Fs.create (fs : Fs) (p : Str) : Option Fs :=
  match fs.file p with
  | some f => if f.writable then some (fs.set p (some { f with data := [] })) else none
  | none => if fs.dirWritable p then some (fs.set p (some { data := [] })) else none

/-- `FileErase(Path,1,0)`, file_libc.c:262-277: `chmod` if needed, then `unlink`, which asks for the directory only. -/
def Fs.erase (fs : Fs) (p : Str) : Fs :=
  if fs.dirWritable p then fs.set p none
  else
    match fs.file p with
    | some f => fs.set p (some { f with writable := true })
    | none => fs

/-- mkclean on two paths, 1692-1732 and 3201-3239: the files afterwards and the exit code (`none`: it runs forever or crashes).
`facts` is what the work finds in the bytes of the source, `bytes` what it has written when it stops. An empty `dst` is
not opened. -/
def run (s : Settings) (facts : List Nat → Facts) (bytes : List Nat → List Nat) (fs : Fs) (src dst : Str) : Fs × Option Int :=
  match fs.file src with
  | none => (fs, some (-2))
  | some _ =>
    match (if dst = [] then none else fs.create dst) with
    | none => (if dst = [] then fs else fs.erase dst, some (-3))
    | some fs1 =>
      let data := ((fs1.file src).map File.data).getD []
      let fs2 := fs1.set dst (some { data := bytes data })
      match work s (facts data) with
      | .complete => (fs2, some 0)
      | .quits => (fs2, some 0)
      | .fails c => (if c < 0 then fs2.erase dst else fs2, some c)
      | .crash => (fs2, none)
      | .hangs => (fs2, none)

end Verif.Setup
