import Verif.Mkv.Time
import Verif.Core.Str
/-!
Model of cue lookup and of the sort orders of libmatroska2/matroskamain.c: `MATROSKA_CueTimestamp`
835-843, `MATROSKA_CueTrackNum` 786-798, `CmpCuePoint` 2123-2140,
`MATROSKA_CuesGetTimestampStart` 2214-2230, `MATROSKA_BlockCmp` 594-601, `ClusterEltCmp`
603-626, `CmpAttachedFile` 2142-2212; and of `EbmlCmp`, libebml2/ebmlmaster.c:106-113.

Elements are reduced to the values the comparisons look at. Failing `assert`s do nothing, as in
a release build.
-/
namespace Verif.Mkv
open Verif Verif.Core

/-- A cue point: the value of CueTime and of CueTrack in its first CueTrackPositions. -/
structure Cue where
  time : Option Int
  track : Option Int
deriving DecidableEq, Repr

/-- `MATROSKA_CueTimestamp`, 835-843. -/
def cueTs (scale : Int) (c : Cue) : Int :=
  match c.time with
  | none => invalidTs
  | some t => s64 (t * scale)

/-- `MATROSKA_CueTrackNum`, 786-798: a `uint16_t`. -/
def cueTrack (c : Cue) : Int :=
  match c.track with
  | none => 65535
  | some t => t % 65536

/-- `CmpCuePoint`, 2123-2140. -/
def cmpCue (scale : Int) (a b : Cue) : Int :=
  if cueTs scale b < cueTs scale a then 1
  else if cueTs scale b > cueTs scale a then -1
  else if cueTrack b < cueTrack a then 1
  else if cueTrack b > cueTrack a then -1
  else 0

/-- The loop of `MATROSKA_CuesGetTimestampStart`, 2223-2227. -/
def cuesLoop (scale ts : Int) : Option Cue → List Cue → Option Cue
  | prev, [] => prev
  | prev, c :: cs => if cueTs scale c > ts then prev else cuesLoop scale ts (some c) cs

/-- `MATROSKA_CuesGetTimestampStart`, 2214-2230. A child of Cues that is no cue point (a Void)
has no CueTime; it is the cue `⟨none, none⟩`. -/
def cuesAt (scale : Int) (cues : List Cue) (ts : Int) : Option Cue :=
  if ts = invalidTs then none
  else
    match cuesLoop scale ts none cues with
    | some p => some p
    | none => cues.head?

/-- Time and track number of a block. -/
structure BKey where
  time : Int
  track : Int
deriving DecidableEq, Repr

/-- Conversion to `int`. -/
def toInt32 (x : Int) : Int := (x + 2 ^ 31) % 2 ^ 32 - 2 ^ 31

/-- `MATROSKA_BlockCmp`, 594-601. -/
def blockCmp (a b : BKey) : Int :=
  if a.time ≠ b.time then toInt32 (Int.tdiv (s64 (a.time - b.time)) 100000)
  else b.track - a.track

/-- A child of a cluster. -/
inductive CElt
  | timestamp
  | simple (k : BKey)
  | group (k : Option BKey)
  | other
deriving DecidableEq, Repr

/-- The block of the first element, 613-616. -/
def CElt.blockA : CElt → Option BKey
  | .simple k => some k
  | .group k => k
  | _ => none

/-- The block of the second element, 617-620: a BlockGroup is looked into only if the *first*
element is a BlockGroup. -/
def CElt.blockB (a b : CElt) : Option BKey :=
  match b, a with
  | .simple k, _ => some k
  | .group k, .group _ => k
  | _, _ => none

/-- `ClusterEltCmp`, 603-626. -/
def clusterCmp (a b : CElt) : Int :=
  if a = .timestamp then -1
  else if b = .timestamp then 1
  else
    match a.blockA, CElt.blockB a b with
    | some x, some y => blockCmp x y
    | _, _ => 0

/-- "cover.jpg". -/
def nCover1 : Bytes := [99, 111, 118, 101, 114, 46, 106, 112, 103]
/-- "cover.png". -/
def nCover2 : Bytes := [99, 111, 118, 101, 114, 46, 112, 110, 103]
/-- "cover_land.jpg". -/
def nLand1 : Bytes := [99, 111, 118, 101, 114, 95, 108, 97, 110, 100, 46, 106, 112, 103]
/-- "cover_land.png". -/
def nLand2 : Bytes := [99, 111, 118, 101, 114, 95, 108, 97, 110, 100, 46, 112, 110, 103]
/-- "small_cover.jpg". -/
def nSmall1 : Bytes := [115, 109, 97, 108, 108, 95] ++ nCover1
/-- "small_cover.png". -/
def nSmall2 : Bytes := [115, 109, 97, 108, 108, 95] ++ nCover2
/-- "small_cover_land.jpg". -/
def nSmallLand1 : Bytes := [115, 109, 97, 108, 108, 95] ++ nLand1
/-- "small_cover_land.png". -/
def nSmallLand2 : Bytes := [115, 109, 97, 108, 108, 95] ++ nLand2

/-- The three flags of a file name, 2161-2189. -/
structure Cover where
  cover : Bool
  land : Bool
  small : Bool
deriving DecidableEq, Repr

/-- 2161-2174 and 2176-2189. -/
def coverOf (s : Bytes) : Cover :=
  if isame s nCover1 ∨ isame s nCover2 then ⟨true, false, false⟩
  else if isame s nLand1 ∨ isame s nLand2 then ⟨false, true, false⟩
  else if isame s nSmall1 ∨ isame s nSmall2 then ⟨true, false, true⟩
  else if isame s nSmallLand1 ∨ isame s nSmallLand2 then ⟨false, true, true⟩
  else ⟨false, false, false⟩

/-- The decision between two file names, 2191-2211. -/
def coverCmp (a b : Cover) (names : Int) : Int :=
  if !a.cover && !b.cover && !a.land && !b.land then names
  else if a.cover && !a.small then -1
  else if b.cover && !b.small then 1
  else if a.cover == b.cover || a.land == b.land then (a.small.toNat : Int) - (b.small.toNat : Int)
  else if a.cover || a.land then (if b.cover then 1 else -1)
  else if a.cover then -1
  else 1

/-- `CmpAttachedFile`, 2142-2212; an attachment is its file name, if it has one. -/
def attachCmp : Option Bytes → Option Bytes → Int
  | _, none => -1
  | none, some _ => 1
  | some x, some y => coverCmp (coverOf x) (coverOf y) (strcmp x y)

/-- `EbmlCmp`, ebmlmaster.c:106-113, for children that are cue points (`some`) or have another
ID (`none`). -/
def ebmlCmp (scale : Int) : Option Cue → Option Cue → Int
  | some a, some b => cmpCue scale a b
  | _, _ => 0

end Verif.Mkv
