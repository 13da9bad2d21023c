import Verif.Mkv.Order
import Verif.Mkv.Block
/-!
Model of what mkclean does with times (/repo/mkclean/mkclean.c): the TimestampScale it chooses 1870-1878, the Timestamp
of a Cluster under the new scale, linking the Cues of the source with blocks (`LinkCueCluster` 411-449, `OptimizeCues`
531-555), new Cues (`GenerateCueEntries` 751-833) and the order of the Clusters it writes (`WriteCluster` 657-689); and of
`MATROSKA_GetBlockForTimestamp`, /repo/libmatroska2/matroskamain.c:897-926.

Simplifications: allocations succeed; the blocks of a Cluster are given with the time `MATROSKA_BlockTimestamp` reports
(C39); 64-bit overflow wraps, except that shifting a negative number left (1876), which C leaves undefined, is `bad`.
-/
namespace Verif.Mkclean
open Verif.Mkv

/-! ### TimestampScale -/

/-- `while (TimestampScale < 100000) TimestampScale <<= 1`, mkclean.c:1875-1876, at most `fuel` tests; `hang`: not done. A
TimestampScale from 2^63 on is a negative `int64_t`. -/
def doubling : Nat → Int → Out Int
  | 0, _ => .hang
  | fuel + 1, x => if x < 100000 then (if x < 0 then .bad else doubling fuel (2 * x)) else .ok x

/-- The TimestampScale of the output, mkclean.c:1870-1878: `forced` is `--timecodescale` (1603), 0 if not given. -/
def pickScale (fuel : Nat) (forced old : Int) : Out Int := if forced = 0 then doubling fuel old else .ok forced

/-- Whether the Clusters are linked with the new Info when they are not remuxed: only in `GenerateCueEntries` (778), which
runs if there are no Cues and more than one Cluster (2893-2917). Here a Cues element that lacks mandatory elements counts
as none (2901-2906) and there is a Tracks element. Not for `--live`, which also adds 12345 to every Timestamp (2202). -/
def relinks (cues : Bool) (clusters : Nat) : Bool := !cues && decide (1 < clusters)

/-- A Cluster read with the Timestamp `ticks`: `MATROSKA_LinkClusterBlocks` links it with the old Info for reading and
writing (matroskamain.c:937), `MATROSKA_LinkClusterWriteSegmentInfo` with the new one; both lead to
`MATROSKA_ClusterSetTimestamp` of its own time (`ClusterTimeChanged`, matroskamain.c:106-116). -/
def outCluster (relinked : Bool) (old new ticks : Int) : TClu :=
  let c : TClu := ⟨invalidTs, some ticks⟩
  let c := (cluSetTs ⟨old, old, id⟩ c [] (cluTs ⟨old, old, id⟩ c)).1
  if relinked then (cluSetTs ⟨old, new, id⟩ c [] (cluTs ⟨old, new, id⟩ c)).1 else c

/-! ### Linking Cues -/

/-- A `uint16_t` passed as `int16_t`. -/
def s16 (n : Int) : Int := (n + 2 ^ 15) % 2 ^ 16 - 2 ^ 15

/-- `MATROSKA_GetBlockForTimestamp`, matroskamain.c:897-926: the index of the block. -/
def blockAt (time track : Int) : List BKey → Option Nat
  | [] => none
  | b :: bs => if b.track = s16 track ∧ b.time = time then some 0 else (blockAt time track bs).map (· + 1)

/-- The loops of `LinkCueCluster`, mkclean.c:424-433 and 436-445: the indices of Cluster and block. -/
def scan (time track : Int) : List (List BKey) → Option (Nat × Nat)
  | [] => none
  | c :: cs =>
    match blockAt time track c with
    | some i => some (0, i)
    | none => (scan time track cs).map fun p => (p.1 + 1, p.2)

/-- `LinkCueCluster`, mkclean.c:411-449: seven Clusters from the previous one on, then all of them. -/
def linkCue (clusters : List (List BKey)) (start : Option Nat) (time track : Int) : Option (Nat × Nat) :=
  match start with
  | none => scan time track clusters
  | some s =>
    match scan time track ((clusters.drop s).take 7) with
    | some p => some (p.1 + s, p.2)
    | none => scan time track clusters

/-- The loop of `OptimizeCues`, mkclean.c:545-547; `scale` is that of the output, as the call at 3010 passes the new Info. -/
def linkCues (scale : Int) (clusters : List (List BKey)) : Option Nat → List Cue → List (Option (Nat × Nat))
  | _, [] => []
  | start, c :: cs =>
    let r := linkCue clusters start (cueTs scale c) (cueTrack c)
    r :: linkCues scale clusters (r.map (·.1)) cs

/-- The CuePoint `MATROSKA_CuePointUpdate` writes, matroskamain.c:866-879: time and track; `none` is the use of a null
pointer by a Cue without a block (871). -/
def cuePointOf (scale : Int) (clusters : List (List BKey)) : Option (Nat × Nat) → Option Cue
  | none => none
  | some p => ((clusters[p.1]?.getD [])[p.2]?).map fun b => ⟨some (scale64 b.time scale), some b.track⟩

/-! ### New Cues -/

/-- A child of a Cluster; of a BlockGroup the last Block (mkclean.c:792-793) and the number of ReferenceBlocks. -/
inductive Child where
  | other
  | simple (key : Bool) (b : BKey)
  | group (b : Option BKey) (refs : Nat)
deriving DecidableEq, Repr

/-- The block of a child if it is a keyframe, mkclean.c:781-799. -/
def keyOf : Child → Option BKey
  | .other => none
  | .simple key b => if key then some b else none
  | .group b refs => if refs = 0 then b else none

/-- The block at which the loop over the children stops, mkclean.c:779-821. -/
def firstKey (main : Int) : List Child → Option BKey
  | [] => none
  | c :: cs =>
    match keyOf c with
    | some b => if b.track = main then some b else firstKey main cs
    | none => firstKey main cs

/-- `GenerateCueEntries`, mkclean.c:775-822: the number of the Cluster and the block of every entry. -/
def newCues (main : Int) : (prev : Int) → (index : Nat) → List (List Child) → List (Nat × BKey)
  | _, _, [] => []
  | prev, i, c :: cs =>
    match firstKey main c with
    | none => newCues main prev (i + 1) cs
    | some b =>
      if s64 (b.time - prev) < 800000000 ∧ prev ≠ invalidTs then newCues main prev (i + 1) cs
      else (i, b) :: newCues main b.time (i + 1) cs

/-! ### Times of the Clusters written -/

/-- `WriteCluster`, mkclean.c:663-674, over all Clusters (3110-3121): the times written for the times `ts`. -/
def writeTimes (scale : Int) : (prev : Int) → List Int → List Int
  | _, [] => []
  | prev, t :: ts =>
    let t' := if prev ≠ invalidTs ∧ prev ≥ t then s64 (prev + scale) else t
    t' :: writeTimes scale t' ts

end Verif.Mkclean
