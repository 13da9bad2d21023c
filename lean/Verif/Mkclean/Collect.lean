import Verif.Mkclean.Link
import Verif.Mkclean.Tracks
/-!
Model of how mkclean prepares to remux (`/repo/mkclean/mkclean.c:1931-1941`, `2297-2395`): the blocks of each track are collected, tracks
without blocks are deleted, and the main track is chosen.

Simplifications:
* `ArrayResize` and `ArrayAppend` find the memory they ask for;
* only the TrackEntry elements of Tracks are looked at, as the code does.
-/
namespace Verif.Mkclean.Collect
open Verif Verif.Mkclean.Link
open Verif.Mkv (Out)

/-- The block of a child of a Cluster, mkclean.c:2341-2343 and 2351-2354. -/
def blockOf : Child → Option Blk
  | .simple b => some b
  | .group b _ => b
  | .other _ => none

/-- `MaxTrackNum`, mkclean.c:1931-1941, by the TrackNumbers; `none` for a track without. The values are converted to `size_t`. -/
def maxTrackNum : Nat → List (Option Int) → Nat
  | m, [] => m
  | m, none :: ns => maxTrackNum m ns
  | m, some n :: ns => maxTrackNum (if (n % 2 ^ 64).toNat > m then (n % 2 ^ 64).toNat else m) ns

/-- Appending a block to the array of its track, mkclean.c:2346-2348 and 2353-2355; `bad` behind the end of `TrackBlocks`. -/
def store (arr : List (List Blk)) (b : Blk) : Out (List (List Blk)) :=
  match arr[b.num]? with
  | none => .bad
  | some l => .ok (arr.set b.num (l ++ [b]))

/-- The children of one Cluster, mkclean.c:2339-2357. -/
def storeChildren : List (List Blk) → List Child → Out (List (List Blk))
  | arr, [] => .ok arr
  | arr, c :: cs =>
    match blockOf c with
    | none => storeChildren arr cs
    | some b => (store arr b).bind fun arr => storeChildren arr cs

/-- All Clusters, mkclean.c:2337-2358. -/
def storeClusters : List (List Blk) → List Cluster → Out (List (List Blk))
  | arr, [] => .ok arr
  | arr, c :: cs => (storeChildren arr c.children).bind fun arr => storeClusters arr cs

/-- `TrackBlocks`, mkclean.c:2323-2325 and 2337-2358. -/
def collect (max : Nat) (cs : List Cluster) : Out (List (List Blk)) := storeClusters (List.replicate (max + 1) []) cs

/-- Deleting the first track with that number, mkclean.c:2381-2390, and whether there was one. A track without TrackNumber on the way is
`EBML_IntegerValue(NULL)`. -/
def deleteFirst (n : Int) : List Tracks.Track → Out (List Tracks.Track × Bool)
  | [] => .ok ([], false)
  | t :: ts =>
    match t.number with
    | none => .bad
    | some m => if m = n then .ok (ts, true) else (deleteFirst n ts).bind fun r => .ok (t :: r.1, r.2)

/-- One pass over `TrackOrder`, mkclean.c:2376-2392, and whether nothing was deleted (`Exit`). -/
def pass (arr : List (List Blk)) : List Int → List Tracks.Track → Out (List Tracks.Track × Bool)
  | [], ts => .ok (ts, true)
  | n :: ns, ts =>
    match arr[(n % 2 ^ 64).toNat]? with
    | none => .bad
    | some l =>
      if l.length = 0 then
        (deleteFirst n ts).bind fun d => (pass arr ns d.1).bind fun r => .ok (r.1, r.2 && !d.2)
      else pass arr ns ts

/-- What remuxing starts with: the tracks left in Tracks, the place of the main track among them, `MainTrack`, and `TrackOrder`. -/
structure Start where
  tracks : List Tracks.Track
  mainAt : Nat
  main : Nat
  order : List Int
deriving DecidableEq, Repr

/-- `(size_t)(int16_t)` of a TrackNumber, mkclean.c:2374. -/
def mainNum (n : Int) : Nat := (((n + 2 ^ 15) % 2 ^ 16 - 2 ^ 15) % 2 ^ 64).toNat

/-- The loop, mkclean.c:2361-2395; `none` is `goto exit` in line 2370, with `Result` as it was. `hang` stands for more rounds than
`fuel`, see `choose_eq`. -/
def choose : Nat → List (List Blk) → List Tracks.Track → Out (Option Start)
  | 0, _, _ => .hang
  | fuel + 1, arr, ts =>
    (Tracks.mainTrack ts).bind fun m =>
    match m.1 with
    | none => .ok none
    | some i =>
      match (ts[i]?).bind (·.number) with
      | none => .bad
      | some n =>
        (pass arr m.2 ts).bind fun r =>
        if r.2 then .ok (some ⟨r.1, i, mainNum n, m.2⟩) else choose fuel arr r.1

/-- How the part of mkclean before remuxing proper ends. -/
inductive Prepared where
  /-- Remuxing goes on with the blocks of each track. -/
  | start (s : Start) (blocks : List (List Blk))
  /-- mkclean stops with this exit code; the output file is erased when it is negative (3229-3230). -/
  | exit (code : Int)

/-- mkclean.c:2297-2395. `Result` is 0 when this begins (2202-2204). -/
def prepare (fuel : Nat) (ts : List Tracks.Track) (cs : List Cluster) : Out Prepared :=
  (collect (maxTrackNum 0 (ts.map (·.number))) cs).bind fun arr =>
  (choose fuel arr ts).bind fun r =>
  match r with
  | none => .ok (.exit 0)
  | some s => .ok (.start s arr)

end Verif.Mkclean.Collect
