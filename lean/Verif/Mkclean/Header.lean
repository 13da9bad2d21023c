import Verif.Base.Bytes
/-!
Model of how mkclean finds the header to strip from the frames of a track (`/repo/mkclean/mkclean.c:1402-1481, 2246-2295`).

Simplifications: allocations succeed; every track is optimised (`OptimizeVideo`); a block is what reading it gives.
-/
namespace Verif.Mkclean
open Verif

/-- A block as `ShrinkCommonHeader` meets it: not readable (mkclean.c:1442), of a compressed track (1445), or frames. -/
inductive Source where
  | unreadable
  | compressed
  | frames (fs : List Bytes)

/-- The loop counting equal bytes, mkclean.c:1462-1468. -/
def equalData : Bytes → Bytes → Nat
  | h :: hs, b :: bs => if h = b then equalData hs bs + 1 else 0
  | _, _ => 0

/-- The loop over the frames, mkclean.c:1458-1473. -/
def shrinkFrames (hdr : Bytes) : List Bytes → Bytes
  | [] => hdr
  | f :: fs =>
    let hdr' := hdr.take (equalData hdr f)
    if hdr' = [] then [] else shrinkFrames hdr' fs

/-- `ShrinkCommonHeader`, mkclean.c:1435-1475; `none` is `TABLE_MARKER`, no frame seen yet. -/
def shrinkBlock (hdr : Option Bytes) (b : Source) : Option Bytes :=
  if hdr = some [] then hdr
  else match b, hdr with
    | .frames (f :: fs), none => some (shrinkFrames f fs)
    | .frames fs, some h => some (shrinkFrames h fs)
    | _, _ => hdr

/-- The loop over all blocks of all Clusters, mkclean.c:2272-2291: `heads` is `TrackMaxHeader`. -/
def findHeaders (heads : Nat → Option Bytes) : List (Nat × Source) → Nat → Option Bytes
  | [] => heads
  | (t, b) :: bs => findHeaders (fun u => if u = t then shrinkBlock (heads t) b else heads u) bs

/-- The header a track gets, mkclean.c:2268-2269 and 2293-2294; no header if it is empty (2807). -/
def trackHeader (blocks : List (Nat × Source)) (t : Nat) : Bytes := (findHeaders (fun _ => none) blocks t).getD []

end Verif.Mkclean
