import Verif.Mkclean.Output
/-!
Model of what mkclean writes with `--live` (`/repo/mkclean/mkclean.c:304-335`, `2012-2030`, `2196-2200`, `3043-3121`).

Simplifications: those of `Mkclean/Output.lean`. With `--live` only the Segment Info and the Tracks were read
(mkclean.c:1805-1824), so these are the sections.
-/
namespace Verif.Mkclean
open Verif.Ebml Verif.Mkv

/-- Head of the Segment, mkclean.c:2014-2015: its size is unknown. -/
def liveHead : Base := ⟨0x18538067, -1, 0, true, true, false⟩

/-- `WriteJunk(Output,134)`, mkclean.c:1483-1488 and 2198. -/
def junk : Bytes := List.replicate 134 0x0A

/-- `EBML_ElementSetInfiniteSize`, ebmlelement.c:82-88. -/
def setUnknown (e : Elt) : Elt := e.setBase { e.base with finite := false }

/-- The Clusters with their PrevSizes, `SetClusterPrevSize`, mkclean.c:304-335. `size` is `ClusterSize`, `none` before
the first Cluster. -/
def setPrevSizes (env : Ebml.Env) (scale : Int) (needRead : Bool) : (size : Option Int) → List OutCluster →
    List (OutCluster × Option (BitVec 64))
  | _, [] => []
  | size, c :: cs =>
    let c := if needRead then c.read.1 else c
    let prev := size.map (BitVec.ofInt 64)
    (c, prev) :: setPrevSizes env scale needRead
      (some (fullSizeBase (setUnknown (update env false (c.elt scale prev))).base)) cs

/-- mkclean.c:3043-3044: with `--unsafe` the Clusters are left as they are. -/
def livePlan (env : Ebml.Env) (j : Job) : List (OutCluster × Option (BitVec 64)) :=
  if j.safe then setPrevSizes env j.scale j.needRead none j.clusters else j.clusters.map fun c => (c, none)

/-- The loop that writes the Clusters, mkclean.c:3109-3121 with 657-676: the bytes of each. -/
def liveClusters (env : Ebml.Env) (scale : Int) (safe : Bool) : (prev : Int) → List (OutCluster × Option (BitVec 64)) →
    List Bytes
  | _, [] => []
  | prev, c :: cs =>
    let w := writeCluster scale prev c.1
    let e := w.1.elt scale c.2
    rendered env (if safe then setUnknown e else e) :: liveClusters env scale safe w.2.1 cs

/-- The whole output with `--live`. -/
def cleanLive (env : Ebml.Env) (j : Job) : Bytes :=
  j.head ++ renderHead liveHead ++ junk ++ (j.parts.map (·.bytes)).flatten ++
    (liveClusters env j.scale j.safe invalidTs (livePlan env j)).flatten

end Verif.Mkclean
