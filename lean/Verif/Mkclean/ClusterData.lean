import Verif.Mkv.Life
/-!
Reading and releasing the frames of all blocks of a Cluster, `ReadClusterData` and `UnReadClusterData`,
mkclean/mkclean.c:245-302. Blocks are those of `Verif/Mkv/Life.lean`, each with its `FirstFrameLocation`; other elements
are kept as a number.
-/
namespace Verif.Mkclean
open Verif Verif.Mkv

/-- A child of a BlockGroup: a Block or something else. -/
inductive GroupElt where
  | block (b : LBlk) (loc : Nat)
  | other (tag : Nat)

/-- A child of a Cluster. -/
inductive ClusterElt where
  | simple (b : LBlk) (loc : Nat)
  | group (kids : List GroupElt)
  | other (tag : Nat)

/-- The loop over a BlockGroup, mkclean.c:256-267: it ends after the first Block. -/
def readGroup (file : Bytes) : List GroupElt → Out (List GroupElt)
  | [] => .ok []
  | .block b loc :: r => (readFrames file loc b).bind fun b' => .ok (.block b' loc :: r)
  | .other t :: r => (readGroup file r).bind fun r' => .ok (.other t :: r')

/-- Reading one child, mkclean.c:254-275. -/
def readChild (file : Bytes) : ClusterElt → Out ClusterElt
  | .simple b loc => (readFrames file loc b).bind fun b' => .ok (.simple b' loc)
  | .group kids => (readGroup file kids).bind fun k => .ok (.group k)
  | .other t => .ok (.other t)

/-- `ReadClusterData`, mkclean.c:245-279: the children left and whether any was deleted. -/
def readClusterData (file : Bytes) : List ClusterElt → Out (List ClusterElt × Bool)
  | [] => .ok ([], false)
  | c :: r =>
    match readChild file c with
    | .ok c' => (readClusterData file r).bind fun x => .ok (c' :: x.1, x.2)
    | .err => (readClusterData file r).bind fun x => .ok (x.1, true)
    | .bad => .bad
    | .hang => .hang

/-- The loop over a BlockGroup, mkclean.c:289-296. -/
def releaseGroup (all : Bool) : List GroupElt → Out (List GroupElt)
  | [] => .ok []
  | .block b loc :: r => (release all b).bind fun b' => .ok (.block b' loc :: r)
  | .other t :: r => (releaseGroup all r).bind fun r' => .ok (.other t :: r')

/-- Releasing one child, mkclean.c:287-299. -/
def releaseChild (all : Bool) : ClusterElt → Out ClusterElt
  | .simple b loc => (release all b).bind fun b' => .ok (.simple b' loc)
  | .group kids => (releaseGroup all kids).bind fun k => .ok (.group k)
  | .other t => .ok (.other t)

/-- `UnReadClusterData`, mkclean.c:281-302. Releasing a block never reports an error (matroskamain.c:975-991), so the
loop goes through all children. -/
def unreadClusterData (all : Bool) : List ClusterElt → Out (List ClusterElt)
  | [] => .ok []
  | c :: r => (releaseChild all c).bind fun c' => (unreadClusterData all r).bind fun r' => .ok (c' :: r')

end Verif.Mkclean
