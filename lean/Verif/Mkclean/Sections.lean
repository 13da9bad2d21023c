import Verif.Mkclean.Setup
/-!
Model of what mkclean takes from the source before it writes: the sections of the Segment and the Segment Info
(`/repo/mkclean/mkclean.c:1791-1851, 1860-1906`).

Simplifications: allocations succeed; the Segment is the list of the level 1 elements `EBML_FindNextElement` finds, each with
whether its data can be read; durations are exact numbers instead of `double`.
-/
namespace Verif.Sections
open Verif Verif.Mkv

/-! ### The sections -/

/-- The kinds of level 1 elements the loop tells apart. -/
inductive Kind where
  | info | tracks | chapters | tags | cues | attachments | cluster | other
deriving DecidableEq, Repr

/-- A level 1 element: its kind, whether `EBML_ElementReadData` succeeds, and what it holds. -/
structure Sec where
  kind : Kind
  ok : Bool
  data : Nat
deriving DecidableEq, Repr

/-- `RSegmentInfo` … `RClusters`, mkclean.c:1505-1510. -/
structure Found where
  info : Option Nat := none
  tracks : Option Nat := none
  chapters : Option Nat := none
  tags : Option Nat := none
  cues : Option Nat := none
  attachments : Option Nat := none
  clusters : List Nat := []
deriving DecidableEq, Repr

/-- One round of the loop, mkclean.c:1794-1850. -/
def take (live keepCues : Bool) (f : Found) (s : Sec) : Found :=
  if s.kind = .info then (if s.ok then { f with info := some s.data } else f)
  else if s.kind = .tracks then (if s.ok then { f with tracks := some s.data } else f)
  else if !live && s.kind = .chapters then (if s.ok then { f with chapters := some s.data } else f)
  else if !live && s.kind = .tags then (if s.ok then { f with tags := some s.data } else f)
  else if !live && s.kind = .cues && keepCues then (if s.ok then { f with cues := some s.data } else f)
  else if !live && s.kind = .attachments then (if s.ok then { f with attachments := some s.data } else f)
  else if s.kind = .cluster then (if s.ok then { f with clusters := f.clusters ++ [s.data] } else f)
  else f

/-- The loop, mkclean.c:1791-1851. -/
def takeAll (live keepCues : Bool) (l : List Sec) : Found := l.foldl (take live keepCues) {}

/-! ### The Segment Info -/

/-- A child of the Segment Info. -/
inductive IElt where
  | scale (v : Int)
  | duration (d : Rat)
  | other (n : Nat)
deriving DecidableEq

def isScale : IElt → Bool
  | .scale _ => true
  | _ => false

def isDuration : IElt → Bool
  | .duration _ => true
  | _ => false

/-- `EBML_MasterGetChild` of the TimestampScale and its value, mkclean.c:1863 and 1870: the default if it is missing. -/
def oldScale : List IElt → Int
  | [] => 1000000
  | .scale v :: _ => v
  | _ :: l => oldScale l

/-- `EBML_IntegerSetValue` of the TimestampScale, mkclean.c:1878; it was appended (ebmlmaster.c:41) if missing. -/
def setScale (v : Int) : List IElt → List IElt
  | [] => [.scale v]
  | .scale _ :: l => .scale v :: l
  | e :: l => e :: setScale v l

/-- The first Duration is changed, mkclean.c:1890-1895. -/
def rescale (old new : Int) : List IElt → List IElt
  | [] => []
  | .duration d :: l => .duration (d * old / new) :: l
  | e :: l => e :: rescale old new l

/-- `NodeTree_SetParent(e, Info, first child)` for the first child with `p`, mkclean.c:1898-1906 (compare Core/Node.lean). The Duration is
put before the TimestampScale, which is the first child then. -/
def toFront (p : IElt → Bool) (l : List IElt) : List IElt :=
  match l.find? p with
  | some e => e :: l.eraseP p
  | none => l

/-- From the copy of the Segment Info to the one that is written, mkclean.c:1863-1906; `asked` is the option `--timecodescale`. -/
def newInfo (live : Bool) (asked : Int) (l : List IElt) : Out (List IElt) :=
  match Setup.newScale asked (oldScale l) with
  | .ok new =>
    let l1 := setScale new l
    let l2 := if live then l1.eraseP isDuration
      else if new ≠ 0 ∧ new ≠ oldScale l then rescale (oldScale l) new l1
      else l1
    .ok (toFront isDuration (toFront isScale l2))
  | .err => .err
  | .bad => .bad
  | .hang => .hang

end Verif.Sections
