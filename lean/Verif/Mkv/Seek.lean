import Verif.Ebml.Elt
import Verif.Mkv.Time
/-!
Model of the entries of a SeekHead (`/repo/libmatroska2/matroskamain.c:433-516`).

Simplifications: allocations succeed; the Segment is found as an ancestor of the entry and known by the
position of its data.
-/
namespace Verif.Mkv
open Verif.Ebml

/-- IDs of SeekID and SeekPosition, matroska_sem.c:930-940. -/
def idSeekID : Nat := 0x53AB
def idSeekPosition : Nat := 0x53AC

/-- `EBML_MasterFindFirstElt` with creation, ebmlmaster.c:50-64, and `f` on the element found. A new element is
appended, ebmlmaster.c:33-48. -/
def onFirst (id : Nat) (fresh : Elt) (f : Elt → Elt) : List Elt → List Elt
  | [] => [f fresh]
  | e :: es => if e.base.id = id then f e :: es else e :: onFirst id fresh f es

/-- `EBML_MasterFindChild`, ebmlmaster.c:127-131 with 50-64. -/
def findChild (id : Nat) : List Elt → Option Elt
  | [] => none
  | e :: es => if e.base.id = id then some e else findChild id es

/-- Elements as created by `EBML_ElementCreate`, ebmlelement.c:16-22. -/
def newSeekID : Elt := .leaf ⟨idSeekID, -1, 0, false, true, true⟩ none (.bin [])
def newSeekPosition : Elt := .leaf ⟨idSeekPosition, -1, 0, false, true, true⟩ none (.uint 0)

/-- `MATROSKA_MetaSeekUpdate`, matroskamain.c:486-516, on the children of an entry linked to an element of ID
`linkId` at `linkPos`, in a Segment whose data starts at `segData`. (An ID longer than 4 bytes does not
exist: `EBML_FillBufferID` returns 0 then.) -/
def metaSeekUpdate (segData : Int) (linkId : Nat) (linkPos : Int) (kids : List Elt) : List Elt :=
  onFirst idSeekPosition newSeekPosition (setNumber (.uint (BitVec.ofInt 64 (linkPos - segData))))
    (onFirst idSeekID newSeekID (setBinary ((fillBufferID 4 linkId).getD [])) kids)

/-- `MATROSKA_MetaSeekID`, matroskamain.c:440-453; `none` is a read behind the data. -/
def metaSeekID (kids : List Elt) : Option Nat :=
  match findChild idSeekID kids with
  | some (.leaf _ _ (.bin data)) => if data = [] then some 0 else bufferToID data
  | _ => some 0

/-- `MATROSKA_MetaSeekPosInSegment`, matroskamain.c:460-468; `none` is INVALID_FILEPOS_T of a missing element. -/
def metaSeekPosInSegment (kids : List Elt) : Option Int :=
  match findChild idSeekPosition kids with
  | some (.leaf _ _ (.uint v)) => some v.toInt
  | _ => none

/-- `MATROSKA_MetaSeekAbsolutePos`, matroskamain.c:470-484: a relative position of -1 is taken for a missing one. -/
def metaSeekAbsolutePos (segData : Int) (kids : List Elt) : Option Int :=
  match metaSeekPosInSegment kids with
  | none => none
  | some r => if r = -1 then none else some (s64 (r + segData))

end Verif.Mkv
