import Verif.Ebml.ParseSpec
/-!
What loading a truncated document must deliver, from what the whole document is loaded into: every
element that is completely there, and of the one that is cut, its head and what is complete inside it if
it is a group, nothing if it is a value.
-/
namespace Verif.Ebml.Scan
open EbmlDoc

/-- Whether the element is a Void. -/
def isVoid : Node → Bool
  | .leaf _ .void => true
  | _ => false

/-- The children of a group. -/
def kidsOf : Node → List Node
  | .master _ _ kids => kids
  | _ => []

/-- The group with other children. -/
def withKids : Node → List Node → Node
  | .master b st _, kids => .master b st kids
  | n, _ => n

mutual
/-- What is left of element `d`, loaded into `n` when complete, when its first `avail` bytes are there. A
Void has no value to miss; a checksum comes before the other children and takes 6 bytes. -/
def cutNode : Doc → Node → Nat → List Node
  | .elem id len p, n, avail =>
    if (idField id).length + len + p.length ≤ avail then [n]
    else if avail < (idField id).length + len then []
    else if isVoid n then [n] else []
  | .group id len fin crc ch, n, avail =>
    if (encode (.group id len fin crc ch)).length ≤ avail then [n]
    else if avail < (idField id).length + len then []
    else if crc then
      if 6 ≤ avail - ((idField id).length + len) then
        [withKids n ((kidsOf n).take 1 ++
          cutNodes ch ((kidsOf n).drop 1) (avail - ((idField id).length + len) - 6))]
      else [withKids n []]
    else [withKids n (cutNodes ch (kidsOf n) (avail - ((idField id).length + len)))]
/-- The same for a sequence of elements. -/
def cutNodes : List Doc → List Node → Nat → List Node
  | [], _, _ => []
  | _ :: _, [], _ => []
  | d :: ds, n :: ns, avail =>
    if (encode d).length ≤ avail then n :: cutNodes ds ns (avail - (encode d).length) else cutNode d n avail
end

end Verif.Ebml.Scan
