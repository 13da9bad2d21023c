import Verif.Ebml.Show
import Verif.Ebml.ParseSpec
/-! What a listing of a document must show: every element once, in the order of the file, with its position. -/
namespace Verif.Ebml.Scan
open EbmlDoc

mutual
/-- IDs and positions of the elements of a document at `s`, the checksum of a group in front of its children. -/
def places (s : Nat) : Doc → List (Nat × Int)
  | .elem id _ _ => [(id, (s : Int))]
  | .group id len _ crc ch =>
    (id, (s : Int)) :: ((if crc then [(0xBF, ((s + (idField id).length + len : Nat) : Int))] else []) ++
      placesList (s + (idField id).length + len + if crc then 6 else 0) ch)
/-- The same for documents one behind the other. -/
def placesList (s : Nat) : List Doc → List (Nat × Int)
  | [] => []
  | d :: ds => places s d ++ placesList (s + (encode d).length) ds
end

/-- What a line tells: ID and position. -/
def Shown.place (S : Schema) (l : Shown) : Nat × Int :=
  (match l.kind with | .known r => (S.ctx r).id | .dummy id => id, l.pos)

end Verif.Ebml.Scan
