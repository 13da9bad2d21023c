import Verif.Ebml.Parse
import Verif.Ebml.EltSpec
import Verif.Props.Scan
/-!
What loading a document must deliver, stated on abstract documents: `LoadsTo S env k r d n` says
that document `d`, an element of context `r`, is conformant and that `n` is the element a reader
has to produce from it when checksums are verified down to depth `k`.
-/
namespace Verif.Ebml.Scan
open EbmlDoc

/-- A well-formed ID and a size field that holds the size. -/
def HeadOk (id len size : Nat) : Prop :=
  1 ≤ len ∧ len ≤ 8 ∧ size < 2 ^ (7 * len) - 1 ∧ ∃ n, WellFormedId id n

/-- The node a payload is loaded into, by class. -/
def FlatNode (S : Schema) (env : Env) (r id len : Nat) (p : Bytes) (n : Node) : Prop :=
  match (S.ctx r).cls with
  | .void => n = .leaf ⟨id, p.length, len, false, true, true⟩ .void
  | .crc => n = .crc ⟨id, p.length, len, true, false, true⟩ (BitVec.ofNat 32 (leNat p))
  | .dummy => False
  | .master => False
  | .date => ∃ v, readLeaf env p .date = some v ∧ n = .leaf ⟨id, p.length, len, true, false, true⟩ v
  | c => ∃ v, readLeaf env p c = some v ∧ n = .leaf ⟨id, p.length, len, true, true, true⟩ v

/-- Is the node a checksum. -/
def Node.isCrc : Node → Bool
  | .crc _ _ => true
  | _ => false

/-- ID of a document. -/
def docId : Doc → Nat
  | .elem id _ _ => id
  | .group id _ _ _ _ => id

/-- The node of the CRC-32 element in front of the given data. -/
def crcNode (data : Bytes) : Node := .crc ⟨0xBF, 4, 1, true, false, true⟩ (Crc32.crc32 data)

mutual
/-- The node document `d`, of context `r`, is loaded into. All sizes are known; a group with a
checksum loads with status 2 (verified) if `k` says to check and it has children, and keeps the
CRC-32 element as its first child if `k = 0`. -/
def LoadsTo (S : Schema) (env : Env) (k r : Nat) : Doc → Node → Prop
  | .elem id len p, n =>
    (S.ctx r).id = id ∧ HeadOk id len p.length ∧ validateSize true p.length (S.ctx r).cls = true ∧ FlatNode S env r id len p n
  | .group id len fin crc ch, n =>
    (S.ctx r).id = id ∧ fin = true ∧ HeadOk id len (payload (.group id len fin crc ch)).length ∧ (S.ctx r).cls = .master ∧
    ∃ ns, LoadsToList S env (k - 1) r ch ns ∧
      if crc then
        (∃ rc, Offers S r 0xBF rc ∧ (S.ctx rc).cls = .crc) ∧
        if k = 0 then
          n = .master ⟨id, (payload (.group id len fin crc ch)).length, len, true, true, true⟩ 0 (crcNode (encodeList ch) :: ns)
        else ch ≠ [] ∧ n = .master ⟨id, (payload (.group id len fin crc ch)).length, len, true, true, true⟩ 2 ns
      else (k = 0 ∨ ∀ x ∈ ns, x.isCrc = false) ∧
        n = .master ⟨id, (payload (.group id len fin crc ch)).length, len, true, true, true⟩ 0 ns
/-- The nodes the children of context `c` are loaded into, each of the context the schema offers. -/
def LoadsToList (S : Schema) (env : Env) (k c : Nat) : List Doc → List Node → Prop
  | [], ns => ns = []
  | d :: ds, ns => ∃ r n ns', Offers S c (docId d) r ∧ LoadsTo S env k r d n ∧ LoadsToList S env k c ds ns' ∧ ns = n :: ns'
end

/-! The writer's side: which element trees survive, and as what. -/

/-- Class of a value. -/
def leafCls : Leaf → Cls
  | .uint _ => .uint
  | .sint _ => .sint
  | .date _ => .date
  | .float _ => .float
  | .str _ => .str
  | .bin _ => .bin
  | .void => .void

/-- The value a reader has to see: the same, a string up to its terminator. -/
def loadedLeaf : Leaf → Leaf
  | .str buf => .str (buf.map cstr)
  | v => v

/-- Values that the payload format keeps (C12: where `char` is signed, a signed integer must have
no byte above 0x7F after the first; C14: a float stored in four bytes must be a `float`). -/
def LeafSurvives (env : Env) (b : Base) : Leaf → Prop
  | .sint v => env.charSigned = true → ∀ x ∈ (leafPayload env b (.sint v)).tail, x.toNat < 128
  | .float v => b.dataSize = 8 ∨ env.toF64 (env.toF32 v) = v
  | _ => True

mutual
/-- The tree conforms to the schema, as an element of context `r`: each class is that of its
context, the schema offers each child's context in its parent, the IDs are well-formed, payloads
are below 32 GiB, masters with a checksum have something to save, and leaves survive. -/
def Fits (S : Schema) (env : Env) (d : Bool) (r : Nat) : Elt → Prop
  | .leaf b _ v => (S.ctx r).id = b.id ∧ (∃ n, WellFormedId b.id n) ∧ (S.ctx r).cls = leafCls v ∧
      (leafPayload env b v).length < 2 ^ 35 - 1 ∧ LeafSurvives env b v
  | .master b crc ch => (S.ctx r).id = b.id ∧ (∃ n, WellFormedId b.id n) ∧ (S.ctx r).cls = .master ∧ b.finite = true ∧
      (payload (.group b.id 0 true (crc != 0) (toDocList env d ch))).length < 2 ^ 35 - 1 ∧
      (crc ≠ 0 → (∃ c ∈ ch, (!d && isDefault env c) = false) ∧ ∃ rc, Offers S r 0xBF rc ∧ (S.ctx rc).cls = .crc) ∧
      FitsList S env d r ch
def FitsList (S : Schema) (env : Env) (d : Bool) (c : Nat) : List Elt → Prop
  | [] => True
  | e :: es => ((!d && isDefault env e) = false → ∃ r, Offers S c e.base.id r ∧ Fits S env d r e) ∧ FitsList S env d c es
end

mutual
/-- What a tree has to be loaded as: the same values, children and order (children that are not
saved because they hold their default are absent), the checksum verified if `k > 0` and kept as a
first child if `k = 0`. -/
def loaded (env : Env) (d : Bool) (k : Nat) : Elt → Node
  | .leaf b _ v => .leaf ⟨b.id, (leafPayload env b v).length, codedSizeLength (leafPayload env b v).length b.sizeLength b.finite,
      v != .void, leafCls v != .date, true⟩ (loadedLeaf v)
  | .master b crc ch =>
    let n := (payload (.group b.id 0 b.finite (crc != 0) (toDocList env d ch))).length
    let b' : Base := ⟨b.id, n, codedSizeLength n b.sizeLength b.finite, true, true, true⟩
    if crc = 0 then .master b' 0 (loadedList env d (k - 1) ch)
    else if k = 0 then .master b' 0 (crcNode (encodeList (toDocList env d ch)) :: loadedList env d (k - 1) ch)
    else .master b' 2 (loadedList env d (k - 1) ch)
def loadedList (env : Env) (d : Bool) (k : Nat) : List Elt → List Node
  | [] => []
  | e :: es => if !d && isDefault env e then loadedList env d k es else loaded env d k e :: loadedList env d k es
end

end Verif.Ebml.Scan
