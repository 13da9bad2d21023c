import Verif.Ebml.Elt
import Verif.Ebml.DocSpec
/-!
How an element tree of the library denotes an abstract document, and which trees are in a
coherent state (what creating, reading and setting elements establishes).
-/
namespace Verif.Ebml
open Verif.EbmlDoc

/-- The payload an element stands for. Integers take the fewest bytes, dates 8; a float takes 8
bytes if its size says so and 4 otherwise. -/
def leafPayload (env : Env) (b : Base) : Leaf → Bytes
  | .uint v => beBytes (naturalSizeInt v) v.toInt
  | .sint v => beBytes (naturalSizeSigned v) v.toInt
  | .date v => beBytes 8 v.toInt
  | .float v => if b.dataSize = 8 then beBytes 8 v.toNat else beBytes 4 (env.toF32 v).toNat
  | .str none => []
  | .str (some buf) => cstr buf
  | .bin data => data
  | .void => List.replicate b.dataSize.toNat 0

mutual
/-- The document an element denotes. With `d = false` children holding their default value are
left out. -/
def toDoc (env : Env) (d : Bool) : Elt → Doc
  | .leaf b _ v =>
    .elem b.id (codedSizeLength (leafPayload env b v).length b.sizeLength b.finite) (leafPayload env b v)
  | .master b crc ch =>
    let n := (payload (.group b.id 0 b.finite (crc != 0) (toDocList env d ch))).length
    .group b.id (codedSizeLength n b.sizeLength b.finite) b.finite (crc != 0) (toDocList env d ch)
def toDocList (env : Env) (d : Bool) : List Elt → List Doc
  | [] => []
  | e :: es => if !d && isDefault env e then toDocList env d es else toDoc env d e :: toDocList env d es
end

/-- Readable value: strings have a buffer, floats a size of at most 4 or 8, Voids a size. -/
def LeafReady (b : Base) : Leaf → Prop
  | .uint _ => True
  | .sint _ => True
  | .date _ => True
  | .float _ => b.dataSize ≤ 4 ∨ b.dataSize = 8
  | .str buf => buf.isSome
  | .bin _ => True
  | .void => 0 ≤ b.dataSize

/-- The stored size is that of the value. -/
def LeafSettled (b : Base) : Leaf → Prop
  | .uint v => b.dataSize = naturalSizeInt v
  | .sint v => b.dataSize = naturalSizeSigned v
  | .date _ => b.dataSize = 8
  | .float _ => b.dataSize = 4 ∨ b.dataSize = 8
  | .str none => False
  | .str (some buf) => b.dataSize = (cstr buf).length
  | .bin data => b.dataSize = data.length
  | .void => True

mutual
/-- Coherent state: an element to be saved has a value, a 32-bit ID and a size-field length of at
most 8, and a size that is not flagged for update is right. -/
def Coherent (env : Env) (d : Bool) : Elt → Prop
  | .leaf b _ v => b.valueSet = true ∧ b.id < 2 ^ 32 ∧ b.sizeLength ≤ 8 ∧ b.finite = true ∧ LeafReady b v ∧
      (b.needUpdate = false → LeafSettled b v)
  | .master b crc ch => b.valueSet = true ∧ b.id < 2 ^ 32 ∧ b.sizeLength ≤ 8 ∧ CoherentList env d ch ∧
      (needs env d (.master b crc ch) = false →
        b.dataSize = (payload (.group b.id 0 b.finite (crc != 0) (toDocList env d ch))).length)
def CoherentList (env : Env) (d : Bool) : List Elt → Prop
  | [] => True
  | e :: es => ((!d && isDefault env e) = false → Coherent env d e) ∧ CoherentList env d es
end

end Verif.Ebml
