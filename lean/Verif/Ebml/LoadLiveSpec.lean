import Verif.Ebml.ParseSpec
/-!
What loading a document still being written must deliver: masters of unknown size that reach to the
end of the stream, each the last element of its parent, with elements of known size before.
-/
namespace Verif.Ebml.Scan
open EbmlDoc

mutual
/-- The node document `d` of context `r`, of unknown size and reaching to the end of the stream, is
loaded into. A checksum in front of its children cannot be verified (the data has no end) and is kept
as a child. -/
def LoadsOpen (S : Schema) (env : Env) (k r : Nat) : Doc → Node → Prop
  | .elem _ _ _, _ => False
  | .group id len fin crc ch, n =>
    (S.ctx r).id = id ∧ fin = false ∧ 1 ≤ len ∧ len ≤ 8 ∧ (∃ m, WellFormedId id m) ∧ (S.ctx r).cls = .master ∧
    (crc = true → ∃ rc, Offers S r 0xBF rc ∧ (S.ctx rc).cls = .crc) ∧
    ∃ ns, LoadsOpenList S env (k - 1) r ch ns ∧
      n = .master ⟨id, -1, len, true, true, false⟩ 0 ((if crc then [crcNode (encodeList ch)] else []) ++ ns)
/-- The same for its children: known sizes, but for the last one. -/
def LoadsOpenList (S : Schema) (env : Env) (k c : Nat) : List Doc → List Node → Prop
  | [], ns => ns = []
  | d :: ds, ns => ∃ r n ns', Offers S c (docId d) r ∧ (LoadsTo S env k r d n ∨ ds = [] ∧ LoadsOpen S env k r d n) ∧
      LoadsOpenList S env k c ds ns' ∧ ns = n :: ns'
end

/-! The writer's side. -/

mutual
/-- The tree conforms to the schema, and what it has of masters of unknown size is written last. -/
def FitsOpen (S : Schema) (env : Env) (d : Bool) (r : Nat) : Elt → Prop
  | .leaf _ _ _ => False
  | .master b crc ch => (S.ctx r).id = b.id ∧ (∃ n, WellFormedId b.id n) ∧ (S.ctx r).cls = .master ∧ b.finite = false ∧
      (crc ≠ 0 → ∃ rc, Offers S r 0xBF rc ∧ (S.ctx rc).cls = .crc) ∧ FitsOpenList S env d r ch
def FitsOpenList (S : Schema) (env : Env) (d : Bool) (c : Nat) : List Elt → Prop
  | [] => True
  | e :: es => ((!d && isDefault env e) = false → ∃ r, Offers S c e.base.id r ∧
      (Fits S env d r e ∨ (∀ e' ∈ es, (!d && isDefault env e') = true) ∧ FitsOpen S env d r e)) ∧ FitsOpenList S env d c es
end

mutual
/-- What such a tree has to be loaded as. -/
def loadedOpen (env : Env) (d : Bool) (k : Nat) : Elt → Node
  | .leaf b dflt v => loaded env d k (.leaf b dflt v)
  | .master b crc ch =>
    if b.finite then loaded env d k (.master b crc ch)
    else .master ⟨b.id, -1, if 1 < b.sizeLength then b.sizeLength else 1, true, true, false⟩ 0
      ((if crc = 0 then [] else [crcNode (encodeList (toDocList env d ch))]) ++ loadedOpenList env d (k - 1) ch)
def loadedOpenList (env : Env) (d : Bool) (k : Nat) : List Elt → List Node
  | [] => []
  | e :: es => if !d && isDefault env e then loadedOpenList env d k es else loadedOpen env d k e :: loadedOpenList env d k es
end

end Verif.Ebml.Scan
