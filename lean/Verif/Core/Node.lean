import Verif.Base.Bytes
/-!
Model of the tree of nodes, corec/corec/node/nodetree.c, on a heap of nodes with pointers.

A pointer is a number, 0 is NULL. `none` as the result of an operation stands for undefined
behaviour: dereferencing NULL or a node that was freed, or a loop over a list that does not end
(the loops get as many rounds as there ever were nodes, plus one). Nodes are EBML elements: the
masters override `AddChild` and `RemoveChild` (libebml2/ebmlmaster.c:586-596) to note that their
size has to be computed again (`dirty`).
-/
namespace Verif.NodeTree
open Verif

/-- `nodetree`, nodetree.h:30-36, with the reference count of its `node` and `bNeedDataSizeUpdate`
of its `ebml_element`. -/
structure TNode where
  parent : Nat
  next : Nat
  kids : Nat
  refs : Nat
  dirty : Bool
deriving DecidableEq, Repr

/-- The nodes allocated and not freed; all of them are at most `top`. -/
structure Heap where
  top : Nat
  at_ : Nat → Option TNode

namespace Heap

def set (h : Heap) (p : Nat) (n : TNode) : Heap := { h with at_ := fun q => if q = p then some n else h.at_ q }
def free (h : Heap) (p : Nat) : Heap := { h with at_ := fun q => if q = p then none else h.at_ q }
/-- An allocated node has been given out and not freed. -/
def live (h : Heap) (p : Nat) : Prop := (h.at_ p).isSome = true

instance (h : Heap) (p : Nat) : Decidable (h.live p) := by unfold live; infer_instance

/-- The `Parent` of a node. -/
def par (h : Heap) (p : Nat) : Option Nat := (h.at_ p).map (·.parent)

end Heap

/-- The places the loops of nodetree.c point to with `nodetree** i`: `&p->Children`, `&c->Next`. -/
inductive Cell where
  | kids (p : Nat)
  | next (c : Nat)
deriving DecidableEq, Repr

/-- `*i`. -/
def Heap.get (h : Heap) : Cell → Option Nat
  | .kids p => (h.at_ p).map (·.kids)
  | .next c => (h.at_ c).map (·.next)

/-- `*i = v`. -/
def Heap.put (h : Heap) (v : Nat) : Cell → Option Heap
  | .kids p => (h.at_ p).map fun n => h.set p { n with kids := v }
  | .next c => (h.at_ c).map fun n => h.set c { n with next := v }

/-- `for (...;*i;i=&(*i)->Next) if (*i == stop) break;`, nodetree.c:49-51 and 64-69. -/
def findCell (stop : Nat) : Nat → Heap → Cell → Option (Cell × Nat)
  | 0, _, _ => none
  | fuel + 1, h, i =>
    match h.get i with
    | none => none
    | some v => if v = 0 ∨ v = stop then some (i, v) else findCell stop fuel h (.next v)

/-- `p->Base.bNeedDataSizeUpdate = 1`, ebmlmaster.c:588, 594. -/
def markDirty (h : Heap) (p : Nat) : Option Heap := (h.at_ p).map fun n => h.set p { n with dirty := true }

/-- `Child->Parent = p; Child->Next = Before`, nodetree.c:53-54. -/
def link (h : Heap) (c p b : Nat) : Option Heap := (h.at_ c).map fun n => h.set c { n with parent := p, next := b }

/-- `AddChild`, nodetree.c:45-58. -/
def addChildPlain (h : Heap) (p c b : Nat) : Option Heap :=
  match findCell b (h.top + 1) h (.kids p) with
  | none => none
  | some (i, _) =>
    match link h c p b with
    | none => none
    | some h1 => h1.put c i

/-- `*i=Child->Next`, nodetree.c:67, if the child was found. -/
def unlink (h : Heap) (c : Nat) (i : Cell) (v : Nat) : Option Heap :=
  if v = c ∧ c ≠ 0 then
    match h.get (.next c) with
    | none => none
    | some x => h.put x i
  else some h

/-- `RemoveChild`, nodetree.c:60-73. -/
def removeChildPlain (h : Heap) (p c : Nat) : Option Heap :=
  match findCell c (h.top + 1) h (.kids p) with
  | none => none
  | some (i, v) =>
    match unlink h c i v with
    | none => none
    | some h1 => link h1 c 0 0

/-- `AddChild` of a master, ebmlmaster.c:592-596. -/
def addChild (h : Heap) (p c b : Nat) : Option Heap :=
  match markDirty h p with
  | none => none
  | some h1 => addChildPlain h1 p c b

/-- `RemoveChild` of a master, ebmlmaster.c:586-590. -/
def removeChild (h : Heap) (p c : Nat) : Option Heap :=
  match markDirty h p with
  | none => none
  | some h1 => removeChildPlain h1 p c

/-- `if (p->Parent) RemoveChild(p->Parent,p)`, nodetree.c:19-20. -/
def detachFrom (h : Heap) (q p : Nat) : Option Heap := if q ≠ 0 then removeChild h q p else some h

/-- `if (Parent) AddChild(Parent,p,Before)`, nodetree.c:22-23. -/
def attachTo (h : Heap) (q p b : Nat) : Option Heap := if q ≠ 0 then addChild h q p b else some h

/-- `SetParent`, nodetree.c:11-27, without its assertion. -/
def setParent (h : Heap) (p q b : Nat) : Option Heap :=
  match h.at_ p with
  | none => none
  | some n =>
    if p ≠ b ∧ (n.parent ≠ q ∨ n.next ≠ b) then
      match detachFrom h n.parent p with
      | none => none
      | some h1 => attachTo h1 q p b
    else some h

/-- `NodeTree_MoveBefore`, nodetree.c:75-84. It calls the functions of this file, not those of
masters. -/
def moveBefore (h : Heap) (p b : Nat) : Option Heap :=
  if p ≠ b then
    match h.par p with
    | none => none
    | some q =>
      match removeChildPlain h q p with
      | none => none
      | some h1 => addChildPlain h1 q p b
  else some h

/-- `NodeTree_Clear`, nodetree.c:37-43, and below it `NodeTree_DetachAndRelease`, nodetree.c:29-35,
and `Node_Release`, node.c:1418-1435, of the children: `CallDelete` calls `NodeTree_Clear`, `EraseNode`
frees the memory. The count of references is unsigned. `fuel` bounds the depth and the rounds. -/
def clear : Nat → Heap → Nat → Option Heap
  | 0, _, _ => none
  | fuel + 1, h, p =>
    match h.get (.kids p) with
    | none => none
    | some c =>
      if c ≠ 0 then
        match setParent h c 0 0 with
        | none => none
        | some h1 =>
          match h1.at_ c with
          | none => none
          | some n =>
            if n.refs = 1 then
              match clear fuel (h1.set c { n with refs := 0 }) c with
              | none => none
              | some h2 => clear fuel (h2.free c) p
            else clear fuel (h1.set c { n with refs := (n.refs + (2 ^ 64 - 1)) % 2 ^ 64 }) p
      else setParent h p 0 0

/-- `Node_Release`, node.c:1418-1435, of a node. -/
def release (fuel : Nat) (h : Heap) (p : Nat) : Option Heap :=
  match h.at_ p with
  | none => none
  | some n =>
    if n.refs = 1 then
      match clear fuel (h.set p { n with refs := 0 }) p with
      | none => none
      | some h2 => some (h2.free p)
    else some (h.set p { n with refs := (n.refs + (2 ^ 64 - 1)) % 2 ^ 64 })

/-- `Node_AddRef`, node.c:1411-1416. -/
def addRef (h : Heap) (p : Nat) : Option Heap :=
  (h.at_ p).map fun n => h.set p { n with refs := (n.refs + 1) % 2 ^ 64 }

/-- `Node_Constructor`, node.c:859-866: a node by itself. The allocator may hand out the memory of a
freed node again; here addresses are not used twice. -/
def create (h : Heap) : Heap := { (h.set (h.top + 1) ⟨0, 0, 0, 1, false⟩) with top := h.top + 1 }

/-- `for (i=NodeTree_Children(p);i;i=NodeTree_Next(i))`, the way all users go through the children
(nodetree.h:41-47): the nodes visited. -/
def walk : Nat → Heap → Cell → Option (List Nat)
  | 0, _, _ => none
  | fuel + 1, h, i =>
    match h.get i with
    | none => none
    | some v => if v = 0 then some [] else (walk fuel h (.next v)).map (v :: ·)

/-- The children of a node in order. -/
def childrenOf (h : Heap) (p : Nat) : Option (List Nat) := walk (h.top + 1) h (.kids p)

/-- No nodes. -/
def Heap.empty : Heap := ⟨0, fun _ => none⟩

end Verif.NodeTree
