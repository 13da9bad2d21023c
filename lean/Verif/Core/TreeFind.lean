import Verif.Core.Str
/-!
Model of the searches in a tree of nodes, corec/corec/node/nodetree.c:86-151.

Simplifications: the tree is given as such, as the walk over `Children` and `Next` meets it (`Verif/Core/Node.lean` has the
pointers, C56 keeps them a tree); a node has its number, its class and the text stored under `NODE_ID` (`none`: no text, as
for the empty one, C115). `part` tells whether a class is a part of the class asked for (`Node_IsPartOf`, C192). All nodes
have the `FindChild` of nodetree.c:135-151, as every class of the sources does.
-/
namespace Verif.TreeFind
open Verif Verif.Core

/-- A node with all that is below it. -/
inductive Tree where
  | node (id cls : Nat) (name : Option Bytes) (kids : List Tree)

def Tree.id : Tree → Nat | .node i _ _ _ => i
def Tree.cls : Tree → Nat | .node _ c _ _ => c
def Tree.name : Tree → Option Bytes | .node _ _ n _ => n
def Tree.kids : Tree → List Tree | .node _ _ _ k => k

/-- The test of nodetree.c:92-95. -/
def hit (part : Nat → Bool) (name : Bytes) (t : Tree) : Bool :=
  part t.cls && (match t.name with | some s => isame s name | none => false)

/-- The first loop of `NodeTree_ChildByName`, nodetree.c:91-97. -/
def firstHit (part : Nat → Bool) (name : Bytes) : List Tree → Option Tree
  | [] => none
  | t :: r => if hit part name t then some t else firstHit part name r

mutual
/-- `NodeTree_ChildByName` with `Recursive`, nodetree.c:86-108, for a name that is not empty. -/
def byNameDeep (part : Nat → Bool) (name : Bytes) : Tree → Option Tree
  | .node _ _ _ kids =>
    match firstHit part name kids with
    | some t => some t
    | none => byNameKids part name kids
/-- The second loop, nodetree.c:102-104. -/
def byNameKids (part : Nat → Bool) (name : Bytes) : List Tree → Option Tree
  | [] => none
  | t :: r =>
    match byNameDeep part name t with
    | some x => some x
    | none => byNameKids part name r
end

/-- `NodeTree_ChildByName`, nodetree.c:86-108. -/
def childByName (part : Nat → Bool) (name : Bytes) (recursive : Bool) (t : Tree) : Option Tree :=
  if name = [] then none
  else if recursive then byNameDeep part name t
  else firstHit part name t.kids

mutual
/-- `NodeTree_ChildByClass`, nodetree.c:122-133. -/
def childByClass (part : Nat → Bool) : Tree → Option Tree
  | .node i c n kids => if part c then some (.node i c n kids) else byClassKids part kids
def byClassKids (part : Nat → Bool) : List Tree → Option Tree
  | [] => none
  | t :: r =>
    match childByClass part t with
    | some x => some x
    | none => byClassKids part r
end

mutual
/-- `FindChild`, nodetree.c:135-151. -/
def findChild (name : Bytes) : Tree → Option Tree
  | .node _ _ _ kids => findKids name kids
def findKids (name : Bytes) : List Tree → Option Tree
  | [] => none
  | .node i c (some s) k :: r => if isame name s then some (.node i c (some s) k) else findKids name r
  | .node i c none k :: r =>
    match findChild name (.node i c none k) with
    | some x => some x
    | none => findKids name r
end

/-- `NodeTree_CreateChild`, nodetree.c:110-120: where the new node `id` gets among the children, before the one of number
`before` or at the end (`AddChild`, nodetree.c:45-58, for a `Before` that is a child); a name that is not empty is stored. -/
def createChild (id cls : Nat) (name : Bytes) (before : Option Nat) : Tree → Tree
  | .node i c n kids =>
    let new : Tree := .node id cls (if name = [] then none else some name) []
    .node i c n (kids.takeWhile (fun k => some k.id ≠ before) ++ new :: kids.dropWhile (fun k => some k.id ≠ before))

end Verif.TreeFind
