/-!
Model of the life of a node in corec/corec/node/node.c: `NodeCreate` locks the modules of its class and of all classes that one
derives from and calls their functions for creation, `Node_Release` of the last reference calls those for deletion and unlocks the
modules, `NodeContext_Cleanup` gives up modules that are not in use.

Not modelled: singletons, constants written to the node (`MetaConst`), functions for the release of one attribute, attributes of type `TYPE_NODE_REF` (Core/Refs.lean), dynamic data,
listeners, the loading of a module on its first use (a class counts as initialised or not after that), changes of the classes
while nodes exist.
-/
namespace Verif.Core.NodeLife

/-- An entry of the definition of a class. -/
inductive Item where
  /-- `META_CLASS_CREATE`: a function for creation. -/
  | create (f : Nat)
  /-- `META_CLASS_DELETE`: a function for deletion. -/
  | delete (f : Nat)
  /-- An attribute of type `TYPE_ARRAY`. -/
  | array (i : Nat)
deriving DecidableEq

/-- A class: the module it is from, `State>=CLASS_INITED`, `META_CLASS_SIZE` (0 without one) and its definition. -/
structure Cls where
  id : Nat
  module : Nat
  inited : Bool
  size : Nat
  items : List Item
deriving DecidableEq

/-- What is done to a node, and for which class. -/
inductive Ev where
  | create (cls f : Nat)
  | delete (cls f : Nat)
  | init (cls i : Nat)
  | clear (cls i : Nat)
deriving DecidableEq

/-- `CallDelete`, node.c:632-722: from the class of the node (the head) to the one at the root. -/
def callDelete : List Cls → List Ev
  | [] => []
  | c :: r => c.items.filterMap (fun
      | .delete f => some (.delete c.id f)
      | .array i => some (.clear c.id i)
      | .create _ => none) ++ callDelete r

/-- The loop over the definition of one class in `CallCreate`, node.c:792-810, up to a function that fails. -/
def createItems (ok : Nat → Nat → Bool) (c : Nat) : List Item → List Ev × Bool
  | [] => ([], true)
  | .create f :: r => if ok c f then let x := createItems ok c r; (.create c f :: x.1, x.2) else ([.create c f], false)
  | .array i :: r => let x := createItems ok c r; (.init c i :: x.1, x.2)
  | .delete _ :: r => createItems ok c r

/-- `CallCreate`, node.c:780-813. -/
def callCreate (ok : Nat → Nat → Bool) : List Cls → List Ev × Bool
  | [] => ([], true)
  | c :: r =>
    let x := callCreate ok r
    if !x.2 then (x.1, false)
    else
      let y := createItems ok c.id c.items
      if y.2 then (x.1 ++ y.1, true) else (x.1 ++ y.1 ++ callDelete r, false)

/-- `Base.RefCount` of the modules. -/
abbrev Mods := Nat → Int

def bump (m : Mods) (k : Nat) (d : Int) : Mods := fun x => if x = k then m x + d else m x

/-- `UnlockModules`, node.c:425-433. -/
def unlock (m : Mods) : List Cls → Mods
  | [] => m
  | c :: r => unlock (bump m c.module (-1)) r

/-- `LockModules`, node.c:724-761, for a class whose parents are all registered. -/
def lock (m : Mods) : List Cls → Mods × Bool
  | [] => (m, true)
  | c :: r =>
    let x := lock m r
    if !x.2 then (x.1, false)
    else
      let m' := bump x.1 c.module 1
      if c.inited then (m', true) else (unlock m' (c :: r), false)

/-- `NodeSize`, node.c:815-833. -/
def nodeSize : List Cls → Nat
  | [] => 0
  | c :: r => if c.size ≠ 0 then c.size else nodeSize r

/-- The nodes that exist, with their class and those it derives from; the counts of the modules; what has been done to each node. -/
structure State where
  nodes : List (Nat × List Cls)
  mods : Mods
  log : List (Nat × Ev)

/-- `NodeCreateFromClass`, node.c:1236-1291, for a class that is neither abstract nor a singleton. `mem`: there is memory. -/
def create (s : State) (a : Nat) (cs : List Cls) (ok : Nat → Nat → Bool) (mem : Bool) : State × Bool :=
  let l := lock s.mods cs
  if !l.2 then ({ s with mods := l.1 }, false)
  else if nodeSize cs = 0 then ({ s with mods := unlock l.1 cs }, false)
  else if !mem then ({ s with mods := l.1 }, false)
  else
    let x := callCreate ok cs
    let log := s.log ++ x.1.map fun e => (a, e)
    if x.2 then (⟨(a, cs) :: s.nodes, l.1, log⟩, true)
    else (⟨s.nodes, unlock l.1 cs, log⟩, false)

/-- `Node_Release` of the last reference, node.c:1425-1433, 1397-1409. -/
def delete (s : State) (a : Nat) : State :=
  match s.nodes.lookup a with
  | none => s
  | some cs => ⟨s.nodes.eraseP fun x => x.1 == a, unlock s.mods cs, s.log ++ (callDelete cs).map fun e => (a, e)⟩

/-- `NodeContext_Cleanup` without `Force`, node.c:403-423: the modules given up. `loaded`: `Module` is set; `config`: `Config` is. -/
def cleanup (m : Mods) (loaded config : Nat → Bool) (modules : List Nat) : List Nat :=
  modules.filter fun k => loaded k && (!config k && m k == 1)

end Verif.Core.NodeLife
