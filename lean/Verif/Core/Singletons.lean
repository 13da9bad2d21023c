import Verif.Core.Sort
/-!
Singletons: `NodeCreateFromClass`, `NodeSingleton`, `AddSingleton` and the release of the singletons of a module by
`UnRegisterModule`, corec/corec/node/node.c:209-226, 374-389, 854-857, 1236-1291, 1485-1499, with `Node_AddRef` and
`Node_Release`, node.c:1411-1434.

A node is a number; memory gives numbers never used before. The functions of the classes are parameters that say whether
creation works; they do not create or release nodes themselves. What the program holds is counted on the side (`held`): the
references it got from creating nodes and did not give back. Not here: singletons with memory of their own, abstract classes,
the locks of modules.
-/
namespace Verif.Singletons

/-- A singleton in the array: the ID of its class, the module of its class, the node. -/
structure Ent where
  id : Nat
  mod : Nat
  ptr : Nat
deriving DecidableEq, Repr

/-- `CmpNodeClass`, node.c:218-226: by the ID of the class. -/
def cmpId (a b : Ent) : Int := if a.id > b.id then 1 else if a.id < b.id then -1 else 0

/-- `CmpNode`, node.c:209-216, with `CmpClass`, node.c:160-171: by the ID of the class, then by its module. -/
def cmpEnt (a b : Ent) : Int :=
  if a.id > b.id then 1
  else if a.id < b.id then -1
  else if a.mod ≠ b.mod then (if a.mod > b.mod then 1 else -1)
  else 0

/-- The array of singletons, the counters of references, the nodes in memory, the next number; `held`: see above. -/
structure St where
  singles : List Ent
  refs : Nat → Nat
  alive : List Nat
  next : Nat
  held : Nat → Nat

def upd (f : Nat → Nat) (p v : Nat) : Nat → Nat := fun q => if q = p then v else f q

/-- `NodeSingleton`, node.c:1485-1499. `none`: outside of the array. -/
def lookup (id : Nat) (st : St) : Option (Option Ent) :=
  match Core.findEx (fun y => cmpId y ⟨id, 0, 0⟩) st.singles with
  | none => none
  | some (false, _) => some none
  | some (true, pos) => (st.singles[pos.toNat]?).map some

/-- `Node_Release`, node.c:1418-1434. `none`: the node is not in memory. -/
def release (st : St) (p : Nat) : Option St :=
  if p ∈ st.alive then
    some { st with refs := upd st.refs p (st.refs p - 1), alive := if st.refs p = 1 then st.alive.erase p else st.alive }
  else none

/-- `NodeCreateFromClass`, node.c:1236-1291: the state and the node. `sing`: the flag of the class; `singleton`: the argument;
`lock`, `mem`, `ins`, `ok`: whether the modules can be locked, there is memory for the node and for its place in the array, and
the functions of the class agree. -/
def create (sing : Bool) (id mod : Nat) (singleton lock mem ins ok : Bool) (st : St) : Option (St × Option Nat) :=
  match (if sing then lookup id st else some none) with
  | none => none
  | some (some e) =>
    if singleton then some (st, some e.ptr)
    else some ({ st with refs := upd st.refs e.ptr (st.refs e.ptr + 1), held := upd st.held e.ptr (st.held e.ptr + 1) }, some e.ptr)
  | some none =>
    if lock && mem then
      let p := st.next
      let st := { st with refs := upd st.refs p 1, alive := p :: st.alive, next := p + 1 }
      if singleton then
        match Core.addEx cmpEnt ins st.singles ⟨id, mod, p⟩ with
        | none => none
        | some (pos, l) =>
          if pos < 0 then some (st, none)
          else if ok then some ({ st with singles := l }, some p)
          else some ({ st with singles := l.eraseP (fun e => e.ptr == p), refs := upd st.refs p 0, alive := st.alive.erase p }, none)
      else if ok then some ({ st with held := upd st.held p 1 }, some p)
      else some ({ st with refs := upd st.refs p 0, alive := st.alive.erase p }, none)
    else some (st, none)

/-- The first singleton of a module, and the array without it: node.c:380-385 up to the `ArrayDelete`. -/
def takeFirst (M : Nat) : List Ent → Option (Ent × List Ent)
  | [] => none
  | e :: r => if e.mod = M then some (e, r) else (takeFirst M r).map fun x => (x.1, e :: x.2)

/-- The loop over the singletons in `UnRegisterModule`, node.c:380-389; after each it starts again (node.c:387). -/
def unregSingles (M : Nat) : Nat → St → Option St
  | 0, _ => none
  | fuel + 1, st =>
    match takeFirst M st.singles with
    | none => some st
    | some (e, l) => (release { st with singles := l } e.ptr).bind (unregSingles M fuel)

inductive Op where
  /-- A node is created, by the program or for a singleton. -/
  | create (sing : Bool) (id mod : Nat) (singleton lock mem ins ok : Bool)
  /-- The program gives back a reference, if it has one. -/
  | drop (p : Nat)
  /-- A module is unregistered. -/
  | unregister (M : Nat)

def step (st : St) : Op → Option St
  | .create sing id mod singleton lock mem ins ok => (create sing id mod singleton lock mem ins ok st).map (·.1)
  | .drop p => if st.held p = 0 then some st else release { st with held := upd st.held p (st.held p - 1) } p
  | .unregister M => unregSingles M (st.singles.length + 1) st

def run : List Op → St → Option St
  | [], st => some st
  | o :: r, st => (step st o).bind (run r)

def start : St := ⟨[], fun _ => 0, [], 1, fun _ => 0⟩

end Verif.Singletons
