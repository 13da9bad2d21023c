/-!
Who owns the lookup tables of classes: `BuildMetaLookup`, `ReleaseMetaLookup`, `UnInitClass` and `UnRegisterModule`,
corec/corec/node/node.c:374-401, 907-958, 1070-1136, with the part of `InitClass` (node.c:1138-1224) that calls them.

A class is a number below `n`, its place in the array of classes. The tables are addresses; what is in them is modelled in
`Verif/Core/Classes.lean`. Every class has three: for reading, for writing and for unsetting. Freeing what is not allocated
and reading through a null pointer is `none`. Not here: singletons (also a class that fails
because its singleton cannot be made), the functions of the classes and their virtual tables.
-/
namespace Verif.ClassTables

/-- What does not change: the number of classes, the parents, the module of each class and whether it is a part of
`NODEMODULE_CLASS`. -/
structure Sys where
  n : Nat
  par : Nat → Option Nat
  mod : Nat → Nat
  isMod : Nat → Bool

/-- `Meta` not null, `State>=CLASS_INITED`, the tables and what is allocated. -/
structure St where
  known : Nat → Bool
  inited : Nat → Bool
  tab : Nat → Fin 3 → Option Nat
  heap : List Nat

def setTab (st : St) (c : Nat) (k : Fin 3) (v : Option Nat) : St :=
  { st with tab := fun d j => if d = c ∧ j = k then v else st.tab d j }

/-- The table of the parent. -/
def parentTab (S : Sys) (st : St) (c : Nat) (k : Fin 3) : Option (Option Nat) := (S.par c).map fun p => st.tab p k

/-- `ReleaseMetaLookup`, node.c:907-936, for one table: one shared with the parent is forgotten, another is freed. (The code
forgets all three before it frees.) -/
def release1 (S : Sys) (c : Nat) (k : Fin 3) (st : St) : Option St :=
  if parentTab S st c k = some (st.tab c k) then some (setTab st c k none)
  else
    match st.tab c k with
    | none => some st
    | some id => if id ∈ st.heap then some { setTab st c k none with heap := st.heap.erase id } else none

/-- `ReleaseMetaLookup`, node.c:907-936. -/
def releaseTabs (S : Sys) (c : Nat) (st : St) : Option St :=
  (release1 S c 0 st).bind fun st => (release1 S c 1 st).bind fun st => release1 S c 2 st

def setInited (st : St) (c : Nat) (b : Bool) : St := { st with inited := fun d => if d = c then b else st.inited d }
def setKnown (st : St) (c : Nat) (b : Bool) : St := { st with known := fun d => if d = c then b else st.known d }

/-- The loop over the child classes, node.c:947-949. -/
def kidsLoop (S : Sys) (f : Nat → St → Option St) (c : Nat) : List Nat → St → Option St
  | [], st => some st
  | i :: r, st =>
    if st.inited i = true ∧ S.par i = some c then (f i st).bind (kidsLoop S f c r) else kidsLoop S f c r st

/-- `UnInitClass`, node.c:938-958, with a step budget for the recursion. -/
def unInit (S : Sys) (incl : Bool) : Nat → Nat → St → Option St
  | 0, _, _ => none
  | fuel + 1, c, st =>
    if incl = false ∧ S.isMod c = true then some st
    else
      (kidsLoop S (unInit S incl fuel) c (List.range S.n) st).bind fun st =>
        if st.known c = true then (releaseTabs S c st).map fun st => setInited st c false else none

/-- The loop over the classes of `UnRegisterModule`, node.c:394-400. -/
def unregLoop (S : Sys) (incl : Bool) (M : Nat) : List Nat → St → Option St
  | [], st => some st
  | i :: r, st =>
    if st.known i = true ∧ S.mod i = M then
      (if st.inited i = true then unInit S incl (S.n + 1) i st else some st).bind fun st => unregLoop S incl M r (setKnown st i false)
    else unregLoop S incl M r st

/-- `UnRegisterModule`, node.c:374-401. -/
def unregister (S : Sys) (incl : Bool) (M : Nat) (st : St) : Option St := unregLoop S incl M (List.range S.n) st

/-- `BuildMetaLookup`, node.c:1070-1136, for one table: with entries of its own the class gets a new table, if there is
memory, otherwise that of its parent. -/
def build1 (S : Sys) (c : Nat) (k : Fin 3) (need : Bool) (alloc : List Nat → Option Nat) (st : St) : St :=
  if need then
    match alloc st.heap with
    | some id => { setTab st c k (some id) with heap := id :: st.heap }
    | none => st
  else
    match S.par c with
    | some p => setTab st c k (st.tab p k)
    | none => st

/-- What happens to the classes. -/
inductive Op where
  /-- The class is registered. -/
  | register (c : Nat)
  /-- The class is initialised; `ok`: its own function agrees. -/
  | init (c : Nat) (need : Fin 3 → Bool) (alloc : List Nat → Option Nat) (ok : Bool)
  /-- A module is unregistered: with `incl` false a plugin (node.c:417), otherwise the program itself (node.c:2648). -/
  | unregister (M : Nat) (incl : Bool)

/-- `InitClass`, node.c:1138-1224, without the child classes, which come as operations of their own. -/
def initClass (S : Sys) (c : Nat) (need : Fin 3 → Bool) (alloc : List Nat → Option Nat) (ok : Bool) (st : St) : Option St :=
  if st.inited c = false ∧ st.known c = true ∧ (∀ p ∈ S.par c, st.inited p = true) then
    let st := build1 S c 2 (need 2) alloc (build1 S c 1 (need 1) alloc (build1 S c 0 (need 0) alloc st))
    if ok then some (setInited st c true) else releaseTabs S c st
  else some st

def step (S : Sys) (st : St) : Op → Option St
  | .register c => some (setKnown st c (st.known c || decide (c < S.n)))
  | .init c need alloc ok => initClass S c need alloc ok st
  | .unregister M incl => unregister S incl M st

/-- Operations from the start on. -/
def run (S : Sys) : List Op → St → Option St
  | [], st => some st
  | o :: r, st => (step S st o).bind (run S r)

/-- Nothing registered, nothing allocated. -/
def start : St := ⟨fun _ => false, fun _ => false, fun _ _ => none, []⟩

end Verif.ClassTables
