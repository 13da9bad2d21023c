import Verif.Core.Sort
/-!
Looking up classes that several modules may provide, with the cache: `NodeContext_FindClass`, `FindModuleClass` and
`NodeContext_FindClassEx`, corec/corec/node/node.c:228-300, with what `NodeContext_CreateClass` (node.c:1293-1355),
`NodeClassResize` (node.c:961-979) and a failing `InitClass` (node.c:1183-1189, 1209-1214) do to the array of classes and to the
cache.

The functions of classes do not look up classes while a class is registered. `NodeContext_UpdateParents` (node.c:1226-1234), which
nothing calls, is not here. How classes are initialised is modelled in `Verif/Core/Classes.lean`.
-/
namespace Verif.FindClass

/-- A class: its ID, its module, its `State` and its address. -/
structure Cls where
  id : Nat
  mod : Nat
  state : Int
  addr : Nat
deriving DecidableEq, Repr

/-- `NodeClass` and `NodeCache`. -/
structure St where
  classes : List Cls
  cache : Option Nat

/-- `CmpClassNoModule`, node.c:173-182. -/
def cmpId (a b : Cls) : Int := if a.id > b.id then 1 else if a.id < b.id then -1 else 0

/-- `CmpClass`, node.c:160-171. -/
def cmpCls (a b : Cls) : Int :=
  if a.id > b.id then 1
  else if a.id < b.id then -1
  else if a.mod ≠ b.mod then (if a.mod > b.mod then 1 else -1)
  else 0

/-- The first class with the same ID, node.c:254. -/
def back (l : List Cls) (id : Nat) : Nat → Nat
  | 0 => 0
  | p + 1 => if (l[p]?).map (·.id) = some id then back l id p else p + 1

/-- The first registered one, node.c:256-262. -/
def forth (id : Nat) : List Cls → Option Cls
  | [] => none
  | c :: r => if c.id = id then (if c.state ≥ 0 then some c else forth id r) else none

/-- The search in the array, node.c:243-274: the class and what the cache is set to, if it is. `none`: outside of the array. -/
def search (l : List Cls) (id : Nat) : Option (Option Cls × Option (Option Nat)) :=
  match Core.findEx (fun y => cmpId y ⟨id, 0, 0, 0⟩) l with
  | none => none
  | some (false, _) => some (none, none)
  | some (true, pos) =>
    match l[pos.toNat]? with
    | none => none
    | some c =>
      let r := if c.state < 0 then forth id (l.drop (back l id pos.toNat)) else some c
      some (r, some (r.map (·.addr)))

/-- `NodeContext_FindClass`, node.c:228-277. `none`: outside of the array, or through a cache that points nowhere. -/
def findClass (id : Nat) (st : St) : Option (Option Cls × St) :=
  if id = 0 then some (none, st)
  else
    let go := (search st.classes id).map fun x => (x.1, { st with cache := x.2.getD st.cache })
    match st.cache with
    | none => go
    | some a =>
      match st.classes.find? fun c => c.addr == a with
      | none => none
      | some c => if c.id = id then some (some c, st) else go

/-- `FindModuleClass`, node.c:279-286. -/
def findModule (id mod : Nat) (l : List Cls) : Option Cls := l.find? fun c => c.id == id && c.mod == mod && decide (c.state ≥ 0)

/-- `NodeContext_FindClassEx`, node.c:288-300. -/
def findClassEx (id mod : Nat) (st : St) : Option (Option Cls × St) :=
  if id = 0 then some (none, st)
  else
    match findModule id mod st.classes with
    | some c => some (some c, st)
    | none => findClass id st

inductive Op where
  /-- A lookup. -/
  | find (id : Nat)
  /-- A lookup that prefers a module. -/
  | findEx (id mod : Nat)
  /-- A class is registered: a new one at an address, or one that is there. The initialisation that follows moves classes. -/
  | register (id mod addr : Nat) (ok : Bool) (move : Nat → Nat)
  /-- The class at an address fails. -/
  | fail (addr : Nat)

/-- `NodeContext_CreateClass`, node.c:1293-1355, and `NodeClassResize` for the classes that move. -/
def register (id mod addr : Nat) (ok : Bool) (move : Nat → Nat) (st : St) : Option St :=
  if st.classes.any fun c => c.id == id && c.mod == mod then
    some ⟨(st.classes.map fun c => if c.id = id ∧ c.mod = mod ∧ c.state < 0 then { c with state := 0 } else c).map
      fun c => { c with addr := move c.addr }, none⟩
  else
    match Core.addEx cmpCls ok st.classes ⟨id, mod, 0, addr⟩ with
    | none => none
    | some (pos, l) =>
      if pos < 0 then some { st with cache := none } else some ⟨l.map fun c => { c with addr := move c.addr }, none⟩

def step (st : St) : Op → Option St
  | .find id => (findClass id st).map (·.2)
  | .findEx id mod => (findClassEx id mod st).map (·.2)
  | .register id mod addr ok move => register id mod addr ok move st
  | .fail addr => some ⟨st.classes.map fun c => if c.addr = addr then { c with state := -2 } else c, none⟩

def run : List Op → St → Option St
  | [], st => some st
  | o :: r, st => (step st o).bind (run r)

def start : St := ⟨[], none⟩

end Verif.FindClass
