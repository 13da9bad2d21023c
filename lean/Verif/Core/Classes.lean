import Verif.Core.Sort
/-!
Model of the registry of node classes in corec/corec/node/node.c: registering classes, their
initialisation from their parents, looking them up and listing them.

A class is known by its ID: a pointer to a class (`ParentClass`) is the ID of that class.
`NodeClassResize` (node.c:961-979) moves a class and redirects the array and all parent pointers
to the new place, so it is only a change of size here. Not modelled: several modules (all classes
are of one), classes of ID 0 (which get a number of their own), failing creation functions of
tables (`META_CLASS_VMT_CREATE`) and of singletons, `META_CLASS_META`, lack of memory, the
one-entry cache of `NodeContext_FindClass`, unregistering, bits and events in the tables of
attributes.
-/
namespace Verif.Core.Classes
open Verif Verif.Core

/-- The definition of a class, a list of `nodemeta` from `META_CLASS_CLASS_ID` to
`META_CLASS_PARENT_ID`: the ID, the ID of the parent (0: none), the size of the table of functions
(`META_CLASS_VMT_SIZE`, `DEFAULT_VMT` if not given), the functions (`META_MODE_VMT`: place in the
table and function), the attributes that can be read (`META_PARAM_GET` and `META_MODE_DATA`: ID
and how to read it), `CFLAG_ABSTRACT` and `META_CLASS_PRIORITY` relative to `PRI_DEFAULT`. Sizes
and places count entries of the size of a pointer. -/
structure Def where
  id : Nat
  parent : Nat
  size : Nat
  vmt : List (Nat × Nat)
  get : List (Nat × Nat)
  abstract_ : Bool
  prio : Int
deriving DecidableEq

/-- `nodeclass`, node_internal.h:33-48, with its definition (`Meta`, `ParentId`), the parent
(`ParentClass`), `State >= CLASS_INITED`, `VMTSize`, the table of functions that follows it in
memory, `MetaGet`, `Flags` and `Priority`. -/
structure Cls where
  d : Def
  parent : Option Nat
  inited : Bool
  size : Nat
  vmt : Nat → Nat
  get : List (Nat × Nat)
  abstract_ : Bool
  prio : Int

/-- `FindModuleClass`, node.c:279-286. -/
def find (cs : List Cls) (id : Nat) : Option Cls := cs.find? fun c => c.d.id = id

/-- `CmpClass`, node.c:160-171, within one module; `CmpClassNoModule`, node.c:173-182. -/
def cmpClass (a b : Cls) : Int := if a.d.id > b.d.id then 1 else if a.d.id < b.d.id then -1 else 0

/-- Comparison of a class with an ID, as in `NodeContext_FindClass`. -/
def cmpId (id : Nat) (a : Cls) : Int := if a.d.id > id then 1 else if a.d.id < id then -1 else 0

/-- `NodeContext_FindClass`, node.c:228-277, without the cache. -/
def findClass (cs : List Cls) (id : Nat) : Option Cls :=
  if id = 0 then none
  else
    match findEx (cmpId id) cs with
    | some (true, pos) => cs[pos.toNat]?
    | _ => none

/-- `NodeContext_FindClassEx`, node.c:288-300. -/
def findClassEx (cs : List Cls) (id : Nat) : Option Cls :=
  if id = 0 then none
  else
    match find cs id with
    | some c => some c
    | none => findClass cs id

/-- The definitions of a class and its ancestors, in the order `for (c=Class;c;c=c->ParentClass)`
visits them, with a step budget. -/
def chain (cs : List Cls) : Nat → Nat → List Def
  | 0, _ => []
  | n + 1, id =>
    match find cs id with
    | none => []
    | some c =>
      c.d :: match c.parent with
        | none => []
        | some p => chain cs n p

/-- `CmpLookup`, node.c:1017-1031, for entries that are neither bits nor events. -/
def cmpLookup (a b : Nat × Nat) : Int := if a.1 > b.1 then 1 else if a.1 < b.1 then -1 else 0

/-- `AddLookup`, node.c:1033-1053, for an attribute that is neither a bit nor an event. -/
def addLookup (t : List (Nat × Nat)) (m : Nat × Nat) : List (Nat × Nat) :=
  match findEx (fun y => cmpLookup y m) t with
  | some (false, _) =>
    match addEx cmpLookup true t m with
    | some (_, t') => t'
    | none => t
  | _ => t

/-- `BuildMetaLookup`, node.c:1070-1136, for the attributes that can be read. -/
def buildGet (cs : List Cls) (c : Cls) (par : Option Cls) : List (Nat × Nat) :=
  if c.d.get ≠ [] then ((chain cs (cs.length + 1) c.d.id).flatMap (·.get)).foldl addLookup []
  else
    match par with
    | some p => p.get
    | none => []

/-- `MetaConst`, node.c:768-778, for an entry of the table of functions. -/
def setSlot (t : Nat → Nat) (m : Nat × Nat) : Nat → Nat := fun s => if s = m.1 then m.2 else t s

/-- A class is replaced in place. -/
def put (cs : List Cls) (c : Cls) : List Cls := cs.map fun x => if x.d.id = c.d.id then c else x

/-- The initialisation proper of `InitClass`, node.c:1143-1204: the size, the functions of the
parent, the table of attributes, the own functions. `dv` is `DEFAULT_VMT`. -/
def initOne (dv : Nat) (cs : List Cls) (c : Cls) (par : Option Cls) : Cls :=
  let size :=
    match par with
    | some p => if c.size = dv ∧ p.size > dv then p.size else c.size
    | none => c.size
  let t :=
    match par with
    | some p => fun s => if s < min size p.size then p.vmt s else c.vmt s
    | none => c.vmt
  { c with
    inited := true, size := size, vmt := c.d.vmt.foldl setSlot t, get := buildGet cs c par,
    abstract_ := c.d.abstract_, prio := c.d.prio }

/-- The condition of `InitClass`, node.c:1141. -/
def ready (c : Cls) (par : Option Cls) : Bool :=
  !c.inited && (c.d.parent == 0 || match par with
    | some p => p.inited
    | none => false)

/-- `InitClass`, node.c:1138-1224, with a step budget for the recursion into child classes. The
loop over all classes at its end sees the array as the calls before left it; the array keeps its
IDs and their order. -/
def initClass (dv : Nat) : Nat → Nat → List Cls → List Cls
  | 0, _, cs => cs
  | n + 1, id, cs =>
    match find cs id with
    | none => cs
    | some c =>
      if ready c (c.parent.bind (find cs)) then
        let cs1 := put cs (initOne dv cs c (c.parent.bind (find cs)))
        (cs1.map (·.d.id)).foldl
          (fun acc k => if (find acc k).bind (·.parent) = some id then initClass dv n k acc else acc) cs1
      else cs

/-- The size of the table of functions a class starts with, node.c:1367-1381. -/
def startSize (dv : Nat) (d : Def) : Option Cls → Nat
  | some p => if d.size = dv then p.size else d.size
  | none => d.size

/-- `NodeContext_CreateClass`, node.c:1293-1355, and one round of the loop of
`NodeRegisterClassEx`, node.c:1362-1390. -/
def register (dv : Nat) (cs : List Cls) (d : Def) : List Cls :=
  let par := findClassEx cs d.parent
  match find cs d.id with
  | some _ => cs
  | none =>
    match addEx cmpClass true cs ⟨d, par.map (·.d.id), false, startSize dv d par, fun _ => 0, [], false, 0⟩ with
    | none => cs
    | some (_, cs1) =>
      let cs2 := cs1.map fun c => if c.d.parent = d.id ∧ c.d.id ≠ d.id then { c with parent := some d.id } else c
      initClass dv (cs2.length + 1) d.id cs2

/-- A list of definitions is registered, in the order given. -/
def registerAll (dv : Nat) (ds : List Def) : List Cls := ds.foldl (register dv) []

/-- The lookup in `MetaGet`, node.c:2044-2062: how the attribute is read. -/
def getAttr (c : Cls) (a : Nat) : Option Nat :=
  match findEx (fun y => cmpLookup y (a, 0)) c.get with
  | some (true, pos) => c.get[pos.toNat]?.map (·.2)
  | _ => none

/-- `NodeClass_IsPartOf`, node.c:140-146, with a step budget; `none`: the budget is used up. -/
def isPartOf (cs : List Cls) : Nat → Option Nat → Nat → Option Bool
  | 0, _, _ => none
  | n + 1, p, id =>
    match p.bind (find cs) with
    | none => some false
    | some c => if c.d.id = id then some true else isPartOf cs n c.parent id

/-- `CmpRatedClassPri`, node.c:200-207, with `CmpClassPri`, node.c:184-193; the rating of a class is
given by its ID. -/
def cmpRated (rate : Nat → Int) (a b : Cls) : Int :=
  if rate a.d.id > rate b.d.id then -1
  else if rate a.d.id < rate b.d.id then 1
  else if a.prio > b.prio then -1
  else if a.prio < b.prio then 1
  else cmpClass a b

/-- The classes `NodeEnumClassFilterRated` finds, node.c:1662-1672, in the order of the array;
`none`: a step budget is used up. -/
def candidates (all : List Cls) (rate : Nat → Int) (id : Nat) : List Cls → Option (List Cls)
  | [] => some []
  | c :: r =>
    if c.abstract_ then candidates all rate id r
    else
      match isPartOf all (all.length + 1) (some c.d.id) id with
      | none => none
      | some false => candidates all rate id r
      | some true =>
        if rate c.d.id > 0 then (candidates all rate id r).map (c :: ·) else candidates all rate id r

/-- The best so far (ID, priority, rating), node.c:1675-1680. -/
def better (rate : Nat → Int) (st : Nat × Int × Int) (c : Cls) : Nat × Int × Int :=
  if st.2.2 < rate c.d.id ∨ (st.2.2 = rate c.d.id ∧ st.2.1 < c.prio) then (c.d.id, c.prio, rate c.d.id) else st

/-- `NodeEnumClassFilterRated` without a list, node.c:1645-1710: the ID of the best class. -/
def enumBest (cs : List Cls) (rate : Nat → Int) (id : Nat) : Option Nat :=
  (candidates cs rate id cs).map fun l => (l.foldl (better rate) (0, 0, 0)).1

/-- `NodeEnumClassFilterRated` with a list, node.c:1645-1710: the IDs, sorted; the entries are
larger than a pointer. -/
def enumList (cs : List Cls) (rate : Nat → Int) (id : Nat) : Option (List Nat) :=
  match candidates cs rate id cs with
  | none => none
  | some l => (sortEx (cmpRated rate) false false l).map fun s => s.map (·.d.id)

end Verif.Core.Classes
