/-!
Model of counted references between nodes in corec/corec/node/node.c: `Node_AddRef`, `Node_Release` with the
deletion that follows, and attributes of type `TYPE_NODE_REF`, in the structure of a node (`MetaSet`) and in its
dynamic data (`Node_SetData`). libmatroska2 keeps the tracks and Segment Infos of blocks, Clusters, cue points and
the targets of seek points that way (matroskamain.c:2467-2507).

A node is its address; 0 is `NULL`. `none` is the outcome of touching a node that has been freed. Not modelled: listeners for
`NODE_DELETING`, functions of a class for deletion and for changes of an attribute (these touch the node itself only),
other attributes, modules, singletons, lack of memory, an address used twice, counts beyond `size_t`.
-/
namespace Verif.Core.Refs

/-- A node: `RefCount`, the attributes of type `TYPE_NODE_REF` in its structure in the order `CallDelete` meets them (its own class
first, node.c:637-678), and those in its dynamic data (`node.Data`: ID and value). -/
structure Cell where
  addr : Nat
  rc : Nat
  fields : List Nat
  data : List (Nat × Nat)
deriving DecidableEq

/-- The nodes that exist, and those that were freed, the latest first. -/
structure State where
  heap : List Cell
  freed : List Nat
deriving DecidableEq

def cell (s : State) (a : Nat) : Option Cell := s.heap.find? fun c => c.addr = a

/-- A node is written to. -/
def put (s : State) (c : Cell) : State := { s with heap := s.heap.map fun x => if x.addr = c.addr then c else x }

/-- `MemHeap_Free` in `EraseNode`, node.c:1397-1409. -/
def erase (s : State) (a : Nat) : State := { heap := s.heap.filter fun c => c.addr ≠ a, freed := a :: s.freed }

/-- `Node_AddRef`, node.c:1411-1416. -/
def addRef (s : State) (a : Nat) : Option State := (cell s a).map fun c => put s { c with rc := c.rc + 1 }

/-- One attribute in the structure on deletion, node.c:676-706: set to `NULL`, then released. -/
def clearField (rel : Nat → State → Option State) (a : Nat) (s : State) (i : Nat) : Option State :=
  match cell s a with
  | none => none
  | some c =>
    let v := c.fields[i]?.getD 0
    if v = 0 then some s else rel v (put s { c with fields := c.fields.set i 0 })

/-- The first entry of the dynamic data on deletion, `DataFree`, node.c:471-472 and 481. The entry is taken off the list before the
release here, not behind it; nothing looks at the list in between. -/
def clearData (rel : Nat → State → Option State) (a : Nat) (s : State) : Option State :=
  match cell s a with
  | none => none
  | some c =>
    match c.data with
    | [] => some s
    | (_, v) :: r => if v = 0 then some (put s { c with data := r }) else rel v (put s { c with data := r })

/-- The same for `k` entries. -/
def clearDatas (rel : Nat → State → Option State) (a : Nat) : Nat → State → Option State
  | 0, s => some s
  | k + 1, s => (clearData rel a s).bind (clearDatas rel a k)

/-- Some attributes in the structure. -/
def clearFields (rel : Nat → State → Option State) (a : Nat) : List Nat → State → Option State
  | [], s => some s
  | i :: l, s => (clearField rel a s i).bind (clearFields rel a l)

/-- `Node_Release`, node.c:1418-1434, with `CallDelete`, node.c:632-722, and `EraseNode`; the first argument is a budget for the
depth. Releasing at 0, where the count would wrap around, is an error. -/
def release : Nat → Nat → State → Option State
  | 0, _, _ => none
  | n + 1, a, s =>
    match cell s a with
    | none => none
    | some c =>
      if c.rc = 0 then none
      else
        let s1 := put s { c with rc := c.rc - 1 }
        if c.rc - 1 = 0 then
          (clearFields (release n) a (List.range c.fields.length) s1).bind fun s2 =>
            (clearDatas (release n) a c.data.length s2).bind fun s3 => some (erase s3 a)
        else some s1

/-- A budget that is enough. -/
def budget (s : State) : Nat := s.heap.length + 1

/-- `MetaSet` for an attribute in the structure, node.c:2284-2297; behind it the node is touched again, 2311-2330. -/
def setField (s : State) (p i v : Nat) : Option State :=
  match cell s p with
  | none => none
  | some c =>
    let v0 := c.fields[i]?.getD 0
    if v0 = v then some s
    else
      (if v = 0 then some s else addRef s v).bind fun s1 =>
        match cell s1 p with
        | none => none
        | some c1 =>
          let s2 := put s1 { c1 with fields := c1.fields.set i v }
          (if v0 = 0 then some s2 else release (budget s2) v0 s2).bind fun s3 => (cell s3 p).map fun _ => s3

/-- The first entry with an ID is taken off and released, `Node_RemoveData` and `DataFree`, node.c:500-512, 471-472. -/
def removeData (s : State) (p id : Nat) : Option State :=
  match cell s p with
  | none => none
  | some c =>
    match c.data.lookup id with
    | none => some s
    | some v =>
      let s1 := put s { c with data := c.data.eraseP fun e => e.1 == id }
      if v = 0 then some s1 else release (budget s1) v s1

/-- The value of the first entry with an ID is replaced. -/
def replace (id v : Nat) : List (Nat × Nat) → List (Nat × Nat)
  | [] => []
  | e :: r => if e.1 = id then (id, v) :: r else e :: replace id v r

/-- `SetData` (`Node_SetData`) for `TYPE_NODE_REF`, node.c:547-582: `NULL` removes the entry; a value is copied over that
of an entry that is there, without counting, or else added with `Node_AddData`, node.c:514-545. -/
def setData (s : State) (p id v : Nat) : Option State :=
  if v = 0 then removeData s p id
  else
    match cell s p with
    | none => none
    | some c =>
      match c.data.lookup id with
      | some _ => some (put s { c with data := replace id v c.data })
      | none =>
        let s1 := put s { c with data := (id, v) :: c.data }
        addRef s1 v

/-- `NodeCreate` of a class with `k` attributes of that type, node.c:863-869: one reference, for the caller. -/
def create (s : State) (a k : Nat) : State := { s with heap := ⟨a, 1, List.replicate k 0, []⟩ :: s.heap }

end Verif.Core.Refs
