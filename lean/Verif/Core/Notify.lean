/-!
Model of the notification lists of a node (`/repo/corec/corec/node/node.c:435-461, 1712-1868`).

One list, that of one event of one node. Simplifications: allocations succeed and no address is used twice; the node
itself is not deleted and its data is not removed from outside while it notifies; callbacks add and remove listeners
of this event and raise it again, what else they do does not matter here. Touching a released record is undefined
behaviour: `none`.
-/
namespace Verif.Notify

/-- `nodenotify`, nodebase.h; 0 is NULL. -/
structure Cell where
  func : Nat
  arg : Nat
  next : Nat

/-- What `Top->Referer` holds, node.c:1718-1720. -/
inductive Mark where
  | null
  | item (a : Nat)
  | list
deriving DecidableEq

/-- The dummy first record in the data of the node; `busy`: `Top->Func` is set. -/
structure Top where
  busy : Bool
  mark : Mark
  next : Nat

structure State where
  heap : Nat → Option Cell
  fresh : Nat
  top : Option Top

/-- What a callback does with the list. -/
inductive Op where
  | add (func arg : Nat)
  | remove (func arg : Nat)
  | notify

def set (h : Nat → Option Cell) (a : Nat) (c : Option Cell) : Nat → Option Cell := fun k => if k = a then c else h k

/-- `Node_AddNotify`, node.c:1785-1816. -/
def add (f x : Nat) (s : State) : State :=
  let t := s.top.getD ⟨false, .null, 0⟩
  { heap := set s.heap s.fresh (some ⟨f, x, t.next⟩), fresh := s.fresh + 1, top := some { t with next := s.fresh } }

inductive Found where
  | bad
  | none
  | at (prev a : Nat) (c : Cell)

/-- The loop of `Node_RemoveNotify`, node.c:1844-1848; `prev` 0: the record is the first. -/
def find (h : Nat → Option Cell) (f x : Nat) : Nat → Nat → Nat → Found
  | 0, _, _ => .bad
  | k + 1, prev, a =>
    if a = 0 then .none
    else match h a with
      | .none => .bad
      | some c => if c.func = f ∧ c.arg = x then .at prev a c else find h f x k a c.next

/-- The end of `Node_RemoveNotify`, node.c:1864-1865, with `DataFree` 441-461: a busy list is marked only. -/
def settle (old : Mark) (s : State) : State :=
  match s.top with
  | none => s
  | some t =>
    if t.next = 0 ∧ old = t.mark then
      if t.busy then { s with top := some { t with mark := .list } } else { s with top := none }
    else s

/-- `Node_RemoveNotify`, node.c:1830-1868. -/
def remove (f x : Nat) (s : State) : Option State :=
  match s.top with
  | none => some s
  | some t =>
    match find s.heap f x (s.fresh + 1) 0 t.next with
    | .bad => none
    | .none => some (settle t.mark s)
    | .at prev a c =>
      let t1 : Top := if prev = 0 then { t with next := c.next } else t
      let h1 := if prev = 0 then s.heap else set s.heap prev ((s.heap prev).map fun p => { p with next := c.next })
      if t.mark = .item a then some (settle t.mark { s with heap := h1, top := some { t1 with mark := .null } })
      else some (settle t.mark { s with heap := set h1 a none, top := some t1 })

/-- What callbacks do, one after the other; raising the event again has no effect (node.c:1722-1726). -/
def runOps : List Op → State → Option State
  | [], s => some s
  | .add f x :: ops, s => runOps ops (add f x s)
  | .remove f x :: ops, s =>
    match remove f x s with
    | none => none
    | some s' => runOps ops s'
  | .notify :: ops, s => runOps ops s

/-- The loop of `Node_NotifyInternal`, node.c:1735-1758. A callback does whatever it likes depending on the calls so
far, `script`. The calls come back in order, with the flag `PosDeleteList`. -/
def callLoop (script : List (Nat × Nat) → List Op) : Nat → Nat → List (Nat × Nat) → Bool → State →
    Option (State × List (Nat × Nat) × Bool)
  | 0, _, _, _, _ => none
  | k + 1, n, hist, pd, s =>
    if n = 0 then some (s, hist, pd)
    else match s.top, s.heap n with
      | some t, some c =>
        let hist' := hist ++ [(c.func, c.arg)]
        match runOps (script hist') { s with top := some { t with mark := .item n } } with
        | none => none
        | some s2 =>
          match s2.top, s2.heap n with
          | some t2, some c2 =>
            callLoop script k c2.next hist' (pd || t2.mark = .list)
              (if t2.mark = .null then { s2 with heap := set s2.heap n none } else s2)
          | _, _ => none
      | _, _ => none

/-- `Node_Notify`, node.c:1774-1783, with `Node_NotifyInternal` 1712-1772: the calls made, and whether there is a
list. The list is marked, not released, when it became empty: it is still busy (1769, 441-449). -/
def notify (script : List (Nat × Nat) → List Op) (s : State) : Option (State × List (Nat × Nat) × Bool) :=
  match s.top with
  | none => some (s, [], false)
  | some t =>
    if t.busy then some (s, [], true)
    else match callLoop script (s.fresh + 1) t.next [] false { s with top := some { t with busy := true } } with
      | none => none
      | some (s', calls, pd) =>
        match s'.top with
        | none => none
        | some t' => some ({ s' with top := some ⟨false, if t'.next = 0 ∨ pd = true then .list else .null, t'.next⟩ }, calls, true)

end Verif.Notify
