/-!
Freeing memory when it runs short: `NodeHibernate`, corec/corec/node/node.c:2857-2892. The functions registered with
`Mem_AddCollector` are parameters that act on a state and answer with a number; they do not add or remove functions.
`NodeContext_Cleanup` is a parameter as well. Every call is recorded.
-/
namespace Verif.Hibernate

/-- A registered function: it gets the state and a level, and gives the new state and its answer. -/
abbrev Collector (S : Type) := S → Int → S × Int

/-- One call: which function, at which level, its answer. -/
structure Call where
  who : Nat
  level : Int
  answer : Int
deriving DecidableEq, Repr

/-- `INT_MAX`. -/
def intMax : Int := 2147483647

/-- What a round leaves: the state, `Changed`, `NextLevel` and the calls. -/
structure Round (S : Type) where
  state : S
  changed : Bool
  next : Int
  calls : List Call

/-- The inner loop, node.c:2872-2880. -/
def round {S : Type} (level : Int) : List (Collector S) → Nat → S → Bool → Int → Round S
  | [], _, s, changed, next => ⟨s, changed, next, []⟩
  | f :: r, k, s, changed, next =>
    let x := f s level
    let y :=
      if x.2 = -1 then round level r (k + 1) x.1 true next
      else if next > x.2 ∧ x.2 > level then round level r (k + 1) x.1 changed x.2
      else round level r (k + 1) x.1 changed next
    ⟨y.state, y.changed, y.next, ⟨k, level, x.2⟩ :: y.calls⟩

/-- The outer loop, node.c:2869-2883: the state, `Changed` and the calls. `none`: it does not end within the fuel. -/
def levels {S : Type} (fs : List (Collector S)) : Nat → Int → S → Option (S × Bool × List Call)
  | 0, _, _ => none
  | fuel + 1, level, s =>
    let y := round level fs 0 s false intMax
    if y.next = intMax then some (y.state, y.changed, y.calls)
    else if y.changed then some (y.state, y.changed, y.calls)
    else (levels fs fuel y.next y.state).map fun z => (z.1, z.2.1, y.calls ++ z.2.2)

/-- `NodeHibernate`, node.c:2857-2892. -/
def hibernate {S : Type} (inCollect : Bool) (fs : List (Collector S)) (cleanup : S → S × Bool) (s : S) :
    Option (S × Bool × List Call) :=
  if inCollect then some (s, false, [])
  else
    (levels fs 2147483648 0 s).map fun z =>
      if z.2.1 then z
      else
        let c := cleanup z.1
        (c.1, c.2, z.2.2)

end Verif.Hibernate
