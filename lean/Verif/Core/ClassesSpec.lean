import Verif.Core.Classes
/-!
What a class is made of, independent of the registry: the specification of C191 and C192.
-/
namespace Verif.Core.Classes

/-- What nodes of a class have: the size of the table of functions, the function at each place
(0: none), how each attribute is read. -/
structure Obj where
  size : Nat
  call : Nat → Nat
  attr : Nat → Option Nat

/-- Nothing at all. -/
def base (dv : Nat) : Obj := ⟨dv, fun _ => 0, fun _ => none⟩

/-- A definition on top of a parent: what the definition gives (of several functions for one
place the last, of several ways to read an attribute the first), else what the parent has. -/
def derive (dv : Nat) (d : Def) (o : Obj) : Obj :=
  ⟨if d.size = dv then o.size else d.size,
   fun s => (d.vmt.reverse.lookup s).getD (o.call s),
   fun a => (d.get.lookup a).or (o.attr a)⟩

/-- Class `id` can be made from the definitions `ds`: it and all its ancestors up to one without
a parent are among them. `o` is what it has then. -/
inductive Built (dv : Nat) (ds : List Def) : Nat → Obj → Prop
  | root (d : Def) : d ∈ ds → d.parent = 0 → Built dv ds d.id (derive dv d (base dv))
  | child (d : Def) (o : Obj) : d ∈ ds → d.parent ≠ 0 → Built dv ds d.parent o → Built dv ds d.id (derive dv d o)

/-- The definitions belong together: different IDs, none of them 0, no table smaller than
`DEFAULT_VMT` or, unless it is left at `DEFAULT_VMT`, than that of the parent, all functions within the
table. -/
structure Fits (dv : Nat) (ds : List Def) : Prop where
  nodup : (ds.map (·.id)).Nodup
  nonzero : ∀ d ∈ ds, d.id ≠ 0
  least : ∀ d ∈ ds, dv ≤ d.size
  grows : ∀ d ∈ ds, ∀ o, d.parent ≠ 0 → Built dv ds d.parent o → d.size = dv ∨ o.size ≤ d.size
  within : ∀ d ∈ ds, ∀ o, Built dv ds d.id o → ∀ m ∈ d.vmt, m.1 < o.size

/-- What the registry has of a class: `none` if it has not been initialised. -/
def made (c : Cls) : Option Obj := if c.inited then some ⟨c.size, c.vmt, getAttr c⟩ else none

/-- `id` is `anc` or has it among its ancestors, by the definitions. -/
inductive IsA (ds : List Def) : Nat → Nat → Prop
  | self (d : Def) : d ∈ ds → IsA ds d.id d.id
  | up (d : Def) (anc : Nat) : d ∈ ds → d.parent ≠ 0 → IsA ds d.parent anc → IsA ds d.id anc

/-- Going from parent to parent ends: with a class without a parent or with one that is not
defined. -/
inductive Ends (ds : List Def) : Nat → Prop
  | missing (i : Nat) : (∀ d ∈ ds, d.id ≠ i) → Ends ds i
  | up (d : Def) : d ∈ ds → Ends ds d.parent → Ends ds d.id

/-- A class that can be made counts as abstract or with its priority as its definition says; one
that cannot be made counts as not abstract and with priority 0. -/
def Shown (dv : Nat) (ds : List Def) (d : Def) (abs : Bool) (prio : Int) : Prop :=
  (∃ o, Built dv ds d.id o) ∧ abs = d.abstract_ ∧ prio = d.prio ∨
  (¬ ∃ o, Built dv ds d.id o) ∧ abs = false ∧ prio = 0

end Verif.Core.Classes
