import Verif.Ebml.Master
/-!
What the master operations have to do, stated on trees without reference to how the code does it.
-/
namespace Verif.Ebml.Master

/-- Positions of the children with an ID, in order. -/
def positions (S : Schema) (id : Nat) (kids : List T) : List Nat :=
  (List.range kids.length).filter (fun i => (kids.map (·.id S))[i]? == some id)

/-- `u` is `t` or is reached from it by descending from masters to their children. -/
inductive Below (S : Schema) : T → T → Prop
  | refl (t) : Below S t t
  | step (r kids k u) : (S.ctx r).cls = .master → k ∈ kids → Below S k u → Below S (.node r kids) u

/-- Type `r'` is `r` or a mandatory, unique, enabled child type of a master type reached from `r`. -/
inductive Nests (S : Schema) (p : Nat) : Nat → Nat → Prop
  | refl (r) : Nests S p r r
  | step (r s r') : (S.ctx r).cls = .master → s ∈ (S.ctx r).sem → s.mandatory = true → s.unique = true →
      s.disabled &&& p = 0 → Nests S p s.ref r' → Nests S p r r'

/-- Every master at or below `t` has every child the schema makes mandatory in profile `p`; types with
a default value count only if `d`. -/
def Complete (S : Schema) (d : Bool) (p : Nat) (t : T) : Prop :=
  ∀ r kids, Below S t (.node r kids) → (S.ctx r).cls = .master →
    ∀ s ∈ (S.ctx r).sem, s.mandatory = true → s.disabled &&& p = 0 → (d = true ∨ (S.ctx s.ref).hasDefault = false) →
      ∃ k ∈ kids, k.id S = (S.ctx s.ref).id

/-- The child types of each master have different IDs. -/
def DistinctIds (S : Schema) : Prop := ∀ r, ((S.ctx r).sem.map (fun s => (S.ctx s.ref).id)).Nodup

/-- Mandatory unique children do not nest for ever: `rank` decreases. -/
def Ranked (S : Schema) (rank : Nat → Nat) : Prop :=
  ∀ r, ∀ s ∈ (S.ctx r).sem, s.mandatory = true → s.unique = true → rank s.ref < rank r

/-- Is the element one the reader recognised. -/
def T.known (S : Schema) : T → Prop
  | .node r _ => (S.ctx r).cls ≠ .dummy
  | .dummy _ => False

/-- The children an element of type `r` with the given children has and lacks are as the schema says:
nothing disabled, nothing unique twice, nothing mandatory without default missing. -/
def Proper (S : Schema) (p : Nat) (r : Nat) (kids : List T) : Prop :=
  (∀ k ∈ kids, k.known S → ∀ s ∈ (S.ctx r).sem, (S.ctx s.ref).id = k.id S → s.disabled &&& p = 0) ∧
  (∀ k ∈ kids, k.known S → ∀ s ∈ (S.ctx r).sem, (S.ctx s.ref).id = k.id S → s.unique = true →
    (kids.filter (fun k' => k'.id S == k.id S)).length = 1) ∧
  (∀ s ∈ (S.ctx r).sem, s.mandatory = true → (S.ctx s.ref).hasDefault = false → ∃ k ∈ kids, k.id S = (S.ctx s.ref).id)

/-- The reports a child gives rise to when nothing is deleted: it is disabled; it is not the only one of
a unique type (the second one is named). -/
def kidReports (S : Schema) (p : Nat) (r : Nat) (kids : List T) (k : T) : List Report :=
  match entry S r k with
  | none => []
  | some s =>
    (if s.disabled &&& p = 0 then [] else [.invalid s.ref k]) ++
    (if s.unique then
      match kids.filter (fun k' => k'.id S == k.id S) with
      | _ :: e :: _ => [.multiple s.ref e]
      | _ => []
     else [])

/-- The child may stay: it is not in the table, or it is enabled and, if unique, alone. -/
def Acceptable (S : Schema) (p : Nat) (r : Nat) (kids : List T) (k : T) : Prop :=
  k.known S → ∀ s ∈ (S.ctx r).sem, (S.ctx s.ref).id = k.id S →
    s.disabled &&& p = 0 ∧ (s.unique = true → (kids.filter (fun k' => k'.id S == k.id S)).length ≤ 1)

end Verif.Ebml.Master
