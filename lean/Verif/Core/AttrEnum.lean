import Verif.Core.AttrNames
/-!
The list of the attributes of a node, `Node_Enum` and `NodeEnumDef`, corec/corec/node/node.c:2010-2034, 2685-2702, over the
tables of `Verif/Core/AttrNames.lean`. Appending to the lists does not run out of memory here.
-/
namespace Verif.Names
open Verif Verif.Core

/-- The loop over the table of one class, node.c:2018-2023. -/
def enumTable : List Entry → List Nat
  | [] => []
  | ⟨i, .type _⟩ :: r => i :: enumTable r
  | _ :: r => enumTable r

/-- `MetaEnumClass`, node.c:2010-2025: the ancestors first. -/
def metaEnum : List (List Entry) → List Nat
  | [] => []
  | t :: r => metaEnum r ++ enumTable t

/-- The loop of `NodeEnumDef`, node.c:2696-2698. -/
def defsOf (chain : List (List Entry)) : List Nat → List (Nat × Nat)
  | [] => []
  | i :: r =>
    match dataDef chain i with
    | some d => d :: defsOf chain r
    | none => defsOf chain r

/-- `NodeEnumDef`, node.c:2685-2702. -/
def enumDef (chain : List (List Entry)) : List (Nat × Nat) := defsOf chain (metaEnum chain)

end Verif.Names
