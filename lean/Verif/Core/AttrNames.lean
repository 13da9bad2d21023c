import Verif.Core.Str
import Verif.Core.Scanf
/-!
The names of the attributes of nodes and finding attributes by name: `NodeParamName` and `NodeFindDef`,
corec/corec/helpers/parser/parser2.c:1030-1063, with `NodeDataDef`, `MetaFindParam` and the lookup of names and types in
the tables of the classes, corec/corec/node/node.c:1553-1570, 2545-2561, 2704-2714.

The tables of the class of a node and of its ancestors are given in the order of `for (c=Class;c;c=c->ParentClass)`, each
up to its `META_CLASS_PARENT_ID`. Not modelled: attributes answered by a function of the class (`META_PARAM_META`). Names
are in the encoding of the strings of the program, without the terminator.
-/
namespace Verif.Names
open Verif Verif.Core Verif.Scanf Verif.Mkv

/-- What an entry of a table says: `META_PARAM_NAME`, `META_PARAM_TYPE`, something else. -/
inductive Info where
  | name (s : Bytes)
  | type (flags : Nat)
  | other
deriving DecidableEq

/-- `nodemeta`: the attribute and what is said of it. -/
structure Entry where
  id : Nat
  info : Info
deriving DecidableEq

/-- The inner loop of `NodeParamMeta`, node.c:1561-1568, for `META_PARAM_NAME`. -/
def nameIn (id : Nat) : List Entry → Option Bytes
  | [] => none
  | ⟨i, .name s⟩ :: r => if i = id then some s else nameIn id r
  | _ :: r => nameIn id r

/-- `NodeParamMeta`, node.c:1553-1597, for `META_PARAM_NAME`. -/
def paramName (id : Nat) : List (List Entry) → Option Bytes
  | [] => none
  | t :: r =>
    match nameIn id t with
    | some s => some s
    | none => paramName id r

/-- The inner loop of `NodeParamMeta`, node.c:1561-1568, for `META_PARAM_TYPE`. -/
def typeIn (id : Nat) : List Entry → Option Nat
  | [] => none
  | ⟨i, .type f⟩ :: r => if i = id then some f else typeIn id r
  | _ :: r => typeIn id r

/-- `NodeParamMeta`, node.c:1553-1597, for `META_PARAM_TYPE`. -/
def paramType (id : Nat) : List (List Entry) → Option Nat
  | [] => none
  | t :: r =>
    match typeIn id t with
    | some f => some f
    | none => paramType id r

/-- `NodeDataDef`, node.c:2704-2714: the attribute and its type. -/
def dataDef (chain : List (List Entry)) (id : Nat) : Option (Nat × Nat) :=
  match paramType id chain with
  | some f => if f = 0 then none else some (id, f)
  | none => none

/-- The inner loop of `MetaFindParam`, node.c:2554-2558. -/
def paramIn (token : Bytes) : List Entry → Option Nat
  | [] => none
  | ⟨i, .name s⟩ :: r => if isame token s then some i else paramIn token r
  | _ :: r => paramIn token r

/-- `MetaFindParam`, node.c:2545-2561. -/
def findParam (token : Bytes) : List (List Entry) → Nat
  | [] => 0
  | t :: r =>
    match paramIn token t with
    | some i => i
    | none => findParam token r

/-- The four bytes of a number in the order of memory. -/
def codeBytes (id : Nat) : Bytes :=
  [UInt8.ofNat id, UInt8.ofNat (id / 2 ^ 8), UInt8.ofNat (id / 2 ^ 16), UInt8.ofNat (id / 2 ^ 24)]

/-- The number of four bytes, `FOURCC`, portab.h:264-275. -/
def codeOf : Bytes → Nat
  | [a, b, c, d] => a.toNat + b.toNat * 2 ^ 8 + c.toNat * 2 ^ 16 + d.toNat * 2 ^ 24
  | _ => 0

/-- `NodeParamName`, parser2.c:1030-1041, with a buffer of `n` characters: the text in it. `dyn` is the name the node
itself reports (`DATA_DYNNAME`). `none`: printing goes wrong. -/
def nodeParamName (chain : List (List Entry)) (dyn : Option Bytes) (id n : Nat) : Option Bytes :=
  match paramName id chain with
  | some s => some (s.take (n - 1))
  | none =>
    if id > 2 ^ 24 then some (cstr (fourccToString (codeBytes id) n))
    else
      match dyn with
      | some s => some (s.take (n - 1))
      | none =>
        match Printf.printf n (lit "_%04x") [.int id] with
        | .done t => some (t.dropLast.map UInt8.ofNat)
        | _ => none

/-- `CheckHex`, parser2.c:1043-1049. -/
def checkHex (s : Bytes) : Bool := s.all fun c => (hex c.toNat).isSome

/-- The second branch of `NodeFindDef`, parser2.c:1058-1060. -/
def idByName (chain : List (List Entry)) (token : Bytes) : Nat :=
  if findParam token chain = 0 then codeOf (stringToFourcc token false) else findParam token chain

/-- The attribute of `NodeFindDef`, parser2.c:1054-1061: an `int` becomes a `dataid` of 64 bits. -/
def idOf (chain : List (List Entry)) : Bytes → Out Nat
  | 0x5F :: t =>
    if checkHex t then (stringToInt (t.map UInt8.toNat) 1).bind fun v => .ok (v % 2 ^ 64).toNat
    else .ok (idByName chain (0x5F :: t))
  | token => .ok (idByName chain token)

/-- `NodeFindDef`, parser2.c:1051-1063. -/
def nodeFindDef (chain : List (List Entry)) (token : Bytes) : Out (Option (Nat × Nat)) :=
  (idOf chain token).bind fun id => .ok (dataDef chain id)

end Verif.Names
