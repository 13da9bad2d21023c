import Verif.Base.Bytes
import Verif.Core.Str
/-!
Model of the values stored under an id in a node (`/repo/corec/corec/node/node.c:484-631`).

Simplifications: allocations succeed; `TYPE_EXPR`, `TYPE_NODENOTIFY` and `TYPE_NOTIFYEX`, whose release runs other
code, are left out; types carry no flags (below 256). A value is the bytes the caller's pointer leads to, as many as
`Node_DataSize` counts: those of the type, or a string with its terminator. `w` is the width of `uint_fast32_t`.
-/
namespace Verif.NodeData
open Verif Verif.Core

/-- `nodedata` entries of a node in list order: code and bytes. -/
abbrev Store := List (Nat × Bytes)

/-- `(Id<<DYNDATA_SHIFT)|Type`, node.c:488,502,534,624. -/
def code (w id ty : Nat) : Nat := (id <<< 8 ||| ty) % 2 ^ w

/-- `TYPE_STRING`, nodebase.h:22; the types of variable size in `ParamSize`, node.c:18-62. -/
def tyString : Nat := 4
def variableSize (ty : Nat) : Bool := [4, 16, 27, 31, 32].contains ty

/-- `Node_GetData`, node.c:622-631. -/
def getCode (c : Nat) : Store → Option Bytes
  | [] => none
  | (k, v) :: s => if k = c then some v else getCode c s

def getData (w id ty : Nat) (s : Store) : Option Bytes := getCode (code w id ty) s

/-- `Node_RemoveData`, node.c:500-512: the first entry. -/
def removeCode (c : Nat) : Store → Store
  | [] => []
  | (k, v) :: s => if k = c then s else (k, v) :: removeCode c s

/-- `memcpy` over the first entry, node.c:570-577. -/
def overwrite (c : Nat) (d : Bytes) : Store → Store
  | [] => []
  | (k, v) :: s => if k = c then (k, d) :: s else (k, v) :: overwrite c d s

/-- Is there a byte that is not 0? node.c:551-553. -/
def nonZero (d : Bytes) : Bool := d.any (· ≠ 0)

/-- `SetData`, node.c:547-584, with `Node_AddData` 514-545; `[]` stands for a NULL pointer. -/
def setData (w id ty : Nat) (d : Bytes) (s : Store) : Store :=
  if variableSize ty then
    if nonZero d then (code w id ty, d) :: removeCode (code w id ty) s else removeCode (code w id ty) s
  else if nonZero d then
    match getCode (code w id ty) s with
    | none => (code w id ty, d) :: s
    | some _ => overwrite (code w id ty) d s
  else removeCode (code w id ty) s

/-- `Node_ReadData`, node.c:586-608, into a buffer `buf`; `none` is a write behind it, the flag tells success. -/
def readData (w id ty : Nat) (s : Store) (buf : Bytes) : Option (Bool × Bytes) :=
  match getData w id ty s with
  | some v =>
    if ty = tyString then (strcpyS buf 0 buf.length (cstr v)).map fun m => (true, m)
    else if v.length > buf.length then some (false, buf)
    else some (true, v ++ buf.drop v.length)
  | none =>
    if ty = tyString then (store buf 0 [0]).map fun m => (true, m)
    else some (true, List.replicate buf.length 0)

/-- What a program does with the values of one node. -/
structure Set where
  id : Nat
  ty : Nat
  data : Bytes

def run (w : Nat) (ops : List Set) (s : Store) : Store := ops.foldl (fun s o => setData w o.id o.ty o.data s) s

/-! References held by values of type `TYPE_NODE_REF` (pointers of nodes, here as numbers; 0 is NULL). -/

/-- `TYPE_NODE_REF`, nodebase.h:41. -/
def tyNodeRef : Nat := 23

/-- Pointers in entries, with the number of references each node has. -/
structure Refs where
  entries : List (Nat × Nat)
  count : Nat → Int

def bump (f : Nat → Int) (n : Nat) (k : Int) : Nat → Int := fun m => if m = n then f m + k else f m

/-- `SetData` of a pointer, node.c:547-584: a new entry takes a reference (538-539), removing one releases
(470-472), and writing over one does neither. -/
def setRef (c n : Nat) (r : Refs) : Refs :=
  match r.entries.lookup c with
  | none => if n = 0 then r else ⟨(c, n) :: r.entries, bump r.count n 1⟩
  | some old =>
    if n = 0 then ⟨r.entries.eraseP (fun e => e.1 = c), bump r.count old (-1)⟩
    else ⟨r.entries.map fun e => if e.1 = c then (c, n) else e, r.count⟩

end Verif.NodeData
