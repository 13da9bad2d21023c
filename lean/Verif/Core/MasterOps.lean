import Verif.Core.Node
import Verif.Core.Sort
/-!
Counting, taking out, deleting and sorting the children of a master, libebml2/ebmlmaster.c:97-104 and
115-152, on the memory of `Verif.Core.Node`. A comparison is a function of two nodes here.
-/
namespace Verif.NodeTree
open Verif

/-- The loop of `EBML_MasterCount`, ebmlmaster.c:101-102. -/
def countLoop : Nat → Heap → Cell → Nat → Option Nat
  | 0, _, _, _ => none
  | fuel + 1, h, i, n =>
    match h.get i with
    | none => none
    | some v => if v = 0 then some n else countLoop fuel h (.next v) (n + 1)

/-- `EBML_MasterCount`, ebmlmaster.c:97-104. -/
def masterCount (h : Heap) (p : Nat) : Option Nat := countLoop (h.top + 1) h (.kids p) 0

/-- The loop of `EBML_MasterClear`, ebmlmaster.c:141-145. -/
def masterClearLoop : Nat → Heap → Nat → Option Heap
  | 0, _, _ => none
  | fuel + 1, h, p =>
    match h.get (.kids p) with
    | none => none
    | some c =>
      if c ≠ 0 then
        match setParent h c 0 0 with
        | none => none
        | some h1 => masterClearLoop fuel h1 p
      else some h

/-- `EBML_MasterClear`, ebmlmaster.c:138-146. -/
def masterClear (h : Heap) (p : Nat) : Option Heap := masterClearLoop (h.top + 1) h p

/-- The loop of `EBML_MasterErase`, ebmlmaster.c:150-151, with `NodeTree_DetachAndRelease`,
nodetree.c:29-35, of the first child. -/
def masterEraseLoop : Nat → Heap → Nat → Option Heap
  | 0, _, _ => none
  | fuel + 1, h, p =>
    match h.get (.kids p) with
    | none => none
    | some c =>
      if c ≠ 0 then
        match setParent h c 0 0 with
        | none => none
        | some h1 =>
          match release (h1.top + 2) h1 c with
          | none => none
          | some h2 => masterEraseLoop fuel h2 p
      else some h

/-- `EBML_MasterErase`, ebmlmaster.c:148-152. -/
def masterErase (h : Heap) (p : Nat) : Option Heap := masterEraseLoop (h.top + 1) h p

/-- Putting the elements of the array back, ebmlmaster.c:130-134. -/
def refill (p : Nat) : List Nat → Heap → Option Heap
  | [], h => some h
  | c :: r, h =>
    match setParent h c p 0 with
    | none => none
    | some h1 => refill p r h1

/-- `EBML_MasterSort`, ebmlmaster.c:115-136. The array does not run out of memory here. -/
def sortMaster (cmp : Nat → Nat → Int) (h : Heap) (p : Nat) : Option Heap :=
  match childrenOf h p with
  | none => none
  | some l =>
    match Core.masterSort cmp l with
    | none => none
    | some l' =>
      match masterClear h p with
      | none => none
      | some h1 => refill p l' h1

end Verif.NodeTree
