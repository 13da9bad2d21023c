import Verif.Core.Attr
/-!
Model of copying the attributes of a node to another one, `NodeDup_Replace`, `CopyData` and `Node_Copy`,
corec/corec/node/node.c:2724-2801.

Simplifications: on the attributes of `Verif/Core/Attr.lean`, so without attributes whose entry is a function
(`META_PARAM_META`), nodes referenced with a count, arrays, and expressions (copied by node.c:2789-2798, not modelled).
The attributes come in the order `CopyData` meets them: those of the parent class first. Pointers are bytes. -/
namespace Verif.Attr
open Verif Verif.Core

/-- `TYPE_NODE` and `TYPE_PIN`, nodebase.h:28,43. -/
def tyNode : Nat := 10
def tyPin : Nat := 25

/-- An attribute of a class: `saved` when its type has neither `TFLAG_RDONLY` nor `TFLAG_NOSAVE`, nodebase.h:69-74. -/
structure Entry where
  attr : Attr
  saved : Bool

/-- `NodeDup_Replace`, node.c:2724-2737: the originals with what replaces them. -/
def replace : List (Bytes × Bytes) → Bytes → Bytes
  | [], p => p
  | (o, d) :: r, p => if o = p then d else replace r p

/-- The pointer in a value is replaced, node.c:2765-2769; a pin begins with its node, nodebase.h:382-387. -/
def patch (P : Plat) (dup : List (Bytes × Bytes)) (ty : Nat) (v : Bytes) : Bytes :=
  if ty = tyPin ∨ ty = tyNode then replace dup (v.take (P.psize tyNode)) ++ v.drop (P.psize tyNode) else v

/-- An attribute in `CopyData`, node.c:2757-2772: the buffer and the copy; `none`: a write out of bounds. -/
def copyOne (P : Plat) (dup : List (Bytes × Bytes)) (src : Obj) (e : Entry) (buf : Bytes) (dst : Obj) : Option (Bytes × Obj) :=
  if e.saved ∧ e.attr.ty ≠ 0 ∧ maxSize P e.attr ≠ 0 then
    if buf.length < maxSize P e.attr then none else
    match get P e.attr (buf.take (maxSize P e.attr)) src with
    | none => none
    | some (.invalidData, b) => some (b ++ buf.drop (maxSize P e.attr), dst)
    | some (.none, b) =>
      (set P e.attr (some (patch P dup e.attr.ty b)) (maxSize P e.attr) dst).map fun x =>
        (patch P dup e.attr.ty b ++ buf.drop (maxSize P e.attr), x.2)
  else some (buf, dst)

/-- `CopyData`, node.c:2739-2777. -/
def copyData (P : Plat) (dup : List (Bytes × Bytes)) (src : Obj) : List Entry → Bytes → Obj → Option Obj
  | [], _, dst => some dst
  | e :: r, buf, dst => (copyOne P dup src e buf dst).bind fun x => copyData P dup src r x.1 x.2

/-- `Node_Copy`, node.c:2779-2801: `cls` is the class of the copy with its attributes, `buf` what the `MAXDATA` bytes on
the stack happen to hold. -/
def copy (P : Plat) (dup : List (Bytes × Bytes)) (cls srcCls : Nat) (es : List Entry) (buf : Bytes) (src dst : Obj) : Option Obj :=
  if cls ≠ srcCls then some dst else copyData P dup src es buf dst

end Verif.Attr
