import Verif.Core.Attr
/-!
Model of inverting a flag of a node, `Node_Toggle`, corec/corec/node/node.c:2716-2722.
-/
namespace Verif.Attr
open Verif Verif.Core

/-- `TYPE_BOOLEAN`, nodebase.h:19. -/
def tyBool : Nat := 1

/-- `Node_Toggle`, node.c:2716-2722: what can not be read counts as 0; `none` as in `set` and `get`. -/
def toggle (P : Plat) (a : Attr) (o : Obj) : Option (Res × Obj) :=
  (get P a (List.replicate (P.psize tyBool) 0) o).bind fun x =>
    set P a (some (boolBytes (P.psize tyBool) (!NodeData.nonZero x.2))) (P.psize tyBool) o

end Verif.Attr
