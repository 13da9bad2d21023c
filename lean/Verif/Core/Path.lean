/-!
Model of `ReduceLocalPath`, corec/corec/helpers/file/tools.c:302-349, where the delimiter is `/`
(not TARGET_WIN). A string is the list of its characters without the terminator.
-/
namespace Verif.Path

/-- `tcsstr`: the first place of `pat`. -/
def findSub (pat : List Nat) : List Nat → Option Nat
  | [] => if pat.isPrefixOf [] then some 0 else none
  | c :: s => if pat.isPrefixOf (c :: s) then some 0 else (findSub pat s).map (· + 1)

/-- `T("://")`, `T("//")`, `T("/..")`. -/
def proto : List Nat := [0x3A, 0x2F, 0x2F]
def dbl : List Nat := [0x2F, 0x2F]
def up : List Nat := [0x2F, 0x2E, 0x2E]

/-- One round of the first loop, tools.c:314-322: `memmove(Back,Back+1,...)`; `none` is its end. -/
def dblStep (s : List Nat) : Option (List Nat) :=
  match findSub dbl s with
  | none => none
  | some p => some (s.take p ++ s.drop (p + 1))

/-- The first loop: the string after at most `n` rounds, `none` when it has not ended by then. -/
def dblLoop : Nat → List Nat → Option (List Nat)
  | 0, s => if dblStep s = none then some s else none
  | n + 1, s =>
    match dblStep s with
    | none => some s
    | some s' => dblLoop n s'

/-- `while (--Folder >= Abs) if (*Folder == '/')`, tools.c:332-343: the last `/` before place `p`. -/
def slashBefore (s : List Nat) : Nat → Option Nat
  | 0 => none
  | p + 1 => if s[p]? = some 0x2F then some p else slashBefore s p

/-- One round of the second loop, tools.c:329-348: without a `/` in front the string stays. -/
def upStep (s : List Nat) : Option (List Nat) :=
  match findSub up s with
  | none => none
  | some p =>
    match slashBefore s p with
    | none => some s
    | some q => some (s.take q ++ s.drop (p + 3))

/-- The second loop: its result within `n` rounds. -/
def upLoop : Nat → List Nat → Option (List Nat)
  | 0, s => if upStep s = none then some s else none
  | n + 1, s =>
    match upStep s with
    | none => some s
    | some s' => upLoop n s'

/-- The part after the protocol. -/
def reduceBody (n m : Nat) (s : List Nat) : Option (List Nat) :=
  match dblLoop n s with
  | none => none
  | some s' => upLoop m s'

/-- `ReduceLocalPath`, with `n` and `m` rounds of its loops: `none` when they are not enough. -/
def reduce (n m : Nat) (s : List Nat) : Option (List Nat) :=
  match findSub proto s with
  | none => reduceBody n m s
  | some p => (reduceBody n m (s.drop (p + 3))).map (s.take (p + 3) ++ ·)

end Verif.Path
