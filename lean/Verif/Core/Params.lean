import Verif.Core.Scanf
/-!
Model of the functions that take parameters from a text: `ExprSkipAfter`, `ExprSkipSpace`, `ExprTrimSpace`, `ExprIsName`,
`ExprIsSymbol`, `ExprIsSymbol2`, `ExprParamEnd` and `ExprParamNext`, corec/corec/helpers/parser/parser2.c:576-610, 707-762.

A text is the list of its characters without the terminator (`Verif/Core/Scanf.lean`). `none`: the pointer is moved behind
the terminator.
-/
namespace Verif.Params
open Verif Verif.Scanf

/-- `ExprSkipSpace`, parser2.c:591-597. -/
def skipSpace : Str → Str
  | [] => []
  | c :: s => if isSpace c then skipSpace s else c :: s

/-- `ExprSkipAfter`, parser2.c:576-589; `ch` 0 stands for spaces. -/
def skipAfter (ch : Nat) : Str → Bool × Str
  | [] => (false, [])
  | c :: s =>
    if (ch ≠ 0 ∧ c = ch) ∨ (ch = 0 ∧ isSpace c) then (true, if ch = 0 then skipSpace s else s)
    else skipAfter ch s

/-- `ExprTrimSpace`, parser2.c:599-610: spaces are cut from the end. -/
def trimEnd : Str → Str
  | [] => []
  | c :: s => if isSpace c ∧ trimEnd s = [] then [] else c :: trimEnd s

/-- The loop of `ExprIsName`, parser2.c:712-718: what is stored in `room` characters (with the terminator), and the rest. -/
def nameLoop (delim : Str) : Str → Nat → Str × Str
  | [], _ => ([], [])
  | c :: s, room =>
    if isSpace c ∨ c ∈ delim then ([], c :: s)
    else if room > 1 then
      let r := nameLoop delim s (room - 1)
      (c :: r.1, r.2)
    else nameLoop delim s room

/-- `ExprIsName`, parser2.c:707-724: found or not, the name stored, the rest. -/
def isName (delim : Str) (s : Str) (room : Nat) : Bool × Str × Str :=
  let r := nameLoop delim (skipSpace s) room
  (!r.1.isEmpty, r.1, r.2)

/-- `ExprIsSymbol`, parser2.c:726-738. -/
def isSymbol (ch : Nat) (s : Str) : Option (Bool × Str) :=
  if s = [] then some (false, s)
  else
    match skipSpace s with
    | [] => if ch = 0 then none else some (false, [])
    | c :: r => if c = ch then some (true, r) else some (false, c :: r)

/-- `ExprIsSymbol2`, parser2.c:740-749. -/
def isSymbol2 (ch ch2 : Nat) (s : Str) : Option (Bool × Str) :=
  match skipSpace s with
  | [] => if ch = 0 then none else some (false, [])
  | [c] => if c = ch ∧ ch2 = 0 then none else some (false, [c])
  | c :: d :: r => if c = ch ∧ d = ch2 then some (true, r) else some (false, c :: d :: r)

/-- `ExprParamEnd`, parser2.c:751-754: `)` is 41. -/
def paramEnd (s : Str) : Option Str := (isSymbol 41 s).map (·.2)

/-- `ExprParamNext`, parser2.c:756-762: `,` is 44. -/
def paramNext (s : Str) : Option (Bool × Str) :=
  (isSymbol 44 s).bind fun r => if r.1 then some (true, r.2) else (paramEnd r.2).map fun t => (false, t)

/-- A list of parameters taken with these functions: a name, and as long as there is a next one, another; `fuel` bounds
the number of names. Not a function of the sources, but the use the functions are made for. -/
def readList (delim : Str) (room : Nat) : Nat → Str → Option (List Str × Str)
  | 0, s => some ([], s)
  | fuel + 1, s =>
    let n := isName delim s room
    (paramNext n.2.2).bind fun r =>
      if r.1 then (readList delim room fuel r.2).map fun t => (n.2.1 :: t.1, t.2)
      else some ([n.2.1], r.2)

end Verif.Params
