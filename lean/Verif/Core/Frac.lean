import Verif.Core.Scanf
/-!
Model of the numbers and fractions of `/repo/corec/corec/helpers/parser/parser2.c:764-1012` (`ReadHex`, `ExprIsHex`, `ExprIsIntEx`,
`ExprIsInt64Ex`, `ExprIsInt`, `ExprIsInt64`, `ExprIsFrac`, `SimplifyFrac`) and of `FractionToString`
(`/repo/corec/corec/helpers/parser/strtypes.c:43-90`).

`intptr_t` and `int_fast32_t` have 64 bits, as on 64-bit Unix systems, so that `ExprIsInt` and `ExprIsInt64` are the same function. Texts are
lists of characters without their terminator. Signed arithmetic that overflows is the outcome `bad`.
-/
namespace Verif.Frac
open Verif Verif.Mkv Verif.Scanf

/-- `INT_MAX`. -/
def intMax : Nat := 2 ^ 31 - 1

/-! ### Numbers in text -/

/-- The sign of `ExprIsHex`, `ExprIsInt` and the others, parser2.c:799-801, 845-847, 874-876, 903-905 and 929-931. -/
def takeSign (s : Str) : Bool × Str :=
  match s with
  | [] => (false, [])
  | c :: t => if c = 0x2D ∨ c = 0x2B then (c == 0x2D, t) else (false, s)

/-- `ExprIsInt` and `ExprIsInt64`, parser2.c:898-948: the number and the text behind it; `none` is the result 0. -/
def exprInt (s : Str) : Out (Option (Int × Str)) :=
  let t := (takeSign s).2
  if t.head?.bind digit = none then .ok none
  else (number 10 digit t (-1) 0).bind fun r =>
    (if (takeSign s).1 then i64 (-r.1) else .ok r.1).bind fun v => .ok (some (v, r.2))

/-- The loop of `ExprIsIntEx` and `ExprIsInt64Ex`, parser2.c:852-856 and 881-885, entered with `s` at a digit: the number, what is left of
`Size`, and `s+1`. -/
def exLoop : Str → Int → Int → Out (Int × Int × Str)
  | [], size, v => .ok (v, size, [])
  | c :: s, size, v =>
    (i64 (v * 10)).bind fun x => (i64 (x + ((c : Int) - 48))).bind fun y =>
      if size - 1 ≠ 0 ∧ (s.head?.bind digit).isSome then exLoop s (size - 1) y else .ok (y, size - 1, s)

/-- `ExprIsIntEx` and `ExprIsInt64Ex`, parser2.c:840-896. -/
def exprIntEx (s : Str) (size : Int) : Out (Option (Int × Str)) :=
  let t := (takeSign s).2
  if t.head?.bind digit = none then .ok none
  else (exLoop t size 0).bind fun r =>
    if r.2.1 ≠ 0 then .ok none
    else (if (takeSign s).1 then i64 (-r.1) else .ok r.1).bind fun v => .ok (some (v, r.2.2))

/-- `ExprIsHex`, parser2.c:795-813, with `ReadHex(&s,Out,0,Neg)`, parser2.c:764-793. -/
def exprHex (s : Str) : Out (Option (Int × Str)) :=
  let t := (takeSign s).2
  if t.take 2 = lit "0x" then
    let u := t.drop 2
    if u.head?.bind hex = none then .ok none
    else (number 16 hex u (-1) 0).bind fun r =>
      (if (takeSign s).1 then i64 (-r.1) else .ok r.1).bind fun v => .ok (some (v, r.2))
  else .ok none

/-! ### Fractions -/

/-- The loop of Euclid in `SimplifyFrac`, parser2.c:990-995, with the rounds left; `none` is `n==MAX_GCD_ITER`. -/
def euclid : Nat → Nat → Nat → Option Nat
  | 0, _, _ => none
  | k + 1, a, b => if a > 0 ∧ b > 0 then euclid k (b % a) a else some b

/-- The loop that makes both numbers fit, parser2.c:1003-1007. 64 rounds suffice, see `shrink_fits`. -/
def shrink : Nat → Nat → Nat → Nat × Nat
  | 0, n, d => (n, d)
  | k + 1, n, d => if n > intMax ∨ d > intMax then shrink k (n / 2) (d / 2) else (n, d)

/-- `SimplifyFrac`, parser2.c:977-1012. `llabs` of the lowest number is undefined. -/
def simplify (num den : Int) : Out (Int × Int) :=
  if num = -2 ^ 63 ∨ den = -2 ^ 63 then .bad
  else
    let sign := decide (num < 0) != decide (den < 0)
    let n := num.natAbs
    let d := den.natAbs
    let r :=
      if n > intMax ∨ d > intMax then
        let g := match euclid 128 n d with
          | some b => if b > 1 then b else 1
          | none => 1
        shrink 64 (n / g) (d / g)
      else (n, d)
    .ok (if sign then -(r.1 : Int) else r.1, r.2)

/-- The decimals of `ExprIsFrac`, parser2.c:964-968. -/
def decimals : Str → Int → Int → Out (Int × Int × Str)
  | [], n, d => .ok (n, d, [])
  | c :: s, n, d =>
    match digit c with
    | none => .ok (n, d, c :: s)
    | some x => (i64 (n * 10)).bind fun y => (i64 (y + x)).bind fun z => (i64 (d * 10)).bind fun w => decimals s z w

/-- `ExprIsFrac`, parser2.c:950-973. -/
def exprFrac (s : Str) : Out (Option ((Int × Int) × Str)) :=
  (exprInt s).bind fun r =>
    match r with
    | none => .ok none
    | some (v, t) =>
      (if t.head? = some 0x2E ∨ t.head? = some 0x2C then decimals (t.drop 1) v 1 else .ok (v, 1, t)).bind fun x =>
        (simplify x.1 x.2.1).bind fun f => .ok (some (f, x.2.2))

/-! ### The text of a fraction -/

/-- The loop for percentages, strtypes.c:51-55; the shifts of negative numbers round down. -/
def percentFit : Nat → Int → Int → Int × Int
  | 0, n, d => (n, d)
  | k + 1, n, d => if n.natAbs > intMax / 100 then percentFit k (n / 2) (d / 2) else (n, d)

/-- strtypes.c:49-81: `a` and `b`. The power of ten is an `int`. -/
def fracParts (num den percent decimal : Int) : Out (Int × Int) :=
  let p := if percent ≠ 0 then percentFit 64 num den else (num, den)
  let num := if percent ≠ 0 then p.1 * 100 else p.1
  let den := p.2
  if den ≠ 0 then
    if decimal > 9 then .bad
    else
      let b : Int := 10 ^ decimal.toNat
      let n := if den < 0 then -num else num
      let d := if den < 0 then -den else den
      let n := if n > 0 then
          let r := d.tdiv (2 * b)
          if n < intMax - r then n + r else intMax
        else n
      let a := n.tdiv d
      .ok (a, ((n - a * d) * b).tdiv d)
  else .ok (0, 0)

/-- `tcscat_s` of a text to a terminated one in a buffer of `n` characters (its effect, see `C58_bounded_append`). -/
def catText (n : Nat) (t : Str) : Printf.O → Printf.O
  | .done b => .done ((b.dropLast ++ t).take (n - 1) ++ [0])
  | o => o

/-- `FractionToString`, strtypes.c:43-90, into a buffer of `n` characters. -/
def fractionToString (n : Nat) (num den percent decimal : Int) : Out Printf.O :=
  (fracParts num den percent decimal).bind fun r =>
    let o := if decimal ≠ 0 then Printf.printf n (lit "%d.%0*d") [.int r.1, .int decimal, .int r.2]
      else Printf.printf n (lit "%d") [.int r.1]
    .ok (if percent > 0 then catText n (lit "%") o else o)

end Verif.Frac
