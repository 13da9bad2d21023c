import Verif.Core.Printf
import Verif.Mkv.Block
/-!
Model of `var_stscanf_s` and `stscanf` (`/repo/corec/corec/str/str.c:650-814`) and of `StringToInt`, `StringToInt64`,
`IntToString` and `Int64ToString` (`/repo/corec/corec/helpers/parser/strtypes.c:92-123`).

A string is the list of its characters without the terminator; `inlen` is then the length of what is left of `In`.
Arithmetic of `int64_t v` that overflows (undefined in C) is the outcome `bad`, as is reading behind the end of the
mask. Storing `v` to an `int` keeps its low 32 bits. `Width` does not wrap around (texts below 2^31 characters).

Not modelled: the conversion `f`, which no caller uses (its outcome is `err`).
-/
namespace Verif.Scanf
open Verif Verif.Mkv

abbrev Str := List Nat

/-- `IsSpace`, str.c:816. -/
def isSpace (c : Nat) : Bool := c == 32 || c == 9 || c == 13 || c == 10

/-- `IsDigit`, str.c:818, with the value of the digit. -/
def digit (c : Nat) : Option Nat := if 48 ≤ c ∧ c ≤ 57 then some (c - 48) else none

/-- `Hex`, str.c:820-829. -/
def hex (c : Nat) : Option Nat :=
  if 48 ≤ c ∧ c ≤ 57 then some (c - 48)
  else if 97 ≤ c ∧ c ≤ 102 then some (c - 97 + 10)
  else if 65 ≤ c ∧ c ≤ 70 then some (c - 65 + 10)
  else none

/-- The digits of `%o`, str.c:739-742. -/
def octal (c : Nat) : Option Nat := if 48 ≤ c ∧ c ≤ 55 then some (c - 48) else none

/-- An `int64_t` result, undefined if out of range. -/
def i64 (v : Int) : Out Int := if -2 ^ 63 ≤ v ∧ v < 2 ^ 63 then .ok v else .bad

/-- The loops over digits, str.c:691-696, 715-716 and 737-743: the value and what is left. -/
def number (base : Nat) (val : Nat → Option Nat) : Str → Int → Int → Out (Int × Str)
  | [], _, v => .ok (v, [])
  | c :: s, width, v =>
    if width = 0 then .ok (v, c :: s)
    else
      match val c with
      | none => .ok (v, c :: s)
      | some d => (i64 (v * base)).bind fun x => (i64 (x + d)).bind fun y => number base val s (width - 1) y

/-- What a conversion stores, `int` or `int64_t`. -/
inductive Stored where
  | int (v : Int)
  | long (v : Int)
deriving DecidableEq, Repr

/-- The low 32 bits as an `int`. -/
def low32 (v : Int) : Int := (v + 2 ^ 31) % 2 ^ 32 - 2 ^ 31

/-- A numeric conversion, str.c:683-705, 707-728 and 730-751. `signWidth`: the sign counts for the width (only in `%x`).
`none` is `In = NULL`. -/
def convert (base : Nat) (val : Nat → Option Nat) (signWidth : Bool) (width : Int) (s : Str) : Out (Option (Int × Str)) :=
  let s := s.dropWhile isSpace
  let neg := s.head? = some 0x2D
  let t := if neg then s.drop 1 else s
  let width := if neg ∧ signWidth then width - 1 else width
  (number base val t width 0).bind fun r =>
    (if neg then i64 (-r.1) else .ok r.1).bind fun v =>
      .ok (if r.2.length = s.length then none else some (v, r.2))

/-- The width behind a `%`, str.c:667-673. -/
def width : Str → Int × Str := fun m =>
  let ds := m.takeWhile fun c => (digit c).isSome
  (if ds = [] then -1 else ds.foldl (fun a c => a * 10 + (c - 48 : Nat)) 0, m.drop ds.length)

/-- The loop over the mask, str.c:660-800: what the call stores, in order. `long` is `Long`, which is never reset. -/
def loop : Nat → Option Str → Bool → Str → List Stored → Out (List Stored)
  | 0, _, _, _, out => .ok out
  | fuel + 1, inp, long, mask, out =>
    match inp, mask with
    | none, _ => .ok out
    | some [], _ => .ok out
    | some _, [] => .ok out
    | some (i :: s), c :: mask =>
      if c = 0x25 then
        let (w, m) := width mask
        let ls := m.takeWhile (· == 0x6C)
        let long := long || !ls.isEmpty
        match m.drop ls.length with
        | [] => .bad
        | k :: m =>
          let conv (r : Out (Option (Int × Str))) (store : Int → Stored) : Out (List Stored) :=
            r.bind fun x =>
              match x with
              | none => loop fuel none long m out
              | some (v, s') => loop fuel (some s') long m (out ++ [store v])
          if k = 0x78 ∨ k = 0x58 then conv (convert 16 hex true w (i :: s)) fun v => .int (low32 v)
          else if k = 0x64 ∨ k = 0x69 then
            conv (convert 10 digit false w (i :: s)) fun v => if long then .long v else .int (low32 v)
          else if k = 0x6F then conv (convert 8 octal false w (i :: s)) fun v => .int (low32 v)
          else if k = 0x66 then .err
          else loop fuel (some (i :: s)) long m out
      else if c = 9 ∨ c = 0x20 then loop fuel (some ((i :: s).dropWhile isSpace)) long mask out
      else loop fuel (if c = i then some s else none) long mask out

/-- `stscanf(In,Mask,...)`, str.c:805-814: what is stored through the pointers, in order. -/
def scanf (inp mask : Str) : Out (List Stored) := loop mask.length (some inp) false mask []

/-- The value of an `int` variable that was `0` before the call, when it is argument `k`. -/
def slot (out : List Stored) (k : Nat) : Int :=
  match out[k]? with
  | some (.int v) => v
  | _ => 0

/-- Characters of a literal. -/
def lit (s : String) : Str := s.toList.map Char.toNat

/-- `StringToInt`, strtypes.c:92-103. -/
def stringToInt (inp : Str) (hexMode : Int) : Out Int :=
  let t := inp.dropWhile isSpace
  let pre := t.take 2 = lit "0x"
  let isHex := if hexMode < 0 then decide pre else hexMode ≠ 0
  let s := if hexMode < 0 then (if pre then t.drop 2 else t) else inp
  (scanf s (lit (if isHex then "%X" else "%d"))).bind fun out => .ok (slot out 0)

/-- A `uint64_t` as an `int64_t`. -/
def wrap64 (v : Int) : Int := (v + 2 ^ 63) % 2 ^ 64 - 2 ^ 63

/-- `StringToInt64`, strtypes.c:105-110. -/
def stringToInt64 (inp : Str) : Out Int :=
  (scanf inp (lit "0x%8x%8x")).bind fun out => .ok (wrap64 (slot out 0 * 2 ^ 32 + slot out 1))

/-- `IntToString`, strtypes.c:120-123, of an `int32_t`. -/
def intToString (n : Nat) (p : Int) (hexMode : Bool) : Printf.O :=
  Printf.printf n (lit (if hexMode then "0x%08X" else "%d")) [.int p]

/-- `Int64ToString`, strtypes.c:112-118: the halves are passed as `uint32_t`, which `%d` and `%X` take as `int`. -/
def int64ToString (n : Nat) (p : Int) (hexMode : Bool) : Printf.O :=
  if ¬ hexMode ∧ 0 ≤ p ∧ p < 2 ^ 32 then Printf.printf n (lit "%d") [.int (low32 p)]
  else Printf.printf n (lit (if hexMode then "0x%08X%08X" else "%d%d")) [.int (low32 (p / 2 ^ 32)), .int (low32 p)]

end Verif.Scanf
