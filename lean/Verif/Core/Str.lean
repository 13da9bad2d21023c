import Verif.Base.Bytes
/-!
Model of the string helpers of corec/corec/str/str.c and of `StringToFourCC` in
corec/corec/helpers/parser/strtypes.c.

`tchar_t` is `char`, taken as signed (Linux on x86). A C string given as an argument is the
list of its characters, without the terminating NUL (and without NUL in it); a destination is
the list of all bytes of its memory.
-/
namespace Verif.Core
open Verif

/-- A character as an `int`: `char` is signed. -/
def chr (c : UInt8) : Int := if c.toNat < 128 then c.toNat else (c.toNat : Int) - 256

/-- `ascii_upper`, str.c:10-15. -/
def asciiUpper (c : Int) : Int := if 97 ≤ c ∧ c ≤ 122 then c - 32 else c

/-- The letter test inside of `icmp_ascii` and `isame_ascii`, str.c:25-41 and 56-68: two
different characters count as equal when they differ in bit 0x20 only and are letters. -/
def sameLetter (a b : UInt8) : Bool :=
  ((b ^^^ a) &&& ~~~(0x20 : UInt8)) == 0 && (a &&& ~~~(0x20 : UInt8)) ≥ 65 && (a &&& ~~~(0x20 : UInt8)) ≤ 90

/-- `tcsicmp_ascii`, str.c:43-54. The end of a list is the NUL character. -/
def icmp : Bytes → Bytes → Int
  | [], [] => 0
  | [], b :: _ => asciiUpper 0 - asciiUpper (chr b)
  | a :: _, [] => asciiUpper (chr a) - asciiUpper 0
  | a :: as, b :: bs =>
    if a = b ∨ sameLetter a b then icmp as bs else asciiUpper (chr a) - asciiUpper (chr b)

/-- `tcsisame_ascii`, str.c:70-81. -/
def isame : Bytes → Bytes → Bool
  | [], [] => true
  | [], _ :: _ => false
  | _ :: _, [] => false
  | a :: as, b :: bs => if a = b ∨ sameLetter a b then isame as bs else false

/-- `tcsnicmp_ascii`, str.c:83-92. -/
def nicmp : Nat → Bytes → Bytes → Int
  | 0, _, _ => 0
  | _ + 1, [], [] => 0
  | _ + 1, [], b :: _ => asciiUpper 0 - asciiUpper (chr b)
  | _ + 1, a :: _, [] => asciiUpper (chr a) - asciiUpper 0
  | n + 1, a :: as, b :: bs =>
    if a = b ∨ sameLetter a b then nicmp n as bs else asciiUpper (chr a) - asciiUpper (chr b)

/-- Difference at the first place where two lists differ; the end counts as 0. -/
def cmpInts : List Int → List Int → Int
  | [], [] => 0
  | [], b :: _ => 0 - b
  | a :: _, [] => a - 0
  | a :: as, b :: bs => if a = b then cmpInts as bs else a - b

/-- `tcscmp` is `strcmp` of the C library (only its sign is specified): characters compare as
`unsigned char`. -/
def strcmp (a b : Bytes) : Int := cmpInts (a.map fun c => (c.toNat : Int)) (b.map fun c => (c.toNat : Int))

/-- Writing `bs` into memory at offset `i`; `none` is a write outside of the memory. -/
def store (mem : Bytes) (i : Nat) (bs : Bytes) : Option Bytes :=
  if i + bs.length ≤ mem.length then some (mem.take i ++ bs ++ mem.drop (i + bs.length)) else none

/-- `tcslen` on memory; `none` is a read outside of the memory. -/
def strlen (mem : Bytes) : Option Nat :=
  let n := (mem.takeWhile (· != 0)).length
  if n < mem.length then some n else none

/-- `tcsncpy_s(Out+i,OutLen,In,n)`, str.c:106-116. -/
def strncpyS (mem : Bytes) (i : Nat) (outLen : Nat) (s : Bytes) (n : Nat) : Option Bytes :=
  if outLen > 0 then
    let n := min (min s.length n) (outLen - 1)
    (store mem i (s.take n)).bind fun m => store m (i + n) [0]
  else some mem

/-- `tcscpy_s(Out+i,OutLen,In)`, str.c:94-104. -/
def strcpyS (mem : Bytes) (i : Nat) (outLen : Nat) (s : Bytes) : Option Bytes :=
  if outLen > 0 then
    let n := min s.length (outLen - 1)
    (store mem i (s.take n)).bind fun m => store m (i + n) [0]
  else some mem

/-- `tcscat_s`, str.c:118-128. -/
def strcatS (mem : Bytes) (outLen : Nat) (s : Bytes) : Option Bytes :=
  if outLen > 0 then
    (strlen mem).bind fun n => if outLen > n then strcpyS mem n (outLen - n) s else some mem
  else some mem

/-- `tcsncat_s`, str.c:130-140. -/
def strncatS (mem : Bytes) (outLen : Nat) (s : Bytes) (k : Nat) : Option Bytes :=
  if outLen > 0 then
    (strlen mem).bind fun n => if outLen > n then strncpyS mem n (outLen - n) s k else some mem
  else some mem

/-- `toupper` in the C locale, on `char`. -/
def toUpper (c : UInt8) : UInt8 := if 97 ≤ c ∧ c ≤ 122 then c - 32 else c

/-- The loop of `FourCCToString` that removes trailing underscores, str.c:890-891. -/
def dropUnderscores (s : Bytes) : Bytes := (s.reverse.dropWhile (· == 0x5F)).reverse

/-- `FourCCToString`, str.c:876-897, on the four bytes of the code in memory order: the
characters before the terminator (which is `Out[i]`), for `OutLen > 0`. The text the caller
sees ends at the first NUL. -/
def fourccToString (code : Bytes) (outLen : Nat) : Bytes :=
  dropUnderscores (code.take (min 4 (outLen - 1)))

/-- The text a caller sees. -/
def cstr (mem : Bytes) : Bytes := mem.takeWhile (· != 0)

/-- `StringToFourCC`, strtypes.c:15-34: the four bytes in memory order (`FOURCC`,
portab.h:264-275), all zero for the empty string. -/
def stringToFourcc (s : Bytes) (upper : Bool) : Bytes :=
  if s = [] then [0, 0, 0, 0]
  else
    let t := s.take 4
    let t := if upper then t.map toUpper else t
    t ++ List.replicate (4 - t.length) 0x5F

/-- The test behind a match in `StrListIndex`: end of the list, comma or space. -/
def itemEnds : Bytes → Bool
  | [] => true
  | c :: _ => c == 0x2C || c == 0x20

/-- The loop of `StrListIndex`: compare at the start of the item, else go behind the next
comma. The fuel is the number of commas that may follow. -/
def listLoop (s : Bytes) : Nat → Bytes → Nat → Int
  | fuel, l, i =>
    if nicmp s.length l s = 0 ∧ itemEnds (l.drop s.length) = true then i
    else
      match fuel, l.dropWhile (· != 0x2C) with
      | f + 1, _ :: rest => listLoop s f rest (i + 1)
      | _, _ => -1

/-- `StrListIndex`, str.c:847-866: the position of `s` in a comma-separated list, -1 if it is
not there. -/
def listIndex (s l : Bytes) : Int :=
  if l = [] ∨ s = [] then -1 else listLoop s l.length l 0

end Verif.Core
