import Verif.Ebml.Elt
import Verif.Ebml.Parse
/-!
Model of the text conversion as built on Linux
(`/repo/corec/corec/helpers/charconvert/charconvert_linux.c`) and of the text elements
(`/repo/libebml2/ebmlstring.c:12-50`).

`iconv` is external. A converter is a function from the bytes of a whole input to the bytes of the
whole output, or `none` if the input is not valid or not complete. `iconv` is taken to fail when the
output does not fit (what it has written until then is overwritten by the code), and closing a text
(the second call) to add no bytes, which is so for encodings without shift states.

Texts are C strings without the zero at their end. `tchar_t` is `char`.
-/
namespace Verif.Ebml.Text

/-- An open converter; NULL if none is needed or none could be opened, charconvert_linux.c:180-200. -/
abbrev Conv := Option (Bytes → Option Bytes)

/-- `CharConvOpen`, charconvert_linux.c:180-200: no name is the name of the character set of the
locale, and nothing is opened for two names that differ in case only. `lower` is the folding of
`tcsicmp`, `iconvOpen` is external. -/
def convOpen (lower : Bytes → Bytes) (iconvOpen : Bytes → Bytes → Conv) (current : Bytes) (src dst : Bytes) : Conv :=
  let s := if src = [] then current else src
  let d := if dst = [] then current else dst
  if lower d = lower s then none else iconvOpen d s

/-- What `iconv` leaves in a room of `room` bytes; `none` is a return of -1. -/
def iconvInto (cc : Conv) (room : Nat) (inp : Bytes) : Option Bytes :=
  match cc with
  | none => none
  | some f =>
    match f inp with
    | some w => if w.length ≤ room then some w else none
    | none => none

/-- `CharConvSS`, charconvert_linux.c:29-53: the bytes laid down in `Out`, which has `cap` bytes;
`none` is a write behind it. The terminator of the text is converted with it and another one is
written behind. -/
def convSS (cc : Conv) (cap n : Nat) (s : Bytes) : Option Bytes :=
  if n = 0 then some []
  else
    let out := match iconvInto cc n (s ++ [0]) with
      | some w => w ++ [0]
      | none => s.take (n - 1) ++ [0]
    if out.length ≤ cap then some out else none

/-- The bytes of a unit of `k` bytes, lowest first. -/
def unitBytes : Nat → Nat → Bytes
  | 0, _ => []
  | k + 1, u => UInt8.ofNat (u % 256) :: unitBytes k (u / 256)

/-- `CharConvSW` (`k = 4`) and `CharConvSU` (`k = 2`), charconvert_linux.c:77-97 and 121-141: the
text has `s.length` units, and `iconv` is told so many bytes and one more. -/
def convSK (k : Nat) (cc : Conv) (cap n : Nat) (s : List Nat) : Option Bytes :=
  if n = 0 then some []
  else
    let out := match iconvInto cc n (((s ++ [0]).flatMap (unitBytes k)).take (s.length + 1)) with
      | some w => w ++ [0]
      | none => (s.take (n - 1)).map (fun u => if u > 255 then 42 else UInt8.ofNat u) ++ [0]
    if out.length ≤ cap then some out else none

/-- `CharConvWS` (`k = 4`) and `CharConvUS` (`k = 2`), charconvert_linux.c:55-75 and 99-119: the
bytes laid down in `Out`, which has `cap` units. A `char` is widened with its sign. -/
def convKS (k : Nat) (cc : Conv) (cap n : Nat) (s : Bytes) : Option Bytes :=
  if n = 0 then some []
  else
    let out := match iconvInto cc (n * k) (s ++ [0]) with
      | some w => w ++ unitBytes k 0
      | none => (s.take (n - 1)).flatMap (fun b => unitBytes k (if b < 128 then b.toNat else 256 ^ k - 256 + b.toNat)) ++
          unitBytes k 0
    if out.length ≤ cap * k then some out else none

/-- `EBML_UniStringSetValue`, ebmlstring.c:12-21, with the converter `ToUTF8` of the context: a
buffer of 2048 bytes, of which 2047 are offered. -/
def setUni (to : Conv) (text : Bytes) (e : Elt) : Option Elt :=
  (convSS to 2048 2047 text).map fun d => setString (cstr d) e

/-- `EBML_StringGet`, ebmlstring.c:37-50: a text of the Unicode class is converted with `FromUTF8`,
another one with `FromStr`. -/
def stringGet (uni : Bool) (fromUtf8 fromStr : Conv) (cap n : Nat) (buf : Option Bytes) : Option Bytes :=
  match buf with
  | none => some (if n = 0 then [] else [0])
  | some b => convSS (if uni then fromUtf8 else fromStr) cap n (cstr b)

/-- The converters a program opens at its start, parser2.c:31-34. `src` and `dst` are the empty name
for NULL and for CHARSET_DEFAULT. -/
structure Converters where
  toUtf8 : Conv
  fromUtf8 : Conv
  toStr : Conv
  fromStr : Conv

/-- "UTF-8" -/
def utf8Name : Bytes := [85, 84, 70, 45, 56]

/-- `ParserContext_Init`, parser2.c:31-34. -/
def converters (lower : Bytes → Bytes) (iconvOpen : Bytes → Bytes → Conv) (current : Bytes) : Converters where
  toUtf8 := convOpen lower iconvOpen current [] utf8Name
  fromUtf8 := convOpen lower iconvOpen current utf8Name []
  toStr := convOpen lower iconvOpen current [] []
  fromStr := convOpen lower iconvOpen current [] []

end Verif.Ebml.Text
