import Verif.Core.Scanf
/-!
Model of the Base64 functions of `/repo/corec/corec/helpers/parser/parser2.c`: `Base64` 612-619, `Base64Char` 621-633,
`BufferToBase64` 635-677, `ExprIsBase64` 679-708.

A string is the list of its characters up to the terminator, `tchar_t` is `char`. The output buffer is what is stored to it; a
store behind its end is `overflow`.
-/
namespace Verif.Base64

/-- `Base64`, parser2.c:612-619. -/
def table : List Nat :=
  [0x3e,0x80,0x80,0x80,0x3f,0x34,0x35,0x36,0x37,0x38,0x39,0x3a,0x3b,0x3c,0x3d,0x80,
   0x80,0x80,0x80,0x80,0x80,0x80,0x00,0x01,0x02,0x03,0x04,0x05,0x06,0x07,0x08,0x09,
   0x0a,0x0b,0x0c,0x0d,0x0e,0x0f,0x10,0x11,0x12,0x13,0x14,0x15,0x16,0x17,0x18,0x19,
   0x80,0x80,0x80,0x80,0x80,0x80,0x1a,0x1b,0x1c,0x1d,0x1e,0x1f,0x20,0x21,0x22,0x23,
   0x24,0x25,0x26,0x27,0x28,0x29,0x2a,0x2b,0x2c,0x2d,0x2e,0x2f,0x30,0x31,0x32,0x33]

/-- `Base64Char`, parser2.c:621-633. -/
def char (v : Nat) : Nat :=
  if v < 26 then v + 65
  else if v < 52 then v - 26 + 97
  else if v < 62 then v - 52 + 48
  else if v = 62 then 43
  else 47

/-- How the encoding ends: with a terminated string, with the result 0 (some characters may have been stored), or with a store
behind the end of the buffer. -/
inductive Encoded where
  | done (s : List Nat)
  | noRoom
  | overflow
deriving DecidableEq, Repr

/-- One more piece in front. -/
def Encoded.after (x : List Nat) : Encoded → Encoded
  | .done s => .done (x ++ s)
  | e => e

/-- The last packet, parser2.c:651-674, of one, two or, when the loop stopped for lack of room, more bytes. -/
def tail (room : Nat) (buf : List UInt8) : Encoded :=
  match buf with
  | [] => if room = 0 then .overflow else .done []
  | [a] =>
    if room < 5 then .noRoom
    else .done [char (a.toNat >>> 2), char ((a.toNat &&& 3) <<< 4), 61, 61]
  | [a, b] =>
    if room < 5 then .noRoom
    else .done [char (a.toNat >>> 2), char (((a.toNat &&& 3) <<< 4) ||| (b.toNat >>> 4)), char ((b.toNat &&& 15) <<< 2), 61]
  | a :: b :: c :: _ =>
    if room < 5 then .noRoom
    else .done [char (a.toNat >>> 2), char (((a.toNat &&& 3) <<< 4) ||| (b.toNat >>> 4)),
      char (((b.toNat &&& 15) <<< 2) ||| (c.toNat >>> 6)), char (c.toNat &&& 63)]

/-- `BufferToBase64`, parser2.c:635-677, with room for `room` characters. -/
def encode : (room : Nat) → List UInt8 → Encoded
  | room, a :: b :: c :: r =>
    if room > 4 then
      (encode (room - 4) r).after [char (a.toNat >>> 2), char (((a.toNat &&& 3) <<< 4) ||| (b.toNat >>> 4)),
        char (((b.toNat &&& 15) <<< 2) ||| (c.toNat >>> 6)), char (c.toNat &&& 63)]
    else tail room (a :: b :: c :: r)
  | room, buf => tail room buf

/-- The loop of `ExprIsBase64`, parser2.c:686-705: `n`, `v` (64 bits) and the room left; the bytes and the rest of the string. -/
def decodeLoop : (n v room : Nat) → List Nat → List UInt8 × List Nat
  | _, _, _, [] => ([], [])
  | n, v, room, c :: r =>
    if c = 61 then ([], r.dropWhile (· = 61))
    else if c < 43 ∨ c ≥ 123 ∨ (table[c - 43]?).getD 0x80 = 0x80 then ([], c :: r)
    else
      let v := (v * 64 + (table[c - 43]?).getD 0x80) % 2 ^ 64
      if n % 4 ≠ 0 ∧ room > 0 then
        let x := decodeLoop (n + 1) v (room - 1) r
        (UInt8.ofNat (v >>> (6 - (n % 4) * 2)) :: x.1, x.2)
      else decodeLoop (n + 1) v room r

/-- `ExprIsBase64`, parser2.c:679-708: the bytes stored and the rest of the string. Leading spaces
are skipped (`ExprSkipSpace`, 591-597). -/
def decode (room : Nat) (s : List Nat) : List UInt8 × List Nat := decodeLoop 0 0 room (s.dropWhile Scanf.isSpace)

end Verif.Base64
