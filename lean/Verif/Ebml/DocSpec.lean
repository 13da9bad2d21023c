import Verif.Base.Bytes
import Verif.Ebml.CrcSpec
/-!
Abstract EBML documents and their byte encoding, independent of the library: an element is an ID,
a size field and a payload; the payload of a group is the encoding of its children, preceded by a
CRC-32 element over them if it carries a checksum.
-/
namespace Verif.EbmlDoc
open Verif

/-- A document: `len` is the length of the size field. -/
inductive Doc where
  | elem (id len : Nat) (payload : Bytes)
  | group (id len : Nat) (finite crc : Bool) (children : List Doc)
deriving Repr

/-- The ID, in the fewest bytes that hold it (its length marker is part of the ID). -/
def idField (id : Nat) : Bytes :=
  beBytes (if id < 2 ^ 8 then 1 else if id < 2 ^ 16 then 2 else if id < 2 ^ 24 then 3 else 4) id

/-- Size field of `len` bytes: a length marker, then the size in `7 * len` bits. -/
def sizeField (len n : Nat) : Bytes := beBytes len (2 ^ (7 * len) + n % 2 ^ (7 * len) : Nat)

/-- The "unknown size" field: all value bits set. -/
def unknownField (len : Nat) : Bytes := beBytes len (2 ^ (7 * len) + (2 ^ (7 * len) - 1) : Nat)

/-- A CRC-32 element (ID 0xBF, size 4) for the given data. -/
def crcElement (data : Bytes) : Bytes := [0xBF, 0x84] ++ leBytes 4 (Crc32.crc32 data).toNat

mutual
/-- The bytes of an element after its size field. -/
def payload : Doc → Bytes
  | .elem _ _ p => p
  | .group _ _ _ crc ch => (if crc then crcElement (encodeList ch) else []) ++ encodeList ch
/-- The bytes of a sequence of elements. -/
def encodeList : List Doc → Bytes
  | [] => []
  | .elem id len p :: ds => (idField id ++ sizeField len p.length ++ p) ++ encodeList ds
  | .group id len fin crc ch :: ds =>
    (idField id ++ (if fin then sizeField len (payload (.group id len fin crc ch)).length else unknownField len)
      ++ payload (.group id len fin crc ch)) ++ encodeList ds
end

/-- The bytes of an element. -/
def encode (d : Doc) : Bytes := encodeList [d]

example : encode (.group 0x1A45DFA3 1 true false [.elem 0x4286 1 [1], .group 0xEC 2 true false []]) =
    [0x1A, 0x45, 0xDF, 0xA3, 0x87, 0x42, 0x86, 0x81, 1, 0xEC, 0x40, 0] := by decide

end Verif.EbmlDoc
