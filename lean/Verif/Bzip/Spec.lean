import Verif.Bzip.Tables
/-!
The bzip2 format, written down from the side of the compressor and apart from the decoder: for every choice a compressor has (how it cuts runs,
which of equal rotations comes first, the code lengths of each table, the table of each fifty symbols) the bits that come out.
-/
namespace Verif.Bzip

/-- `n` bits of `v`, the highest first. -/
def toBits : Nat → Nat → List Bool
  | 0, _ => []
  | n + 1, v => v.testBit n :: toBits n v

/-- The number with these bits, the highest first. -/
def ofBits (l : List Bool) : Nat := l.foldl (fun a b => 2 * a + b.toNat) 0

namespace Spec

/-- Bits as bytes, the last one filled up with zeros. -/
def pack : List Bool → List Nat
  | a :: b :: c :: d :: e :: f :: g :: h :: r => ofBits [a, b, c, d, e, f, g, h] :: pack r
  | [] => []
  | l => [ofBits (l ++ List.replicate (8 - l.length) false)]

/-! ### Runs -/

/-- What a piece (byte, count) stands for. -/
def unrun (p : Nat × Nat) : List Nat := List.replicate p.2 p.1

/-- A piece as written: up to three bytes, or four bytes and how many more. -/
def run (p : Nat × Nat) : List Nat := if p.2 < 4 then List.replicate p.2 p.1 else List.replicate 4 p.1 ++ [p.2 - 4]

/-- Pieces have 1 to 259 bytes. A piece of less than four is followed by another byte. -/
def RunsOk : List (Nat × Nat) → Prop
  | [] => True
  | p :: ps => p.1 < 256 ∧ 1 ≤ p.2 ∧ p.2 ≤ 259 ∧ (p.2 < 4 → ∀ q ∈ ps.head?, q.1 ≠ p.1) ∧ RunsOk ps

/-! ### Randomisation, which old compressors used -/

/-- Distances between flipped bits: entry `k` of the table, again and again. -/
def gap (k : Nat) : Nat := rNums.getD (k % 512) 0

/-- Byte `i` of a randomised block has its lowest bit flipped if it is the last but one of a gap; `k` gaps passed, `n` bytes of this gap left. -/
def flips : Nat → Nat → Nat → List Nat
  | _, _, 0 => []
  | k, 0, i + 1 => (if gap k = 2 then 1 else 0) :: flips (k + 1) (gap k - 1) i
  | k, n + 1, i + 1 => (if n = 1 then 1 else 0) :: flips k n i

/-! ### Rotations -/

/-- The rotation that begins at byte `i`. -/
def rot (s : List Nat) (i : Nat) : List Nat := s.drop i ++ s.take i

/-- All rotations in order, given by where they begin. Equal ones in any order. -/
structure Sorted (s : List Nat) (rows : List Nat) : Prop where
  perm : rows.Perm (List.range s.length)
  sorted : rows.Pairwise fun i j => rot s i ≤ rot s j

/-- The last bytes of the rotations. -/
def lastColumn (s rows : List Nat) : List Nat := rows.map fun i => s.getD ((i + s.length - 1) % s.length) 0

/-! ### Move to front, and runs of zeros -/

/-- Where each value is found in a table in which the last value is moved to the front. -/
def positions : List Nat → List Nat → List Nat
  | _, [] => []
  | t, x :: xs => t.idxOf x :: positions (x :: t.erase x) xs

/-- A number with digits 1 (symbol 0) and 2 (symbol 1), the lowest first. -/
def digits (n : Nat) : List Nat :=
  if h : n = 0 then [] else if n % 2 = 1 then 0 :: digits ((n - 1) / 2) else 1 :: digits ((n - 2) / 2)
termination_by n
decreasing_by all_goals omega

/-- The symbols for positions, with `z` zeros waiting: runs of zeros as numbers, the others one higher. -/
def symbols : Nat → List Nat → List Nat
  | z, [] => digits z
  | z, 0 :: ps => symbols (z + 1) ps
  | z, (p + 1) :: ps => digits z ++ (p + 2) :: symbols 0 ps

/-! ### Codes -/

/-- The code word of symbol `j`: the codes in order of length and symbol, one next to the other. -/
def code (lens : List Nat) (j : Nat) : Nat :=
  ((List.range lens.length).map fun k =>
    if lens.getD k 0 < lens.getD j 0 ∨ (lens.getD k 0 = lens.getD j 0 ∧ k < j) then 2 ^ (lens.getD j 0 - lens.getD k 0) else 0).sum

def word (lens : List Nat) (j : Nat) : List Bool := toBits (lens.getD j 0) (code lens j)

/-- Lengths that leave room for all codes. -/
structure Lens (n : Nat) (lens : List Nat) : Prop where
  length : lens.length = n
  range : ∀ l ∈ lens, 1 ≤ l ∧ l ≤ 20
  kraft : (lens.map fun l => 2 ^ (20 - l)).sum ≤ 2 ^ 20

/-- Symbols, fifty at a time with the table that is chosen. -/
def coded (tabs : List (List Nat)) (sel syms : List Nat) : List Bool :=
  syms.zipIdx.flatMap fun x => word (tabs.getD (sel.getD (x.2 / 50) 0) []) x.1

/-- From one length to the next, in steps of one. -/
def stepTo (a b : Nat) : List Bool :=
  (List.replicate (b - a) [true, false]).flatten ++ (List.replicate (a - b) [true, true]).flatten ++ [false]

def steps : Nat → List Nat → List Bool
  | _, [] => []
  | a, b :: bs => stepTo a b ++ steps b bs

/-- The lengths of a table. -/
def lensBits (lens : List Nat) : List Bool := toBits 5 (lens.getD 0 0) ++ steps (lens.getD 0 0) lens

/-- Which bytes are used: first which sixteenths. -/
def mapBits (used : List Nat) : List Bool :=
  ((List.range 16).map fun i => used.any fun u => u / 16 = i) ++
  (List.range 16).flatMap fun i => if used.any fun u => u / 16 = i then (List.range 16).map fun j => used.contains (16 * i + j) else []

/-- Numbers as ones up to a zero. -/
def unaryBits (l : List Nat) : List Bool := l.flatMap fun p => List.replicate p true ++ [false]

/-! ### Checksums -/

/-- One bit of the checksum, polynomial 0x04c11db7. -/
def crcBit (crc : BitVec 32) (b : Bool) : BitVec 32 := if crc.msb ^^ b then (crc <<< 1) ^^^ 0x04c11db7 else crc <<< 1

/-- The checksum of bytes. -/
def crc (data : List Nat) : BitVec 32 := ~~~((data.flatMap (toBits 8)).foldl crcBit 0xFFFFFFFF)

/-- The checksum of all blocks. -/
def combine (c : BitVec 32) (b : BitVec 32) : BitVec 32 := c.rotateLeft 1 ^^^ b

/-! ### Blocks and streams -/

/-- What a compressor chooses for a block. -/
structure Block where
  /-- the pieces of the data -/
  runs : List (Nat × Nat)
  /-- whether it is randomised -/
  rand : Bool
  /-- the rotations in order -/
  rows : List Nat
  /-- the bytes that may occur -/
  used : List Nat
  /-- the code lengths of each table -/
  tabs : List (List Nat)
  /-- the table for each fifty symbols -/
  sel : List Nat

/-- The data of a block. -/
def Block.data (b : Block) : List Nat := b.runs.flatMap unrun

/-- The bytes that are rotated. -/
def Block.text (b : Block) : List Nat :=
  let t := b.runs.flatMap run
  if b.rand then List.zipWith (· ^^^ ·) t (flips 0 0 t.length) else t

/-- The symbols of a block with the one that ends it. -/
def Block.syms (b : Block) : List Nat :=
  symbols 0 (positions (List.range b.used.length) ((lastColumn b.text b.rows).map fun c => b.used.idxOf c)) ++ [b.used.length + 1]

/-- What the format asks for; blocks have at most `size` times 100000 bytes. -/
structure Block.Ok (size : Nat) (b : Block) : Prop where
  runs : RunsOk b.runs
  pos : 0 < b.text.length
  max : b.text.length ≤ 100000 * size
  rows : Sorted b.text b.rows
  used : b.used.Pairwise (· < ·)
  bytes : ∀ u ∈ b.used, u < 256
  cover : ∀ c ∈ b.text, c ∈ b.used
  tabs2 : 2 ≤ b.tabs.length
  tabs6 : b.tabs.length ≤ 6
  lens : ∀ t ∈ b.tabs, Lens (b.used.length + 2) t
  sel : ∀ s ∈ b.sel, s < b.tabs.length
  enough : b.syms.length ≤ 50 * b.sel.length
  selMax : b.sel.length ≤ 18002

/-- The bits of a block. -/
def Block.bits (b : Block) : List Bool :=
  toBits 48 0x314159265359 ++ toBits 32 (crc b.data).toNat ++ [b.rand] ++ toBits 24 (b.rows.idxOf 0) ++ mapBits b.used ++
  toBits 3 b.tabs.length ++ toBits 15 b.sel.length ++ unaryBits (positions (List.range b.tabs.length) b.sel) ++
  b.tabs.flatMap lensBits ++ coded b.tabs b.sel b.syms

/-- The bits of a stream: `BZh`, the size, the blocks, the end. -/
def streamBits (size : Nat) (bs : List Block) : List Bool :=
  toBits 24 0x425A68 ++ toBits 8 (0x30 + size) ++ bs.flatMap Block.bits ++
  toBits 48 0x177245385090 ++ toBits 32 ((bs.map fun b => crc b.data).foldl combine 0).toNat

/-- The bytes of a stream. -/
def stream (size : Nat) (bs : List Block) : List Nat := pack (streamBits size bs)

end Spec
end Verif.Bzip
