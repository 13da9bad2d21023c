import Verif.Vorbis.Reader

/-! Codebooks: /repo/libmatroska2/tremor/codebook.c:28-132, sharedbook.c:27-34 and 147-170; `long` has 64 bits. -/

namespace Verif.Vorbis

/-- `_ilog`, sharedbook.c:27-34 (again in floor1.c:62-69 and res012.c:71-78): the number of binary digits. -/
def ilog (n : Nat) : Nat := if n = 0 then 0 else n.log2 + 1

/-- The values of a codebook: `q_min`, `q_delta`, `q_quant`, `q_sequencep` and `quantlist`. -/
structure Quant where
  min : Int
  delta : Int
  quant : Int
  seq : Int
  list : List Int
deriving DecidableEq, Repr

/-- `static_codebook`, codebook.h:36-55. -/
structure Book where
  dim : Int
  entries : Int
  lengths : List Int
  maptype : Int
  quant : Option Quant
deriving DecidableEq, Repr

/-- One length behind a tag, codebook.c:51-56. A tag of -1 counts as 1. -/
def taggedLength : P Int := do
  let tag ← rd 1
  if tag ≠ 0 then
    let num ← rd 5
    need (num ≠ -1)
    pure (num + 1)
  else pure 0

/-- One length without tag, codebook.c:61-63. -/
def plainLength : P Int := do
  let num ← rd 5
  need (num ≠ -1)
  pure (num + 1)

/-- The loop of codebook.c:74-80: how many entries have the next length, `left` entries are to come. The inner loop stops at the last
entry. -/
def orderedLengths : (fuel left : Nat) → (length : Int) → P (List Int)
  | 0, _, _ => fun _ => .hang
  | fuel + 1, left, length =>
    if left = 0 then pure []
    else do
      let num ← rd (ilog left)
      need (num ≠ -1)
      let rest ← orderedLengths fuel (left - min num.toNat left) (length + 1)
      pure (List.replicate (min num.toNat left) length ++ rest)

/-- Bits left, as a bound for the loop: each pass reads a bit. -/
def ordered (left : Nat) (length : Int) : P (List Int) := fun s => orderedLengths ((s.getD []).length + 2) left length s

/-- The loop of `_book_maptype1_quantvals`, sharedbook.c:152-169. A power that does not fit `long` is undefined. -/
def quantSearch (dim entries : Nat) : (fuel vals : Nat) → Res Nat
  | 0, _ => .hang
  | fuel + 1, vals =>
    if 2 ^ 63 ≤ (vals + 1) ^ dim then .crash .power
    else if vals ^ dim ≤ entries ∧ entries < (vals + 1) ^ dim then .ok vals
    else if entries < vals ^ dim then quantSearch dim entries fuel (vals - 1)
    else quantSearch dim entries fuel (vals + 1)

/-- Where the search starts, sharedbook.c:149-150; without entries the shift is by `-1*(dim-1)/dim`, which is 0. -/
def quantStart (dim entries : Nat) : Nat := entries >>> ((ilog entries - 1) * (dim - 1) / dim)

/-- `_book_maptype1_quantvals`, sharedbook.c:147-170. The bound is enough for any book. -/
def quantVals (dim entries : Nat) : Res Nat :=
  if dim = 0 then .crash .zeroDim else quantSearch dim entries (2 * entries + 3) (quantStart dim entries)

/-- Conversion to `int` of a number that is not negative. -/
def toInt32 (n : Nat) : Int := if n % 2 ^ 32 < 2 ^ 31 then ((n % 2 ^ 32 : Nat) : Int) else ((n % 2 ^ 32 : Nat) : Int) - 2 ^ 32

/-- The number of values, codebook.c:103-111. -/
def valueCount (maptype dim entries : Int) : P Int := fun s =>
  if maptype = 1 then (quantVals dim.toNat entries.toNat).bind fun v => .ok ((v : Int), s)
  else .ok (toInt32 (entries.toNat * dim.toNat), s)

/-- The values, codebook.c:114-118: with a negative number nothing is allocated or read, and `quantlist[quantvals-1]` is looked at. -/
def readValues (count quant : Int) : P (List Int) := do
  chk (decide (0 ≤ count)) .values
  let l ← many (rd quant.toNat) count.toNat
  need (decide (l.getLast? ≠ some (-1)))
  pure l

/-- The lengths, codebook.c:41-86. -/
def unpackLengths (order : Int) (entries : Nat) : P (List Int) :=
  if order = 0 then do
    let unused ← rd 1
    if unused ≠ 0 then many taggedLength entries else many plainLength entries
  else do
    let length ← rd 5
    ordered entries (length + 1)

/-- The mapping, codebook.c:97-119. -/
def unpackQuant (maptype dim entries : Int) : P Quant := do
  let min ← rd 32
  let delta ← rd 32
  let quant ← rd 4
  let seq ← rd 1
  let count ← valueCount maptype dim entries
  let list ← readValues count (quant + 1)
  pure ⟨min, delta, quant + 1, seq, list⟩

/-- `vorbis_staticbook_unpack`, codebook.c:28-132. -/
def unpackBook : P Book := do
  let magic ← rd 24
  need (decide (magic = 0x564342))
  let dim ← rd 16
  let entries ← rd 24
  need (decide (entries ≠ -1))
  let order ← rd 1
  need (decide (order ≠ -1))
  let lengths ← unpackLengths order entries.toNat
  let maptype ← rd 4
  need (decide (0 ≤ maptype ∧ maptype ≤ 2))
  let quant ← (if maptype = 0 then pure none else do
      let q ← unpackQuant maptype dim entries
      pure (some q))
  pure ⟨dim, entries, lengths, maptype, quant⟩

end Verif.Vorbis
