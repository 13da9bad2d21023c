import Verif.Vorbis.Book

/-!
Floors, residues and mappings of a setup header: /repo/libmatroska2/tremor/floor0.c:308-334, floor1.c:71-119, res012.c:90-120,
mapping0.c:117-177; the sizes of their arrays from backends.h:45-123. `books`, `times` and so on are the numbers of what was read before.
-/

namespace Verif.Vorbis

/-- `vorbis_info_floor0`. -/
structure Floor0 where
  order : Int
  rate : Int
  barkmap : Int
  ampbits : Int
  ampdB : Int
  books : List Int
deriving DecidableEq, Repr

/-- A book of a floor, floor0.c:326-327. -/
def floorBook (books : Int) (j : Nat) : P Int := do
  chk (decide (j < 16)) .index
  let b ← rd 8
  need (decide (0 ≤ b ∧ b < books))
  pure b

/-- `floor0_unpack`, floor0.c:308-334. -/
def unpackFloor0 (books : Int) : P Floor0 := do
  let order ← rd 8
  let rate ← rd 16
  let barkmap ← rd 16
  let ampbits ← rd 6
  let ampdB ← rd 8
  let numbooks ← rd 4
  need (decide (1 ≤ order ∧ 1 ≤ rate ∧ 1 ≤ barkmap ∧ 1 ≤ numbooks + 1))
  let l ← each (floorBook books) (numbooks + 1).toNat 0
  pure ⟨order, rate, barkmap, ampbits, ampdB, l⟩

/-- A class of partitions: `class_dim`, `class_subs`, `class_book` and `class_subbook`. -/
structure PClass where
  dim : Int
  subs : Int
  book : Int
  subbooks : List Int
deriving DecidableEq, Repr

/-- `vorbis_info_floor1`; the posts without the first two. -/
structure Floor1 where
  parts : List Int
  classes : List PClass
  mult : Int
  rangebits : Int
  posts : List Int
deriving DecidableEq, Repr

/-- A book of a class, floor1.c:93-95. -/
def subBook (books : Int) (k : Nat) : P Int := do
  chk (decide (k < 8)) .index
  let b ← rd 8
  need (decide (-1 ≤ b - 1 ∧ b - 1 < books))
  pure (b - 1)

/-- A class, floor1.c:85-97. -/
def unpackClass (books : Int) (j : Nat) : P PClass := do
  chk (decide (j < 16)) .index
  let dim ← rd 3
  let subs ← rd 2
  need (decide (0 ≤ subs))
  let book ← (if subs ≠ 0 then rd 8 else pure 0)
  need (decide (0 ≤ book ∧ book < books))
  let subbooks ← each (subBook books) (2 ^ subs.toNat) 0
  pure ⟨dim + 1, subs, book, subbooks⟩

/-- A post, floor1.c:106-108. -/
def unpackPost (rangebits : Int) (k : Nat) : P Int := do
  let t ← rdI rangebits
  chk (decide (k + 2 < 65)) .posts
  need (decide (0 ≤ t ∧ t < 2 ^ rangebits.toNat))
  pure t

/-- The posts, floor1.c:103-110: `k` are read. `class_dim` of a class that was not read is 0. -/
def unpackPosts (classes : List PClass) (rangebits : Int) : List Int → Nat → P (List Int)
  | [], _ => pure []
  | c :: cs, k => do
    chk (decide (0 ≤ c ∧ c < 16)) .partition
    let dim := ((classes[c.toNat]?).map PClass.dim).getD 0
    let here ← each (unpackPost rangebits) dim.toNat k
    let rest ← unpackPosts classes rangebits cs (k + here.length)
    pure (here ++ rest)

/-- The class of a partition, floor1.c:79. -/
def unpackPart (j : Nat) : P Int := do
  chk (decide (j < 31)) .index
  rd 4

/-- `floor1_unpack`, floor1.c:71-119. -/
def unpackFloor1 (books : Int) : P Floor1 := do
  let partitions ← rd 5
  let parts ← each unpackPart partitions.toNat 0
  let maxclass := parts.foldl max (-1)
  let classes ← each (unpackClass books) (maxclass + 1).toNat 0
  let mult ← rd 2
  let rangebits ← rd 4
  let posts ← unpackPosts classes rangebits parts 0
  chk (decide (0 ≤ rangebits)) .shift
  pure ⟨parts, classes, mult + 1, rangebits, posts⟩

/-- Bits that are set, res012.c:80-87. -/
def icount : Nat → Nat
  | 0 => 0
  | n + 1 => (n + 1) % 2 + icount ((n + 1) / 2)

/-- The stages of a partition as an unsigned number, res012.c:102-105: three bits, and five more behind a tag. Reads beyond the end give -1,
which is all bits; shifted it is all bits but three. -/
def unpackStage (j : Nat) : P Nat := do
  let low ← rd 3
  let tag ← rd 1
  let high ← (if tag ≠ 0 then rd 5 else pure 0)
  chk (decide (j < 64)) .index
  pure (if low < 0 then 2 ^ 32 - 1 else if high < 0 then 2 ^ 32 - 8 + low.toNat else low.toNat + 8 * high.toNat)

/-- `vorbis_info_residue0`. -/
structure Residue where
  begin : Int
  «end» : Int
  grouping : Int
  groupbook : Int
  stages : List Nat
  books : List Int
deriving DecidableEq, Repr

/-- A book of a residue, res012.c:110. -/
def residueBook (j : Nat) : P Int := do
  let b ← rd 8
  chk (decide (j < 256)) .booklist
  pure b

/-- `res0_unpack`, res012.c:90-120. -/
def unpackResidue (books : Int) : P Residue := do
  let begin_ ← rd 24
  let end_ ← rd 24
  let grouping ← rd 24
  let partitions ← rd 6
  let groupbook ← rd 8
  let stages ← each unpackStage (partitions + 1).toNat 0
  let l ← each residueBook ((stages.map icount).sum) 0
  need (decide (groupbook < books))
  need (l.all fun b => decide (b < books))
  pure ⟨begin_, end_, grouping + 1, groupbook, stages, l⟩

/-- `vorbis_info_mapping0`; a submap is its floor and its residue. -/
structure Mapping where
  submaps : Int
  coupling : List (Int × Int)
  mux : List Int
  floors : List (Int × Int)
deriving DecidableEq, Repr

/-- `ilog` of mapping0.c:117-125, of one less than its argument. -/
def ilog1 (n : Nat) : Nat := ilog (n - 1)

/-- A coupling step, mapping0.c:143-151. -/
def unpackCoupling (channels : Int) (i : Nat) : P (Int × Int) := do
  let m ← rd (ilog1 channels.toNat)
  chk (decide (i < 256)) .index
  let a ← rd (ilog1 channels.toNat)
  need (decide (0 ≤ m ∧ 0 ≤ a ∧ m ≠ a ∧ m < channels ∧ a < channels))
  pure (m, a)

/-- The submap of a channel, mapping0.c:159-160. -/
def unpackMux (submaps : Int) (i : Nat) : P Int := do
  let c ← rd 4
  chk (decide (i < 256)) .index
  need (decide (c < submaps))
  pure c

/-- A submap, mapping0.c:164-169. -/
def unpackSubmap (times floors residues : Int) (i : Nat) : P (Int × Int) := do
  let time ← rd 8
  need (decide (time < times))
  let f ← rd 8
  chk (decide (i < 16)) .index
  need (decide (f < floors))
  let r ← rd 8
  need (decide (r < residues))
  pure (f, r)

/-- How many submaps, mapping0.c:134-137. -/
def unpackSubmaps : P Int := do
  let several ← rd 1
  if several ≠ 0 then do let n ← rd 4; pure (n + 1) else pure 1

/-- How many coupling steps, mapping0.c:139-140. -/
def unpackSteps : P Int := do
  let coupled ← rd 1
  if coupled ≠ 0 then do let n ← rd 8; pure (n + 1) else pure 0

/-- `mapping0_unpack`, mapping0.c:128-177. -/
def unpackMapping (channels times floors residues : Int) : P Mapping := do
  let submaps ← unpackSubmaps
  let steps ← unpackSteps
  let coupling ← each (unpackCoupling channels) steps.toNat 0
  let reserved ← rd 2
  need (decide (reserved ≤ 0))
  let mux ← (if submaps > 1 then each (unpackMux submaps) channels.toNat 0 else pure [])
  let l ← each (unpackSubmap times floors residues) submaps.toNat 0
  pure ⟨submaps, coupling, mux, l⟩

end Verif.Vorbis
