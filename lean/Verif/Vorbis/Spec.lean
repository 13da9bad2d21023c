import Verif.Vorbis.Private

/-!
Vorbis headers as the format has them (Vorbis I specification, sections 3 to 8): which ones are well formed, and their bits. The values are
the ones the reader gives; nothing here uses how it reads.
-/

namespace Verif.Vorbis

open Verif

/-- Between two bounds, the second excluded. -/
def In (v lo hi : Int) : Prop := lo ≤ v ∧ v < hi

instance (v lo hi : Int) : Decidable (In v lo hi) := inferInstanceAs (Decidable (_ ∧ _))

/-- A number in `n` bits, least first. -/
def enc (n : Nat) (v : Int) : List Bool := (List.range n).map fun i => v.toNat.testBit i

/-! ## Codebooks -/

/-- The number of values in a codebook: for type 1 the root of the number of entries, for type 2 one for each entry and dimension. -/
def Quant.Count (maptype dim entries : Int) (n : Nat) : Prop :=
  if maptype = 1 then n ^ dim.toNat ≤ entries.toNat ∧ entries.toNat < (n + 1) ^ dim.toNat else n = entries.toNat * dim.toNat

/-- The values of a codebook are in range. -/
structure Quant.Ok (q : Quant) : Prop where
  min : In q.min 0 (2 ^ 32)
  delta : In q.delta 0 (2 ^ 32)
  quant : In q.quant 1 17
  seq : In q.seq 0 2
  list : ∀ v ∈ q.list, In v 0 (2 ^ q.quant.toNat)

/-- The parts of a codebook are in range: any codebook. -/
structure Book.Sound (b : Book) : Prop where
  dim : In b.dim 0 (2 ^ 16)
  entries : In b.entries 0 (2 ^ 24)
  lengths : b.lengths.length = b.entries.toNat
  length : ∀ l ∈ b.lengths, 0 ≤ l
  maptype : In b.maptype 0 3
  none : b.maptype = 0 ↔ b.quant = none
  quant : ∀ q, b.quant = some q → q.Ok

/-- The codebook is well formed: code words have at most 32 bits, and there are as many values as the type asks for. -/
structure Book.Ok (b : Book) : Prop extends Book.Sound b where
  short : ∀ l ∈ b.lengths, l ≤ 32
  count : ∀ q, b.quant = some q → Quant.Count b.maptype b.dim b.entries q.list.length

/-- How lengths are written: one after the other, behind tags, or as runs from a first length on. -/
inductive Shape where
  | plain
  | tagged
  | runs (first : Int) (counts : List Nat)
deriving DecidableEq, Repr

/-- The lengths runs stand for. -/
def spread : Int → List Nat → List Int
  | _, [] => []
  | l, k :: ks => List.replicate k l ++ spread (l + 1) ks

/-- Runs fill the entries, none follows when the entries are used up. -/
def Fills : Nat → List Nat → Prop
  | left, [] => left = 0
  | left, k :: ks => left ≠ 0 ∧ k ≤ left ∧ Fills (left - k) ks

/-- The way of writing fits the lengths: only tags allow for unused entries. -/
def Shape.Fits (sh : Shape) (ls : List Int) : Prop :=
  match sh with
  | .plain => ∀ l ∈ ls, In l 1 33
  | .tagged => ∀ l ∈ ls, In l 0 33
  | .runs first counts => In first 1 33 ∧ Fills ls.length counts ∧ ls = spread first counts

/-- The bits of runs: each in as many bits as the entries left take. -/
def runBits : Nat → List Nat → List Bool
  | _, [] => []
  | left, k :: ks => enc (ilog left) k ++ runBits (left - k) ks

/-- The bits of lengths. -/
def lengthBits (sh : Shape) (ls : List Int) : List Bool :=
  match sh with
  | .plain => enc 1 0 ++ (enc 1 0 ++ ls.flatMap fun l => enc 5 (l - 1))
  | .tagged => enc 1 0 ++ (enc 1 1 ++ ls.flatMap fun l => if l = 0 then enc 1 0 else enc 1 1 ++ enc 5 (l - 1))
  | .runs first counts => enc 1 1 ++ (enc 5 (first - 1) ++ runBits ls.length counts)

/-- The bits of the values. -/
def Quant.bits (q : Quant) : List Bool :=
  enc 32 q.min ++ (enc 32 q.delta ++ (enc 4 (q.quant - 1) ++ (enc 1 q.seq ++ q.list.flatMap fun v => enc q.quant.toNat v)))

/-- The bits of a codebook. -/
def Book.bits (sh : Shape) (b : Book) : List Bool :=
  enc 24 0x564342 ++ (enc 16 b.dim ++ (enc 24 b.entries ++ (lengthBits sh b.lengths ++ (enc 4 b.maptype ++
    match b.quant with | none => [] | some q => q.bits))))

/-! ## Floors -/

/-- A floor of type 0 is well formed. -/
structure Floor0.Ok (books : Nat) (f : Floor0) : Prop where
  order : In f.order 1 (2 ^ 8)
  rate : In f.rate 1 (2 ^ 16)
  barkmap : In f.barkmap 1 (2 ^ 16)
  ampbits : In f.ampbits 0 (2 ^ 6)
  ampdB : In f.ampdB 0 (2 ^ 8)
  count : 1 ≤ f.books.length ∧ f.books.length ≤ 16
  books : ∀ b ∈ f.books, In b 0 books

/-- The bits of a floor of type 0. -/
def Floor0.bits (f : Floor0) : List Bool :=
  enc 8 f.order ++ (enc 16 f.rate ++ (enc 16 f.barkmap ++ (enc 6 f.ampbits ++ (enc 8 f.ampdB ++ (enc 4 (f.books.length - 1) ++
    f.books.flatMap fun b => enc 8 b)))))

/-- A class of partitions is well formed; the 8 bits for a book or none do not reach book 255. -/
structure PClass.Ok (books : Nat) (c : PClass) : Prop where
  dim : In c.dim 1 9
  subs : In c.subs 0 4
  book : In c.book 0 books
  unused : c.subs = 0 → c.book = 0
  count : c.subbooks.length = 2 ^ c.subs.toNat
  subbooks : ∀ b ∈ c.subbooks, In b (-1) (min books 255)

/-- The bits of a class. -/
def PClass.bits (c : PClass) : List Bool :=
  enc 3 (c.dim - 1) ++ (enc 2 c.subs ++ ((if c.subs = 0 then [] else enc 8 c.book) ++ c.subbooks.flatMap fun b => enc 8 (b + 1)))

/-- How many posts the partitions have. -/
def postCount (classes : List PClass) (parts : List Int) : Nat :=
  (parts.map fun c => match classes[c.toNat]? with | some k => k.dim.toNat | none => 0).sum

/-- A floor of type 1 is in range: any floor. -/
structure Floor1.Ok (books : Nat) (f : Floor1) : Prop where
  parts : f.parts.length ≤ 31
  used : ∀ c ∈ f.parts, In c 0 f.classes.length
  needed : f.classes ≠ [] → ((f.classes.length : Int) - 1) ∈ f.parts
  few : f.classes.length ≤ 16
  classes : ∀ c ∈ f.classes, c.Ok books
  mult : In f.mult 1 5
  range : In f.rangebits 0 16
  count : f.posts.length = postCount f.classes f.parts
  most : f.posts.length ≤ 63
  posts : ∀ p ∈ f.posts, In p 0 (2 ^ f.rangebits.toNat)

/-- The bits of a floor of type 1. -/
def Floor1.bits (f : Floor1) : List Bool :=
  enc 5 f.parts.length ++ ((f.parts.flatMap fun c => enc 4 c) ++ ((f.classes.flatMap PClass.bits) ++ (enc 2 (f.mult - 1) ++
    (enc 4 f.rangebits ++ f.posts.flatMap fun p => enc f.rangebits.toNat p))))

/-- A floor is well formed. -/
def Floor.Ok (books : Nat) : Floor → Prop
  | .zero f => f.Ok books
  | .one f => f.Ok books

/-- The bits of a floor. -/
def Floor.bits : Floor → List Bool
  | .zero f => enc 16 0 ++ f.bits
  | .one f => enc 16 1 ++ f.bits

/-! ## Residues -/

/-- How many bits are set. -/
def ones (n : Nat) : Nat := ((List.range 8).filter fun i => n.testBit i).length

/-- A residue is well formed. -/
structure Residue.Ok (books : Nat) (r : Residue) : Prop where
  begin : In r.begin 0 (2 ^ 24)
  «end» : In r.end 0 (2 ^ 24)
  grouping : In r.grouping 1 (2 ^ 24 + 1)
  groupbook : In r.groupbook 0 books
  parts : 1 ≤ r.stages.length ∧ r.stages.length ≤ 64
  stages : ∀ s ∈ r.stages, s < 256
  count : r.books.length = (r.stages.map ones).sum
  most : r.books.length ≤ 256
  books : ∀ b ∈ r.books, In b 0 books

/-- The bits of the stages of a partition. -/
def stageBits (s : Nat) : List Bool :=
  enc 3 ((s % 8 : Nat) : Int) ++ (if s < 8 then enc 1 0 else enc 1 1 ++ enc 5 ((s / 8 : Nat) : Int))

/-- The bits of a residue. -/
def Residue.bits (r : Residue) : List Bool :=
  enc 24 r.begin ++ (enc 24 r.end ++ (enc 24 (r.grouping - 1) ++ (enc 6 (r.stages.length - 1) ++ (enc 8 r.groupbook ++
    ((r.stages.flatMap stageBits) ++ r.books.flatMap fun b => enc 8 b)))))

/-! ## Mappings and modes -/

/-- A mapping is well formed. -/
structure Mapping.Ok (channels floors residues : Nat) (m : Mapping) : Prop where
  submaps : In m.submaps 1 17
  steps : m.coupling.length ≤ 256
  coupling : ∀ c ∈ m.coupling, In c.1 0 channels ∧ In c.2 0 channels ∧ c.1 ≠ c.2
  muxes : m.mux.length = if m.submaps = 1 then 0 else channels
  mux : ∀ c ∈ m.mux, In c 0 m.submaps
  count : m.floors.length = m.submaps.toNat
  floors : ∀ f ∈ m.floors, In f.1 0 floors ∧ In f.2 0 residues

/-- The bits of a mapping; `width` is what the number of a channel takes. -/
def Mapping.bits (width : Nat) (m : Mapping) : List Bool :=
  (if m.submaps = 1 then enc 1 0 else enc 1 1 ++ enc 4 (m.submaps - 1)) ++
  ((if m.coupling = [] then enc 1 0 else enc 1 1 ++ (enc 8 (m.coupling.length - 1) ++
    m.coupling.flatMap fun c => enc width c.1 ++ enc width c.2)) ++
  (enc 2 0 ++ ((m.mux.flatMap fun c => enc 4 c) ++ m.floors.flatMap fun f => enc 8 0 ++ (enc 8 f.1 ++ enc 8 f.2))))

/-- A mode is well formed. -/
structure Mode.Ok (maps : Nat) (m : Mode) : Prop where
  blockflag : In m.blockflag 0 2
  windowtype : m.windowtype = 0
  transformtype : m.transformtype = 0
  mapping : In m.mapping 0 maps

/-- The bits of a mode. -/
def Mode.bits (m : Mode) : List Bool := enc 1 m.blockflag ++ (enc 16 m.windowtype ++ (enc 16 m.transformtype ++ enc 8 m.mapping))

/-! ## Headers -/

/-- How many there can be. -/
def Few (n most : Nat) : Prop := 1 ≤ n ∧ n ≤ most

/-- A setup header is in range: whatever refers to something refers to a thing that is there. -/
structure Setup.Sound (channels : Nat) (p : Setup) : Prop where
  numBooks : Few p.books.length 256
  books : ∀ b ∈ p.books, b.Sound
  times : In p.times 1 65
  numFloors : Few p.floors.length 64
  floors : ∀ f ∈ p.floors, f.Ok p.books.length
  numResidues : Few p.residues.length 64
  residues : ∀ r ∈ p.residues, In r.1 0 3 ∧ r.2.Ok p.books.length
  numMaps : Few p.maps.length 64
  maps : ∀ m ∈ p.maps, m.Ok channels p.floors.length p.residues.length
  numModes : Few p.modes.length 64
  modes : ∀ m ∈ p.modes, m.Ok p.maps.length

/-- A setup header is well formed. -/
structure Setup.Ok (channels : Nat) (p : Setup) : Prop extends Setup.Sound channels p where
  whole : ∀ b ∈ p.books, b.Ok

/-- The bits of codebooks. -/
def booksBits : List Shape → List Book → List Bool
  | sh :: shs, b :: bs => b.bits sh ++ booksBits shs bs
  | _, _ => []

/-- The bits of a setup header. -/
def Setup.bits (channels : Nat) (shapes : List Shape) (p : Setup) : List Bool :=
  enc 8 (p.books.length - 1) ++ (booksBits shapes p.books ++
  (enc 6 (p.times - 1) ++ ((List.replicate p.times.toNat (enc 16 0)).flatten ++
  (enc 6 (p.floors.length - 1) ++ ((p.floors.flatMap Floor.bits) ++
  (enc 6 (p.residues.length - 1) ++ ((p.residues.flatMap fun r => enc 16 r.1 ++ r.2.bits) ++
  (enc 6 (p.maps.length - 1) ++ ((p.maps.flatMap fun m => enc 16 0 ++ m.bits (ilog (channels - 1))) ++
  (enc 6 (p.modes.length - 1) ++ ((p.modes.flatMap Mode.bits) ++ enc 1 1)))))))))))

/-- An identification header is well formed. -/
structure Info.Ok (i : Info) : Prop where
  channels : In i.channels 1 256
  rate : In i.rate 1 (2 ^ 32)
  upper : In i.upper 0 (2 ^ 32)
  nominal : In i.nominal 0 (2 ^ 32)
  lower : In i.lower 0 (2 ^ 32)
  short : ∃ e, 6 ≤ e ∧ i.short = 2 ^ e
  long : ∃ e, e ≤ 13 ∧ i.long = 2 ^ e
  order : i.short ≤ i.long

/-- The bits of an identification header. -/
def Info.bits (i : Info) : List Bool :=
  enc 32 0 ++ (enc 8 i.channels ++ (enc 32 i.rate ++ (enc 32 i.upper ++ (enc 32 i.nominal ++ (enc 32 i.lower ++
    (enc 4 i.short.log2 ++ (enc 4 i.long.log2 ++ enc 1 1)))))))

/-- Strings of a comment header are bytes, of a length that fits. -/
def StringOk (s : List Int) : Prop := s.length < 2 ^ 31 - 1 ∧ ∀ c ∈ s, In c 0 256

/-- The bits of a string. -/
def stringBits (s : List Int) : List Bool := enc 32 s.length ++ s.flatMap fun c => enc 8 c

/-- The bits of a comment header. -/
def commentBits (vendor : List Int) (comments : List (List Int)) : List Bool :=
  stringBits vendor ++ (enc 32 comments.length ++ ((comments.flatMap stringBits) ++ enc 1 1))

/-- Bits as bytes, the last one filled up with zeros. -/
def pack : List Bool → Bytes
  | [] => []
  | b0 :: bs => UInt8.ofNat (value (b0 :: bs.take 7)) :: pack (bs.drop 7)
termination_by bs => bs.length
decreasing_by simp; omega

/-- A header packet: its type, `vorbis`, and its bits. -/
def packet (type : UInt8) (bits : List Bool) : Bytes := type :: 118 :: 111 :: 114 :: 98 :: 105 :: 115 :: pack bits

/-- The size of a packet in Xiph lacing. -/
def lace (n : Nat) : Bytes := List.replicate (n / 255) 255 ++ [UInt8.ofNat (n % 255)]

/-- CodecPrivate of a Vorbis track: the number of packets less one, the sizes of all but the last, the packets. -/
def private3 (a b c : Bytes) : Bytes := 2 :: (lace a.length ++ (lace b.length ++ (a ++ (b ++ c))))

/-- The mode of an audio packet, of which `c` is the first byte: the bits behind the first. -/
def modeOf (modes : Nat) (c : UInt8) : Nat := c.toNat / 2 % 2 ^ ilog (modes - 1)

end Verif.Vorbis
