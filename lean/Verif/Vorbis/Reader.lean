import Verif.Base.Bytes

/-!
Reading Vorbis headers: what a step of reading is. The bit reader is `oggpack_read` (/repo/libmatroska2/tremor/bitwise.c), in the
form C124 gives it: the next bits, least first, or -1 and nothing more once a read went beyond the end. `rd_is_read` in
`Verif.Vorbis.ReaderLemmas` connects the two. Allocation does not fail for sizes of 0 and above.
-/

namespace Verif.Vorbis

/-- What goes wrong when the behaviour of the code is undefined. -/
inductive Crash where
  /-- floor 1: more than 63 posts are written behind `postlist` -/
  | posts
  /-- floor 1: the class -1 of a partition is used as an index -/
  | partition
  /-- a read of -1 bits looks up `mask[-1]` -/
  | maskIndex
  /-- a shift by -1 -/
  | shift
  /-- residue: more than 256 books are written behind `booklist` -/
  | booklist
  /-- codebook of dimension 0: division by zero -/
  | zeroDim
  /-- codebook: a power does not fit 64 bits -/
  | power
  /-- codebook: a negative number of values -/
  | values
  /-- comment: a length of 2^31-1 plus one -/
  | comment
  /-- clearing: a type out of range picks the function that frees -/
  | freeType
  /-- any other index beyond the end of an array -/
  | index
  /-- CodecPrivate: a lace size is read behind the data -/
  | lace
  /-- durations: no set up headers -/
  | noSetup
  /-- durations: there is no mode to choose from -/
  | noModes
  /-- durations: mode that was not set up -/
  | mode
  /-- durations: frame without a byte at the end of the data -/
  | frame
deriving DecidableEq, Repr

/-- How a call ends: with a value, with an error the caller sees, in undefined behaviour, or not at all. -/
inductive Res (α : Type) where
  | ok (a : α)
  | err
  | crash (c : Crash)
  | hang
deriving DecidableEq, Repr

/-- Sequencing. -/
def Res.bind {α β : Type} (x : Res α) (f : α → Res β) : Res β :=
  match x with
  | .ok a => f a
  | .err => .err
  | .crash c => .crash c
  | .hang => .hang

/-- Bits left, or `none` after a read beyond the end. -/
abbrev St := Option (List Bool)

/-- A step of reading. -/
def P (α : Type) := St → Res (α × St)

instance : Monad P where
  pure a := fun s => .ok (a, s)
  bind p f := fun s => (p s).bind fun x => f x.1 x.2

/-- An error. -/
def fail {α : Type} : P α := fun _ => .err

/-- Undefined behaviour, unless the condition holds. -/
def chk (b : Bool) (c : Crash) : P Unit := fun s => if b then .ok ((), s) else .crash c

/-- The rest only if the condition holds, otherwise an error. -/
def need (b : Bool) : P Unit := fun s => if b then .ok ((), s) else .err

/-- The value of bits, least first. -/
def value : List Bool → Nat
  | [] => 0
  | b :: bs => b.toNat + 2 * value bs

/-- `oggpack_read`, bitwise.c:176-254, for 0 to 32 bits. -/
def rd (n : Nat) : P Int
  | none => .ok (-1, none)
  | some bs => if n ≤ bs.length then .ok ((value (bs.take n) : Int), some (bs.drop n)) else .ok (-1, none)

/-- `oggpack_read` for a number of bits that may be -1, bitwise.c:177: `mask[bits]` is looked up first. -/
def rdI (n : Int) : P Int := do
  chk (decide (0 ≤ n)) .maskIndex
  rd n.toNat

/-- `n` times the same step. -/
def many {α : Type} (p : P α) : Nat → P (List α)
  | 0 => pure []
  | n + 1 => do
    let a ← p
    let as ← many p n
    pure (a :: as)

/-- A step for every index from `i` on, `n` of them. -/
def each {α : Type} (p : Nat → P α) : (n i : Nat) → P (List α)
  | 0, _ => pure []
  | n + 1, i => do
    let a ← p i
    let as ← each p n (i + 1)
    pure (a :: as)

/-- Failing is noted instead of passed on. -/
def attempt {α : Type} (p : P α) : P (Option α) := fun s =>
  match p s with
  | .ok (a, s) => .ok (some a, s)
  | .err => .ok (none, s)
  | .crash c => .crash c
  | .hang => .hang

end Verif.Vorbis
