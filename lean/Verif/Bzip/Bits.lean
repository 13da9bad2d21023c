import Verif.Mkv.Block
/-!
Model of the bit reader of `/repo/libmatroska2/bzip2/decompress.c`.

The whole compressed frame is given to the decompressor at once (matroskamain.c:1149-1150 and 1283-1284), so a read that
finds no more input ends in `BZ_OK` with `avail_in` 0, which the callers take for a broken frame: here `err`. The
saving and restoring of local variables between calls (decompress.c:137-191 and 619-645) has no counterpart.
-/
namespace Verif.Bzip
open Verif Verif.Mkv

/-- `bsBuff`, `bsLive` and the input from `next_in` on. -/
structure Rd where
  buff : Nat
  live : Nat
  inp : List Nat

/-- A step that reads bits. -/
def P (α : Type) := Rd → Out (α × Rd)

instance : Monad P where
  pure a := fun r => .ok (a, r)
  bind p f := fun r => (p r).bind fun x => f x.1 x.2

/-- `RETURN(BZ_DATA_ERROR)`. -/
def fail {α : Type} : P α := fun _ => .err

/-- An access outside of an array, or of an entry never written. -/
def oob {α : Type} : P α := fun _ => .bad

/-- A loop that goes on for ever. -/
def forever {α : Type} : P α := fun _ => .hang

/-- The loop of `GET_BITS`, decompress.c:43-65. `1 << nnn` is within 32 bits. -/
def getLoop (n : Nat) : List Nat → Nat → Nat → Out (Nat × Rd)
  | inp, buff, live =>
    if n ≤ live then .ok ((buff >>> (live - n)) % 2 ^ n, ⟨buff, live - n, inp⟩)
    else
      match inp with
      | [] => .err
      | b :: r => getLoop n r ((buff <<< 8 ||| b) % 2 ^ 32) (live + 8)

/-- `GET_BITS(lll,vvv,n)`, decompress.c:43-65. -/
def getBits (n : Nat) : P Nat := fun r => getLoop n r.inp r.buff r.live

/-- `GET_UCHAR`, decompress.c:67-68. -/
def getUchar : P Nat := getBits 8

/-- `GET_BIT`, decompress.c:70-71. -/
def getBit : P Nat := getBits 1

/-- Bits not read yet. -/
def Rd.left (r : Rd) : Nat := r.live + 8 * r.inp.length

/-- Runs `p` with a bound for its loop: one more than the bits that are left. -/
def withFuel {α : Type} (p : Nat → P α) : P α := fun r => p (r.left + 1) r

/-- `n` times `p`. -/
def times {α : Type} (p : P α) : Nat → P (List α)
  | 0 => pure []
  | n + 1 => do
    let a ← p
    let r ← times p n
    pure (a :: r)

/-- A byte that has to be `b`. -/
def expect (b : Nat) : P Unit := do
  let uc ← getUchar
  if uc = b then pure () else fail

/-- Bytes put together, decompress.c:241-249, 253-259 and 601-609. -/
def getWord : Nat → Nat → P Nat
  | 0, v => pure v
  | n + 1, v => do
    let uc ← getUchar
    getWord n (v * 256 + uc)

end Verif.Bzip
