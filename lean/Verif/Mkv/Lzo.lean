/-!
Model of the LZO decompressor, libmatroska2/lzokay/lzokay.c:71-270.

Bytes are `Nat`s below 256. `src` is the input, `g` the bytes in memory right behind it (the code
can run into them, see `zeroRun`); the output is the list of the bytes stored so far in the buffer of
`cap` bytes. Reading behind `g` is the outcome `over`, storing outside of the output buffer or copying
from a place of it not stored yet the outcome `wild`. `stuck` is running out of fuel, which does not happen (`run_spec`).

Simplified: pointers are positions without wrap-around.
-/
namespace Verif.Lzo

/-- How a call ends: result and contents of the output (its length is `*dst_size`). -/
inductive R where
  | ret (code : Int) (out : List Nat)
  | over
  | wild
  | stuck
deriving DecidableEq, Repr

/-- lzokay.h:12-19. -/
def eLookbehind : Int := -4
def eOutput : Int := -3
def eInput : Int := -2
def eError : Int := -1
def eSuccess : Int := 0
def eNotConsumed : Int := 1

/-- `Max255Count`, lzokay.c:40. -/
def max255 : Nat := (2 ^ 64 - 1) / 255 - 2

/-- The loop of `CONSUME_ZERO_BYTE_LENGTH`, lzokay.c:54-64, over the memory at `inp`: the number of
zeros and what follows them; `none` when it leaves the memory. -/
def zeros : List Nat → Option (Nat × List Nat)
  | [] => none
  | b :: bs => if b = 0 then (zeros bs).map fun r => (r.1 + 1, r.2) else some (0, b :: bs)

/-- What a length says, or how decoding it ends. -/
inductive Ext where
  | over
  | fail (code : Int)
  | ok (len : Nat) (rest : List Nat)
deriving DecidableEq, Repr

/-- The length behind an instruction: `CONSUME_ZERO_BYTE_LENGTH NEEDS_IN(1) len += offset*255 + add +
*inp++`. The scan does not look for the end of the input. -/
def extLen (g rest : List Nat) (base add : Nat) : Ext :=
  match zeros (rest ++ g) with
  | none => .over
  | some (n, m) =>
    if n > max255 then .fail eError
    else if m.length ≤ g.length then .fail eInput
    else .ok (base + n * 255 + add + m.headD 0) (rest.drop (n + 1))

/-- An instruction. -/
inductive Ins where
  | eos (lblen : Nat)
  | lits (len : Nat)
  | copy (dist len lits : Nat)
deriving DecidableEq, Repr

/-- The instruction at `inp`, or how decoding it ends. -/
inductive P where
  | over
  | fail (code : Int)
  | ok (i : Ins) (rest : List Nat)
deriving DecidableEq, Repr

/-- M2, lzokay.c:137-139. -/
def parseM2 (inst : Nat) : List Nat → P
  | [] => .fail eInput
  | h :: rest => .ok (.copy ((h <<< 3) + ((inst >>> 2) &&& 7) + 1) ((inst >>> 5) + 1) (inst &&& 3)) rest

/-- `NEEDS_IN(2) nstate = get_le16(inp); inp += 2`. -/
def le16 (len : Nat) (f : Nat → Nat → Ins) : List Nat → P
  | a :: b :: rest => .ok (f len (a + 256 * b)) rest
  | _ => .fail eInput

/-- Distance and literals of M3, lzokay.c:158-159. -/
def insM3 (len w : Nat) : Ins := .copy ((w >>> 2) + 1) len (w &&& 3)

/-- Distance and literals of M4, lzokay.c:180-184. -/
def insM4 (inst len w : Nat) : Ins :=
  if ((inst &&& 8) <<< 11) + (w >>> 2) = 0 then .eos len
  else .copy (((inst &&& 8) <<< 11) + (w >>> 2) + 16384) len (w &&& 3)

/-- A length, extended when its bits are 0, and then the rest of the instruction. -/
def withLen (g rest : List Nat) (base len add : Nat) (k : Nat → List Nat → P) : P :=
  if len = base then
    match extLen g rest len add with
    | .over => .over
    | .fail c => .fail c
    | .ok n rest' => k n rest'
  else k len rest

/-- M1 with the state left by the last instruction, lzokay.c:186-239. -/
def parseM1 (g : List Nat) (state inst : Nat) (rest : List Nat) : P :=
  if state = 0 then withLen g rest 3 (inst + 3) 15 fun len r => .ok (.lits len) r
  else
    match rest with
    | [] => .fail eInput
    | h :: rest =>
      if state ≠ 4 then .ok (.copy ((inst >>> 2) + (h <<< 2) + 1) 2 (inst &&& 3)) rest
      else .ok (.copy ((inst >>> 2) + (h <<< 2) + 2049) 3 (inst &&& 3)) rest

/-- One instruction, lzokay.c:119-240. -/
def parse (g : List Nat) (state inst : Nat) (rest : List Nat) : P :=
  if inst &&& 0xC0 ≠ 0 then parseM2 inst rest
  else if inst &&& 0x20 ≠ 0 then withLen g rest 2 ((inst &&& 0x1f) + 2) 31 fun len r => le16 len insM3 r
  else if inst &&& 0x10 ≠ 0 then withLen g rest 2 ((inst &&& 7) + 2) 7 fun len r => le16 len (insM4 inst) r
  else parseM1 g state inst rest

/-- Stores bytes at `outp`. -/
def store (cap : Nat) (out : List Nat) (bs : List Nat) : Option (List Nat) :=
  if out.length + bs.length ≤ cap then some (out ++ bs) else none

/-- "Copy lookbehind", lzokay.c:247-249: `dist` is `outp - lbcur`, which stays the same. -/
def copyBack (cap dist : Nat) : Nat → List Nat → Option (List Nat)
  | 0, out => some out
  | n + 1, out =>
    if dist = 0 ∨ dist > out.length then none
    else
      match store cap out [out.getD (out.length - dist) 0] with
      | none => none
      | some out' => copyBack cap dist n out'

/-- Copies literals after the two tests, with `out0` what to report when they fail. -/
def copyLits (cap : Nat) (out rest : List Nat) (n : Nat) : Sum R (List Nat × List Nat) :=
  if n > rest.length then .inl (.ret eInput out)
  else if out.length + n > cap then .inl (.ret eOutput out)
  else
    match store cap out (rest.take n) with
    | none => .inl .wild
    | some out' => .inr (out', rest.drop n)

/-- Lookbehind and literals of a copy instruction, lzokay.c:241-254. -/
def doCopy (cap : Nat) (out rest : List Nat) (dist len n : Nat) : Sum R (List Nat × List Nat) :=
  if dist > out.length then .inl (.ret eLookbehind out)
  else if n > rest.length then .inl (.ret eInput out)
  else if out.length + (len + n) > cap then .inl (.ret eOutput out)
  else
    match copyBack cap dist len out with
    | none => .inl .wild
    | some out' =>
      match store cap out' (rest.take n) with
      | none => .inl .wild
      | some out'' => .inr (out'', rest.drop n)

/-- The end, lzokay.c:256-264. The last of the three results cannot come out. -/
def finish (lblen : Nat) (out rest : List Nat) : R :=
  if lblen ≠ 3 then .ret eError out else if rest = [] then .ret eSuccess out else .ret eNotConsumed out

/-- The loop, lzokay.c:116-255; each round takes at least one byte of the input. -/
def run (g : List Nat) (cap : Nat) : Nat → List Nat → List Nat → Nat → R
  | 0, _, _, _ => .stuck
  | _ + 1, [], out, _ => .ret eInput out
  | fuel + 1, inst :: rest, out, state =>
    match parse g state inst rest with
    | .over => .over
    | .fail c => .ret c out
    | .ok (.eos lblen) rest' => finish lblen out rest'
    | .ok (.lits len) rest' =>
      match copyLits cap out rest' len with
      | .inl r => r
      | .inr (out', rest'') => run g cap fuel rest'' out' 4
    | .ok (.copy dist len n) rest' =>
      match doCopy cap out rest' dist len n with
      | .inl r => r
      | .inr (out', rest'') => run g cap fuel rest'' out' n

/-- The loop entered after literals of the first byte. -/
def runFrom (g : List Nat) (cap : Nat) (state : Nat) : Sum R (List Nat × List Nat) → R
  | .inl r => r
  | .inr (out, rest) => run g cap (rest.length + 1) rest out state

/-- `lzokay_decompress`, lzokay.c:71-264; the first byte at 90-114. -/
def decompress (g src : List Nat) (cap : Nat) : R :=
  if src.length < 3 then .ret eInput []
  else
    match src with
    | [] => .ret eInput []
    | b :: rest =>
      if b ≥ 22 then runFrom g cap 4 (copyLits cap [] rest (b - 17))
      else if b ≥ 18 then runFrom g cap (b - 17) (copyLits cap [] rest (b - 17))
      else run g cap (src.length + 1) src [] 0

end Verif.Lzo

namespace Verif.Lzo

/-- Reading one LZO1X-compressed frame, matroskamain.c:1113-1130 (single frame) and 1252-1270 (laced):
the buffer is `MAX(2048, size << 2)`; `none` is `ERR_INVALID_DATA`. -/
def readFrame (g src : List Nat) : Option (List Nat) :=
  match decompress g src (max 2048 (src.length * 4)) with
  | .ret c out => if c = eSuccess then some out else none
  | _ => none

end Verif.Lzo
