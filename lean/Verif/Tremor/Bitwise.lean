import Verif.Mkv.Block
/-!
Model of the bit reader of /repo/libmatroska2/tremor/bitwise.c. The data is a chain of fragments (`ogg_reference`); the
reader holds the current one, an offset into it and a bit.

Simplifications: `headptr` is an offset into the current fragment and `headend` what is left behind it, -1 after `_adv_halt`.
The shifts of bytes into the result are done on unbounded numbers; as at most 32 bits are asked for (the comments at 81, 141
and 175 demand it) the mask removes what would not fit into 32 bits.
-/
namespace Verif.Tremor
open Verif Verif.Mkv

/-- `oggpack_buffer`, ogg.h: `count`, `head`, `headptr`, the fragments behind `head`, `headbit`, and `headend == -1`. -/
structure Reader where
  count : Nat
  frag : List Nat
  off : Nat
  rest : List (List Nat)
  bit : Nat
  halted : Bool
deriving DecidableEq, Repr

/-- `headend` of a reader that is not halted. -/
def Reader.left (r : Reader) : Nat := r.frag.length - r.off

/-- `_adv_halt`, 35-39. -/
def halt (r : Reader) : Reader := { r with off := r.frag.length, bit := 0, halted := true }

/-- `_span`, 45-62: `skip` is how far `headptr` is behind the start of the current fragment. -/
def span (count : Nat) (frag : List Nat) (skip bit : Nat) : List (List Nat) → Reader
  | [] =>
    if frag.length < skip ∨ (frag.length ≤ skip ∧ bit ≠ 0) then halt ⟨count, frag, skip, [], bit, false⟩
    else ⟨count, frag, skip, [], bit, false⟩
  | f :: fs =>
    if frag.length ≤ skip then span (count + frag.length) f (skip - frag.length) bit fs
    else ⟨count, frag, skip, f :: fs, bit, false⟩

/-- `oggpack_readinit`, 64-72. -/
def readInit (f : List Nat) (fs : List (List Nat)) : Reader := span 0 f 0 0 fs

/-- `_span_one`, 150-160. -/
def spanOne (count : Nat) (frag : List Nat) (off bit : Nat) : List (List Nat) → Reader
  | [] => ⟨count, frag, off, [], bit, false⟩
  | f :: fs =>
    if frag.length ≤ off then spanOne (count + frag.length) f 0 bit fs
    else ⟨count, frag, off, f :: fs, bit, false⟩

/-- Byte number `i` put in its place: `>>headbit` for the first, `<<(8*i-headbit)` for the others. -/
def place (i bit b : Nat) : Nat := if i = 0 then b >>> bit else b <<< (8 * i - bit)

/-- The loop-free reading of up to five bytes in one fragment, 123-134 and 233-245: byte `i` is read if `bits > 8*i`, the
first one always. `none` is a read outside the fragment. -/
def gather (frag : List Nat) (off bit bits : Nat) : (fuel i acc : Nat) → Option Nat
  | 0, _, acc => some acc
  | fuel + 1, i, acc =>
    if i = 0 ∨ 8 * i < bits then
      match frag[off + i]? with
      | none => none
      | some b => gather frag off bit bits fuel (i + 1) (acc ||| place i bit b)
    else some acc

/-- 186-230: byte by byte with a step to the next fragment behind each whole byte. `err` is the result -1. -/
def readSlow (bits : Nat) : (fuel i acc : Nat) → Reader → Out Nat × Reader
  | 0, _, acc, r => (.ok acc, r)
  | fuel + 1, i, acc, r =>
    if 8 * i < bits then
      if r.left < 1 then (.err, halt r)
      else
        match r.frag[r.off]? with
        | none => (.bad, r)
        | some b =>
          let acc := acc ||| place i r.bit b
          if 8 * (i + 1) ≤ bits then readSlow bits fuel (i + 1) acc (spanOne r.count r.frag (r.off + 1) r.bit r.rest)
          else (.ok acc, r)
    else (.ok acc, r)

/-- `mask[bits]`, 25-32. -/
def mask (n : Nat) : Nat := 2 ^ n - 1

/-- `oggpack_read`, 176-254. With nothing to read (`bits` 0) `ret` is -1, masked to 0. -/
def read (r : Reader) (n : Nat) : Out Nat × Reader :=
  let bits := n + r.bit
  if r.halted then (.err, r)
  else if r.left * 8 ≤ bits then
    match readSlow bits 5 0 0 r with
    | (.ok v, r') => (.ok (v &&& mask n), { r' with bit := bits % 8 })
    | x => x
  else
    match gather r.frag r.off r.bit bits 5 0 0 with
    | none => (.bad, r)
    | some v => (.ok (v &&& mask n), { r with off := r.off + bits / 8, bit := bits % 8 })

/-- `_lookspan`, 74-79: the next fragment with a byte; `none` is `return -1`. -/
def lookSpan : List Nat → List (List Nat) → Option (List Nat × List (List Nat))
  | b :: bs, rest => some (b :: bs, rest)
  | [], f :: fs => lookSpan f fs
  | [], [] => none

/-- 95-118. -/
def lookSlow (bit bits : Nat) : (fuel i acc : Nat) → List Nat → List (List Nat) → Option Nat
  | 0, _, acc, _, _ => some acc
  | fuel + 1, i, acc, cur, rest =>
    if 8 * i < bits then
      match lookSpan cur rest with
      | some (b :: bs, rest) => lookSlow bit bits fuel (i + 1) (acc ||| place i bit b) bs rest
      | _ => none
    else some acc

/-- `oggpack_look`, 82-139. -/
def look (r : Reader) (n : Nat) : Out Nat :=
  let bits := n + r.bit
  if r.halted then .err
  else if r.left * 8 ≤ bits then
    match lookSlow r.bit bits 5 0 0 (r.frag.drop r.off) r.rest with
    | none => .err
    | some v => .ok (v &&& mask n)
  else
    match gather r.frag r.off r.bit bits 5 0 0 with
    | none => .bad
    | some v => .ok (v &&& mask n)

/-- `oggpack_adv`, 142-147. A halted reader comes out of `_span` halted again. -/
def adv (r : Reader) (n : Nat) : Reader :=
  let bits := n + r.bit
  if r.halted then halt r
  else if r.left < bits / 8 + 1 then span r.count r.frag (r.off + bits / 8) (bits % 8) r.rest
  else { r with off := r.off + bits / 8, bit := bits % 8 }

/-- `oggpack_eop`, 170-173. -/
def eop (r : Reader) : Bool := r.halted

/-- `oggpack_bits`, 261-264. -/
def bitsRead (r : Reader) : Nat := (r.count + r.off) * 8 + r.bit

/-- `oggpack_bytes`, 256-259. -/
def bytesRead (r : Reader) : Nat := r.count + r.off + (r.bit + 7) / 8

end Verif.Tremor
