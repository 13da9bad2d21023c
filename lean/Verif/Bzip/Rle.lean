import Verif.Bzip.Mtf
import Verif.Bzip.Tables
/-!
Model of how a decoded block is put out: `BZ2_indexIntoF`, `BZ_GET_SMALL` and `unRLE_obuf_to_output_SMALL` of
`/repo/libmatroska2/bzip2/bzlib.c:687-804`. Matroska always decompresses with `small` set (matroskamain.c:1144 and 1276).
-/
namespace Verif.Bzip
open Verif Verif.Mkv

/-- `ll16` and `ll4`. -/
structure Ll where
  ll16 : Mem
  ll4 : Mem

/-- `GET_LL`, bzlib_private.h:464-465 and 472-473. -/
def Ll.get (l : Ll) (i : Nat) : Nat := l.ll16 i ||| ((l.ll4 (i >>> 1) >>> ((i <<< 2) &&& 4) &&& 0xF) <<< 16)

/-- `SET_LL`, bzlib_private.h:458-462 and 467-470; `ll4` has bytes. -/
def Ll.set (l : Ll) (i n : Nat) : Ll :=
  ⟨upd l.ll16 i (n % 2 ^ 16),
   upd l.ll4 (i >>> 1) (((if i % 2 = 0 then (l.ll4 (i >>> 1) &&& 0xF0) ||| (n >>> 16) else (l.ll4 (i >>> 1) &&& 0x0F) ||| ((n >>> 16) <<< 4))) % 256)⟩

/-- The loop of `BZ2_indexIntoF`, bzlib.c:692-696. -/
def indexLoop (cftab : List Nat) (indx : Nat) : Nat → Nat → Nat → Out Nat
  | 0, _, _ => .hang
  | f + 1, nb, na =>
    let mid := (nb + na) >>> 1
    match cftab[mid]? with
    | none => .bad
    | some c =>
      let nb' := if indx ≥ c then mid else nb
      let na' := if indx ≥ c then na else mid
      if na' - nb' = 1 then .ok nb' else indexLoop cftab indx f nb' na'

/-- `BZ2_indexIntoF`, bzlib.c:687-698. The bound of 256 rounds is enough. -/
def indexIntoF (cftab : List Nat) (indx : Nat) : Out Nat := indexLoop cftab indx 256 0 256

/-- What does not change while a block is put out. -/
structure Blk where
  size : Nat
  nblock : Nat
  ll : Ll
  cftab : List Nat
  random : Bool

/-- What changes while a block is put out. -/
structure Pos where
  tPos : Nat
  used : Nat
  k0 : Nat
  outLen : Nat
  outCh : Nat
  crc : BitVec 32
  rNToGo : Nat
  rTPos : Nat

/-- `BZ_RAND_UPD_MASK` and `BZ_RAND_MASK`, bzlib_private.h:141-149: the mask, `rNToGo` and `rTPos`. -/
def randStep (n t : Nat) : Out (Nat × Nat × Nat) :=
  if n = 0 then
    match rNums[t]? with
    | none => .bad
    | some r => .ok (if r - 1 = 1 then 1 else 0, r - 1, if t + 1 = 512 then 0 else t + 1)
  else .ok (if n - 1 = 1 then 1 else 0, n - 1, t)

/-- `BZ_GET_SMALL`, bzlib_private.h:475-479, with the mask of a randomised block and `nblock_used++`: the character. `none`: corrupt. Reading
an entry of `ll16` that was never written counts as leaving the array. -/
def getSmall (b : Blk) (p : Pos) : Out (Option Nat × Pos) :=
  if p.tPos ≥ 100000 * b.size then .ok (none, p)
  else if p.tPos ≥ b.nblock then .bad
  else
    (indexIntoF b.cftab p.tPos).bind fun c =>
      let q := { p with tPos := b.ll.get p.tPos, used := p.used + 1 }
      if b.random then (randStep p.rNToGo p.rTPos).bind fun r => .ok (some (c ^^^ r.1), { q with rNToGo := r.2.1, rTPos := r.2.2 })
      else .ok (some c, q)

/-- `BZ_UPDATE_CRC`, bzlib_private.h:167-172. -/
def crcByte (crc : BitVec 32) (c : Nat) : BitVec 32 := (crc <<< 8) ^^^ crcTable.getD ((crc >>> 24).toNat ^^^ c % 256) 0

/-- Puts out up to `avail` bytes of the run, bzlib.c:715-724 and 763-772. -/
def flush (avail : Nat) (p : Pos) : List Nat × Pos :=
  let n := min avail p.outLen
  (List.replicate n p.outCh, { p with outLen := p.outLen - n, crc := (List.replicate n p.outCh).foldl crcByte p.crc })

/-- One of the three places where a second, third or fourth character is looked for, bzlib.c:784-796. `next` goes on. -/
def runStep (b : Blk) (len : Nat) (p : Pos) (next : Pos → Out (Bool × Pos)) : Out (Bool × Pos) :=
  (getSmall b { p with outLen := len }).bind fun r =>
    match r.1 with
    | none => .ok (true, r.2)
    | some k1 =>
      if r.2.used = b.nblock + 1 then .ok (false, r.2)
      else if k1 ≠ r.2.k0 then .ok (false, { r.2 with k0 := k1 })
      else next r.2

/-- After four equal characters: the count, and the character behind it, bzlib.c:797-800. -/
def longRun (b : Blk) (p : Pos) : Out (Bool × Pos) :=
  (getSmall b p).bind fun r =>
    match r.1 with
    | none => .ok (true, r.2)
    | some k1 =>
      (getSmall b { r.2 with outLen := k1 + 4 }).bind fun r =>
        match r.1 with
        | none => .ok (true, r.2)
        | some k0 => .ok (false, { r.2 with k0 := k0 })

/-- A new run, bzlib.c:782-800 (733-755 if randomised): whether the block is corrupt. -/
def newRun (b : Blk) (p : Pos) : Out (Bool × Pos) :=
  runStep b 1 { p with outCh := p.k0 } fun p => runStep b 2 p fun p => runStep b 3 p (longRun b)

/-- `unRLE_obuf_to_output_SMALL`, bzlib.c:706-804: what is put out, and `none` if the block is corrupt. -/
def unRle (b : Blk) : Nat → Nat → Pos → Out (List Nat × Option Pos)
  | 0, _, _ => .hang
  | f + 1, avail, p =>
    let r := flush avail p
    if avail = r.1.length then .ok (r.1, some r.2)
    else if r.2.used = b.nblock + 1 then .ok (r.1, some r.2)
    else if r.2.used > b.nblock + 1 then .ok (r.1, none)
    else
      (newRun b r.2).bind fun q =>
        if q.1 then .ok (r.1, none)
        else (unRle b f (avail - r.1.length) q.2).bind fun s => .ok (r.1 ++ s.1, s.2)

end Verif.Bzip
