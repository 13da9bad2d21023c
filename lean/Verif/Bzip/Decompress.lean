import Verif.Bzip.Rle
/-!
Model of `BZ2_decompress` (`/repo/libmatroska2/bzip2/decompress.c:106-646`) and `BZ2_bzDecompress` (bzlib.c:808-858), and of the loops
around it in `/repo/libmatroska2/matroskamain.c:1144-1173` and 1276-1304.

Not modelled: memory running out, verbosity, `small` = 0 (never used by Matroska), and sizes past 32 bits (`total_out_lo32`, matroskamain.c:1168-1169).
-/
namespace Verif.Bzip
open Verif Verif.Mkv

/-- decompress.c:277-281: sixteen bytes. -/
def getRow (u : Nat) : P (List Nat) := if u = 1 then times getBit 16 else pure (List.replicate 16 0)

/-- decompress.c:274-281: which bytes occur. -/
def getMapRows : List Nat → P (List Nat)
  | [] => pure []
  | u :: us => do
    let row ← getRow u
    let rest ← getMapRows us
    pure (row ++ rest)

/-- decompress.c:266-282 and `makeMaps_d`, decompress.c:27-36: `seqToUnseq`. -/
def getMap : P (List Nat) := do
  let in16 ← times getBit 16
  let inUse ← getMapRows in16
  pure ((List.range 256).filter fun i => inUse[i]? == some 1)

/-- What is built up while the symbols are read. -/
structure Acc where
  nblock : Nat
  ll16 : Mem
  unzftab : Mem
  mtf : Mtf

/-- decompress.c:407-413: `es` times the byte. -/
def pushRun (nblockMAX uc : Nat) : Nat → Acc → Out Acc
  | 0, a => .ok a
  | es + 1, a =>
    if a.nblock ≥ nblockMAX then .err
    else pushRun nblockMAX uc es { a with ll16 := upd a.ll16 a.nblock uc, nblock := a.nblock + 1 }

/-- decompress.c:389-402: `es` and the next symbol. -/
def runLoop (sym : Grp → P (Nat × Grp)) : Nat → Int → Nat → Nat → Grp → P (Int × Nat × Grp)
  | 0, _, _, _, _ => forever
  | f + 1, es, n, nextSym, g =>
    if n ≥ 2 * 1024 * 1024 then fail
    else do
      let es := if nextSym = 0 then es + n else es + 2 * n
      let (nextSym, g) ← sym g
      if nextSym = 0 ∨ nextSym = 1 then runLoop sym f es (n * 2) nextSym g else pure (es, nextSym, g)

/-- decompress.c:381-492: all symbols up to the end of the block. -/
def symLoop (sym : Grp → P (Nat × Grp)) (seq : List Nat) (nblockMAX : Nat) : Nat → Nat → Grp → Acc → P Acc
  | 0, _, _, _ => forever
  | f + 1, nextSym, g, a =>
    if nextSym = seq.length + 1 then pure a
    else if nextSym = 0 ∨ nextSym = 1 then do
      let (es, nextSym, g) ← runLoop sym (f + 1) (-1) 1 nextSym g
      let es := (es + 1).toNat
      if a.mtf.base 0 < mtfaSize then
        match seq[a.mtf.a (a.mtf.base 0)]? with
        | none => oob
        | some uc =>
          let a ← lift (pushRun nblockMAX uc es { a with unzftab := upd a.unzftab uc (a.unzftab uc + es) })
          symLoop sym seq nblockMAX f nextSym g a
      else oob
    else if a.nblock ≥ nblockMAX then fail
    else do
      let (uc, mtf) ← lift (mtfStep a.mtf (nextSym - 1))
      match seq[uc]? with
      | none => oob
      | some c =>
        let (nextSym, g) ← sym g
        symLoop sym seq nblockMAX f nextSym g
          ⟨a.nblock + 1, upd a.ll16 a.nblock c, upd a.unzftab c (a.unzftab c + 1), mtf⟩

/-- Sums, decompress.c:507-509. -/
def sums : Nat → List Nat → List Nat
  | acc, [] => [acc]
  | acc, x :: xs => acc :: sums (acc + x) xs

/-- decompress.c:535-540: the T vector. -/
def makeT : Nat → Nat → Mem → Ll → Ll
  | 0, _, _, ll => ll
  | k + 1, i, cf, ll =>
    let uc := ll.ll16 i % 256
    makeT k (i + 1) (upd cf uc (cf uc + 1)) (ll.set i (cf uc))

/-- decompress.c:545-551: the cycle of `origPtr` is turned around. -/
def reverseT (origPtr nblock : Nat) : Nat → Nat → Nat → Ll → Out Ll
  | 0, _, _, _ => .hang
  | f + 1, i, j, ll =>
    if j < nblock then
      let tmp := ll.get j
      let ll := ll.set j i
      if j = origPtr then .ok ll else reverseT origPtr nblock f j tmp ll
    else .bad

/-- decompress.c:251-561: a block up to `BZ_X_OUTPUT`, behind the stored CRC: that CRC, the block, the place to start. -/
def blockBody (size stored : Nat) : P (Nat × Blk × Pos) := do
  let rand ← getBit
  let origPtr ← getWord 3 0
  if origPtr > 10 + 100000 * size then fail
  else
    let seq ← getMap
    if seq = [] then fail
    else
      let (nGroups, sel) ← getSelectors
      let lens ← times (getLens (seq.length + 2)) nGroups
      let tabs := lens.map makeTab
      let sym := getSym tabs sel
      let (nextSym, g) ← sym ⟨0, 0, ⟨0, [], [], []⟩⟩
      let a ← withFuel fun f => symLoop sym seq (100000 * size) f nextSym g ⟨0, ⟨fun _ => 0⟩, ⟨fun _ => 0⟩, mtfInit⟩
      if origPtr ≥ a.nblock then fail
      else
        let unz := (List.range 256).map a.unzftab
        let cftab := sums 0 unz
        if unz.any (· > a.nblock) || cftab.any (· > a.nblock) then fail
        else
          let ll := makeT a.nblock 0 ⟨fun i => cftab.getD i 0⟩ ⟨a.ll16, ⟨fun _ => 0⟩⟩
          let ll ← lift (reverseT origPtr a.nblock (a.nblock + 1) origPtr (ll.get origPtr) ll)
          let b : Blk := ⟨size, a.nblock, ll, cftab, rand == 1⟩
          let (k0, p) ← lift (getSmall b ⟨origPtr, 0, 0, 0, 0, 0xFFFFFFFF, 0, 0⟩)
          match k0 with
          | none => oob
          | some k0 => pure (stored, b, { p with k0 := k0 })

/-- decompress.c:226-249: the rest of the head of a block, and the stored CRC. -/
def getBlockHead : P Nat := do
  expect 0x41
  expect 0x59
  expect 0x26
  expect 0x53
  expect 0x59
  getWord 4 0

/-- decompress.c:226-561: a block behind the first byte of its head. -/
def getBlock (size : Nat) : P (Nat × Blk × Pos) := do
  let stored ← getBlockHead
  blockBody size stored

/-- decompress.c:197-210: the head of the stream, `blockSize100k`. -/
def getHead : P Nat := do
  expect 0x42
  expect 0x5A
  expect 0x68
  let size ← getBits 8
  if size < 0x31 ∨ size > 0x39 then fail else pure (size - 0x30)

/-- decompress.c:588-612: the end of the stream, the combined CRC. -/
def getEnd : P Nat := do
  expect 0x72
  expect 0x45
  expect 0x38
  expect 0x50
  expect 0x90
  getWord 4 0

/-- The state of the decompressor between calls. -/
inductive DState where
  /-- Nothing read. -/
  | start
  /-- In front of the head of a block, with `blockSize100k` and the combined CRC. -/
  | head (size : Nat) (crc : BitVec 32)
  /-- Putting out a block with that stored CRC. -/
  | output (size : Nat) (crc : BitVec 32) (stored : Nat) (b : Blk) (p : Pos)
  /-- Behind the end. -/
  | idle

/-- `BZ2_decompress`, decompress.c:106-646: `none` at the end of the stream, where the CRC of bzlib.c:848-849 is checked. -/
def decompress : DState → P (Option DState)
  | .start => do
    let size ← getHead
    parse size 0
  | .head size crc => parse size crc
  | .output .. => forever
  | .idle => fail
where
  parse (size : Nat) (crc : BitVec 32) : P (Option DState) := do
    let uc ← getUchar
    if uc = 0x17 then
      let stored ← getEnd
      if crc.toNat = stored then pure none else fail
    else if uc = 0x31 then
      let (stored, b, p) ← getBlock size
      pure (some (.output size crc stored b p))
    else fail

/-- `BZ2_bzDecompress`, bzlib.c:808-858, with `avail_out`: what is put out, and the state (`idle` for `BZ_STREAM_END`). -/
def bzDecompress : Nat → Nat → DState → P (List Nat × DState)
  | 0, _, _ => forever
  | f + 1, avail, s =>
    match s with
    | .output size crc stored b p => do
      let (out, p) ← lift (unRle b (b.nblock + 3) avail p)
      match p with
      | none => fail
      | some p =>
        if p.used = b.nblock + 1 ∧ p.outLen = 0 then
          if (~~~p.crc).toNat = stored then
            let (more, s) ← bzDecompress f (avail - out.length) (.head size ((crc <<< 1 ||| crc >>> 31) ^^^ ~~~p.crc))
            pure (out ++ more, s)
          else fail
        else pure (out, .output size crc stored b p)
    | s => do
      let r ← decompress s
      match r with
      | none => pure ([], .idle)
      | some s => bzDecompress f avail s

/-- The loop of matroskamain.c:1154-1167 (1285-1298 for laces), which ends at the end of the stream, or when no input is left, or when there
is room left: with room for 1024 bytes in every call. -/
def bzLoop : Nat → DState → P (List Nat)
  | 0, _ => forever
  | f + 1, s => fun r =>
    (withFuel (fun f => bzDecompress (f + 1) 1024 s) r).bind fun x =>
      match x.1.2 with
      | .idle => .ok (x.1.1, x.2)
      | s =>
        if x.2.inp ≠ [] ∧ x.1.1.length = 1024 then (bzLoop f s x.2).bind fun y => .ok (x.1.1 ++ y.1, y.2)
        else .err

/-- A frame compressed with bzip2, as read by `MATROSKA_BlockReadData`: matroskamain.c:1144-1173 and 1276-1304. The bound is enough for any
frame. -/
def bunzip (inp : List Nat) : Out (List Nat) := (bzLoop ((8 * inp.length + 1) * 300000000) .start ⟨0, 0, inp⟩).bind fun x => .ok x.1

end Verif.Bzip
