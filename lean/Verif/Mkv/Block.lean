import Verif.Ebml.Vint
/-!
Model of Matroska blocks: header, lacing, frame encodings
(`/repo/libmatroska2/matroskamain.c`).

A block being written holds its frames as a list of byte strings: `Block->Data` is their
concatenation and `Block->SizeList` their lengths, the state `MATROSKA_BlockAppendFrame`
(matroskamain.c:1593-1604) builds. Reading works on `data`, the bytes of the stream from the
block's data position to the end of the stream, and `dataSize`, the size announced by the
element head.

`size_t` and `filepos_t` are 64-bit, `int32_t`/`uint32_t` values are kept modulo 2^32 as
`Nat` (signed overflow, undefined in C, is modelled as wrapping).
-/
namespace Verif.Mkv
open Verif Verif.Ebml

/-- Outcome of an operation: a value, an error code, an access outside a buffer (or to
uninitialised bytes), or an endless loop. -/
inductive Out (α : Type) where
  | ok (a : α)
  | err
  | bad
  | hang
deriving DecidableEq, Repr

/-- Sequencing of `Out` values. -/
def Out.bind {α β : Type} (x : Out α) (f : α → Out β) : Out β :=
  match x with
  | .ok a => f a
  | .err => .err
  | .bad => .bad
  | .hang => .hang

/-- Lacing modes that can be stored in a block, matroskamain.c:67-70. -/
inductive Lacing where
  | none
  | xiph
  | fixed
  | ebml
deriving DecidableEq, Repr

/-- The values `LACING_*`, matroskamain.c:67-70. -/
def Lacing.code : Lacing → Nat
  | .none => 0
  | .xiph => 1
  | .fixed => 2
  | .ebml => 3

/-- `(*cursor & 0x06) >> 1` as a lacing mode, matroskamain.c:1458. -/
def Lacing.ofCode (n : Nat) : Lacing :=
  match n with
  | 0 => .none
  | 1 => .xiph
  | 2 => .fixed
  | _ => .ebml

/-- The fields of `struct matroska_block` kept in the block header. -/
structure Head where
  track : Nat
  time : Int
  key : Bool
  discard : Bool
  invisible : Bool
  lacing : Lacing
deriving DecidableEq, Repr

/-- Assembly of the flag byte, matroskamain.c:1755-1766. -/
def flagByte (invisible : Bool) (lacing : Lacing) (key discard : Bool) : UInt8 :=
  (if invisible then (0x08 : UInt8) else 0) ||| UInt8.ofNat (lacing.code <<< 1) |||
    (if key then (0x80 : UInt8) else 0) ||| (if discard then (0x01 : UInt8) else 0)

/-- The flag byte of a block; `simple` tells a SimpleBlock from a Block, only the former
stores the keyframe and discardable flags, matroskamain.c:1759-1765. -/
def headFlags (simple : Bool) (h : Head) : UInt8 :=
  flagByte h.invisible h.lacing (simple && h.key) (simple && h.discard)

/-- Header part of `RenderBlockData`, matroskamain.c:1735-1766. `STORE16BE` (helper.h)
stores the two low bytes. -/
def renderHead (simple : Bool) (h : Head) : Option Bytes :=
  if h.track < 0x80 then
    some (UInt8.ofNat (0x80 ||| (h.track &&& 0xFF)) :: (beBytes 2 h.time ++ [headFlags simple h]))
  else if h.track < 0x4000 then
    some (UInt8.ofNat (0x40 ||| (h.track >>> 8)) :: UInt8.ofNat (h.track &&& 0xFF) ::
      (beBytes 2 h.time ++ [headFlags simple h]))
  else none

/-- `GetBlockHeadSize`, matroskamain.c:966-973. -/
def headSize (h : Head) : Nat := if h.track < 0x80 then 4 else 5

/-- `(int16_t)LOAD16BE`. -/
def load16 (a b : UInt8) : Int :=
  let n := a.toNat * 256 + b.toNat
  if n < 32768 then n else n - 65536

/-- Decoding of the flag byte, matroskamain.c:1452-1458. For a Block the keyframe and
discardable flags are left as they were in the fresh element (cleared). -/
def parseFlags (simple : Bool) (track : Nat) (time : Int) (f : UInt8) : Head where
  track := track
  time := time
  key := simple && (f &&& 0x80 != 0)
  discard := simple && (f &&& 0x01 != 0)
  invisible := f &&& 0x08 != 0
  lacing := Lacing.ofCode ((f &&& 0x06) >>> 1).toNat

/-- Header part of `ReadBlockData`, matroskamain.c:1424-1466: the fields and
`BlockHeadSize`. The first read asks for 5 bytes and fails when the stream has fewer. -/
def parseHead (simple : Bool) (data : Bytes) : Option (Head × Nat) :=
  match data with
  | b0 :: b1 :: b2 :: b3 :: b4 :: _ =>
    if b0 &&& 0x80 ≠ 0 then
      some (parseFlags simple (b0 &&& 0x7F).toNat (load16 b1 b2) b3, 4)
    else if b0 &&& 0x40 = 0 then none
    else some (parseFlags simple ((b0 &&& 0x3F).toNat * 256 + b1.toNat) (load16 b2 b3) b4, 5)
  | _ => none

/-- `_TempHead[0]` after the header, matroskamain.c:1462-1465: the byte following the
header, or, when there is none, the stale first byte. -/
def countByte (data : Bytes) (hs : Nat) : UInt8 := (data[hs]?).getD (data.headD 0)

/-- Conversion to a 32-bit unsigned number. -/
def u32 (x : Int) : Nat := (x % 2 ^ 32).toNat

/-- Reading of one Xiph-laced size, matroskamain.c:1492-1500: size, bytes counted, rest of
the stream, last byte seen. At the end of the stream the byte read last is used again:
`none` is the endless loop this makes when it is 0xFF. -/
def xiphRead : (last : UInt8) → (s : Bytes) → (acc used : Nat) → Option (Nat × Nat × Bytes × UInt8)
  | last, [], acc, used => if last = 0xFF then none else some (acc + last.toNat, used + 1, [], last)
  | _, b :: rest, acc, used =>
    if b = 0xFF then xiphRead b rest (acc + 255) (used + 1)
    else some (acc + b.toNat, used + 1, rest, b)

/-- Reading of the Xiph lace sizes, matroskamain.c:1488-1505: `n` sizes are coded, the last
frame takes what is left of `LastBufferSize`. Result: `SizeList` and the offset of the
first frame. -/
def xiphSizes : (n : Nat) → (last : UInt8) → (s : Bytes) → (left loc : Nat) → Out (List Nat × Nat)
  | 0, _, _, left, loc => .ok ([left], loc)
  | n + 1, last, s, left, loc =>
    match xiphRead last s 0 0 with
    | none => .hang
    | some (size, used, s', last') =>
      (xiphSizes n last' s' (u32 ((left : Int) - used - size)) (loc + used)).bind
        fun r => .ok (u32 size :: r.1, r.2)

/-- `EBML_ReadCodedSizeValue` called on a pointer into a buffer that has `buf` left while
announcing `avail` bytes (matroskamain.c:1511,1519). `none`: bytes outside `buf` are used. -/
def readVintAt (buf : Bytes) (avail : Nat) : Option CodedSize :=
  if avail = 0 then some ⟨0, 0, 0⟩
  else
    match buf with
    | [] => none
    | b0 :: rest =>
      match findMarker b0 avail 8 with
      | none => some ⟨0, 0, 0⟩
      | some idx => if rest.length < idx then none else some (readCodedSize (b0 :: rest))

/-- The loop over the coded differences, matroskamain.c:1516-1528. -/
def ebmlDeltas : (n : Nat) → (buf : Bytes) → (left prev loc : Nat) → Out (List Nat × Nat)
  | 0, _, left, _, loc => .ok ([left], loc)
  | n + 1, buf, left, prev, loc =>
    match readVintAt buf left with
    | none => .bad
    | some c =>
      let size := u32 ((prev : Int) + ((c.value : Int) - readBias c.len))
      (ebmlDeltas n (buf.drop c.len) (u32 ((left : Int) - size - c.len)) size (loc + c.len)).bind
        fun r => .ok (size :: r.1, r.2)

/-- Reading of the EBML lace sizes, matroskamain.c:1506-1530. The sizes are decoded from a
copy of the next `FrameNum*4` bytes of the stream. With `FrameNum = 0` the loop index stays
1 and the last size is stored after the end of the one-entry list. -/
def ebmlSizes (n : Nat) (s : Bytes) (left loc : Nat) : Out (List Nat × Nat) :=
  match n with
  | 0 => .bad
  | k + 1 =>
    let buf := s.take ((k + 1) * 4)
    match readVintAt buf left with
    | none => .bad
    | some c =>
      let size := u32 c.value
      (ebmlDeltas k (buf.drop c.len) (u32 ((left : Int) - size - c.len)) size (loc + c.len)).bind
        fun r => .ok (size :: r.1, r.2)

/-- Size list part of `ReadBlockData`, matroskamain.c:1460-1540. -/
def parseSizes (lac : Lacing) (hs : Nat) (data : Bytes) (dataSize : Nat) : Out (List Nat × Nat) :=
  match lac with
  | .none => .ok ([u32 ((dataSize : Int) - hs)], hs)
  | .xiph =>
    xiphSizes (countByte data hs).toNat (countByte data hs) (data.drop (hs + 1))
      (u32 ((dataSize : Int) - hs - 1)) (hs + 1)
  | .fixed =>
    .ok (List.replicate ((countByte data hs).toNat + 1)
      (u32 ((dataSize : Int) - hs - 1) / ((countByte data hs).toNat + 1)), hs + 1)
  | .ebml =>
    ebmlSizes (countByte data hs).toNat (data.drop (hs + 1)) (u32 ((dataSize : Int) - hs - 1)) (hs + 1)

/-- The `ContentEncodings` of a track, as far as writing supports them: none, header
stripping with the bytes of `ContentCompSettings`, or zlib. `onBlocks` is the BLOCK bit of
`ContentEncodingScope`. zlib is a parameter: `deflate` gives the compressed frame,
`inflate` the decompressed one or a failure. -/
inductive Enc where
  | plain
  | strip (hdr : Bytes) (onBlocks : Bool)
  | zlib (deflate : Bytes → Bytes) (inflate : Bytes → Option Bytes) (onBlocks : Bool)

/-- `GetBlockFrameSize`, matroskamain.c:1607-1639. -/
def frameSize (enc : Enc) (f : Bytes) : Int :=
  match enc with
  | .strip hdr true => (f.length : Int) - hdr.length
  | .zlib deflate _ true => (deflate f).length
  | _ => f.length

/-- One Xiph-laced size as written for a non-negative size, matroskamain.c:1852-1857: the
loop stores 0xFF and subtracts 255 as long as the rest is at least 255, `n / 255` times,
then stores the rest. -/
def xiphOne (n : Nat) : Bytes := List.replicate (n / 255) 0xFF ++ [UInt8.ofNat (n % 255)]

/-- One Xiph-laced size; a negative one (frame shorter than the stripped header) is
written as its low byte. -/
def xiphSize (s : Int) : Bytes := if s < 0 then [lowByte s] else xiphOne s.toNat

/-- The coded differences of an EBML lace, matroskamain.c:1840-1845, given the previous size
and the sizes that follow without the last. -/
def ebmlCoded : (prev : Int) → List Int → Bytes
  | _, [] => []
  | prev, s :: ss => codedValueSigned (s - prev) (codedSizeLengthSigned (s - prev) 0) ++ ebmlCoded s ss

/-- The frame sizes stored in the lace head after the count byte, matroskamain.c:1835-1864. -/
def laceSizes (lac : Lacing) (ss : List Int) : Bytes :=
  match lac with
  | .none => []
  | .fixed => []
  | .xiph => ss.dropLast.flatMap xiphSize
  | .ebml =>
    match ss with
    | [] => []
    | s :: rest => codedValue s (codedSizeLength s 0 true) true ++ ebmlCoded s rest.dropLast

/-- The lace head, matroskamain.c:1825-1872, as a list of unlimited length. -/
def laceHead (lac : Lacing) (ss : List Int) : Bytes :=
  match lac with
  | .none => []
  | _ => UInt8.ofNat ((ss.length - 1) % 256) :: laceSizes lac ss

/-- Size of the buffer allocated for the lace head, matroskamain.c:1827. -/
def laceRoom (lac : Lacing) (count : Nat) : Nat :=
  match lac with
  | .none => 0
  | _ => 1 + count * 4

/-- The lace head as written: outside the buffer is `bad`, and so is the loop bound
`count - 1` of an empty block. -/
def writeLace (lac : Lacing) (ss : List Int) : Out Bytes :=
  if lac ≠ .none ∧ ss = [] then .bad
  else if laceRoom lac ss.length < (laceHead lac ss).length then .bad
  else .ok (laceHead lac ss)

/-- Frames written with header stripping, matroskamain.c:1915-1932. The header is compared
with the bytes at the cursor whatever the size of the frame. -/
def stripFrames (hdr : Bytes) : (data : Bytes) → List Nat → Out Bytes
  | _, [] => .ok []
  | data, n :: ns =>
    if data.length < hdr.length then .bad
    else if data.take hdr.length ≠ hdr then .err
    else if n < hdr.length then .bad
    else (stripFrames hdr (data.drop n) ns).bind fun r => .ok ((data.take n).drop hdr.length ++ r)

/-- Frames written with zlib, matroskamain.c:1884-1911: the output buffer has 100 bytes more
than the frame, and as many bytes as the compressed size are written from it. The loop of
`CompressFrameZLib` (183-226) does not end for an empty frame, see `Verif.Mkv.Zip`. -/
def zlibFrames (deflate : Bytes → Bytes) : List Bytes → Out Bytes
  | [] => .ok []
  | f :: fs =>
    if f = [] then .hang
    else if f.length + 100 < (deflate f).length then .bad
    else (zlibFrames deflate fs).bind fun r => .ok (deflate f ++ r)

/-- Payload part of `RenderBlockData`, matroskamain.c:1875-1940. -/
def writeFrames (enc : Enc) (frames : List Bytes) : Out Bytes :=
  match enc with
  | .strip hdr true => stripFrames hdr frames.flatten (frames.map List.length)
  | .zlib deflate _ true => zlibFrames deflate frames
  | _ => .ok frames.flatten

/-- `RenderBlockData`, matroskamain.c:1725-1944, for a block whose lacing is decided. -/
def writeBlock (simple : Bool) (enc : Enc) (h : Head) (frames : List Bytes) : Out Bytes :=
  match renderHead simple h with
  | none => .err
  | some hd =>
    (writeLace h.lacing (frames.map (frameSize enc))).bind fun lace =>
      (writeFrames enc frames).bind fun pay => .ok (hd ++ lace ++ pay)

/-- The loop of `GetBestLacingType` estimating the EBML lace, matroskamain.c:1712-1716. The
running `DataSize` is the last *difference*, not the last size. -/
def ebmlEstimate : (d : Int) → List Int → Nat
  | _, [] => 0
  | d, s :: ss => codedSizeLengthSigned (s - d) 0 + ebmlEstimate (s - d) ss

/-- What is left in `DataSize` after the Xiph loop for one frame, matroskamain.c:1702-1707. -/
def xiphRest (s : Int) : Int := if s < 0 then s else s % 255

/-- `GetBestLacingType`, matroskamain.c:1642-1723. -/
def bestLacing (enc : Enc) (frames : List Bytes) : Lacing :=
  if frames.length ≤ 1 then .none
  else if frames.all (fun f => f.length == (frames.headD []).length) then .fixed
  else
    let ss := frames.map (frameSize enc)
    let x := (ss.dropLast.flatMap xiphSize).length
    let e := codedSizeLength (ss.headD 0) 0 true +
      ebmlEstimate (xiphRest (ss.dropLast.getLastD 0)) ss.dropLast.tail
    if x < e then .xiph else .ebml

/-- A block whose lacing is `LACING_AUTO` (the state after `MATROSKA_BlockAppendFrame`):
`UpdateBlockSize` picks the lacing, matroskamain.c:1987-1988, before it is rendered. -/
def writeAuto (simple : Bool) (enc : Enc) (h : Head) (frames : List Bytes) : Out Bytes :=
  writeBlock simple enc { h with lacing := bestLacing enc frames } frames

/-- Sizes and coded differences, matroskamain.c:2042-2048. -/
def sizeEbml : (prev : Int) → List Int → Int
  | _, [] => 0
  | prev, s :: ss => s + codedSizeLengthSigned (s - prev) 0 + sizeEbml s ss

/-- `UpdateBlockSize`, matroskamain.c:1978-2070: the data size announced for the block. -/
def blockSize (enc : Enc) (h : Head) (frames : List Bytes) : Int :=
  let ss := frames.map (frameSize enc)
  match h.lacing with
  | .none => headSize h + ss.headD 0
  | .ebml =>
    match ss with
    | [] => headSize h + 1 + codedSizeLength 0 0 true
    | s :: rest =>
      headSize h + 1 + codedSizeLength s 0 true + s + sizeEbml s rest.dropLast + rest.getLastD 0
  | .xiph =>
    headSize h + 1 + (ss.dropLast.map fun s => s.tdiv 255 + 1 + s).sum + ss.getLastD 0
  | .fixed => headSize h + 1 + ss.sum

/-- A block that was read: header fields, `SizeList`, `Data`. -/
structure Blk where
  head : Head
  sizes : List Nat
  data : Bytes
deriving DecidableEq, Repr

/-- A 32-bit pattern as `int32_t`. -/
def s32 (n : Nat) : Int := if n < 2 ^ 31 then n else (n : Int) - 2 ^ 32

/-- Sum of the sizes as added to the `size_t BufSize`, matroskamain.c:1215-1216; a negative
sum is a huge number, for which the allocation fails. -/
def bufSize (sizes : List Nat) : Int := (sizes.map s32).sum

/-- Reading without encoding, matroskamain.c:1183-1204,1291-1295: one read of all bytes. -/
def readPlain (sizes : List Nat) (loc : Nat) (data : Bytes) : Out Bytes :=
  if bufSize sizes < 0 then .err
  else
    let raw := (data.drop loc).take (bufSize sizes).toNat
    if (raw.length : Int) < bufSize sizes then .err else .ok raw

/-- The frame loop of header stripping, matroskamain.c:1296-1311 (and 1190-1204 for a block
without lacing): `room` is what is left of `Data`, `s` the stream. Sizes already include
the header. -/
def readStrip (hdr : Bytes) : (room : Int) → (s : Bytes) → List Nat → Out Bytes
  | _, _, [] => .ok []
  | room, s, n :: ns =>
    if room < hdr.length then .bad
    else if s32 n < hdr.length then .bad
    else if room < s32 n then .bad
    else if s.length < (s32 n).toNat - hdr.length then .err
    else (readStrip hdr (room - s32 n) (s.drop ((s32 n).toNat - hdr.length)) ns).bind
      fun r => .ok (hdr ++ s.take ((s32 n).toNat - hdr.length) ++ r)

/-- The frame loop of zlib, matroskamain.c:1235-1284 (and 1083-1106 without lacing): each
frame is inflated from its part of the temporary buffer `s`. Result: sizes and data. -/
def readZlib (inflate : Bytes → Option Bytes) : (s : Bytes) → List Nat → Out (List Nat × Bytes)
  | _, [] => .ok ([], [])
  | s, n :: ns =>
    if s32 n < 0 ∨ s.length < n then .bad
    else
      match inflate (s.take n) with
      | none => .err
      | some f => (readZlib inflate (s.drop n) ns).bind fun r => .ok (u32 f.length :: r.1, f ++ r.2)

/-- `CheckCompression` (matroskamain.c:268-321, run when the block is linked to its track)
followed by `MATROSKA_BlockReadData` (matroskamain.c:1014-1360). For header stripping neither
looks at the scope. -/
def readData (enc : Enc) (sizes : List Nat) (loc : Nat) (data : Bytes) : Out (List Nat × Bytes) :=
  match enc with
  | .strip hdr _ =>
    let sizes' := sizes.map fun n : Nat => u32 ((n : Int) + hdr.length)
    if bufSize sizes' < 0 then .err
    else (readStrip hdr (bufSize sizes') (data.drop loc) sizes').bind fun r => .ok (sizes', r)
  | .zlib _ inflate true =>
    (readPlain sizes loc data).bind fun raw => readZlib inflate raw sizes
  | _ => (readPlain sizes loc data).bind fun raw => .ok (sizes, raw)

/-- Reading a block: `ReadBlockData` (matroskamain.c:1407-1554) with the frame data. -/
def readBlock (simple : Bool) (enc : Enc) (data : Bytes) (dataSize : Nat) : Out Blk :=
  match parseHead simple data with
  | none => .err
  | some (h, hs) =>
    (parseSizes h.lacing hs data dataSize).bind fun p =>
      (readData enc p.1 p.2 data).bind fun q => .ok ⟨h, q.1, q.2⟩

end Verif.Mkv
