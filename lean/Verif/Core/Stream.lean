import Verif.Base.Bytes
/-!
Model of the memory stream (corec/corec/helpers/file/memstream.c), the buffered stream
(bufstream.c) and skipping by reading (streams.c).

Assertions are not part of a release build and are left out. The outcome `none` is an access
outside of memory or through a NULL pointer.
-/
namespace Verif.Core
open Verif

/-! ### Memory stream -/

/-- `memstream`, memstream.c:11-19: the block (`Ptr`, `Size`), `Pos` (a `size_t`) and
`VirtualOffset`. -/
structure MS where
  data : Bytes
  pos : Nat
  voff : Int
deriving DecidableEq, Repr

/-- `size_t` wraps around at 2^64. -/
def sizeT (x : Int) : Nat := (x % 2 ^ 64).toNat

/-- `MemRead`, memstream.c:22-41: bytes read, end of file, new state. -/
def memRead (s : MS) (n : Nat) : Option (Bytes × Bool × MS) :=
  let avail := sizeT ((s.data.length : Int) - s.pos)
  let k := if n > avail then avail else n
  if k = 0 ∨ s.pos + k ≤ s.data.length then
    some ((s.data.drop s.pos).take k, decide (n > avail), { s with pos := sizeT ((s.pos : Int) + k) })
  else none

/-- `MemWrite`, memstream.c:43-53: `*Written`, success, new state. `hasWritten` is false for a
NULL `Written`. -/
def memWrite (s : MS) (bs : Bytes) (hasWritten : Bool) : Option (Nat × Bool × MS) :=
  if hasWritten = false then none
  else if sizeT ((bs.length : Int) + s.pos) > s.data.length then some (0, false, s)
  else if bs = [] ∨ s.pos + bs.length ≤ s.data.length then
    some (bs.length, true,
      { s with data := s.data.take s.pos ++ bs ++ s.data.drop (s.pos + bs.length)
               pos := sizeT ((s.pos : Int) + bs.length) })
  else none

inductive Whence where
  | set | cur | fin
deriving DecidableEq, Repr

/-- Where `MemSeek` is asked to go, memstream.c:57-63. -/
def seekTarget (s : MS) (v : Int) : Whence → Int
  | .set => v
  | .cur => v + (s.pos + s.voff)
  | .fin => v + (s.data.length + s.voff)

/-- `MemSeek`, memstream.c:55-80: returned position and new state. -/
def memSeek (s : MS) (v : Int) (w : Whence) : Int × MS :=
  let v1 := seekTarget s v w
  let v2 := if v1 < 0 then 0 else v1
  let v3 := if v2 > s.data.length + s.voff then s.data.length + s.voff else v2
  (v3, { s with pos := sizeT (v3 - s.voff) })

/-- `MemData`, memstream.c:88-95. -/
def memData (s : MS) (bs : Bytes) : MS := { s with data := bs, pos := 0 }

inductive MOp where
  | load (bs : Bytes)
  | offset (o : Int)
  | rd (n : Nat)
  | wr (bs : Bytes) (hasWritten : Bool)
  | seek (v : Int) (w : Whence)
deriving DecidableEq, Repr

inductive MObs where
  | none
  | got (bs : Bytes) (eof : Bool)
  | put (n : Nat) (ok : Bool)
  | at (p : Int)
deriving DecidableEq, Repr

/-- One call. `MEMSTREAM_OFFSET` is a plain field, memstream.c:104. -/
def memStep (s : MS) : MOp → Option (MObs × MS)
  | .load bs => some (.none, memData s bs)
  | .offset o => some (.none, { s with voff := o })
  | .rd n => (memRead s n).map fun r => (.got r.1 r.2.1, r.2.2)
  | .wr bs h => (memWrite s bs h).map fun r => (.put r.1 r.2.1, r.2.2)
  | .seek v w => some (.at (memSeek s v w).1, (memSeek s v w).2)

/-- A history of calls on a new stream (all fields zero). -/
def memRun : List MOp → MS → Option (List MObs × MS)
  | [], s => some ([], s)
  | op :: r, s =>
    match memStep s op with
    | none => none
    | some (o, s') =>
      match memRun r s' with
      | none => none
      | some (os, s'') => some (o :: os, s'')

/-! ### Skipping by reading -/

/-- Reading from a file-like stream with `src` still to come: everything asked for, or all that
is left and the end of file. -/
def srcRead (src : Bytes) (n : Nat) : Bytes × Bool × Bytes := (src.take n, decide (src.length < n), src.drop n)

/-- `DummySkip`, streams.c:12-25: rest of the amount, end of file, rest of the stream. -/
def skipLoop : Nat → Nat → Bytes → Nat × Bool × Bytes
  | 0, n, src => (n, false, src)
  | fuel + 1, n, src =>
    if n > 0 then
      let r := srcRead src (min n 1024)
      if r.2.1 then (n - r.1.length, true, r.2.2) else skipLoop fuel (n - r.1.length) r.2.2
    else (n, false, src)

/-! ### Buffered stream -/

/-- `BUFSTREAM_SIZE`, bufstream.c:11. -/
def bufSize : Nat := 4096

/-- `bufstream`, bufstream.c:13-22, with the stream underneath: `src` is what it still has to
read, `sink` what it has received. `mem` is `Buffer`; reading and writing share it. -/
structure BS where
  mem : Bytes
  rpos : Nat
  rsize : Nat
  wpos : Nat
  src : Bytes
  sink : Bytes
deriving DecidableEq, Repr

/-- A new stream with a buffer of `n` bytes. -/
def BS.new (n : Nat) (src : Bytes) : BS := ⟨List.replicate n 0, 0, 0, 0, src, []⟩

/-- Store `bs` in the buffer at `ofs`; the callers stay within the buffer. -/
def storeAt (mem : Bytes) (ofs : Nat) (bs : Bytes) : Bytes := mem.take ofs ++ bs ++ mem.drop (ofs + bs.length)

/-- Fill the buffer from the stream underneath, bufstream.c:71-72. -/
def bufFill (N : Nat) (s : BS) : BS :=
  { s with mem := storeAt s.mem 0 (srcRead s.src N).1, rpos := 0, rsize := (srcRead s.src N).1.length, src := (srcRead s.src N).2.2 }

/-- The loop of `BufRead`, bufstream.c:53-91, with `left` bytes to go: bytes copied, whether
the last `Stream_Read` reported the end of file, whether it was a direct read, new state. -/
def bufReadLoop (N : Nat) : Nat → BS → Nat → Bytes × Bool × Bool × BS
  | 0, s, _ => ([], false, false, s)
  | fuel + 1, s, left =>
    if left > 0 then
      if s.rsize ≤ s.rpos then
        if left > N then
          ((srcRead s.src left).1, (srcRead s.src left).2.1, true, { s with src := (srcRead s.src left).2.2 })
        else if (bufFill N s).rsize = 0 then ([], (srcRead s.src N).2.1, false, bufFill N s)
        else
          let s1 := bufFill N s
          let k := min left (s1.rsize - s1.rpos)
          let out := (s1.mem.drop s1.rpos).take k
          let q := bufReadLoop N fuel { s1 with rpos := s1.rpos + k } (left - k)
          (out ++ q.1, if left - k = 0 then (srcRead s.src N).2.1 else q.2.1, q.2.2.1, q.2.2.2)
      else
        let k := min left (s.rsize - s.rpos)
        let out := (s.mem.drop s.rpos).take k
        let q := bufReadLoop N fuel { s with rpos := s.rpos + k } (left - k)
        (out ++ q.1, q.2.1, q.2.2.1, q.2.2.2)
    else ([], false, false, s)

/-- `BufRead`, bufstream.c:53-91: bytes read, end of file, new state. The end of file is not
reported when all was read, except by a direct read, which passes on its result. -/
def bufRead (N : Nat) (s : BS) (n : Nat) : Bytes × Bool × BS :=
  let q := bufReadLoop N (n + 1) s n
  (q.1, if q.2.2.1 then q.2.1 else if q.1.length ≥ n then false else q.2.1, q.2.2.2)

/-- `Stream_Write` to the stream underneath: `ok` takes everything, otherwise nothing and an
error. With a NULL `Written` a memory stream crashes (`needs`). -/
def sinkWrite (needs hasWritten : Bool) (ok : Bool) (s : BS) (bs : Bytes) : Option (Bool × BS) :=
  if needs = true ∧ hasWritten = false then none
  else if ok then some (true, { s with sink := s.sink ++ bs }) else some (false, s)

/-- `BufFlush`, bufstream.c:24-34: success and new state. -/
def bufFlush (needs ok : Bool) (s : BS) : Option (Bool × BS) :=
  if s.wpos > 0 then
    match sinkWrite needs false ok s (s.mem.take s.wpos) with
    | none => none
    | some (true, s') => some (true, { s' with wpos := 0 })
    | some (false, s') => some (false, s')
  else some (true, s)

/-- The loop of `BufWrite`, bufstream.c:93-122: number of bytes taken, success, new state.
`ok i` is the outcome of the `i`-th write to the stream underneath. -/
def bufWriteLoop (N : Nat) (needs : Bool) (ok : Nat → Bool) : Nat → Nat → BS → Bytes → Option (Nat × Bool × BS)
  | 0, _, s, _ => some (0, true, s)
  | fuel + 1, i, s, bs =>
    if bs.length > 0 then
      match (if s.wpos ≥ N then bufFlush needs (ok i) s else some (true, s)) with
      | none => none
      | some (false, s1) => some (0, false, s1)
      | some (true, s1) =>
        if s1.wpos = 0 ∧ bs.length > N then
          match sinkWrite needs true (ok (i + 1)) s1 bs with
          | none => none
          | some (true, s2) => some (bs.length, true, s2)
          | some (false, s2) => some (0, false, s2)
        else
          let k := min bs.length (N - s1.wpos)
          match bufWriteLoop N needs ok fuel (i + 2)
              { s1 with mem := storeAt s1.mem s1.wpos (bs.take k), wpos := s1.wpos + k } (bs.drop k) with
          | none => none
          | some (n, f, s2) => some (k + n, f, s2)
    else some (0, true, s)

/-- `BufWrite`, bufstream.c:93-122. -/
def bufWrite (N : Nat) (needs : Bool) (ok : Nat → Bool) (s : BS) (bs : Bytes) : Option (Nat × Bool × BS) :=
  bufWriteLoop N needs ok (bs.length + 1) 0 s bs

/-- Closing, i.e. `BufStream` with no new stream or `BufDelete`, bufstream.c:36-51: the outcome
of the flush is ignored. -/
def bufClose (needs ok : Bool) (s : BS) : Option BS :=
  match bufFlush needs ok s with
  | none => none
  | some (_, s') => some { s' with rpos := 0, rsize := 0, wpos := 0 }

end Verif.Core
