import Verif.Base.Bytes
/-!
Model of the dynamic array and the fifo of corec/corec/array/array.c.

The memory block of an array is the list of its bytes, so that its length is the capacity kept
in the block header; no block is `none`. Every operation that may allocate gets the outcome of
the allocation (`Mem.ok`) and the contents of fresh memory (`Mem.junk`) as parameters. An access
outside of the block has the outcome `none`.

Simplified: blocks come from `malloc`/`realloc` (not from a `cc_memheap`, and they are not
constant blocks), and sizes are natural numbers, i.e. size computations near 2^64 do not wrap
around.
-/
namespace Verif.Core
open Verif

/-- Outcome of `malloc` or `realloc`. -/
structure Mem where
  ok : Bool
  junk : Nat → UInt8

/-- `array`, array.h:29-35. -/
structure Arr where
  blk : Option Bytes
  used : Nat
deriving DecidableEq, Repr

/-- `ArrayInit`, array.h:41. -/
def Arr.empty : Arr := ⟨none, 0⟩

/-- The bytes of the block. -/
def Arr.mem (a : Arr) : Bytes := a.blk.getD []

/-- `Data_Size`, array.c:52-57. -/
def Arr.cap (a : Arr) : Nat := a.mem.length

/-- What `ARRAYBEGIN` .. `ARRAYEND` gives access to, array.h:69-78. -/
def Arr.view (a : Arr) : Bytes := a.mem.take a.used

/-- Bytes `k` .. `n` of fresh memory. -/
def fresh (junk : Nat → UInt8) (k n : Nat) : Bytes := (List.range (n - k)).map fun i => junk (k + i)

/-- `Data_ReAlloc`, array.c:59-120: blocks only grow; failure changes nothing. -/
def reAlloc (m : Mem) (a : Arr) (n : Nat) : Option Arr :=
  match a.blk with
  | none => if m.ok then some { a with blk := some (fresh m.junk 0 n) } else none
  | some b =>
    if b.length < n then
      if m.ok then some { a with blk := some (b ++ fresh m.junk b.length n) } else none
    else some a

/-- The alignment chosen by `SizeAlign` when none is given, array.c:172-177. -/
def autoAlign (total : Nat) : Nat :=
  (([16, 32, 64, 128, 256, 512, 1024, 2048, 4096, 8192]).find? fun al => al * 8 > total).getD 16384

/-- `SizeAlign`, array.c:170-180: `(Total + Align) & ~Align` with `Align` decremented before. -/
def sizeAlign (total align : Nat) : Nat :=
  let m := (if align = 0 then autoAlign total else align) - 1
  total + m - ((total + m) &&& m)

/-- `ArrayAlloc`, array.c:182-189. -/
def arrAlloc (m : Mem) (a : Arr) (total align : Nat) : Option Arr :=
  match reAlloc m a (sizeAlign total align) with
  | none => none
  | some a' => some { a' with used := a.used }

/-- `memcpy` of `bs` into the block at `ofs`. -/
def Arr.put (a : Arr) (ofs : Nat) (bs : Bytes) : Option Arr :=
  if ofs + bs.length ≤ a.cap then
    if bs.length = 0 then some a
    else some { a with blk := some (a.mem.take ofs ++ bs ++ a.mem.drop (ofs + bs.length)) }
  else none

/-- `memmove` of `len` bytes of the block from `src` to `dst`. -/
def Arr.move (a : Arr) (dst src len : Nat) : Option Arr :=
  if src + len ≤ a.cap then a.put dst ((a.mem.drop src).take len) else none

/-- Make room for `total` bytes, first lines of `ArrayAppend` and `ArrayResize`. -/
def arrRoom (m : Mem) (a : Arr) (total align : Nat) : Option Arr :=
  if total > a.cap then arrAlloc m a total align else some a

/-- `ArrayAppend` with data, array.c:227-236. The result is the returned flag and the array. -/
def arrAppend (m : Mem) (a : Arr) (bs : Bytes) (align : Nat) : Option (Bool × Arr) :=
  match arrRoom m a (a.used + bs.length) align with
  | none => some (false, a)
  | some a' =>
    match a'.put a'.used bs with
    | none => none
    | some a'' => some (true, { a'' with used := a''.used + bs.length })

/-- `ArrayAppend` without data, array.c:227-236: the new bytes are what the block holds. -/
def arrGap (m : Mem) (a : Arr) (n align : Nat) : Option (Bool × Arr) :=
  match arrRoom m a (a.used + n) align with
  | none => some (false, a)
  | some a' => some (true, { a' with used := a'.used + n })

/-- `ArrayInsert` with data, array.c:199-207. The length `ArraySize(p)-Width-Ofs` of the
`memmove` wraps around to a huge number when `Ofs` is beyond the end. -/
def arrInsert (m : Mem) (a : Arr) (ofs : Nat) (bs : Bytes) (align : Nat) : Option (Bool × Arr) :=
  match arrGap m a bs.length align with
  | none => none
  | some (false, a') => some (false, a')
  | some (true, a') =>
    if a'.used < bs.length + ofs then none
    else
      match a'.move (ofs + bs.length) ofs (a'.used - bs.length - ofs) with
      | none => none
      | some a'' =>
        match a''.put ofs bs with
        | none => none
        | some r => some (true, r)

/-- `ArrayDelete`, array.c:209-213. The length of the `memmove` wraps around to a huge number
when the range goes beyond the end. -/
def arrDelete (a : Arr) (ofs w : Nat) : Option Arr :=
  if a.used < w + ofs then none
  else
    match a.move ofs (ofs + w) (a.used - w - ofs) with
    | none => none
    | some a' => some { a' with used := a'.used - w }

/-- `ArrayShrink`, array.c:191-197. -/
def arrShrink (a : Arr) (n : Nat) : Arr :=
  if a.used > n then { a with used := a.used - n } else { a with used := 0 }

/-- `ArrayClear`, array.c:139-163. -/
def arrClear (a : Arr) : Arr :=
  match a.blk with
  | none => a
  | some _ => ⟨none, 0⟩

/-- `ArrayDrop`, array.c:165-168. -/
def arrDrop (a : Arr) : Arr := { a with used := 0 }

/-- `ArrayResize`, array.c:254-260. -/
def arrResize (m : Mem) (a : Arr) (total align : Nat) : Bool × Arr :=
  match arrRoom m a total align with
  | none => (false, a)
  | some a' => (true, { a' with used := total })

/-- `ArrayCopy` from an array with contents `bs`, array.c:245-252. -/
def arrCopy (m : Mem) (a : Arr) (bs : Bytes) : Option (Bool × Arr) :=
  match arrResize m a bs.length 0 with
  | (false, a') => some (false, a')
  | (true, a') =>
    match a'.put 0 bs with
    | none => none
    | some r => some (true, r)

/-- `ArrayZero`, array.c:262-265. -/
def arrZero (a : Arr) : Option Arr := a.put 0 (List.replicate a.used 0)

/-- `ArrayEq`, array.c:238-243. -/
def arrEq (a b : Arr) : Bool := a.used == b.used && (a.used == 0 || a.view == b.view)

/-- `ArrayAppendStr` of the string `s` (its characters, without the NUL), array.c:215-225. -/
def arrAppendStr (m : Mem) (a : Arr) (s : Bytes) (merge : Bool) (align : Nat) : Option (Bool × Arr) :=
  if s ≠ [] ∨ merge = false then
    if merge = true ∧ a.used ≠ 0 then
      match a.mem[a.used - 1]? with
      | none => none
      | some c => arrAppend m (if c = 0 then arrShrink a 1 else a) (s ++ [0]) align
    else arrAppend m a (s ++ [0]) align
  else some (true, a)

/-! ### Operations as data -/

inductive AOp where
  | append (bs : Bytes) (align : Nat)
  | gap (n align : Nat)
  | insert (ofs : Nat) (bs : Bytes) (align : Nat)
  | delete (ofs w : Nat)
  | shrink (n : Nat)
  | resize (n align : Nat)
  | copy (bs : Bytes)
  | zero
  | alloc (n align : Nat)
  | drop
  | clear
deriving Repr

/-- One call. Functions without a result count as successful. -/
def arrStep (m : Mem) (a : Arr) : AOp → Option (Bool × Arr)
  | .append bs al => arrAppend m a bs al
  | .gap n al => arrGap m a n al
  | .insert o bs al => arrInsert m a o bs al
  | .delete o w => (arrDelete a o w).map fun a' => (true, a')
  | .shrink n => some (true, arrShrink a n)
  | .resize n al => some (arrResize m a n al)
  | .copy bs => arrCopy m a bs
  | .zero => (arrZero a).map fun a' => (true, a')
  | .alloc n al =>
    match arrAlloc m a n al with
    | none => some (false, a)
    | some a' => some (true, a')
  | .drop => some (true, arrDrop a)
  | .clear => some (true, arrClear a)

/-- A sequence of calls, with the results returned. -/
def arrRun : List (AOp × Mem) → Arr → Option (List Bool × Arr)
  | [], a => some ([], a)
  | (op, m) :: r, a =>
    match arrStep m a op with
    | none => none
    | some (f, a') =>
      match arrRun r a' with
      | none => none
      | some (fs, a'') => some (f :: fs, a'')

/-! ### Fifo -/

/-- `cc_fifo`, array.h:94-100. -/
structure Fifo where
  base : Arr
  rd : Nat
deriving DecidableEq, Repr

/-- `Fifo_Init`, array.h:102. -/
def Fifo.empty : Fifo := ⟨Arr.empty, 0⟩

/-- What `FIFO_BEGIN` .. `FIFO_END` gives access to, array.h:113-115. -/
def Fifo.content (f : Fifo) : Bytes := f.base.view.drop f.rd

/-- `Fifo_Write` with data, array.c:551-580; the flag is the result being a pointer. -/
def fifoWrite (m : Mem) (f : Fifo) (bs : Bytes) (align : Nat) : Option (Bool × Fifo) :=
  let total := f.base.cap
  let fend := f.base.used + bs.length + 256
  let compact := fend > total ∧ f.rd > 0
  match (if compact then
      match f.base.move 0 f.rd (f.base.used - f.rd) with
      | none => none
      | some b => some (⟨{ b with used := b.used - f.rd }, 0⟩, fend - f.rd)
    else some (f, fend) : Option (Fifo × Nat)) with
  | none => none
  | some (f1, end1) =>
    match (if end1 > total then arrAlloc m f1.base end1 align else some f1.base) with
    | none => some (false, f1)
    | some b1 =>
      match ({ b1 with used := b1.used + bs.length } : Arr).put b1.used bs with
      | none => none
      | some b2 => some (true, ⟨b2, f1.rd⟩)

/-- Reading as a user does: look at `n` bytes from `FIFO_BEGIN` and call `Fifo_Readed`
(array.h:108-111); asking for more than there is reads beyond the content. -/
def fifoRead (f : Fifo) (n : Nat) : Option (Bytes × Fifo) :=
  if f.rd + n ≤ f.base.used then some ((f.base.mem.drop f.rd).take n, { f with rd := f.rd + n }) else none

/-- `Fifo_Alloc`, array.c:536-543. -/
def fifoAlloc (m : Mem) (f : Fifo) (total align : Nat) : Bool × Fifo :=
  match arrAlloc m f.base total align with
  | none => (false, f)
  | some b => (true, ⟨b, f.rd⟩)

/-- `Fifo_Drop`, array.c:545-549. -/
def fifoDrop (f : Fifo) : Fifo := ⟨arrDrop f.base, 0⟩

/-- `Fifo_Clear`, array.c:530-534. -/
def fifoClear (f : Fifo) : Fifo := ⟨arrClear f.base, 0⟩

inductive FOp where
  | write (bs : Bytes) (align : Nat)
  | readed (n : Nat)
  | alloc (n align : Nat)
  | drop
  | clear
deriving Repr

/-- One call: success, bytes taken out, new state. -/
def fifoStep (m : Mem) (f : Fifo) : FOp → Option (Bool × Bytes × Fifo)
  | .write bs al => (fifoWrite m f bs al).map fun r => (r.1, [], r.2)
  | .readed n => (fifoRead f n).map fun r => (true, r.1, r.2)
  | .alloc n al => some ((fifoAlloc m f n al).1, [], (fifoAlloc m f n al).2)
  | .drop => some (true, [], fifoDrop f)
  | .clear => some (true, [], fifoClear f)

/-- A sequence of calls: results and bytes taken out of each. -/
def fifoRun : List (FOp × Mem) → Fifo → Option (List (Bool × Bytes) × Fifo)
  | [], f => some ([], f)
  | (op, m) :: r, f =>
    match fifoStep m f op with
    | none => none
    | some (k, out, f') =>
      match fifoRun r f' with
      | none => none
      | some (os, f'') => some ((k, out) :: os, f'')

end Verif.Core
