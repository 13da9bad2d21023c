import Verif.Core.Url
/-!
Model of files and directories on Linux (`/repo/corec/corec/helpers/file/file_libc.c:53-240`), of skipping in a stream
(`/repo/corec/corec/helpers/file/streams.c:12-25`) and of dates (`/repo/corec/corec/helpers/date/date_libc.c:22-60`).

What the system answers is a parameter: the handle it gives, how many bytes it delivers, the entries of a directory in the order of
`readdir`, what `stat` says of a path, the calendar.

Simplifications:
* `close`, `closedir` and `ftruncate` of an open handle succeed; `lseek` fails only for negative positions; positions keep below 2^63;
* nobody else writes to the file.
-/
namespace Verif.FileLibc
open Verif Verif.Mkv Verif.Url

/-! ### Handles -/

/-- The handles of a stream (`fd`, `FindDir`) and those the process has open. -/
structure Handles where
  fd : Option Nat
  dir : Option Nat
  fds : List Nat
  dirs : List Nat
deriving DecidableEq, Repr

/-- Closing a handle, if there is one. Closing one that is not open is an error of the program. -/
def closeOpt (h : Option Nat) (l : List Nat) : Out (List Nat) :=
  match h with
  | none => .ok l
  | some h => if h ∈ l then .ok (l.erase h) else .bad

/-- What is done with a stream: opening a file (`named`: there is a name; the answer of `open`), opening a directory, reaching the end
of a directory. Reading, writing, seeking and entries of a directory leave the handles alone. -/
inductive Op where
  | open (named : Bool) (answer : Option Nat)
  | openDir (answer : Option Nat)
  | enumEnd
deriving DecidableEq, Repr

/-- `Open` (53-92), `OpenDir` (157-177) and the end of `EnumDir` (221-226). -/
def step (s : Handles) : Op → Out Handles
  | .open named answer =>
    (closeOpt s.fd s.fds).bind fun fds =>
      if named then .ok { s with fd := answer, fds := answer.toList ++ fds } else .ok { s with fd := none, fds := fds }
  | .openDir answer =>
    (closeOpt s.dir s.dirs).bind fun dirs => .ok { s with dir := answer, dirs := answer.toList ++ dirs }
  | .enumEnd =>
    match s.dir with
    | none => .ok s
    | some _ => (closeOpt s.dir s.dirs).bind fun dirs => .ok { s with dir := none, dirs := dirs }

/-- Any number of calls. -/
def run (s : Handles) : List Op → Out Handles
  | [] => .ok s
  | o :: os => (step s o).bind fun s => run s os

/-- `Delete` (231-240): the pointer to the directory is left, but the stream is gone. -/
def delete (s : Handles) : Out Handles :=
  (closeOpt s.fd s.fds).bind fun fds => (closeOpt s.dir s.dirs).bind fun dirs => .ok { s with fd := none, fds := fds, dirs := dirs }

/-! ### Reading and writing -/

/-- An open file: its bytes, the position, what the descriptor is good for, and `Length`. -/
structure File where
  data : Bytes
  pos : Nat
  canRead : Bool
  canWrite : Bool
  length : Nat
deriving DecidableEq, Repr

/-- What calls return. -/
inductive Res where
  | none
  | endOfFile
  | read
  | write
deriving DecidableEq, Repr

/-- `SSIZE_MAX`. -/
def ssizeMax : Nat := 2 ^ 63 - 1

/-- `Open` of the bytes `old` a file has, or of none, 61-91: the modes, `O_TRUNC`, and `Length`. -/
def openFile (rd wr create : Bool) (old : Bytes) : File :=
  let data := if create then [] else old
  ⟨data, 0, rd || !wr, wr || !rd, data.length⟩

/-- `Read`, 94-111; the system delivers up to `k` bytes. The result has the bytes and `*Readed`, which is not always set. -/
def read (f : File) (size k : Nat) : File × Res × Bytes × Option Nat :=
  if size > ssizeMax then (f, .read, [], Option.none)
  else if f.canRead then
    let d := (f.data.drop f.pos).take (min k size)
    ({ f with pos := f.pos + d.length }, if d.length ≠ size then .endOfFile else .none, d, some d.length)
  else (f, .read, [], some 0)

/-- What the system does with bytes to write at a position: a gap is filled with zeros. -/
def patch (data : Bytes) (pos : Nat) (d : Bytes) : Bytes :=
  if d = [] then data
  else data.take pos ++ List.replicate (pos - data.length) 0 ++ d ++ data.drop (pos + d.length)

/-- `Write`, 118-136; the system takes up to `k` bytes. -/
def write (f : File) (d : Bytes) (k : Nat) : File × Res × Option Nat :=
  if d.length > ssizeMax then (f, .write, Option.none)
  else if f.canWrite then
    let t := d.take k
    ({ f with data := patch f.data f.pos t, pos := f.pos + t.length }, if t.length ≠ d.length then .write else .none, some t.length)
  else (f, .write, some 0)

/-- `SEEK_SET`, `SEEK_CUR`, `SEEK_END`. -/
inductive Mode where
  | set
  | cur
  | fin
deriving DecidableEq, Repr

/-- Where a mode counts from. -/
def Mode.base (f : File) : Mode → Int
  | .set => 0
  | .cur => f.pos
  | .fin => f.data.length

/-- `Seek`, 138-144: the new position, if it is not negative. -/
def seek (f : File) (p : Int) (m : Mode) : File × Option Nat :=
  if m.base f + p < 0 then (f, Option.none) else ({ f with pos := (m.base f + p).toNat }, some (m.base f + p).toNat)

/-- `SetLength`, 146-155: `Length` is left as it is. -/
def setLength (f : File) (n : Nat) : File :=
  if f.canWrite then { f with data := f.data.take n ++ List.replicate (n - f.data.length) 0 } else f

/-- The loop of `DummySkip`, streams.c:18-22. -/
def skipLoop : Nat → File → Int → File × Res × Int
  | 0, f, n => (f, .none, n)
  | fuel + 1, f, n =>
    if n > 0 then
      let size := (min n 1024).toNat
      let r := read f size size
      let left := n - (r.2.2.2.getD 0 : Nat)
      if r.2.1 = .none then skipLoop fuel r.1 left else (r.1, r.2.1, left)
    else (f, .none, n)

/-- `DummySkip`, streams.c:12-25: the result and `*Skip`. -/
def skip (f : File) (n : Int) : File × Res × Int := skipLoop (n.toNat + 1) f n

/-! ### Directories -/

/-- What `stat` tells. -/
structure Stat where
  isDir : Bool
  size : Nat
  mtime : Int
deriving DecidableEq, Repr

/-- A `streamdir`: `size` is none for `INVALID_FILEPOS_T`. -/
structure Item where
  name : Str
  date : Int
  type : Nat
  size : Option Nat
deriving DecidableEq, Repr

/-- `LinuxToDateTime`, date_libc.c:22-28. -/
def toDate (t : Int) : Int := if t - 0x3A4FC880 = 0 then 1 else t - 0x3A4FC880

/-- `DirPath` behind `OpenDir`, 162-163 and 174-175. -/
def dirPath (cap : Nat) (path : Str) : Str := addDelim cap (copy cap (if path = [] then [0x2F] else path))

/-- The path of an entry, 199-200. -/
def entryPath (cap : Nat) (dir name : Str) : Str := cat cap (copy cap dir) name

/-- `EnumDir`, 181-229, for the entries `readdir` has left: the item, and what is left then. The values of a failed `stat` are
undefined. -/
def enumDir (cap : Nat) (stat : Str → Option Stat) (dir exts : Str) (filter : Bool) : List Str → Out (Option Item × List Str)
  | [] => .ok (none, [])
  | name :: rest =>
    if name.head? = some 0x2E then enumDir cap stat dir exts filter rest
    else
      match stat (entryPath cap dir name) with
      | none => .bad
      | some st =>
        let file := copy cap name
        if st.isDir then .ok (some ⟨file, toDate st.mtime, 0x44, none⟩, rest)
        else (checkExts cap file exts).bind fun t =>
          if t = 0 ∧ filter then enumDir cap stat dir exts filter rest
          else .ok (some ⟨file, toDate st.mtime, t, some st.size⟩, rest)

/-- A program that asks for entries until there are no more; each call but the last takes at least one entry. -/
def listDir (cap : Nat) (stat : Str → Option Stat) (dir exts : Str) (filter : Bool) : Nat → List Str → Out (List Item)
  | 0, _ => .hang
  | fuel + 1, entries =>
    (enumDir cap stat dir exts filter entries).bind fun r =>
      match r.1 with
      | none => .ok []
      | some i => (listDir cap stat dir exts filter fuel r.2).bind fun is => .ok (i :: is)

/-! ### Dates -/

/-- `GetDatePacked`, date_libc.c:35-60, where `cal` is `localtime` or `gmtime`. -/
def datePacked {α : Type} (cal : Int → Option α) (t : Int) : Option α :=
  if t = 0 then none else cal (t + 0x3A4FC880)

end Verif.FileLibc
