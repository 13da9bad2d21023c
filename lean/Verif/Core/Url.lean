import Verif.Core.Printf
import Verif.Mkv.Block
/-!
Model of the path functions of `/repo/corec/corec/helpers/file/tools.c:11-300` and `CheckExts` (351-371), where
TARGET_WIN is not defined, and of the names of the files mkclean (mkclean.c:1704-1721) and mkparts
(mkparts.c:298-309) write.

A string is the list of its characters without the terminator. `tcsicmp` and `tcsnicmp` are `strcasecmp` and
`strncasecmp` (str_linux.c:22-30), here in the C locale. A size of 0 for a buffer does not occur. Not modelled: the
case `Name == Ext` of `SplitPath`.
-/
namespace Verif.Url
open Verif Verif.Mkv

abbrev Str := List Nat

/-- Characters of a literal. -/
def lit (s : String) : Str := s.toList.map Char.toNat

/-- `/` or `\`. -/
def delim (c : Nat) : Bool := c == 0x2F || c == 0x5C

/-- `toupper` in the C locale. -/
def upper (c : Nat) : Nat := if 97 ≤ c ∧ c ≤ 122 then c - 32 else c

/-- `tcsicmp(a,b)==0`. -/
def ieq (a b : Str) : Bool := a.map upper == b.map upper

/-- `tcsnicmp(a,b,n)==0`. -/
def nieq (n : Nat) (a b : Str) : Bool := ieq (a.take n) (b.take n)

/-- `tcscpy_s` to a buffer of `cap`, str.c:94-104. -/
def copy (cap : Nat) (s : Str) : Str := s.take (cap - 1)

/-- `tcscat_s` to a buffer of `cap`, str.c:118-128. -/
def cat (cap : Nat) (out s : Str) : Str := if cap > out.length then out ++ copy (cap - out.length) s else out

/-- `IsSpace`, str.c:816. -/
def isSpace (c : Nat) : Bool := c == 32 || c == 9 || c == 13 || c == 10

/-- The last place where `p` holds: `tcsrchr`, and the later result of two `tcsrchr`. -/
def lastIdx (p : Nat → Bool) : Str → Option Nat
  | [] => none
  | c :: s =>
    match lastIdx p s with
    | some i => some (i + 1)
    | none => if p c then some 0 else none

/-- `tcschr(URL,':')` with `s[1] == '/' && s[2] == '/'`, tools.c:44-45: what stands in front. -/
def scheme (u : Str) : Option Str :=
  let b := u.takeWhile (· != 0x3A)
  if [0x3A, 0x2F, 0x2F].isPrefixOf (u.drop b.length) then some b else none

/-- What `GetProtocol` returns, as an offset, tools.c:64 and 72. -/
def protoEnd (u : Str) : Nat :=
  match scheme u with
  | none => 0
  | some b => b.length + 3

/-- `Proto` of `GetProtocol`, tools.c:47-49 and 70-71, in a buffer of `cap`. -/
def protoName (cap : Nat) (u : Str) : Str :=
  copy cap (match scheme u with
    | none => lit "file"
    | some b => b.dropWhile isSpace)

/-- `HasHost` of `GetProtocol`, tools.c:47 and 50-63 and 68-69. -/
def hasHost (u : Str) : Bool :=
  match scheme u with
  | none => false
  | some _ =>
    let v := u.dropWhile isSpace
    !nieq 4 v (lit "file") && !nieq 3 v (lit "conf") && !nieq 3 v (lit "res") && !nieq 4 v (lit "root") &&
    !nieq 3 v (lit "mem") && !nieq 4 v (lit "pose") && !nieq 3 v (lit "vol") && !nieq 4 v (lit "slot") &&
    !nieq 4 v (lit "simu") && !nieq 5 v (lit "local") && !nieq 6 v (lit "sdcard")

/-- Directory and file, tools.c:87-111. -/
def splitDir (u : Str) : Str × Str :=
  let e := protoEnd u
  match lastIdx delim (u.drop e) with
  | some i => (u.take (e + i), u.drop (e + i + 1))
  | none => if hasHost u then (u, []) else (u.take e, u.drop e)

/-- The fragment is cut off, tools.c:114-121: the `#` is looked for again in the copy. -/
def cutFragment (maxPath : Nat) (u file : Str) : Out Str :=
  if ieq (protoName maxPath u) (lit "http") && file.contains 0x23 then
    match lastIdx (· == 0x23) (copy maxPath file) with
    | none => .bad
    | some i => .ok (file.take i)
  else .ok file

/-- Name and extension, tools.c:127-145. -/
def splitName (file : Str) : Str × Str :=
  match lastIdx (· == 0x2E) file with
  | some i => (file.take i, if file.drop (i + 1) = [] then file.drop i else file.drop (i + 1))
  | none => (file, [])

/-- `SplitPath`, tools.c:77-146: directory, name, extension, before they are copied to the buffers. -/
def splitPath (maxPath : Nat) (u : Str) : Out (Str × Str × Str) :=
  (cutFragment maxPath u (splitDir u).2).bind fun f => .ok ((splitDir u).1, splitName f)

/-- `AddPathDelimiter`, tools.c:11-27. -/
def addDelim (cap : Nat) (p : Str) : Str := if p.getLast? = some 0x2F then p else cat cap p [0x2F]

/-- `RemovePathDelimiter`, tools.c:29-40. -/
def removeDelim (p : Str) : Str :=
  if p.drop (protoEnd p) ≠ [] ∧ p.length > 1 ∧ p.getLast? = some 0x2F then p.dropLast else p

/-- The place of the first delimiter, or the end: tools.c:159-166 and 251-256. -/
def hostEnd (s : Str) : Nat := (s.takeWhile fun c => !delim c).length

/-- The condition of tools.c:171 and 179. -/
def below (n : Nat) (path base : Str) : Bool :=
  decide (n > 0) && decide (n < path.length) && (path[n]?.map delim == some true) && nieq n path base

/-- `RelPath`, tools.c:148-183. -/
def relPath (cap : Nat) (path base : Str) : Str :=
  let e := protoEnd base
  let n := if hasHost base then e + hostEnd (base.drop e) else e
  let both := if e ≠ 0 && below n path base then (path.drop n, base.drop n) else (path, base)
  copy cap (if below both.2.length both.1 both.2 then both.1.drop (both.2.length + 1) else both.1)

/-- `AbsPathNormalize`, tools.c:282-300. -/
def normalize (a : Str) : Str := if protoEnd a ≠ 0 then a.map fun c => if c = 0x5C then 0x2F else c else a

/-- tools.c:261: a drive letter. -/
def drive (p : Str) : Bool :=
  match p with
  | _ :: 0x3A :: [] => true
  | _ :: 0x3A :: 0x5C :: _ => true
  | _ => false

/-- The path begins with one delimiter only, tools.c:233-234. -/
def rooted (p : Str) : Bool :=
  match p with
  | [] => false
  | [a] => delim a
  | a :: b :: _ => delim a && !delim b

/-- `AbsPath`, tools.c:231-280, with a `Base`. -/
def absPath (cap : Nat) (path base : Str) : Str :=
  if protoEnd base ≠ 0 && rooted path then
    let a := copy cap base
    let e := protoEnd a
    if hasHost a then normalize (cat cap (a.take (e + hostEnd (a.drop e))) path)
    else normalize (cat cap (a.take e) (path.drop 1))
  else if protoEnd path == 0 && !(path.head?.map delim == some true) && !drive path then
    let a := copy cap base
    normalize (cat cap (if base.drop (protoEnd base) ≠ [] then addDelim cap a else a) path)
  else normalize (cat cap [] path)

/-- Cuts delimiters at the end. -/
def trimDelims (s : Str) : Str := (s.reverse.dropWhile delim).reverse

/-- `UpperPath`, tools.c:185-229: the value returned, the path left and `Last`. -/
def upperPath (p : Str) : Bool × Str × Str :=
  if p = [] then (false, p, [])
  else
    let q := removeDelim p
    let e := protoEnd q
    let mime := protoName 32 q
    match lastIdx delim (q.drop e) with
    | none =>
      if ieq mime (lit "smb") then (true, q.take e, q.take e)
      else if hasHost q && !ieq mime (lit "upnp") then (false, q, [])
      else if q.drop e = [] then (true, [], q)
      else (true, q.take e, q.drop e)
    | some i => (true, q.take e ++ trimDelims ((q.drop e).take (i + 1)), q.drop (e + i + 1))

/-- The loop of `CheckExts`, tools.c:362-369: `exts` is what `Exts` points to. The type is the character behind the
colon (0 at the end). -/
def extLoop (ext : Str) : Nat → Str → Nat
  | 0, _ => 0
  | fuel + 1, exts =>
    let b := exts.takeWhile (· != 0x3A)
    let r := exts.drop b.length
    if r ≠ [] && ext.length == b.length && nieq b.length ext exts then (r.drop 1).headD 0
    else
      match exts.dropWhile (· != 0x3B) with
      | [] => 0
      | _ :: rest => extLoop ext fuel rest

/-- `CheckExts`, tools.c:351-371. -/
def checkExts (maxPath : Nat) (u exts : Str) : Out Nat :=
  (splitPath maxPath u).bind fun r =>
    let ext := (copy maxPath r.2.2).takeWhile (· != 0x3F)
    .ok (extLoop ext (exts.length + 1) exts)

/-- The text `stcatprintf_s` leaves, if it does. -/
def printed : Printf.O → Out Str
  | .done b => .ok b.dropLast
  | _ => .bad

/-- Sizes of buffers: MAXPATH, MAXLINE, MAXDATA, MAXPATHFULL. -/
structure Caps where
  path : Nat
  line : Nat
  data : Nat
  full : Nat

/-- The directory part of the names, mkclean.c:1708-1714, mkparts.c:299-305. -/
def outDir (c : Caps) (dir : Str) : Str :=
  if copy c.line dir = [] then [] else addDelim c.full (copy c.full (copy c.line dir))

/-- The file mkclean writes when no name is given, mkclean.c:1704-1719. -/
def cleanName (c : Caps) (path : Str) : Out Str :=
  (splitPath c.path path).bind fun r =>
    let name := copy c.line r.2.1
    let ext := copy c.data r.2.2
    printed (if ext ≠ [] then Printf.catprintf c.full (outDir c r.1) (lit "clean.%s.%s") [.str (some name), .str (some ext)]
      else Printf.catprintf c.full (outDir c r.1) (lit "clean.%s") [.str (some name)])

/-- An argument of type `size_t`: where `%s` finds it, 0 is a null pointer and other numbers point nowhere. -/
def sizeArg (j : Nat) : Printf.Arg := if j = 0 then .str none else .long j

/-- The file mkparts writes segment `j` to, mkparts.c:298-309. -/
def partName (c : Caps) (path : Str) (j : Nat) : Out Str :=
  (splitPath c.path path).bind fun r =>
    let name := copy c.line r.2.1
    let ext := copy c.data r.2.2
    printed (if ext ≠ [] then Printf.catprintf c.full (outDir c r.1) (lit "%s.%zu.%s") [.str (some name), sizeArg j, .str (some ext)]
      else Printf.catprintf c.full (outDir c r.1) (lit "%zu.%s") [sizeArg j, .str (some name)])

end Verif.Url
