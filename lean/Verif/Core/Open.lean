import Verif.Core.Url
/-!
Model of opening a file by its name, `/repo/corec/corec/helpers/file/streams.c:199-259` with `Open` of
`file_libc.c:53-92`.

`open(2)` is a function from names to descriptors, which also stands for the flags. The only class of streams with a protocol
is that of files (file_libc.c:259), for which `StrListIndex` in `NodeEnumClassStr` (node.c:1517-1535, C76) is equality but for
case. Not modelled: SFLAG_BUFFERED, SFLAG_NON_BLOCKING, CONFIG_STREAM_CACHE, allocations that fail, the length found by `stat`.
-/
namespace Verif.Url

/-- What the user is told: streams.c:249-253 and file_libc.c:80-81. -/
inductive Report where
  | noProtocol (name : Str)
  | notFound (name : Str)
deriving DecidableEq, Repr

/-- An open stream: its descriptor (`none` is -1) and STREAM_URL. -/
structure Opened where
  fd : Option Nat
  url : Str
deriving DecidableEq, Repr

/-- MAXPROTOCOL, portab.h:256. -/
def maxProtocol : Nat := 16

/-- `Open` of a new file stream, file_libc.c:53-92; a null pointer is the empty name. `quiet` is SFLAG_REOPEN or SFLAG_SILENT. -/
def fileOpen (maxPath : Nat) (quiet : Bool) (os : Str → Option Nat) (u : Str) : Option Opened × Option Report :=
  if u = [] then (some ⟨none, []⟩, none)
  else
    match os u with
    | none => (none, if quiet then none else some (.notFound u))
    | some fd => (some ⟨some fd, copy maxPath u⟩, none)

/-- `StreamOpen` with `GetStream`, streams.c:199-259. `silent` is SFLAG_SILENT, `reopen` is SFLAG_REOPEN. -/
def streamOpen (maxPath : Nat) (silent reopen : Bool) (os : Str → Option Nat) (u : Str) : Option Opened × Option Report :=
  if ieq (protoName maxProtocol u) (lit "file") then fileOpen maxPath (silent || reopen) os u
  else (none, if silent then none else some (.noProtocol ((protoName maxProtocol u).map upper)))

end Verif.Url
