import Verif.Core.Url
/-!
Model of the names of the applications mkclean writes to the Segment Info (`/repo/mkclean/mkclean.c:2033-2084`).

A string is the list of its characters; `EBML_StringGet` into a buffer is `Url.copy`, the formatted output of `%s` is the text cut to
the buffer (C93, C94). The buffers `String` and `Original` have MAXLINE = 1024 characters (parser.h:21). The version is a parameter.
-/
namespace Verif.AppName
open Verif Verif.Mkv Verif.Url

def cap : Nat := 1024

/-- The options that show in the name, and the texts of the program: `PROJECT_NAME " " PROJECT_VERSION` and the versions of the libraries,
mkclean.c:2034. -/
structure Opts where
  remux : Bool := false
  optimize : Bool := false
  live : Bool := false
  unOptimize : Bool := false
  alt3d : Bool := false
  regression : Bool := false
  program : Str := lit "mkclean 0.9.0"
  libs : Str := lit "libebml2 v0.21.3 + libmatroska2 v0.22.3"
deriving DecidableEq, Repr

/-- The new MuxingApp, mkclean.c:2034-2040. -/
def newMuxing (o : Opts) : Str := if o.regression then lit "libebml2 + libmatroska2" else copy cap o.libs

/-- `Original`: the two names of the source, or one if they are the same, mkclean.c:2036, 2043-2050. -/
def original (mux app : Str) : Str :=
  let m := copy cap mux
  let a := copy cap app
  if ieq a m then m
  else cat cap (if m ≠ [] then cat cap m (lit " + ") else m) a

/-- `s`, mkclean.c:2051-2053: behind the 14 characters of `mkclean 0.8.10`, were it there. Past the terminator the array holds what
was on the stack. -/
def former (orig : Str) : Out Str :=
  if nieq 8 orig (lit "mkclean ") then (if 14 ≤ orig.length then .ok (orig.drop 14) else .bad) else .ok orig

/-- The letters for the options, mkclean.c:2064-2078. -/
def letters (o : Opts) : Str :=
  (if o.remux || o.optimize || o.live || o.unOptimize || o.alt3d then lit " " else []) ++ (if o.remux then lit "r" else []) ++
    (if o.optimize then lit "o" else []) ++ (if o.live then lit "l" else []) ++ (if o.unOptimize then lit "u" else []) ++
    (if o.alt3d then lit "3" else [])

/-- The new WritingApp, mkclean.c:2054-2083. -/
def newWriting (o : Opts) (mux app : Str) : Out Str :=
  (former (original mux app)).bind fun s =>
    if o.regression then .ok (copy cap (lit "mkclean regression" ++ (if s ≠ [] then lit " from " ++ s else [])))
    else .ok (cat cap (cat cap (copy cap o.program) (letters o)) (if s ≠ [] then lit " from " ++ s else []))

/-- Both names after one more cleaning. -/
def clean (o : Opts) (n : Str × Str) : Out (Str × Str) := (newWriting o n.1 n.2).bind fun a => .ok (newMuxing o, a)

/-- Both names after `k` cleanings. -/
def cleanings (o : Opts) : Nat → Str × Str → Out (Str × Str)
  | 0, n => .ok n
  | k + 1, n => (clean o n).bind (cleanings o k)

end Verif.AppName
