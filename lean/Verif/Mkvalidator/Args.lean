import Verif.Core.Url
/-!
Model of the command lines of mkvalidator (`/repo/mkvalidator/mkvalidator.c:858-946`) and mkparts
(`/repo/mkparts/mkparts.c:144-213`).

A string is the list of its characters; `tcsisame_ascii` is `Url.ieq` (compare C76). The conversion of the arguments
(`Node_FromStr`) is left out.
-/
namespace Verif.Args
open Verif

abbrev Str := List Nat

/-- `tcsisame_ascii`. -/
abbrev same (a : Str) (b : String) : Bool := Url.ieq a (Url.lit b)

/-- How a program goes on: it shows text, of the usage the first line and perhaps the options; or it reads a file. -/
inductive Start (σ : Type) where
  | text (usage options : Bool) (code : Int)
  | run (s : σ) (src : Str)
deriving DecidableEq, Repr

/-- The loop over the arguments, with `unknown` the arguments that are reported: an argument that is no option, unless it is
the last. -/
def loop {σ : Type} (flag : Str → σ → Option σ) : List Str → σ → List Str → σ × List Str
  | [], s, unknown => (s, unknown)
  | a :: more, s, unknown =>
    match flag a s with
    | some s => loop flag more s unknown
    | none => loop flag more s (if more = [] then unknown else unknown ++ [a])

/-- What the options of mkvalidator set, mkvalidator.c:862-863 with the statics 27-32. -/
structure Val where
  warnings : Bool := true
  live : Bool := false
  details : Bool := false
  divx : Bool := false
  quiet : Bool := false
  quick : Bool := false
  showVersion : Bool := false
  showUsage : Bool := false
deriving DecidableEq, Repr

/-- mkvalidator.c:905-912. -/
def valFlag (a : Str) (s : Val) : Option Val :=
  if same a "--no-warn" then some { s with warnings := false }
  else if same a "--live" then some { s with live := true }
  else if same a "--details" then some { s with details := true }
  else if same a "--divx" then some { s with divx := true }
  else if same a "--version" then some { s with showVersion := true }
  else if same a "--quiet" then some { s with quiet := true }
  else if same a "--quick" then some { s with quick := true }
  else if same a "--help" then some { s with showVersion := true, showUsage := true }
  else none

/-- mkvalidator.c:898-940: with the unknown arguments reported. `OutputError` ends the program if `--quick` is given, before
the options are listed. -/
def valStart (args : List Str) : Start Val × List Str :=
  let r := loop valFlag args {} []
  match args.getLast? with
  | none => (.text true true (-1), r.2)
  | some src =>
    if r.1.showVersion then
      if r.1.showUsage then (.text true (!r.1.quick) (-1), r.2) else (.text false false 0, r.2)
    else (.run r.1 src, r.2)

/-- What the options of mkparts set, mkparts.c:147-148 with the statics 13-14. -/
structure Parts where
  split : Bool := true
  quiet : Bool := false
  showVersion : Bool := false
  showUsage : Bool := false
deriving DecidableEq, Repr

/-- mkparts.c:177-180. -/
def partsFlag (a : Str) (s : Parts) : Option Parts :=
  if same a "--split" then some { s with split := true }
  else if same a "--version" then some { s with showVersion := true }
  else if same a "--quiet" then some { s with quiet := true }
  else if same a "--help" then some { s with showVersion := true, showUsage := true }
  else none

/-- mkparts.c:174-200: with the unknown arguments reported. Behind it the file is opened (exit code -2), then the program ends
(-3, 208-213) if `split` is not set. -/
def partsStart (args : List Str) : Start Parts × List Str :=
  let r := loop partsFlag args {} []
  match args.getLast? with
  | none => (.text true true (-1), r.2)
  | some src =>
    if r.1.showVersion then (if r.1.showUsage then .text true true (-1) else .text false false 0, r.2)
    else (.run r.1 src, r.2)

end Verif.Args
