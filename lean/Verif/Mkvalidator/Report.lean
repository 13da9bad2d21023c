/-!
What a run of mkvalidator puts out (/repo/mkvalidator/mkvalidator.c): messages, the number `Result` and the exit status.

A check is reduced to the messages it puts out, in order, each with what becomes of its code. The only use the code
makes of `Result` before it returns it is the test at 1368, so `Result` can be computed from the messages.
-/
namespace Verif.Mkvalidator

/-- A message. -/
inductive Ev
  /-- `Result |= OutputError(code, ..)` -/
  | err (code : Nat)
  /-- `OutputError(code, ..)` whose value is not used: 669, 685, 977, 981, 985, 999, 1016. -/
  | lost (code : Nat)
  /-- `Result = OutputError(code, ..)` before `goto exit`. -/
  | fatal (code : Nat)
  /-- `OutputWarning(code, ..)` -/
  | warn (code : Nat)
deriving DecidableEq, Repr

/-- How a part of the program ends. -/
inductive Fin
  /-- The program goes on. -/
  | next
  /-- `goto exit`. -/
  | exit
  /-- Division by zero, or an access outside of an array or through a null pointer. -/
  | crash
  /-- The part does not end. -/
  | hang
deriving DecidableEq, Repr

/-- A part of a run. -/
structure Run where
  evs : List Ev
  fin : Fin
deriving DecidableEq, Repr

/-- A part that puts out messages and goes on. -/
def say (evs : List Ev) : Run := ⟨evs, .next⟩

/-- One part after the other. -/
def Run.andThen (a b : Run) : Run := if a.fin = .next then ⟨a.evs ++ b.evs, b.fin⟩ else a

/-- Parts in sequence. -/
def inOrder : List Run → Run
  | [] => say []
  | r :: rs => r.andThen (inOrder rs)

/-- The options that matter here, 905-911. -/
structure Opts where
  warnings : Bool := true
  live : Bool := false
  divx : Bool := false
  quick : Bool := false
  quiet : Bool := false
deriving DecidableEq, Repr

/-- A line on the error output: `ERR` or `WRN` with its code. -/
inductive Line
  | ERR (code : Nat)
  | WRN (code : Nat)
deriving DecidableEq, Repr

/-- The code of a line. -/
def Line.code : Line → Nat
  | .ERR c => c
  | .WRN c => c

/-- The line `OutputError`, 137, and `OutputWarning`, 152, print for a message. -/
def Ev.line (o : Opts) : Ev → Option Line
  | .err c | .lost c | .fatal c => some (.ERR c)
  | .warn c => if o.warnings then some (.WRN c) else none

/-- All lines of a part, without `--quick`. -/
def lines (o : Opts) (evs : List Ev) : List Line := evs.filterMap (Ev.line o)

/-- The lines of a run: with `--quick` the program exits after the first one, 138-139 and 153-154. -/
def Run.lines (o : Opts) (r : Run) : List Line := if o.quick then (Mkvalidator.lines o r.evs).take 1 else Mkvalidator.lines o r.evs

/-- `-ErrCode` as an `int`, 140. -/
def neg (code : Nat) : BitVec 32 := -(BitVec.ofNat 32 code)

/-- `Result` after a message. -/
def Ev.apply (r : BitVec 32) : Ev → BitVec 32
  | .err c => r ||| neg c
  | .fatal c => neg c
  | .lost _ | .warn _ => r

/-- `Result` after the messages. -/
def result (evs : List Ev) : BitVec 32 := evs.foldl Ev.apply 0#32

/-- What a process hands to its parent of the `int` it exits with: the low eight bits (POSIX `exit`). -/
def low8 (r : BitVec 32) : Nat := r.toNat % 256

/-- How a run ends for the caller. -/
inductive Status
  | exited (status : Nat)
  | crashed
  | running
deriving DecidableEq, Repr

/-- The end of a run. -/
def Run.status (o : Opts) (r : Run) : Status :=
  match o.quick, Mkvalidator.lines o r.evs with
  | true, l :: _ => .exited (low8 (neg l.code))
  | _, _ =>
    match r.fin with
    | .next | .exit => .exited (low8 (result r.evs))
    | .crash => .crashed
    | .hang => .running

/-- Whether "the file appears to be valid" is printed, 1368-1370. -/
def Run.saysValid (o : Opts) (r : Run) : Bool :=
  !o.quiet && r.fin == .next && result r.evs == 0#32 && !(o.quick && !(Mkvalidator.lines o r.evs).isEmpty)

end Verif.Mkvalidator
