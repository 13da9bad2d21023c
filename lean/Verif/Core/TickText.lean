import Verif.Core.Printf
import Verif.Core.Scanf
/-!
Times as text: `SysTickToString`, corec/corec/helpers/parser/strtypes.c:132-160. `systick_t` is an `int` of 32 bits
(portab.h:307) and `GetTimeFreq()` is 1000 (date.h:27).
-/
namespace Verif.Tick
open Verif Verif.Mkv Verif.Scanf

/-- `stcatprintf_s` to what the call before left. -/
def cat (n : Nat) (mask : Str) (args : List Printf.Arg) : Printf.O → Printf.O
  | .done b => Printf.catprintf n b.dropLast mask args
  | o => o

/-- `SysTickToString`, strtypes.c:132-160, into a buffer of `n` characters. Negating the lowest number overflows. -/
def sysTickToString (n : Nat) (tick : Int) : Out Printf.O :=
  if tick = -2 ^ 31 then .bad
  else
    let sign : Str := if tick < 0 then lit "-" else []
    let t0 := if tick < 0 then -tick else tick
    let hour := (t0.tdiv 3600).tdiv 1000
    let t1 := t0 - hour * 3600 * 1000
    let min := (t1.tdiv 60).tdiv 1000
    let t2 := t1 - min * 60 * 1000
    let sec := t2.tdiv 1000
    let t3 := t2 - sec * 1000
    let o :=
      if hour = 0 ∧ min = 0 then Printf.printf n (lit "%s%d") [.str (some sign), .int sec]
      else
        cat n (lit ":%02d") [.int sec]
          (if hour ≠ 0 then Printf.printf n (lit "%s%d:%02d") [.str (some sign), .int hour, .int min]
          else Printf.printf n (lit "%s%d") [.str (some sign), .int min])
    .ok (cat n (lit ".%03d") [.int ((t3 * 1000).tdiv 1000)] o)

end Verif.Tick
