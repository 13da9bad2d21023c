/-!
Model of `vstprintf_s`, corec/corec/str/str.c:186-648, for literal characters, `%%` and the
conversions d i x X c s S p r, with the flags `-` and `0`, width, precision, `*`, `l`, `I64` and `u`.

A string is the list of its characters (bytes) without the terminator. Storing outside of the buffer
is the outcome `overflow`, reading behind the terminator of the format `overread`.

Not modelled: the conversions f g G e E (their outcome is `other`). Simplified: `INT_MIN` and other
signed overflows wrap; a number is first made into its characters and then stored character by
character while there is room, where the code does both together (once the room is used up it stores
nothing any more).
-/
namespace Verif.Printf

/-- The buffer: size, what has been stored, and `OutLen` (64 bits). -/
structure S where
  cap : Nat
  out : List Nat
  left : Nat
deriving DecidableEq, Repr

/-- How the call ends. -/
inductive O where
  | done (buf : List Nat)
  | unterminated (buf : List Nat)
  | overflow
  | overread
  | badArg
  | other
deriving DecidableEq, Repr

/-- An argument. -/
inductive Arg where
  | int (v : Int)
  | long (v : Int)
  | str (s : Option (List Nat))
  | strA (s : List Nat)
  | ptr (v : Nat)
  | fourcc (bytes : List Nat)
deriving DecidableEq, Repr

/-- `*(Out++) = c; --OutLen`. -/
def put (s : S) (c : Nat) : Option S :=
  if s.out.length < s.cap then some { s with out := s.out ++ [c % 256], left := (s.left + (2 ^ 64 - 1)) % 2 ^ 64 } else none

/-- Stores characters while `OutLen>1`. -/
def emitAll : List Nat → S → Option S
  | [], s => some s
  | c :: cs, s =>
    if s.left > 1 then
      match put s c with
      | none => none
      | some s' => emitAll cs s'
    else some s

/-- `while (--Width>=0 && OutLen>1) *Out++ = ' '`: the width left and the buffer. -/
def padLoop : Nat → S → Option (Nat × S)
  | 0, s => some (0, s)
  | w + 1, s =>
    if s.left > 1 then
      match put s 0x20 with
      | none => none
      | some s' => padLoop w s'
    else some (w, s)

/-- 64-bit two's complement. -/
def wrap64 (v : Int) : Int := (v + 2 ^ 63) % 2 ^ 64 - 2 ^ 63

/-- `while (vl<ww && ww>w0) ww/=q`, str.c:304-305. -/
def lower (vl : Int) (w0 q : Nat) : Nat → Nat → Nat
  | 0, ww => ww
  | f + 1, ww => if vl < (ww : Int) ∧ ww > w0 then lower vl w0 q f (ww / q) else ww

/-- A digit, str.c:323-332. -/
def digitChar (upper : Bool) (i : Nat) : Nat :=
  if i ≥ 10 then (i + (if upper then 55 else 87)) % 2 ^ 32 else i + 48

/-- The loop over the digits, str.c:307-338: the characters. -/
def intChars (q : Nat) (upper : Bool) : Nat → Int → Nat → Bool → Bool → List Nat
  | 0, _, _, _, _ => []
  | f + 1, vl, ww, sign, zero =>
    if ww = 0 then []
    else
      let i : Nat := (Int.tdiv vl ww % 2 ^ 32).toNat
      let vl' := wrap64 (vl - i * ww)
      let dash := sign && (ww == 1 || zero || decide (i > 0))
      let blank := i == 0 && !zero && ww != 1
      (if dash then [0x2D] else []) ++ [if blank then 0x20 else digitChar upper i] ++
        intChars q upper f vl' (ww / q) (sign && !dash) (if blank then zero else true)

/-- `w0 = 1; for (;Width>1;--Width) w0 *= q;` in 32 bits, str.c:299-301. -/
def w0of (q : Nat) (width : Int) : Nat := q ^ (width - 1).toNat % 2 ^ 32

/-- The number, str.c:271-340: conversion `x` or `X` for `hex`. -/
def number (hex upper uns zero : Bool) (width : Int) (v : Int) : List Nat :=
  let q := if hex then 16 else 10
  let ww := if hex then 0x10000000 else 100000000000
  let sign := decide (v < 0) && !(uns || hex)
  let vl := if sign then wrap64 (-v) else v
  let width := if sign then width - 1 else width
  intChars q upper 64 vl (lower vl (w0of q width) q 64 ww) sign zero

/-- `%c`, str.c:342-357. -/
def charConv (alignLeft : Bool) (width : Int) (c : Int) (s : S) : Option S :=
  match (if alignLeft then some ((width - 1).toNat, s) else padLoop (width - 1).toNat s) with
  | none => none
  | some (w, s) =>
    match put s (c % 256).toNat with
    | none => none
    | some s => (padLoop w s).map (·.2)

/-- Stores characters without a test, `memcpy`. -/
def putAll : List Nat → S → Option S
  | [], s => some s
  | c :: cs, s =>
    match put s c with
    | none => none
    | some s' => putAll cs s'

/-- `%s`, str.c:359-380: `n` is fixed before the padding. -/
def strConv (alignLeft : Bool) (width : Int) (t : List Nat) (s : S) : Option S :=
  let n := min t.length (s.left - 1)
  match (if alignLeft then some ((width - n).toNat, s) else padLoop (width - n).toNat s) with
  | none => none
  | some (w, s) =>
    match putAll (t.take n) s with
    | none => none
    | some s => (padLoop w s).map (·.2)

/-- `%S`, str.c:381-398. -/
def strAConv (alignLeft : Bool) (width : Int) (t : List Nat) (s : S) : Option S :=
  let n := min t.length (s.left - 1)
  match (if alignLeft then some ((width - n).toNat, s) else padLoop (width - n).toNat s) with
  | none => none
  | some (w, s) =>
    match emitAll (t.take n) s with
    | none => none
    | some s => (padLoop w s).map (·.2)

/-- `%p`, str.c:598-621: eight digits of the low 32 bits. -/
def ptrConv (alignLeft : Bool) (width : Int) (v : Nat) (s : S) : Option S :=
  match (if alignLeft then some ((width - 8).toNat, s) else padLoop (width - 8).toNat s) with
  | none => none
  | some (w, s) =>
    match emitAll ((List.range 8).map fun k => digitChar true (v / 16 ^ (7 - k) % 16)) s with
    | none => none
    | some s => (padLoop w s).map (·.2)

/-- `FourCCToString`, str.c:876-897: the characters that stay. -/
def fourccText (bytes : List Nat) (left : Nat) : List Nat :=
  let t := bytes.take (min 4 (left - 1))
  (t.reverse.dropWhile (· == 0x5F)).reverse

/-- `%r`, str.c:622-632: `OutLen+=Written`. -/
def fourccConv (bytes : List Nat) (s : S) : Option S :=
  if s.left > 4 then
    let t := fourccText bytes s.left
    match putAll t s with
    | none => none
    | some s' => if s'.out.length < s'.cap then some { s' with left := (s.left + t.length) % 2 ^ 64 } else none
  else some s

/-- `IsDigit`. -/
def isDigit (c : Nat) : Bool := decide (0x30 ≤ c) && decide (c ≤ 0x39)

/-- Reads a number. -/
def takeNum : Nat → List Nat → Nat × List Nat
  | acc, [] => (acc, [])
  | acc, c :: m => if isDigit c then takeNum (acc * 10 + (c - 0x30)) m else (acc, c :: m)

/-- The `l`s. -/
def dropLs : List Nat → Bool × List Nat
  | [] => (false, [])
  | c :: m => if c = 0x6C then (true, (dropLs m).2) else (false, c :: m)

/-- Skips one character if it is `c`. -/
def flag (c : Nat) (m : List Nat) : Bool × List Nat :=
  match m with
  | [] => (false, [])
  | d :: m' => if d = c then (true, m') else (false, d :: m')

/-- The width, str.c:226-232. -/
def parseWidth (m : List Nat) : Int × List Nat :=
  match m with
  | [] => (-1, [])
  | c :: m' => if isDigit c then let r := takeNum 0 (c :: m'); ((r.1 : Int), r.2) else (-1, c :: m')

/-- The precision, str.c:234-244 (only used by conversions not modelled). -/
def parsePrec (m : List Nat) : List Nat :=
  match flag 0x2E m with
  | (true, m') => (takeNum 0 m').2
  | (false, m') => m'

/-- `I64`. -/
def parseI64 (m : List Nat) : Bool × List Nat :=
  match m with
  | 0x49 :: 0x36 :: 0x34 :: m' => (true, m')
  | m => (false, m)

/-- A directive behind its `%`: `-`, `0`, width, `*`, long, unsigned, and what stands at the
conversion. -/
structure D where
  alignLeft : Bool
  zero : Bool
  width : Int
  star : Bool
  long : Bool
  uns : Bool
  at' : List Nat
deriving DecidableEq, Repr

/-- str.c:218-267. -/
def parseD (m : List Nat) : D :=
  let a := flag 0x2D m
  let z := flag 0x30 a.2
  let w := parseWidth z.2
  let st := flag 0x2A (parsePrec w.2)
  let l := dropLs st.2
  let i := parseI64 l.2
  let u := flag 0x75 i.2
  ⟨a.1, z.1, w.1, st.1, l.1 || i.1, u.1, u.2⟩

/-- What a conversion does: the buffer and the arguments left, or how the call ends. -/
def lift (args : List Arg) : Option S → Sum O (S × List Arg)
  | none => .inl .overflow
  | some s => .inr (s, args)

/-- d, i, x, X. -/
def convNum (d : D) (c : Nat) (args : List Arg) (s : S) : Sum O (S × List Arg) :=
  let hex := c == 0x78 || c == 0x58
  match d.long, args with
  | false, .int v :: args' => lift args' (emitAll (number hex (c == 0x58) d.uns d.zero d.width v) s)
  | true, .long v :: args' => lift args' (emitAll (number hex (c == 0x58) d.uns d.zero d.width v) s)
  | _, _ => .inl .badArg

/-- The switch on the conversion, str.c:269-633. A character that is no conversion does nothing. -/
def convert (d : D) (c : Nat) (args : List Arg) (s : S) : Sum O (S × List Arg) :=
  if c = 0x64 ∨ c = 0x69 ∨ c = 0x78 ∨ c = 0x58 then convNum d c args s
  else if c = 0x63 then
    match args with
    | .int v :: args' => lift args' (charConv d.alignLeft d.width v s)
    | _ => .inl .badArg
  else if c = 0x73 then
    match args with
    | .str none :: args' => .inr (s, args')
    | .str (some t) :: args' => lift args' (strConv d.alignLeft d.width t s)
    | _ => .inl .badArg
  else if c = 0x53 then
    match args with
    | .strA t :: args' => lift args' (strAConv d.alignLeft d.width t s)
    | _ => .inl .badArg
  else if c = 0x70 then
    match args with
    | .ptr v :: args' => lift args' (ptrConv d.alignLeft d.width v s)
    | _ => .inl .badArg
  else if c = 0x72 then
    match args with
    | .fourcc b :: args' => lift args' (fourccConv b s)
    | _ => .inl .badArg
  else if c = 0x66 ∨ c = 0x67 ∨ c = 0x47 ∨ c = 0x65 ∨ c = 0x45 then .inl .other
  else .inr (s, args)

/-- The width of `*` from the arguments. -/
def starArg (d : D) (args : List Arg) : Option (D × List Arg) :=
  if d.star then
    match args with
    | .int v :: args' => some ({ d with width := v }, args')
    | _ => none
  else some (d, args)

/-- The end, str.c:645-647. -/
def finish (s : S) : O :=
  if s.left > 0 then
    if s.out.length < s.cap then .done (s.out ++ [0]) else .overflow
  else .unterminated s.out

/-- One directive, given what follows. -/
def directive (m : List Nat) (args : List Arg) (s : S) : Sum O (List Nat × List Arg × S) :=
  let d := parseD m
  match starArg d args with
  | none => .inl .badArg
  | some (d, args) =>
    match d.at' with
    | [] => .inl .overread
    | c :: rest =>
      match convert d c args s with
      | .inl o => .inl o
      | .inr (s', args') => .inr (rest, args', s')

/-- The loop, str.c:204-643, each round taking at least one character of the format. -/
def loop : Nat → List Nat → List Arg → S → O
  | 0, _, _, _ => .other
  | fuel + 1, mask, args, s =>
    if s.left > 1 then
      match mask with
      | [] => finish s
      | c :: m =>
        if c = 0x25 then
          if m.head? = some 0x25 then
            match put s 0x25 with
            | none => .overflow
            | some s' => loop fuel (m.drop 1) args s'
          else
            match directive m args s with
            | .inl o => o
            | .inr (rest, args', s') => loop fuel rest args' s'
        else
          match put s c with
          | none => .overflow
          | some s' => loop fuel m args s'
    else finish s

/-- `vstprintf_s(Out,OutLen,Mask,...)` with a buffer of `n` characters. -/
def printf (n : Nat) (mask : List Nat) (args : List Arg) : O := loop (mask.length + 1) mask args ⟨n, [], n⟩

/-- What a call leaves in a buffer that starts behind `old`. -/
def behind (old : List Nat) : O → O
  | .done b => .done (old ++ b)
  | .unterminated b => .unterminated (old ++ b)
  | o => o

/-- `stcatprintf_s(Out,OutLen,Mask,...)`, str.c:150-160, with `old` in the buffer. -/
def catprintf (n : Nat) (old mask : List Nat) (args : List Arg) : O :=
  if n > old.length then behind old (printf (n - old.length) mask args) else .done (old ++ [0])

end Verif.Printf
