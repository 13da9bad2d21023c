import Verif.Core.Printf
/-!
Formats as a user writes them: literal characters, `%%` and directives, how they are spelled, which
arguments they take, and the text that printf is documented to give.
-/
namespace Verif.Printf

/-- What stands between the `%` and the conversion: `-`, `0`, the digits of the width, `l`, `u`. -/
structure Spec where
  left : Bool := false
  zero : Bool := false
  ws : List Nat := []
  long : Bool := false
  uns : Bool := false
deriving DecidableEq, Repr

/-- A conversion with its argument. -/
inductive Conv where
  | dec (v : Int)
  | hex (upper : Bool) (v : Int)
  | chr (v : Int)
  | str (t : List Nat)
  | strA (t : List Nat)
  | ptr (v : Nat)
deriving DecidableEq, Repr

/-- A piece of a format. -/
inductive Piece where
  | lit (c : Nat)
  | pct
  | dir (f : Spec) (k : Conv)
deriving DecidableEq, Repr

/-- The letter of a conversion. -/
def Conv.letter : Conv → Nat
  | .dec _ => 0x64
  | .hex false _ => 0x78
  | .hex true _ => 0x58
  | .chr _ => 0x63
  | .str _ => 0x73
  | .strA _ => 0x53
  | .ptr _ => 0x70

/-- The spelling of a piece. -/
def Piece.mask : Piece → List Nat
  | .lit c => [c]
  | .pct => [0x25, 0x25]
  | .dir f k => [0x25] ++ (if f.left then [0x2D] else []) ++ (if f.zero then [0x30] else []) ++
      f.ws.map (· + 0x30) ++ (if f.long then [0x6C] else []) ++ (if f.uns then [0x75] else []) ++ [k.letter]

/-- The argument of a piece. -/
def Piece.args : Piece → List Arg
  | .lit _ => []
  | .pct => []
  | .dir f (.dec v) => [if f.long then .long v else .int v]
  | .dir f (.hex _ v) => [if f.long then .long v else .int v]
  | .dir _ (.chr v) => [.int v]
  | .dir _ (.str t) => [.str (some t)]
  | .dir _ (.strA t) => [.strA t]
  | .dir _ (.ptr v) => [.ptr v]

/-- A format and its arguments. -/
def mask (ps : List Piece) : List Nat := ps.flatMap Piece.mask
def args (ps : List Piece) : List Arg := ps.flatMap Piece.args

/-- The width as a number. -/
def Spec.width (f : Spec) : Nat := f.ws.foldl (fun a d => a * 10 + d) 0

/-- A piece that can be written down: a literal is a character other than `%`; a width consists of
decimal digits and starts with `0` only behind the flag. Strings consist of bytes. -/
def Piece.WF : Piece → Prop
  | .lit c => c ≠ 0x25 ∧ 0 < c ∧ c < 256
  | .pct => True
  | .dir f k => (∀ d ∈ f.ws, d < 10) ∧ (f.zero = false → f.ws.head? ≠ some 0) ∧
      (∀ t, k = .str t ∨ k = .strA t → ∀ c ∈ t, c < 256)

/-- Blanks before or behind. -/
def field (left : Bool) (w : Nat) (t : List Nat) : List Nat :=
  if left then t ++ List.replicate (w - t.length) 0x20 else List.replicate (w - t.length) 0x20 ++ t

/-- Digits of a number. -/
def digitsText (b : Nat) (upper : Bool) (n : Nat) : List Nat :=
  (Nat.toDigits b n).map fun c => (if upper then c.toUpper else c).toNat

/-- A number in its field: `0` fills with zeros behind the sign, otherwise blanks stand in front. -/
def numText (zero : Bool) (w : Nat) (minus : Bool) (ds : List Nat) : List Nat :=
  let sg := if minus then [0x2D] else []
  if zero then sg ++ List.replicate (w - (sg.length + ds.length)) 0x30 ++ ds
  else List.replicate (w - (sg.length + ds.length)) 0x20 ++ sg ++ ds

/-- The documented text of a conversion. -/
def Conv.text (f : Spec) : Conv → List Nat
  | .dec v => numText f.zero f.width (decide (v < 0)) (digitsText 10 false v.natAbs)
  | .hex up v => numText f.zero f.width false (digitsText 16 up v.natAbs)
  | .chr v => field f.left f.width [(v % 256).toNat]
  | .str t => field f.left f.width t
  | .strA t => field f.left f.width t
  | .ptr v => field f.left f.width ((List.range 8).map fun k =>
      ((Nat.digitChar (v / 16 ^ (7 - k) % 16)).toUpper).toNat)

/-- The documented text of a piece. -/
def Piece.text : Piece → List Nat
  | .lit c => [c]
  | .pct => [0x25]
  | .dir f k => k.text f

/-- The documented text of a format. -/
def text (ps : List Piece) : List Nat := ps.flatMap Piece.text

/-- Numbers in the range this implementation prints as documented: no `-`, decimals of at most twelve
digits in a field of at most ten, hexadecimals of at most eight digits in a field of at most eight. -/
def Piece.InRange : Piece → Prop
  | .dir f (.dec v) => f.left = false ∧ v.natAbs < 10 ^ 12 ∧ f.width ≤ 10 ∧ (f.uns = true → 0 ≤ v)
  | .dir f (.hex _ v) => f.left = false ∧ 0 ≤ v ∧ v < 2 ^ 32 ∧ f.width ≤ 8
  | _ => True

/-- A `%c` or `%s` or `%S` with a width and without `-`. -/
def Piece.RightAligned : Piece → Prop
  | .dir f (.chr _) => f.left = false ∧ 1 < f.width
  | .dir f (.str _) => f.left = false ∧ 0 < f.width
  | .dir f (.strA _) => f.left = false ∧ 0 < f.width
  | _ => False

end Verif.Printf
