import Verif.Core.CodePages
/-!
Model of the conversion between character sets,
corec/corec/helpers/charconvert/charconvert_utf8.c.

An input string is the list of its units without the terminator; the code reads the terminator as
0 and must not read behind it (`unit` gives `none` there). The output buffer is `Out`; a store
behind its end gives `none`, as does calling a function pointer that is NULL.
-/
namespace Verif.Conv
open Verif

/-- `In[i]` of a terminated string. -/
def unit (s : List Nat) (i : Nat) : Option Nat := if i < s.length then s[i]? else if i = s.length then some 0 else none

/-- `Read_Simple`, charconvert_utf8.c:207-216: character and rest of the string. -/
def readSimple (utf : List Nat) (s : List Nat) : Option (Nat × List Nat) :=
  match unit s 0 with
  | none => none
  | some b =>
    if b &&& 0x80 ≠ 0 then
      match utf[b - 128]? with
      | none => none
      | some ch => some (ch, s.drop 1)
    else some (b, s.drop 1)

/-- `(In[i]&0xc0)==0x80`. -/
def isCont (s : List Nat) (i : Nat) : Option Bool := (unit s i).map fun b => decide (b &&& 0xc0 = 0x80)

/-- `a && b` where evaluating `b` may fail. -/
def andThen (a : Bool) (b : Option Bool) : Option Bool := if a then b else some false

/-- The conditions on the bytes after the first: `n` of them are continuations, tested in order. -/
def conts (s : List Nat) : Nat → Nat → Option Bool
  | _, 0 => some true
  | i, n + 1 =>
    match isCont s i with
    | none => none
    | some false => some false
    | some true => conts s (i + 1) n

/-- `In[i]&0x3f`. -/
def low6 (s : List Nat) (i : Nat) : Nat := (s.getD i 0) &&& 0x3f

/-- `Read_UTF8`, charconvert_utf8.c:218-253. -/
def readUtf8 (s : List Nat) : Option (Nat × List Nat) :=
  match unit s 0 with
  | none => none
  | some b =>
    if b &&& 0x80 = 0 then some (b, s.drop 1)
    else
      match andThen (decide (b &&& 0xe0 = 0xc0)) (conts s 1 1) with
      | none => none
      | some true => some (((b &&& 0x1f) <<< 6) + low6 s 1, s.drop 2)
      | some false =>
        match andThen (decide (b &&& 0xf0 = 0xe0)) (conts s 1 2) with
        | none => none
        | some true => some (((b &&& 0x0f) <<< 12) + (low6 s 1 <<< 6) + low6 s 2, s.drop 3)
        | some false =>
          match andThen (decide (b &&& 0xf8 = 0xf0)) (conts s 1 3) with
          | none => none
          | some true => some (((b &&& 0x07) <<< 18) + (low6 s 1 <<< 12) + (low6 s 2 <<< 6) + low6 s 3, s.drop 4)
          | some false => some (b, s.drop 1)

/-- The buffer: its size, and what has been stored from the start on. -/
structure Out where
  cap : Nat
  buf : List Nat
deriving DecidableEq, Repr

/-- Stores at the next places. -/
def Out.push (o : Out) (bs : List Nat) : Option Out := if o.buf.length + bs.length ≤ o.cap then some { o with buf := o.buf ++ bs } else none

/-- The search of `Write_Simple`, charconvert_utf8.c:262-277: `lo` and `hi` are `Lower` and
`Upper + 1`. -/
def searchIdx (utf idx : List Nat) (ch : Nat) : Nat → Nat → Nat → Option Nat
  | 0, _, _ => none
  | fuel + 1, lo, hi =>
    if lo < hi then
      let mid := (hi - 1 + lo) / 2
      let v := utf.getD (idx.getD mid 0) 0
      if v > ch then searchIdx utf idx ch fuel lo mid
      else if v < ch then searchIdx utf idx ch fuel (mid + 1) hi
      else some (idx.getD mid 0)
    else none

/-- The byte for a character, charconvert_utf8.c:260-280: the character itself, or the one found,
or a question mark; `(char)ch` keeps the low 8 bits. -/
def byteFor (utf idx : List Nat) (ch : Nat) : Nat :=
  if ch ≥ 128 ∧ (ch ≥ 256 ∨ utf.getD (ch - 128) 0 ≠ ch) then
    match searchIdx utf idx ch 9 0 128 with
    | some i => i + 128
    | none => 63
  else ch % 256

/-- `Write_Simple`, charconvert_utf8.c:255-284: the buffer and the new `OutLen`. -/
def writeSimple (utf idx : List Nat) (o : Out) (left : Nat) (ch : Nat) : Option (Out × Nat) :=
  if left > 1 then (o.push [byteFor utf idx ch]).map fun o' => (o', left - 1) else some (o, left)

/-- The bytes of a character of 1 to 4 bytes. -/
def utf8Bytes (ch : Nat) : Nat → List Nat
  | 1 => [ch % 256]
  | 2 => [0xc0 ||| ((ch >>> 6) &&& 0x1f), 0x80 ||| (ch &&& 0x3f)]
  | 3 => [0xe0 ||| ((ch >>> 12) &&& 0x0f), 0x80 ||| ((ch >>> 6) &&& 0x3f), 0x80 ||| (ch &&& 0x3f)]
  | _ => [0xf0 ||| ((ch >>> 18) &&& 0x07), 0x80 ||| ((ch >>> 12) &&& 0x3f), 0x80 ||| ((ch >>> 6) &&& 0x3f), 0x80 ||| (ch &&& 0x3f)]

/-- `Write_UTF8`, charconvert_utf8.c:286-321. -/
def writeUtf8 (o : Out) (left : Nat) (ch : Nat) : Option (Out × Nat) :=
  if ch < 0x80 ∧ left > 1 then (o.push (utf8Bytes ch 1)).map fun o' => (o', left - 1)
  else if ch < 0x800 ∧ left > 2 then (o.push (utf8Bytes ch 2)).map fun o' => (o', left - 2)
  else if ch < 0x10000 ∧ left > 3 then (o.push (utf8Bytes ch 3)).map fun o' => (o', left - 3)
  else if left > 4 then (o.push (utf8Bytes ch 4)).map fun o' => (o', left - 4)
  else some (o, left)

/-- The rows of `CodePage`, charconvert_utf8.c:429-443. -/
inductive Page where
  | cp1252 | cp1250 | cp1254 | cp1257 | cp1251 | cp1256 | cp1253 | cp1255 | utf8 | utf16 | utf32
deriving DecidableEq, Repr

/-- `UTF` and `Index` of the simple pages. -/
def Page.tables : Page → Option (List Nat × List Nat)
  | .cp1252 => some (utf1252, idx1252)
  | .cp1250 => some (utf1250, idx1250)
  | .cp1254 => some (utf1254, idx1254)
  | .cp1257 => some (utf1257, idx1257)
  | .cp1251 => some (utf1251, idx1251)
  | .cp1256 => some (utf1256, idx1256)
  | .cp1253 => some (utf1253, idx1253)
  | .cp1255 => some (utf1255, idx1255)
  | _ => none

/-- `From->Read`; NULL for the last two rows. -/
def Page.readCh (p : Page) (s : List Nat) : Option (Nat × List Nat) :=
  match p with
  | .utf8 => readUtf8 s
  | .utf16 => none
  | .utf32 => none
  | _ => match p.tables with
    | none => none
    | some t => readSimple t.1 s

/-- `To->Write`; NULL for the last two rows. -/
def Page.writeCh (p : Page) (o : Out) (left ch : Nat) : Option (Out × Nat) :=
  match p with
  | .utf8 => writeUtf8 o left ch
  | .utf16 => none
  | .utf32 => none
  | _ => match p.tables with
    | none => none
    | some t => writeSimple t.1 t.2 o left ch

/-- The loop of `CharConvSS`, charconvert_utf8.c:331-335. Each round takes at least one byte. -/
def convLoop (f t : Page) : Nat → List Nat → Out → Nat → Option (Out × Nat)
  | 0, _, _, _ => none
  | fuel + 1, s, o, left =>
    if unit s 0 = some 0 then some (o, left)
    else
      match f.readCh s with
      | none => none
      | some (ch, s') =>
        match t.writeCh o left ch with
        | none => none
        | some (o', left') => convLoop f t fuel s' o' left'

/-- `CharConvSS`, charconvert_utf8.c:323-345, with a converter from `CharConvOpen` (lines 464-479):
there is none for two equal pages. `n` is `OutLen`, the size of the buffer. The result has the bytes
stored. -/
def convSS (f t : Page) (n : Nat) (s : List Nat) : Option (List Nat) :=
  if n > 0 then
    if f = t then (Out.push ⟨n, []⟩ (s.take (min s.length (n - 1)) ++ [0])).map (·.buf)
    else
      match convLoop f t (s.length + 1) s ⟨n, []⟩ n with
      | none => none
      | some (o, _) => (o.push [0]).map (·.buf)
  else some []

/-- One character of `CharConvUS`, charconvert_utf8.c:356-369. -/
def putU (o : Out) (left ch : Nat) : Option (Out × Nat) :=
  if ch ≥ 0x10000 ∧ left > 2 then
    (o.push [(((ch - 0x10000) >>> 10) &&& 0x3ff) ||| 0xd800, ((ch - 0x10000) &&& 0x3ff) ||| 0xdc00]).map fun o' => (o', left - 2)
  else if left > 1 then (o.push [ch % 65536]).map fun o' => (o', left - 1)
  else some (o, left)

/-- The loop of `CharConvUS`. -/
def convULoop (f : Page) : Nat → List Nat → Out → Nat → Option (Out × Nat)
  | 0, _, _, _ => none
  | fuel + 1, s, o, left =>
    if unit s 0 = some 0 then some (o, left)
    else
      match f.readCh s with
      | none => none
      | some (ch, s') =>
        match putU o left ch with
        | none => none
        | some (o', left') => convULoop f fuel s' o' left'

/-- `CharConvUS`, charconvert_utf8.c:348-373: to UTF-16. -/
def convUS (f : Page) (n : Nat) (s : List Nat) : Option (List Nat) :=
  if n > 0 then
    match convULoop f (s.length + 1) s ⟨n, []⟩ n with
    | none => none
    | some (o, _) => (o.push [0]).map (·.buf)
  else some []

/-- `(In[i]&~0x3ff)==k`. -/
def inBlock (s : List Nat) (i k : Nat) : Option Bool := (unit s i).map fun u => decide (u / 1024 * 1024 = k)

/-- One character of `CharConvSU`, charconvert_utf8.c:384-393. -/
def readU (s : List Nat) : Option (Nat × List Nat) :=
  match inBlock s 0 0xd800 with
  | none => none
  | some hi =>
    match andThen hi (inBlock s 1 0xdc00) with
    | none => none
    | some true => some (((((s.getD 0 0) &&& 0x3ff) <<< 10) ||| ((s.getD 1 0) &&& 0x3ff)) + 0x10000, s.drop 2)
    | some false => some (s.getD 0 0, s.drop 1)

/-- The loop of `CharConvSU`. -/
def convSULoop (t : Page) : Nat → List Nat → Out → Nat → Option (Out × Nat)
  | 0, _, _, _ => none
  | fuel + 1, s, o, left =>
    if unit s 0 = some 0 then some (o, left)
    else
      match readU s with
      | none => none
      | some (ch, s') =>
        match t.writeCh o left ch with
        | none => none
        | some (o', left') => convSULoop t fuel s' o' left'

/-- `CharConvSU`, charconvert_utf8.c:375-397: from UTF-16. -/
def convSU (t : Page) (n : Nat) (s : List Nat) : Option (List Nat) :=
  if n > 0 then
    match convSULoop t (s.length + 1) s ⟨n, []⟩ n with
    | none => none
    | some (o, _) => (o.push [0]).map (·.buf)
  else some []

end Verif.Conv
