import Verif.Ebml.Vint
/-!
Model of the element finder (`/repo/libebml2/ebmlmain.c:206-665`).

The stream is its bytes and a position; `Stream_ReadOneOrMore` of one byte delivers it or reports
the end. The schema is a function from context numbers (standing for `ebml_context` pointers).

Simplifications:
* allocations succeed; `Stream_Seek` to a position inside the data succeeds;
* `ReadSize` (uint32_t) does not wrap: exact while fewer than 4 GiB are scanned in one call;
* only the temporary context built for the global elements has `GlobalContext == Semantic`
  (ebmlmain.c:256), which holds for every context in the sources;
* profiles are ignored (the code does, ebmlmain.c:247).
-/
namespace Verif.Ebml.Scan

/-- Element classes that differ in what sizes they accept. `uint` and `sint` are
EBML_INTEGER_CLASS, EBML_BOOLEAN_CLASS and EBML_SINTEGER_CLASS. -/
inductive Cls where
  | uint | sint | date | float | str | bin | crc | void | master | dummy
deriving DecidableEq, Repr

/-- An `ebml_context`, libebml2/ebml2/ebml.h: ID, class and the contexts of the semantic table
(`none` is a NULL table). -/
structure Ctx where
  id : Nat
  cls : Cls
  sem : Option (List Nat)
deriving Repr

/-- All contexts, and the table of global elements they refer to. -/
structure Schema where
  ctx : Nat → Ctx
  globals : List Nat

/-- An `ebml_parser_context`: the context and `EndPosition` (-1 is INVALID_FILEPOS_T). The
`UpContext` chain is a list. -/
structure PCtx where
  ref : Nat
  endPos : Int
deriving DecidableEq, Repr

/-- What was created: an element of a context, or a dummy with an ID. -/
inductive Kind where
  | known (ref : Nat)
  | dummy (id : Nat)
deriving DecidableEq, Repr

/-- Class of what was created (ebmlelement.c:73-75: a dummy is a binary). -/
def Kind.cls (S : Schema) : Kind → Cls
  | .known r => (S.ctx r).cls
  | .dummy _ => .dummy

/-- `EBML_ElementIsDummy`, ebmlelement.c:88-91. -/
def Kind.isDummy (S : Schema) (k : Kind) : Bool := k.cls S == .dummy

/-- `ValidateSize`: ebmlelement.c:11-14, ebmlmaster.c:598-601, ebmlbinary.c:70-73,
ebmlnumber.c:195-203, ebmldate.c:25-28, ebmlcrc.c:136-139. -/
def validateSize (finite : Bool) (size : Nat) : Cls → Bool
  | .uint | .sint => finite && decide (size ≤ 8)
  | .date => finite && (size == 8 || size == 0)
  | .float => finite && (size == 8 || size == 4)
  | .crc => finite && size == 4
  | .master => true
  | .str | .bin | .void | .dummy => finite

/-- `EBML_ElementCreateUsingContext`, ebmlmain.c:234-299, with `CreateElement`, 206-232: what is
created and the level change. The recursion on the temporary global context is unfolded. -/
def createUsing (S : Schema) (w : Bytes) (idLen : Nat) (allowDummy : Bool) : List PCtx → Int → Option (Kind × Int)
  | [], _ => none
  | c :: up, level =>
    match (S.ctx c.ref).sem with
    | none => none
    | some sem =>
      match sem.find? (fun r => (S.ctx r).id == idFromBuffer w idLen) with
      | some r => some (.known r, level)
      | none =>
        match S.globals.find? (fun r => (S.ctx r).id == idFromBuffer w idLen) with
        | some r => some (.known r, level - 1)
        | none =>
          match up with
          | _ :: _ => createUsing S w idLen allowDummy up (level + 1)
          | [] =>
            if allowDummy && idLen != 0 then
              some (if (S.ctx c.ref).id = idFromBuffer w idLen then .known c.ref else .dummy (idFromBuffer w idLen), 0)
            else none

/-- The marker search of ebmlmain.c:511-519 over the bytes in the window: length of the ID. -/
def idMarker (w : Bytes) : Option Nat :=
  match w with
  | [] => none
  | b0 :: _ => ((List.range 4).find? (fun i => decide (i < w.length) && (b0 &&& (0x80 >>> UInt8.ofNat i) != 0))).map (· + 1)

/-- Result of the inner loops. `bad`: an access outside the window of 16 bytes or to a byte of it
that was not read yet. -/
inductive LoopRes (α : Type) where
  | done (w : Bytes) (pos : Nat) (rest : Bytes) (val : α)
  | eof (pos : Nat)
  | bad

/-- The loop reading an ID, ebmlmain.c:505-535. `w` holds the `ReadIndex` bytes of the window in
use, `rest` the bytes not read yet, `lim` the end of the context; yields `PossibleID_Length`, which
keeps its old value when the limit is hit. -/
def idLoop (lim : Int) (idLen : Nat) (w : Bytes) (pos : Nat) (rest : Bytes) : LoopRes Nat :=
  match idMarker w with
  | some n => .done w pos rest n
  | none =>
    if lim = pos then .done w pos rest idLen
    else
      match rest with
      | [] => .eof pos
      | b :: rest =>
        if (if w.length ≥ 4 then w.drop 1 else w).length ≥ 16 then .bad
        else idLoop lim idLen ((if w.length ≥ 4 then w.drop 1 else w) ++ [b]) (pos + 1) rest

/-- The loop reading the size, ebmlmain.c:543-561: `w` holds `SizeIdx` bytes, `psl` is
`PossibleSizeLength`. Yields the decoded size, or `none` if `bFound` stays 0. -/
def sizeLoop (lim : Int) (idLen : Nat) (w : Bytes) (psl : Nat) (pos : Nat) (rest : Bytes) : LoopRes (Option CodedSize) :=
  if idLen + psl > w.length then .bad
  else
    let r := readCodedSize ((w.drop idLen).take psl)
    if r.len ≠ 0 then .done w pos rest (some r)
    else if psl ≥ 8 then .done w pos rest none
    else if psl > 0 ∧ w[idLen]? = some 0 then .done w pos rest none
    else if lim = pos then .done w pos rest none
    else
      match rest with
      | [] => .eof pos
      | b :: rest =>
        if w.length ≥ 16 then .bad
        else sizeLoop lim idLen (w ++ [b]) (psl + 1) (pos + 1) rest

/-- Climbing to the context the start position makes sense in, ebmlmain.c:493-499. -/
def adjust (start : Nat) : List PCtx → Int → List PCtx × Int
  | [], lv => ([], lv)
  | [c], lv => ([c], lv)
  | c :: c' :: up, lv =>
    if c.endPos ≠ -1 ∧ (start : Int) ≥ c.endPos then adjust start (c' :: up) (lv + 1) else (c :: c' :: up, lv)

/-- The containment check, ebmlmain.c:569-578, with `e = CurrentPos + SizeFound - SizeIdx`. -/
def contain (allowDummy : Bool) (e : Int) : List PCtx → Int → List PCtx × Int × Bool
  | [], lv => ([], lv, true)
  | c :: up, lv =>
    if c.endPos ≠ -1 ∧ e > c.endPos then
      if allowDummy ∨ up = [] then (c :: up, lv, false) else contain allowDummy e up (lv + 1)
    else (c :: up, lv, true)

/-- An element as returned: kind, `ElementPosition`, `SizePosition`, `SizeLength`, `DataSize` (-1
when unknown), `EndPosition`, finite or not, `*UpperLevels` and the position of the stream. -/
structure Found where
  kind : Kind
  pos : Int
  sizePos : Int
  sizeLen : Int
  dataSize : Int
  endPos : Int
  finite : Bool
  levels : Int
  streamPos : Int
deriving DecidableEq, Repr

/-- Outcome of the finder. -/
inductive Out where
  | found (f : Found)
  | none (levels : Int) (streamPos : Nat)
  | bad
  | fuelOut
deriving DecidableEq, Repr

/-- End position of the innermost context (the chain is never empty). -/
def limit : List PCtx → Int
  | [] => -1
  | c :: _ => c.endPos

/-- Building the element, ebmlmain.c:585-629; `none` when the search goes on. `cur` is
`CurrentPos`. -/
def build (S : Schema) (allowDummy : Bool) (ctx : List PCtx) (lv : Int) (w : Bytes) (idLen : Nat) (r : CodedSize)
    (cur : Nat) : Option Found :=
  match createUsing S w idLen allowDummy ctx 0 with
  | none => none
  | some (k, change) =>
    if allowDummy || !k.isDummy S then
      let finite := r.value != r.unknown
      let k := if allowDummy && !validateSize finite r.value (k.cls S) && !k.isDummy S
        then .dummy (idFromBuffer w idLen) else k
      if validateSize finite r.value (k.cls S) then
        let sizePos : Int := (cur : Int) - w.length + idLen
        some ⟨k, sizePos - idLen, sizePos, r.len, if finite then r.value else -1,
          if finite then (cur : Int) - w.length + idLen + r.len + r.value else limit ctx, finite,
          if change > 0 then lv + change else lv, sizePos + r.len⟩
      else none
    else none

/-- The context the candidate is taken in and whether it is one, ebmlmain.c:564-583. -/
def fit (allowDummy : Bool) (ctx : List PCtx) (lv : Int) (w : Bytes) (pos : Nat) : Option CodedSize → List PCtx × Int × Bool
  | some r => if r.value ≠ r.unknown then contain allowDummy ((pos : Int) + r.value - w.length) ctx lv else (ctx, lv, true)
  | none => (ctx, lv, false)

/-- The element made from the candidate, ebmlmain.c:584-629. -/
def attempt (S : Schema) (allowDummy : Bool) (c : List PCtx × Int × Bool) (w : Bytes) (idLen : Nat) (pos : Nat) :
    Option CodedSize → Option Found
  | some r => if c.2.2 then build S allowDummy c.1 c.2.1 w idLen r pos else none
  | none => none

/-- The main loop, ebmlmain.c:501-662. `orig` and `lv0` are `*pContext` and `UpperLevel_original`,
`ctx` and `lv` the current ones. -/
def loop (S : Schema) (allowDummy : Bool) (orig : List PCtx) (lv0 : Int) :
    (fuel : Nat) → (ctx : List PCtx) → (lv : Int) → (idLen : Nat) → (w : Bytes) → (pos : Nat) → (rest : Bytes) → Out
  | 0, _, _, _, _, _, _ => .fuelOut
  | fuel + 1, ctx, lv, idLen, w, pos, rest =>
    match idLoop (limit ctx) idLen w pos rest with
    | .bad => .bad
    | .eof pos => .none lv pos
    | .done w pos rest idLen =>
      if w.length < idLen then .bad
      else
        match sizeLoop (limit ctx) idLen w (w.length - idLen) pos rest with
        | .bad => .bad
        | .eof pos => .none lv pos
        | .done w pos rest size =>
          let c := fit allowDummy ctx lv w pos size
          -- with length 0 the ID is taken from four bytes of the window, ebmlmain.c:183
          if idLen = 0 ∧ size.isSome ∧ c.2.2 then .bad
          else match attempt S allowDummy c w idLen pos size with
          | some f => .found f
          | none =>
            if limit c.1 ≠ -1 ∧ limit c.1 ≤ pos then
              if allowDummy ∧ limit c.1 ≠ pos then
                if idLen = 0 then .bad else
                -- placeholder for the rest of the parent, ebmlmain.c:634-652
                let sizePos : Int := (pos : Int) - w.length + idLen
                .found ⟨.dummy (idFromBuffer w idLen), sizePos - idLen, sizePos, limit c.1 - sizePos, 0, limit c.1, true,
                  c.2.1, limit c.1⟩
              else .none c.2.1 pos
            else if limit orig = -1 ∨ limit orig > (pos : Int) - w.length + idLen then
              loop S allowDummy orig lv0 fuel orig lv0 idLen (w.drop 1) pos rest
            else .none lv0 pos

/-- `EBML_FindNextElement`, ebmlmain.c:470-665, on a stream at position `start`. -/
def findNext (S : Schema) (allowDummy : Bool) (fuel : Nat) (data : Bytes) (start : Nat) (ctx : List PCtx) (levels : Int) : Out :=
  let a := adjust start ctx levels
  loop S allowDummy ctx levels fuel a.1 a.2 0 [] start (data.drop start)

end Verif.Ebml.Scan
