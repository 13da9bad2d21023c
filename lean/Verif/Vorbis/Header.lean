import Verif.Vorbis.Backends

/-! The three headers: /repo/libmatroska2/tremor/info.c:33-300, codec_internal.h:58-90, registry.c:34-47 and registry.h:22-26. -/

namespace Verif.Vorbis

/-- What an identification header sets. -/
structure Info where
  channels : Int
  rate : Int
  upper : Int
  nominal : Int
  lower : Int
  short : Nat
  long : Nat
deriving DecidableEq, Repr

/-- A block size, info.c:115-116. -/
def unpackSize : P Nat := do
  let e ← rd 4
  chk (decide (0 ≤ e)) .shift
  pure (2 ^ e.toNat)

/-- `_vorbis_unpack_info`, info.c:101-130. -/
def unpackInfo : P Info := do
  let version ← rd 32
  need (decide (version = 0))
  let channels ← rd 8
  let rate ← rd 32
  let upper ← rd 32
  let nominal ← rd 32
  let lower ← rd 32
  let short ← unpackSize
  let long ← unpackSize
  need (decide (1 ≤ rate ∧ 1 ≤ channels ∧ 64 ≤ short ∧ short ≤ long ∧ long ≤ 8192))
  let last ← rd 1
  need (decide (last = 1))
  pure ⟨channels, rate, upper, nominal, lower, short, long⟩

/-- A string with its length, info.c:134-137 and 144-148. -/
def unpackString : P (List Int) := do
  let n ← rd 32
  need (decide (0 ≤ n ∧ n < 2 ^ 31))
  chk (decide (n ≠ 2 ^ 31 - 1)) .comment
  many (rd 8) n.toNat

/-- `_vorbis_unpack_comment`, info.c:132-156: the vendor and the comments. -/
def unpackComment : P (List Int × List (List Int)) := do
  let vendor ← unpackString
  let n ← rd 32
  need (decide (0 ≤ n ∧ n < 2 ^ 31))
  chk (decide (n ≠ 2 ^ 31 - 1)) .comment
  let comments ← many unpackString n.toNat
  let last ← rd 1
  need (decide (last = 1))
  pure (vendor, comments)

/-- `vorbis_info_mode`. -/
structure Mode where
  blockflag : Int
  windowtype : Int
  transformtype : Int
  mapping : Int
deriving DecidableEq, Repr

/-- A floor and its type. -/
inductive Floor where
  | zero (f : Floor0)
  | one (f : Floor1)
deriving DecidableEq, Repr

/-- What a setup header sets; a residue with its type. -/
structure Setup where
  books : List Book
  times : Int
  floors : List Floor
  residues : List (Int × Residue)
  maps : List Mapping
  modes : List Mode
deriving DecidableEq, Repr

/-- A type that is out of range, info.c:191, 202, 213: `vorbis_info_clear` (61-97) runs. When an earlier setup header filled the slot, its
parameters are freed by the function that `_floor_P[type]` gives, behind the end of the table. `old` slots were filled before. -/
def goodType (good : Bool) (old i : Nat) : P Unit := fun s =>
  if good then .ok ((), s) else if i < old then .crash .freeType else .err

/-- A codebook, info.c:169-170. -/
def unpackBookAt (i : Nat) : P Book := do
  chk (decide (i < 256)) .index
  unpackBook

/-- A time, info.c:178-179. -/
def unpackTime (i : Nat) : P Unit := do
  let type ← rd 16
  chk (decide (i < 64)) .index
  need (decide (0 ≤ type ∧ type < 1))

/-- A floor, info.c:190-193. -/
def unpackFloor (books : Int) (old i : Nat) : P Floor := do
  let type ← rd 16
  chk (decide (i < 64)) .index
  goodType (decide (0 ≤ type ∧ type < 2)) old i
  if type = 0 then do
    let f ← unpackFloor0 books
    pure (Floor.zero f)
  else do
    let f ← unpackFloor1 books
    pure (Floor.one f)

/-- A residue, info.c:201-204. -/
def unpackResidueAt (books : Int) (old i : Nat) : P (Int × Residue) := do
  let type ← rd 16
  chk (decide (i < 64)) .index
  goodType (decide (0 ≤ type ∧ type < 3)) old i
  let r ← unpackResidue books
  pure (type, r)

/-- A mapping, info.c:212-215. -/
def unpackMap (channels times floors residues : Int) (old i : Nat) : P Mapping := do
  let type ← rd 16
  chk (decide (i < 64)) .index
  goodType (decide (0 ≤ type ∧ type < 1)) old i
  unpackMapping channels times floors residues

/-- A mode, info.c:222-230. -/
def unpackMode (maps : Int) (i : Nat) : P Mode := do
  chk (decide (i < 64)) .index
  let blockflag ← rd 1
  let windowtype ← rd 16
  let transformtype ← rd 16
  let mapping ← rd 8
  need (decide (windowtype < 1 ∧ transformtype < 1 ∧ mapping < maps))
  pure ⟨blockflag, windowtype, transformtype, mapping⟩

/-- Slots an earlier setup header filled: of floors, residues and maps. -/
structure Old where
  floors : Nat
  residues : Nat
  maps : Nat
deriving DecidableEq, Repr

/-- `_vorbis_unpack_books`, info.c:160-239. -/
def unpackSetup (channels : Int) (old : Old) : P Setup := do
  let nb ← rd 8
  let books ← each unpackBookAt (nb + 1).toNat 0
  let nt ← rd 6
  let _ ← each unpackTime (nt + 1).toNat 0
  let nf ← rd 6
  let floors ← each (unpackFloor (nb + 1) old.floors) (nf + 1).toNat 0
  let nr ← rd 6
  let residues ← each (unpackResidueAt (nb + 1) old.residues) (nr + 1).toNat 0
  let nm ← rd 6
  let maps ← each (unpackMap channels (nt + 1) (nf + 1) (nr + 1) old.maps) (nm + 1).toNat 0
  let nd ← rd 6
  let modes ← each (unpackMode (nm + 1)) (nd + 1).toNat 0
  let last ← rd 1
  need (decide (last = 1))
  pure ⟨books, nt + 1, floors, residues, maps, modes⟩

/-- What the headers have set. `info` is `none` before the first header and after a clear, `vi->codec_setup` is then as it was at the
start or `NULL`; `slots` are the modes with parameters, of a later header over those of an earlier one. -/
structure Hdr where
  info : Option Info := none
  vendor : Bool := false
  setup : Option Setup := none
  slots : List Mode := []
deriving DecidableEq, Repr

/-- `vorbis_synthesis_headerin`, info.c:246-300, of the packet `bits`: whether it succeeds, and what is set afterwards. An error in the
set up headers clears everything (128, 237), one in a comment clears the comments (154); other errors change nothing that is used later. -/
def headerIn (first : Bool) (bits : List Bool) (h : Hdr) : Res (Bool × Hdr) :=
  ((do
    let type ← rd 8
    let tag ← many (rd 8) 6
    pure (type, tag) : P _) (some bits)).bind fun ((type, tag), s) =>
  if tag ≠ [118, 111, 114, 98, 105, 115] then .ok (false, h)
  else if type = 1 then
    if ¬first ∨ h.info.isSome then .ok (false, h)
    else (attempt unpackInfo s).bind fun (r, _) =>
      match r with
      | some i => .ok (true, { h with info := some i })
      | none => .ok (false, { h with info := none, setup := none, slots := [] })
  else if type = 3 then
    match h.info with
    | none => .ok (false, h)
    | some _ => (attempt unpackComment s).bind fun (r, _) => .ok (r.isSome, { h with vendor := r.isSome })
  else if type = 5 then
    match h.info with
    | none => .ok (false, h)
    | some i =>
      if h.vendor = false then .ok (false, h)
      else
        let old : Old := match h.setup with
          | none => ⟨0, 0, 0⟩
          | some p => ⟨p.floors.length, p.residues.length, p.maps.length⟩
        (attempt (unpackSetup i.channels old) s).bind fun (r, _) =>
        match r with
        | some p => .ok (true, { h with setup := some p, slots := p.modes ++ h.slots.drop p.modes.length })
        | none => .ok (false, { h with info := none, setup := none, slots := [] })
  else .ok (false, h)

end Verif.Vorbis
