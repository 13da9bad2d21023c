import Verif.Mkv.Block
/-!
Model of the content encoding of a track and of its CodecPrivate
(`/repo/libmatroska2/matroskamain.c:2255-2449`, `struct matroska_trackentry` :94-98).

A track is its CodecPrivate, its first ContentEncoding (the code uses no other) and the field
`CodecPrivateCompressionAlgo`. Simplifications: allocations succeed; `Data` and `DataSize` of the CodecPrivate
agree; algorithms are the values after the conversion to the enumeration; zlib is a parameter, as in Block.lean.
The scope and algorithm that `EBML_MasterGetChild` creates when they are missing have the values of the table
(1 and 0).
-/
namespace Verif.Mkv
open Verif

/-- zlib as a pair of functions. -/
structure Zlib where
  deflate : Bytes → Bytes
  inflate : Bytes → Option Bytes

/-- `MATROSKA_TRACK_ENCODING_COMP_*`, matroska2/matroska_sem.h:341-345. -/
abbrev compNone : Int := -1
abbrev compZlib : Int := 0
abbrev compStrip : Int := 3

/-- A ContentCompression: algorithm and settings, where present. -/
structure Compr where
  algo : Option Int
  settings : Option Bytes
deriving DecidableEq, Repr

/-- A ContentEncoding: scope and compression, where present. -/
structure CEnc where
  scope : Option Nat
  comp : Option Compr
deriving DecidableEq, Repr

/-- A track; `enc` is `none` without ContentEncodings and `some none` if they are empty; `cur` is
`CodecPrivateCompressionAlgo`. -/
structure PTrack where
  enc : Option (Option CEnc)
  priv : Option Bytes
  cur : Int
deriving DecidableEq, Repr

/-- What the elements say about the CodecPrivate: matroskamain.c:2259-2278 and 2285-2304 (the same search). The
scope has to be there (`EBML_MasterFindChild`), bit 2 is `MATROSKA_CONTENTENCODINGSCOPE_PRIVATE`. -/
def privAlgo (t : PTrack) : Int :=
  match t.enc with
  | some (some ⟨some s, some c⟩) => if s &&& 2 ≠ 0 then c.algo.getD compZlib else compNone
  | _ => compNone

/-- `ReadTrackEntry` behind the reading of the children, matroskamain.c:2257-2280. -/
def readTrack (t : PTrack) : PTrack := { t with cur := privAlgo t }

/-- A new TrackEntry: nodes are cleared when created (node.c:1265, no constructor for the class,
matroskamain.c:2510-2515). -/
def newTrack : PTrack := ⟨none, none, 0⟩

/-- `EBML_IntegerSetValue(Scope, … ^ PRIVATE)`, matroskamain.c:2327-2328. -/
def flipScope (t : PTrack) : PTrack :=
  match t.enc with
  | some (some ⟨some s, c⟩) => { t with enc := some (some ⟨some (s ^^^ 2), c⟩) }
  | _ => t

/-- The own part of `UpdateDataSizeTrackEntry`, matroskamain.c:2306-2356. The output buffer for the compressed
data is as long as the data; `CompressFrameZLib` (:184-221) reports the size it needed, which is then read from
the buffer; it does not end on empty input. -/
def updateTrack (z : Zlib) (t : PTrack) : Out PTrack :=
  if privAlgo t = t.cur then .ok t
  else if t.cur = compNone then
    match t.priv with
    | some p =>
      if privAlgo t = compZlib then
        if p = [] then .hang
        else if p.length < (z.deflate p).length then .bad
        else .ok { t with priv := some (z.deflate p), cur := compZlib }
      else .ok (flipScope t)
    | none => .ok (flipScope t)
  else
    match t.priv with
    | some p =>
      if t.cur = compZlib then
        match z.inflate p with
        | some q => .ok { t with priv := some q, cur := compNone }
        | none => .ok t
      else .ok t
    | none => .ok { t with cur := compNone }

/-- `MATROSKA_TrackSetCompressionAlgo`, matroskamain.c:2389-2415: the track and the value returned. -/
def setAlgo (scope : Nat) (algo : Int) (t : PTrack) : PTrack × Bool :=
  ({ t with enc := if scope ≠ 0 then some (some ⟨some scope, some ⟨some algo, none⟩⟩) else none }, t.enc.isSome)

/-- `MATROSKA_TrackSetCompressionHeader`, matroskamain.c:2417-2440. The scope is left to its default. -/
def setHeader (hdr : Bytes) (t : PTrack) : PTrack × Bool :=
  ({ t with enc := if hdr ≠ [] then some (some ⟨none, some ⟨some compStrip, some hdr⟩⟩) else none }, t.enc.isSome)

/-- `MATROSKA_TrackSetCompressionNone`, matroskamain.c:2442-2450. -/
def setNone (t : PTrack) : PTrack × Bool := ({ t with enc := none }, t.enc.isSome)

/-- `MATROSKA_TrackGetBlockCompression`, matroskamain.c:2369-2387; bit 1 is
`MATROSKA_CONTENTENCODINGSCOPE_BLOCK`. -/
def blockAlgo (t : PTrack) : Int :=
  match t.enc with
  | some (some e) =>
    if e.scope.getD 1 &&& 1 = 0 then compNone
    else
      match e.comp with
      | none => compNone
      | some c => c.algo.getD compZlib
  | _ => compNone

/-- The calls a program makes on a track. -/
inductive TOp where
  | algo (scope : Nat) (algo : Int)
  | header (hdr : Bytes)
  | none
  | update

/-- One call. -/
def tstep (z : Zlib) (t : PTrack) : TOp → Out PTrack
  | .algo s a => .ok (setAlgo s a t).1
  | .header h => .ok (setHeader h t).1
  | .none => .ok (setNone t).1
  | .update => updateTrack z t

/-- A sequence of calls. -/
def trun (z : Zlib) : List TOp → PTrack → Out PTrack
  | [], t => .ok t
  | o :: os, t => (tstep z t o).bind (trun z os)

end Verif.Mkv
