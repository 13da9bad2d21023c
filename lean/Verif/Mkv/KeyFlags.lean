import Verif.Mkv.Block
/-!
Model of the keyframe and discardable flags of a block (`/repo/libmatroska2/matroskamain.c:740-777`). Writing and reading the flag byte is
in Block.lean.
-/
namespace Verif.Mkv.KeyFlags
open Verif Verif.Ebml Verif.Mkv

/-- What kind of block it is: a SimpleBlock, a Block in a BlockGroup (with or without a ReferenceBlock), or a Block that is in none. -/
inductive Place where
  | simple
  | group (reference : Bool)
  | bare
deriving DecidableEq, Repr

/-- A block: its head and its kind. -/
structure KBlk where
  head : Head
  place : Place
deriving DecidableEq, Repr

/-- `MATROSKA_BlockKeyframe`, matroskamain.c:740-756. -/
def keyframe (b : KBlk) : Bool :=
  if b.head.key then true
  else match b.place with
    | .simple => false
    | .bare => false
    | .group reference => !reference

/-- `MATROSKA_BlockDiscardable`, matroskamain.c:758-764. -/
def discardable (b : KBlk) : Bool :=
  if b.place ≠ .simple then false else b.head.discard

/-- `MATROSKA_BlockSetKeyframe`, matroskamain.c:766-770. -/
def setKeyframe (v : Bool) (b : KBlk) : KBlk := { b with head := { b.head with key := v } }

/-- `MATROSKA_BlockSetDiscardable`, matroskamain.c:772-777. -/
def setDiscardable (v : Bool) (b : KBlk) : KBlk :=
  if b.place = .simple then { b with head := { b.head with discard := v } } else b

/-- Writing the head of the block and reading it into a block of the same kind; `rest` is what follows the head. -/
def reload (b : KBlk) (rest : Bytes) : Option KBlk :=
  (renderHead (b.place == .simple) b.head).bind fun hd =>
  (parseHead (b.place == .simple) (hd ++ rest)).map fun r => ⟨r.1, b.place⟩

/-- What a program does to a block. -/
inductive Op where
  | key (v : Bool)
  | discard (v : Bool)

/-- Any number of calls. -/
def run (b : KBlk) (os : List Op) : KBlk :=
  os.foldl (fun b o => match o with | .key v => setKeyframe v b | .discard v => setDiscardable v b) b

end Verif.Mkv.KeyFlags
