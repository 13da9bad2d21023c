import Verif.Mkvalidator.Checks
/-!
Model of `main` of mkvalidator, /repo/mkvalidator/mkvalidator.c:858-1438, from the EBML header on.

Reading is not modelled here (it is in `Verif/Ebml`): a file is given as the outcome of each read. Progress output,
`--details` and memory management are left out.
-/
namespace Verif.Mkvalidator
open Verif Verif.Core Verif.Mkv

/-- What `CheckProfileViolation` (421-447, see `Verif.Ebml.violations`) reports. -/
inductive Violation
  | missing | invalid | multiple | checksum
deriving DecidableEq, Repr

/-- The error codes, 409-433. -/
def Violation.code : Violation → Nat
  | .missing => 0x200
  | .invalid => 0x201
  | .multiple => 0x202
  | .checksum => 0x203

/-- Outcome of finding and reading the EBML header, 953-971 and 1024-1029. -/
inductive HeadRead
  | absent | unreadable | damaged | good
deriving DecidableEq, Repr

/-- The EBML header. `webm`: the DocType is "webm", else it is "matroska" unless `otherType`. -/
structure Head where
  read : HeadRead := .good
  nodes : List Node := []
  readVersion : Int := 1
  maxId : Int := 4
  maxSize : Int := 8
  otherType : Bool := false
  webm : Bool := false
  docVersion : Int := 4
  docReadVersion : Int := 2
  segment : Bool := true

/-- The content of an element of the Segment. -/
inductive Body
  | cluster (c : Cluster)
  | seekHead (entries : List Seek)
  | info (scale : Int) (duration : Bool)
  | tracks (ts : List Track)
  | cues (cs : List Cue)
  | chapters
  | tags
  | attachments (files : List Int)
  | void (size : Nat)
  | dummy
  | other

/-- An element of the Segment: where it starts and ends, whether it can be read, its children for `CheckUnknownElements`
and what `CheckProfileViolation` finds. -/
structure Elt where
  body : Body
  pos : Int := 0
  endPos : Int := 0
  readOk : Bool := true
  nodes : List Node := []
  viol : List Violation := []

/-- A file: header, where the Segment's data starts, where the Segment ends (if known), its elements. -/
structure File where
  head : Head := {}
  dataPos : Int := 0
  segEnd : Option Int := none
  elts : List Elt := []

/-- What `main` has found so far. -/
structure St where
  found : Found := {}
  seeks : List Seek := []
  seeks2 : List Seek := []
  scale : Int := 1000000
  tracks : List Track := []
  cues : List Cue := []
  files : List Int := []
  clusters : List Cluster := []
  void : Nat := 0
  hasVideo : Bool := false
  /-- `Prev`: the end of the last element, if that was kept. -/
  prev : Option Int := none

/-- The messages of `CheckUnknownElements` and `CheckProfileViolation` on an element. -/
def commonEvs (e : Elt) : List Ev := unknownEvs e.nodes ++ e.viol.map fun v => .err v.code

/-- The two loops over the track entries, 1133-1169. -/
def tracksRun (webm : Bool) (ts : List Track) : Run :=
  inOrder (ts.map fun t => if t.type = some 1 then checkVideo webm t.video else say [])

/-- An element read after the first of its kind. -/
def extra (st : St) (e : Elt) (ev : Ev) : St × Run := ({ st with prev := some e.endPos }, say [ev])

/-- An element skipped, 1065-1067. -/
def skipped (st : St) (evs : List Ev) : St × Run := ({ st with prev := none }, say evs)

/-- The first of its kind: `f` records it. -/
def taken (st : St) (e : Elt) (f : St → St) (more : Run) : St × Run :=
  (f { st with prev := some e.endPos, void := st.void + voidAmount e.nodes }, (say (commonEvs e)).andThen more)

/-- An element that cannot be read. -/
def unreadable (st : St) (code : Nat) : St × Run := (st, ⟨[.fatal code], .exit⟩)

/-- One round of the loop over the elements of the Segment, 1041-1308. -/
def eltStep (o : Opts) (webm : Bool) (st : St) (e : Elt) : St × Run :=
  match e.body with
  | .cluster c =>
    if !e.readOk then unreadable st 0x180
    else taken st e (fun s => { s with clusters := s.clusters ++ [c], found := { s.found with clusters := s.found.clusters ++ [e.pos] } }) (say [])
  | .seekHead entries =>
    if o.live then skipped st [.warn 0x170]
    else if !e.readOk then unreadable st 0x100
    else if st.found.seekHead.isNone then
      taken st e (fun s => { s with seeks := entries, found := { s.found with seekHead := some e.pos } }) (say [])
    else if st.found.seekHead2.isNone then
      let r := taken st e (fun s => { s with seeks2 := entries, found := { s.found with seekHead2 := some e.pos } }) (say [])
      (r.1, (say [.warn 0x103]).andThen r.2)
    else
      let r := taken st e id (say [])
      (r.1, (say [.warn 0x101]).andThen r.2)
  | .info scale duration =>
    if !e.readOk then unreadable st 0x111
    else if st.found.info.isSome then extra st e (.warn 0x110)
    else
      taken st e (fun s => { s with scale := scale, found := { s.found with info := some e.pos } })
        (say (if o.live && duration then [.warn 0x112] else []))
  | .tracks ts =>
    if !e.readOk then unreadable st 0x121
    else if st.found.tracks.isSome then extra st e (.warn 0x120)
    else
      taken st e (fun s => { s with tracks := ts, found := { s.found with tracks := some e.pos }, hasVideo := ts.any fun t => t.type == some 1 })
        (tracksRun webm ts)
  | .cues cs =>
    if o.live then skipped st [.warn 0x171]
    else if !e.readOk then unreadable st 0x131
    else if st.found.cues.isSome then extra st e (.warn 0x130)
    else taken st e (fun s => { s with cues := cs, found := { s.found with cues := some e.pos } }) (say [])
  | .chapters =>
    if o.live then skipped st [.err 0x172]
    else if !e.readOk then unreadable st 0x141
    else if st.found.chapters.isSome then extra st e (.warn 0x140)
    else taken st e (fun s => { s with found := { s.found with chapters := some e.pos } }) (say [])
  | .tags =>
    if !e.readOk then unreadable st 0x151
    else if st.found.tags.isSome then extra st e (.err 0x150)
    else taken st e (fun s => { s with found := { s.found with tags := some e.pos } }) (say [])
  | .attachments files =>
    if o.live then skipped st [.err 0x173]
    else if !e.readOk then unreadable st 0x161
    else if st.found.attachments.isSome then extra st e (.err 0x160)
    else taken st e (fun s => { s with files := files, found := { s.found with attachments := some e.pos } }) (say [])
  | .void n => ({ st with prev := none, void := st.void + n }, say [])
  | .dummy => skipped st [.warn 0x80]
  | .other => skipped st []

/-- The loop over the elements of the Segment, 1041-1308. -/
def eltLoop (o : Opts) (webm : Bool) : St → List Elt → St × Run
  | st, [] => (st, say [])
  | st, e :: es =>
    let (st, r) := eltStep o webm st e
    if r.fin = .next then
      let (st', r') := eltLoop o webm st es
      (st', r.andThen r')
    else (st, r)

/-- `LinkClusterBlocks`, 561-566 with matroskamain.c:928-963: looks for the track of each block
(`MATROSKA_LinkBlockWithReadTracks`, matroskamain.c:331) without testing that there is a Tracks. -/
def linkRun (st : St) : Run :=
  if st.found.tracks.isNone && st.clusters.any (fun c => !c.blocks.isEmpty) then ⟨[], .crash⟩ else say []

/-- 1332-1353; `fits` tells for which numbers of entries memory for the arrays of `CheckVideoStart` can be had. -/
def clustersRun (o : Opts) (fits : Nat → Bool) (f : File) (st : St) : Run :=
  if st.clusters.isEmpty then say []
  else
    let n := trackMax st.tracks + 1
    inOrder
      [linkRun st,
       if st.hasVideo then checkVideoStart (if fits n then n else 0) st.tracks invalidTs st.clusters else say [],
       say (checkLacing st.tracks st.clusters),
       say (checkPosSize f.dataPos none st.clusters),
       if st.found.cues.isNone then say (if !o.live && 1 < st.clusters.length then [.warn 0x800] else [])
         else say (checkCues st.scale st.clusters invalidTs st.cues),
       if st.found.tracks.isNone then ⟨[.fatal 0x41], .exit⟩ else say []]

/-- 1310-1366. -/
def segmentRun (o : Opts) (fits : Nat → Bool) (webm : Bool) (f : File) (st : St) : Run :=
  if st.found.info.isNone then ⟨[.fatal 0x40], .exit⟩
  else
    inOrder
      [say (match f.segEnd, st.prev with
        | some e, some p => if e ≠ p then [.err 0x42] else []
        | _, _ => []),
       match st.found.seekHead with
        | none => say (if o.live then [] else [.warn 0x801])
        | some p => say (checkSeekHead st.found p true st.seeks),
       match st.found.seekHead2 with
        | none => say []
        | some p => say (checkSeekHead st.found p false st.seeks2),
       clustersRun o fits f st,
       if st.found.tracks.isSome then say (checkTracks webm (if st.found.attachments.isSome then some st.files else none) st.tracks) else say [],
       say (emptyEvs st.tracks st.clusters),
       say (if st.void > 4 * 1024 then [.warn 0xD0] else [])]

/-- 953-1019. `none`: the header leads to the end of the program. -/
def headRun (o : Opts) (h : Head) : Run :=
  match h.read with
  | .absent => ⟨[.fatal 3], .exit⟩
  | .unreadable => ⟨[.fatal 4], .exit⟩
  | .damaged => ⟨[.fatal 12], .exit⟩
  | .good =>
    inOrder
      [say (unknownEvs h.nodes),
       say (if h.readVersion > 1 then [.lost 5] else []),
       say (if h.maxId > 4 then [.lost 6] else []),
       say (if h.maxSize > 8 then [.lost 7] else []),
       if h.otherType then ⟨[.fatal 8], .exit⟩ else say [],
       say (if h.docReadVersion > h.docVersion then [.lost 9] else []),
       say (if h.webm || o.divx || decide (1 ≤ h.docVersion ∧ h.docVersion ≤ 5) then [] else [.lost 10]),
       if h.segment then say [] else ⟨[.fatal 0x20], .exit⟩]

/-- `main` for one file. -/
def validate (o : Opts) (fits : Nat → Bool) (f : File) : Run :=
  (headRun o f.head).andThen
    (let (st, r) := eltLoop o f.head.webm { void := voidAmount f.head.nodes } f.elts
     r.andThen (segmentRun o fits f.head.webm f st))

end Verif.Mkvalidator
