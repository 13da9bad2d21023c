import Verif.Mkvalidator.Report
import Verif.Mkclean.Cue
import Verif.Core.Str
/-!
Model of the checks of mkvalidator (/repo/mkvalidator/mkvalidator.c), as compiled without `assert`.

Elements are reduced to the values the checks look at. `Option` stands for a child that may be missing; a missing child
that the code asks for with `EBML_MasterGetChild` (/repo/libebml2/ebml2/ebml.h:181) is created with its default value, or
with the value 0 or an empty string if it has none, so it is never NULL. The products of 64-bit numbers wrap.
-/
namespace Verif.Mkvalidator
open Verif Verif.Core Verif.Mkv

/-! ### Unknown elements and Void -/

/-- What `CheckUnknownElements` distinguishes; a Void with its total size. -/
inductive Node
  | dummy
  | void (size : Nat)
  | leaf
  | master (kids : List Node)

mutual
/-- The loop of `CheckUnknownElements`, 158-181: the amount found so far and what it becomes. Line 173 assigns. -/
def voidLoop (amount : Nat) : List Node → Nat
  | [] => amount
  | k :: ks => voidLoop (voidStep amount k) ks
/-- One child, 163-178. -/
def voidStep (amount : Nat) : Node → Nat
  | .dummy | .leaf => amount
  | .void n => n
  | .master kids => amount + voidLoop 0 kids
end

/-- The amount of void data `CheckUnknownElements` returns. -/
def voidAmount (kids : List Node) : Nat := voidLoop 0 kids

mutual
/-- The warnings of `CheckUnknownElements`, 169. -/
def unknownEvs : List Node → List Ev
  | [] => []
  | k :: ks => unknownEv k ++ unknownEvs ks
def unknownEv : Node → List Ev
  | .dummy => [.warn 12]
  | .void _ | .leaf => []
  | .master kids => unknownEvs kids
end

/-! ### Tracks -/

/-- The children of Video that are looked at. -/
structure Video where
  pixelW : Option Int := none
  pixelH : Option Int := none
  displayW : Option Int := none
  displayH : Option Int := none
  unit : Option Int := none
  cropTop : Option Int := none
  cropBottom : Option Int := none
  cropLeft : Option Int := none
  cropRight : Option Int := none
deriving DecidableEq, Repr

/-- A TrackEntry. For Audio: whether OutputSamplingFrequency, SamplingFrequency is there and zero. -/
structure Track where
  num : Option Int := none
  type : Option Int := none
  codec : Option Bytes := none
  lacing : Option Int := none
  video : Option Video := none
  outFreqZero : Bool := false
  freqZero : Bool := false
  links : List Int := []
deriving DecidableEq, Repr

/-- `gcd`, 183-192, at most `fuel` rounds. `bad`: division by zero or of the smallest number by -1. -/
def gcd : Nat → Int → Int → Out Int
  | 0, _, _ => .hang
  | fuel + 1, a, b =>
    if b = 0 then .bad
    else if a = -2 ^ 63 ∧ b = -1 then .bad
    else
      let c := Int.tmod a b
      if c = 0 then .ok b else gcd fuel b c

/-- 238-254, the display size being below the size in pixels both ways: how serious that is. -/
def serious (webm : Bool) (dw dh pw ph g : Int) : Int :=
  (if g = 1 then 1 else 0) + (if s64 (dw * ph) = s64 (dh * pw) then 1 else 0)
    + (if s64 (8 * dw) ≤ pw ∧ s64 (8 * dh) ≤ ph then 2 else 0) - (if webm then 0 else 1)

/-- 233-256. -/
def pixelEvs (webm : Bool) (unit dw dh pw ph : Int) : Run :=
  if unit = 0 ∧ dw < pw ∧ dh < ph then
    match gcd (dh.natAbs + 1) dw dh with
    | .ok g =>
      let n := serious webm dw dh pw ph g
      say (if 2 < n then [.err 0xE3] else if n ≠ 0 then [.warn 0xE3] else [])
    | .hang => ⟨[], .hang⟩
    | _ => ⟨[], .crash⟩
  else say []

/-- The width or height to display, 213-227. -/
def displayOf (display : Option Int) (unit pixel : Int) : Int × List Ev :=
  match display with
  | some d => (d, [])
  | none => if unit ≠ 0 then (0, [.err 0xE2]) else (pixel, [])

/-- An error for a child that is there. -/
def evIfSome (x : Option Int) (e : Ev) : List Ev := if x.isSome then [e] else []

/-- 258-291. -/
def cropEvs (v : Video) (unit dw dh pw ph : Int) : List Ev :=
  if unit = 3 then
    evIfSome v.cropTop (.err 0xE4) ++ evIfSome v.cropBottom (.err 0xE4) ++ evIfSome v.cropLeft (.err 0xE4)
      ++ evIfSome v.cropRight (.err 0xE4)
      ++ (if dw = pw then [.warn 0xE7] else []) ++ (if dh = ph then [.warn 0xE7] else [])
  else
    (if s64 (v.cropTop.getD 0 + v.cropBottom.getD 0) ≥ dh then [.err 0xE5] else [])
      ++ (if s64 (v.cropLeft.getD 0 + v.cropRight.getD 0) ≥ dw then [.err 0xE6] else [])

/-- `CheckVideoTrack`, 194-294. The errors 0xE1 and 0xE2 for a missing PixelWidth and PixelHeight (204-209) cannot occur,
as `EBML_MasterGetChild` creates them. -/
def checkVideo (webm : Bool) : Option Video → Run
  | none => say [.err 0xE0]
  | some v =>
    let pw := v.pixelW.getD 0
    let ph := v.pixelH.getD 0
    let unit := v.unit.getD 0
    let w := displayOf v.displayW unit pw
    let h := displayOf v.displayH unit ph
    (say (w.2 ++ h.2 ++ (if h.1 = 0 then [.err 0xE7] else []) ++ (if w.1 = 0 then [.err 0xE7] else []))).andThen
      ((pixelEvs webm unit w.1 h.1 pw ph).andThen (say (cropEvs v unit w.1 h.1 pw ph)))

/-- "A_VORBIS". -/
def nVorbis : Bytes := [0x41, 0x5F, 0x56, 0x4F, 0x52, 0x42, 0x49, 0x53]
/-- "A_OPUS". -/
def nOpus : Bytes := [0x41, 0x5F, 0x4F, 0x50, 0x55, 0x53]
/-- "V_VP8". -/
def nVp8 : Bytes := [0x56, 0x5F, 0x56, 0x50, 0x38]
/-- "V_VP9". -/
def nVp9 : Bytes := [0x56, 0x5F, 0x56, 0x50, 0x39]
/-- "A_TRUEHD". -/
def nTrueHd : Bytes := [0x41, 0x5F, 0x54, 0x52, 0x55, 0x45, 0x48, 0x44]

/-- 322-323 on the codec name in capital letters. -/
def oddCodec (s : Bytes) : Bool :=
  decide (s.length < 3) || s[1]? != some 0x5F
    || !(s[0]? == some 0x41 || s[0]? == some 0x56 || s[0]? == some 0x53 || s[0]? == some 0x42)

/-- 307-360 for one track. Missing TrackNumber, TrackType and CodecID are created with the value 0 and an empty string, so
the errors 0x300, 0x301 and (Audio is created too) 0x309 cannot occur. Codec names shorter than the buffer, ASCII. -/
def codecEvs (webm : Bool) (t : Track) : List Ev :=
  let name := t.codec.getD []
  let type := t.type.getD 0
  (if name.map toUpper ≠ name then [.warn 0x307] else []) ++ (if oddCodec (name.map toUpper) then [.warn 0x308] else [])
    ++ (if type = 2 then (if t.outFreqZero then [.err 0x30A] else []) ++ (if t.freqZero then [.err 0x30A] else []) else [])
    ++ (if webm then
          (if type ≠ 2 ∧ type ≠ 1 then [.err 0x302] else [])
            ++ (if type = 2 then (if !isame name nVorbis && !isame name nOpus then [.err 0x303] else [])
                else if type = 1 then (if !isame name nVp8 && !isame name nVp9 then [.err 0x304] else [])
                else [])
        else [])

/-- 363-394: the AttachmentLinks of a track; `files` are the FileUIDs of the attachments, if there is an Attachments. -/
def linkEvs (files : Option (List Int)) : List Int → List Ev
  | [] => []
  | l :: ls =>
    match files with
    | none => [.err 0x305]
    | some fs => (if fs.contains l then [] else [.err 0x306]) ++ linkEvs files ls

/-- `CheckTracks`, 296-399. -/
def checkTracks (webm : Bool) (files : Option (List Int)) (ts : List Track) : List Ev :=
  ts.flatMap fun t => codecEvs webm t ++ linkEvs files t.links

/-! ### SeekHead -/

/-- A Seek element: SeekID (0 if missing) and the absolute position. -/
structure Seek where
  id : Nat
  pos : Option Int
deriving DecidableEq, Repr

def idInfo : Nat := 0x1549A966
def idTracks : Nat := 0x1654AE6B
def idCues : Nat := 0x1C53BB6B
def idTags : Nat := 0x1254C367
def idChapters : Nat := 0x1043A770
def idAttachments : Nat := 0x1941A469
def idSeekHead : Nat := 0x114D9B74
def idCluster : Nat := 0x1F43B675

/-- Positions of the elements found in the Segment: the first of each kind, the second SeekHead and all Clusters. -/
structure Found where
  info : Option Int := none
  tracks : Option Int := none
  cues : Option Int := none
  tags : Option Int := none
  chapters : Option Int := none
  attachments : Option Int := none
  seekHead : Option Int := none
  seekHead2 : Option Int := none
  clusters : List Int := []
deriving DecidableEq, Repr

/-- 467-470 and the five like it. -/
def refEvs (found : Option Int) (pos : Int) (unknown wrong : Nat) : List Ev :=
  match found with
  | none => [.err unknown]
  | some p => if p ≠ pos then [.err wrong] else []

/-- One round of `CheckSeekHead`, 454-540; `self` is the position of the SeekHead, `main` whether it is the first one. -/
def seekEvs (f : Found) (self : Int) (main : Bool) (s : Seek) : List Ev :=
  match s.pos with
  | none => [.err 0x60]
  | some pos =>
    if s.id = 0 then [.err 0x61]
    else if s.id = idInfo then refEvs f.info pos 0x62 0x63
    else if s.id = idTracks then refEvs f.tracks pos 0x64 0x65
    else if s.id = idCues then refEvs f.cues pos 0x66 0x67
    else if s.id = idTags then refEvs f.tags pos 0x68 0x69
    else if s.id = idChapters then refEvs f.chapters pos 0x6A 0x6B
    else if s.id = idAttachments then refEvs f.attachments pos 0x6C 0x6D
    else if s.id = idSeekHead then
      if self = pos then [.err 0x6E]
      else if main then (if f.seekHead2.isNone then [.err 0x6F] else [])
      else if some pos ≠ f.seekHead then [.err 0x70]
      else []
    else if s.id = idCluster then (if !f.clusters.contains pos && !f.clusters.isEmpty then [.err 0x71] else [])
    else [.warn 0x860]

/-- 543-556: an element that the main SeekHead does not mention. `B…` is set only behind the tests at 461-464. -/
def unref (entries : List Seek) (id : Nat) (found : Option Int) : List Ev :=
  if found.isSome && !entries.any (fun s => s.id == id && s.pos.isSome) then [.warn 0x861] else []

/-- The same for the second SeekHead: `BSecondSeek` (521) is not set by an entry with the position of the main one. -/
def unref2 (self : Int) (entries : List Seek) (found : Option Int) : List Ev :=
  if found.isSome && !entries.any (fun s => s.id == idSeekHead && s.pos.isSome && s.pos != some self) then [.warn 0x861] else []

/-- `CheckSeekHead`, 449-559. -/
def checkSeekHead (f : Found) (self : Int) (main : Bool) (entries : List Seek) : List Ev :=
  entries.flatMap (seekEvs f self main)
    ++ (if main then
          unref entries idInfo f.info ++ unref entries idTracks f.tracks ++ unref entries idCues f.cues
            ++ unref entries idTags f.tags ++ unref entries idChapters f.chapters
            ++ unref entries idAttachments f.attachments ++ unref2 self entries f.seekHead2
        else [])

/-! ### Clusters -/

/-- A block: `MATROSKA_BlockTrackNum` (a `uint16_t`), `MATROSKA_BlockKeyframe`, `MATROSKA_BlockLaced`,
`MATROSKA_BlockTimestamp` and the sum of the lengths of its frames. -/
structure Blk where
  track : Nat
  key : Bool := true
  laced : Bool := false
  time : Int := 0
  len : Nat := 1
deriving DecidableEq, Repr

/-- A Cluster: `MATROSKA_ClusterTimestamp`, PrevSize, Position and the blocks, that is the SimpleBlocks and the first Block
of each BlockGroup. -/
structure Cluster where
  pos : Int
  size : Int
  ts : Int
  prevSize : Option Int := none
  position : Option Int := none
  blocks : List Blk := []
deriving DecidableEq, Repr

/-- `CheckPosSize`, 706-731; `prev` is the position of the Cluster before, `data` that of the data of the Segment. -/
def checkPosSize (data : Int) : (prev : Option Int) → List Cluster → List Ev
  | _, [] => []
  | prev, c :: cs =>
    (match c.prevSize with
      | none => []
      | some n =>
        match prev with
        | none => [.err 0xA0]
        | some p => if n ≠ c.pos - p then [.err 0xA1] else [])
      ++ (match c.position with
          | none => []
          | some n => if n ≠ c.pos - data then [.err 0xA2] else [])
      ++ checkPosSize data (some c.pos) cs

/-- A `uint16_t` as `int16_t`. -/
def s16 (n : Nat) : Int := if n < 2 ^ 15 then n else (n : Int) - 2 ^ 16

/-- The first track entry with a number, as `TrackIsLaced` 568-583 and the two after it search it. -/
def trackFor (ts : List Track) (n : Int) : Option Track := ts.find? fun t => t.num.getD 0 == n

/-- `TrackIsLaced`, 568-583. -/
def isLaced (ts : List Track) (n : Int) : Bool :=
  match trackFor ts n with
  | none => true
  | some t => t.lacing.getD 1 != 0

/-- `TrackIsVideo`, 585-601. -/
def isVideo (ts : List Track) (n : Int) : Bool :=
  match trackFor ts n with
  | none => false
  | some t => t.type.getD 0 == 1

/-- `TrackNeedsKeyframe`, 603-631. -/
def needsKey (ts : List Track) (n : Int) : Bool :=
  match trackFor ts n with
  | none => false
  | some t =>
    if t.type.getD 0 = 1 then false
    else if t.type.getD 0 = 2 then !isame (t.codec.getD []) nTrueHd
    else true

/-- `Tracks[..].Num`, an `int`: 1141-1154. -/
def trackNum (t : Track) : Int := toInt32 (t.num.getD 0)

/-- The body of `CheckLacingKeyframe` for one block, 753-778 and 784-807. -/
def laceEvs (ts : List Track) (b : Blk) : List Ev :=
  if ts.any (fun t => trackNum t == s16 b.track) then
    (if b.laced && !isLaced ts (s16 b.track) then [.err 0xB0] else [])
      ++ (if !b.key && needsKey ts (s16 b.track) then [.err 0xB1] else [])
  else [.err 0xB2]

/-- `CheckLacingKeyframe`, 733-812. -/
def checkLacing (ts : List Track) (cs : List Cluster) : List Ev := cs.flatMap fun c => c.blocks.flatMap (laceEvs ts)

/-- `DataLength` of the track at an index after `CheckLacingKeyframe`: blocks count for the first track with their number. -/
def dataLength (ts : List Track) (cs : List Cluster) (i : Nat) : Nat :=
  ((cs.flatMap Cluster.blocks).map fun b =>
    if ts.findIdx? (fun t => trackNum t == s16 b.track) = some i then b.len else 0).sum

/-- 1359-1363. -/
def emptyEvs (ts : List Track) (cs : List Cluster) : List Ev :=
  (List.range ts.length).flatMap fun i => if dataLength ts cs i = 0 then [.warn 0xB8] else []

/-- `TrackMax`, 1152: a `size_t`. -/
def trackMax (ts : List Track) : Nat :=
  ts.foldl (fun m t => match t.num with | none => m | some n => max m (n % 2 ^ 64).toNat) 0

/-- `TrackKeyframe` and `TrackFirstKeyframePos` (0: not set) of a Cluster, 640-650. -/
structure KeyState where
  key : Nat → Bool := fun _ => false
  first : Nat → Int := fun _ => 0

/-- One block in `CheckVideoStart`, 667-677 and 683-692; `n` is the number of entries of the arrays. -/
def keyStep (n : Nat) (ts : List Track) (pos : Int) (st : KeyState) (b : Blk) : Out (KeyState × List Ev) :=
  if b.track > n then .ok (st, [.lost 0xC3])
  else if isVideo ts (s16 b.track) then
    if b.track ≥ n then .bad
    else
      let st : KeyState :=
        if !st.key b.track && b.key then { st with key := fun i => if i = b.track then true else st.key i } else st
      let st : KeyState :=
        if !st.key b.track && st.first b.track == 0 then { st with first := fun i => if i = b.track then pos else st.first i }
        else st
      .ok (st, [])
  else .ok (st, [])

/-- The blocks of a Cluster, 659-694. -/
def keyLoop (n : Nat) (ts : List Track) (pos : Int) : KeyState → List Blk → Out (KeyState × List Ev)
  | st, [] => .ok (st, [])
  | st, b :: bs =>
    match keyStep n ts pos st b with
    | .ok (st, e) =>
      match keyLoop n ts pos st bs with
      | .ok (st, es) => .ok (st, e ++ es)
      | x => x
    | x => x

/-- 695-699: the counter is a `uint16_t`, so the loop does not end if there are more than 65535 entries. -/
def keyEvs (n : Nat) (st : KeyState) : Run :=
  if n > 65535 then ⟨[], .hang⟩
  else say ((List.range n).flatMap fun i => if st.key i && st.first i != 0 then [.warn 0xC0] else [])

/-- 652-657. -/
def timeEvs (prev ts : Int) : List Ev :=
  if ts = invalidTs then [.err 0xC1] else if prev ≠ invalidTs ∧ prev ≥ ts then [.warn 0xC2] else []

/-- `CheckVideoStart`, 633-704: `n` entries could be allocated for `TrackMax+1`. -/
def checkVideoStart (n : Nat) (ts : List Track) : (prev : Int) → List Cluster → Run
  | _, [] => say []
  | prev, c :: cs =>
    (say (timeEvs prev c.ts)).andThen
      (match keyLoop n ts c.pos {} c.blocks with
        | .ok (st, es) => (say es).andThen ((keyEvs n st).andThen (checkVideoStart n ts c.ts cs))
        | .hang => ⟨[], .hang⟩
        | _ => ⟨[], .crash⟩)

/-! ### Cues -/

/-- `CheckCueEntries`, 814-853, behind the test for Info (an Info is there, 1310); `scale` is the TimestampScale. -/
def checkCues (scale : Int) (cs : List Cluster) : (prev : Int) → List Cue → List Ev
  | _, [] => []
  | prev, c :: rest =>
    let ts := cueTs scale c
    (if ts < prev ∧ prev ≠ invalidTs then [.warn 0x311] else [])
      ++ (if cs.all fun k => (Mkclean.blockAt ts (cueTrack c) (k.blocks.map fun b => ⟨b.time, b.track⟩)).isNone then [.err 0x312] else [])
      ++ checkCues scale cs ts rest

end Verif.Mkvalidator
