import Verif.Mkv.Block
import Verif.Core.Str
/-!
Model of how mkclean cleans the tracks of a file (`/repo/mkclean/mkclean.c`): `GetMainTrack` 699-749, `gcd` 846-855,
`CleanCropValues` 857-880, `HasTrackUID` 882-892 and `CleanTracks` 974-1400.

Simplifications:
* A master is reduced to the children these functions use, and each of those occurs at most once (`AttachmentLink` may repeat);
  other children of a track are kept as pairs of an ID and a payload.
* Allocations succeed. Signed overflow (also of an operand `&&` may skip, 1091-1093), `NULL` dereferences, reads and writes outside an array and uses of freed memory are `Out.bad`.
* A sampling frequency is an integer; what `GuessSamplingFreq` (894-972) finds is a parameter.
* The messages and the final order of the children in a track (1380-1397) are not modelled.
-/
namespace Verif.Mkclean.Tracks
open Verif Verif.Mkv

/-- `(int)` of an `int64_t`. -/
def toInt (x : Int) : Int := (x + 2 ^ 31) % 2 ^ 32 - 2 ^ 31

/-- `x`, computed in `int64_t`. -/
def in64 (x : Int) : Bool := decide (-2 ^ 63 ≤ x ∧ x < 2 ^ 63)

/-- A computation that needs `x` not to overflow. -/
def ck {α : Type} (x : Int) (k : Out α) : Out α := if in64 x then k else .bad

/-- The children of a Video element the functions use, by value. -/
structure Video where
  pixelW : Option Int := none
  pixelH : Option Int := none
  displayW : Option Int := none
  displayH : Option Int := none
  unit : Option Int := none
  cropL : Option Int := none
  cropR : Option Int := none
  cropT : Option Int := none
  cropB : Option Int := none
  stereo : Option Int := none
  oldStereo : Option Int := none
deriving DecidableEq, Repr

/-- `gcd`, mkclean.c:846-855. -/
def gcd : Nat → Int → Int → Out Int
  | 0, _, _ => .hang
  | fuel + 1, a, b =>
    if b = 0 ∨ (a = -2 ^ 63 ∧ b = -1) then .bad
    else
      let c := Int.tmod a b
      if c = 0 then .ok b else gcd fuel b c

/-- A crop element left in the Video element by lines 875-878. -/
def keep (x : Int) : Option Int := if x = 0 then none else some x

/-- `CleanCropValues`, mkclean.c:857-880. `EBML_MasterGetChild` adds the missing ones with the default value 0. -/
def cleanCrop (v : Video) (w h : Int) : Out Video :=
  let l := v.cropL.getD 0
  let r := v.cropR.getD 0
  let t := v.cropT.getD 0
  let b := v.cropB.getD 0
  ck (t + b) <|
    if t + b ≥ h then .ok { v with cropL := none, cropR := none, cropT := none, cropB := none }
    else ck (l + r) <|
      if l + r ≥ w then .ok { v with cropL := none, cropR := none, cropT := none, cropB := none }
      else .ok { v with cropL := keep l, cropR := keep r, cropT := keep t, cropB := keep b }

/-- Lines 1090-1094: does the display size look wrong as pixels? `g` is the greatest common divisor. -/
def serious (g w h dw dh : Int) : Int :=
  let s : Int := if g = 1 then 1 else 0
  if 8 * dw ≤ w ∧ 8 * dh ≤ h then s + 1
  else if 2 * dw ≥ w ∧ 2 * dh ≥ h then s - 1
  else s

/-- `Scale64`, corec/corec/helper.h:47-52, with an explicit overflow. -/
def scale (v num den : Int) : Out Int := if den = 0 then .ok 0 else ck (v * num) (.ok (Int.tdiv (v * num) den))

/-- Lines 1086-1121, both display sizes being there: the new sizes, and whether the unit becomes "display aspect ratio". -/
def unshrink (w h dw dh : Int) : Out (Int × Int × Bool) :=
  if dh < h ∧ dw < w then
    (gcd (dh.natAbs + 1) dw dh).bind fun g =>
      ck (8 * dw) <| ck (8 * dh) <|
        if serious g w h dw dh ≠ 0 then
          (if dw > dh then (scale h dw dh).bind fun x => .ok (x, h) else (scale w dh dw).bind fun x => .ok (w, x)).bind fun p =>
            ck (p.1 * dh) <| ck (p.2 * dw) <|
              if p.1 * dh ≠ p.2 * dw then .ok (dw, dh, true) else .ok (p.1, p.2, false)
        else .ok (dw, dh, false)
  else .ok (dw, dh, false)

/-- Lines 1044-1082: the display sizes to go on with; `some none` when both are dropped, `none` when the track is deleted. -/
def displaySizes (w h : Int) : Option Int → Option Int → Out (Option (Option (Int × Int)))
  | none, none => .bad
  | none, some dh => .ok (if dh = h then some none else some (some (w, dh)))
  | some dw, none => .ok (if dw = 0 then none else if dw = w then some none else some (some (dw, h)))
  | some dw, some dh => .ok (if dw = 0 then none else if dh = 0 then none else some (some (dw, dh)))

/-- Lines 1042-1133: a display size in pixels. -/
def cleanPixels (w h : Int) (v : Video) : Out (Option Video) :=
  (displaySizes w h v.displayW v.displayH).bind fun
    | none => .ok none
    | some none => .ok (some { v with displayW := none, displayH := none })
    | some (some (dw, dh)) =>
      (unshrink w h dw dh).bind fun p =>
        .ok (some { v with
          displayW := if p.1 = w then none else some p.1
          displayH := if p.2.1 = h then none else some p.2.1
          unit := if p.2.2 then some 3 else v.unit })

/-- Lines 1032-1040: a display size given as an aspect ratio. -/
def cleanRatio (w h : Int) (v : Video) : Out Video :=
  if v.unit = some 3 then
    if (v.displayW = none ∨ v.displayW = some w) ∧ (v.displayH = none ∨ v.displayH = some h) then .ok { v with unit := some 0 }
    else cleanCrop v 0 0
  else .ok v

/-- Lines 1016-1137, the picture size of a track: `none` when the track is deleted. -/
def cleanDisplay (v : Video) : Out (Option Video) :=
  match v.pixelW, v.pixelH with
  | some pw, some ph =>
    let w := toInt pw
    let h := toInt ph
    if w = 0 ∨ h = 0 then .ok none
    else if v.displayW = none ∧ v.displayH = none then .ok (some v)
    else
      (cleanRatio w h v).bind fun v =>
        (if v.unit = none ∨ v.unit = some 0 then cleanPixels w h v else .ok (some v)).bind fun
          | none => .ok none
          | some v =>
            let v := { v with unit := some (v.unit.getD 0) }
            if v.unit ≠ some 3 then
              (cleanCrop v (v.displayW.getD w) (v.displayH.getD h)).bind fun v => .ok (some v)
            else .ok (some v)
  | _, _ => .bad

/-- The children of an Audio element the functions use. -/
structure Audio where
  freq : Option Int := none
  outFreq : Option Int := none
deriving DecidableEq, Repr

/-- A track. -/
structure Track where
  number : Option Int := none
  uid : Option Int := none
  type : Option Int := none
  /-- `CodecID`, up to its end. -/
  codec : Option Bytes := none
  video : Option Video := none
  audio : Option Audio := none
  /-- The TrackOperation elements: the planes of each, by UID and type. -/
  ops : List (List (Int × Int)) := []
  /-- The AttachmentLink elements. -/
  links : List Int := []
  flagEnabled : Option Int := none
  /-- Other children, by ID. -/
  rest : List (Nat × Bytes) := []
deriving DecidableEq, Repr

/-- What `CleanTracks` is told and does not change. -/
structure Config where
  /-- The profile of the source is Matroska v1 or v2 or DivX (1139). -/
  oldSource : Bool
  /-- The FileUID of each attachment; `none` without Attachments. -/
  attachments : Option (List (Option Int))
  /-- `GuessSamplingFreq`, mkclean.c:894-972, by the CodecID and the other children; 0 when it finds none. -/
  guess : Option Bytes → List (Nat × Bytes) → Int

/-- What `CleanTracks` changes beside the tracks: `*dstProfile` and `Alternate3DTracks` (which entries are set). -/
structure Side where
  profile : Nat
  alt : List Bool
deriving DecidableEq, Repr

/-- `ARRAYCOUNT(*Alternate3DTracks) >= (size_t)TrackNum`, lines 1012 and 1283. -/
def altSeen (alt : List Bool) (n : Int) : Bool := decide (0 ≤ n ∧ n ≤ alt.length)

/-- Lines 1012-1013. -/
def clearAlt (alt : List Bool) (n type : Int) : Out (List Bool) :=
  if altSeen alt n && type != 1 then
    if n.toNat < alt.length then .ok (alt.set n.toNat false) else .bad
  else .ok alt

/-- Lines 1283-1288: force the stereo mode of a track given with `--alt-3d`. -/
def forceAlt (alt : List Bool) (n : Int) (v : Option Video) : Out (Option Video) :=
  if altSeen alt n then
    match alt[n.toNat]? with
    | none => .bad
    | some false => .ok v
    | some true =>
      match v with
      | none => .bad
      | some v => .ok (some { v with stereo := some 13 })
  else .ok v

/-- "V_VP8", "V_VP9", "A_VORBIS", "A_OPUS". -/
def vp8 : Bytes := [86, 95, 86, 80, 56]
def vp9 : Bytes := [86, 95, 86, 80, 57]
def vorbis : Bytes := [65, 95, 86, 79, 82, 66, 73, 83]
def opus : Bytes := [65, 95, 79, 80, 85, 83]

/-- Lines 1290-1305: is the track allowed in the profile (WebM is 8)? -/
def webmOk (profile : Nat) (type : Int) (codec : Option Bytes) : Out Bool :=
  if profile = 8 then
    match codec with
    | none => .bad
    | some c => .ok ((type == 1 && (Core.isame c vp8 || Core.isame c vp9)) || (type == 2 && (Core.isame c vorbis || Core.isame c opus)))
  else .ok true

/-- Lines 1308-1334. A frequency of 0 that cannot be guessed: the track is deleted (1325) and its Audio is used after that. -/
def cleanAudio (guess : Int) : Option Audio → Out (Option Audio)
  | none => .ok none
  | some a =>
    let f := a.freq.getD 8000
    if f = 0 ∧ guess = 0 then .bad
    else
      let f := if f = 0 then guess else f
      .ok (some { freq := some f, outFreq := if a.outFreq = some f then none else a.outFreq })

/-- Lines 1336-1362: the links to attachments that exist. -/
def cleanLinks (attachments : Option (List (Option Int))) (links : List Int) : List Int :=
  links.filter fun l => match attachments with
    | none => false
    | some fs => fs.contains (some l)

/-- `HasTrackUID`, mkclean.c:882-892, for TrackNumber or TrackUID. -/
def hasUid (uids : List (Option Int)) (n : Int) : Bool := uids.contains (some n)

/-- The loops looking for a number no track has, 1194-1196 and 1201-1203, in `int`. -/
def fresh (uids : List (Option Int)) : Nat → Int → Out Int
  | 0, _ => .hang
  | fuel + 1, n =>
    if n ≥ 2 ^ 31 then .bad
    else if hasUid uids n then fresh uids fuel (n + 1) else .ok n

/-- The StereoMode or else OldStereoMode of a Video element, 1142-1144. -/
def Video.eyes (v : Video) : Option Int := match v.stereo with
  | some s => some s
  | none => v.oldStereo

/-- Set the value of the element `eyes` reads (1166, 1187); `force` makes it a StereoMode (1153-1155). -/
def Video.setEyes (v : Video) (force : Bool) (x : Int) : Video :=
  if v.stereo.isSome then { v with stereo := some x }
  else if force then { v with stereo := some x, oldStereo := none }
  else { v with oldStereo := some x }

/-- Remove the first child with that ID. -/
def dropFirst (id : Nat) : List (Nat × Bytes) → List (Nat × Bytes)
  | [] => []
  | e :: es => if e.1 = id then es else e :: dropFirst id es

/-- "V_COMBINED". -/
def vCombined : Bytes := [86, 95, 67, 79, 77, 66, 73, 78, 69, 68]

/-- FlagLacing, MinCache, MaxCache, DefaultDuration, TrackTimestampScale, MaxBlockAdditionID, CodecPrivate, TrackTranslate,
lines 1212-1231. -/
def notInCombined : List Nat := [0x9C, 0x6DE7, 0x6DF8, 0x23E383, 0x23314F, 0x55EE, 0x63A2, 0x6624]

/-- The track created from a track and its other eye, 1190-1231, without its planes. -/
def combined (t : Track) (number uid : Int) : Track :=
  { t with
    number := some number
    uid := some uid
    flagEnabled := t.flagEnabled.map fun _ => 1
    codec := some vCombined
    links := t.links.tail
    rest := notInCombined.foldl (fun es id => dropFirst id es) t.rest }

/-- A UID for the other eye, 1256-1263: the one it has, or a new one. `next` is `NewTrackUID`. -/
def planeUid (all : List (Option Int)) (fuel : Nat) (uid : Option Int) (next : Int) : Out (Int × Int) :=
  match uid with
  | some u => .ok (u, next)
  | none => (fresh all fuel next).bind fun n => .ok (n, n)

/-- The first later track that is the other eye, 1170-1181: the tracks before it, itself, and those after it. -/
def otherEye (want : Int) : List Track → Option (List Track × Track × Video × List Track)
  | [] => none
  | t :: ts =>
    match t.video with
    | some v => if v.eyes = some want then some ([], t, v, ts) else
        (otherEye want ts).map fun r => (t :: r.1, r.2)
    | none => (otherEye want ts).map fun r => (t :: r.1, r.2)

/-- Lines 1169-1277 for a track that was the eye `s` (1 right, 2 left; its mode is mono by now): all the tracks of the file after
the combined track is made; `none` when no later track is the other eye. -/
def combine (done : List Track) (t : Track) (s : Int) (todo : List Track) : Out (Option (List Track)) :=
  if s = 1 ∨ s = 2 then
    match otherEye (3 - s) todo with
    | none => .ok none
    | some (mid, o, ov, after) =>
      let o := { o with video := some (ov.setEyes false 0) }
      let tracks := fun (t o : Track) => done ++ t :: mid ++ o :: after
      let fuel := (tracks t o).length + 2
      match t.number with
      | none => .bad
      | some tn =>
        (fresh (((tracks t o) ++ [t]).map (·.number)) fuel (toInt tn + 1)).bind fun number =>
        match t.uid with
        | none => .bad
        | some tu =>
          (fresh (((tracks t o) ++ [t]).map (·.uid)) fuel 1).bind fun uid =>
          let c := combined t number uid
          (planeUid (((tracks t o) ++ [c]).map (·.uid)) fuel o.uid uid).bind fun p =>
          let o := { o with uid := some p.1 }
          let planes := if s = 2 then [(tu, 0), (p.1, 1)] else [(tu, 1), (p.1, 0)]
          .ok (some ((tracks t o) ++ [{ c with ops := c.ops ++ [planes] }]))
  else .ok none

/-- What happens to the track the loop is at. -/
inductive Fate where
  /-- Deleted. -/
  | drop
  /-- Kept. -/
  | keep (t : Track)
  /-- Start again with these tracks. -/
  | again (ts : List Track)
deriving DecidableEq, Repr

/-- Lines 1283-1362, the second part of the loop. -/
def cleanRest (cfg : Config) (side : Side) (n type : Int) (t : Track) : Out (Side × Fate) :=
  (forceAlt side.alt n t.video).bind fun v =>
  let t := { t with video := v }
  (webmOk side.profile type t.codec).bind fun ok =>
  if ok then
    (cleanAudio (cfg.guess t.codec t.rest) t.audio).bind fun a =>
      .ok (side, .keep { t with audio := a, links := cleanLinks cfg.attachments t.links })
  else .ok (side, .drop)

/-- Lines 1139-1281 for a track with a Video element. -/
def cleanStereo (cfg : Config) (side : Side) (n type : Int) (done : List Track) (t : Track) (v : Video) (todo : List Track) :
    Out (Side × Fate) :=
  match v.eyes with
  | none => cleanRest cfg side n type t
  | some e =>
    let s := toInt e
    if cfg.oldSource ∧ s ≠ 0 ∧ s ≤ 3 then
      let side := { side with profile := 4 }
      if s = 3 then cleanRest cfg side n type { t with video := some (v.setEyes true 1) }
      else
        let t := { t with video := some (v.setEyes true 0) }
        (combine done t s todo).bind fun
          | some ts => .ok (side, .again ts)
          | none => cleanRest cfg side n type t
    else cleanRest cfg side n type t

/-- One turn of the loop, 985-1363: `done` are the tracks kept so far, `todo` those not seen yet. -/
def cleanTrack (cfg : Config) (side : Side) (done : List Track) (t : Track) (todo : List Track) : Out (Side × Fate) :=
  match t.number with
  | none => .ok (side, .drop)
  | some tn =>
    let n := toInt tn
    if t.codec = none ∧ t.ops = [] then .ok (side, .drop)
    else match t.type with
      | none => .ok (side, .drop)
      | some ty =>
        let type := toInt ty
        (clearAlt side.alt n type).bind fun alt =>
        let side := { side with alt := alt }
        match t.video with
        | none => cleanRest cfg side n type t
        | some v =>
          (cleanDisplay v).bind fun
            | none => .ok (side, .drop)
            | some v => cleanStereo cfg side n type done { t with video := some v } v todo

/-- The loop, 983-1363. -/
def cleanLoop (cfg : Config) : Nat → Side → List Track → List Track → Out (Side × List Track)
  | _, side, done, [] => .ok (side, done)
  | 0, _, _, _ => .hang
  | fuel + 1, side, done, t :: todo =>
    (cleanTrack cfg side done t todo).bind fun
      | (side, .drop) => cleanLoop cfg fuel side done todo
      | (side, .keep t) => cleanLoop cfg fuel side (done ++ [t]) todo
      | (side, .again ts) => cleanLoop cfg fuel side [] ts

/-- `CleanTracks`, mkclean.c:974-1400; `err` is the result -19, no track left. -/
def cleanTracks (cfg : Config) (fuel : Nat) (side : Side) (ts : List Track) : Out (Side × List Track) :=
  (cleanLoop cfg fuel side [] ts).bind fun r =>
    if r.2 = [] then .err
    else .ok ({ r.1 with alt := if r.1.alt.any id then r.1.alt else [] }, r.2)

/-- The type of a track by lines 711 and 724; `EBML_IntegerValue(NULL)` is `bad`. -/
def firstOf (type : Int) : List Track → Out (Option Nat)
  | [] => .ok none
  | t :: ts => match t.type with
    | none => .bad
    | some y => if y = type then .ok (some 0) else (firstOf type ts).bind fun r => .ok (r.map (· + 1))

/-- `GetMainTrack`, mkclean.c:699-749: the place of the main track and the numbers written to `TrackOrder`. -/
def mainTrack (ts : List Track) : Out (Option Nat × List Int) :=
  (firstOf 1 ts).bind fun v =>
  (match v with
    | some i => Out.ok (some i)
    | none => firstOf 2 ts).bind fun m =>
  let order : List Track := match m with
    | none => ts
    | some i => ts.eraseIdx i ++ ts[i]?.toList
  if order.any fun (t : Track) => t.number.isNone then .bad
  else .ok (m, order.filterMap Track.number)

end Verif.Mkclean.Tracks
