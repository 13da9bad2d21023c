import Verif.Base.Bytes
/-!
Model of `MATROSKA_BlockProcessFrameDurations` (`/repo/libmatroska2/matroskablock.c:15-303`): how long each frame of an audio
block plays, from the head of the frame.

Simplifications: the data of the block has been read (C109); the codec is already recognised; `A_VORBIS`, which needs
the Vorbis decoder, is left out; the sampling frequency of AAC is the track's as an integer.
-/
namespace Verif.Mkv
open Verif

/-- Codecs whose frames are looked at. `aac` has the rate from the track. -/
inductive Codec where
  | mpeg
  | ac3
  | eac3
  | dts
  | aac (rate : Int)

/-- `A_MPEG_freq`, matroskablock.c:15-22. -/
def mpegFreq : List (List Int) := [[11025, 0, 22050, 44100], [12000, 0, 24000, 48000], [8000, 0, 16000, 32000], [0, 0, 0, 0]]

/-- `A_MPEG_samples`, matroskablock.c:24-31. -/
def mpegSamples : List (List Int) := [[0, 0, 0, 0], [576, 0, 576, 1152], [1152, 0, 1152, 1152], [384, 0, 384, 384]]

/-- `A_AC3_freq`, matroskablock.c:33-38. -/
def ac3Freq : List (List Int) := [[48000, 44100, 32000, 0], [24000, 22050, 16000, 0], [12000, 11025, 8000, 0]]

/-- `A_EAC3_freq`, `A_EAC3_samples`, matroskablock.c:40-41. -/
def eac3Freq : List Int := [48000, 44100, 32000, 24000, 22050, 16000]
def eac3Samples : List Int := [256, 512, 768, 1536]

/-- `A_DTS_freq`, matroskablock.c:43-45. -/
def dtsFreq : List Int := [0, 8000, 16000, 32000, 0, 0, 11025, 22050, 44100, 0, 0, 12000, 24000, 48000, 0, 0]

def at2 (t : List (List Int)) (i j : Nat) : Int := (t.getD i []).getD j 0

/-- `Scale64`, helper.h:47-52, of a second (no 64-bit overflow for the values in the tables). -/
def playing (samples rate : Int) : Int := if rate = 0 then 0 else (1000000000 * samples).tdiv rate

/-- The duration of the frame `data` starts with: an outer `none` is a read behind the data, an inner one is
`INVALID_TIMESTAMP_T`. matroskablock.c:92-110 (MPEG), 117-133 (AC-3), 140-157 (E-AC-3), 164-178 (DTS), 190-193 (AAC). -/
def frameDuration (c : Codec) (data : Bytes) : Option (Option Int) :=
  match c with
  | .mpeg =>
    match data[1]?, data[2]? with
    | some b1, some b2 =>
      let version := (b1.toNat >>> 3) &&& 3
      let layer := (b1.toNat >>> 1) &&& 3
      let rate := at2 mpegFreq ((b2.toNat >>> 2) &&& 3) version
      let samples := at2 mpegSamples layer version
      some (if rate ≠ 0 ∧ samples ≠ 0 then some (playing samples rate) else none)
    | _, _ => none
  | .ac3 =>
    match data[4]?, data[5]? with
    | some b4, some b5 =>
      let fscod := b5.toNat >>> 3
      some (if fscod > 10 ∨ fscod < 8 then none else some (playing 1536 (at2 ac3Freq (fscod - 8) (b4.toNat >>> 6))))
    | _, _ => none
  | .eac3 =>
    match data[4]? with
    | some b4 =>
      let fscod := b4.toNat >>> 6
      let fscod2 := (b4.toNat >>> 4) &&& 3
      some (if fscod = 3 ∧ fscod2 = 3 then none
        else some (playing (if fscod = 3 then 1536 else eac3Samples.getD fscod2 0)
          (eac3Freq.getD (if fscod = 3 then 3 + fscod2 else fscod) 0)))
    | none => none
  | .dts =>
    match data[4]?, data[5]?, data[8]? with
    | some b4, some b5, some b8 =>
      let samples : Int := (((b4.toNat &&& 1) <<< 7) + (b5.toNat >>> 2) + 1 : Nat) * 32
      let rate := dtsFreq.getD ((b8.toNat >>> 2) &&& 15) 0
      some (if samples = 0 ∨ rate = 0 then none else some (playing samples rate))
    | _, _, _ => none
  | .aac rate => some (some (playing 1024 rate))

/-- The loop over the frames: `Cursor` moves by the sizes of the frames. -/
def durations (c : Codec) : Bytes → List Nat → Option (List (Option Int))
  | _, [] => some []
  | data, n :: sizes =>
    match frameDuration c data, durations c (data.drop n) sizes with
    | some d, some ds => some (d :: ds)
    | _, _ => none

end Verif.Mkv
