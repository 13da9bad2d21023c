import Verif.Vorbis.Header
import Verif.Mkv.Duration

/-! CodecPrivate of a Vorbis track and the durations of its frames: /repo/libmatroska2/matroskablock.c:198-289. -/

namespace Verif.Vorbis

open Verif

/-- The bits of bytes, least first. -/
def bitsOf (data : Bytes) : List Bool := data.flatMap fun b => (List.range 8).map fun i => b.toNat.testBit i

/-- One size in the lacing, matroskablock.c:234-239: the size and the next `j`. `n` is the last index of a size. -/
def laceSize (data : Bytes) (n : Nat) : (fuel j acc : Nat) → Res (Nat × Nat)
  | 0, _, _ => .hang
  | fuel + 1, j, acc =>
    match data[j]? with
    | none => .crash .lace
    | some b => if b.toNat = 255 ∧ j + 1 ≤ n then laceSize data n fuel (j + 1) (acc + b.toNat) else .ok (acc + b.toNat, j + 1)

/-- A packet is read; a bad one is an error only if it is the first, matroskablock.c:248-249 and 261-262. -/
def takePacket (data : Bytes) (begin len no : Nat) (h : Hdr) : Res Hdr :=
  (headerIn (decide (no = 0)) (bitsOf ((data.drop begin).take len)) h).bind fun (good, h) =>
  if good = false ∧ no = 0 then .err else .ok h

/-- The packets, matroskablock.c:231-263: `left` is how many more are taken, `no` how many were, the next begins at `i`. -/
def packets (data : Bytes) (n : Nat) : (left no j i : Nat) → Hdr → Res Hdr
  | 0, _, _, _, h => .ok h
  | left + 1, no, j, i, h =>
    if j ≤ n then
      (laceSize data n (n + 1) j 0).bind fun (len, j) =>
      if data.length < i + len then .err
      else (takePacket data i len no h).bind fun h => packets data n left (no + 1) j (i + len) h
    else takePacket data i (data.length - i) no h

/-- The headers in CodecPrivate, matroskablock.c:212-263. -/
def readPrivate (data : Bytes) : Res Hdr :=
  match data[0]? with
  | none => .crash .lace
  | some n => packets data n.toNat 4 0 1 (1 + n.toNat) {}

/-- The duration of the frame at the start of `data`, matroskablock.c:271-283; `none` is `INVALID_TIMESTAMP_T`. -/
def frameTime (h : Hdr) (data : Bytes) : Res (Option Int) :=
  match h.info with
  | none => .crash .noSetup
  | some info =>
    match h.setup with
    | none => .crash .noModes
    | some p =>
      match data with
      | [] => .crash .frame
      | c :: _ =>
        let fscod := (c.toNat &&& 0x7F) >>> (7 - ilog (p.modes.length - 1))
        if p.modes.length < fscod then .ok none
        else match h.slots[fscod]? with
          | none => .crash .mode
          | some m =>
            if m.blockflag = 0 then .ok (some (Mkv.playing info.short (toInt32 info.rate.toNat)))
            else if m.blockflag = 1 then .ok (some (Mkv.playing info.long (toInt32 info.rate.toNat)))
            else .crash .index

/-- The loop over the frames, matroskablock.c:269-285. -/
def frameTimes (h : Hdr) : Bytes → List Nat → Res (List (Option Int))
  | _, [] => .ok []
  | data, n :: sizes =>
    (frameTime h data).bind fun d => (frameTimes h (data.drop n) sizes).bind fun ds => .ok (d :: ds)

/-- The durations of the frames of a block in a Vorbis track with this CodecPrivate. -/
def vorbisTimes (priv data : Bytes) (sizes : List Nat) : Res (List (Option Int)) :=
  (readPrivate priv).bind fun h => frameTimes h data sizes

end Verif.Vorbis
