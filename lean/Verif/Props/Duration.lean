import Verif.Mkv.Duration
/-!
C117: the durations libmatroska gives to the frames of an audio block are the ones the heads of the frames state.

The specification reads bit fields at the places the formats define (ISO/IEC 11172-3 and 13818-3; ATSC A/52 with
Annex E; ETSI TS 102 114), independently of the expressions and tables of the code.
-/
namespace Verif.Mkv
open Verif

/-- Bit `i` of a byte string, the most significant bit of a byte first. -/
def bitAt (l : Bytes) (i : Nat) : Nat := (l.getD (i / 8) 0).toNat / 2 ^ (7 - i % 8) % 2

/-- The number in the `n` bits from bit `o` on. -/
def field (l : Bytes) (o n : Nat) : Nat := (List.range n).foldl (fun a k => 2 * a + bitAt l (o + k)) 0

/-- 44.1, 48 and 32 kHz as MPEG audio counts them. -/
def mpegBase : Nat → Option Nat
  | 0 => some 44100
  | 1 => some 48000
  | 2 => some 32000
  | _ => none

/-- 48, 44.1 and 32 kHz as AC-3 counts them. -/
def ac3Base : Nat → Option Nat
  | 0 => some 48000
  | 1 => some 44100
  | 2 => some 32000
  | _ => none

/-- Version 1 (3) has the full rates, version 2 (2) half of them, version 2.5 (0) a quarter. Layer I (3) has 384
samples in a frame, layer II (2) 1152, layer III (1) 1152 in version 1 and 576 else. -/
def mpegHead (version layer rate : Nat) : Option (Nat × Nat) :=
  match mpegBase rate with
  | none => none
  | some r =>
    if version = 1 ∨ layer = 0 then none
    else some (if layer = 3 then 384 else if layer = 2 ∨ version = 3 then 1152 else 576,
      if version = 3 then r else if version = 2 then r / 2 else r / 4)

/-- 6 blocks of 256 samples; `bsid` 9 and 10 halve the rate once and twice. -/
def ac3Head (fscod bsid : Nat) : Option (Nat × Nat) :=
  match ac3Base fscod with
  | none => none
  | some r =>
    if bsid ≤ 8 then some (1536, r) else if bsid = 9 then some (1536, r / 2) else if bsid = 10 then some (1536, r / 4) else none

/-- 1, 2, 3 or 6 blocks of 256 samples; rate 3 says that a half rate follows, then there are 6 blocks. -/
def eac3Head (fscod next : Nat) : Option (Nat × Nat) :=
  match ac3Base fscod with
  | some r => some (256 * (if next = 3 then 6 else next + 1), r)
  | none =>
    match ac3Base next with
    | some r => some (256 * 6, r / 2)
    | none => none

def dtsRate : Nat → Option Nat
  | 1 => some 8000
  | 2 => some 16000
  | 3 => some 32000
  | 6 => some 11025
  | 7 => some 22050
  | 8 => some 44100
  | 11 => some 12000
  | 12 => some 24000
  | 13 => some 48000
  | _ => none

/-- `NBLKS + 1` blocks of 32 samples. -/
def dtsHead (nblks sfreq : Nat) : Option (Nat × Nat) :=
  match dtsRate sfreq with
  | none => none
  | some r => some ((nblks + 1) * 32, r)

/-- Samples and rate of a frame, `none` if its head has reserved values. -/
def stated : Codec → Bytes → Option (Nat × Nat)
  | .mpeg, f => mpegHead (field f 11 2) (field f 13 2) (field f 20 2)
  | .ac3, f => ac3Head (field f 32 2) (field f 40 5)
  | .eac3, f => eac3Head (field f 32 2) (field f 34 2)
  | .dts, f => dtsHead (field f 39 7) (field f 66 4)
  | .aac rate, _ => if rate ≤ 0 then none else some (1024, rate.toNat)

/-- Whole nanoseconds of `samples` at `rate`. -/
def nanoseconds (p : Nat × Nat) : Int := ((1000000000 * p.1 / p.2 : Nat) : Int)

/-- Bytes of a frame its duration is taken from. -/
def headLen : Codec → Nat
  | .mpeg => 3
  | .ac3 => 6
  | .eac3 => 5
  | .dts => 9
  | .aac _ => 0

/-- Heads whose durations come out wrong: AC-3 of a `bsid` below 8 (refused) or of the reserved rate (0 ns), DTS
frames of more than 2048 samples, AAC without a positive rate. -/
def Misread : Codec → Bytes → Prop
  | .ac3, f => (field f 40 5 < 8 ∧ field f 32 2 ≠ 3) ∨ (8 ≤ field f 40 5 ∧ field f 40 5 ≤ 10 ∧ field f 32 2 = 3)
  | .dts, f => 64 ≤ field f 39 7 ∧ (dtsRate (field f 66 4)).isSome
  | .aac rate, _ => rate ≤ 0
  | _, _ => False

/-! ## Lemmas -/

theorem forallByte {p : UInt8 → Prop} (h : ∀ n : Fin 256, p (UInt8.ofNat n)) (b : UInt8) : p b := by
  have := h ⟨b.toNat, b.toNat_lt⟩
  simpa using this

theorem getD_of {l : Bytes} {i : Nat} {b : UInt8} (h : l[i]? = some b) : l.getD i 0 = b := by
  simp [List.getD, h]

theorem mpeg_table : ∀ v < 4, ∀ l < 4, ∀ r < 4,
    (if at2 mpegFreq r v ≠ 0 ∧ at2 mpegSamples l v ≠ 0 then some (playing (at2 mpegSamples l v) (at2 mpegFreq r v)) else none)
      = (mpegHead v l r).map nanoseconds := by decide +kernel

theorem ac3_table : ∀ fs < 4, ∀ b < 32,
    ((if b > 10 ∨ b < 8 then none else some (playing 1536 (at2 ac3Freq (b - 8) fs))) = (ac3Head fs b).map nanoseconds
      ↔ ¬ ((b < 8 ∧ fs ≠ 3) ∨ (8 ≤ b ∧ b ≤ 10 ∧ fs = 3))) := by decide +kernel

theorem eac3_table : ∀ fs < 4, ∀ n < 4,
    (if fs = 3 ∧ n = 3 then none
      else some (playing (if fs = 3 then 1536 else eac3Samples.getD n 0) (eac3Freq.getD (if fs = 3 then 3 + n else fs) 0)))
      = (eac3Head fs n).map nanoseconds := by decide +kernel

theorem dts_table : ∀ hi < 2, ∀ lo < 64, ∀ r < 16,
    ((if (((hi * 128 + lo + 1 : Nat) * 32 : Int)) = 0 ∨ dtsFreq.getD r 0 = 0 then none
        else some (playing ((hi * 128 + lo + 1 : Nat) * 32) (dtsFreq.getD r 0))) = (dtsHead (hi * 64 + lo) r).map nanoseconds
      ↔ ¬ (64 ≤ hi * 64 + lo ∧ (dtsRate r).isSome)) := by decide +kernel

theorem bits2 : ∀ b : UInt8, (b.toNat >>> 3) &&& 3 = 2 * (b.toNat / 16 % 2) + b.toNat / 8 % 2
    ∧ (b.toNat >>> 1) &&& 3 = 2 * (b.toNat / 4 % 2) + b.toNat / 2 % 2
    ∧ (b.toNat >>> 2) &&& 3 = 2 * (b.toNat / 8 % 2) + b.toNat / 4 % 2
    ∧ b.toNat >>> 6 = 2 * (b.toNat / 128 % 2) + b.toNat / 64 % 2
    ∧ (b.toNat >>> 4) &&& 3 = 2 * (b.toNat / 32 % 2) + b.toNat / 16 % 2 :=
  forallByte (by decide +kernel)

theorem bits4 : ∀ b : UInt8,
    b.toNat >>> 3 = 2 * (2 * (2 * (2 * (b.toNat / 128 % 2) + b.toNat / 64 % 2) + b.toNat / 32 % 2) + b.toNat / 16 % 2) + b.toNat / 8 % 2
    ∧ b.toNat >>> 2 = 2 * (2 * (2 * (2 * (2 * (b.toNat / 128 % 2) + b.toNat / 64 % 2) + b.toNat / 32 % 2) + b.toNat / 16 % 2)
        + b.toNat / 8 % 2) + b.toNat / 4 % 2
    ∧ (b.toNat >>> 2) &&& 15 = 2 * (2 * (2 * (b.toNat / 32 % 2) + b.toNat / 16 % 2) + b.toNat / 8 % 2) + b.toNat / 4 % 2
    ∧ (b.toNat &&& 1) <<< 7 = b.toNat % 2 * 128 :=
  forallByte (by decide +kernel)

theorem field2 (f : Bytes) (o : Nat) : field f o 2 = 2 * bitAt f o + bitAt f (o + 1) := by
  simp [field, List.range, List.range.loop]

theorem field4 (f : Bytes) (o : Nat) :
    field f o 4 = 2 * (2 * (2 * bitAt f o + bitAt f (o + 1)) + bitAt f (o + 2)) + bitAt f (o + 3) := by
  simp [field, List.range, List.range.loop]

theorem field5 (f : Bytes) (o : Nat) :
    field f o 5 = 2 * (2 * (2 * (2 * bitAt f o + bitAt f (o + 1)) + bitAt f (o + 2)) + bitAt f (o + 3)) + bitAt f (o + 4) := by
  simp [field, List.range, List.range.loop]

theorem field7 (f : Bytes) (o : Nat) :
    field f o 7 = 2 * (2 * (2 * (2 * (2 * (2 * bitAt f o + bitAt f (o + 1)) + bitAt f (o + 2)) + bitAt f (o + 3)) + bitAt f (o + 4))
      + bitAt f (o + 5)) + bitAt f (o + 6) := by
  simp [field, List.range, List.range.loop]

theorem getSome {l : Bytes} {i : Nat} (h : i < l.length) : ∃ b, l[i]? = some b := ⟨l[i], List.getElem?_eq_getElem h⟩

theorem drop_none {l : Bytes} {i : Nat} (h : l.length ≤ i) : l[i]? = none := List.getElem?_eq_none h

/-- A frame that is long enough: the duration is the stated one exactly if the head is not misread. -/
theorem frame_exact (c : Codec) (f : Bytes) (h : headLen c ≤ f.length) :
    frameDuration c f = some ((stated c f).map nanoseconds) ↔ ¬ Misread c f := by
  cases c with
  | mpeg =>
    obtain ⟨b1, h1⟩ := getSome (l := f) (i := 1) (by simp [headLen] at h; omega)
    obtain ⟨b2, h2⟩ := getSome (l := f) (i := 2) (by simp [headLen] at h; omega)
    have e := mpeg_table ((b1.toNat >>> 3) &&& 3) (by rw [(bits2 b1).1]; omega) ((b1.toNat >>> 1) &&& 3)
      (by rw [(bits2 b1).2.1]; omega) ((b2.toNat >>> 2) &&& 3) (by rw [(bits2 b2).2.2.1]; omega)
    have v : field f 11 2 = (b1.toNat >>> 3) &&& 3 := by simp [field2, bitAt, getD_of h1, -List.getD_eq_getElem?_getD, (bits2 b1).1]
    have l : field f 13 2 = (b1.toNat >>> 1) &&& 3 := by simp [field2, bitAt, getD_of h1, -List.getD_eq_getElem?_getD, (bits2 b1).2.1]
    have r : field f 20 2 = (b2.toNat >>> 2) &&& 3 := by simp [field2, bitAt, getD_of h2, -List.getD_eq_getElem?_getD, (bits2 b2).2.2.1]
    simp only [frameDuration, h1, h2, stated, v, l, r, Misread, e]
    simp
  | ac3 =>
    obtain ⟨b4, h4⟩ := getSome (l := f) (i := 4) (by simp [headLen] at h; omega)
    obtain ⟨b5, h5⟩ := getSome (l := f) (i := 5) (by simp [headLen] at h; omega)
    have e := ac3_table (b4.toNat >>> 6) (by rw [(bits2 b4).2.2.2.1]; omega) (b5.toNat >>> 3) (by rw [(bits4 b5).1]; omega)
    have v : field f 32 2 = b4.toNat >>> 6 := by simp [field2, bitAt, getD_of h4, -List.getD_eq_getElem?_getD, (bits2 b4).2.2.2.1]
    have l : field f 40 5 = b5.toNat >>> 3 := by simp [field5, bitAt, getD_of h5, -List.getD_eq_getElem?_getD, (bits4 b5).1]
    simp only [frameDuration, h4, h5, stated, v, l, Misread, Option.some.injEq]
    exact e
  | eac3 =>
    obtain ⟨b4, h4⟩ := getSome (l := f) (i := 4) (by simp [headLen] at h; omega)
    have e := eac3_table (b4.toNat >>> 6) (by rw [(bits2 b4).2.2.2.1]; omega) ((b4.toNat >>> 4) &&& 3)
      (by rw [(bits2 b4).2.2.2.2]; omega)
    have v : field f 32 2 = b4.toNat >>> 6 := by simp [field2, bitAt, getD_of h4, -List.getD_eq_getElem?_getD, (bits2 b4).2.2.2.1]
    have l : field f 34 2 = (b4.toNat >>> 4) &&& 3 := by simp [field2, bitAt, getD_of h4, -List.getD_eq_getElem?_getD, (bits2 b4).2.2.2.2]
    simp only [frameDuration, h4, stated, v, l, Misread, e]
    simp
  | dts =>
    obtain ⟨b4, h4⟩ := getSome (l := f) (i := 4) (by simp [headLen] at h; omega)
    obtain ⟨b5, h5⟩ := getSome (l := f) (i := 5) (by simp [headLen] at h; omega)
    obtain ⟨b8, h8⟩ := getSome (l := f) (i := 8) (by simp [headLen] at h; omega)
    have e := dts_table (b4.toNat % 2) (by omega) (b5.toNat >>> 2) (by rw [(bits4 b5).2.1]; omega) ((b8.toNat >>> 2) &&& 15)
      (by rw [(bits4 b8).2.2.1]; omega)
    have v : field f 39 7 = b4.toNat % 2 * 64 + b5.toNat >>> 2 := by
      rw [(bits4 b5).2.1]
      simp [field7, bitAt, getD_of h4, getD_of h5, -List.getD_eq_getElem?_getD]
      omega
    have r : field f 66 4 = (b8.toNat >>> 2) &&& 15 := by simp [field4, bitAt, getD_of h8, -List.getD_eq_getElem?_getD, (bits4 b8).2.2.1]
    simp only [frameDuration, h4, h5, h8, stated, v, r, Misread, Option.some.injEq, (bits4 b4).2.2.2]
    exact e
  | aac rate =>
    by_cases hr : rate ≤ 0
    · simp [frameDuration, stated, Misread, hr]
    · obtain ⟨n, rfl⟩ : ∃ n : Nat, rate = (n : Int) := ⟨rate.toNat, by omega⟩
      have h0 : n ≠ 0 := by omega
      simp [frameDuration, stated, Misread, nanoseconds, playing, h0]
      rfl

/-- Frames that are too short are read beyond, and only those. -/
theorem frame_none (c : Codec) (f : Bytes) : frameDuration c f = none ↔ f.length < headLen c := by
  by_cases hl : f.length < headLen c
  · simp only [hl, iff_true]
    cases c with
    | mpeg =>
      have h2 : f[2]? = none := drop_none (by simp [headLen] at hl; omega)
      cases h1 : f[1]? <;> simp [frameDuration, h1, h2]
    | ac3 =>
      have h5 : f[5]? = none := drop_none (by simp [headLen] at hl; omega)
      cases h4 : f[4]? <;> simp [frameDuration, h4, h5]
    | eac3 =>
      have h4 : f[4]? = none := drop_none (by simp [headLen] at hl; omega)
      simp [frameDuration, h4]
    | dts =>
      have h8 : f[8]? = none := drop_none (by simp [headLen] at hl; omega)
      cases h4 : f[4]? <;> cases h5 : f[5]? <;> simp [frameDuration, h4, h5, h8]
    | aac r => simp [headLen] at hl
  · simp only [hl, iff_false]
    cases c with
    | mpeg =>
      obtain ⟨b1, h1⟩ := getSome (l := f) (i := 1) (by simp [headLen] at hl; omega)
      obtain ⟨b2, h2⟩ := getSome (l := f) (i := 2) (by simp [headLen] at hl; omega)
      simp [frameDuration, h1, h2]
    | ac3 =>
      obtain ⟨b4, h4⟩ := getSome (l := f) (i := 4) (by simp [headLen] at hl; omega)
      obtain ⟨b5, h5⟩ := getSome (l := f) (i := 5) (by simp [headLen] at hl; omega)
      simp [frameDuration, h4, h5]
    | eac3 =>
      obtain ⟨b4, h4⟩ := getSome (l := f) (i := 4) (by simp [headLen] at hl; omega)
      simp [frameDuration, h4]
    | dts =>
      obtain ⟨b4, h4⟩ := getSome (l := f) (i := 4) (by simp [headLen] at hl; omega)
      obtain ⟨b5, h5⟩ := getSome (l := f) (i := 5) (by simp [headLen] at hl; omega)
      obtain ⟨b8, h8⟩ := getSome (l := f) (i := 8) (by simp [headLen] at hl; omega)
      simp [frameDuration, h4, h5, h8]
    | aac r => simp [frameDuration]

/-- Only the head counts: what follows the frame makes no difference. -/
theorem frame_append (c : Codec) (f rest : Bytes) (h : headLen c ≤ f.length) :
    frameDuration c (f ++ rest) = frameDuration c f := by
  cases c with
  | mpeg =>
    simp [headLen] at h
    simp only [frameDuration, List.getElem?_append_left (show 1 < f.length by omega), List.getElem?_append_left (show 2 < f.length by omega)]
  | ac3 =>
    simp [headLen] at h
    simp only [frameDuration, List.getElem?_append_left (show 4 < f.length by omega), List.getElem?_append_left (show 5 < f.length by omega)]
  | eac3 =>
    simp [headLen] at h
    simp only [frameDuration, List.getElem?_append_left (show 4 < f.length by omega)]
  | dts =>
    simp [headLen] at h
    simp only [frameDuration, List.getElem?_append_left (show 4 < f.length by omega), List.getElem?_append_left (show 5 < f.length by omega),
      List.getElem?_append_left (show 8 < f.length by omega)]
  | aac r => rfl

theorem sum_rep (n : Nat) (x : Int) : (List.replicate n x).sum = n * x := by
  induction n with
  | zero => simp
  | succ n ih => rw [List.replicate_succ, List.sum_cons, ih]; grind

theorem div_bounds (a r : Nat) (hr : 0 < r) :
    ((a / r : Nat) : Int) * r ≤ a ∧ (a : Int) < (((a / r : Nat) : Int) + 1) * r := by
  have h1 := Nat.div_mul_le_self a r
  have h2 : a < (a / r + 1) * r := by have := Nat.lt_div_mul_add hr (a := a); rw [Nat.add_mul]; omega
  exact ⟨by exact_mod_cast h1, by exact_mod_cast h2⟩

/-! ## C117 -/

/-- A block of any number of frames, each as long as its head: the duration of every frame is the one its head states,
and a head with reserved values has none; full statement for the heads that are not misread. -/
theorem C117_durations_partial (c : Codec) (frames : List Bytes) (hl : ∀ f ∈ frames, headLen c ≤ f.length)
    (hm : ∀ f ∈ frames, ¬ Misread c f) :
    durations c frames.flatten (frames.map List.length) = some (frames.map fun f => (stated c f).map nanoseconds) := by
  induction frames with
  | nil => rfl
  | cons f fs ih =>
    have h1 := ih (fun g hg => hl g (List.mem_cons_of_mem _ hg)) (fun g hg => hm g (List.mem_cons_of_mem _ hg))
    have h2 := (frame_exact c f (hl f List.mem_cons_self)).2 (hm f List.mem_cons_self)
    simp only [List.flatten_cons, List.map_cons, durations, List.drop_left, h1, frame_append c f _ (hl f List.mem_cons_self), h2]

/-- Conversely, if one frame is misread the durations of the block are not the stated ones. -/
theorem C117_durations_exact (c : Codec) (frames : List Bytes) (hl : ∀ f ∈ frames, headLen c ≤ f.length) :
    durations c frames.flatten (frames.map List.length) = some (frames.map fun f => (stated c f).map nanoseconds)
      ↔ ∀ f ∈ frames, ¬ Misread c f := by
  refine ⟨?_, C117_durations_partial c frames hl⟩
  induction frames with
  | nil => simp
  | cons f fs ih =>
    intro h
    simp only [List.flatten_cons, List.map_cons, durations, List.drop_left, frame_append c f _ (hl f List.mem_cons_self)] at h
    generalize hd : frameDuration c f = d at h
    generalize hds : durations c fs.flatten (fs.map List.length) = ds at h ih
    cases d with
    | none => simp at h
    | some d =>
      cases ds with
      | none => simp at h
      | some ds =>
        simp only [Option.some.injEq, List.cons.injEq] at h
        rw [h.1] at hd
        have := (frame_exact c f (hl f List.mem_cons_self)).1 hd
        intro g hg
        rcases List.mem_cons.1 hg with rfl | hg
        · exact this
        · exact ih (fun g hg => hl g (List.mem_cons_of_mem _ hg)) (by rw [h.2]) g hg

/-- The bytes read are those of the block exactly if the data goes on for a head from the start of every frame. -/
theorem C117_reads_inside_exact (c : Codec) (data : Bytes) (sizes : List Nat) :
    durations c data sizes ≠ none ↔ ∀ i < sizes.length, (sizes.take i).sum + headLen c ≤ data.length ∨ headLen c = 0 := by
  induction sizes generalizing data with
  | nil => simp [durations]
  | cons n ns ih =>
    have key : durations c data (n :: ns) ≠ none ↔ frameDuration c data ≠ none ∧ durations c (data.drop n) ns ≠ none := by
      simp only [durations]
      cases frameDuration c data <;> cases durations c (data.drop n) ns <;> simp
    rw [key, ih, ne_eq, frame_none, List.length_drop]
    constructor
    · rintro ⟨h1, h2⟩ i hi
      cases i with
      | zero => left; simp; omega
      | succ i =>
        have := h2 i (by simpa using hi)
        simp only [List.take_succ_cons, List.sum_cons]
        omega
    · intro h
      constructor
      · have := h 0 (by simp)
        simp at this
        omega
      · intro i hi
        have := h (i + 1) (by simpa using hi)
        simp only [List.take_succ_cons, List.sum_cons] at this
        omega

/-- Frames of one format, one after the other, do not drift: `n` frames are less than `n` ns shorter than the samples. -/
theorem C117_drift (c : Codec) (frames : List Bytes) (samples rate : Nat) (hr : 0 < rate) (hl : ∀ f ∈ frames, headLen c ≤ f.length)
    (hm : ∀ f ∈ frames, ¬ Misread c f) (hs : ∀ f ∈ frames, stated c f = some (samples, rate)) :
    ∃ ds : List Int, durations c frames.flatten (frames.map List.length) = some (ds.map some)
      ∧ ds.sum * rate ≤ 1000000000 * samples * frames.length
      ∧ (frames = [] ∨ 1000000000 * samples * frames.length < (ds.sum + frames.length) * rate) := by
  refine ⟨List.replicate frames.length (nanoseconds (samples, rate)), ?_, ?_, ?_⟩
  · rw [C117_durations_partial c frames hl hm, List.map_replicate, ← List.map_const']
    congr 1
    exact List.map_congr_left fun f hf => by rw [hs f hf]; rfl
  · rw [sum_rep]
    have h' : nanoseconds (samples, rate) * (rate : Int) ≤ 1000000000 * (samples : Int) := by
      have e : 1000000000 * (samples : Int) = ((1000000000 * samples : Nat) : Int) := by omega
      rw [e]
      exact (div_bounds _ rate hr).1
    have := Int.mul_le_mul_of_nonneg_left h' (Int.natCast_nonneg frames.length)
    grind
  · by_cases he : frames = []
    · exact .inl he
    · right
      have hn : (0 : Int) < frames.length := by have := List.length_pos_iff.2 he; omega
      rw [sum_rep]
      have h' : 1000000000 * (samples : Int) < (nanoseconds (samples, rate) + 1) * (rate : Int) := by
        have e : 1000000000 * (samples : Int) = ((1000000000 * samples : Nat) : Int) := by omega
        rw [e]
        exact (div_bounds _ rate hr).2
      have := Int.mul_lt_mul_of_pos_left h' hn
      grind

/-- Two MPEG-1 layer III frames at 44.1 kHz and one of version 2 at 24 kHz. -/
example : durations .mpeg [0xFF, 0xFB, 0x90, 0, 0xFF, 0xFB, 0x90, 0xFF, 0xF3, 0x94] [4, 3, 3]
    = some [some 26122448, some 26122448, some 24000000] := by decide +kernel

example : (∀ f ∈ [[0xFF, 0xFB, 0x90, 0], [0xFF, 0xFB, 0x90]], headLen .mpeg ≤ f.length)
    ∧ (∀ f ∈ [[0xFF, 0xFB, 0x90, 0], [0xFF, 0xFB, 0x90]], stated .mpeg f = some (1152, 44100)) := by decide +kernel

/-- AC-3 at 48 kHz (`bsid` 8): 32 ms; DTS of 512 samples at 48 kHz. -/
example : frameDuration .ac3 [0x0B, 0x77, 0, 0, 0x1E, 0x40] = some (some 32000000)
    ∧ frameDuration .dts [0x7F, 0xFE, 0x80, 0x01, 0xFC, 0x3C, 0, 0, 0x34] = some (some 10666666)
    ∧ frameDuration .eac3 [0x0B, 0x77, 0, 0, 0x3F] = some (some 32000000) := by decide +kernel

/-- A DTS frame of 4096 samples at 48 kHz plays 85333333 ns, but is given 128000000. -/
theorem C117_long_dts_counterexample :
    ∃ f : Bytes, headLen .dts ≤ f.length ∧ stated .dts f = some (4096, 48000) ∧ nanoseconds (4096, 48000) = 85333333
      ∧ frameDuration .dts f = some (some 128000000) :=
  ⟨[0x7F, 0xFE, 0x80, 0x01, 0xFD, 0xFC, 0, 0, 0x34], by decide +kernel⟩

/-- AC-3 of `bsid` 6 (the alternate syntax of A/52 Annex D) has no duration; a reserved rate gives 0 ns and no error. -/
theorem C117_ac3_counterexample :
    (∃ f : Bytes, headLen .ac3 ≤ f.length ∧ stated .ac3 f = some (1536, 48000) ∧ frameDuration .ac3 f = some none)
    ∧ ∃ f : Bytes, headLen .ac3 ≤ f.length ∧ stated .ac3 f = none ∧ frameDuration .ac3 f = some (some 0) :=
  ⟨⟨[0x0B, 0x77, 0, 0, 0x1E, 0x30], by decide +kernel⟩, ⟨[0x0B, 0x77, 0, 0, 0xDE, 0x40], by decide +kernel⟩⟩

/-- A block whose only frame has two bytes is read behind its data; so is one with an empty last frame. -/
theorem C117_short_frame_counterexample :
    durations .mpeg [0xFF, 0xFB] [2] = none ∧ durations .mpeg [0xFF, 0xFB, 0x90, 0] [4, 0] = none := by decide +kernel

end Verif.Mkv
