import Verif.Mkv.BlockSize
/-!
Properties C29-C38: block headers, lacing and frame encodings.

`writeBlock simple enc h frames` are the bytes written for a block with header `h` whose
lacing is decided, `writeAuto` those of a block built by appending frames, `readBlock` what
is read from a stream (`data`, of which the block announces `dataSize` bytes).
-/
namespace Verif.Mkv
open Verif Verif.Ebml

/-! ### C29 -/

/-- Full statement of C29: every header that fits is read back whatever follows it, other
track numbers are refused. -/
def HeaderRoundTrip : Prop :=
  ∀ (simple : Bool) (h : Head) (rest : Bytes), -32768 ≤ h.time → h.time < 32768 →
    (0x4000 ≤ h.track → renderHead simple h = none) ∧
    (h.track < 0x4000 → ∃ hd, renderHead simple h = some hd ∧
      parseHead simple (hd ++ rest)
        = some ({ h with key := simple && h.key, discard := simple && h.discard }, hd.length))

/-- C29 is false at the end of a file: the reader asks for five bytes, a block without
payload on a track below 128 has four. -/
theorem C29_header_round_trip_counterexample : ¬ HeaderRoundTrip := by
  intro h
  obtain ⟨hd, h1, h2⟩ := (h true ⟨1, 0, true, false, false, .none⟩ [] (by decide) (by decide)).2 (by decide)
  have : hd = [0x81, 0, 0, 0x80] := by
    have e : renderHead true ⟨1, 0, true, false, false, .none⟩ = some [0x81, 0, 0, 0x80] := by decide
    rw [e] at h1
    exact (Option.some.inj h1).symm
  subst this
  exact absurd h2 (by decide)

/-- C29, what holds: the header fields are read back as soon as one byte follows the header,
or the track number takes two bytes; track numbers from 0x4000 on are refused. A Block (not
SimpleBlock) has no keyframe and discardable flags in its header. -/
theorem C29_header_round_trip_partial (simple : Bool) (h : Head) (rest : Bytes)
    (hlo : -32768 ≤ h.time) (hhi : h.time < 32768) (hne : rest ≠ [] ∨ 0x80 ≤ h.track) :
    (0x4000 ≤ h.track → renderHead simple h = none) ∧
    (h.track < 0x4000 → ∃ hd, renderHead simple h = some hd ∧
      hd.length = (if h.track < 0x80 then 4 else 5) ∧
      parseHead simple (hd ++ rest)
        = some ({ h with key := simple && h.key, discard := simple && h.discard }, hd.length)) := by
  constructor
  · intro ht
    unfold renderHead
    rw [if_neg (by omega), if_neg (by omega)]
  · intro ht
    obtain ⟨hd, e1, e2, e3⟩ := parseHead_renderHead simple h ht hlo hhi rest hne
    exact ⟨hd, e1, e2, by rw [e3, e2]⟩

example : renderHead true ⟨300, -2, true, false, true, .ebml⟩ = some [0x41, 0x2C, 0xFF, 0xFE, 0x8E] ∧
    parseHead true [0x41, 0x2C, 0xFF, 0xFE, 0x8E] = some (⟨300, -2, true, false, true, .ebml⟩, 5) := by decide

/-! ### C30-C32: the three lacing modes

The bytes of the block are written out: header, lace head, frames. That `writeBlock`
produces them or overflows its buffer is C35. -/

/-- C30. Frame sizes and data written with Xiph lacing are recovered, for 1 to 256 frames
of any `int32_t` size and whatever follows the block. -/
theorem C30_xiph_round_trip (simple : Bool) (h : Head) (frames : List Bytes) (rest : Bytes)
    (hlac : h.lacing = .xiph) (ht : h.track < 0x4000) (hlo : -32768 ≤ h.time) (hhi : h.time < 32768)
    (h1 : 1 ≤ frames.length) (h256 : frames.length ≤ 256) (hsz : ∀ f ∈ frames, f.length < 2 ^ 31) :
    ∃ hd, renderHead simple h = some hd ∧
      let bytes := hd ++ laceHead .xiph (frames.map fun f => (f.length : Int)) ++ frames.flatten
      readBlock simple .plain (bytes ++ rest) bytes.length
        = .ok ⟨{ h with key := simple && h.key, discard := simple && h.discard }, frames.map List.length, frames.flatten⟩ := by
  obtain ⟨hd, e1, _, e3⟩ := readBlock_bytes simple .plain h frames ⟨ht, hlo, hhi⟩ trivial hsz
    (by rw [hlac]; exact ⟨by simpa [stored] using h1, by simpa [stored] using h256, by simpa [stored] using hsz⟩) rest
    (Or.inl (by rw [hlac]; simp))
  rw [hlac] at e3
  exact ⟨hd, e1, e3⟩

/-- Two frames, 300 and 1 bytes. -/
def demoFrames : List Bytes := [List.replicate 300 7, [9]]

example : laceHead .xiph (demoFrames.map fun f => (f.length : Int)) = [1, 255, 45] := by decide +kernel

/-- Full statement of C31, on the sizes: the lace head written for 2 to 256 frames below
2^27 bytes parses to those sizes. -/
def EbmlLaceRoundTrip : Prop :=
  ∀ (ns : List Nat) (hd tail : Bytes), 2 ≤ ns.length → ns.length ≤ 256 → (∀ n ∈ ns, n < 2 ^ 27) →
    parseSizes .ebml hd.length (hd ++ laceHead .ebml (ints ns) ++ tail)
        (hd.length + (laceHead .ebml (ints ns)).length + ns.sum)
      = .ok (ns, hd.length + (laceHead .ebml (ints ns)).length)

/-- 34 frames for which 2^32+3 bytes remain after the first size. -/
def hugeLace : List Nat := 100 :: (List.replicate 32 (2 ^ 27 - 1) ++ [0])

/-- C31 is false for blocks of 4 GiB: the 32-bit count of remaining bytes drops to 3 after the
first size, so that the 4-byte difference that follows is not read. -/
theorem C31_ebml_round_trip_counterexample : ¬ EbmlLaceRoundTrip := by
  intro h
  have := h hugeLace [] [] (by decide) (by decide) (by decide)
  exact absurd this (by decide +kernel)

/-- C31, what holds: frame sizes and data written with EBML lacing are recovered for 2 to 256
frames below 2^27 bytes, if the block stays below 4 GiB. -/
theorem C31_ebml_round_trip_partial (simple : Bool) (h : Head) (frames : List Bytes) (rest : Bytes)
    (hlac : h.lacing = .ebml) (ht : h.track < 0x4000) (hlo : -32768 ≤ h.time) (hhi : h.time < 32768)
    (h2 : 2 ≤ frames.length) (h256 : frames.length ≤ 256) (hsz : ∀ f ∈ frames, f.length < 2 ^ 27)
    (htot : frames.flatten.length + 4 * frames.length < 2 ^ 32) :
    ∃ bytes, writeBlock simple .plain h frames = .ok bytes ∧
      readBlock simple .plain (bytes ++ rest) bytes.length
        = .ok ⟨{ h with key := simple && h.key, discard := simple && h.discard }, frames.map List.length, frames.flatten⟩ := by
  have hok : LaceOk h.lacing ((stored .plain frames).map List.length) := by
    rw [hlac]
    exact ⟨by simpa [stored] using h2, by simpa [stored] using h256, by simpa [stored] using hsz,
      by simpa [stored, flatten_length] using htot⟩
  obtain ⟨hd, e1, _, e3⟩ := readBlock_bytes simple .plain h frames ⟨ht, hlo, hhi⟩ trivial
    (fun f hf => by have := hsz f hf; omega) hok rest (Or.inl (by rw [hlac]; simp))
  refine ⟨_, ?_, e3⟩
  unfold writeBlock
  rw [e1, frameSizes_eq .plain frames trivial]
  simp only [stored]
  have hne : frames.map List.length ≠ [] := by
    intro hx
    have := congrArg List.length hx
    simp at this
    subst this
    simp at h2
  have hfit : (laceHead h.lacing (ints (frames.map List.length))).length ≤ laceRoom h.lacing (frames.map List.length).length := by
    rw [laceHead_length, hlac]
    match frames, h2 with
    | f :: fs, h2 =>
      have g1 := codedSizeLength_le4 f.length (hsz f (by simp))
      have g2 := ebmlLen_le (fs.map List.length).dropLast f.length (hsz f (by simp)) (by
        intro s hs
        have := List.dropLast_subset _ hs
        obtain ⟨g, hg, rfl⟩ := List.mem_map.1 this
        exact hsz g (by simp [hg]))
      simp only [List.map_cons, laceRoom, List.length_cons, List.length_dropLast, List.length_map] at *
      omega
  rcases writeLace_cases h.lacing (frames.map List.length) hne with ⟨_, hw⟩ | ⟨hw, _⟩
  · rw [hw, bind_ok]; rfl
  · omega

example : laceHead .ebml ([300, 20, 40].map fun n : Nat => (n : Int)) = [2, 0x41, 0x2C, 0x5E, 0xE7] := by decide

/-- Full statement of C32, on the sizes. -/
def FixedLaceRoundTrip : Prop :=
  ∀ (n m : Nat) (hd tail : Bytes), 1 ≤ n →
    parseSizes .fixed hd.length (hd ++ laceHead .fixed (ints (List.replicate n m)) ++ tail)
        (hd.length + 1 + n * m)
      = .ok (List.replicate n m, hd.length + 1)

/-- C32 is false for more than 256 frames: 257 frames of one byte come back as one frame of
257 bytes. -/
theorem C32_fixed_round_trip_counterexample : ¬ FixedLaceRoundTrip := by
  intro h
  exact absurd (h 257 1 [] [] (by decide)) (by decide +kernel)

/-- C32 is false for blocks of 4 GiB too: 256 frames of 16 MiB come back empty. -/
theorem C32_fixed_round_trip_huge_counterexample :
    parseSizes .fixed 4 ([0x81, 0, 0, 0x84] ++ laceHead .fixed (ints (List.replicate 256 (2 ^ 24))))
      (4 + 1 + 256 * 2 ^ 24) = .ok (List.replicate 256 0, 5) := by decide +kernel

/-- C32, what holds: up to 256 frames of equal size, in a block below 4 GiB. -/
theorem C32_fixed_round_trip_partial (simple : Bool) (h : Head) (frames : List Bytes) (rest : Bytes) (m : Nat)
    (hlac : h.lacing = .fixed) (ht : h.track < 0x4000) (hlo : -32768 ≤ h.time) (hhi : h.time < 32768)
    (h1 : 1 ≤ frames.length) (h256 : frames.length ≤ 256) (hsz : ∀ f ∈ frames, f.length = m) (hm : m < 2 ^ 31)
    (htot : frames.length * m < 2 ^ 32) :
    ∃ bytes, writeBlock simple .plain h frames = .ok bytes ∧
      readBlock simple .plain (bytes ++ rest) bytes.length
        = .ok ⟨{ h with key := simple && h.key, discard := simple && h.discard }, frames.map List.length, frames.flatten⟩ := by
  have hall : ∀ n ∈ frames.map List.length, n = m := by
    intro n hn
    obtain ⟨f, hf, rfl⟩ := List.mem_map.1 hn
    exact hsz f hf
  have hok : LaceOk h.lacing ((stored .plain frames).map List.length) := by
    rw [hlac]
    refine ⟨by simpa [stored] using h1, by simpa [stored] using h256, ?_, ?_, ?_⟩
    · intro n hn k hk
      rw [hall n hn, hall k hk]
    · intro n hn
      rw [hall n hn]; exact hm
    · show (frames.map List.length).sum < 2 ^ 32
      rw [sum_const _ m hall, List.length_map]; exact htot
  obtain ⟨hd, e1, _, e3⟩ := readBlock_bytes simple .plain h frames ⟨ht, hlo, hhi⟩ trivial
    (fun f hf => by rw [hsz f hf]; exact hm) hok rest (Or.inl (by rw [hlac]; simp))
  refine ⟨_, ?_, e3⟩
  unfold writeBlock
  rw [e1, frameSizes_eq .plain frames trivial]
  simp only [stored]
  have hne : frames.map List.length ≠ [] := by
    intro hx
    have := congrArg List.length hx
    simp at this
    subst this
    simp at h1
  rcases writeLace_cases h.lacing (frames.map List.length) hne with ⟨_, hw⟩ | ⟨hw, _⟩
  · rw [hw, bind_ok]; rfl
  · rw [laceHead_length, hlac] at hw
    simp only [laceRoom] at hw
    omega

example : writeBlock true .plain ⟨1, 0, true, false, false, .fixed⟩ [[1, 2], [3, 4]]
    = .ok [0x81, 0, 0, 0x84, 1, 1, 2, 3, 4] := by decide +kernel

/-! ### C33 -/

/-- Full statement of C33: what `writeAuto` writes for 1 to 256 frames is read back, for
every encoding that inverts. -/
def AutoLossFree : Prop :=
  ∀ (simple : Bool) (enc : Enc) (h : Head) (frames : List Bytes) (bytes : Bytes),
    h.track < 0x4000 → -32768 ≤ h.time → h.time < 32768 → 1 ≤ frames.length → frames.length ≤ 256 →
    (∀ f ∈ frames, f.length < 2 ^ 20) → EncOk enc frames → writeAuto simple enc h frames = .ok bytes →
    ∃ b, readBlock simple enc bytes bytes.length = .ok b ∧ b.sizes = frames.map List.length ∧ b.data = frames.flatten

/-- A small compressor: it shortens `[1, 1]` and makes everything else one byte longer. -/
def toyDeflate (f : Bytes) : Bytes := if f = [1, 1] then [0] else 1 :: f

/-- Its inverse. -/
def toyInflate : Bytes → Option Bytes
  | [0] => some [1, 1]
  | 1 :: f => some f
  | _ => none

theorem toy_inverse (f : Bytes) : toyInflate (toyDeflate f) = some f := by
  unfold toyDeflate
  by_cases h : f = [1, 1]
  · rw [if_pos h, h]; rfl
  · rw [if_neg h]; rfl

/-- C33 is false on a compressed track: frames of equal length get fixed-size lacing although
their compressed sizes differ, and the block cannot be read back. -/
theorem C33_auto_lossless_counterexample : ¬ AutoLossFree := by
  intro h
  have hw : writeAuto true (.zlib toyDeflate toyInflate true) ⟨1, 0, true, false, false, .none⟩ [[1, 1], [2, 2]]
      = .ok [0x81, 0, 0, 0x84, 1, 0, 1, 2, 2] := by decide +kernel
  obtain ⟨b, hb, _⟩ := h true (.zlib toyDeflate toyInflate true) ⟨1, 0, true, false, false, .none⟩ [[1, 1], [2, 2]] _
    (by decide) (by decide) (by decide) (by decide) (by decide) (by decide)
    (fun _ => ⟨toy_inverse, by decide⟩) hw
  have : readBlock true (.zlib toyDeflate toyInflate true) [0x81, 0, 0, 0x84, 1, 0, 1, 2, 2]
      ([0x81, 0, 0, 0x84, 1, 0, 1, 2, 2] : Bytes).length = .err := by decide +kernel
  rw [this] at hb
  simp at hb

/-- C33, what holds: for 1 to 256 frames below 2^27 bytes in a block below 4 GiB, without
encoding or with header stripping of frames that start with the header, or with any encoding
under which frames of equal length keep equal lengths, the automatic choice writes the block
without leaving its buffer, the data size announced is the number of bytes written, and
reading restores every frame. (With zlib no frame may be empty, see C163. The only excluded block is a single stored frame of zero bytes
at the very end of the stream, see C29.) -/
theorem C33_auto_lossless_partial (simple : Bool) (enc : Enc) (h : Head) (frames : List Bytes) (rest : Bytes)
    (ht : h.track < 0x4000) (hlo : -32768 ≤ h.time) (hhi : h.time < 32768)
    (h1 : 1 ≤ frames.length) (h256 : frames.length ≤ 256)
    (hsz : ∀ f ∈ frames, f.length < 2 ^ 27) (hsz2 : ∀ f ∈ stored enc frames, f.length < 2 ^ 27)
    (htot : (stored enc frames).flatten.length + 4 * frames.length < 2 ^ 32) (henc : EncOk enc frames) (hfr : FramesOk enc frames)
    (heq : (∀ f ∈ frames, ∀ g ∈ frames, f.length = g.length) →
      ∀ f ∈ stored enc frames, ∀ g ∈ stored enc frames, f.length = g.length)
    (hne : 2 ≤ frames.length ∨ (stored enc frames).flatten ++ rest ≠ [] ∨ 0x80 ≤ h.track) :
    ∃ bytes, writeAuto simple enc h frames = .ok bytes ∧
      blockSize enc { h with lacing := bestLacing enc frames } frames = bytes.length ∧
      readBlock simple enc (bytes ++ rest) bytes.length
        = .ok ⟨{ h with key := simple && h.key, discard := simple && h.discard, lacing := bestLacing enc frames },
            frames.map List.length, frames.flatten⟩ := by
  have hcount : (stored enc frames).length = frames.length := by
    unfold stored; split <;> simp [stripped]
  generalize hns : (stored enc frames).map List.length = ns
  have hnsl : ns.length = frames.length := by rw [← hns, List.length_map, hcount]
  have hns_lt : ∀ n ∈ ns, n < 2 ^ 27 := by
    intro n hn
    rw [← hns] at hn
    obtain ⟨f, hf, rfl⟩ := List.mem_map.1 hn
    exact hsz2 f hf
  have hns_sum : ns.sum = (stored enc frames).flatten.length := by rw [← hns, flatten_length]
  have hfs := frameSizes_eq enc frames henc
  rw [hns] at hfs
  have hnne : ns ≠ [] := by intro hx; rw [hx] at hnsl; simp at hnsl; omega
  -- the lacing chosen carries the sizes and fits its buffer
  have key : LaceOk (bestLacing enc frames) ns ∧
      (laceHead (bestLacing enc frames) (ints ns)).length ≤ laceRoom (bestLacing enc frames) ns.length ∧
      (bestLacing enc frames = .none → frames.length ≤ 1) := by
    unfold bestLacing
    by_cases c1 : frames.length ≤ 1
    · rw [if_pos c1]
      refine ⟨⟨by omega, fun n hn => by have := hns_lt n hn; omega⟩, ?_, fun _ => c1⟩
      rw [laceHead_length]; simp
    rw [if_neg c1]
    by_cases c2 : frames.all (fun f => f.length == (frames.headD []).length) = true
    · rw [if_pos c2]
      have hall : ∀ f ∈ frames, ∀ g ∈ frames, f.length = g.length := by
        intro f hf g hg
        rw [List.all_eq_true] at c2
        have a1 := c2 f hf
        have a2 := c2 g hg
        simp only [beq_iff_eq] at a1 a2
        omega
      have hall2 := heq hall
      refine ⟨⟨by omega, by omega, ?_, fun n hn => by have := hns_lt n hn; omega, by omega⟩, ?_, by simp⟩
      · intro n hn m hm
        rw [← hns] at hn hm
        obtain ⟨f, hf, rfl⟩ := List.mem_map.1 hn
        obtain ⟨g, hg, rfl⟩ := List.mem_map.1 hm
        exact hall2 f hf g hg
      · rw [laceHead_length]; simp only [laceRoom]; omega
    rw [if_neg c2]
    simp only [hfs]
    match ns, hnsl, hns_lt, hnne with
    | s :: ss, hnsl, hns_lt, hnne =>
      have hdl : ∀ n ∈ (s :: ss).dropLast, n ∈ s :: ss := fun n hn => List.dropLast_subset _ hn
      have hss : ss ≠ [] := by intro hx; subst hx; simp at hnsl; omega
      have edl : (s :: ss).dropLast = s :: ss.dropLast := List.dropLast_cons_of_ne_nil hss
      have hr := codedSizeLength_le4 s (hns_lt s (by simp))
      have hsslen : ss.length = frames.length - 1 := by simp at hnsl; omega
      by_cases c3 : ((ints (s :: ss)).dropLast.flatMap xiphSize).length <
          codedSizeLength ((ints (s :: ss)).headD 0) 0 true +
            ebmlEstimate (xiphRest ((ints (s :: ss)).dropLast.getLastD 0)) (ints (s :: ss)).dropLast.tail
      · rw [if_pos c3]
        refine ⟨⟨by omega, by omega, fun n hn => by have := hns_lt n hn; omega⟩, ?_, by simp⟩
        rw [laceHead_length]
        simp only [laceRoom]
        rw [ints_dropLast, xiph_flat, xiph_flat_length, edl] at c3
        rw [edl]
        have etl : (ints (s :: ss.dropLast)).tail = ints ss.dropLast := rfl
        have ehd : (ints (s :: ss)).headD 0 = (s : Int) := rfl
        rw [etl, ehd, ints_getLastD] at c3
        generalize hd : xiphRest (((s :: ss.dropLast).getLastD 0 : Nat) : Int) = d at c3
        have hdb : d.natAbs ≤ 254 := by
          rw [← hd]; unfold xiphRest
          rw [if_neg (by omega)]; omega
        have e5 := ebmlEstimate_le5 (ints ss.dropLast) d
        have hl : (ints ss.dropLast).length = frames.length - 2 := by
          rw [ints_length, List.length_dropLast]; omega
        have hb := sum_le_255 (s :: ss.dropLast)
        generalize hx : (List.map (fun s => s / 255 + 1) (s :: ss.dropLast)).sum = X at *
        have hsum2 : (s :: ss.dropLast).sum = s + ss.dropLast.sum := by simp
        have e3 := ebmlEstimate_le3 ss.dropLast d (by omega)
        have hl2 : ss.dropLast.length = frames.length - 2 := by rw [List.length_dropLast]; omega
        simp only [List.length_cons]
        omega
      · rw [if_neg c3]
        refine ⟨⟨by omega, by omega, hns_lt, by omega⟩, ?_, by simp⟩
        rw [laceHead_length]
        have g2 := ebmlLen_le ss.dropLast s (hns_lt s (by simp)) (by
          intro n hn
          exact hns_lt n (List.mem_cons_of_mem _ (List.dropLast_subset _ hn)))
        simp only [laceRoom, List.length_cons, List.length_dropLast] at *
        omega
  obtain ⟨k1, k2, k3⟩ := key
  generalize hlac : bestLacing enc frames = lac at *
  obtain ⟨hd, e1, _, e3⟩ := readBlock_bytes simple enc { h with lacing := lac } frames ⟨ht, hlo, hhi⟩ henc
    (fun f hf => by have := hsz f hf; omega) (by rw [hns]; exact k1) rest (by
      rcases hne with hne | hne | hne
      · left
        intro hx
        have := k3 hx
        omega
      · right; left; exact hne
      · right; right; exact hne)
  have hwr : writeBlock simple enc { h with lacing := lac } frames
      = .ok (hd ++ laceHead lac (frames.map (frameSize enc)) ++ (stored enc frames).flatten) := by
    unfold writeBlock
    rw [e1, writeFrames_ok enc frames henc hfr]
    simp only
    rcases writeLace_cases lac ns hnne with ⟨_, hw⟩ | ⟨hw, _⟩
    · rw [hfs, hw, bind_ok, bind_ok]
    · omega
  refine ⟨_, by unfold writeAuto; rw [hlac]; exact hwr, ?_, e3⟩
  exact blockSize_eq simple enc _ frames _ hwr k3

/-- Frames of three different lengths on an unencoded track. -/
example : writeAuto false .plain ⟨200, -1, false, false, false, .none⟩ [[1, 2, 3], [], [4]]
    = .ok [0x40, 200, 0xFF, 0xFF, 0x06, 2, 0x83, 0xBC, 1, 2, 3, 4] := by decide +kernel

/-! ### C34 -/

/-- C34. Whenever a block is written, the data size announced for it is the number of bytes
written: every encoding, lacing, track number and frame list. (A block without lacing holds
at most one frame, which the code asserts.) -/
theorem C34_announced_size (simple : Bool) (enc : Enc) (h : Head) (frames : List Bytes) (bytes : Bytes)
    (hw : writeBlock simple enc h frames = .ok bytes) (hn : h.lacing = .none → frames.length ≤ 1) :
    blockSize enc h frames = bytes.length :=
  blockSize_eq simple enc h frames bytes hw hn

example : blockSize (.strip [1] true) ⟨1, 0, true, false, false, .xiph⟩ [[1, 2], [1]] = 7 ∧
    writeBlock true (.strip [1] true) ⟨1, 0, true, false, false, .xiph⟩ [[1, 2], [1]]
      = .ok [0x81, 0, 0, 0x82, 1, 1, 2] := by decide +kernel

/-! ### C35 -/

/-- Full statement of C35: the lace head fits the buffer allocated for it. -/
def LaceFits : Prop :=
  ∀ (lac : Lacing) (ns : List Nat), ns ≠ [] → (∀ n ∈ ns, n < 2 ^ 31) →
    (laceHead lac (ints ns)).length ≤ laceRoom lac ns.length

/-- C35 is false: Xiph lacing of a frame of 2300 bytes and another needs 12 bytes, 9 are
allocated. -/
theorem C35_lace_fits_counterexample : ¬ LaceFits := by
  intro h
  exact absurd (h .xiph [2300, 1] (by decide) (by decide)) (by decide +kernel)

/-- C35 is false with EBML lacing too: six frames of alternating sizes 2^29 and 0. -/
theorem C35_lace_fits_ebml_counterexample :
    laceRoom .ebml 7 < (laceHead .ebml (ints [2 ^ 29, 0, 2 ^ 29, 0, 2 ^ 29, 0, 2 ^ 29])).length := by decide +kernel

/-- C35, what holds, for every frame list: fixed-size lacing always fits; Xiph lacing fits
exactly when its size codes take at most four bytes per frame; EBML lacing fits when frames
are below 2^27 bytes. -/
theorem C35_lace_fits_partial (ns : List Nat) (hne : ns ≠ []) :
    ((laceHead .fixed (ints ns)).length ≤ laceRoom .fixed ns.length) ∧
    ((laceHead .xiph (ints ns)).length ≤ laceRoom .xiph ns.length ↔
      (ns.dropLast.map fun s => s / 255 + 1).sum ≤ 4 * ns.length) ∧
    ((∀ n ∈ ns, n < 2 ^ 27) → (laceHead .ebml (ints ns)).length ≤ laceRoom .ebml ns.length) := by
  refine ⟨?_, ?_, ?_⟩
  · rw [laceHead_length]; simp only [laceRoom]; omega
  · rw [laceHead_length]; simp only [laceRoom]; omega
  · intro hlt
    rw [laceHead_length]
    match ns, hne with
    | s :: ss, _ =>
      have g1 := codedSizeLength_le4 s (hlt s (by simp))
      have g2 := ebmlLen_le ss.dropLast s (hlt s (by simp)) (by
        intro n hn
        exact hlt n (List.mem_cons_of_mem _ (List.dropLast_subset _ hn)))
      simp only [laceRoom, List.length_cons, List.length_dropLast] at *
      omega

example : (laceHead .xiph (ints [1000, 1000, 3])).length = 9 ∧ laceRoom .xiph 3 = 13 := by decide +kernel

/-! ### C36 -/

/-- Full statement of C36. -/
def FrameCountPreserved : Prop :=
  ∀ (simple : Bool) (h : Head) (frames : List Bytes) (bytes : Bytes) (b : Blk),
    h.time = 0 → h.track < 0x4000 → frames ≠ [] → writeAuto simple .plain h frames = .ok bytes →
    readBlock simple .plain bytes bytes.length = .ok b → b.sizes.length = frames.length

/-- C36 is false: a block of 257 frames of one byte is written and read back as one frame. -/
theorem C36_frame_count_counterexample : ¬ FrameCountPreserved := by
  intro h
  have h1 : ∃ bytes, writeAuto true .plain ⟨1, 0, true, false, false, .none⟩ (List.replicate 257 [5]) = .ok bytes ∧
      ∃ b, readBlock true .plain bytes bytes.length = .ok b ∧ b.sizes = [257] := by
    refine ⟨[0x81, 0, 0, 0x84, 0] ++ List.replicate 257 5, by decide +kernel, ⟨⟨1, 0, true, false, false, .fixed⟩, [257], List.replicate 257 5⟩, by decide +kernel, rfl⟩
  obtain ⟨bytes, hw, b, hr, hs⟩ := h1
  have := h true _ _ bytes b rfl (by decide) (by decide) hw hr
  rw [hs, List.length_replicate] at this
  exact absurd this (by decide)

/-- C36, what holds, for every encoding, lacing and number of frames: a block that was written
with a lace and can be read has the number of frames written, modulo 256; so the count is
preserved exactly up to 256 frames. -/
theorem C36_frame_count_partial (simple : Bool) (enc : Enc) (h : Head) (frames : List Bytes) (bytes rest : Bytes)
    (n : Nat) (b : Blk) (hlo : -32768 ≤ h.time) (hhi : h.time < 32768) (hlac : h.lacing ≠ .none)
    (hw : writeBlock simple enc h frames = .ok bytes) (hr : readBlock simple enc (bytes ++ rest) n = .ok b) :
    b.sizes.length = (frames.length - 1) % 256 + 1 ∧ (b.sizes.length = frames.length ↔ frames.length ≤ 256) := by
  unfold writeBlock at hw
  cases hrh : renderHead simple h with
  | none => rw [hrh] at hw; simp at hw
  | some hd =>
    rw [hrh] at hw
    simp only at hw
    obtain ⟨l, hl, hw⟩ := bind_eq_ok hw
    obtain ⟨p, hp, hw⟩ := bind_eq_ok hw
    simp only [Out.ok.injEq] at hw
    subst hw
    obtain ⟨ns, e1, e2⟩ := writeFrames_sizes enc frames p hp
    have hcount : frames.length = ns.length := by
      have := congrArg List.length e1
      simpa [ints] using this
    rw [e1] at hl
    obtain ⟨el, hne⟩ := writeLace_ok _ _ _ hl
    have hne := hne hlac
    have hne1 : 1 ≤ ns.length := by
      cases ns with
      | nil => exact absurd rfl hne
      | cons a as => simp
    obtain ⟨c, tl, hlc⟩ : ∃ c tl, l = c :: tl ∧ c = UInt8.ofNat ((ns.length - 1) % 256) := by
      rw [el]
      cases hh : h.lacing with
      | none => exact absurd hh hlac
      | _ => exact ⟨_, _, rfl, by rw [ints_length]⟩
    obtain ⟨hlc, hc⟩ := hlc
    have htr : h.track < 0x4000 := by
      apply Classical.byContradiction
      intro hx
      unfold renderHead at hrh
      rw [if_neg (by omega), if_neg (by omega)] at hrh
      simp at hrh
    obtain ⟨hd', f1, f2, f3⟩ := parseHead_renderHead simple h htr hlo hhi (l ++ p ++ rest) (Or.inl (by rw [hlc]; simp))
    rw [hrh] at f1
    have : hd' = hd := (Option.some.inj f1).symm
    subst this
    unfold readBlock at hr
    have ea : hd' ++ l ++ p ++ rest = hd' ++ (l ++ p ++ rest) := by simp [List.append_assoc]
    rw [ea, f3] at hr
    simp only at hr
    obtain ⟨q, hq, hr⟩ := bind_eq_ok hr
    obtain ⟨d, hdd, hr⟩ := bind_eq_ok hr
    simp only [Out.ok.injEq] at hr
    have hql := parseSizes_length _ _ _ _ _ hq
    rw [if_neg (by exact hlac), ← f2] at hql
    have ecb : countByte (hd' ++ (l ++ p ++ rest)) hd'.length = c := by
      rw [hlc]
      simp only [List.cons_append]
      exact countByte_at _ _ _
    rw [ecb, hc] at hql
    have hdl : d.1.length = q.1.length := by
      match enc, hdd with
      | .plain, hdd =>
        obtain ⟨r, _, hh⟩ := bind_eq_ok hdd
        simp only [Out.ok.injEq] at hh
        rw [← hh]
      | .strip hdr ob, hdd =>
        simp only [readData] at hdd
        by_cases hb : bufSize (q.1.map fun n : Nat => u32 ((n : Int) + hdr.length)) < 0
        · rw [if_pos hb] at hdd; simp at hdd
        rw [if_neg hb] at hdd
        obtain ⟨r, _, hh⟩ := bind_eq_ok hdd
        simp only [Out.ok.injEq] at hh
        rw [← hh]; simp
      | .zlib df inf false, hdd =>
        obtain ⟨r, _, hh⟩ := bind_eq_ok hdd
        simp only [Out.ok.injEq] at hh
        rw [← hh]
      | .zlib df inf true, hdd =>
        obtain ⟨r, _, hh⟩ := bind_eq_ok hdd
        exact readZlib_length inf q.1 r d hh
    have hres : b.sizes.length = (frames.length - 1) % 256 + 1 := by
      rw [← hr]
      simp only
      rw [hdl, hql, hcount]
      simp
    refine ⟨hres, ?_⟩
    rw [hres]
    omega

/-! ### C37 -/

/-- Full statement of C37: header stripping restores every frame that starts with the header
and refuses every other frame. -/
def StripLossFree : Prop :=
  ∀ (hdr : Bytes) (onBlocks : Bool) (h : Head) (frames : List Bytes),
    h.track < 0x4000 → h.time = 0 → LaceOk h.lacing (frames.map List.length) →
    ((∀ f ∈ frames, f.take hdr.length = hdr) →
      ∀ bytes, writeBlock true (.strip hdr onBlocks) h frames = .ok bytes →
        ∃ b, readBlock true (.strip hdr onBlocks) (bytes ++ [0]) bytes.length = .ok b ∧
          b.sizes = frames.map List.length ∧ b.data = frames.flatten) ∧
    ((∃ f ∈ frames, f.take hdr.length ≠ hdr) → writeFrames (.strip hdr onBlocks) frames = .err)

/-- C37 is false: when the encoding covers only the codec private data, frames are written
whole but read with the header put in front. -/
theorem C37_strip_counterexample : ¬ StripLossFree := by
  intro h
  have h1 := (h [7] false ⟨1, 0, true, false, false, .none⟩ [[7, 8]] (by decide) rfl
    ⟨rfl, by decide⟩).1 (by decide) [0x81, 0, 0, 0x80, 7, 8] (by decide +kernel)
  obtain ⟨b, hb, hs, _⟩ := h1
  have : readBlock true (.strip [7] false) ([0x81, 0, 0, 0x80, 7, 8] ++ [0]) ([0x81, 0, 0, 0x80, 7, 8] : Bytes).length
      = .ok ⟨⟨1, 0, true, false, false, .none⟩, [3], [7, 7, 8]⟩ := by decide +kernel
  rw [this] at hb
  simp only [Out.ok.injEq] at hb
  subst hb
  simp at hs

/-- A second witness: a frame shorter than the header is not refused when the header continues
in the next frame; the amount to write then wraps around and data outside the block is
written. -/
theorem C37_strip_short_counterexample :
    writeFrames (.strip [7, 8] true) [[7], [8, 9, 9]] = .bad := by decide +kernel

/-- C37, what holds: for an encoding that covers blocks and frames not shorter than the
header, writing is refused exactly when a frame does not start with the header; otherwise
each frame loses exactly the header, and reading the block restores all frames. -/
theorem C37_strip_partial (simple : Bool) (hdr : Bytes) (h : Head) (frames : List Bytes) (rest : Bytes)
    (ht : h.track < 0x4000) (hlo : -32768 ≤ h.time) (hhi : h.time < 32768)
    (hlen : ∀ f ∈ frames, hdr.length ≤ f.length) (hsz : ∀ f ∈ frames, f.length < 2 ^ 31) :
    ((∃ f ∈ frames, f.take hdr.length ≠ hdr) → writeFrames (.strip hdr true) frames = .err) ∧
    ((∀ f ∈ frames, f.take hdr.length = hdr) →
      writeFrames (.strip hdr true) frames = .ok (frames.map (List.drop hdr.length)).flatten ∧
      (LaceOk h.lacing (frames.map fun f => f.length - hdr.length) → (h.lacing = .none → rest ≠ []) →
        ∃ hd, renderHead simple h = some hd ∧
          let bytes := hd ++ laceHead h.lacing (frames.map (frameSize (.strip hdr true))) ++
            (frames.map (List.drop hdr.length)).flatten
          readBlock simple (.strip hdr true) (bytes ++ rest) bytes.length
            = .ok ⟨{ h with key := simple && h.key, discard := simple && h.discard },
                frames.map List.length, frames.flatten⟩)) := by
  constructor
  · intro hbad
    exact stripFrames_err hdr frames hlen hbad
  · intro hall
    refine ⟨stripFrames_ok hdr frames hall, ?_⟩
    intro hl hr
    have e : (stored (.strip hdr true) frames).map List.length = frames.map fun f => f.length - hdr.length := by
      simp [stored, stripped]
    obtain ⟨hd, e1, _, e3⟩ := readBlock_bytes simple (.strip hdr true) h frames ⟨ht, hlo, hhi⟩ ⟨rfl, hall⟩ hsz
      (by rw [e]; exact hl) rest (by
        by_cases hn : h.lacing = .none
        · right; left
          have := hr hn
          intro hx
          simp only [List.append_eq_nil_iff] at hx
          exact this hx.2
        · left; exact hn)
    exact ⟨hd, e1, e3⟩

example : writeFrames (.strip [7, 8] true) [[7, 8, 1], [7, 8]] = .ok [1] ∧
    writeFrames (.strip [7, 8] true) [[7, 8, 1], [7, 9]] = .err := by decide +kernel

/-! ### C38 -/

/-- Full statement of C38: the frame sizes of an accepted block add up to its data. -/
def SizesAddUp : Prop :=
  ∀ (simple : Bool) (data : Bytes) (dataSize : Nat) (b : Blk),
    readBlock simple .plain data dataSize = .ok b → b.sizes.sum = b.data.length

/-- C38 is false: a Xiph lace announcing 200 bytes in a block of 4 payload bytes is accepted,
with a second frame of 2^32-196 bytes. -/
theorem C38_sizes_add_up_counterexample : ¬ SizesAddUp := by
  intro h
  have := h true [0x81, 0, 0, 0x82, 1, 200, 1, 2, 3, 4] 10
    ⟨⟨1, 0, true, false, false, .xiph⟩, [200, 2 ^ 32 - 196], [1, 2, 3, 4]⟩ (by decide +kernel)
  exact absurd this (by decide)

/-- C38, what holds for every block that is read without encoding: the sizes add up to the
data exactly when none of them exceeds 2^31 (a 32-bit wrap-around); and, except for
fixed-size lacing, sizes plus headers are the announced size modulo 2^32. -/
theorem C38_sizes_add_up_partial (simple : Bool) (data : Bytes) (dataSize : Nat) (b : Blk)
    (hr : readBlock simple .plain data dataSize = .ok b) :
    (b.sizes.sum = b.data.length ↔ ∀ n ∈ b.sizes, n < 2 ^ 31) ∧
    ∃ loc, b.data = (data.drop loc).take b.data.length ∧ loc + b.data.length ≤ max loc data.length ∧
      (b.head.lacing ≠ .fixed → ((b.sizes.sum + loc : Nat) : Int) % 2 ^ 32 = (dataSize : Int) % 2 ^ 32) := by
  unfold readBlock at hr
  cases hp : parseHead simple data with
  | none => rw [hp] at hr; simp at hr
  | some p =>
    obtain ⟨h, hs⟩ := p
    rw [hp] at hr
    simp only at hr
    obtain ⟨q, hq, hr⟩ := bind_eq_ok hr
    obtain ⟨d, hd, hr⟩ := bind_eq_ok hr
    simp only [Out.ok.injEq] at hr
    obtain ⟨raw, hraw, hd⟩ := bind_eq_ok hd
    simp only [Out.ok.injEq] at hd
    subst hd
    subst hr
    unfold readPlain at hraw
    by_cases hb : bufSize q.1 < 0
    · rw [if_pos hb] at hraw; simp at hraw
    rw [if_neg hb] at hraw
    simp only at hraw
    by_cases hb2 : (((data.drop q.2).take (bufSize q.1).toNat).length : Int) < bufSize q.1
    · rw [if_pos hb2] at hraw; simp at hraw
    rw [if_neg hb2] at hraw
    simp only [Out.ok.injEq] at hraw
    have hlen : (raw.length : Int) = bufSize q.1 := by
      rw [← hraw]
      simp only [List.length_take, List.length_drop] at *
      omega
    refine ⟨?_, q.2, ?_, ?_, ?_⟩
    · simp only
      rw [← (bufSize_iff q.1).1, ← hlen]
      omega
    · simp only
      have : raw.length = (bufSize q.1).toNat := by omega
      rw [this, hraw]
    · simp only
      rw [← hraw]
      simp only [List.length_take, List.length_drop]
      omega
    · intro hl
      exact parseSizes_sum _ _ _ _ _ hl hq

/-- Reading a truncated Xiph lace never returns: the last byte of the stream is 0xFF and is
taken again for ever. -/
theorem C38_truncated_lace_hangs :
    readBlock true .plain [0x81, 0, 0, 0x82, 1, 0xFF] 600 = .hang := by decide +kernel

/-- A lace of one frame with EBML lacing stores a size outside the size list. -/
theorem C38_single_ebml_lace_out_of_bounds :
    readBlock true .plain [0x81, 0, 0, 0x86, 0, 0x81, 5] 7 = .bad := by decide +kernel

end Verif.Mkv
