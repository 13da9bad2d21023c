import Verif.Mkv.Life
import Verif.Mkv.BlockRound
/-!
Properties C109 and C110: reading, releasing and seeking to the frames of a block.
-/
set_option linter.unusedSimpArgs false
namespace Verif.Mkv
open Verif Verif.Ebml

/-- The frames a read block holds, as a user cuts them out of its data. -/
def cutFrames : List Nat → Bytes → List Bytes
  | [], _ => []
  | n :: ns, d => d.take n :: cutFrames ns (d.drop n)

theorem cutFrames_flatten (fs : List Bytes) : cutFrames (fs.map List.length) fs.flatten = fs := by
  induction fs with
  | nil => rfl
  | cons f fs ih => simp [cutFrames, ih]

/-- C109 as hoped for: whatever a program does with a block, linking it with its track for reading and
writing and reading and releasing the frames in any order, each time it has read the frames they are
the ones stored. -/
def FramesStay : Prop :=
  ∀ (enc : Enc) (frames : List Bytes) (pre post : Bytes) (ops : List LOp) (b : LBlk), EncOk enc frames →
    (∀ f ∈ frames, f.length < 2 ^ 31) → (∀ f ∈ stored enc frames, f.length < 2 ^ 31) →
    (∀ t, (∃ both, LOp.linkRead t both ∈ ops) ∨ .linkWrite t ∈ ops → t = .enc enc) →
    runOps (pre ++ (stored enc frames).flatten ++ post) pre.length (.linkRead (.enc enc) false :: ops)
      (.fresh ((stored enc frames).map List.length)) = .ok b →
    b.valueSet = true → cutFrames b.sizes b.data = frames

/-- C109 is false: when a block of a track with a stripped header is linked for reading and then for
writing, the length of the header is added to its frames twice and bytes behind the frame are read. -/
theorem C109_write_link_counterexample : ¬ FramesStay := by
  intro h
  have := h (.strip [7] true) [[7, 8]] [1] [9, 9] [.linkWrite (.enc (.strip [7] true)), .read]
    ⟨[3], [3], [7, 8, 9], true, some (.enc (.strip [7] true)), some (.enc (.strip [7] true)), false⟩
    (by simp [EncOk]) (by simp) (by simp [stored, stripped]) (by
      intro t ht
      rcases ht with ⟨both, ht⟩ | ht
      · simp at ht
      · simpa using ht) rfl rfl
  simp [cutFrames] at this

/-- A second witness: a block that is only to be written cannot be linked with its track, the code
follows the NULL pointer of the missing track for reading (it is an assertion in debug builds). -/
theorem C109_write_only_counterexample (t : Track) (sizes : List Nat) : linkWrite t (.fresh sizes) = .bad := rfl

/-- A third: a track with an empty ContentEncodings element makes linking follow a NULL pointer. -/
theorem C109_empty_encodings_counterexample (both : Bool) (sizes : List Nat) : linkRead .empty both (.fresh sizes) = .bad := rfl

/-- The two states of a block in use: not read, with the sizes `linked`, and read. Blocks of plain tracks
need no track for writing. -/
def Life (enc : Enc) (linked : List Nat) (frames : List Bytes) (b : LBlk) : Prop :=
  b.readTrack = some (.enc enc) ∧ (enc = .plain ∨ b.writeTrack.isSome) ∧
  ((b.valueSet = false ∧ b.sizes = linked ∧ b.sizesIn = [] ∧ b.data = []) ∨
   (b.valueSet = true ∧ b.sizes = frames.map List.length ∧ b.data = frames.flatten ∧
     (b.sizesIn = linked ∨ b.sizesIn = [] ∧ b.sizes = linked)))

/-- The sizes of a linked block. -/
def linkedSizes (enc : Enc) (frames : List Bytes) : List Nat :=
  match enc with
  | .strip _ _ => frames.map List.length
  | _ => (stored enc frames).map List.length

theorem linked_length (enc : Enc) (frames : List Bytes) : (linkedSizes enc frames).length = frames.length := by
  cases enc with
  | plain => simp [linkedSizes, stored]
  | strip hdr on => simp [linkedSizes]
  | zlib d i on => cases on <;> simp [linkedSizes, stored]

theorem readFrames_life (enc : Enc) (frames : List Bytes) (pre post : Bytes) (b : LBlk) (h : EncOk enc frames)
    (hlt : ∀ f ∈ frames, f.length < 2 ^ 31) (hst : ∀ f ∈ stored enc frames, f.length < 2 ^ 31)
    (hb : Life enc (linkedSizes enc frames) frames b) :
    ∃ b', readFrames (pre ++ ((stored enc frames).flatten ++ post)) pre.length b = .ok b' ∧
      Life enc (linkedSizes enc frames) frames b' ∧ b'.valueSet = true := by
  obtain ⟨h1, h2, h3⟩ := hb
  rcases h3 with ⟨v, hs, hi, hd⟩ | ⟨v, hs, hd, hi⟩
  · unfold readFrames
    rw [v, h1]
    simp only [Bool.false_eq_true, if_false]
    match enc, h with
    | .plain, _ =>
      simp only [linkedSizes, stored] at hs ⊢
      rw [hs, readPlain_ok frames hlt]
      exact ⟨_, rfl, ⟨rfl, h2, Or.inr ⟨rfl, rfl, rfl, Or.inr ⟨hi, rfl⟩⟩⟩, rfl⟩
    | .strip hdr true, h =>
      simp only [linkedSizes, stored] at hs ⊢
      rw [hs, bufSize_ok _ (by
        intro n hn
        obtain ⟨f, hf, rfl⟩ := List.mem_map.1 hn
        exact hlt f hf), if_neg (by omega), List.drop_left' rfl, readStrip_ok hdr frames h.2 hlt]
      exact ⟨_, rfl, ⟨rfl, h2, Or.inr ⟨rfl, rfl, rfl, Or.inl rfl⟩⟩, rfl⟩
    | .zlib d i true, h =>
      simp only [linkedSizes, stored] at hs hst ⊢
      rw [hs, readPlain_ok (frames.map d) hst, bind_ok, readZlib_ok d i (h rfl).1 frames hlt
        (fun f hf => hst _ (List.mem_map_of_mem hf))]
      exact ⟨_, rfl, ⟨rfl, h2, Or.inr ⟨rfl, rfl, rfl, Or.inl rfl⟩⟩, rfl⟩
    | .zlib d i false, _ =>
      simp only [linkedSizes, stored] at hs ⊢
      rw [hs, readPlain_ok frames hlt]
      exact ⟨_, rfl, ⟨rfl, h2, Or.inr ⟨rfl, rfl, rfl, Or.inr ⟨hi, rfl⟩⟩⟩, rfl⟩
  · exact ⟨b, by unfold readFrames; rw [if_pos v], ⟨h1, h2, Or.inr ⟨v, hs, hd, hi⟩⟩, v⟩

theorem release_life (enc : Enc) (frames : List Bytes) (all : Bool) (b : LBlk)
    (hb : Life enc (linkedSizes enc frames) frames b) :
    ∃ b', release all b = .ok b' ∧ Life enc (linkedSizes enc frames) frames b' ∧ (all = true → b'.valueSet = false) := by
  obtain ⟨h1, h2, h3⟩ := hb
  unfold release
  by_cases hc : (!all && !b.timed) = true
  · rw [if_pos hc]
    exact ⟨b, rfl, ⟨h1, h2, h3⟩, fun ha => by simp [ha] at hc⟩
  · rw [if_neg hc]
    by_cases he : b.sizesIn = []
    · rw [if_pos he]
      refine ⟨_, rfl, ⟨h1, h2, Or.inl ⟨rfl, ?_, he, rfl⟩⟩, fun _ => rfl⟩
      rcases h3 with ⟨_, hs, _, _⟩ | ⟨_, hs, _, hi⟩
      · exact hs
      · rcases hi with hi | ⟨_, hi⟩
        · have hl := linked_length enc frames
          rw [← hi, he] at hl
          have : frames = [] := List.length_eq_zero_iff.1 hl.symm
          rw [← hi, he]
          show b.sizes = []
          rw [hs, this]; rfl
        · exact hi
    · rw [if_neg he]
      rcases h3 with ⟨_, _, hi, _⟩ | ⟨_, hs, _, hi⟩
      · exact absurd hi he
      · rcases hi with hi | ⟨hi, _⟩
        · have hl := linked_length enc frames
          have e : b.sizes.length = b.sizesIn.length := by rw [hi, hl, hs]; simp
          rw [if_neg (by omega)]
          refine ⟨_, rfl, ⟨h1, h2, Or.inl ⟨rfl, ?_, rfl, rfl⟩⟩, fun _ => rfl⟩
          show b.sizesIn ++ b.sizes.drop b.sizesIn.length = _
          rw [← e, List.drop_length, List.append_nil, hi]
        · exact absurd hi he

theorem first_link (enc : Enc) (both : Bool) (frames : List Bytes) (h : EncOk enc frames)
    (hlt : ∀ f ∈ frames, f.length < 2 ^ 31) (hboth : enc = .plain ∨ both = true) :
    ∃ b, linkRead (.enc enc) both (.fresh ((stored enc frames).map List.length)) = .ok b ∧
      Life enc (linkedSizes enc frames) frames b ∧ b.valueSet = false := by
  match enc, h with
  | .plain, _ => exact ⟨_, rfl, ⟨rfl, Or.inl rfl, Or.inl ⟨rfl, rfl, rfl, rfl⟩⟩, rfl⟩
  | .strip hdr true, h =>
    have hb : both = true := hboth.resolve_left (fun e => (by cases e))
    subst hb
    exact ⟨_, rfl, ⟨rfl, Or.inr rfl, Or.inl ⟨rfl, stripped_sizes hdr frames h.2 hlt, rfl, rfl⟩⟩, rfl⟩
  | .zlib d i on, _ =>
    have hb : both = true := hboth.resolve_left (fun e => (by cases e))
    subst hb
    exact ⟨_, rfl, ⟨rfl, Or.inr rfl, Or.inl ⟨rfl, rfl, rfl, rfl⟩⟩, rfl⟩

/-- The steps use the track of the block. -/
def OwnTrack (enc : Enc) (ops : List LOp) : Prop :=
  (∀ t both, LOp.linkRead t both ∈ ops → t = .enc enc) ∧ ∀ t, LOp.linkWrite t ∈ ops → t = .enc enc

theorem runOps_life (enc : Enc) (frames : List Bytes) (pre post : Bytes) (h : EncOk enc frames)
    (hlt : ∀ f ∈ frames, f.length < 2 ^ 31) (hst : ∀ f ∈ stored enc frames, f.length < 2 ^ 31) (ops : List LOp) :
    OwnTrack enc ops → ∀ b, Life enc (linkedSizes enc frames) frames b →
    ∃ b', runOps (pre ++ ((stored enc frames).flatten ++ post)) pre.length ops b = .ok b' ∧
      Life enc (linkedSizes enc frames) frames b' := by
  induction ops with
  | nil => intro _ b hb; exact ⟨b, rfl, hb⟩
  | cons o ops ih =>
    intro hown b hb
    have hown' : OwnTrack enc ops := ⟨fun t both hm => hown.1 t both (List.mem_cons_of_mem _ hm),
      fun t hm => hown.2 t (List.mem_cons_of_mem _ hm)⟩
    have step : ∃ b', o.run (pre ++ ((stored enc frames).flatten ++ post)) pre.length b = .ok b' ∧
        Life enc (linkedSizes enc frames) frames b' := by
      cases o with
      | linkRead t both =>
        have := hown.1 t both (by simp)
        subst this
        obtain ⟨h1, h2, h3⟩ := hb
        refine ⟨{ b with readTrack := some (.enc enc), writeTrack := if both then some (.enc enc) else b.writeTrack },
          by simp only [LOp.run, linkRead]; rw [if_pos (by rw [h1]; rfl)], rfl, ?_, h3⟩
        cases both
        · exact h2
        · exact Or.inr rfl
      | linkWrite t =>
        obtain ⟨h1, h2, h3⟩ := hb
        refine ⟨{ b with writeTrack := some t }, ?_, h1, Or.inr rfl, h3⟩
        simp only [LOp.run, linkWrite]
        by_cases hw : b.writeTrack.isSome = true
        · rw [if_pos hw]
        · rw [if_neg hw]
          have hp : enc = .plain := h2.resolve_right hw
          subst hp
          unfold checkCompression
          simp only [h1]
      | read =>
        obtain ⟨b', e, hb', _⟩ := readFrames_life enc frames pre post b h hlt hst hb
        exact ⟨b', e, hb'⟩
      | release all =>
        obtain ⟨b', e, hb', _⟩ := release_life enc frames all b hb
        exact ⟨b', e, hb'⟩
      | time known => exact ⟨_, rfl, hb⟩
    obtain ⟨b', e, hb'⟩ := step
    obtain ⟨b'', e', hb''⟩ := ih hown' b' hb'
    exact ⟨b'', by rw [runOps, e, bind_ok, e'], hb''⟩

/-- C109, what holds: when the track is plain, or the first link of the block is for reading and writing, as
`MATROSKA_LinkClusterBlocks` makes it, linking again, reading and releasing in any order never fails,
and whenever the frames have been read and not released they are those stored. -/
theorem C109_frames_stay_partial (enc : Enc) (frames : List Bytes) (pre post : Bytes) (both : Bool) (ops : List LOp)
    (hboth : enc = .plain ∨ both = true) (h : EncOk enc frames) (hlt : ∀ f ∈ frames, f.length < 2 ^ 31) (hst : ∀ f ∈ stored enc frames, f.length < 2 ^ 31)
    (hown : OwnTrack enc ops) :
    ∃ b, runOps (pre ++ (stored enc frames).flatten ++ post) pre.length (.linkRead (.enc enc) both :: ops)
        (.fresh ((stored enc frames).map List.length)) = .ok b ∧
      (b.valueSet = true → cutFrames b.sizes b.data = frames) ∧ (b.valueSet = false → b.data = []) := by
  obtain ⟨b0, e0, l0, _⟩ := first_link enc both frames h hlt hboth
  obtain ⟨b, e, hb⟩ := runOps_life enc frames pre post h hlt hst ops hown b0 l0
  refine ⟨b, ?_, ?_, ?_⟩
  · rw [List.append_assoc, runOps, LOp.run, e0, bind_ok, e]
  · intro hv
    rcases hb.2.2 with ⟨v, _⟩ | ⟨_, hs, hd, _⟩
    · rw [v] at hv; cases hv
    · rw [hs, hd]; exact cutFrames_flatten frames
  · intro hv
    rcases hb.2.2 with ⟨_, _, _, hd⟩ | ⟨v, _⟩
    · exact hd
    · rw [v] at hv; cases hv

/-- A read after anything leaves the frames there, and releasing everything leaves none. -/
theorem C109_read_and_release (enc : Enc) (frames : List Bytes) (pre post : Bytes) (both : Bool) (ops : List LOp)
    (hboth : enc = .plain ∨ both = true) (h : EncOk enc frames) (hlt : ∀ f ∈ frames, f.length < 2 ^ 31) (hst : ∀ f ∈ stored enc frames, f.length < 2 ^ 31)
    (hown : OwnTrack enc ops) :
    (∃ b, runOps (pre ++ (stored enc frames).flatten ++ post) pre.length (.linkRead (.enc enc) both :: (ops ++ [.read]))
        (.fresh ((stored enc frames).map List.length)) = .ok b ∧ b.valueSet = true ∧ cutFrames b.sizes b.data = frames) ∧
    ∃ b, runOps (pre ++ (stored enc frames).flatten ++ post) pre.length (.linkRead (.enc enc) both :: (ops ++ [.release true]))
        (.fresh ((stored enc frames).map List.length)) = .ok b ∧ b.valueSet = false ∧ b.data = [] := by
  obtain ⟨b0, e0, l0, _⟩ := first_link enc both frames h hlt hboth
  obtain ⟨b, e, hb⟩ := runOps_life enc frames pre post h hlt hst ops hown b0 l0
  have happ : ∀ (file : Bytes) (loc : Nat) (os : List LOp) (o : LOp) (x y : LBlk), runOps file loc os x = .ok y →
      runOps file loc (os ++ [o]) x = o.run file loc y := by
    intro file loc os
    induction os with
    | nil =>
      intro o x y hxy
      injection hxy with hxy
      subst hxy
      show ((o.run file loc x).bind fun z => Out.ok z) = _
      cases o.run file loc x <;> rfl
    | cons o' os ih =>
      intro o x y hxy
      simp only [runOps, List.cons_append] at hxy ⊢
      cases hx : o'.run file loc x with
      | ok z => rw [hx, bind_ok] at hxy; rw [bind_ok]; exact ih o z y hxy
      | err => rw [hx] at hxy; cases hxy
      | bad => rw [hx] at hxy; cases hxy
      | hang => rw [hx] at hxy; cases hxy
  constructor
  · obtain ⟨b', e', hb', v⟩ := readFrames_life enc frames pre post b h hlt hst hb
    refine ⟨b', ?_, v, ?_⟩
    · rw [List.append_assoc, runOps, LOp.run, e0, bind_ok, happ _ _ _ _ _ _ e]; exact e'
    · rcases hb'.2.2 with ⟨v', _⟩ | ⟨_, hs, hd, _⟩
      · rw [v] at v'; cases v'
      · rw [hs, hd]; exact cutFrames_flatten frames
  · obtain ⟨b', e', hb', v⟩ := release_life enc frames true b hb
    refine ⟨b', ?_, v rfl, ?_⟩
    · rw [List.append_assoc, runOps, LOp.run, e0, bind_ok, happ _ _ _ _ _ _ e]; exact e'
    · rcases hb'.2.2 with ⟨_, _, _, hd⟩ | ⟨v', _⟩
      · exact hd
      · rw [v rfl] at v'; cases v'

/-- The hypotheses can be met: two frames of a track with a stripped header, read, released, linked
for writing and read again. -/
example : ∃ b, runOps ([1] ++ [8, 9] ++ [5, 5]) 1
    [.linkRead (.enc (.strip [7] true)) true, .read, .release true, .linkWrite (.enc (.strip [7] true)), .read]
    (.fresh [1, 1]) = .ok b ∧ cutFrames b.sizes b.data = [[7, 8], [7, 9]] := by
  obtain ⟨h, _⟩ := C109_read_and_release (.strip [7] true) [[7, 8], [7, 9]] [1] [5, 5] true
    [.read, .release true, .linkWrite (.enc (.strip [7] true))] (Or.inr rfl) (by simp [EncOk]) (by simp) (by simp [stored, stripped])
    ⟨by intro t both hm; simp at hm, by intro t hm; simpa using hm⟩
  obtain ⟨b, e, _, hc⟩ := h
  exact ⟨b, e, hc⟩

/-! ### C110: seeking to a frame -/

/-- C110 as hoped for: `MATROSKA_BlockSkipToFrame` seeks to the first byte of the frame, for every block
whose head and sizes were read and which was linked with its track. `payload` starts at `pos`, `sizes`
are the sizes stored in the block and `off` is where the first frame starts. -/
def SeekRight : Prop :=
  ∀ (enc : Enc) (simple : Bool) (payload : Bytes) (size pos : Nat) (h : Head) (hs : Nat) (sizes : List Nat) (off : Nat)
    (b : LBlk) (n : Nat), parseHead simple payload = some (h, hs) → parseSizes h.lacing hs payload size = .ok (sizes, off) →
    linkRead (.enc enc) true (.fresh sizes) = .ok b → n < sizes.length →
    skipToFrame h pos (pos + off) b.sizes n = some (pos + off + (sizes.take n).sum)

/-- C110 is false: when a small track number is stored in two bytes, seeking to the only frame stops one
byte before it. -/
theorem C110_seek_counterexample : ¬ SeekRight := by
  intro h
  have := h .plain true [0x40, 5, 0, 0, 0, 9] 6 0 ⟨5, 0, false, false, false, .none⟩ 5 [1] 5 _ 0 (by decide) (by rfl) rfl (by simp)
  revert this
  decide

/-- A second witness: in a lace of a track with a stripped header the seek goes too far. -/
theorem C110_seek_strip_counterexample :
    ∃ (b : LBlk), parseHead true [0x81, 0, 0, 2, 1, 1, 8, 9] = some (⟨1, 0, false, false, false, .xiph⟩, 4) ∧
      parseSizes .xiph 4 [0x81, 0, 0, 2, 1, 1, 8, 9] 8 = .ok ([1, 1], 6) ∧
      linkRead (.enc (.strip [7] true)) true (.fresh [1, 1]) = .ok b ∧
      skipToFrame ⟨1, 0, false, false, false, .xiph⟩ 0 6 b.sizes 1 = some 8 := by
  refine ⟨_, by decide, by decide, rfl, by decide⟩

theorem parseHead_size (simple : Bool) (payload : Bytes) (h : Head) (hs : Nat) (hp : parseHead simple payload = some (h, hs)) :
    headSize h = hs ↔ (0x80 ≤ payload.headD 0 ∨ 0x80 ≤ h.track) := by
  unfold parseHead at hp
  split at hp
  · rename_i b0 b1 b2 b3 b4 _
    by_cases h0 : b0 &&& 0x80 ≠ 0
    · rw [if_pos h0] at hp
      injection hp with hp
      injection hp with e1 e2
      subst e1 e2
      have key : ∀ x : UInt8, x &&& 0x80 ≠ 0 → (x &&& 0x7F).toNat < 0x80 ∧ 0x80 ≤ x := by
        intro x
        have : ∀ n : Fin 256, (UInt8.ofNat n.val) &&& 0x80 ≠ 0 → ((UInt8.ofNat n.val) &&& 0x7F).toNat < 0x80 ∧ 0x80 ≤ (UInt8.ofNat n.val) := by
          decide +kernel
        have := this ⟨x.toNat, x.toNat_lt⟩
        simpa using this
      have := key b0 h0
      have ht : (parseFlags simple (b0 &&& 0x7F).toNat (load16 b1 b2) b3).track = (b0 &&& 0x7F).toNat := rfl
      unfold headSize
      rw [ht, if_pos this.1]
      simp [this.2]
    · rw [if_neg h0] at hp
      by_cases h1 : b0 &&& 0x40 = 0
      · rw [if_pos h1] at hp; cases hp
      · rw [if_neg h1] at hp
        injection hp with hp
        injection hp with e1 e2
        subst e1 e2
        have key : ∀ x : UInt8, ¬ x &&& 0x80 ≠ 0 → ¬ 0x80 ≤ x := by
          intro x
          have : ∀ n : Fin 256, ¬ (UInt8.ofNat n.val) &&& 0x80 ≠ 0 → ¬ 0x80 ≤ (UInt8.ofNat n.val) := by
            decide +kernel
          have := this ⟨x.toNat, x.toNat_lt⟩
          simpa using this
        have := key b0 h0
        unfold headSize
        simp only [List.headD_cons, this, false_or]
        generalize (parseFlags simple ((b0 &&& 0x3F).toNat * 256 + b1.toNat) (load16 b2 b3) b4).track = t
        by_cases ht : t < 0x80
        · rw [if_pos ht]; omega
        · rw [if_neg ht]; omega
  · cases hp

theorem u32_sum (k : Nat) (sizes : List Nat) (hlt : ∀ m ∈ sizes, m + k < 2 ^ 32) (n : Nat) (hn : n ≤ sizes.length) :
    ((sizes.map fun m : Nat => u32 ((m : Int) + k)).take n).sum = (sizes.take n).sum + n * k := by
  induction sizes generalizing n with
  | nil => simp only [List.length_nil] at hn; have : n = 0 := by omega
           subst this; simp
  | cons m ms ih =>
    cases n with
    | zero => simp
    | succ n =>
      have h0 := hlt m (by simp)
      have e : ((m : Int) + (k : Int)) = ((m + k : Nat) : Int) := by omega
      have := ih (fun x hx => hlt x (List.mem_cons_of_mem _ hx)) n (by simpa using hn)
      simp only [List.map_cons, List.take_succ_cons, List.sum_cons, this]
      rw [e, u32_of_lt _ h0, Nat.succ_mul]
      omega

/-- The number of bytes stripped from each frame. -/
def Enc.cut : Enc → Nat
  | .strip hdr _ => hdr.length
  | _ => 0

/-- C110, what holds exactly: for a block that is linked and not read, the seek is right if and only if the
block has no lace and its track number is stored in the shortest form, or it has a lace and nothing is
stripped from its frames or the first frame is asked for. -/
theorem C110_seek_partial (enc : Enc) (simple : Bool) (payload : Bytes) (size pos : Nat) (h : Head) (hs : Nat)
    (sizes : List Nat) (off : Nat) (b : LBlk) (n : Nat) (hp : parseHead simple payload = some (h, hs))
    (hz : parseSizes h.lacing hs payload size = .ok (sizes, off)) (hb : linkRead (.enc enc) true (.fresh sizes) = .ok b)
    (hn : n < sizes.length) (hlt : ∀ m ∈ sizes, m + enc.cut < 2 ^ 32) :
    skipToFrame h pos (pos + off) b.sizes n = some (pos + off + (sizes.take n).sum) ↔
      if h.lacing = .none then 0x80 ≤ payload.headD 0 ∨ 0x80 ≤ h.track else enc.cut = 0 ∨ n = 0 := by
  have hbs : (b.sizes.take n).sum = (sizes.take n).sum + n * enc.cut ∧ b.sizes.length = sizes.length := by
    cases enc with
    | plain => injection hb with hb; subst hb; simp [Enc.cut, LBlk.fresh]
    | strip hdr on =>
      injection hb with hb
      subst hb
      refine ⟨?_, by simp [LBlk.fresh]⟩
      exact u32_sum hdr.length sizes hlt n (by omega)
    | zlib d i on => injection hb with hb; subst hb; simp [Enc.cut, LBlk.fresh]
  unfold skipToFrame
  rw [if_neg (by omega)]
  by_cases hl : h.lacing = .none
  · rw [if_pos hl, if_pos hl, ← parseHead_size simple payload h hs hp]
    rw [hl] at hz
    injection hz with hz
    injection hz with e1 e2
    subst e1 e2
    have : n = 0 := by simp only [List.length_singleton] at hn; omega
    subst this
    simp only [List.take_zero, List.sum_nil, Option.some.injEq]
    omega
  · rw [if_neg hl, if_neg hl, hbs.1]
    generalize (sizes.take n).sum = t
    rw [Option.some.injEq]
    have e : (pos + off + (t + n * enc.cut) = pos + off + t) ↔ n * enc.cut = 0 := by omega
    rw [e, Nat.mul_eq_zero, or_comm]

/-- A frame number the block does not have is refused. -/
theorem C110_no_such_frame (h : Head) (pos loc : Nat) (sizes : List Nat) (n : Nat) :
    skipToFrame h pos loc sizes n = none ↔ sizes.length ≤ n := by
  unfold skipToFrame
  by_cases hn : n ≥ sizes.length
  · rw [if_pos hn]; simpa using hn
  · rw [if_neg hn]
    split <;> simp <;> omega

/-- The hypotheses can be met: the second of three frames in a Xiph lace. -/
example : skipToFrame ⟨1, 0, false, false, false, .xiph⟩ 100 107 [1, 2, 1] 2 = some 110 := by
  have := (C110_seek_partial .plain true [0x81, 0, 0, 2, 2, 1, 2, 5, 6, 6, 7] 11 100 ⟨1, 0, false, false, false, .xiph⟩ 4
    [1, 2, 1] 7 _ 2 (by decide) (by decide) rfl (by simp) (by decide)).2 (by decide)
  exact this

/-- A block the library wrote has its track number in the shortest form: seeking in it to the frames of
an uncompressed track is right. -/
theorem C110_written_blocks (simple : Bool) (h : Head) (hh : HeadOk h) (rest : Bytes) (hne : rest ≠ [] ∨ 0x80 ≤ h.track) :
    ∃ hd h' hs, renderHead simple h = some hd ∧ parseHead simple (hd ++ rest) = some (h', hs) ∧
      ∀ (size pos : Nat) (sizes : List Nat) (off n : Nat), parseSizes h'.lacing hs (hd ++ rest) size = .ok (sizes, off) →
        (∀ m ∈ sizes, m < 2 ^ 32) → n < sizes.length →
        skipToFrame h' pos (pos + off) sizes n = some (pos + off + (sizes.take n).sum) := by
  obtain ⟨hd, e1, e2, e3⟩ := parseHead_renderHead simple h hh.1 hh.2.1 hh.2.2 rest hne
  refine ⟨hd, _, _, e1, e3, ?_⟩
  intro size pos sizes off n hz hlt hn
  refine (C110_seek_partial .plain simple (hd ++ rest) size pos _ _ sizes off _ n e3 hz rfl hn hlt).2 ?_
  split
  · exact (parseHead_size simple _ _ _ e3).1 rfl
  · left; rfl

/-- The hypotheses can be met. -/
example : ∃ hd h' hs, renderHead true ⟨5, 3, true, false, false, .none⟩ = some hd ∧
    parseHead true (hd ++ [1, 2, 3]) = some (h', hs) ∧ skipToFrame h' 10 14 [3] 0 = some 14 := by
  obtain ⟨hd, h', hs, e1, e2, e3⟩ := C110_written_blocks true ⟨5, 3, true, false, false, .none⟩ (by unfold HeadOk; decide) [1, 2, 3]
    (Or.inl (by simp))
  have e1' := e1
  have : renderHead true ⟨5, 3, true, false, false, .none⟩ = some [0x85, 0, 3, 0x80] := by decide
  rw [this] at e1'
  injection e1' with e1'
  subst e1'
  have e4 : parseHead true ([0x85, 0, 3, 0x80] ++ [1, 2, 3]) = some (⟨5, 3, true, false, false, .none⟩, 4) := by decide
  rw [e4] at e2
  injection e2 with e2
  injection e2 with ea eb
  subst ea eb
  exact ⟨_, _, _, e1, e4, e3 7 10 [3] 4 0 (by rfl) (by simp) (by simp)⟩

end Verif.Mkv
