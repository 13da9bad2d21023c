import Verif.Mkclean.Header
import Verif.Props.Block
/-!
C118: the header mkclean strips from the frames of a track is their longest common beginning, and the frames come back.

C119: the lacing chosen for a block is the one with the shortest lace.
-/
namespace Verif.Mkclean
open Verif Verif.Mkv

/-! ## C118 -/

/-- The frames mkclean looks at for a track: those of its blocks that can be read and are not compressed. -/
def seen (t : Nat) (blocks : List (Nat × Source)) : List Bytes :=
  blocks.flatMap fun p => if p.1 = t then (match p.2 with | .frames fs => fs | _ => []) else []

theorem prefix_equal (p h f : Bytes) : p <+: h.take (equalData h f) ↔ p <+: h ∧ p <+: f := by
  induction h generalizing p f with
  | nil => simp [equalData]; rintro rfl; exact List.nil_prefix
  | cons a h ih =>
    cases f with
    | nil => simp [equalData]; rintro rfl; exact List.nil_prefix
    | cons b f =>
      by_cases hab : a = b
      · subst hab
        cases p with
        | nil => simp
        | cons c p => simp [equalData, List.cons_prefix_cons, ih]; grind
      · cases p with
        | nil => simp
        | cons c p => simp [equalData, hab, List.cons_prefix_cons]; grind

theorem prefix_shrinkFrames (p h : Bytes) (fs : List Bytes) : p <+: shrinkFrames h fs ↔ p <+: h ∧ ∀ f ∈ fs, p <+: f := by
  induction fs generalizing h with
  | nil => simp [shrinkFrames]
  | cons f fs ih =>
    simp only [shrinkFrames]
    have e := prefix_equal p h f
    by_cases h0 : h.take (equalData h f) = []
    · rw [if_pos h0]
      rw [h0] at e
      constructor
      · intro hp
        have := List.prefix_nil.1 hp
        subst this
        simp
      · intro hp
        exact e.2 ⟨hp.1, hp.2 f List.mem_cons_self⟩
    · rw [if_neg h0, ih, e]
      simp only [List.mem_cons, forall_eq_or_imp, and_assoc]

/-- What is known of the header after the frames `s`. -/
def Common (h : Option Bytes) (s : List Bytes) : Prop :=
  match h with
  | none => s = []
  | some x => s ≠ [] ∧ ∀ p, p <+: x ↔ ∀ f ∈ s, p <+: f

theorem shrinkBlock_common (h : Option Bytes) (s : List Bytes) (b : Source) (hc : Common h s) :
    Common (shrinkBlock h b) (s ++ (match b with | .frames fs => fs | _ => [])) := by
  unfold shrinkBlock
  by_cases h0 : h = some []
  · rw [if_pos h0]
    subst h0
    refine ⟨by have := hc.1; simp [this], fun p => ?_⟩
    constructor
    · intro hp
      have := List.prefix_nil.1 hp
      subst this
      simp
    · intro hp
      exact (hc.2 p).2 fun f hf => hp f (List.mem_append_left _ hf)
  · rw [if_neg h0]
    cases h with
    | none =>
      have hs : s = [] := hc
      subst hs
      cases b with
      | unreadable => simp [Common]
      | compressed => simp [Common]
      | frames fs =>
        cases fs with
        | nil => simp [Common]
        | cons f fs =>
          refine ⟨by simp, fun p => ?_⟩
          rw [prefix_shrinkFrames]
          simp
    | some x =>
      cases b with
      | unreadable => simpa using hc
      | compressed => simpa using hc
      | frames fs =>
        suffices hx : Common (some (shrinkFrames x fs)) (s ++ fs) by cases fs <;> exact hx
        refine ⟨by have := hc.1; simp [this], fun p => ?_⟩
        rw [prefix_shrinkFrames, hc.2 p]
        simp only [List.mem_append]
        grind

theorem findHeaders_common (blocks : List (Nat × Source)) (heads : Nat → Option Bytes) (before : Nat → List Bytes)
    (h : ∀ t, Common (heads t) (before t)) (t : Nat) : Common (findHeaders heads blocks t) (before t ++ seen t blocks) := by
  induction blocks generalizing heads before with
  | nil => simpa [findHeaders, seen] using h t
  | cons p bs ih =>
    obtain ⟨u, b⟩ := p
    have := ih (fun v => if v = u then shrinkBlock (heads u) b else heads v)
      (fun v => before v ++ (if u = v then (match b with | .frames fs => fs | _ => []) else [])) (by
        intro v
        by_cases hv : v = u
        · subst hv
          simpa using shrinkBlock_common _ _ b (h v)
        · have hv' : ¬ u = v := fun e => hv e.symm
          simpa [hv, hv'] using h v)
    simpa [findHeaders, seen, List.append_assoc] using this

/-- Whatever the order of the blocks of all tracks: the bytes common to the beginnings of all frames of a track that
mkclean looks at are exactly the header and what it begins with. -/
theorem C118_longest_common_header (blocks : List (Nat × Source)) (t : Nat) :
    (seen t blocks = [] → trackHeader blocks t = []) ∧
    (seen t blocks ≠ [] → ∀ p, p <+: trackHeader blocks t ↔ ∀ f ∈ seen t blocks, p <+: f) := by
  have h := findHeaders_common blocks (fun _ => none) (fun _ => []) (fun _ => rfl) t
  rw [List.nil_append] at h
  unfold trackHeader
  cases e : findHeaders (fun _ => none) blocks t with
  | none => rw [e] at h; have h : seen t blocks = [] := h; simp [h]
  | some x => rw [e] at h; exact ⟨fun hs => absurd hs h.1, fun _ => h.2⟩

/-- Every frame mkclean looks at begins with the header of its track. -/
theorem header_prefix (blocks : List (Nat × Source)) (t : Nat) (f : Bytes) (hf : f ∈ seen t blocks) :
    trackHeader blocks t <+: f :=
  ((C118_longest_common_header blocks t).2 (List.ne_nil_of_mem hf) _).1 List.prefix_rfl f hf

/-- Every block of the track can be written with that header stripped, the announced size is the one written, and
reading gives every frame back in full. (The limits are those of C33.) -/
theorem C118_frames_come_back (blocks : List (Nat × Source)) (t : Nat) (frames : List Bytes)
    (hb : (t, Source.frames frames) ∈ blocks) (simple : Bool) (h : Head) (rest : Bytes)
    (ht : h.track < 0x4000) (hlo : -32768 ≤ h.time) (hhi : h.time < 32768)
    (h1 : 1 ≤ frames.length) (h256 : frames.length ≤ 256) (hsz : ∀ f ∈ frames, f.length < 2 ^ 27)
    (htot : frames.flatten.length + 4 * frames.length < 2 ^ 32) (hne : 2 ≤ frames.length ∨ rest ≠ [] ∨ 0x80 ≤ h.track) :
    ∃ bytes, writeAuto simple (.strip (trackHeader blocks t) true) h frames = .ok bytes ∧
      blockSize (.strip (trackHeader blocks t) true) { h with lacing := bestLacing (.strip (trackHeader blocks t) true) frames } frames
        = bytes.length ∧
      readBlock simple (.strip (trackHeader blocks t) true) (bytes ++ rest) bytes.length
        = .ok ⟨{ h with key := simple && h.key, discard := simple && h.discard,
                        lacing := bestLacing (.strip (trackHeader blocks t) true) frames },
            frames.map List.length, frames.flatten⟩ := by
  have hp : ∀ f ∈ frames, trackHeader blocks t <+: f := fun f hf =>
    header_prefix blocks t f (List.mem_flatMap.2 ⟨_, hb, by simpa using hf⟩)
  generalize trackHeader blocks t = hdr at hp ⊢
  have hlen : ∀ fs : List Bytes, (stripped hdr fs).flatten.length ≤ fs.flatten.length := by
    intro fs
    induction fs with
    | nil => simp [stripped]
    | cons f fs ih =>
      simp only [stripped, List.map_cons, List.flatten_cons, List.length_append, List.length_drop] at ih ⊢
      omega
  refine C33_auto_lossless_partial simple (.strip hdr true) h frames rest ht hlo hhi h1 h256 hsz ?_ ?_ ?_ trivial ?_ ?_
  · intro f hf
    simp only [stored, stripped, List.mem_map] at hf
    obtain ⟨g, hg, rfl⟩ := hf
    have := hsz g hg
    simp only [List.length_drop]
    omega
  · have := hlen frames
    simp only [stored]
    omega
  · exact ⟨rfl, fun f hf => (List.prefix_iff_eq_take.1 (hp f hf)).symm⟩
  · intro heq f hf g hg
    simp only [stored, stripped, List.mem_map] at hf hg
    obtain ⟨f', hf', rfl⟩ := hf
    obtain ⟨g', hg', rfl⟩ := hg
    simp only [List.length_drop]
    rw [heq f' hf' g' hg']
  · rcases hne with h | h | h
    · exact .inl h
    · exact .inr (.inl (by simp [h]))
    · exact .inr (.inr h)

/-- Two tracks interleaved: the second begins with 0x47 0x40 throughout. -/
example : trackHeader [(2, .frames [[0x47, 0x40, 1], [0x47, 0x40]]), (1, .frames [[9]]), (2, .unreadable),
    (2, .frames [[0x47, 0x40, 1, 7]])] 2 = [0x47, 0x40] := by decide +kernel

end Verif.Mkclean

namespace Verif.Mkv
open Verif Verif.Ebml

/-! ## C119 -/

/-- Lacings a block of several frames may use: fixed size only for frames of equal stored size. -/
def Allowed (ss : List Int) : Lacing → Prop
  | .none => ss.length ≤ 1
  | .fixed => 2 ≤ ss.length ∧ ∀ a ∈ ss, ∀ b ∈ ss, a = b
  | _ => 2 ≤ ss.length

/-- C119: no allowed lacing has a shorter lace than the one chosen. -/
def ShortestLace (enc : Enc) (frames : List Bytes) : Prop :=
  ∀ l, Allowed (frames.map (frameSize enc)) l →
    (laceHead (bestLacing enc frames) (frames.map (frameSize enc))).length ≤ (laceHead l (frames.map (frameSize enc))).length

theorem laceHead_pos (l : Lacing) (ss : List Int) (h : l ≠ .none) : 1 ≤ (laceHead l ss).length := by
  cases l <;> simp_all [laceHead]

/-- What holds: a single frame, frames of equal size and pairs of frames get the shortest lace, if frames of
different length are stored in different sizes (without compression and with header stripping they are). Missing:
three and more frames of different sizes, where the estimate for EBML lacing takes differences of the wrong numbers. -/
theorem C119_shortest_lace_partial (enc : Enc) (frames : List Bytes)
    (hlen : frames.length ≤ 2 ∨ ∀ f ∈ frames, ∀ g ∈ frames, f.length = g.length)
    (henc : ∀ f ∈ frames, ∀ g ∈ frames, frameSize enc f = frameSize enc g → f.length = g.length) :
    ShortestLace enc frames := by
  intro l hl
  by_cases h1 : frames.length ≤ 1
  · have : bestLacing enc frames = .none := by unfold bestLacing; rw [if_pos h1]
    rw [this]
    simp [laceHead]
  have hln : l ≠ .none := by
    rintro rfl
    simp [Allowed] at hl
    omega
  by_cases h2 : frames.all (fun f => f.length == (frames.headD []).length) = true
  · have : bestLacing enc frames = .fixed := by unfold bestLacing; rw [if_neg h1, if_pos h2]
    rw [this]
    have := laceHead_pos l (frames.map (frameSize enc)) hln
    simpa [laceHead, laceSizes] using this
  · have h3 : frames.length = 2 := by
      rcases hlen with h | h
      · omega
      · exfalso
        apply h2
        rw [List.all_eq_true]
        intro f hf
        cases frames with
        | nil => simp at hf
        | cons g gs => simpa using h f hf g List.mem_cons_self
    obtain ⟨f, g, rfl⟩ : ∃ f g, frames = [f, g] := by
      match frames, h3 with
      | [f, g], _ => exact ⟨f, g, rfl⟩
    have hfg : f.length ≠ g.length := by
      intro e
      apply h2
      simp [e]
    have hx : ∀ k : Lacing, k = .xiph ∨ k = .ebml → (laceHead k [frameSize enc f, frameSize enc g]).length
        = if k = .xiph then 1 + (xiphSize (frameSize enc f)).length else 1 + codedSizeLength (frameSize enc f) 0 true := by
      rintro k (rfl | rfl)
      · simp [laceHead, laceSizes]; omega
      · have hp : 1 ≤ codedSizeLength (frameSize enc f) 0 true := by
          unfold codedSizeLength
          simp only [Bool.not_true, Bool.false_eq_true, if_false, ne_eq, not_true, false_and]
          split <;> (try split) <;> (try split) <;> (try split) <;> omega
        simp [laceHead, laceSizes, ebmlCoded, hp]; omega
    have hb : bestLacing enc [f, g] = if (xiphSize (frameSize enc f)).length < codedSizeLength (frameSize enc f) 0 true then .xiph else .ebml := by
      unfold bestLacing
      rw [if_neg h1, if_neg h2]
      simp [ebmlEstimate]
    have hl' : l = .xiph ∨ l = .ebml := by
      cases l with
      | none => exact absurd rfl hln
      | fixed =>
        exfalso
        exact hfg (henc f (by simp) g (by simp) (hl.2 _ (by simp) _ (by simp)))
      | xiph => simp
      | ebml => simp
    rw [hb]
    simp only [List.map_cons, List.map_nil]
    by_cases hc : (xiphSize (frameSize enc f)).length < codedSizeLength (frameSize enc f) 0 true
    · rw [if_pos hc, hx .xiph (.inl rfl), hx l hl']
      rcases hl' with rfl | rfl <;> simp; omega
    · rw [if_neg hc, hx .ebml (.inr rfl), hx l hl']
      rcases hl' with rfl | rfl <;> simp; omega

/-- Two frames of 300 and 20 bytes. -/
example : bestLacing .plain [List.replicate 300 0, List.replicate 20 0] = .ebml := by decide +kernel

/-- Frames of 1, 100 and 5 bytes: the EBML lace chosen takes 4 bytes, a Xiph lace 3. -/
theorem C119_shortest_lace_counterexample :
    ∃ frames : List Bytes, bestLacing .plain frames = .ebml
      ∧ (laceHead .ebml (frames.map (frameSize .plain))).length = 4
      ∧ (laceHead .xiph (frames.map (frameSize .plain))).length = 3 ∧ ¬ ShortestLace .plain frames := by
  refine ⟨[[0], List.replicate 100 0, List.replicate 5 0], by decide +kernel, by decide +kernel, by decide +kernel, ?_⟩
  intro h
  exact absurd (h .xiph (by simp [Allowed])) (by decide +kernel)

end Verif.Mkv
