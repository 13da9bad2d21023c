import Verif.Mkv.KeyFlags
import Verif.Props.Block
/-!
C219: the keyframe and discardable flags of blocks.
-/
namespace Verif.Props.KeyFlags
open Verif Verif.Ebml Verif.Mkv Verif.Mkv.KeyFlags

/-- The last value set for the keyframe flag, `v` when there is none. -/
def lastKey (v : Bool) : List Op → Bool
  | [] => v
  | .key w :: os => lastKey w os
  | .discard _ :: os => lastKey v os

/-- The same for the discardable flag. -/
def lastDiscard (v : Bool) : List Op → Bool
  | [] => v
  | .key _ :: os => lastDiscard v os
  | .discard w :: os => lastDiscard w os

theorem run_head (os : List Op) (b : KBlk) : (run b os).place = b.place ∧ (run b os).head.key = lastKey b.head.key os ∧
    (run b os).head.discard = (if b.place = .simple then lastDiscard b.head.discard os else b.head.discard) ∧
    (run b os).head.track = b.head.track ∧ (run b os).head.time = b.head.time := by
  induction os generalizing b with
  | nil => simp [run, lastKey, lastDiscard]
  | cons o os ih =>
    cases o with
    | key v =>
      have := ih (setKeyframe v b)
      simp only [run, List.foldl_cons, lastKey, lastDiscard] at this ⊢
      exact this
    | discard v =>
      have := ih (setDiscardable v b)
      simp only [run, List.foldl_cons, lastKey, lastDiscard] at this ⊢
      by_cases h : b.place = .simple
      · simp only [setDiscardable, h, if_true] at this ⊢; exact this
      · simp only [setDiscardable, h, if_false] at this ⊢; exact this

/-- A block that can be written: its time and track fit, and there is a frame or a long track number behind which the head is found. -/
structure Writable (b : KBlk) (rest : Bytes) : Prop where
  lo : -32768 ≤ b.head.time
  hi : b.head.time < 32768
  track : b.head.track < 0x4000
  rest : rest ≠ [] ∨ 0x80 ≤ b.head.track

theorem reload_eq {b : KBlk} {rest : Bytes} (h : Writable b rest) :
    reload b rest = some ⟨{ b.head with key := (b.place == .simple) && b.head.key, discard := (b.place == .simple) && b.head.discard }, b.place⟩ := by
  obtain ⟨hd, h1, _, h2⟩ := (C29_header_round_trip_partial (b.place == .simple) b.head rest h.lo h.hi h.rest).2 h.track
  simp [reload, h1, h2]

/-- **C219 (SimpleBlock)**: whatever calls there were, a SimpleBlock has the flags set last, and so has the block that is read from what was
written of it. -/
theorem C219_simple (b : KBlk) (hs : b.place = .simple) (os : List Op) (rest : Bytes) (h : Writable b rest) :
    keyframe (run b os) = lastKey b.head.key os ∧ discardable (run b os) = lastDiscard b.head.discard os ∧
    ∃ r, reload (run b os) rest = some r ∧ keyframe r = lastKey b.head.key os ∧ discardable r = lastDiscard b.head.discard os := by
  obtain ⟨hp, hk, hd, ht, hm⟩ := run_head os b
  rw [if_pos hs] at hd
  rw [hs] at hp
  have hw : Writable (run b os) rest := ⟨by rw [hm]; exact h.lo, by rw [hm]; exact h.hi, by rw [ht]; exact h.track, by rw [ht]; exact h.rest⟩
  refine ⟨?_, ?_, _, reload_eq hw, ?_, ?_⟩
  · cases hv : lastKey b.head.key os <;> simp [keyframe, hk, hp, hv]
  · simp [discardable, hp, hd]
  · cases hv : lastKey b.head.key os <;> simp [keyframe, hk, hp, hv]
  · simp [discardable, hp, hd]

/-- **C219 (Block)**: for a Block in a BlockGroup what is read back depends on the ReferenceBlock alone, whatever was set; and before, setting
can only turn the answer on. -/
theorem C219_group (b : KBlk) (ref : Bool) (hg : b.place = .group ref) (os : List Op) (rest : Bytes) (h : Writable b rest) :
    keyframe (run b os) = (lastKey b.head.key os || !ref) ∧ discardable (run b os) = false ∧
    ∃ r, reload (run b os) rest = some r ∧ keyframe r = !ref ∧ discardable r = false := by
  obtain ⟨hp, hk, hd, ht, hm⟩ := run_head os b
  rw [hg] at hp
  have hw : Writable (run b os) rest := ⟨by rw [hm]; exact h.lo, by rw [hm]; exact h.hi, by rw [ht]; exact h.track, by rw [ht]; exact h.rest⟩
  refine ⟨?_, ?_, _, reload_eq hw, ?_, ?_⟩
  · cases hv : lastKey b.head.key os <;> simp [keyframe, hk, hp, hv]
  · simp [discardable, hp]
  · simp [keyframe, hp]
  · simp [discardable, hp]

/-- **C219 (bare)**: a Block that is in no BlockGroup has the keyframe flag set last until it is written, none afterwards. -/
theorem C219_bare (b : KBlk) (hg : b.place = .bare) (os : List Op) (rest : Bytes) (h : Writable b rest) :
    keyframe (run b os) = lastKey b.head.key os ∧ discardable (run b os) = false ∧
    ∃ r, reload (run b os) rest = some r ∧ keyframe r = false ∧ discardable r = false := by
  obtain ⟨hp, hk, hd, ht, hm⟩ := run_head os b
  rw [hg] at hp
  have hw : Writable (run b os) rest := ⟨by rw [hm]; exact h.lo, by rw [hm]; exact h.hi, by rw [ht]; exact h.track, by rw [ht]; exact h.rest⟩
  refine ⟨?_, ?_, _, reload_eq hw, ?_, ?_⟩
  · cases hv : lastKey b.head.key os <;> simp [keyframe, hk, hp, hv]
  · simp [discardable, hp]
  · simp [keyframe, hp]
  · simp [discardable, hp]

/-- The flag set is the flag there is. -/
def SetIsKept : Prop := ∀ (b : KBlk) (v : Bool) (rest : Bytes), b.place ≠ .bare → Writable b rest →
  keyframe (setKeyframe v b) = v ∧ ∃ r, reload (setKeyframe v b) rest = some r ∧ keyframe r = v

/-- **C219 counterexample**: a Block in a BlockGroup without ReferenceBlock stays a keyframe. -/
theorem C219_counterexample : ¬ SetIsKept := by
  intro h
  have := (h ⟨⟨1, 0, false, false, false, .none⟩, .group false⟩ false [0] (by simp) ⟨by decide, by decide, by decide, .inl (by simp)⟩).1
  exact absurd this (by decide)

/-- And one with a ReferenceBlock is not a keyframe any more when read. -/
theorem C219_lost : ∃ b rest, Writable b rest ∧ keyframe (setKeyframe true b) = true ∧
    ∃ r, reload (setKeyframe true b) rest = some r ∧ keyframe r = false := by
  refine ⟨⟨⟨1, 0, false, false, false, .none⟩, .group true⟩, [0], ⟨by decide, by decide, by decide, .inl (by simp)⟩, by decide, ?_⟩
  obtain ⟨_, _, r, h1, h2, _⟩ := C219_group ⟨⟨1, 0, false, false, false, .none⟩, .group true⟩ true rfl [.key true] [0]
    ⟨by decide, by decide, by decide, .inl (by simp)⟩
  exact ⟨r, h1, h2⟩

example : ∃ r, reload (run ⟨⟨1, 5, false, false, false, .none⟩, .simple⟩ [.key true, .discard true, .key false, .key true]) [7] = some r ∧
    keyframe r = true ∧ discardable r = true := by
  obtain ⟨_, _, r, h⟩ := C219_simple ⟨⟨1, 5, false, false, false, .none⟩, .simple⟩ rfl [.key true, .discard true, .key false, .key true] [7]
    ⟨by decide, by decide, by decide, .inl (by simp)⟩
  exact ⟨r, h⟩

end Verif.Props.KeyFlags
