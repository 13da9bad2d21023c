import Verif.Mkclean.BlockTimes
import Verif.Mkv.TimeLemmas
/-!
Property C224: the times of blocks in the output of mkclean; C225: the durations of BlockGroups.
-/
namespace Verif.Mkclean.BlockTimes
open Verif Verif.Mkv

/-- The time of a block in a file with the TimestampScale `scale`: Cluster Timestamp plus local time, in ticks. -/
def fileTime (scale : Int) (r : TClu × TBlk) : Int := (r.1.elt.getD 0 + r.2.loc) * scale

/-- Scales up to 274 s, times up to 146 years. -/
structure Ranges (old new ticks loc : Int) : Prop where
  old_pos : 0 < old
  old_lt : old < 2 ^ 38
  new_pos : 0 < new
  new_lt : new < 2 ^ 38
  ticks_nonneg : 0 ≤ ticks
  ticks_lt : ticks * old < 2 ^ 62
  loc_ge : -32768 ≤ loc
  loc_le : loc ≤ 32767

/-- The time of the block in the source. -/
def srcTime (old ticks loc : Int) : Int := (ticks + loc) * old

theorem loc_bounds {old loc : Int} (h0 : 0 < old) (h1 : old < 2 ^ 38) (h2 : -32768 ≤ loc) (h3 : loc ≤ 32767) :
    -2 ^ 53 ≤ loc * old ∧ loc * old ≤ 2 ^ 53 := by
  have a : loc * old ≤ 32767 * old := Int.mul_le_mul_of_nonneg_right h3 (by omega)
  have b : -32768 * old ≤ loc * old := Int.mul_le_mul_of_nonneg_right h2 (by omega)
  generalize loc * old = x at *
  omega

theorem src_clu {old new ticks loc : Int} (h : Ranges old new ticks loc) :
    outCluster false old new ticks = ⟨ticks * old, some ticks⟩ := by
  have hn : 0 ≤ ticks * old := Int.mul_nonneg h.ticks_nonneg (by have := h.old_pos; omega)
  have hl := h.ticks_lt
  have hs : s64 (ticks * old) = ticks * old := s64_of_range _ (by omega) (by omega)
  have e : Int.tdiv (ticks * old) old = ticks := Int.mul_tdiv_cancel _ (by have := h.old_pos; omega)
  simp [outCluster, cluSetTs, cluTs, hs, scale64, e, show old ≠ 0 by have := h.old_pos; omega]

theorem cluTs_set (e : Env) (t : Int) (v : Option Int) (h : t ≠ invalidTs) : cluTs e ⟨t, v⟩ = t := by
  simp [cluTs, h]

/-- Setting a time, without overflow. -/
theorem setTs_env (old new : Int) (b : TBlk) (ts ct : Int) (hn : 0 < new) (h1 : -2 ^ 63 ≤ ts - ct) (h2 : ts - ct < 2 ^ 63) :
    setTs (env old new) b ts ct =
      if Int.tdiv (ts - ct) new > 32767 ∨ Int.tdiv (ts - ct) new < -32768 then none
      else some { b with loc := Int.tdiv (ts - ct) new, used := true } := by
  simp only [setTs, env, id, s64_of_range _ h1 h2, scale64, if_neg (show new ≠ 0 by omega)]

/-- The local time after the time of the block has been asked for. -/
def newLoc (old new loc : Int) : Int :=
  if (loc * old).tdiv new > 32767 ∨ (loc * old).tdiv new < -32768 then loc else (loc * old).tdiv new

theorem asked {old new ticks loc : Int} (h : Ranges old new ticks loc) (v : Option Int) :
    blkTs (env old new) (some ⟨ticks * old, v⟩) (readBlk loc) =
      (ticks * old + loc * old, ⟨newLoc old new loc, true, ticks * old + loc * old, true⟩) := by
  obtain ⟨b1, b2⟩ := loc_bounds h.old_pos h.old_lt h.loc_ge h.loc_le
  have hn : 0 ≤ ticks * old := Int.mul_nonneg h.ticks_nonneg (by have := h.old_pos; omega)
  have hl := h.ticks_lt
  have np := h.new_pos
  have hc : cluTs (env old new) ⟨ticks * old, v⟩ = ticks * old := cluTs_set _ _ _ (by unfold invalidTs; omega)
  have e1 : s64 (loc * old) = loc * old := s64_of_range _ (by omega) (by omega)
  have e2 : s64 (ticks * old + loc * old) = ticks * old + loc * old := s64_of_range _ (by omega) (by omega)
  have e3 : ticks * old + loc * old - ticks * old = loc * old := by omega
  have e4 : id (s64 (loc * old)) = loc * old := e1
  unfold blkTs readBlk
  simp only [hc]
  rw [show (env old new).readScale = old from rfl, show (env old new).mul = id from rfl, e4, e2,
    setTs_env old new _ _ _ np (by omega) (by omega), e3]
  unfold newLoc
  by_cases hr : (loc * old).tdiv new > 32767 ∨ (loc * old).tdiv new < -32768
  · simp [hr]
  · simp [hr]

theorem blkTs_known (e : Env) (c : Option TClu) (b : TBlk) (h : b.glob ≠ invalidTs) : blkTs e c b = (b.glob, b) := by
  unfold blkTs; rw [if_pos h]

theorem new_clu (old new start : Int) (hn : 0 < new) :
    newCluster old new start = ⟨start, some (start.tdiv new)⟩ := by
  simp [newCluster, cluSetTs, env, scale64, show new ≠ 0 by omega]

theorem src_add (old ticks loc : Int) : srcTime old ticks loc = ticks * old + loc * old := Int.add_mul _ _ _

theorem remux_eq {old new ticks loc start : Int} (h : Ranges old new ticks loc) (hs : 0 ≤ start) (hs2 : start < 2 ^ 62) :
    outBlock (.remux start) old new ticks loc =
      if (srcTime old ticks loc - start).tdiv new > 32767 ∨ (srcTime old ticks loc - start).tdiv new < -32768 then none
      else some (⟨start, some (start.tdiv new)⟩,
        ⟨(srcTime old ticks loc - start).tdiv new, true, srcTime old ticks loc, true⟩) := by
  obtain ⟨b1, b2⟩ := loc_bounds h.old_pos h.old_lt h.loc_ge h.loc_le
  have hn : 0 ≤ ticks * old := Int.mul_nonneg h.ticks_nonneg (by have := h.old_pos; omega)
  have hl := h.ticks_lt
  have hk := blkTs_known (env old new) (some ⟨ticks * old, some ticks⟩)
    ⟨newLoc old new loc, true, ticks * old + loc * old, true⟩ (by show ticks * old + loc * old ≠ _; unfold invalidTs; omega)
  have hc := cluTs_set (env old new) start (some (start.tdiv new)) (by unfold invalidTs; omega)
  simp only [outBlock, src_clu h, new_clu old new start h.new_pos, asked h, moveTo, hk, hc, if_true]
  rw [setTs_env old new _ _ _ h.new_pos (by omega) (by omega), ← src_add]
  by_cases hr : (srcTime old ticks loc - start).tdiv new > 32767 ∨ (srcTime old ticks loc - start).tdiv new < -32768
  · simp [hr]
  · simp [hr]

theorem retime_eq {old new ticks loc : Int} (h : Ranges old new ticks loc) (v : Option Int) (l : Int) :
    retime (env old new) ⟨ticks * old, v⟩ (ticks * old) ⟨l, true, ticks * old + loc * old, true⟩ =
      if (loc * old).tdiv new > 32767 ∨ (loc * old).tdiv new < -32768 then ⟨l, true, ticks * old + loc * old, true⟩
      else ⟨(loc * old).tdiv new, true, ticks * old + loc * old, true⟩ := by
  obtain ⟨b1, b2⟩ := loc_bounds h.old_pos h.old_lt h.loc_ge h.loc_le
  have hn : 0 ≤ ticks * old := Int.mul_nonneg h.ticks_nonneg (by have := h.old_pos; omega)
  have hl := h.ticks_lt
  have e3 : ticks * old + loc * old - ticks * old = loc * old := by omega
  have hi : ticks * old + loc * old ≠ invalidTs := by unfold invalidTs; omega
  have hk := blkTs_known (env old new) (some ⟨ticks * old, v⟩) ⟨l, true, ticks * old + loc * old, true⟩ hi
  simp only [retime, hk, if_pos hi]
  rw [setTs_env old new _ _ _ h.new_pos (by omega) (by omega), e3]
  by_cases hr : (loc * old).tdiv new > 32767 ∨ (loc * old).tdiv new < -32768
  · simp [hr]
  · simp [hr]

theorem retime_read {old new ticks loc : Int} (h : Ranges old new ticks loc) (v : Option Int) :
    retime (env old new) ⟨ticks * old, v⟩ (ticks * old) (readBlk loc) =
      ⟨newLoc old new loc, true, ticks * old + loc * old, true⟩ := by
  have e := retime_eq h v (newLoc old new loc)
  obtain ⟨b1, b2⟩ := loc_bounds h.old_pos h.old_lt h.loc_ge h.loc_le
  have hn : 0 ≤ ticks * old := Int.mul_nonneg h.ticks_nonneg (by have := h.old_pos; omega)
  have hl := h.ticks_lt
  have hi : ticks * old + loc * old ≠ invalidTs := by unfold invalidTs; omega
  have : retime (env old new) ⟨ticks * old, v⟩ (ticks * old) (readBlk loc) =
      retime (env old new) ⟨ticks * old, v⟩ (ticks * old) ⟨newLoc old new loc, true, ticks * old + loc * old, true⟩ := by
    unfold retime
    rw [asked h]
    have hk := blkTs_known (env old new) (some ⟨ticks * old, v⟩) ⟨newLoc old new loc, true, ticks * old + loc * old, true⟩ hi
    rw [hk]
  rw [this, e]
  unfold newLoc
  split <;> simp_all

theorem relinked_eq {old new ticks loc : Int} (h : Ranges old new ticks loc) :
    outBlock .relinked old new ticks loc =
      some (⟨ticks * old, some ((ticks * old).tdiv new)⟩, ⟨newLoc old new loc, true, ticks * old + loc * old, true⟩) := by
  have hn : 0 ≤ ticks * old := Int.mul_nonneg h.ticks_nonneg (by have := h.old_pos; omega)
  have hl := h.ticks_lt
  have np := h.new_pos
  have hc := cluTs_set (env old new) (ticks * old) (some ticks) (by unfold invalidTs; omega)
  simp only [outBlock, src_clu h, cluSetTs, hc, List.map_cons, List.map_nil, List.headD_cons, retime_read h]
  rw [retime_eq h]
  have : scale64 (ticks * old) (env old new).writeScale = (ticks * old).tdiv new := by
    simp [scale64, env, show new ≠ 0 by omega]
  rw [this]
  unfold newLoc
  split <;> simp_all

theorem kept_eq {old new ticks loc : Int} (h : Ranges old new ticks loc) (a : Bool) :
    ∃ g, outBlock (.kept a) old new ticks loc =
      some (⟨ticks * old, some ticks⟩, ⟨if a then newLoc old new loc else loc, true, g, true⟩) := by
  cases a
  · exact ⟨invalidTs, by simp [outBlock, src_clu h, readBlk]⟩
  · exact ⟨ticks * old + loc * old, by simp [outBlock, src_clu h, asked h]⟩

/-- Two truncated quotients. -/
theorem two_ticks (a b d : Int) (hd : 0 < d) :
    (a.tdiv d + b.tdiv d) * d - (a + b) < 2 * d ∧ a + b - (a.tdiv d + b.tdiv d) * d < 2 * d ∧
    (d ∣ a → (a.tdiv d + b.tdiv d) * d - (a + b) < d ∧ a + b - (a.tdiv d + b.tdiv d) * d < d) ∧
    (d ∣ a → d ∣ b → (a.tdiv d + b.tdiv d) * d = a + b) := by
  have h1 := tdiv_near a d hd
  have h2 := tdiv_near b d hd
  rw [Int.add_mul]
  refine ⟨by omega, by omega, fun ha => ?_, fun ha hb => ?_⟩
  · rw [tdiv_exact a d ha]; omega
  · rw [tdiv_exact a d ha, tdiv_exact b d hb]

/-! ## C224 -/

/-- Whatever mkclean does with the Clusters, a block it writes has the time it had, within one tick of the new scale. -/
def BlockTimesKept : Prop :=
  ∀ (w : Way) (old new ticks loc : Int) (r : TClu × TBlk), Ranges old new ticks loc →
    (∀ s, w = .remux s → 0 ≤ s ∧ s < 2 ^ 62) → outBlock w old new ticks loc = some r →
    fileTime new r - srcTime old ticks loc < new ∧ srcTime old ticks loc - fileTime new r < new

/-- A file with one Cluster and the scale 22675: the block at 10 s is at 80 s afterwards. -/
theorem C224_counterexample : ¬ BlockTimesKept := by
  intro h
  have := h (.kept false) 22675 181400 440000 1000 _ (by constructor <;> decide) (by simp) rfl
  exact absurd this (by decide)

/-- With `--remux` the times of Cluster and block are each rounded: the block at 254 µs is at 0 afterwards although the new
tick is 128 µs. -/
theorem C224_remux_counterexample :
    (outBlock (.remux 127000) 1000 128000 254 0).map (fileTime 128000) = some 0 ∧ srcTime 1000 254 0 = 254000 := by decide

/-- C224 for `--remux`. mkclean gives up exactly if the distance from the start of the new Cluster is beyond 16 bits.
Otherwise the time is kept within two ticks of the new scale, within one if the Cluster starts at a tick, and exactly if the
block is at a tick as well, for instance if the scale is not changed. -/
theorem C224_remux_partial (old new ticks loc start : Int) (h : Ranges old new ticks loc) (h0 : 0 ≤ start)
    (h1 : start < 2 ^ 62) :
    (outBlock (.remux start) old new ticks loc = none ↔
      (srcTime old ticks loc - start).tdiv new > 32767 ∨ (srcTime old ticks loc - start).tdiv new < -32768) ∧
    ∀ r, outBlock (.remux start) old new ticks loc = some r →
      (fileTime new r - srcTime old ticks loc < 2 * new ∧ srcTime old ticks loc - fileTime new r < 2 * new) ∧
      (new ∣ start → fileTime new r - srcTime old ticks loc < new ∧ srcTime old ticks loc - fileTime new r < new) ∧
      (new ∣ start → new ∣ srcTime old ticks loc → fileTime new r = srcTime old ticks loc) := by
  rw [remux_eq h h0 h1]
  constructor
  · split <;> simp_all
  · intro r hr
    split at hr
    · simp at hr
    · cases hr
      have t := two_ticks start (srcTime old ticks loc - start) new h.new_pos
      rw [show start + (srcTime old ticks loc - start) = srcTime old ticks loc by omega] at t
      refine ⟨⟨t.1, t.2.1⟩, t.2.2.1, fun ha hb => t.2.2.2 ha (Int.dvd_sub hb ha)⟩

/-- A block at 12.345 s in the Cluster that starts at 10 s, scale 1 ms. -/
example : (outBlock (.remux 10000000000) 1000000 1000000 12000 345).map (fileTime 1000000) = some 12345000000 ∧
    outBlock (.remux 10000000000) 1000000 1000000 43000 345 = none := by decide

/-- With the scale of the source every remuxed block keeps its time exactly. -/
theorem C224_remux_same_scale (sc ticks loc s l : Int) (h : Ranges sc sc ticks loc) (h0 : 0 ≤ srcTime sc s l)
    (h1 : srcTime sc s l < 2 ^ 62) (r : TClu × TBlk) (hr : outBlock (.remux (srcTime sc s l)) sc sc ticks loc = some r) :
    fileTime sc r = srcTime sc ticks loc :=
  ((C224_remux_partial sc sc ticks loc _ h h0 h1).2 r hr).2.2 ⟨s + l, Int.mul_comm _ _⟩ ⟨ticks + loc, Int.mul_comm _ _⟩

/-- C224 for Clusters that are kept while new Cues are made: the time is kept within two ticks if the local time fits under the
new scale (it does if the scale does not get smaller). Otherwise the local time is left as it was, in ticks of the wrong
scale. -/
theorem C224_relinked_partial (old new ticks loc : Int) (h : Ranges old new ticks loc) :
    ∃ r, outBlock .relinked old new ticks loc = some r ∧
      (old ≤ new ∨ (-32768 ≤ (loc * old).tdiv new ∧ (loc * old).tdiv new ≤ 32767) →
        (fileTime new r - srcTime old ticks loc < 2 * new ∧ srcTime old ticks loc - fileTime new r < 2 * new) ∧
        (new ∣ ticks * old → new ∣ loc * old → fileTime new r = srcTime old ticks loc)) ∧
      (¬ (-32768 ≤ (loc * old).tdiv new ∧ (loc * old).tdiv new ≤ 32767) →
        fileTime new r = ((ticks * old).tdiv new + loc) * new) := by
  refine ⟨_, relinked_eq h, fun hf => ?_, fun hf => ?_⟩
  · have hfit : -32768 ≤ (loc * old).tdiv new ∧ (loc * old).tdiv new ≤ 32767 := by
      rcases hf with hle | hf
      · have hp := h.old_pos
        have np := h.new_pos
        have t := tdiv_near (loc * old) new np
        have l1 := h.loc_ge
        have l2 := h.loc_le
        constructor
        · have a1 : -32768 * new ≤ (loc * old).tdiv new * new := by
            rcases Int.le_total 0 (loc * old) with hv | hv
            · have := (t.2.2.1 hv).1; omega
            · have h3 := (t.2.2.2 hv).1
              have h4 : -32768 * old ≤ loc * old := Int.mul_le_mul_of_nonneg_right l1 (by omega)
              omega
          exact Int.le_of_mul_le_mul_right a1 np
        · have a1 : (loc * old).tdiv new * new ≤ 32767 * new := by
            rcases Int.le_total 0 (loc * old) with hv | hv
            · have h3 := (t.2.2.1 hv).2
              have h4 : loc * old ≤ 32767 * old := Int.mul_le_mul_of_nonneg_right l2 (by omega)
              omega
            · have := (t.2.2.2 hv).2; omega
          exact Int.le_of_mul_le_mul_right a1 np
      · exact hf
    have t := two_ticks (ticks * old) (loc * old) new h.new_pos
    have e : newLoc old new loc = (loc * old).tdiv new := by unfold newLoc; rw [if_neg (by omega)]
    simp only [fileTime, Option.getD_some, e, src_add]
    exact ⟨⟨t.1, t.2.1⟩, t.2.2.2⟩
  · have e : newLoc old new loc = loc := by unfold newLoc; rw [if_pos (by omega)]
    simp only [fileTime, Option.getD_some, e]

/-- From 22675 ns to 181400 ns: 9.999675 s and 0.49998375 s become 55125 and 2756 ticks. And from 1 ms to 0.1 ms by
`--timecodescale 100000`, where a local time of 4 s does not fit: it is 0.4 s afterwards. -/
example : (outBlock .relinked 22675 181400 441000 22050).map (fileTime 181400) = some ((55125 + 2756) * 181400) ∧
    srcTime 22675 441000 22050 = 10499658750 ∧ (55125 + 2756) * 181400 = 10499613400 ∧
    (outBlock .relinked 1000000 100000 10000 4000).map (fileTime 100000) = some 10400000000 := by decide

/-- C224 for Clusters that are kept with the Cues of the source, or if there is only one: the Timestamp is not converted; the
local time is converted if the time of the block was asked for and it fits. So the time is right in all cases if the scale is
unchanged; a block at the start of its Cluster has its time multiplied by the quotient of the scales. -/
theorem C224_kept_partial (old new ticks loc : Int) (a : Bool) (h : Ranges old new ticks loc) :
    ∃ r, outBlock (.kept a) old new ticks loc = some r ∧
      fileTime new r = (ticks + if a ∧ -32768 ≤ (loc * old).tdiv new ∧ (loc * old).tdiv new ≤ 32767 then (loc * old).tdiv new else loc) * new ∧
      (old = new → fileTime new r = srcTime old ticks loc) ∧
      (loc = 0 → (fileTime new r = srcTime old ticks loc ↔ old = new ∨ ticks = 0)) := by
  obtain ⟨g, e⟩ := kept_eq h a
  have hl : (if a then newLoc old new loc else loc) =
      if a ∧ -32768 ≤ (loc * old).tdiv new ∧ (loc * old).tdiv new ≤ 32767 then (loc * old).tdiv new else loc := by
    cases a
    · simp
    · unfold newLoc
      by_cases hf : -32768 ≤ (loc * old).tdiv new ∧ (loc * old).tdiv new ≤ 32767
      · rw [if_pos rfl, if_neg (by omega), if_pos ⟨rfl, hf⟩]
      · rw [if_pos rfl, if_pos (by omega), if_neg (by simp only [true_and]; exact hf)]
  refine ⟨_, e, by simp only [fileTime, Option.getD_some, hl], fun he => ?_, fun h0 => ?_⟩
  · subst he
    have : (loc * old).tdiv old = loc := Int.mul_tdiv_cancel _ (by have := h.old_pos; omega)
    simp only [fileTime, Option.getD_some, hl, this, ite_self, srcTime]
  · subst h0
    have : ((0 : Int) * old).tdiv new = 0 := by simp
    simp only [fileTime, Option.getD_some, hl, this, ite_self, srcTime, Int.add_zero]
    constructor
    · intro hh
      by_cases ht : ticks = 0
      · exact Or.inr ht
      · exact Or.inl (Int.eq_of_mul_eq_mul_left ht hh).symm
    · rintro (rfl | rfl)
      · rfl
      · simp

/-- Two blocks that were one tick apart, the first one looked up for a Cue, and doubled scale: they change places. -/
theorem C224_order_counterexample :
    (outBlock (.kept false) 50000 100000 0 1000).map (fileTime 100000) = some 100000000 ∧
    (outBlock (.kept true) 50000 100000 0 1001).map (fileTime 100000) = some 50000000 := by decide

/-- C224 for a piece of a laced block that `--remux` splits: within two ticks of the time of its first frame if that fits
16 bits; otherwise, and if the time of the frame is not known, at the start of the Cluster without an error. -/
theorem C224_piece_partial (old new start frame : Int) (hn : 0 < new) (h0 : 0 ≤ start) (h1 : start < 2 ^ 62) :
    (frame ≠ invalidTs → -2 ^ 62 ≤ frame → frame < 2 ^ 62 →
      -32768 ≤ (frame - start).tdiv new ∧ (frame - start).tdiv new ≤ 32767 →
      fileTime new (outPiece old new start frame) - frame < 2 * new ∧
      frame - fileTime new (outPiece old new start frame) < 2 * new ∧
      (new ∣ start → new ∣ frame → fileTime new (outPiece old new start frame) = frame)) ∧
    (frame = invalidTs ∨ -2 ^ 62 ≤ frame ∧ frame < 2 ^ 62 ∧
      ¬ (-32768 ≤ (frame - start).tdiv new ∧ (frame - start).tdiv new ≤ 32767) →
      fileTime new (outPiece old new start frame) = start.tdiv new * new) := by
  constructor
  · intro hf h2 h3 h4
    have t := two_ticks start (frame - start) new hn
    rw [show start + (frame - start) = frame by omega] at t
    have e : fileTime new (outPiece old new start frame) = (start.tdiv new + (frame - start).tdiv new) * new := by
      simp only [outPiece, new_clu _ _ _ hn, if_neg hf]
      rw [setTs_env old new _ _ _ hn (by omega) (by omega), if_neg (by omega)]
      rfl
    rw [e]
    exact ⟨t.1, t.2.1, fun ha hb => t.2.2.2 ha (Int.dvd_sub hb ha)⟩
  · intro hc
    rcases hc with hc | ⟨h2, h3, h4⟩
    · simp [outPiece, new_clu _ _ _ hn, hc, fileTime]
    · have hf : frame ≠ invalidTs := by unfold invalidTs; omega
      simp only [outPiece, new_clu _ _ _ hn, if_neg hf]
      rw [setTs_env old new _ _ _ hn (by omega) (by omega), if_pos (by omega)]
      simp [fileTime]

/-- The third frame of 24 ms of a block at 9.99 s goes to the Cluster at 10 s. -/
example : fileTime 1000000 (outPiece 1000000 1000000 10000000000 (9990000000 + 48000000)) = 10038000000 := by decide

/-! ## C225 -/

/-- A BlockGroup lasts as long in the output as in the source: its BlockDuration is in ticks. -/
def DurationsKept : Prop :=
  ∀ (fuel : Nat) (forced old new ticks : Int), 0 < old → 0 ≤ ticks → pickScale fuel forced old = .ok new →
    outDuration ticks * new - ticks * old < new ∧ ticks * old - outDuration ticks * new < new

/-- `--timecodescale 1000000` on a file in ticks of 100 µs: a subtitle shown for 2 s is shown for 20 s. -/
theorem C225_counterexample : ¬ DurationsKept := by
  intro h
  have := h 1 1000000 100000 1000000 20000 (by decide) (by decide) rfl
  exact absurd this (by decide)

/-- Without any option: a file in ticks of 22675 ns. -/
theorem C225_default_counterexample : pickScale 10 0 22675 = .ok 181400 ∧ outDuration 44100 * 181400 = 8 * (44100 * 22675) := by
  decide

/-- C225, what holds: the duration is multiplied by the quotient of the scales, so it is right exactly if the scale is not
changed or the duration is 0; without `--timecodescale` the scale is unchanged exactly if it is at least 100000, and the
duration at least doubles otherwise. -/
theorem C225_durations_partial (fuel : Nat) (forced old new ticks : Int) (h0 : 0 < old) (h1 : 0 < ticks)
    (hp : pickScale fuel forced old = .ok new) :
    outDuration ticks * new * old = (ticks * old) * new ∧
    (outDuration ticks * new = ticks * old ↔ new = old) ∧
    (forced ≠ 0 → new = forced) ∧
    (forced = 0 → 100000 ≤ old → outDuration ticks * new = ticks * old) ∧
    (forced = 0 → old < 100000 → 2 * (ticks * old) ≤ outDuration ticks * new) := by
  have hd : ∀ (f : Nat) (x y : Int), 0 < x → doubling f x = .ok y → (100000 ≤ x → y = x) ∧ (x < 100000 → 2 * x ≤ y) := by
    intro f
    induction f with
    | zero => intro x y _ h; simp [doubling] at h
    | succ f ih =>
      intro x y hx h
      rw [doubling] at h
      by_cases hlt : x < 100000
      · rw [if_pos hlt, if_neg (by omega)] at h
        have := ih (2 * x) y (by omega) h
        refine ⟨fun hh => by omega, fun _ => ?_⟩
        by_cases h2 : 100000 ≤ 2 * x
        · have := this.1 h2; omega
        · have := this.2 (by omega); omega
      · rw [if_neg hlt] at h
        cases h
        exact ⟨fun _ => rfl, fun hh => absurd hh hlt⟩
  have key : outDuration ticks * new = ticks * old ↔ new = old :=
    ⟨fun h => Int.eq_of_mul_eq_mul_left (show ticks ≠ 0 by omega) h, fun h => by rw [h]; rfl⟩
  unfold pickScale at hp
  refine ⟨?_, key, fun hf => ?_, fun hf hge => ?_, fun hf hlt => ?_⟩
  · unfold outDuration
    rw [Int.mul_assoc, Int.mul_assoc, Int.mul_comm new old]
  · rw [if_neg hf] at hp; cases hp; rfl
  · rw [if_pos hf] at hp
    exact key.2 ((hd _ _ _ h0 hp).1 hge)
  · rw [if_pos hf] at hp
    have := (hd _ _ _ h0 hp).2 hlt
    have e : ticks * (2 * old) ≤ ticks * new := Int.mul_le_mul_of_nonneg_left this (by omega)
    rw [← Int.mul_assoc, Int.mul_comm ticks 2, Int.mul_assoc] at e
    exact e

/-- One millisecond per tick stays. -/
example : pickScale 5 0 1000000 = .ok 1000000 ∧ outDuration 2500 * 1000000 = 2500 * 1000000 := by decide

end Verif.Mkclean.BlockTimes
