import Verif.Mkclean.RemuxLemmas
/-!
C112: `mkclean --remux` deals out every frame of every track, once and in order, to the new Clusters.
-/
set_option linter.unusedSimpArgs false
namespace Verif.Mkclean
open Verif.Mkv Verif.Core

/-- Specification: a block of a usable file. It has frames, its time is a time, and if the frames have known
durations they have an end. -/
def Usable (b : RBlk) : Prop :=
  b.frames ≠ [] ∧ b.dt < invalidTs ∧ (b.hasDur = true → ∀ f ∈ b.frames, f.finish < invalidTs)

theorem decodeTimes_frames : ∀ (bs : List RBlk) (p : Int),
    (decodeTimes p bs).flatMap (·.frames) = bs.flatMap (·.frames) := by
  intro bs
  induction bs with
  | nil => intro _; rfl
  | cons b bs ih => intro p; simp only [decodeTimes, List.flatMap_cons, ih]

theorem decodeTimes_length : ∀ (bs : List RBlk) (p : Int), (decodeTimes p bs).length = bs.length := by
  intro bs
  induction bs with
  | nil => intro _; rfl
  | cons b bs ih => intro p; simp only [decodeTimes, List.length_cons, ih]

theorem decodeTimes_keys : ∀ (bs : List RBlk) (p : Int), (decodeTimes p bs).map (·.key) = bs.map (·.key) := by
  intro bs
  induction bs with
  | nil => intro _; rfl
  | cons b bs ih => intro p; simp only [decodeTimes, List.map_cons, ih]

/-- Where blocks are in the order of their timestamps, these are the decoding times. -/
theorem decodeTimes_inOrder : ∀ (bs : List RBlk) (p : Int), (bs.map (·.ts)).Pairwise (· ≤ ·) →
    decodeTimes p bs = bs.map (fun b => { b with dt := b.ts }) := by
  intro bs
  induction bs with
  | nil => intro _ _; rfl
  | cons b bs ih =>
    intro p h
    rw [List.map_cons, List.pairwise_cons] at h
    cases bs with
    | nil => rfl
    | cons n bs =>
      have := h.1 n.ts (by simp)
      rw [decodeTimes]
      rw [if_neg (by omega), ih _ h.2]
      rfl

/-- **C112.** `mkclean --remux`, where the main track has at least two blocks, at least one of them a
keyframe, and keyframes with decoding times in order: unless a block cannot be put in the Cluster it falls in,
the new Clusters together hold, for each track, exactly the frames of that track, each once and in their
order. There is one Cluster per boundary, where the boundaries are the first keyframe time and the keyframe times
chosen from those that follow. -/
theorem C112_remux_keeps_frames (fits : Int → Nat → RBlk → Bool) (others : List Nat) (main : Nat)
    (tracks : Nat → List RBlk) (hm : main ∉ others)
    (husable : ∀ t ∈ others ++ [main], ∀ b ∈ decodeTimes invalidTs (tracks t), Usable b)
    (hlen : 2 ≤ (tracks main).length) (k0 : Int) (ks : List Int)
    (hkeys : ((decodeTimes invalidTs (tracks main)).filter (·.key)).map (·.dt) = k0 :: ks)
    (hsorted : (k0 :: ks).Pairwise (· ≤ ·)) :
    (∃ clusters, remux fits (others ++ [main]) main tracks = .ok clusters ∧
      clusters.length = (boundaries k0 ks).length + 1 ∧
      ∀ t ∈ others ++ [main],
        (clusters.flatten.filter (fun p => p.1 = t)).flatMap (·.2) = (tracks t).flatMap (·.frames)) ∨
    (remux fits (others ++ [main]) main tracks = .err ∧
      ∃ c, ∃ t ∈ others ++ [main], ∃ b ∈ decodeTimes invalidTs (tracks t), fits c t b = false) := by
  have hk : keyTimes (decodeTimes invalidTs (tracks main)) = k0 :: ks := hkeys
  have hmem : ∀ k ∈ k0 :: ks, k < invalidTs := by
    intro k hk'
    rw [← hkeys, List.mem_map] at hk'
    obtain ⟨b, hb, rfl⟩ := hk'
    exact (husable main (by simp) b (List.mem_filter.1 hb).1).2.1
  have hthin : thin ((k0 :: ks).length + 1) (k0 :: ks) 0 invalidTs = some (k0 :: boundaries k0 ks) := by
    rw [thin]
    simp only [List.getElem?_cons_zero, ne_eq, not_true_eq_false, false_and, if_false]
    have := thin_eq ks (k0 :: ks).length [k0] k0 (by simpa using hsorted) (by simp)
      (by have := hmem k0 (by simp); omega) (by intro t ht; have := hmem t (by simp [ht]); omega)
    simpa using this
  have hrun : remux fits (others ++ [main]) main tracks =
      dealAll fits (others ++ [main]) main ((tracks main).length + 1) (k0 :: boundaries k0 ks)
        (fun t => ⟨decodeTimes invalidTs (tracks t), 0⟩) := by
    unfold remux
    simp only
    rw [hk, hthin, decodeTimes_length]
    simp only [reduceCtorEq, if_false]
    rw [if_neg (by omega)]
  obtain ⟨b, rest, hbr⟩ : ∃ b rest, decodeTimes invalidTs (tracks main) = b :: rest := by
    cases h : decodeTimes invalidTs (tracks main) with
    | nil => have := decodeTimes_length (tracks main) invalidTs; rw [h] at this; simp at this; omega
    | cons b rest => exact ⟨b, rest, rfl⟩
  have hrl : rest.length + 1 = (tracks main).length := by
    have := decodeTimes_length (tracks main) invalidTs; rw [hbr] at this; simpa using this
  have hsub : ks.Sublist (rest.map (·.dt)) := by
    have h1 : ((b :: rest).filter (·.key)).Sublist (b :: rest) := List.filter_sublist
    rw [hbr] at hkeys
    by_cases hb : b.key = true
    · rw [List.filter_cons_of_pos hb, List.map_cons, List.cons.injEq] at hkeys
      rw [← hkeys.2]
      exact List.Sublist.map _ List.filter_sublist
    · rw [List.filter_cons_of_neg hb] at hkeys
      have h2 : (k0 :: ks).Sublist (rest.map (·.dt)) := by
        rw [← hkeys]; exact List.Sublist.map _ List.filter_sublist
      exact (List.sublist_cons_self k0 ks).trans h2
  rw [hrun]
  rcases dealAll_spec fits main others ((tracks main).length + 1) hm (boundaries k0 ks) k0 b rest
      (fun t => ⟨decodeTimes invalidTs (tracks t), 0⟩) (by simp only [hbr])
      (by
        intro t ht
        refine ⟨fun c hc => ?_, fun h0 => absurd rfl h0⟩
        have := husable t ht c hc
        exact ⟨this.1, this.2.2, Int.le_of_lt this.2.1⟩)
      (by omega)
      (by
        intro c hc
        exact (husable main (by simp) c (by rw [hbr]; simp [hc])).2.1)
      ((boundaries_sublist ks k0).trans hsub) with ⟨cl, h1, h2, h3⟩ | ⟨h1, h2⟩
  · refine Or.inl ⟨cl, h1, h2, ?_⟩
    intro t ht
    have := h3 t ht
    simp only [pending, List.drop_zero, decodeTimes_frames] at this
    exact this
  · exact Or.inr ⟨h1, h2⟩

/-- **C112**, for a file in which the blocks of each track are in the order of their timestamps. -/
theorem C112_in_order (fits : Int → Nat → RBlk → Bool) (others : List Nat) (main : Nat)
    (tracks : Nat → List RBlk) (hm : main ∉ others) (hfits : ∀ c t b, fits c t b = true)
    (husable : ∀ t ∈ others ++ [main], ∀ b ∈ tracks t, b.frames ≠ [] ∧ b.ts < invalidTs ∧
      (b.hasDur = true → ∀ f ∈ b.frames, f.finish < invalidTs))
    (horder : ∀ t ∈ others ++ [main], ((tracks t).map (·.ts)).Pairwise (· ≤ ·))
    (hlen : 2 ≤ (tracks main).length) (hkey : ∃ b ∈ tracks main, b.key = true) :
    ∃ clusters, remux fits (others ++ [main]) main tracks = .ok clusters ∧
      ∀ t ∈ others ++ [main],
        (clusters.flatten.filter (fun p => p.1 = t)).flatMap (·.2) = (tracks t).flatMap (·.frames) := by
  have hdec : ∀ t ∈ others ++ [main], decodeTimes invalidTs (tracks t) =
      (tracks t).map (fun b => { b with dt := b.ts }) := fun t ht => decodeTimes_inOrder _ _ (horder t ht)
  have hmm : main ∈ others ++ [main] := by simp
  cases hk : ((decodeTimes invalidTs (tracks main)).filter (·.key)).map (·.dt) with
  | nil =>
    exfalso
    rw [List.map_eq_nil_iff, List.filter_eq_nil_iff, hdec main hmm] at hk
    obtain ⟨b, hb, hbk⟩ := hkey
    exact hk { b with dt := b.ts } (List.mem_map.2 ⟨b, hb, rfl⟩) hbk
  | cons k0 ks =>
    rcases C112_remux_keeps_frames fits others main tracks hm (by
        intro t ht b hb
        rw [hdec t ht, List.mem_map] at hb
        obtain ⟨c, hc, rfl⟩ := hb
        obtain ⟨h1, h2, h3⟩ := husable t ht c hc
        exact ⟨h1, h2, h3⟩) hlen k0 ks hk (by
        rw [← hk, hdec main hmm]
        have h1 : ((tracks main).map (fun b => { b with dt := b.ts })).Pairwise (fun x y : RBlk => x.dt ≤ y.dt) := by
          rw [List.pairwise_map]
          have := horder main hmm
          rw [List.pairwise_map] at this
          exact this
        rw [List.pairwise_map]
        exact h1.sublist List.filter_sublist) with ⟨cl, h1, _, h3⟩ | ⟨_, c, t, _, b, _, hf⟩
    · exact ⟨cl, h1, h3⟩
    · rw [hfits] at hf; cases hf

/-- A video track (1) with keyframes at 0 s and 2 s, and an audio track (2) whose second block has frames
that end at 1.8 s and 2.2 s: the frames of that block are divided over the two Clusters. -/
def vblk (ts : Int) (key : Bool) (n : UInt8) : RBlk := ⟨ts, 0, key, false, true, false, [⟨[n], invalidTs⟩]⟩
def ablk (ts : Int) (fs : List RFrame) : RBlk := ⟨ts, 0, true, true, true, true, fs⟩
def exTracks : Nat → List RBlk
  | 1 => [vblk 0 true 0, vblk 1000000000 false 1, vblk 2000000000 true 2, vblk 3000000000 false 3]
  | 2 => [ablk 0 [⟨[10], 700000000⟩, ⟨[11], 1400000000⟩], ablk 1400000000 [⟨[12], 1800000000⟩, ⟨[13], 2200000000⟩],
      ablk 2200000000 [⟨[14], 2500000000⟩]]
  | _ => []

example : remux (fun _ _ _ => true) [2, 1] 1 exTracks = .ok
    [[(2, [⟨[10], 700000000⟩, ⟨[11], 1400000000⟩]), (1, [⟨[0], invalidTs⟩]), (2, [⟨[12], 1800000000⟩]), (1, [⟨[1], invalidTs⟩])],
     [(2, [⟨[13], 2200000000⟩]), (2, [⟨[14], 2500000000⟩]), (1, [⟨[2], invalidTs⟩]), (1, [⟨[3], invalidTs⟩])]] := by
  decide +kernel

/-- The theorem applies to it. -/
example : ∃ clusters, remux (fun _ _ _ => true) [2, 1] 1 exTracks = .ok clusters ∧
    ∀ t ∈ [2, 1], (clusters.flatten.filter (fun p => p.1 = t)).flatMap (·.2) = (exTracks t).flatMap (·.frames) :=
  C112_in_order (fun _ _ _ => true) [2] 1 exTracks (by decide) (fun _ _ _ => rfl) (by decide +kernel) (by decide +kernel)
    (by decide) (by decide)

/-- A main track of a single block: the address of a block behind the end of the array is used. -/
theorem C112_single_block_counterexample : ∃ tracks : Nat → List RBlk,
    (∀ t, ∀ b ∈ tracks t, b.frames ≠ []) ∧ (∃ b ∈ tracks 1, b.key = true) ∧
    remux (fun _ _ _ => true) [1] 1 tracks = .bad := by
  refine ⟨fun t => if t = 1 then [vblk 0 true 0] else [], ?_, ?_, by decide +kernel⟩
  · intro t b hb
    by_cases h : t = 1
    · simp only [h, if_true, List.mem_singleton] at hb; subst hb; decide
    · simp [h] at hb
  · exact ⟨vblk 0 true 0, by simp, rfl⟩

/-- In whatever way Clusters are refused, it is so for every track of one block. -/
theorem C112_single_block (fits : Int → Nat → RBlk → Bool) (order : List Nat) (main : Nat) (tracks : Nat → List RBlk)
    (b : RBlk) (h : tracks main = [b]) (hkey : b.key = true) : remux fits order main tracks = .bad := by
  unfold remux
  simp only [h, decodeTimes, keyTimes, List.filter_cons, hkey, if_true, List.filter_nil, List.map_cons, List.map_nil,
    List.length_singleton]
  simp [thin]

/-- Keyframes out of order: the program does not end. -/
theorem C112_disorder_counterexample : ∃ tracks : Nat → List RBlk,
    (∀ t, ∀ b ∈ tracks t, Usable b) ∧ (tracks 1).length = 5 ∧ (∀ b ∈ tracks 1, b.key = true) ∧
    remux (fun _ _ _ => true) [1] 1 tracks = .hang := by
  refine ⟨fun t => if t = 1 then [vblk 10000000000 true 0, vblk 5000000000 true 1, vblk 3000000000 true 2,
    vblk 4000000000 true 3, vblk 12000000000 true 4] else [], ?_, by decide,
    by simp [vblk], by decide +kernel⟩
  intro t b hb
  by_cases h : t = 1
  · simp only [h, if_true, List.mem_cons, List.not_mem_nil, or_false] at hb
    rcases hb with rfl | rfl | rfl | rfl | rfl <;> exact ⟨by decide, by decide, by decide⟩
  · simp [h] at hb

/-- A block without frames in a track other than the main track: the program does not end. -/
theorem C112_empty_block_counterexample : ∃ tracks : Nat → List RBlk,
    (∀ b ∈ tracks 1, Usable b) ∧ 2 ≤ (tracks 1).length ∧ (∃ b ∈ tracks 1, b.key = true) ∧
    remux (fun _ _ _ => true) [2, 1] 1 tracks = .hang := by
  refine ⟨fun t => if t = 1 then [vblk 0 true 0, vblk 1 true 1] else if t = 2 then [ablk 0 []] else [], ?_, by decide,
    ⟨vblk 0 true 0, by simp, rfl⟩, by decide +kernel⟩
  intro b hb
  simp only [if_true, List.mem_cons, List.not_mem_nil, or_false] at hb
  rcases hb with rfl | rfl <;> exact ⟨by decide, by decide, by decide⟩

/-- All frames of a laced block end before the next Cluster starts, and yet they are put in the next Cluster: the
block followed by one that starts within the next Cluster is taken for one whose frames are all late. -/
theorem C112_late_counterexample : ∃ tracks : Nat → List RBlk,
    (∀ t ∈ [2, 1], ∀ b ∈ tracks t, b.frames ≠ [] ∧ b.ts < invalidTs) ∧
    (tracks 2).map (fun b => b.frames.map (·.finish)) = [[500000000, 900000000], [2500000000]] ∧
    (keyTimes (decodeTimes invalidTs (tracks 1))) = [0, 2000000000] ∧
    ∃ first second, remux (fun _ _ _ => true) [2, 1] 1 tracks = .ok [first, second] ∧
      first.filter (fun p => p.1 = 2) = [] ∧ (second.filter (fun p => p.1 = 2)).length = 2 := by
  refine ⟨fun t => if t = 1 then [vblk 0 true 0, vblk 1000000000 false 1, vblk 2000000000 true 2] else
    if t = 2 then [ablk 0 [⟨[10], 500000000⟩, ⟨[11], 900000000⟩], ablk 2100000000 [⟨[12], 2500000000⟩]] else [],
    by decide +kernel, by decide +kernel, by decide +kernel,
    [(1, [⟨[0], invalidTs⟩]), (1, [⟨[1], invalidTs⟩])],
    [(2, [⟨[10], 500000000⟩, ⟨[11], 900000000⟩]), (2, [⟨[12], 2500000000⟩]), (1, [⟨[2], invalidTs⟩])], by decide +kernel, by decide, by decide⟩

end Verif.Mkclean
