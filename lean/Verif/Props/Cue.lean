import Verif.Mkclean.Cue
import Verif.Mkv.TimeLemmas
/-!
C120: the TimestampScale mkclean chooses and the times of the Clusters under it.

C121: the Cues of the source still name the blocks they named.

C122: the Cues mkclean makes up.

C123: the Clusters mkclean writes have ascending times.
-/
namespace Verif.Mkclean
open Verif.Mkv

/-! ## C120 -/

/-- mkclean settles on a scale whatever the file says. -/
def ScaleFound : Prop := ∀ old : Int, -2 ^ 63 ≤ old → old < 2 ^ 63 → ∃ fuel r, pickScale fuel 0 old = .ok r

theorem doubling_zero (fuel : Nat) : doubling fuel 0 = .hang := by
  induction fuel with
  | zero => rfl
  | succ n ih => simpa [doubling] using ih

/-- A TimestampScale of 0 makes mkclean run forever. -/
theorem C120_scale_counterexample : ¬ ScaleFound := by
  intro h
  obtain ⟨fuel, r, hf⟩ := h 0 (by decide) (by decide)
  rw [pickScale, if_pos rfl, doubling_zero] at hf
  cases hf

theorem doubling_spec (n : Nat) : ∀ x : Int, 0 < x → 100000 ≤ x * 2 ^ n →
    ∃ k, (∀ fuel, k < fuel → doubling fuel x = .ok (x * 2 ^ k)) ∧ 100000 ≤ x * 2 ^ k ∧
      (∀ j, j < k → x * 2 ^ j < 100000) := by
  induction n with
  | zero =>
    intro x h0 h1
    refine ⟨0, ?_, by simpa using h1, by omega⟩
    intro fuel hf
    obtain ⟨m, rfl⟩ : ∃ m, fuel = m + 1 := ⟨fuel - 1, by omega⟩
    simp only [doubling]
    rw [if_neg (by omega)]
    simp
  | succ n ih =>
    intro x h0 h1
    by_cases hx : x < 100000
    · obtain ⟨k, a, b, c⟩ := ih (2 * x) (by omega) (by rw [Int.pow_succ] at h1; rw [Int.mul_comm 2 x, Int.mul_assoc, Int.mul_comm 2]; exact h1)
      have e (j : Nat) : 2 * x * 2 ^ j = x * 2 ^ (j + 1) := by rw [Int.pow_succ, Int.mul_comm 2 x, Int.mul_assoc, Int.mul_comm 2]
      refine ⟨k + 1, ?_, by rw [← e]; exact b, ?_⟩
      · intro fuel hf
        obtain ⟨m, rfl⟩ : ∃ m, fuel = m + 1 := ⟨fuel - 1, by omega⟩
        simp only [doubling]
        rw [if_pos hx, if_neg (by omega), a m (by omega), e]
      · intro j hj
        cases j with
        | zero => simpa using hx
        | succ j => rw [← e]; exact c j (by omega)
    · refine ⟨0, ?_, by simp; omega, by omega⟩
      intro fuel hf
      obtain ⟨m, rfl⟩ : ∃ m, fuel = m + 1 := ⟨fuel - 1, by omega⟩
      simp only [doubling]
      rw [if_neg hx]
      simp

/-- Without `--timecodescale` mkclean settles on a scale exactly if that of the file is positive as an `int64_t`, and takes
the smallest double, fourfold, ... of it that is at least 100000. A given scale is taken as it is. -/
theorem C120_scale_partial (old : Int) :
    (old = 0 → ∀ fuel, pickScale fuel 0 old = .hang) ∧ (old < 0 → ∀ fuel, pickScale (fuel + 1) 0 old = .bad) ∧
    (0 < old → ∃ k, (∀ fuel, k < fuel → pickScale fuel 0 old = .ok (old * 2 ^ k)) ∧ 100000 ≤ old * 2 ^ k ∧
      ∀ j, j < k → old * 2 ^ j < 100000) ∧
    ∀ forced fuel, forced ≠ 0 → pickScale fuel forced old = .ok forced := by
  refine ⟨fun h fuel => ?_, fun h fuel => ?_, fun h => ?_, fun forced fuel hf => by rw [pickScale, if_neg hf]⟩
  · subst h; rw [pickScale, if_pos rfl]; exact doubling_zero fuel
  · rw [pickScale, if_pos rfl]; simp only [doubling]; rw [if_pos (by omega), if_pos h]
  · simp only [pickScale, if_true]
    exact doubling_spec 17 old h (by omega)

/-- 22675 ns, one sample at 44.1 kHz. -/
example : pickScale 10 0 22675 = .ok 181400 := by decide

/-- The time of a Cluster in a file with the scale `scale`. -/
def clusterTime (scale : Int) (c : TClu) : Int := c.elt.getD 0 * scale

/-- Without remuxing the Cluster times of the output are those of the source, within one tick of the output. -/
def ClusterTimesKept : Prop :=
  ∀ (cues : Bool) (n : Nat) (old new ticks : Int), 0 < old → 0 < new → 0 ≤ ticks → ticks * old < invalidTs →
    clusterTime new (outCluster (relinks cues n) old new ticks) ≤ ticks * old ∧
    ticks * old < clusterTime new (outCluster (relinks cues n) old new ticks) + new

/-- An audio file with Cues and the scale 22675: the Cluster at 10 s is at 80 s afterwards. -/
theorem C120_cluster_times_counterexample : ¬ ClusterTimesKept := by
  intro h
  have := (h true 5 22675 181400 441000 (by decide) (by decide) (by decide) (by decide)).1
  exact absurd this (by decide)

theorem outCluster_elt (r : Bool) (old new ticks : Int) (h0 : 0 < old) (h1 : 0 < new) (h2 : 0 ≤ ticks)
    (h3 : ticks * old < invalidTs) :
    (outCluster r old new ticks).elt = some (if r then Int.tdiv (ticks * old) new else ticks) := by
  have hn : 0 ≤ ticks * old := Int.mul_nonneg h2 (by omega)
  have hs : s64 (ticks * old) = ticks * old := s64_of_range _ (by omega) (by unfold invalidTs at h3; omega)
  have e : Int.tdiv (ticks * old) old = ticks := Int.mul_tdiv_cancel _ (by omega)
  cases r
  · simp [outCluster, cluSetTs, cluTs, hs, scale64, e, show old ≠ 0 by omega]
  · simp [outCluster, cluSetTs, cluTs, hs, scale64, show old ≠ 0 by omega, show new ≠ 0 by omega, show ticks * old ≠ invalidTs by omega]

/-- Clusters keep their times within one tick if there are no Cues and at least two Clusters. Otherwise their times are
multiplied by the quotient of the scales, so that only an unchanged scale or the time 0 is right. -/
theorem C120_cluster_times_partial (cues : Bool) (n : Nat) (old new ticks : Int) (h0 : 0 < old) (h1 : 0 < new)
    (h2 : 0 ≤ ticks) (h3 : ticks * old < invalidTs) :
    (cues = false ∧ 1 < n →
      clusterTime new (outCluster (relinks cues n) old new ticks) ≤ ticks * old ∧
      ticks * old < clusterTime new (outCluster (relinks cues n) old new ticks) + new) ∧
    (¬ (cues = false ∧ 1 < n) →
      clusterTime new (outCluster (relinks cues n) old new ticks) = ticks * new ∧
      (clusterTime new (outCluster (relinks cues n) old new ticks) = ticks * old ↔ old = new ∨ ticks = 0)) := by
  have he := outCluster_elt (relinks cues n) old new ticks h0 h1 h2 h3
  constructor
  · rintro ⟨rfl, hn⟩
    have hr : relinks false n = true := by simp [relinks, hn]
    rw [hr] at he ⊢
    simp only [clusterTime, he, Option.getD_some, if_true]
    have := tdiv_near (ticks * old) new h1
    have hp : 0 ≤ ticks * old := Int.mul_nonneg h2 (by omega)
    omega
  · intro hc
    have hr : relinks cues n = false := by
      cases cues <;> simp [relinks] at hc ⊢
      omega
    rw [hr] at he ⊢
    simp only [clusterTime, he, Option.getD_some, Bool.false_eq_true, if_false, true_and]
    constructor
    · intro h
      by_cases ht : ticks = 0
      · exact Or.inr ht
      · exact Or.inl (Int.eq_of_mul_eq_mul_left ht h).symm
    · rintro (rfl | rfl) <;> simp

example : clusterTime 181400 (outCluster (relinks false 5) 22675 181400 441003) = 441000 * 22675 := by decide

/-! ## C121 -/

/-- A block named by time and track. -/
def Names (time track : Int) (clusters : List (List BKey)) (p : Nat × Nat) : Prop :=
  ∃ c b, clusters[p.1]? = some c ∧ c[p.2]? = some b ∧ b.time = time ∧ b.track = track

/-- The track numbers of blocks read from a file (at most two bytes of a coded number). -/
def TracksOk (clusters : List (List BKey)) : Prop := ∀ c ∈ clusters, ∀ b ∈ c, 0 ≤ b.track ∧ b.track < 2 ^ 15

theorem blockAt_some (time track : Int) (bs : List BKey) (i : Nat) (h : blockAt time track bs = some i) :
    ∃ b, bs[i]? = some b ∧ b.time = time ∧ b.track = s16 track := by
  induction bs generalizing i with
  | nil => simp [blockAt] at h
  | cons b bs ih =>
    simp only [blockAt] at h
    by_cases hb : b.track = s16 track ∧ b.time = time
    · rw [if_pos hb] at h
      obtain rfl := Option.some.inj h
      exact ⟨b, rfl, hb.2, hb.1⟩
    · rw [if_neg hb] at h
      obtain ⟨j, hj, rfl⟩ := Option.map_eq_some_iff.1 h
      simpa using ih j hj

theorem blockAt_none (time track : Int) (bs : List BKey) (h : blockAt time track bs = none) :
    ∀ b ∈ bs, ¬ (b.track = s16 track ∧ b.time = time) := by
  induction bs with
  | nil => simp
  | cons b bs ih =>
    simp only [blockAt] at h
    by_cases hb : b.track = s16 track ∧ b.time = time
    · rw [if_pos hb] at h; exact absurd h (by simp)
    · rw [if_neg hb] at h
      intro x hx
      rcases List.mem_cons.1 hx with rfl | hx
      · exact hb
      · exact ih (Option.map_eq_none_iff.1 h) x hx

theorem scan_some (time track : Int) (cs : List (List BKey)) (p : Nat × Nat) (h : scan time track cs = some p) :
    Names time (s16 track) cs p := by
  induction cs generalizing p with
  | nil => simp [scan] at h
  | cons c cs ih =>
    simp only [scan] at h
    cases hb : blockAt time track c with
    | some i =>
      rw [hb] at h
      obtain rfl := Option.some.inj h
      obtain ⟨b, h1, h2, h3⟩ := blockAt_some time track c i hb
      exact ⟨c, b, rfl, h1, h2, h3⟩
    | none =>
      rw [hb] at h
      obtain ⟨q, hq, rfl⟩ := Option.map_eq_some_iff.1 h
      obtain ⟨c', b, h1, h2⟩ := ih q hq
      exact ⟨c', b, by simpa using h1, h2⟩

theorem scan_none (time track : Int) (cs : List (List BKey)) (h : scan time track cs = none) :
    ∀ p, ¬ Names time (s16 track) cs p := by
  have key : ∀ c ∈ cs, ∀ b ∈ c, ¬ (b.track = s16 track ∧ b.time = time) := by
    induction cs with
    | nil => simp
    | cons c cs ih =>
      simp only [scan] at h
      cases hb : blockAt time track c with
      | some i => rw [hb] at h; exact absurd h (by simp)
      | none =>
        rw [hb] at h
        intro x hx
        rcases List.mem_cons.1 hx with rfl | hx
        · exact blockAt_none time track x hb
        · exact ih (Option.map_eq_none_iff.1 h) x hx
  rintro p ⟨c, b, h1, h2, h3, h4⟩
  exact key c (List.mem_of_getElem? h1) b (List.mem_of_getElem? h2) ⟨h4, h3⟩

theorem linkCue_spec (clusters : List (List BKey)) (start : Option Nat) (time track : Int) :
    (∀ p, linkCue clusters start time track = some p → Names time (s16 track) clusters p) ∧
    (linkCue clusters start time track = none → ∀ p, ¬ Names time (s16 track) clusters p) := by
  cases start with
  | none => exact ⟨fun p => scan_some time track clusters p, scan_none time track clusters⟩
  | some s =>
    simp only [linkCue]
    cases h : scan time track ((clusters.drop s).take 7) with
    | none => exact ⟨fun p => scan_some time track clusters p, scan_none time track clusters⟩
    | some q =>
      refine ⟨?_, by simp⟩
      rintro p hp
      obtain rfl := Option.some.inj hp
      obtain ⟨c, b, h1, h2⟩ := scan_some _ _ _ _ h
      rw [List.getElem?_take] at h1
      split at h1
      · rw [List.getElem?_drop] at h1
        exact ⟨c, b, by rw [Nat.add_comm]; exact h1, h2⟩
      · exact absurd h1 (by simp)

theorem s16_of_range (t : Int) (h0 : 0 ≤ t) (h1 : t < 2 ^ 15) : s16 t = t := by unfold s16; omega

theorem linkCues_spec (scale : Int) (clusters : List (List BKey)) (start : Option Nat) (cues : List Cue) (i : Nat) (c : Cue)
    (hc : cues[i]? = some c) :
    ∃ r, (linkCues scale clusters start cues)[i]? = some r ∧
      (∀ p, r = some p → Names (cueTs scale c) (s16 (cueTrack c)) clusters p) ∧
      (r = none → ∀ p, ¬ Names (cueTs scale c) (s16 (cueTrack c)) clusters p) := by
  induction cues generalizing start i with
  | nil => simp at hc
  | cons d ds ih =>
    cases i with
    | zero =>
      obtain rfl : d = c := by simpa using hc
      exact ⟨_, rfl, (linkCue_spec clusters start _ _).1, (linkCue_spec clusters start _ _).2⟩
    | succ i => simpa [linkCues] using ih _ i (by simpa using hc)

/-- A Cue of the source, with the scale `old`, that names a block is written with the time and track of that block in the
scale `new`. -/
def CuesKept : Prop :=
  ∀ (old new : Int) (clusters : List (List BKey)) (cues : List Cue) (i : Nat) (t k : Int) (p : Nat × Nat),
    0 < old → 0 < new → TracksOk clusters → 0 ≤ t → t * old < invalidTs → 0 ≤ k → k < 2 ^ 15 →
    cues[i]? = some ⟨some t, some k⟩ → Names (t * old) k clusters p →
    ((linkCues new clusters none cues)[i]?.bind (cuePointOf new clusters)) = some ⟨some (Int.tdiv (t * old) new), some k⟩

/-- The Cue at 1 s of a file with the scale 22675 is looked for at 8 s and updated without a block. -/
theorem C121_cues_counterexample : ¬ CuesKept := by
  intro h
  have := h 22675 181400 [[⟨0, 1⟩], [⟨44100 * 22675, 1⟩]] [⟨some 44100, some 1⟩] 0 44100 1 (1, 0) (by decide) (by decide)
    (by intro c hc b hb
        simp only [List.mem_cons, List.not_mem_nil, or_false] at hc
        rcases hc with rfl | rfl <;> simp only [List.mem_cons, List.not_mem_nil, or_false] at hb <;> subst hb <;> decide)
    (by decide) (by decide) (by decide) (by decide) rfl ⟨_, _, rfl, rfl, by decide, rfl⟩
  exact absurd this (by decide)

/-- With an unchanged scale every Cue that names a block keeps its time and track and is linked with such a block. A Cue
that names none is updated through a null pointer. -/
theorem C121_cues_partial (scale : Int) (clusters : List (List BKey)) (cues : List Cue) (i : Nat) (t k : Int) (h0 : 0 < scale)
    (ht : 0 ≤ t) (hm : t * scale < invalidTs) (hk : 0 ≤ k) (hl : k < 2 ^ 15) (hc : cues[i]? = some ⟨some t, some k⟩) :
    ((∃ p, Names (t * scale) k clusters p) →
      (∃ p, (linkCues scale clusters none cues)[i]? = some (some p) ∧ Names (t * scale) k clusters p) ∧
      ((linkCues scale clusters none cues)[i]?.bind (cuePointOf scale clusters)) = some ⟨some t, some k⟩) ∧
    ((¬ ∃ p, Names (t * scale) k clusters p) → (linkCues scale clusters none cues)[i]? = some none ∧
      cuePointOf scale clusters none = none) := by
  have hp : 0 ≤ t * scale := Int.mul_nonneg ht (by omega)
  obtain ⟨r, hr, h1, h2⟩ := linkCues_spec scale clusters none cues i _ hc
  have e1 : cueTs scale ⟨some t, some k⟩ = t * scale := s64_of_range _ (by omega) (by unfold invalidTs at hm; omega)
  have e2 : s16 (cueTrack ⟨some t, some k⟩) = k := by simp only [cueTrack, s16]; omega
  rw [e1, e2] at h1 h2
  cases r with
  | none =>
    exact ⟨fun ⟨p, hp⟩ => absurd hp (h2 rfl p), fun _ => ⟨hr, rfl⟩⟩
  | some p =>
    have hn := h1 p rfl
    refine ⟨fun _ => ⟨⟨p, hr, hn⟩, ?_⟩, fun h => absurd ⟨p, hn⟩ h⟩
    obtain ⟨c, b, g1, g2, g3, g4⟩ := hn
    rw [hr]
    simp only [Option.bind_some, cuePointOf, g1, Option.getD_some, g2, Option.map_some, g3, g4, scale64,
      if_neg (show ¬ scale = 0 by omega), Int.mul_tdiv_cancel _ (show scale ≠ 0 by omega)]

example : linkCues 1000000 [[⟨0, 1⟩], [⟨5000000, 2⟩, ⟨5000000, 1⟩]] none [⟨some 5, some 1⟩, ⟨some 0, some 1⟩] =
    [some (1, 1), some (0, 0)] := by decide

/-- A CueTrack of 65537 is taken for track 1. -/
example : linkCues 1000000 [[⟨0, 1⟩]] none [⟨some 0, some 65537⟩] = [some (0, 0)] := by decide

/-! ## C122 -/

/-- The first child of a Cluster with a keyframe of the track, by `keyOf`. -/
def FirstKeyOf (main : Int) (c : List Child) (b : BKey) : Prop :=
  ∃ pre x post, c = pre ++ x :: post ∧ keyOf x = some b ∧ b.track = main ∧
    ∀ y ∈ pre, ∀ d, keyOf y = some d → d.track ≠ main

theorem firstKey_some (main : Int) (c : List Child) (b : BKey) (h : firstKey main c = some b) : FirstKeyOf main c b := by
  induction c with
  | nil => simp [firstKey] at h
  | cons x c ih =>
    simp only [firstKey] at h
    cases hx : keyOf x with
    | none =>
      rw [hx] at h
      obtain ⟨pre, y, post, rfl, h1, h2, h3⟩ := ih h
      exact ⟨x :: pre, y, post, rfl, h1, h2, by intro z hz d hd; rcases List.mem_cons.1 hz with rfl | hz; · rw [hx] at hd; cases hd
                                                · exact h3 z hz d hd⟩
    | some d =>
      rw [hx] at h
      by_cases hd : d.track = main
      · simp only [if_pos hd] at h
        obtain rfl := Option.some.inj h
        exact ⟨[], x, c, rfl, hx, hd, by simp⟩
      · simp only [if_neg hd] at h
        obtain ⟨pre, y, post, rfl, h1, h2, h3⟩ := ih h
        refine ⟨x :: pre, y, post, rfl, h1, h2, ?_⟩
        intro z hz e he
        rcases List.mem_cons.1 hz with rfl | hz
        · rw [hx] at he; obtain rfl := Option.some.inj he; exact hd
        · exact h3 z hz e he

theorem firstKey_none (main : Int) (c : List Child) (h : firstKey main c = none) :
    ∀ y ∈ c, ∀ d, keyOf y = some d → d.track ≠ main := by
  induction c with
  | nil => simp
  | cons x c ih =>
    simp only [firstKey] at h
    intro y hy d hd
    cases hx : keyOf x with
    | none =>
      rw [hx] at h
      rcases List.mem_cons.1 hy with rfl | hy
      · rw [hx] at hd; cases hd
      · exact ih h y hy d hd
    | some e =>
      rw [hx] at h
      by_cases he : e.track = main
      · simp only [if_pos he] at h; cases h
      · simp only [if_neg he] at h
        rcases List.mem_cons.1 hy with rfl | hy
        · rw [hx] at hd; obtain rfl := Option.some.inj hd; exact he
        · exact ih h y hy d hd

/-- The times of keyframes, by `keyOf`. -/
def TimesOf (cs : List (List Child)) : Prop := ∀ c ∈ cs, ∀ x ∈ c, ∀ b, keyOf x = some b → 0 ≤ b.time ∧ b.time < invalidTs

theorem newCues_spec (main : Int) (cs : List (List Child)) (hok : TimesOf cs) :
    ∀ prev i, (prev = invalidTs ∨ 0 ≤ prev ∧ prev < invalidTs) →
      (∀ e ∈ newCues main prev i cs, ∃ j c, e.1 = i + j ∧ cs[j]? = some c ∧ FirstKeyOf main c e.2) ∧
      (newCues main prev i cs).Pairwise (fun a b => a.1 < b.1 ∧ a.2.time + 800000000 ≤ b.2.time) ∧
      (prev ≠ invalidTs → ∀ e ∈ newCues main prev i cs, prev + 800000000 ≤ e.2.time) ∧
      (∀ (j : Nat) c b, cs[j]? = some c → FirstKeyOf main c b → (i + j, b) ∈ newCues main prev i cs ∨
        (prev ≠ invalidTs ∧ b.time < prev + 800000000) ∨ ∃ e ∈ newCues main prev i cs, e.1 < i + j ∧ b.time < e.2.time + 800000000) := by
  induction cs with
  | nil => intro prev i _; simp [newCues]
  | cons c cs ih =>
    have hok' : TimesOf cs := fun d hd => hok d (List.mem_cons_of_mem _ hd)
    have unique : ∀ b, FirstKeyOf main c b → firstKey main c = some b := by
      rintro b ⟨pre, x, post, rfl, h1, h2, h3⟩
      clear hok
      induction pre with
      | nil => simp [firstKey, h1, h2]
      | cons y pre ihp =>
        have := ihp (fun z hz => h3 z (List.mem_cons_of_mem _ hz))
        simp only [List.cons_append, firstKey]
        cases hy : keyOf y with
        | none => simpa using this
        | some d => simp only [if_neg (h3 y List.mem_cons_self d hy)]; exact this
    intro prev i hprev
    simp only [newCues]
    cases hf : firstKey main c with
    | none =>
      obtain ⟨a1, a2, a3, a4⟩ := ih hok' prev (i + 1) hprev
      refine ⟨?_, a2, a3, ?_⟩
      · intro e he
        obtain ⟨j, d, h1, h2, h3⟩ := a1 e he
        exact ⟨j + 1, d, by omega, by simpa using h2, h3⟩
      · intro j d b hd hb
        cases j with
        | zero =>
          obtain rfl : c = d := by simpa using hd
          rw [unique b hb] at hf; cases hf
        | succ j =>
          have := a4 j d b (by simpa using hd) hb
          rw [show i + 1 + j = i + (j + 1) by omega] at this
          exact this
    | some b0 =>
      have hb0 : 0 ≤ b0.time ∧ b0.time < invalidTs := by
        obtain ⟨pre, x, post, hc, h1, _⟩ := firstKey_some main c b0 hf
        exact hok c List.mem_cons_self x (by rw [hc]; simp) b0 h1
      by_cases hs : s64 (b0.time - prev) < 800000000 ∧ prev ≠ invalidTs
      · simp only [if_pos hs]
        obtain ⟨a1, a2, a3, a4⟩ := ih hok' prev (i + 1) hprev
        refine ⟨?_, a2, a3, ?_⟩
        · intro e he
          obtain ⟨j, d, h1, h2, h3⟩ := a1 e he
          exact ⟨j + 1, d, by omega, by simpa using h2, h3⟩
        · intro j d b hd hb
          cases j with
          | zero =>
            obtain rfl : c = d := by simpa using hd
            have hbb := unique b hb
            rw [hf] at hbb
            obtain rfl := Option.some.inj hbb
            have e := s64_of_range (b0.time - prev) (by unfold invalidTs at *; omega) (by unfold invalidTs at *; omega)
            exact Or.inr (Or.inl ⟨hs.2, by omega⟩)
          | succ j =>
            have := a4 j d b (by simpa using hd) hb
            rw [show i + 1 + j = i + (j + 1) by omega] at this
            exact this
      · simp only [if_neg hs]
        obtain ⟨a1, a2, a3, a4⟩ := ih hok' b0.time (i + 1) (Or.inr hb0)
        have hne : b0.time ≠ invalidTs := by omega
        refine ⟨?_, ?_, ?_, ?_⟩
        · intro e he
          rcases List.mem_cons.1 he with rfl | he
          · exact ⟨0, c, rfl, rfl, firstKey_some main c b0 hf⟩
          · obtain ⟨j, d, h1, h2, h3⟩ := a1 e he
            exact ⟨j + 1, d, by omega, by simpa using h2, h3⟩
        · refine List.pairwise_cons.2 ⟨fun e he => ⟨?_, a3 hne e he⟩, a2⟩
          obtain ⟨j, d, h1, _⟩ := a1 e he
          show i < e.1
          omega
        · intro hp
          have e := s64_of_range (b0.time - prev) (by unfold invalidTs at *; omega) (by unfold invalidTs at *; omega)
          have hge : prev + 800000000 ≤ b0.time := by
            have : ¬ s64 (b0.time - prev) < 800000000 := fun h => hs ⟨h, hp⟩
            omega
          intro x hx
          rcases List.mem_cons.1 hx with rfl | hx
          · exact hge
          · have := a3 hne x hx
            omega
        · intro j d b hd hb
          cases j with
          | zero =>
            obtain rfl : c = d := by simpa using hd
            have hbb := unique b hb
            rw [hf] at hbb
            obtain rfl := Option.some.inj hbb
            exact Or.inl List.mem_cons_self
          | succ j =>
            have := a4 j d b (by simpa using hd) hb
            rw [show i + 1 + j = i + (j + 1) by omega] at this
            rcases this with h | h | ⟨e, he, h⟩
            · exact Or.inl (List.mem_cons_of_mem _ h)
            · exact Or.inr (Or.inr ⟨(i, b0), List.mem_cons_self, by show i < _; omega, h.2⟩)
            · exact Or.inr (Or.inr ⟨e, List.mem_cons_of_mem _ he, h⟩)

/-- Specification: a keyframe is a SimpleBlock with the keyframe flag or a Block of a BlockGroup without ReferenceBlock. -/
inductive Keyframe : Child → BKey → Prop
  | simple (b : BKey) : Keyframe (.simple true b) b
  | group (b : BKey) : Keyframe (.group (some b) 0) b

theorem keyOf_iff (x : Child) (b : BKey) : keyOf x = some b ↔ Keyframe x b := by
  constructor
  · intro h
    cases x with
    | other => cases h
    | simple key c =>
      cases key
      · cases h
      · cases h; exact .simple _
    | group c refs =>
      cases refs with
      | zero => simp only [keyOf, if_true] at h; subst h; exact .group _
      | succ n => simp [keyOf] at h
  · intro h; cases h <;> rfl

/-- Specification: the first keyframe of the track among the children of a Cluster. -/
def IsFirstKey (main : Int) (c : List Child) (b : BKey) : Prop :=
  ∃ pre x post, c = pre ++ x :: post ∧ Keyframe x b ∧ b.track = main ∧ ∀ y ∈ pre, ∀ d, Keyframe y d → d.track ≠ main

/-- Times a file can hold: not negative and below 2^63 - 1. -/
def TimesOk (cs : List (List Child)) : Prop := ∀ c ∈ cs, ∀ x ∈ c, ∀ b, Keyframe x b → 0 ≤ b.time ∧ b.time < invalidTs

/-- Every Cue mkclean makes up names the first keyframe of the main track in its Cluster; there is at most one for a Cluster
and they are at least 800 ms apart, in order; and a Cluster with a keyframe of the main track gets none only if the first
one comes less than 800 ms after a Cue for an earlier Cluster. -/
theorem C122_new_cues (main : Int) (cs : List (List Child)) (hok : TimesOk cs) :
    (∀ e ∈ newCues main invalidTs 0 cs, ∃ c, cs[e.1]? = some c ∧ IsFirstKey main c e.2) ∧
    (newCues main invalidTs 0 cs).Pairwise (fun a b => a.1 < b.1 ∧ a.2.time + 800000000 ≤ b.2.time) ∧
    ∀ (j : Nat) c b, cs[j]? = some c → IsFirstKey main c b → (j, b) ∈ newCues main invalidTs 0 cs ∨
      ∃ e ∈ newCues main invalidTs 0 cs, e.1 < j ∧ b.time < e.2.time + 800000000 := by
  have hk : ∀ c b, FirstKeyOf main c b ↔ IsFirstKey main c b := by
    intro c b; unfold FirstKeyOf IsFirstKey; simp only [keyOf_iff]
  have ho : TimesOf cs := fun c hc x hx b hb => hok c hc x hx b ((keyOf_iff x b).mp hb)
  obtain ⟨a1, a2, _, a4⟩ := newCues_spec main cs ho invalidTs 0 (Or.inl rfl)
  simp only [hk] at a1 a4
  refine ⟨?_, a2, ?_⟩
  · intro e he
    obtain ⟨j, c, h1, h2, h3⟩ := a1 e he
    exact ⟨c, by rw [h1, Nat.zero_add]; exact h2, h3⟩
  · intro j c b hc hb
    have := a4 j c b hc hb
    rw [Nat.zero_add] at this
    rcases this with h | h | h
    · exact Or.inl h
    · exact absurd rfl h.1
    · exact Or.inr h

example : newCues 1 invalidTs 0
    [[.other, .simple false ⟨0, 1⟩, .simple true ⟨40000000, 1⟩], [.simple true ⟨500000000, 1⟩], [.group (some ⟨900000000, 1⟩) 0]] =
    [(0, ⟨40000000, 1⟩), (2, ⟨900000000, 1⟩)] := by decide

/-! ## C123 -/

theorem writeTimes_spec (scale : Int) (h0 : 0 < scale) (ts : List Int) :
    ∀ prev, (∀ t ∈ ts, 0 ≤ t ∧ t + scale * (ts.length : Int) < invalidTs) →
      (prev = invalidTs ∨ 0 ≤ prev ∧ prev + scale * (ts.length : Int) < invalidTs) →
      (writeTimes scale prev ts).length = ts.length ∧
      (prev ≠ invalidTs → ∀ w ∈ writeTimes scale prev ts, prev < w) ∧
      (writeTimes scale prev ts).Pairwise (· < ·) ∧
      (∀ t w : Int, ∀ n : Nat, ts[n]? = some t → (writeTimes scale prev ts)[n]? = some w → t ≤ w) ∧
      ((prev = invalidTs ∨ scale ∣ prev) → (∀ t ∈ ts, scale ∣ t) → ∀ w ∈ writeTimes scale prev ts, scale ∣ w) := by
  induction ts with
  | nil => intro prev _ _; simp [writeTimes]
  | cons t ts ih =>
    intro prev ht hprev
    have hl : ((t :: ts).length : Int) = (ts.length : Int) + 1 := by simp
    have hmul : scale * ((t :: ts).length : Int) = scale * (ts.length : Int) + scale := by rw [hl, Int.mul_add, Int.mul_one]
    have hz : 0 ≤ scale * (ts.length : Int) := Int.mul_nonneg (by omega) (by omega)
    rw [hmul] at hprev
    simp only [hmul] at ht
    generalize hL : scale * (ts.length : Int) = L at *
    have htt := ht t List.mem_cons_self
    simp only [writeTimes]
    obtain ⟨w, hw⟩ : ∃ w, w = (if prev ≠ invalidTs ∧ prev ≥ t then s64 (prev + scale) else t) := ⟨_, rfl⟩
    rw [← hw]
    have hwp : (0 ≤ w ∧ w + L < invalidTs) ∧ t ≤ w ∧ (prev ≠ invalidTs → prev < w) ∧
        ((prev = invalidTs ∨ scale ∣ prev) → scale ∣ t → scale ∣ w) := by
      by_cases hc : prev ≠ invalidTs ∧ prev ≥ t
      · rw [if_pos hc] at hw
        have hp : 0 ≤ prev ∧ prev + (L + scale) < invalidTs := by
          rcases hprev with h | h
          · exact absurd h hc.1
          · exact h
        rw [s64_of_range _ (by omega) (by unfold invalidTs at hp; omega)] at hw
        subst hw
        refine ⟨by omega, by omega, fun _ => by omega, ?_⟩
        intro hd _
        rcases hd with h | h
        · exact absurd h hc.1
        · exact Int.dvd_add h (Int.dvd_refl _)
      · rw [if_neg hc] at hw
        subst hw
        refine ⟨by omega, by omega, fun h => ?_, fun _ h => h⟩
        by_cases h2 : prev ≥ w
        · exact absurd ⟨h, h2⟩ hc
        · omega
    obtain ⟨a1, a2, a3, a4, a5⟩ := ih w (fun x hx => by have := ht x (List.mem_cons_of_mem _ hx); omega) (Or.inr hwp.1)
    have hwn : w ≠ invalidTs := by omega
    refine ⟨by simp [a1], ?_, List.pairwise_cons.2 ⟨a2 hwn, a3⟩, ?_, ?_⟩
    · intro hp x hx
      rcases List.mem_cons.1 hx with rfl | hx
      · exact hwp.2.2.1 hp
      · have := a2 hwn x hx; have := hwp.2.2.1 hp; omega
    · intro u x n h1 h2
      cases n with
      | zero =>
        obtain rfl : t = u := by simpa using h1
        obtain rfl : w = x := by simpa using h2
        exact hwp.2.1
      | succ n => exact a4 u x n (by simpa using h1) (by simpa using h2)
    · intro hd ha x hx
      have hdw := hwp.2.2.2 hd (ha t List.mem_cons_self)
      rcases List.mem_cons.1 hx with rfl | hx
      · exact hdw
      · exact a5 (Or.inr hdw) (fun y hy => ha y (List.mem_cons_of_mem _ hy)) x hx

/-- The Timestamp elements of the Clusters written. -/
def writtenTicks (scale : Int) (ts : List Int) : List Int := (writeTimes scale invalidTs ts).map (scale64 · scale)

/-- The Timestamps of the Clusters written strictly ascend. -/
def TicksAscend : Prop :=
  ∀ (scale : Int) (ts : List Int), 0 < scale → (∀ t ∈ ts, 0 ≤ t ∧ t + scale * (ts.length : Int) < invalidTs) →
    (writtenTicks scale ts).Pairwise (· < ·)

/-- Times closer than a tick, as after a change of the scale, give equal Timestamps. -/
theorem C123_ticks_counterexample : ¬ TicksAscend := by
  intro h
  exact absurd (h 1000000 [0, 500000] (by decide) (by decide)) (by decide)

/-- The Clusters written have strictly ascending times, none earlier than in the source, and where the times of the source
are whole ticks the Timestamps strictly ascend as well. -/
theorem C123_ascending_partial (scale : Int) (ts : List Int) (h0 : 0 < scale)
    (h1 : ∀ t ∈ ts, 0 ≤ t ∧ t + scale * (ts.length : Int) < invalidTs) :
    (writeTimes scale invalidTs ts).length = ts.length ∧ (writeTimes scale invalidTs ts).Pairwise (· < ·) ∧
    (∀ (n : Nat) (t w : Int), ts[n]? = some t → (writeTimes scale invalidTs ts)[n]? = some w → t ≤ w) ∧
    ((∀ t ∈ ts, scale ∣ t) → (writtenTicks scale ts).Pairwise (· < ·)) := by
  obtain ⟨a1, _, a3, a4, a5⟩ := writeTimes_spec scale h0 ts invalidTs h1 (Or.inl rfl)
  refine ⟨a1, a3, fun n t w => a4 t w n, fun hd => ?_⟩
  have hdv := a5 (Or.inl rfl) hd
  rw [writtenTicks, List.pairwise_map]
  refine List.Pairwise.imp_of_mem ?_ a3
  intro a b ha hb hab
  have ea := tdiv_exact a scale (hdv a ha)
  have eb := tdiv_exact b scale (hdv b hb)
  simp only [scale64, if_neg (show ¬ scale = 0 by omega)]
  rw [← ea, ← eb] at hab
  exact Int.lt_of_mul_lt_mul_right hab (by omega)

/-- Clusters in the order of the source stay as they are. -/
theorem C123_ordered_unchanged (scale : Int) (ts : List Int) (h : ts.Pairwise (· < ·)) (hi : invalidTs ∉ ts) :
    writeTimes scale invalidTs ts = ts := by
  suffices ∀ prev, (prev = invalidTs ∨ ∀ t ∈ ts, prev < t) → writeTimes scale prev ts = ts from this _ (Or.inl rfl)
  induction ts with
  | nil => intro _ _; rfl
  | cons t ts ih =>
    intro prev hp
    simp only [writeTimes]
    rw [if_neg (by rintro ⟨h1, h2⟩; rcases hp with hp | hp; · exact h1 hp
                   · have := hp t List.mem_cons_self; omega)]
    have := List.pairwise_cons.1 h
    rw [ih this.2 (fun hh => hi (List.mem_cons_of_mem _ hh)) t (Or.inr this.1)]

example : writeTimes 1000000 invalidTs [0, 5000000, 5000000, 3000000, 9000000] = [0, 5000000, 6000000, 7000000, 9000000] := by decide

end Verif.Mkclean
