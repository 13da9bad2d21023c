import Verif.Mkv.TimeLemmas
/-!
Properties C39-C41 and C72-C74: timestamps of blocks, clusters and frames.
-/
namespace Verif.Mkv
open Verif

/-- The absolute time a reader of the written file computes for the block. -/
def storedTime (env : Env) (c : TClu) (b : TBlk) : Int := cluTs env c + b.loc * env.writeScale

/-- The time the block reports. -/
def reports (env : Env) (c : TClu) (b : TBlk) : Int := (blkTs env (some c) b).1

/-- An `int64_t` that is not the sentinel. -/
def IsTime (t : Int) : Prop := -2 ^ 63 ≤ t ∧ t < invalidTs

instance (t : Int) : Decidable (IsTime t) := by unfold IsTime; infer_instance

/-- Scale 1 ms, no track scale. -/
def msEnv : Env := ⟨1000000, 1000000, id⟩

theorem msEnv_ok : EnvOk msEnv 1000000 := ⟨rfl, rfl, by decide, by decide, fun _ _ _ => rfl⟩

/-! ### C39 -/

/-- Full statement of C39. -/
def TimeExactOrRefused : Prop :=
  ∀ (env : Env) (sc : Int) (c : TClu) (b b' : TBlk) (ts : Int), EnvOk env sc → b.track = true →
    IsTime ts → IsTime (cluTs env c) → -2 ^ 63 ≤ ts - cluTs env c → ts - cluTs env c < 2 ^ 63 →
    setTs env b ts (cluTs env c) = some b' →
    (reports env c b' - ts < sc ∧ ts - reports env c b' < sc) ∧ (sc ∣ ts - cluTs env c → reports env c b' = ts)

/-- C39 is false: a block that has reported its time once keeps reporting the old time. -/
theorem C39_block_time_counterexample : ¬ TimeExactOrRefused := by
  intro h
  have := h msEnv 1000000 ⟨0, none⟩ ⟨0, true, 0, true⟩ ⟨5, true, 0, true⟩ 5000000 msEnv_ok rfl
    (by decide) (by decide) (by decide) (by decide) (by decide)
  exact absurd this.1 (by decide)

/-- C39, what holds. Setting a time is refused exactly when the tick count relative to the
cluster does not fit 16 bits. Otherwise the time stored in the file is within one tick and
exact for multiples of the scale; the block reports that stored time if it had not reported a
time before, and else still the time it reported before. -/
theorem C39_block_time_partial (env : Env) (sc : Int) (c : TClu) (b : TBlk) (ts : Int) (ok : EnvOk env sc)
    (htr : b.track = true) (ht : IsTime ts) (hc : IsTime (cluTs env c))
    (h1 : -2 ^ 63 ≤ ts - cluTs env c) (h2 : ts - cluTs env c < 2 ^ 63) :
    (setTs env b ts (cluTs env c) = none ↔
      (ts - cluTs env c).tdiv sc < -32768 ∨ 32767 < (ts - cluTs env c).tdiv sc) ∧
    (∀ b', setTs env b ts (cluTs env c) = some b' →
      (storedTime env c b' - ts < sc ∧ ts - storedTime env c b' < sc) ∧
      (sc ∣ ts - cluTs env c → storedTime env c b' = ts) ∧
      reports env c b' = (if b.glob = invalidTs then storedTime env c b' else b.glob)) := by
  have e := setTs_eq env sc ok b ts (cluTs env c) h1 h2
  constructor
  · rw [e]
    constructor
    · intro h
      apply Classical.byContradiction
      intro hx
      rw [if_neg (by omega)] at h
      simp at h
    · intro h
      rw [if_pos (by omega)]
  · intro b' hb
    rw [e] at hb
    by_cases hr : (ts - cluTs env c).tdiv sc > 32767 ∨ (ts - cluTs env c).tdiv sc < -32768
    · rw [if_pos hr] at hb; simp at hb
    rw [if_neg hr] at hb
    have hb := Option.some.inj hb
    have hst : storedTime env c b' = cluTs env c + (ts - cluTs env c).tdiv sc * sc := by
      unfold storedTime; rw [← hb, ok.2.1]
    obtain ⟨n1, n2, n3, n4⟩ := tdiv_near (ts - cluTs env c) sc ok.2.2.1
    rw [hst]
    refine ⟨⟨by omega, by omega⟩, ?_, ?_⟩
    · intro hd
      rw [tdiv_exact _ _ hd]; omega
    · unfold reports
      by_cases hg : b.glob = invalidTs
      · rw [if_pos hg]
        have hloc : b'.loc = (ts - cluTs env c).tdiv sc := by rw [← hb]
        have := blkTs_fresh env sc ok c b' (by rw [← hb]; exact hg) (by rw [← hb]; exact htr)
          (by rw [hloc]; omega) (by rw [hloc]; omega)
          (by
            rw [hloc]
            unfold IsTime invalidTs at *
            rcases Int.le_total 0 (ts - cluTs env c) with hv | hv
            · have := n3 hv; omega
            · have := n4 hv; omega)
          (by
            rw [hloc]
            unfold IsTime invalidTs at *
            rcases Int.le_total 0 (ts - cluTs env c) with hv | hv
            · have := n3 hv; omega
            · have := n4 hv; omega)
        rw [this, hloc]
      · rw [if_neg hg]
        unfold blkTs
        have : b'.glob = b.glob := by rw [← hb]
        rw [this, if_pos hg]

/-- 12.3456 s in a cluster at 10 s. -/
example : setTs msEnv ⟨0, false, invalidTs, true⟩ 12345600000 (cluTs msEnv ⟨10000000000, none⟩)
    = some ⟨2345, true, invalidTs, true⟩ ∧
    reports msEnv ⟨10000000000, none⟩ ⟨2345, true, invalidTs, true⟩ = 12345000000 := by decide

/-- With a track timestamp scale of 1/2 and a timestamp scale of 1 ns the divisor becomes 0:
every time is accepted and stored as the time of the cluster. -/
theorem C39_track_scale_counterexample :
    setTs ⟨1, 1, fun x => Int.tdiv x 2⟩ ⟨0, false, invalidTs, true⟩ 12345 0 = some ⟨0, true, invalidTs, true⟩ := by
  decide

/-! ### C40 -/

/-- A block goes through a list of parents; `none` is a place outside of all clusters. -/
def route (env : Env) : Option TClu → List (Option TClu) → TBlk → Option TBlk
  | _, [], b => some b
  | old, new :: rest, b => (moveTo env old new b).bind (route env new rest)

/-- Full statement of C40: whatever the way from one cluster to another, when all times are
multiples of the scale and representable in the target, the block arrives, reports its old
time and is stored with it. -/
def MoveKeepsTime : Prop :=
  ∀ (env : Env) (sc : Int) (c d : TClu) (via : List (Option TClu)) (b b' : TBlk), EnvOk env sc → b.track = true →
    b.used = true → b.glob = invalidTs → b.loc = 0 → 0 ≤ cluTs env c → cluTs env c < 2 ^ 40 →
    0 ≤ cluTs env d → cluTs env d < 2 ^ 40 → sc ∣ cluTs env c → sc ∣ cluTs env d →
    (cluTs env c - cluTs env d).tdiv sc ≤ 32767 → -32768 ≤ (cluTs env c - cluTs env d).tdiv sc →
    route env (some c) (via ++ [some d]) b = some b' →
    reports env d b' = reports env c b ∧ storedTime env d b' = reports env c b

/-- C40 is false: a block that is taken out of its cluster first and then put into the other
one keeps its time relative to the cluster. -/
theorem C40_move_counterexample : ¬ MoveKeepsTime := by
  intro h
  have := h msEnv 1000000 ⟨1000000, none⟩ ⟨2000000, none⟩ [none] ⟨0, true, invalidTs, true⟩ ⟨0, true, invalidTs, true⟩
    msEnv_ok rfl rfl rfl rfl (by decide) (by decide) (by decide) (by decide) (by decide) (by decide) (by decide)
    (by decide) (by decide)
  exact absurd this.1 (by decide)

/-- C40, what holds: a direct move from cluster to cluster succeeds exactly when the time is
representable in the target; the block keeps reporting its time, and the time stored for it is
within one tick, exact when the time is a multiple of the scale relative to the target. -/
theorem C40_move_partial (env : Env) (sc : Int) (c d : TClu) (b : TBlk) (ok : EnvOk env sc) (hu : b.used = true)
    (hl1 : -32768 ≤ b.loc) (hl2 : b.loc ≤ 32767)
    (hk : b.glob ≠ invalidTs ∨ (b.track = true ∧ IsTime (cluTs env c + b.loc * sc)))
    (h1 : -2 ^ 63 ≤ reports env c b - cluTs env d) (h2 : reports env c b - cluTs env d < 2 ^ 63) :
    let rel := reports env c b - cluTs env d
    (moveTo env (some c) (some d) b = none ↔ rel.tdiv sc < -32768 ∨ 32767 < rel.tdiv sc) ∧
    (∀ b', moveTo env (some c) (some d) b = some b' →
      reports env d b' = reports env c b ∧
      (storedTime env d b' - reports env c b < sc ∧ reports env c b - storedTime env d b' < sc) ∧
      (sc ∣ rel → storedTime env d b' = reports env c b)) := by
  intro rel
  have hr2 : (blkTs env (some c) b).2.glob = reports env c b ∧ reports env c b ≠ invalidTs := by
    by_cases hg : b.glob = invalidTs
    · rcases hk with hk | ⟨ht, ht2⟩
      · exact absurd hg hk
      · have e := blkTs_fresh env sc ok c b hg ht hl1 hl2 ht2.1 (by have := ht2.2; unfold invalidTs at this; omega)
        unfold reports
        rw [e]
        refine ⟨rfl, ?_⟩
        have := ht2.2
        omega
    · unfold reports blkTs
      rw [if_pos hg]
      exact ⟨rfl, hg⟩
  have e : moveTo env (some c) (some d) b
      = setTs env (blkTs env (some c) b).2 (reports env c b) (cluTs env d) := by
    unfold moveTo reports
    simp only [hu, if_true]
  rw [e, setTs_eq env sc ok _ _ _ h1 h2]
  show (ite (rel.tdiv sc > 32767 ∨ rel.tdiv sc < -32768) _ _ = none ↔ _) ∧ _
  constructor
  · constructor
    · intro h
      apply Classical.byContradiction
      intro hx
      rw [if_neg (by omega)] at h
      simp at h
    · intro h
      rw [if_pos (by omega)]
  · intro b' hb
    by_cases hr : rel.tdiv sc > 32767 ∨ rel.tdiv sc < -32768
    · rw [if_pos hr] at hb; simp at hb
    rw [if_neg hr] at hb
    have hb := Option.some.inj hb
    have hst : storedTime env d b' = cluTs env d + rel.tdiv sc * sc := by
      unfold storedTime; rw [← hb, ok.2.1]
    obtain ⟨n1, n2, n3, n4⟩ := tdiv_near rel sc ok.2.2.1
    refine ⟨?_, ?_, ?_⟩
    · have hg' : b'.glob = reports env c b := by rw [← hb]; exact hr2.1
      show (blkTs env (some d) b').1 = _
      unfold blkTs
      rw [hg', if_pos hr2.2]
    · rw [hst]
      exact ⟨by omega, by omega⟩
    · intro hd
      rw [hst, tdiv_exact _ _ hd]; omega

example : moveTo msEnv (some ⟨1000000, none⟩) (some ⟨5000000, none⟩) ⟨7, true, invalidTs, true⟩
    = some ⟨3, true, 8000000, true⟩ := by decide

/-- A block built for writing only (no track to read it with) cannot be moved at all. -/
theorem C40_unlinked_block_refused :
    moveTo msEnv (some ⟨1000000, none⟩) (some ⟨1000000, none⟩) ⟨7, true, invalidTs, false⟩ = none := by decide

/-! ### C41 -/

/-- C41. The start of a frame is the time of the block plus the durations before it, its end
is its start plus its duration, and the end of a frame is the start of the next. Durations
must be known and times stay within 64 bits. -/
theorem C41_frame_times (t : Int) (b : FBlk) (h : DursOk t b.durs) (n : Nat) (hn : n < b.durs.length) :
    frameStart t b n = t + (b.durs.take n).sum ∧
    frameEnd t b n = t + (b.durs.take (n + 1)).sum ∧
    (n + 1 < b.durs.length → frameStart t b (n + 1) = frameEnd t b n) := by
  have ht : t ≠ invalidTs := by
    have := (h.2 0 (by omega)).2
    simp at this
    omega
  have s1 : ∀ k, k < b.durs.length → frameStart t b k = t + (b.durs.take k).sum := by
    intro k hk
    unfold frameStart
    rw [if_neg (by omega), if_pos ht, startLoop_eq _ _ (h.take k)]
  have b1 := h.2 n (by omega)
  have b2 := h.2 (n + 1) (by omega)
  have e1 : frameEnd t b n = t + (b.durs.take (n + 1)).sum := by
    unfold frameEnd frameDur
    rw [s1 n hn, List.getElem?_eq_getElem hn]
    have hd := h.1 _ (List.getElem_mem hn)
    have e2 : (b.durs.take (n + 1)).sum = (b.durs.take n).sum + b.durs[n] := by
      rw [List.take_succ_eq_append_getElem hn, List.sum_append]; simp
    simp only
    unfold invalidTs at b1 b2
    rw [if_neg (by unfold invalidTs; omega), if_neg hd, s64_of_range _ (by omega) (by omega), e2]
    omega
  exact ⟨s1 n hn, e1, fun h2 => by rw [s1 _ h2, e1]⟩

/-- Past the last frame, and behind a frame of unknown duration, times are unknown. -/
theorem C41_unknown_times (t : Int) (b : FBlk) (n : Nat) :
    (b.durs.length ≤ n → frameStart t b n = invalidTs ∧ frameEnd t b n = invalidTs) ∧
    (invalidTs ∈ b.durs.take n → frameStart t b n = invalidTs) := by
  constructor
  · intro h
    have : frameStart t b n = invalidTs := by unfold frameStart; rw [if_pos h]
    exact ⟨this, by unfold frameEnd; simp [this]⟩
  · intro h
    unfold frameStart
    by_cases h1 : n ≥ b.durs.length
    · rw [if_pos h1]
    rw [if_neg h1]
    by_cases h2 : t = invalidTs
    · simp [h2]
    rw [if_pos h2]
    have : ∀ (ds : List Int) (s : Int), invalidTs ∈ ds → startLoop s ds = invalidTs := by
      intro ds
      induction ds with
      | nil => intro s h; simp at h
      | cons d ds ih =>
        intro s h
        simp only [startLoop]
        by_cases hd : d = invalidTs
        · rw [if_pos hd]
        rw [if_neg hd]
        exact ih _ (by rcases List.mem_cons.1 h with h | h; exact absurd h.symm hd; exact h)
    exact this _ _ h

example : frameStart 100 ⟨[], [], [5, 6, 7]⟩ 2 = 111 ∧ frameEnd 100 ⟨[], [], [5, 6, 7]⟩ 1 = 111 := by decide

/-! ### C72 -/

/-- Full statement of C72: after the time of a cluster changed, its blocks report the times they
reported before. -/
def RetimeKeepsTimes : Prop :=
  ∀ (env : Env) (sc : Int) (c : TClu) (b : TBlk) (ts : Int), EnvOk env sc → b.track = true → b.used = true →
    -32768 ≤ b.loc → b.loc ≤ 32767 → (b.glob = invalidTs ∨ b.glob = cluTs env c + b.loc * sc) →
    IsTime ts → IsTime (cluTs env c) → IsTime (cluTs env c + b.loc * sc) →
    ∀ b', (cluSetTs env c [b] ts).2 = [b'] → reports env (cluSetTs env c [b] ts).1 b' = reports env c b

/-- C72 is false: a block that was not asked for its time before moves along with the cluster. -/
theorem C72_retime_counterexample : ¬ RetimeKeepsTimes := by
  intro h
  have := h msEnv 1000000 ⟨1000000, none⟩ ⟨0, true, invalidTs, true⟩ 3000000 msEnv_ok rfl rfl (by decide) (by decide)
    (Or.inl rfl) (by decide) (by decide) (by decide) ⟨0, true, 3000000, true⟩ (by decide)
  exact absurd this (by decide)

/-- C72, what holds, for every list of blocks: a block whose time was asked for before keeps
reporting it; the time stored for it is within a tick of that when it is representable and
otherwise, without an error, the stored tick count stays as it was. A block that was not asked
for its time before keeps its tick count and moves with the cluster. -/
theorem C72_retime_partial (env : Env) (sc : Int) (c : TClu) (blks : List TBlk) (ts : Int) (ok : EnvOk env sc)
    (ht : IsTime ts) :
    (cluSetTs env c blks ts).2.length = blks.length ∧
    cluTs env (cluSetTs env c blks ts).1 = ts ∧
    ∀ (i : Nat) (b b' : TBlk), blks[i]? = some b → (cluSetTs env c blks ts).2[i]? = some b' →
      b.track = true → -32768 ≤ b.loc → b.loc ≤ 32767 →
      (b.glob ≠ invalidTs → -2 ^ 63 ≤ b.glob - ts → b.glob - ts < 2 ^ 63 →
        reports env (cluSetTs env c blks ts).1 b' = b.glob ∧
        (-32768 ≤ (b.glob - ts).tdiv sc → (b.glob - ts).tdiv sc ≤ 32767 →
          ts + b'.loc * sc - b.glob < sc ∧ b.glob - (ts + b'.loc * sc) < sc) ∧
        ((b.glob - ts).tdiv sc < -32768 ∨ 32767 < (b.glob - ts).tdiv sc → b'.loc = b.loc)) ∧
      (b.glob = invalidTs → IsTime (ts + b.loc * sc) →
        b'.loc = b.loc ∧ reports env (cluSetTs env c blks ts).1 b' = ts + b.loc * sc) := by
  have hct : cluTs env (cluSetTs env c blks ts).1 = ts := by
    unfold cluSetTs cluTs
    simp only
    rw [if_neg (by have := ht.2; omega)]
  refine ⟨by simp [cluSetTs], hct, ?_⟩
  intro i b b' hb hb' htr hl1 hl2
  have e : b' = retime env (cluSetTs env c blks ts).1 ts b := by
    unfold cluSetTs at hb'
    simp only [List.getElem?_map, hb, Option.map_some, Option.some.injEq] at hb'
    exact hb'.symm
  generalize (cluSetTs env c blks ts).1 = c' at *
  constructor
  · intro hg r1 r2
    have hbt : blkTs env (some c') b = (b.glob, b) := by unfold blkTs; rw [if_pos hg]
    unfold retime at e
    rw [hbt] at e
    simp only [if_pos hg] at e
    rw [setTs_eq env sc ok b b.glob ts r1 r2] at e
    have hg' : b'.glob = b.glob := by
      rw [e]
      by_cases hr : (b.glob - ts).tdiv sc > 32767 ∨ (b.glob - ts).tdiv sc < -32768
      · rw [if_pos hr]; rfl
      · rw [if_neg hr]; rfl
    refine ⟨?_, ?_, ?_⟩
    · unfold reports blkTs
      rw [hg', if_pos hg]
    · intro q1 q2
      rw [if_neg (by omega)] at e
      rw [e]
      obtain ⟨n1, n2, _, _⟩ := tdiv_near (b.glob - ts) sc ok.2.2.1
      simp only [Option.getD_some]
      exact ⟨by omega, by omega⟩
    · intro q
      rw [if_pos (by omega)] at e
      rw [e]; rfl
  · intro hg hit
    have hbt := blkTs_fresh env sc ok c' b hg htr hl1 hl2 (by rw [hct]; exact hit.1)
      (by rw [hct]; have := hit.2; unfold invalidTs at this; omega)
    rw [hct] at hbt
    unfold retime at e
    rw [hbt] at e
    simp only at e
    have hne : ts + b.loc * sc ≠ invalidTs := by have := hit.2; omega
    rw [if_pos hne] at e
    have hsc := ok.2.2.1
    have a1 : b.loc * sc ≤ 2 ^ 53 := by
      have := Int.mul_le_mul_of_nonneg_right hl2 (show 0 ≤ sc by omega)
      have := ok.2.2.2.1
      omega
    have a2 : -2 ^ 53 ≤ b.loc * sc := by
      have := Int.mul_le_mul_of_nonneg_right hl1 (show 0 ≤ sc by omega)
      have := ok.2.2.2.1
      omega
    have e2 : ts + b.loc * sc - ts = b.loc * sc := by omega
    rw [setTs_eq env sc ok _ _ _ (by omega) (by omega), e2, Int.mul_tdiv_cancel _ (by omega), if_neg (by omega)] at e
    have hg' : b'.glob = ts + b.loc * sc := by rw [e]; rfl
    refine ⟨by rw [e]; rfl, ?_⟩
    unfold reports blkTs
    rw [hg', if_pos hne]

/-! ### C73 -/

/-- What a reader of the file computes: the cluster time as stored, plus the ticks. -/
def fileTime (sc : Int) (c : TClu) (b : TBlk) : Int := c.elt.getD 0 * sc + b.loc * sc

/-- Full statement of C73: a cluster gets its time, a block gets its time; in the written file the
block is within one tick. -/
def FileTimeExact : Prop :=
  ∀ (env : Env) (sc : Int) (c : TClu) (b b' : TBlk) (ct ts : Int), EnvOk env sc →
    0 ≤ ct → ct < 2 ^ 60 → 0 ≤ ts → ts < 2 ^ 60 → setTs env b ts ct = some b' →
    fileTime sc (cluSetTs env c [] ct).1 b' - ts < sc ∧ ts - fileTime sc (cluSetTs env c [] ct).1 b' < sc

/-- C73 is false: the cluster time is rounded to ticks in the file but blocks are stored relative
to the exact cluster time; 3.8 ms in a cluster at 1.9 ms is stored as 2 ms. -/
theorem C73_file_time_counterexample : ¬ FileTimeExact := by
  intro h
  have := h msEnv 1000000 ⟨0, none⟩ ⟨0, false, invalidTs, true⟩ ⟨1, true, invalidTs, true⟩ 1900000 3800000 msEnv_ok
    (by decide) (by decide) (by decide) (by decide) (by decide)
  exact absurd this.2 (by decide)

/-- C73, what holds: the error is below two ticks, and the block is exact to one tick when the
cluster time is a multiple of the scale, exact when both are. -/
theorem C73_file_time_partial (env : Env) (sc : Int) (c : TClu) (b b' : TBlk) (ct ts : Int) (ok : EnvOk env sc)
    (hc0 : 0 ≤ ct) (hc1 : ct < 2 ^ 63) (ht0 : 0 ≤ ts) (ht1 : ts < 2 ^ 63) (h : setTs env b ts ct = some b') :
    let f := fileTime sc (cluSetTs env c [] ct).1 b'
    (f - ts < 2 * sc ∧ ts - f < 2 * sc) ∧ (sc ∣ ct → f - ts < sc ∧ ts - f < sc) ∧ (sc ∣ ct → sc ∣ ts → f = ts) := by
  intro f
  have hsc := ok.2.2.1
  rw [setTs_eq env sc ok b ts ct (by omega) (by omega)] at h
  by_cases hr : (ts - ct).tdiv sc > 32767 ∨ (ts - ct).tdiv sc < -32768
  · rw [if_pos hr] at h; simp at h
  rw [if_neg hr] at h
  have h := Option.some.inj h
  have ef : f = ct.tdiv sc * sc + (ts - ct).tdiv sc * sc := by
    show fileTime sc (cluSetTs env c [] ct).1 b' = _
    unfold fileTime cluSetTs
    simp only [Option.getD_some]
    rw [← h, ok.2.1]
    unfold scale64
    rw [if_neg (by omega)]
  obtain ⟨n1, n2, _, _⟩ := tdiv_near (ts - ct) sc hsc
  obtain ⟨m1, m2, _, _⟩ := tdiv_near ct sc hsc
  refine ⟨⟨by omega, by omega⟩, ?_, ?_⟩
  · intro hd
    rw [tdiv_exact _ _ hd] at ef
    exact ⟨by omega, by omega⟩
  · intro hd1 hd2
    rw [tdiv_exact _ _ hd1, tdiv_exact _ _ (Int.dvd_sub hd2 hd1)] at ef
    omega

/-- C73, the reader: a cluster and a block fresh from a file report the stored counts of ticks times the
scale, and that is the time `fileTime` gives to what was written. -/
theorem C73_read_time (env : Env) (sc : Int) (ok : EnvOk env sc) (v loc : Int) (used : Bool) (h1 : -32768 ≤ loc) (h2 : loc ≤ 32767)
    (h3 : 0 ≤ v) (h4 : v * sc < 2 ^ 62) :
    cluTs env ⟨invalidTs, some v⟩ = v * sc ∧
    reports env ⟨invalidTs, some v⟩ ⟨loc, used, invalidTs, true⟩ = (v + loc) * sc ∧
    reports env ⟨invalidTs, some v⟩ ⟨loc, used, invalidTs, true⟩ = fileTime sc ⟨invalidTs, some v⟩ ⟨loc, used, invalidTs, true⟩ := by
  have hsc := ok.2.2.1
  have hv : 0 ≤ v * sc := Int.mul_nonneg h3 (by omega)
  have hc : cluTs env ⟨invalidTs, some v⟩ = v * sc := by
    unfold cluTs
    rw [if_pos rfl]
    simp only
    rw [ok.1, s64_of_range _ (by omega) (by omega)]
  have a1 : loc * sc ≤ 2 ^ 53 := by
    have := Int.mul_le_mul_of_nonneg_right h2 (show 0 ≤ sc by omega)
    have := ok.2.2.2.1
    omega
  have a2 : -2 ^ 53 ≤ loc * sc := by
    have := Int.mul_le_mul_of_nonneg_right h1 (show 0 ≤ sc by omega)
    have := ok.2.2.2.1
    omega
  have hb := blkTs_fresh env sc ok ⟨invalidTs, some v⟩ ⟨loc, used, invalidTs, true⟩ rfl rfl h1 h2
    (by rw [hc]; simp only; omega) (by rw [hc]; simp only; omega)
  unfold reports fileTime
  rw [hb, hc]
  refine ⟨rfl, ?_, rfl⟩
  rw [Int.add_mul]

example : reports msEnv ⟨invalidTs, some 70⟩ ⟨-3, true, invalidTs, true⟩ = 67000000 := by decide

example : fileTime 1000000 (cluSetTs msEnv ⟨0, none⟩ [] 5000000).1 ⟨-3, true, invalidTs, true⟩ = 2000000 := by decide

/-! ### C74 -/

/-- Full statement of C74: frames appended to a block are got back. -/
def AppendedFramesBack : Prop :=
  ∀ (t : Int) (fs : List Frame) (n : Nat) (f : Frame), DursOk t (fs.map (·.dur)) → fs[n]? = some f →
    getFrame t (fs.foldl appendFrame ⟨[], [], []⟩) n
      = .ok ⟨f.data, t + ((fs.map (·.dur)).take n).sum, f.dur⟩

/-- C74 is false for a block whose frames are all empty: nothing can be got. -/
theorem C74_get_frame_counterexample : ¬ AppendedFramesBack := by
  intro h
  have := h 0 [⟨[], 0, 1⟩] 0 ⟨[], 0, 1⟩ ⟨by decide, by
    intro k hk
    simp at hk
    rcases Nat.lt_or_ge k 1 with hk2 | hk2
    · have : k = 0 := by omega
      subst this; decide
    · have : k = 1 := by omega
      subst this; decide⟩ rfl
  exact absurd this (by decide)

/-- C74, what holds: as soon as one appended frame has a byte, the n-th frame got is the n-th
frame appended, with the accumulated time and its duration. -/
theorem C74_get_frame_partial (t : Int) (fs : List Frame) (n : Nat) (f : Frame) (hd : DursOk t (fs.map (·.dur)))
    (hn : fs[n]? = some f) (hne : (fs.map (·.data)).flatten ≠ []) :
    getFrame t (fs.foldl appendFrame ⟨[], [], []⟩) n
      = .ok ⟨f.data, t + ((fs.map (·.dur)).take n).sum, f.dur⟩ ∧
    getFrame t (fs.foldl appendFrame ⟨[], [], []⟩) fs.length = .err := by
  have hlt : n < fs.length := by
    rw [List.getElem?_eq_some_iff] at hn
    exact hn.1
  have hfn : fs[n] = f := by
    rw [List.getElem?_eq_some_iff] at hn
    exact hn.2
  rw [frames_foldl]
  simp only [List.nil_append]
  have ht : t ≠ invalidTs := by
    have := (hd.2 0 (by omega)).2
    simp at this
    omega
  have hsplit : fs = fs.take n ++ f :: fs.drop (n + 1) := by
    rw [← hfn, ← List.drop_eq_getElem_cons hlt, List.take_append_drop]
  have hoff : ((fs.map fun x => x.data.length).take n).sum = ((fs.take n).map (·.data)).flatten.length := by
    rw [← List.map_take, List.length_flatten, List.map_map]
    rfl
  constructor
  · unfold getFrame
    rw [if_neg hne]
    simp only [List.getElem?_map, hn, Option.map_some]
    rw [hoff]
    have hdata : (fs.map (·.data)).flatten
        = ((fs.take n).map (·.data)).flatten ++ (f.data ++ ((fs.drop (n + 1)).map (·.data)).flatten) := by
      conv => lhs; rw [hsplit]
      simp [List.map_append]
    rw [hdata, if_neg (by simp only [List.length_append]; omega), List.drop_left' rfl, List.take_left' rfl]
    have hr := range_getElem? (fs.map (·.dur)) n (by simp; omega)
    simp only [List.getElem?_map] at hr
    rw [hr, frameTsLoop_eq _ _ (hd.take n) ht]
    unfold frameDur
    simp [hn]
  · unfold getFrame
    rw [if_neg hne]
    simp

example : getFrame 10 (([⟨[1, 2], 10, 5⟩, ⟨[3], 0, 6⟩] : List Frame).foldl appendFrame ⟨[], [], []⟩) 1
    = .ok ⟨[3], 15, 6⟩ := by decide

/-- Sizes taken from a file are not validated (C38): a frame can lie outside of the block. -/
theorem C74_frame_outside_block : getFrame 0 ⟨[1, 2, 3, 4], [200, 2 ^ 32 - 196], []⟩ 1 = .bad := by decide

end Verif.Mkv
