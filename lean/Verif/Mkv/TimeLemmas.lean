import Verif.Mkv.Time
set_option linter.unusedSimpArgs false
/-! Lemmas about timestamps. -/
namespace Verif.Mkv
open Verif

theorem s64_of_range (x : Int) (h1 : -2 ^ 63 ≤ x) (h2 : x < 2 ^ 63) : s64 x = x := by
  unfold s64; omega

theorem tdiv_near (v d : Int) (hd : 0 < d) :
    (Int.tdiv v d * d - v < d) ∧ (v - Int.tdiv v d * d < d) ∧
    (0 ≤ v → 0 ≤ Int.tdiv v d * d ∧ Int.tdiv v d * d ≤ v) ∧ (v ≤ 0 → v ≤ Int.tdiv v d * d ∧ Int.tdiv v d * d ≤ 0) := by
  have e : d * Int.tdiv v d + Int.tmod v d = v := Int.mul_tdiv_add_tmod v d
  rw [Int.mul_comm d] at e
  rcases Int.le_total 0 v with hv | hv
  · have h1 : 0 ≤ Int.tmod v d := Int.tmod_nonneg d hv
    have h2 : Int.tmod v d < d := Int.tmod_lt_of_pos v hd
    have h3 : 0 ≤ Int.tdiv v d * d := Int.mul_nonneg (Int.tdiv_nonneg hv (by omega)) (by omega)
    refine ⟨by omega, by omega, fun _ => ⟨h3, by omega⟩, fun h => ?_⟩
    have : v = 0 := by omega
    subst this
    simp at e ⊢
  · have e2 : d * Int.tdiv (-v) d + Int.tmod (-v) d = -v := Int.mul_tdiv_add_tmod (-v) d
    rw [Int.mul_comm d] at e2
    have h1 : 0 ≤ Int.tmod (-v) d := Int.tmod_nonneg d (by omega)
    have h2 : Int.tmod (-v) d < d := Int.tmod_lt_of_pos (-v) hd
    have h3 : 0 ≤ Int.tdiv (-v) d * d := Int.mul_nonneg (Int.tdiv_nonneg (by omega) (by omega)) (by omega)
    rw [Int.neg_tdiv] at e2 h3
    have h4 : -Int.tdiv v d * d = -(Int.tdiv v d * d) := Int.neg_mul _ _
    rw [h4] at e2 h3
    refine ⟨by omega, by omega, fun h => ?_, fun _ => ⟨by omega, by omega⟩⟩
    have : v = 0 := by omega
    subst this
    simp at e ⊢

theorem tdiv_exact (v d : Int) (h : d ∣ v) : Int.tdiv v d * d = v := Int.tdiv_mul_cancel h

/-- A usual environment: one timestamp scale below 2^38 for reading and writing and a track
timestamp scale of 1, for which the `double` arithmetic is exact up to 2^53. -/
def EnvOk (env : Env) (sc : Int) : Prop :=
  env.readScale = sc ∧ env.writeScale = sc ∧ 0 < sc ∧ sc < 2 ^ 38 ∧
  ∀ x, -2 ^ 53 ≤ x → x ≤ 2 ^ 53 → env.mul x = x

theorem setTs_eq (env : Env) (sc : Int) (ok : EnvOk env sc) (b : TBlk) (ts ct : Int)
    (h1 : -2 ^ 63 ≤ ts - ct) (h2 : ts - ct < 2 ^ 63) :
    setTs env b ts ct =
      if Int.tdiv (ts - ct) sc > 32767 ∨ Int.tdiv (ts - ct) sc < -32768 then none
      else some { b with loc := Int.tdiv (ts - ct) sc, used := true } := by
  obtain ⟨_, e2, hp, hl, hm⟩ := ok
  have e : scale64 (ts - ct) sc = Int.tdiv (ts - ct) sc := by
    unfold scale64
    rw [if_neg (by omega)]
  unfold setTs
  rw [e2, hm sc (by omega) (by omega), s64_of_range _ h1 h2, e]

/-- Ticks of a block are at most 2^53 nanoseconds, so nothing is rounded. -/
theorem mul_loc (env : Env) (sc : Int) (ok : EnvOk env sc) (n : Int) (h1 : -32768 ≤ n) (h2 : n ≤ 32767) :
    env.mul (s64 (n * env.readScale)) = n * sc := by
  obtain ⟨e1, _, hp, hl, hm⟩ := ok
  have a1 : n * sc ≤ 2 ^ 53 := by
    have := Int.mul_le_mul_of_nonneg_right h2 (show 0 ≤ sc by omega)
    omega
  have a2 : -2 ^ 53 ≤ n * sc := by
    have := Int.mul_le_mul_of_nonneg_right h1 (show 0 ≤ sc by omega)
    omega
  rw [e1, s64_of_range _ (by omega) (by omega), hm _ a2 a1]

/-- The timestamp of a block that is not cached. -/
theorem blkTs_fresh (env : Env) (sc : Int) (ok : EnvOk env sc) (c : TClu) (b : TBlk) (hg : b.glob = invalidTs)
    (ht : b.track = true) (h1 : -32768 ≤ b.loc) (h2 : b.loc ≤ 32767)
    (h3 : -2 ^ 63 ≤ cluTs env c + b.loc * sc) (h4 : cluTs env c + b.loc * sc < 2 ^ 63) :
    blkTs env (some c) b = (cluTs env c + b.loc * sc,
      { b with glob := cluTs env c + b.loc * sc, used := true }) := by
  unfold blkTs
  rw [if_neg (by simp [hg]), ht]
  simp only [Bool.not_true, Bool.false_eq_true, if_false]
  rw [mul_loc env sc ok b.loc h1 h2, s64_of_range _ h3 h4]
  have hsc : 0 < sc := ok.2.2.1
  have a1 : b.loc * sc ≤ 2 ^ 53 := by
    have := Int.mul_le_mul_of_nonneg_right h2 (show 0 ≤ sc by omega)
    have := ok.2.2.2.1
    omega
  have a2 : -2 ^ 53 ≤ b.loc * sc := by
    have := Int.mul_le_mul_of_nonneg_right h1 (show 0 ≤ sc by omega)
    have := ok.2.2.2.1
    omega
  have e : cluTs env c + b.loc * sc - cluTs env c = b.loc * sc := by omega
  rw [setTs_eq env sc ok _ _ _ (by omega) (by omega), e, Int.mul_tdiv_cancel _ (by omega)]
  rw [if_neg (by omega)]
  rfl

/-! ### Frames -/

/-- All durations known, and no prefix of them leaves 64 bits or hits the sentinel. -/
def DursOk (t : Int) (ds : List Int) : Prop :=
  (∀ d ∈ ds, d ≠ invalidTs) ∧ ∀ k, k ≤ ds.length → -2 ^ 63 ≤ t + (ds.take k).sum ∧ t + (ds.take k).sum < invalidTs

theorem DursOk.tail {t d : Int} {ds : List Int} (h : DursOk t (d :: ds)) : DursOk (t + d) ds := by
  refine ⟨fun x hx => h.1 x (by simp [hx]), fun k hk => ?_⟩
  have := h.2 (k + 1) (by simp; omega)
  simp only [List.take_succ_cons, List.sum_cons] at this
  omega

theorem startLoop_eq (ds : List Int) : ∀ (t : Int), DursOk t ds → startLoop t ds = t + ds.sum := by
  induction ds with
  | nil => intro t _; simp [startLoop]
  | cons d ds ih =>
    intro t h
    have h1 := h.2 1 (by simp)
    simp only [List.take_succ_cons, List.take_zero, List.sum_cons, List.sum_nil] at h1
    simp only [startLoop]
    unfold invalidTs at h1
    rw [if_neg (h.1 d (by simp)), s64_of_range _ (by omega) (by omega), ih _ h.tail]
    simp only [List.sum_cons]
    omega

theorem DursOk.take {t : Int} {ds : List Int} (h : DursOk t ds) (n : Nat) : DursOk t (ds.take n) := by
  refine ⟨fun x hx => h.1 x (List.mem_of_mem_take hx), fun k hk => ?_⟩
  rw [List.take_take]
  rw [List.length_take] at hk
  have : min k n = k := by omega
  rw [this]
  exact h.2 k (by omega)

theorem frameTsLoop_eq (ds : List Int) : ∀ (t : Int), DursOk t ds → t ≠ invalidTs →
    frameTsLoop t (ds.map some) = t + ds.sum := by
  induction ds with
  | nil => intro t _ _; simp [frameTsLoop]
  | cons d ds ih =>
    intro t h ht
    have h1 := h.2 1 (by simp)
    simp only [List.take_succ_cons, List.take_zero, List.sum_cons, List.sum_nil] at h1
    simp only [List.map_cons, frameTsLoop]
    unfold invalidTs at h1
    rw [if_neg ht, if_neg (h.1 d (by simp)), s64_of_range _ (by omega) (by omega), ih _ h.tail (by unfold invalidTs; omega)]
    simp only [List.sum_cons]
    omega

theorem frameTsLoop_invalid (ds : List (Option Int)) : frameTsLoop invalidTs ds = invalidTs := by
  induction ds with
  | nil => rfl
  | cons d ds ih => simp only [frameTsLoop, if_pos]; exact ih

theorem frames_foldl (fs : List Frame) : ∀ (b : FBlk),
    fs.foldl appendFrame b = ⟨b.data ++ (fs.map (·.data)).flatten, b.sizes ++ fs.map (·.data.length), b.durs ++ fs.map (·.dur)⟩ := by
  induction fs with
  | nil => intro b; simp
  | cons f fs ih =>
    intro b
    rw [List.foldl_cons, ih]
    simp [appendFrame, List.append_assoc]

theorem range_getElem? (ds : List Int) (n : Nat) (hn : n ≤ ds.length) :
    ((List.range n).map fun i => ds[i]?) = (ds.take n).map some := by
  apply List.ext_getElem
  · simp; omega
  · intro i h1 h2
    simp at h1 h2
    simp

end Verif.Mkv
