import Verif.Mkclean.LayoutLemmas
/-!
C111: where mkclean puts the Clusters and what the Cues say about it.
-/
namespace Verif.Mkclean
open Verif.Ebml Verif.EbmlDoc

/-- What a finished layout must be: the Cues are written at `start`, the Clusters follow in order
without gap, each CueClusterPosition is the distance from `seg` to its Cluster, and with `safe`
each PrevSize is the size of the Cluster before. `cuesBytes` is the number of bytes the Cues are
written as. -/
structure Laid (env : Env) (safe : Bool) (start seg : Int) (clusters : List Clu) (cues : Cues)
    (clusters' : List Clu) (cues' : Cues) : Prop where
  /-- the Clusters keep their contents -/
  contents : clusters'.map (fun c => (c.body, c.sizeLength)) = clusters.map (fun c => (c.body, c.sizeLength))
  /-- the CuePoints keep everything but the position -/
  points : cues'.points.map (fun c => (c.time, c.track, c.crc, c.cluster)) =
    cues.points.map (fun c => (c.time, c.track, c.crc, c.cluster))
  /-- Cluster number `k` is where its predecessors end -/
  clusterAt : ∀ k c, clusters'[k]? = some c →
    c.pos = start + (encode (toDoc env false cues'.elt)).length + ((clusters'.map Clu.fullSize).take k).sum
  /-- a CuePoint names the place of its Cluster -/
  cueAt : ∀ p ∈ cues'.points, ∃ k c, p.cluster = some k ∧ clusters'[k]? = some c ∧ (p.pos.toNat : Int) = c.pos - seg
  /-- PrevSize is the size of the Cluster before -/
  prevSize : safe = true → ∀ k a b, clusters'[k]? = some a → clusters'[k + 1]? = some b →
    ∃ v, b.prevSize = some v ∧ (v.toNat : Int) = a.fullSize

/-- C111. Settling ends, after at most `7 * n + 2` passes for `n` CuePoints, with the Cues and the
Clusters laid out as they will be written and every CuePoint naming the place of its Cluster, for
all Clusters and linked CuePoints of a file below 2^63 bytes. -/
theorem C111_cues_settle (env : Env) (safe : Bool) (start seg : Int) (clusters : List Clu) (cues : Cues)
    (hlink : ∀ p ∈ cues.points, ∃ k, p.cluster = some k ∧ k < clusters.length)
    (hsl : cues.sizeLength ≤ 8) (hcl : ∀ c ∈ clusters, c.sizeLength ≤ 8)
    (h0 : 0 ≤ cues.dataSize) (hseg : 0 ≤ seg) (hst : seg ≤ start)
    (hfile : start + max cues.dataSize (6 + 40 * (cues.points.length : Int)) + 12 +
      ((clusters.map (fun c => c.body + 22)).sum : Nat) < 2 ^ 63) :
    ∃ clusters' cues',
      (∀ fuel, 7 * cues.points.length + 2 ≤ fuel →
        settle env safe start seg fuel clusters cues = .done clusters' cues') ∧
      Laid env safe start seg clusters cues clusters' cues' := by
  obtain ⟨crc, s, sl, ps⟩ := cues
  simp only at *
  have hr := leastSize_range crc ps
  obtain ⟨r, hrun⟩ := run_settles (nextSize safe start seg crc sl clusters ps) (leastSize crc ps)
    (max s (6 + 40 * (ps.length : Int))) (7 * ps.length)
    (fun a b h1 h2 h3 => nextSize_mono safe start seg crc sl clusters ps hsl hcl hseg hst _ hfile a b h1 h2 h3)
    hr.1 (by omega) (nextSize_lo safe start seg crc sl clusters ps) (nextSize_hi safe start seg crc sl clusters ps)
    s h0 (by omega)
  have hfix := run_fix _ _ _ _ hrun
  have hrange : 0 ≤ r ∧ r ≤ max s (6 + 40 * (ps.length : Int)) := by
    rw [← hfix]
    have h1 := nextSize_lo safe start seg crc sl clusters ps r
    have h2 := nextSize_hi safe start seg crc sl clusters ps r
    omega
  have hbytes := cues_bytes env ⟨crc, r, sl, ps.map (retarget safe start seg sl clusters r)⟩ hsl (by
    simp only
    exact hfix.symm)
  have hfull : (⟨crc, r, sl, ps.map (retarget safe start seg sl clusters r)⟩ : Cues).fullSize = cuesFull sl r := rfl
  refine ⟨place safe (start + cuesFull sl r) none clusters,
    ⟨crc, r, sl, ps.map (retarget safe start seg sl clusters r)⟩, ?_, ?_⟩
  · intro fuel hf
    rw [settle_run safe start seg crc sl clusters ps env hlink fuel clusters ps s (fun _ => rfl) rfl hlink (fun _ => rfl)]
    rw [run_more _ _ _ _ _ hf hrun]
  · constructor
    · exact place_keeps safe clusters _ _
    · simp only [List.map_map]
      rfl
    · intro k c hc
      rw [place_pos safe clusters _ none k c hc, ← hbytes, hfull]
    · intro p hp
      obtain ⟨q, hq, rfl⟩ := List.mem_map.1 hp
      obtain ⟨k, hk, hlt⟩ := hlink q hq
      have hk2 : k < (place safe (start + cuesFull sl r) none clusters).length := by rw [place_length]; omega
      refine ⟨k, _, hk, List.getElem?_eq_getElem hk2, ?_⟩
      have hp := place_pos safe clusters _ none k _ (List.getElem?_eq_getElem hk2)
      rw [hp, place_sizes safe clusters _ 0 none]
      have ho := offset_range safe clusters k hcl
      have hf := cuesFull_range sl r hsl
      simp only [retarget, hk, Option.getD_some]
      rw [ofInt_toNat]
      · simp only [offset]
      · omega
      · generalize ((clusters.map (fun c => c.body + 22)).sum) = T at *
        omega
    · intro hs k a b ha hb
      subst hs
      refine ⟨_, place_prev clusters _ none k a b ha hb, ?_⟩
      have h1 := fullSize_nonneg a
      have h2 : a.fullSize ≤ ((clusters.map (fun c => c.body + 22)).sum : Nat) := by
        have e1 := total_le true clusters (start + cuesFull sl r) none hcl
        have e2 := sum_take_le (place true (start + cuesFull sl r) none clusters) (k + 1)
        have e3 := sum_take_nonneg (place true (start + cuesFull sl r) none clusters) k
        have e4 : ((place true (start + cuesFull sl r) none clusters).map Clu.fullSize)[k]? = some a.fullSize := by
          rw [List.getElem?_map, ha]; rfl
        rw [List.take_succ, e4] at e2
        simp only [Option.toList_some, List.sum_append, List.sum_cons, List.sum_nil] at e2
        omega
      apply ofInt_toNat _ h1
      generalize ((clusters.map (fun c => c.body + 22)).sum) = T at *
      omega

/-- Three Clusters, the Cues guessed empty: once they are there a position grows past 65535, so that
the Cues have to be sized three times. -/
def exEnv : Env := ⟨fun _ => 0, fun _ => 0, fun _ _ => false, false, 0⟩
def exClusters : List Clu := [⟨70, 0, none, -1⟩, ⟨65263, 0, none, -1⟩, ⟨300, 0, none, -1⟩]
def exCues : Cues := ⟨0, 0, 0, [⟨0, 1, 0, 0, some 0⟩, ⟨40, 1, 0, 0, some 1⟩, ⟨80, 1, 0, 0, some 2⟩]⟩

/-- The instance, and the passes it takes: 2 passes are not enough, 3 are. -/
example : (∀ p ∈ exCues.points, ∃ k, p.cluster = some k ∧ k < exClusters.length) ∧
    settle exEnv true 212 52 2 exClusters exCues = .more ∧
    settle exEnv true 212 52 3 exClusters exCues =
      .done [⟨70, 0, none, 259⟩, ⟨65263, 0, some 75, 334⟩, ⟨300, 0, some 65273, 65607⟩]
        ⟨0, 42, 0, [⟨0, 1, 207, 0, some 0⟩, ⟨40, 1, 282, 0, some 1⟩, ⟨80, 1, 65555, 0, some 2⟩]⟩ := by
  refine ⟨?_, by decide +kernel, by decide +kernel⟩
  intro p hp
  simp only [exCues, List.mem_cons, List.not_mem_nil, or_false] at hp
  rcases hp with rfl | rfl | rfl
  · exact ⟨0, rfl, by decide⟩
  · exact ⟨1, rfl, by decide⟩
  · exact ⟨2, rfl, by decide⟩

/-- C111 without the links: a CuePoint that was not linked to a Block makes mkclean follow a NULL
pointer (`Cue->Block`, matroskamain.c:872), so the Cues of a file have to be linked first. -/
theorem C111_unlinked_counterexample :
    ∃ (clusters : List Clu) (cues : Cues), ∀ fuel, settle exEnv true 212 52 (fuel + 1) clusters cues = .crash :=
  ⟨exClusters, ⟨0, 0, 0, [⟨0, 1, 0, 0, none⟩]⟩, fun _ => rfl⟩

end Verif.Mkclean
