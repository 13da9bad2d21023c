import Verif.Mkv.Order
import Verif.Mkv.TimeLemmas
import Verif.Core.StrLemmas
/-!
Properties C42-C44: cue lookup and sort orders.
-/
namespace Verif.Mkv
open Verif Verif.Core

/-! ### C42 -/

theorem cuesLoop_eq (scale ts : Int) (cues : List Cue) : ∀ (prev : Option Cue),
    cues.Pairwise (fun a b => cueTs scale a ≤ cueTs scale b) →
    cuesLoop scale ts prev cues = ((cues.filter fun c => cueTs scale c ≤ ts).getLast?).or prev := by
  induction cues with
  | nil => intro prev _; simp [cuesLoop]
  | cons c cs ih =>
    intro prev h
    rw [List.pairwise_cons] at h
    simp only [cuesLoop]
    by_cases hc : cueTs scale c > ts
    · rw [if_pos hc]
      have : (c :: cs).filter (fun c => cueTs scale c ≤ ts) = [] := by
        apply List.filter_eq_nil_iff.2
        intro x hx
        simp only [decide_eq_true_eq]
        rcases List.mem_cons.1 hx with rfl | hx
        · omega
        · have := h.1 x hx; omega
      rw [this]; simp
    · rw [if_neg hc, ih _ h.2, List.filter_cons_of_pos (by simp; omega)]
      cases hf : cs.filter (fun c => cueTs scale c ≤ ts) with
      | nil => simp
      | cons d ds =>
        rw [List.getLast?_cons_cons]
        cases hl : (d :: ds).getLast? with
        | none => simp at hl
        | some x => simp

/-- C42. In cues sorted by time the lookup returns the last cue point whose time does not exceed
the given one; if all cue points are later, it returns the first one, and nothing if there is
none or the time is unknown. -/
theorem C42_cue_lookup (scale : Int) (cues : List Cue) (ts : Int) (hts : ts ≠ invalidTs)
    (hs : cues.Pairwise fun a b => cueTs scale a ≤ cueTs scale b) :
    cuesAt scale cues ts = ((cues.filter fun c => cueTs scale c ≤ ts).getLast?).or cues.head? ∧
    cuesAt scale cues invalidTs = none ∧
    (∀ (pre post : List Cue) (c : Cue), cues = pre ++ c :: post → cueTs scale c ≤ ts →
      (∀ d ∈ post, ts < cueTs scale d) → cuesAt scale cues ts = some c) := by
  have e : cuesAt scale cues ts = ((cues.filter fun c => cueTs scale c ≤ ts).getLast?).or cues.head? := by
    unfold cuesAt
    rw [if_neg hts, cuesLoop_eq scale ts cues none hs, Option.or_none]
    cases (cues.filter fun c => cueTs scale c ≤ ts).getLast? <;> simp
  refine ⟨e, by simp [cuesAt], ?_⟩
  intro pre post c hc h1 h2
  rw [e, hc, List.filter_append, List.filter_cons_of_pos (by simpa using h1)]
  have : post.filter (fun c => cueTs scale c ≤ ts) = [] := by
    apply List.filter_eq_nil_iff.2
    intro d hd
    have := h2 d hd
    simp only [decide_eq_true_eq]
    omega
  rw [this]
  simp

example : cuesAt 1 [⟨some 0, none⟩, ⟨some 10, none⟩, ⟨some 20, none⟩] 15 = some ⟨some 10, none⟩ := by decide

/-- A Void between the cue points ends the search. -/
theorem C42_void_counterexample :
    cuesAt 1 [⟨some 0, none⟩, ⟨none, none⟩, ⟨some 10, none⟩] 15 = some ⟨some 0, none⟩ := by decide

/-! ### C43 -/

/-- A comparison that sorts: equal to itself, opposite signs both ways, transitive; on the
elements satisfying `S`. -/
def PreorderOn {α : Type} (S : α → Prop) (cmp : α → α → Int) : Prop :=
  (∀ a, S a → cmp a a = 0) ∧
  (∀ a b, S a → S b → (cmp a b < 0 ↔ 0 < cmp b a)) ∧
  (∀ a b c, S a → S b → S c → cmp a b ≤ 0 → cmp b c ≤ 0 → cmp a c ≤ 0)

/-- C43. Comparing cue points is a total preorder, by time and then by track. -/
theorem C43_cue_order (scale : Int) :
    PreorderOn (fun _ => True) (cmpCue scale) ∧
    (∀ a b, cmpCue scale a b ≤ 0 ↔ cueTs scale a < cueTs scale b ∨
      (cueTs scale a = cueTs scale b ∧ cueTrack a ≤ cueTrack b)) := by
  have key : ∀ a b, cmpCue scale a b ≤ 0 ↔ cueTs scale a < cueTs scale b ∨
      (cueTs scale a = cueTs scale b ∧ cueTrack a ≤ cueTrack b) := by
    intro a b
    unfold cmpCue
    split
    · omega
    split
    · omega
    split
    · omega
    split <;> omega
  have neg : ∀ a b, cmpCue scale b a = - cmpCue scale a b := by
    intro a b
    unfold cmpCue
    rcases Int.lt_trichotomy (cueTs scale a) (cueTs scale b) with h | h | h
    · rw [if_pos (show cueTs scale a < cueTs scale b from h), if_neg (show ¬ cueTs scale b < cueTs scale a by omega),
        if_pos (show cueTs scale b > cueTs scale a from h)]
      rfl
    · rw [h]
      simp only [Int.lt_irrefl, gt_iff_lt, if_false]
      rcases Int.lt_trichotomy (cueTrack a) (cueTrack b) with g | g | g
      · rw [if_pos g, if_neg (show ¬ cueTrack b < cueTrack a by omega), if_pos g]; rfl
      · rw [g]; simp
      · rw [if_neg (show ¬ cueTrack a < cueTrack b by omega), if_pos g, if_pos g]
    · rw [if_neg (show ¬ cueTs scale a < cueTs scale b by omega), if_pos (show cueTs scale a > cueTs scale b from h),
        if_pos (show cueTs scale b < cueTs scale a from h)]
  refine ⟨⟨?_, ?_, ?_⟩, key⟩
  · intro a _
    have := neg a a
    omega
  · intro a b _ _
    have := neg a b
    omega
  · intro a b c _ _ _ h1 h2
    rw [key] at *
    omega

example : cmpCue 1000 ⟨some 5, some 2⟩ ⟨some 5, some 1⟩ = 1 := by decide

/-! ### C44 -/

/-- C44 is false for attachments: "cover.jpg" and "cover.png" are each before the other. -/
theorem C44_attachments_counterexample : ¬ PreorderOn (fun _ => True) attachCmp := by
  intro h
  have := (h.2.1 (some nCover1) (some nCover2) trivial trivial).1 (by decide)
  exact absurd this (by decide)

/-- An attachment without a name is even before itself, and "cover_land.jpg" is equal to all
other files, which have an order among themselves. -/
theorem C44_attachments_counterexample2 :
    attachCmp none none = -1 ∧ attachCmp (some nLand1) (some [97]) = 0 ∧ attachCmp (some nLand1) (some [98]) = 0 ∧
    attachCmp (some [97]) (some [98]) < 0 := by decide

/-- C44 is false for blocks: a difference below 0.1 ms counts as none, so that equality is not
transitive. -/
theorem C44_blocks_counterexample : ¬ PreorderOn (fun _ => True) blockCmp := by
  intro h
  have := h.2.2 ⟨120000, 1⟩ ⟨60000, 1⟩ ⟨0, 1⟩ trivial trivial trivial (by decide) (by decide)
  exact absurd this (by decide)

/-- Blocks 2^31 tenths of a millisecond (60 hours) apart are each before the other. -/
theorem C44_blocks_counterexample2 :
    blockCmp ⟨214748364800000, 1⟩ ⟨0, 1⟩ < 0 ∧ blockCmp ⟨0, 1⟩ ⟨214748364800000, 1⟩ < 0 := by decide

/-- C44 is false for children of a cluster: a Timestamp is before itself, and a SimpleBlock is
equal to every BlockGroup while BlockGroups differ from it. -/
theorem C44_cluster_counterexample : ¬ PreorderOn (fun _ => True) clusterCmp := by
  intro h
  exact absurd (h.1 .timestamp trivial) (by decide)

/-- See `C44_cluster_counterexample`. -/
theorem C44_cluster_counterexample2 :
    clusterCmp (.simple ⟨0, 1⟩) (.group (some ⟨1000000, 1⟩)) = 0 ∧
    clusterCmp (.group (some ⟨1000000, 1⟩)) (.simple ⟨0, 1⟩) = 10 := by decide

/-- Cue points with a Void among them: the Void is equal to all. -/
theorem C44_mixed_children_counterexample : ¬ PreorderOn (fun _ => True) (ebmlCmp 1) := by
  intro h
  have := h.2.2 (some ⟨some 2, none⟩) none (some ⟨some 1, none⟩) trivial trivial trivial (by decide) (by decide)
  exact absurd this (by decide)

theorem toInt32_of_range (x : Int) (h1 : -2 ^ 31 ≤ x) (h2 : x < 2 ^ 31) : toInt32 x = x := by
  unfold toInt32; omega

/-- C44, what holds for blocks: with times that are multiples of 0.1 ms within a range of 59
hours, the order is by time, later tracks first. -/
theorem C44_blocks_partial (t0 : Int) :
    PreorderOn (fun k : BKey => t0 ≤ k.time ∧ k.time < t0 + 2 ^ 31 * 100000 ∧ (100000 : Int) ∣ k.time) blockCmp := by
  have key : ∀ a b : BKey, (t0 ≤ a.time ∧ a.time < t0 + 2 ^ 31 * 100000 ∧ (100000 : Int) ∣ a.time) →
      (t0 ≤ b.time ∧ b.time < t0 + 2 ^ 31 * 100000 ∧ (100000 : Int) ∣ b.time) →
      (a.time ≠ b.time → blockCmp a b * 100000 = a.time - b.time) ∧ (a.time = b.time → blockCmp a b = b.track - a.track) := by
    intro a b ha hb
    unfold blockCmp
    constructor
    · intro hne
      rw [if_pos hne, s64_of_range _ (by omega) (by omega)]
      have hd := Int.tdiv_mul_cancel (Int.dvd_sub ha.2.2 hb.2.2)
      rw [toInt32_of_range _ (by omega) (by omega)]
      exact hd
    · intro he
      rw [if_neg (by simp [he])]
  refine ⟨?_, ?_, ?_⟩
  · intro a ha
    rw [(key a a ha ha).2 rfl]; omega
  · intro a b ha hb
    by_cases h : a.time = b.time
    · rw [(key a b ha hb).2 h, (key b a hb ha).2 h.symm]; omega
    · have := (key a b ha hb).1 h
      have := (key b a hb ha).1 (fun x => h x.symm)
      omega
  · intro a b c ha hb hc h1 h2
    have kab := key a b ha hb
    have kbc := key b c hb hc
    have kac := key a c ha hc
    by_cases h : a.time = b.time
    · by_cases h' : b.time = c.time
      · rw [kab.2 h] at h1
        rw [kbc.2 h'] at h2
        rw [kac.2 (by omega)]; omega
      · have := kbc.1 h'
        have := kac.1 (by omega)
        omega
    · have hx := kab.1 h
      by_cases h' : b.time = c.time
      · have := kac.1 (by omega)
        omega
      · have := kbc.1 h'
        have := kac.1 (by omega)
        omega

/-- C44, what holds for attachments: files with names other than the cover names are in the order
of their names. -/
theorem C44_attachments_partial :
    PreorderOn (fun x : Option Bytes => ∃ n, x = some n ∧ (0 : UInt8) ∉ n ∧ coverOf n = ⟨false, false, false⟩) attachCmp ∧
    ∀ x y, (coverOf x = ⟨false, false, false⟩ ∧ (0 : UInt8) ∉ x) → (coverOf y = ⟨false, false, false⟩ ∧ (0 : UInt8) ∉ y) →
      (attachCmp (some x) (some y) = 0 ↔ x = y) := by
  have red : ∀ x y, coverOf x = ⟨false, false, false⟩ → coverOf y = ⟨false, false, false⟩ →
      attachCmp (some x) (some y) = strcmp x y := by
    intro x y hx hy
    simp [attachCmp, coverCmp, hx, hy]
  have nz : ∀ x : Bytes, (0 : UInt8) ∉ x → ∀ v ∈ x.map (fun c => (c.toNat : Int)), v ≠ 0 := by
    intro x hx v hv
    obtain ⟨c, hc, rfl⟩ := List.mem_map.1 hv
    intro h
    have : c = 0 := UInt8.toNat_inj.1 (by simp; omega)
    exact hx (this ▸ hc)
  refine ⟨⟨?_, ?_, ?_⟩, ?_⟩
  · rintro _ ⟨x, rfl, h0, hc⟩
    rw [red x x hc hc]
    exact cmpInts_self _
  · rintro _ _ ⟨x, rfl, h0, hc⟩ ⟨y, rfl, h0', hc'⟩
    rw [red x y hc hc', red y x hc' hc]
    unfold strcmp
    rw [cmpInts_anti (x.map _)]
    omega
  · rintro _ _ _ ⟨x, rfl, h0, hc⟩ ⟨y, rfl, h0', hc'⟩ ⟨z, rfl, h0'', hc''⟩
    rw [red x y hc hc', red y z hc' hc'', red x z hc hc'']
    exact cmpInts_trans _ _ _ (nz x h0) (nz y h0') (nz z h0'')
  · intro x y ⟨hx, hx0⟩ ⟨hy, hy0⟩
    rw [red x y hx hy]
    unfold strcmp
    rw [cmpInts_zero _ _ (nz x hx0) (nz y hy0)]
    constructor
    · intro h
      exact List.map_inj_right (fun a b h => UInt8.toNat_inj.1 (by omega)) |>.1 h
    · intro h; rw [h]

example : coverOf [97] = ⟨false, false, false⟩ ∧ attachCmp (some [97]) (some [98]) = -1 := by decide

/-- C44, what holds for the children of a cluster: SimpleBlocks alone are in the order of their
blocks. -/
theorem C44_cluster_partial (t0 : Int) :
    PreorderOn (fun e => ∃ k : BKey, e = .simple k ∧ t0 ≤ k.time ∧ k.time < t0 + 2 ^ 31 * 100000 ∧ (100000 : Int) ∣ k.time)
      clusterCmp ∧
    PreorderOn (fun e => ∃ k : BKey, e = .group (some k) ∧ t0 ≤ k.time ∧ k.time < t0 + 2 ^ 31 * 100000 ∧ (100000 : Int) ∣ k.time)
      clusterCmp := by
  obtain ⟨p1, p2, p3⟩ := C44_blocks_partial t0
  have r1 : ∀ a b, clusterCmp (.simple a) (.simple b) = blockCmp a b := by
    intro a b; simp [clusterCmp, CElt.blockA, CElt.blockB]
  have r2 : ∀ a b, clusterCmp (.group (some a)) (.group (some b)) = blockCmp a b := by
    intro a b; simp [clusterCmp, CElt.blockA, CElt.blockB]
  refine ⟨⟨?_, ?_, ?_⟩, ⟨?_, ?_, ?_⟩⟩
  · rintro _ ⟨a, rfl, ha⟩
    rw [r1]; exact p1 a ha
  · rintro _ _ ⟨a, rfl, ha⟩ ⟨b, rfl, hb⟩
    rw [r1, r1]; exact p2 a b ha hb
  · rintro _ _ _ ⟨a, rfl, ha⟩ ⟨b, rfl, hb⟩ ⟨c, rfl, hc⟩
    rw [r1, r1, r1]; exact p3 a b c ha hb hc
  · rintro _ ⟨a, rfl, ha⟩
    rw [r2]; exact p1 a ha
  · rintro _ _ ⟨a, rfl, ha⟩ ⟨b, rfl, hb⟩
    rw [r2, r2]; exact p2 a b ha hb
  · rintro _ _ _ ⟨a, rfl, ha⟩ ⟨b, rfl, hb⟩ ⟨c, rfl, hc⟩
    rw [r2, r2, r2]; exact p3 a b c ha hb hc

example : clusterCmp (.simple ⟨500000, 1⟩) (.simple ⟨100000, 2⟩) = 4 ∧
    clusterCmp (.simple ⟨500000, 1⟩) (.simple ⟨500000, 2⟩) = 1 := by decide

end Verif.Mkv
