import Verif.Props.Cue
import Verif.Props.ValidatorBlocks
/-!
C206: mkvalidator on the Cues mkclean makes.
-/
namespace Verif.Accepted
open Verif Verif.Mkvalidator
open Verif.Mkv (scale64 invalidTs BKey)
open Verif.Mkclean (Child newCues Keyframe TimesOk)

/-- mkvalidator sees the keyframes of the Clusters: in the Cluster with the same number there is a block of the same
track with the same time. -/
def SeesKeys (cs : List (List Child)) (vs : List Cluster) : Prop :=
  ∀ (i : Nat) c x b, cs[i]? = some c → x ∈ c → Keyframe x b →
    ∃ v y, vs[i]? = some v ∧ y ∈ v.blocks ∧ (y.track : Int) = b.track ∧ y.time = b.time

/-- The CuePoint `MATROSKA_CuePointUpdate` writes for a block, matroskamain.c:866-879. -/
def cueFor (scale : Int) (b : BKey) : Mkv.Cue := ⟨some (scale64 b.time scale), some b.track⟩

theorem ticks_exact (t scale : Int) (h0 : 0 < scale) (hd : scale ∣ t) : scale64 t scale * scale = t := by
  rw [scale64, if_neg (by omega)]
  exact Mkv.tdiv_exact t scale hd

/-- C206. The Cues mkclean makes for Clusters whose times are whole ticks of the TimestampScale, of a main track with a
number below 32768, are accepted by mkvalidator: it prints nothing about Cues, that is none is earlier than the one
before and each names a block that is there. -/
theorem C206_new_cues (scale : Int) (main : Nat) (cs : List (List Child)) (vs : List Cluster) (h0 : 0 < scale)
    (hmain : main < 32768) (hok : TimesOk cs) (htick : ∀ c ∈ cs, ∀ x ∈ c, ∀ b, Keyframe x b → scale ∣ b.time)
    (hsee : SeesKeys cs vs) :
    checkCues scale vs invalidTs ((newCues main invalidTs 0 cs).map fun e => cueFor scale e.2) = [] := by
  obtain ⟨h1, h2, _⟩ := Mkclean.C122_new_cues main cs hok
  have hall : ∀ e ∈ newCues main invalidTs 0 cs, e.2.track = main ∧ 0 ≤ e.2.time ∧ e.2.time < invalidTs ∧
      scale64 e.2.time scale * scale = e.2.time ∧ ∃ v ∈ vs, ∃ y ∈ v.blocks, (y.track : Int) = main ∧ y.time = e.2.time := by
    intro e he
    obtain ⟨c, hc, pre, x, post, hcx, hk, ht, _⟩ := h1 e he
    have hx : x ∈ c := by rw [hcx]; simp
    have hm := List.mem_of_getElem? hc
    have ho := hok c hm x hx _ hk
    obtain ⟨v, y, hv, hy, y1, y2⟩ := hsee _ c x _ hc hx hk
    exact ⟨ht, ho.1, ho.2, ticks_exact _ _ h0 (htick c hm x hx _ hk), v, List.mem_of_getElem? hv, y, hy, by rw [y1, ht], y2⟩
  rw [List.eq_nil_iff_forall_not_mem]
  intro ev hev
  rw [C132_cues_partial scale vs _ (by
    intro c hc
    obtain ⟨e, he, rfl⟩ := List.mem_map.1 hc
    obtain ⟨a1, a2, a3, a4, _⟩ := hall e he
    refine ⟨_, main, rfl, by simp only [cueFor, a1], hmain, by rw [a4]; exact a2, by rw [a4]; exact a3⟩)] at hev
  rcases hev with ⟨_, c, hc, hno⟩ | ⟨_, l, a, b, r, t, u, hl, ha, hb, hlt⟩
  · obtain ⟨e, he, rfl⟩ := List.mem_map.1 hc
    obtain ⟨a1, _, _, a4, v, hv, y, hy, y1, y2⟩ := hall e he
    exact hno _ _ rfl rfl ⟨v, hv, y, hy, by rw [y1, a1], by rw [y2, a4]⟩
  · have hp : ((newCues main invalidTs 0 cs).map fun e => cueFor scale e.2).Pairwise fun x y =>
        ∀ t u, x.time = some t → y.time = some u → ¬ u * scale < t * scale := by
      rw [List.pairwise_map]
      refine List.Pairwise.imp_of_mem ?_ h2
      intro x y hx hy hxy t u ht hu
      obtain ⟨_, _, _, x4, _⟩ := hall x hx
      obtain ⟨_, _, _, y4, _⟩ := hall y hy
      cases ht; cases hu
      rw [x4, y4]
      omega
    rw [hl] at hp
    have := (List.pairwise_cons.1 (List.pairwise_append.1 hp).2.1).1 b (by simp) t u ha hb
    exact this hlt

/-- Three Clusters, two Cues. -/
example : ((newCues 1 invalidTs 0 [[.other, .simple false ⟨0, 1⟩, .simple true ⟨40000000, 1⟩], [.simple true ⟨500000000, 1⟩],
      [.group (some ⟨900000000, 1⟩) 0]]).map fun e => cueFor 1000000 e.2) = [⟨some 40, some 1⟩, ⟨some 900, some 1⟩] ∧
    checkCues 1000000 [⟨0, 0, 0, none, none, [{ track := 1, time := 0 }, { track := 1, time := 40000000 }]⟩,
      ⟨0, 0, 0, none, none, [{ track := 1, time := 500000000 }]⟩, ⟨0, 0, 0, none, none, [{ track := 1, time := 900000000 }]⟩]
      invalidTs [⟨some 40, some 1⟩, ⟨some 900, some 1⟩] = [] := by decide

/-- Without whole ticks, as after `--timecodescale`, mkvalidator does not find the block. -/
theorem C206_ticks_counterexample : ¬ ∀ (scale : Int) (main : Nat) (cs : List (List Child)) (vs : List Cluster), 0 < scale →
    main < 32768 → TimesOk cs → SeesKeys cs vs →
    checkCues scale vs invalidTs ((newCues main invalidTs 0 cs).map fun e => cueFor scale e.2) = [] := by
  intro h
  have := h 1000000 1 [[.simple true ⟨500000, 1⟩]] [⟨0, 0, 0, none, none, [{ track := 1, time := 500000 }]⟩] (by decide) (by decide)
    (by
      intro c hc x hx b hb
      simp only [List.mem_singleton] at hc
      subst hc
      simp only [List.mem_singleton] at hx
      subst hx
      cases hb
      decide)
    (by
      intro i c x b hc hx hb
      cases i with
      | succ i => simp at hc
      | zero =>
        simp only [List.getElem?_cons_zero, Option.some.injEq] at hc
        subst hc
        simp only [List.mem_singleton] at hx
        subst hx
        cases hb
        exact ⟨_, _, rfl, by simp; rfl, rfl, rfl⟩)
  exact absurd this (by decide)

end Verif.Accepted
