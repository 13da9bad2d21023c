import Verif.Mkclean.RemuxOrder
import Verif.Props.Remux
/-!
C210: how `mkclean --remux` interleaves the tracks.
-/
set_option linter.unusedSimpArgs false
namespace Verif.Mkclean
open Verif.Mkv Verif.Core

/-- Specification: does the time fall in Cluster number `k`, when the Clusters from the second on start at `starts`? -/
def within (starts : List Int) (k : Nat) (x : Int) : Bool :=
  (match k with | 0 => true | j + 1 => (starts[j]?).any (fun lo => decide (lo ≤ x))) &&
    (starts[k]?).all (fun hi => decide (x < hi))

theorem dealAll_turns (d : Nat → List RBlk) (others : List Nat) (main : Nat) (hm : main ∉ others) (hnd : others.Nodup)
    (hd : ∀ t ∈ others, (∀ b ∈ d t, Plain b) ∧ ((d t).map (·.dt)).Pairwise (· ≤ ·)) (fuel : Nat) :
    ∀ (ts : List Int) (t : Int) (b : RBlk) (rest : List RBlk) (lo : Option Int),
      ((b :: rest).map (·.dt)).Pairwise (· < ·) → (∀ c ∈ b :: rest, c.dt < invalidTs ∧ c.frames ≠ []) →
      UpTo lo (blockEnd (b :: rest)) → ts.Sublist (rest.map (·.dt)) → rest.length + 1 < fuel →
      ∃ clusters, dealAll (fun _ _ _ => true) (others ++ [main]) main fuel (t :: ts) (stateAt d others main lo (b :: rest)) =
          .ok clusters ∧ clusters.flatten = (turns d others main lo (b :: rest)).flatten ∧
        clusters.length = ts.length + 1 ∧
        ∀ (k : Nat) (c : List Piece), clusters[k]? = some c → (c.filter (fun p => p.1 = main)).map (·.2) =
          ((b :: rest).filter (fun x => within ts k x.dt)).map (·.frames) := by
  intro ts
  induction ts with
  | nil =>
    intro t b rest lo hs hv hlo _ hf
    obtain ⟨hi, out, e1, e2, e3, _⟩ := dealCluster_turns d others main hm hnd hd invalidTs [] (by simp) (fun _ => rfl) rest b lo fuel
      (by simpa using hs) (by simpa using hv) (by simpa using hlo) (fun c hc => (hv c (by simp [hc])).1) hf
    simp only [List.append_nil] at e1 e2 e3
    rw [dealAll]
    rw [e1]
    simp only [dealAll]
    refine ⟨[out], rfl, ?_, rfl, ?_⟩
    · rw [e2, e3]
      simp [turns]
    · intro k c hk
      cases k with
      | succ k => simp at hk
      | zero =>
        simp only [List.getElem?_cons_zero, Option.some.injEq] at hk
        subst hk
        rw [e3, turns_take_main d others main hm, List.take_of_length_le (by simp)]
        congr 1
        symm
        rw [List.filter_eq_self]
        intro x _
        simp [within]
  | cons n ts ih =>
    intro t b rest lo hs hv hlo hsub hf
    -- the main track up to the boundary
    have hn : n ∈ rest.map (·.dt) := hsub.subset (by simp)
    obtain ⟨m, hmem, hmn⟩ := List.mem_map.1 hn
    obtain ⟨pre, ds, hsplit⟩ := List.append_of_mem hmem
    subst hsplit
    have hs' := hs
    simp only [List.map_cons, List.map_append, List.pairwise_cons, List.pairwise_append] at hs'
    obtain ⟨hb0, hpp, ⟨hmd, hdd⟩, hpm⟩ := hs'
    have hpre : ∀ c ∈ pre, c.dt < n := by
      intro c hc
      rw [← hmn]
      exact hpm c.dt (List.mem_map.2 ⟨c, hc, rfl⟩) m.dt (by simp)
    have hds : ∀ c ∈ ds, n < c.dt := by
      intro c hc
      rw [← hmn]
      exact hmd c.dt (List.mem_map.2 ⟨c, hc, rfl⟩)
    have hbn : b.dt < n := by
      rw [← hmn]
      exact hb0 m.dt (by simp)
    have hsub' : ts.Sublist (ds.map (·.dt)) := by
      rw [List.map_append, List.map_cons, hmn] at hsub
      have h1 : (n :: ts).Sublist (n :: ds.map (·.dt)) := by
        rw [List.sublist_append_iff] at hsub
        obtain ⟨l1, l2, h12, hl1, hl2⟩ := hsub
        cases l1 with
        | nil => simp only [List.nil_append] at h12; rw [h12]; exact hl2
        | cons y l1 =>
          simp only [List.cons_append, List.cons.injEq] at h12
          have := hl1.subset (List.mem_cons_self)
          obtain ⟨c, hc, he⟩ := List.mem_map.1 this
          have := hpre c hc
          omega
      rw [List.cons_sublist_cons] at h1
      exact h1
    have htsn : ∀ x ∈ ts, n < x := by
      intro x hx
      obtain ⟨c, hc, rfl⟩ := List.mem_map.1 (hsub'.subset hx)
      exact hds c hc
    obtain ⟨hi, out, e1, e2, e3, e4⟩ := dealCluster_turns d others main hm hnd hd n (m :: ds) (by simp [hmn]) (by simp) pre b lo fuel
      hs hv hlo hpre (by simp only [List.length_append, List.length_cons] at hf; omega)
    obtain ⟨cl, f1, f2, f3, f4⟩ := ih n m ds (some hi)
      (by
        rw [List.map_cons, List.pairwise_cons]
        exact ⟨hmd, hdd⟩)
      (fun c hc => hv c (by
        simp only [List.mem_cons, List.mem_append] at hc ⊢
        exact Or.inr (Or.inr hc)))
      (e4 (by simp)) hsub' (by simp only [List.length_append, List.length_cons] at hf; omega)
    simp only [List.cons_append] at e1 e2 e3
    rw [dealAll]
    rw [e1]
    simp only
    rw [f1]
    refine ⟨out :: cl, rfl, ?_, ?_, ?_⟩
    · rw [List.flatten_cons, f2, e3, ← List.flatten_append, ← e2]
    · simp [f3]
    · intro k c hk
      cases k with
      | zero =>
        simp only [List.getElem?_cons_zero, Option.some.injEq] at hk
        subst hk
        rw [e3, turns_take_main d others main hm]
        congr 1
        have hsp : b :: (pre ++ m :: ds) = (b :: pre) ++ (m :: ds) := rfl
        rw [hsp, List.take_left' (by simp), List.filter_append]
        have h1 : (b :: pre).filter (fun x => within (n :: ts) 0 x.dt) = b :: pre := by
          rw [List.filter_eq_self]
          intro x hx
          have : x.dt < n := by
            rw [List.mem_cons] at hx
            rcases hx with rfl | hx
            · exact hbn
            · exact hpre x hx
          simp [within, this]
        have h2 : (m :: ds).filter (fun x => within (n :: ts) 0 x.dt) = [] := by
          rw [List.filter_eq_nil_iff]
          intro x hx
          have : ¬ x.dt < n := by
            rw [List.mem_cons] at hx
            rcases hx with rfl | hx
            · omega
            · have := hds x hx; omega
          simp [within, this]
        rw [h1, h2, List.append_nil]
      | succ k =>
        simp only [List.getElem?_cons_succ] at hk
        rw [f4 k c hk]
        congr 1
        have hsp : b :: (pre ++ m :: ds) = (b :: pre) ++ (m :: ds) := rfl
        rw [hsp, List.filter_append]
        have h1 : (b :: pre).filter (fun x => within (n :: ts) (k + 1) x.dt) = [] := by
          rw [List.filter_eq_nil_iff]
          intro x hx
          have hx' : x.dt < n := by
            rw [List.mem_cons] at hx
            rcases hx with rfl | hx
            · exact hbn
            · exact hpre x hx
          simp only [within, Bool.and_eq_true, not_and]
          intro h
          exfalso
          cases hg : (n :: ts)[k]? with
          | none => rw [hg] at h; simp at h
          | some y =>
            rw [hg] at h
            simp only [Option.any_some, decide_eq_true_eq] at h
            have := List.mem_of_getElem? hg
            rw [List.mem_cons] at this
            rcases this with rfl | hy
            · omega
            · have := htsn y hy; omega
        rw [h1, List.nil_append]
        apply List.filter_congr
        intro x hx
        have hx' : n ≤ x.dt := by
          rw [List.mem_cons] at hx
          rcases hx with rfl | hx
          · omega
          · have := hds x hx; omega
        cases k with
        | zero => simp [within, hx']
        | succ k => simp [within]

/-- **C210.** `mkclean --remux` of a file in which the blocks of each track are in the order of their timestamps (those of the
main track all different), and blocks of other tracks hold single frames: the main track is cut at the
boundaries, i.e. Cluster number `k` has exactly its blocks from boundary `k` (the first Cluster: from the start) up to,
and without, boundary `k + 1`; and before each block of the main track stand, of each other track, exactly
the blocks that start not later than the following block of the main track. -/
theorem C210_interleaving (others : List Nat) (main : Nat) (tracks : Nat → List RBlk) (hm : main ∉ others) (hnd : others.Nodup)
    (husable : ∀ t ∈ others ++ [main], ∀ b ∈ tracks t, b.frames ≠ [] ∧ b.ts < invalidTs)
    (hlace : ∀ t ∈ others, ∀ b ∈ tracks t, b.laced = false)
    (horder : ∀ t ∈ others, ((tracks t).map (·.ts)).Pairwise (· ≤ ·))
    (hmain : ((tracks main).map (·.ts)).Pairwise (· < ·)) (hlen : 2 ≤ (tracks main).length)
    (k0 : Int) (ks : List Int) (hkeys : ((tracks main).filter (·.key)).map (·.ts) = k0 :: ks) :
    ∃ clusters, remux (fun _ _ _ => true) (others ++ [main]) main tracks = .ok clusters ∧
      clusters.length = (boundaries k0 ks).length + 1 ∧
      (∀ (k : Nat) (c : List Piece), clusters[k]? = some c → (c.filter (fun p => p.1 = main)).map (·.2) =
        ((tracks main).filter (fun b => within (boundaries k0 ks) k b.ts)).map (·.frames)) ∧
      ∀ (j : Nat) (b : RBlk), (tracks main)[j]? = some b → ∃ before after,
        clusters.flatten = before ++ (main, b.frames) :: after ∧
        (before.filter (fun p => p.1 = main)).map (·.2) = ((tracks main).take j).map (·.frames) ∧
        ∀ t ∈ others, (before.filter (fun p => p.1 = t)).map (·.2) =
          ((tracks t).filter (fun c => ((tracks main)[j + 1]?).all (fun n => decide (c.ts ≤ n.ts)))).map (·.frames) := by
  let d : Nat → List RBlk := fun t => (tracks t).map (fun b => { b with dt := b.ts })
  have hdec : ∀ t ∈ others, decodeTimes invalidTs (tracks t) = d t := fun t ht => decodeTimes_inOrder _ _ (horder t ht)
  have hdecm : decodeTimes invalidTs (tracks main) = d main :=
    decodeTimes_inOrder _ _ (hmain.imp (fun h => Int.le_of_lt h))
  have hdts : ∀ t, (d t).map (·.dt) = (tracks t).map (·.ts) := fun t => by simp [d, List.map_map, Function.comp_def]
  have hk : keyTimes (d main) = k0 :: ks := by
    rw [← hkeys]
    simp only [keyTimes, d, List.filter_map, List.map_map, Function.comp_def]
  have hsubk : (k0 :: ks).Sublist ((d main).map (·.dt)) := by
    rw [← hk, hdts, keyTimes]
    simp only [d, List.filter_map, List.map_map, Function.comp_def]
    exact List.Sublist.map _ List.filter_sublist
  have hsorted : (k0 :: ks).Pairwise (· ≤ ·) := by
    have : (k0 :: ks).Pairwise (· < ·) := List.Pairwise.sublist hsubk (by rw [hdts]; exact hmain)
    exact this.imp (fun h => Int.le_of_lt h)
  have hvm : ∀ b ∈ d main, b.dt < invalidTs ∧ b.frames ≠ [] := by
    intro b hb
    obtain ⟨c, hc, rfl⟩ := List.mem_map.1 hb
    exact ⟨(husable main (by simp) c hc).2, (husable main (by simp) c hc).1⟩
  have hmem : ∀ k ∈ k0 :: ks, k < invalidTs := by
    intro k hk'
    obtain ⟨b, hb, rfl⟩ := List.mem_map.1 (hsubk.subset hk')
    exact (hvm b hb).1
  have hthin : thin ((k0 :: ks).length + 1) (k0 :: ks) 0 invalidTs = some (k0 :: boundaries k0 ks) := by
    rw [thin]
    simp only [List.getElem?_cons_zero, ne_eq, not_true_eq_false, false_and, if_false]
    have := thin_eq ks (k0 :: ks).length [k0] k0 (by simpa using hsorted) (by simp)
      (by have := hmem k0 (by simp); omega) (by intro t ht; have := hmem t (by simp [ht]); omega)
    simpa using this
  obtain ⟨b0, rest, hbr⟩ : ∃ b rest, d main = b :: rest := by
    cases h : d main with
    | nil => have : (d main).length = (tracks main).length := by simp [d]
             rw [h] at this; simp at this; omega
    | cons b rest => exact ⟨b, rest, rfl⟩
  have hlm : (d main).length = (tracks main).length := by simp [d]
  have hsub : (boundaries k0 ks).Sublist (rest.map (·.dt)) := by
    refine (boundaries_sublist ks k0).trans ?_
    rw [hbr, List.map_cons] at hsubk
    rcases List.sublist_cons_iff.1 hsubk with h | ⟨r, hr, h⟩
    · exact (List.sublist_cons_self k0 ks).trans h
    · rw [List.cons.injEq] at hr
      rw [hr.2]; exact h
  have hst : dealAll (fun _ _ _ => true) (others ++ [main]) main ((tracks main).length + 1) (k0 :: boundaries k0 ks)
      (fun t => ⟨decodeTimes invalidTs (tracks t), 0⟩) =
      dealAll (fun _ _ _ => true) (others ++ [main]) main ((tracks main).length + 1) (k0 :: boundaries k0 ks)
      (stateAt (fun t => decodeTimes invalidTs (tracks t)) others main none (b0 :: rest)) := by
    congr 1
    funext u
    unfold stateAt
    by_cases e : u = main
    · subst e; simp only [if_true, hdecm, hbr]
    · by_cases hu : u ∈ others
      · simp only [e, if_false, hu, if_true]
        congr 1
        symm
        rw [List.filter_eq_self]
        intro _ _; rfl
      · simp only [e, if_false, hu]
  have hrun : remux (fun _ _ _ => true) (others ++ [main]) main tracks =
      dealAll (fun _ _ _ => true) (others ++ [main]) main ((tracks main).length + 1) (k0 :: boundaries k0 ks)
        (fun t => ⟨decodeTimes invalidTs (tracks t), 0⟩) := by
    unfold remux
    simp only
    rw [hdecm, hk, hthin, hlm]
    simp only [reduceCtorEq, if_false]
    rw [if_neg (by omega)]
  have hdd : ∀ t ∈ others, (∀ b ∈ decodeTimes invalidTs (tracks t), Plain b) ∧
      ((decodeTimes invalidTs (tracks t)).map (·.dt)).Pairwise (· ≤ ·) := by
    intro t ht
    rw [hdec t ht, hdts]
    refine ⟨?_, horder t ht⟩
    intro b hb
    obtain ⟨c, hc, rfl⟩ := List.mem_map.1 hb
    have := husable t (by simp [ht]) c hc
    exact ⟨this.1, hlace t ht c hc, this.2⟩
  have hmd : ((b0 :: rest).map (·.dt)).Pairwise (· < ·) := by rw [← hbr, hdts]; exact hmain
  obtain ⟨cl, h1, h2, h3, h4⟩ := dealAll_turns (fun t => decodeTimes invalidTs (tracks t)) others main hm hnd hdd
    ((tracks main).length + 1) (boundaries k0 ks) k0 b0 rest none hmd (by rw [← hbr]; exact hvm) (by intro e he; cases he) hsub
    (by rw [← hlm, hbr]; simp)
  refine ⟨cl, by rw [hrun, hst, h1], h3, ?_, ?_⟩
  · intro k c hk'
    rw [h4 k c hk', ← hbr]
    simp only [d, List.filter_map, List.map_map, Function.comp_def]
  · intro j b hj
    have hj' : (b0 :: rest)[j]? = some { b with dt := b.ts } := by
      rw [← hbr]; simp only [d, List.getElem?_map, hj, Option.map_some]
    obtain ⟨before, after, g1, g2, g3⟩ := turns_at (fun t => decodeTimes invalidTs (tracks t)) others main hm hnd
      (fun t ht => (hdd t ht).2) (b0 :: rest) none j { b with dt := b.ts } hmd (by rw [← hbr]; exact fun c hc => (hvm c hc).1)
      (by intro e he; cases he) hj'
    refine ⟨before, after, by rw [h2, g1], ?_, ?_⟩
    · rw [g2, ← hbr]
      simp only [d, ← List.map_take, List.map_map, Function.comp_def]
    · intro t ht
      rw [g3 t ht]
      simp only [hdec t ht]
      simp only [d, List.filter_map, List.map_map, Function.comp_def]
      congr 1
      apply List.filter_congr
      intro c hc
      have hcv := (husable t (by simp [ht]) c hc).2
      have hjl : j < (b0 :: rest).length := (List.getElem?_eq_some_iff.1 hj').1
      rw [List.drop_eq_getElem_cons hjl]
      by_cases hj2 : j + 1 < (b0 :: rest).length
      · rw [List.drop_eq_getElem_cons hj2]
        have hj3 : j + 1 < (tracks main).length := by rw [← hlm, hbr]; exact hj2
        have hn : (tracks main)[j + 1]? = some (tracks main)[j + 1] := List.getElem?_eq_getElem hj3
        have hdt : ((b0 :: rest)[j + 1]).dt = ((tracks main)[j + 1]).ts := by
          have : (d main)[j + 1]? = some (b0 :: rest)[j + 1] := by rw [hbr]; exact List.getElem?_eq_getElem hj2
          simp only [d, List.getElem?_map, hn, Option.map_some, Option.some.injEq] at this
          rw [← this]
        rw [hn]
        simp only [behind, blockEnd, hdt, Bool.true_and, Option.all_some]
      · have hj3 : (tracks main).length ≤ j + 1 := by rw [← hlm, hbr]; omega
        rw [List.drop_eq_nil_of_le (by omega), List.getElem?_eq_none hj3]
        simp only [behind, blockEnd, Bool.true_and, Option.all_none]
        exact decide_eq_true (by omega)

/-- Specification: frames of a track put in a Cluster that ends at `stop`: all the frames of a block, or those of a block that
end before `stop` and were not put in an earlier Cluster. -/
def CutAt (blocks : List RBlk) (stop : Int) (fs : List RFrame) : Prop :=
  ∃ b ∈ blocks, b.frames = fs ∨
    ∃ pre post, b.frames = pre ++ fs ++ post ∧ (∀ f ∈ fs, f.finish < stop) ∧ ∀ f ∈ post.head?, stop ≤ f.finish

theorem CutAt.mono {l l' : List RBlk} (h : ∀ b ∈ l, b ∈ l') {stop : Int} {fs : List RFrame} (hc : CutAt l stop fs) :
    CutAt l' stop fs := by
  obtain ⟨b, hb, hc⟩ := hc
  exact ⟨b, h b hb, hc⟩

theorem fitting_cut (stop : Int) : ∀ (fs : List RFrame), (∀ f ∈ fs.take (fitting stop fs), f.finish < stop) ∧
    ∀ f ∈ (fs.drop (fitting stop fs)).head?, stop ≤ f.finish := by
  intro fs
  induction fs with
  | nil => simp [fitting]
  | cons f fs ih =>
    rw [fitting]
    by_cases h : f.finish ≥ stop
    · rw [if_pos h]
      refine ⟨by simp, ?_⟩
      intro g hg
      simp only [List.drop_zero, List.head?_cons, Option.mem_def, Option.some.injEq] at hg
      subst hg; exact h
    · rw [if_neg h, List.take_succ_cons, List.drop_succ_cons]
      refine ⟨?_, ih.2⟩
      intro g hg
      rw [List.mem_cons] at hg
      rcases hg with rfl | hg
      · omega
      · exact ih.1 g hg

theorem mem_piece {fs p : List RFrame} (h : p ∈ piece fs) : p = fs := by
  unfold piece at h
  split at h <;> simp_all

theorem dealTrack_cut (fits : RBlk → Bool) (isMain : Bool) (mainEnd master : Int) : ∀ (todo : List RBlk) (start : Nat) (t : Trk)
    (out : List (List RFrame)) (r : Bool), dealTrack fits isMain mainEnd master start todo = .ok (t, out, r) →
    (∀ b ∈ t.todo, b ∈ todo) ∧ ∀ fs ∈ out, CutAt todo master fs := by
  intro todo
  induction todo with
  | nil =>
    intro start t out r h
    simp only [dealTrack, Out.ok.injEq, Prod.mk.injEq] at h
    obtain ⟨rfl, rfl, rfl⟩ := h
    simp
  | cons b rest ih =>
    intro start t out r h
    rw [dealTrack] at h
    split at h
    · simp only [Out.ok.injEq, Prod.mk.injEq] at h
      obtain ⟨rfl, rfl, rfl⟩ := h
      exact ⟨fun _ h => h, by simp⟩
    split at h
    · have hcut := fitting_cut master (b.frames.drop start)
      have hp : ∀ fs ∈ piece ((b.frames.drop start).take (start + fitting master (b.frames.drop start) - start)), CutAt (b :: rest) master fs := by
        intro fs hfs
        have := mem_piece hfs
        subst this
        have e : start + fitting master (b.frames.drop start) - start = fitting master (b.frames.drop start) := by omega
        rw [e]
        refine ⟨b, by simp, Or.inr ⟨b.frames.take start, (b.frames.drop start).drop (fitting master (b.frames.drop start)), ?_, hcut.1, hcut.2⟩⟩
        rw [List.append_assoc, List.take_append_drop, List.take_append_drop]
      simp only at h
      split at h
      · simp only [Out.ok.injEq, Prod.mk.injEq] at h
        obtain ⟨rfl, rfl, rfl⟩ := h
        exact ⟨fun _ h => h, hp⟩
      · split at h
        · rename_i t' out' r' he
          simp only [Out.ok.injEq, Prod.mk.injEq] at h
          obtain ⟨rfl, rfl, rfl⟩ := h
          obtain ⟨h1, h2⟩ := ih 0 _ _ _ he
          refine ⟨fun c hc => by simp [h1 c hc], ?_⟩
          intro fs hfs
          rw [List.mem_append] at hfs
          rcases hfs with hfs | hfs
          · exact hp fs hfs
          · exact (h2 fs hfs).mono (fun c hc => by simp [hc])
        · simp at h
        · simp at h
        · simp at h
    split at h
    · by_cases hk : (if b.hasDur = true then fitting master b.frames else b.frames.length) = b.frames.length
      · rw [if_pos hk] at h
        simp only [Out.ok.injEq, Prod.mk.injEq] at h
        obtain ⟨rfl, rfl, rfl⟩ := h
        exact ⟨fun _ h => h, by simp⟩
      · rw [if_neg hk] at h
        simp only [Out.ok.injEq, Prod.mk.injEq] at h
        obtain ⟨rfl, rfl, rfl⟩ := h
        refine ⟨fun _ h => h, ?_⟩
        intro fs hfs
        have := mem_piece hfs
        subst this
        cases hd : b.hasDur with
        | false => rw [hd] at hk; simp at hk
        | true =>
          simp only [if_true]
          have hcut := fitting_cut master b.frames
          exact ⟨b, by simp, Or.inr ⟨[], b.frames.drop (fitting master b.frames), by simp, hcut.1, hcut.2⟩⟩
    split at h
    · split at h
      · simp at h
      split at h
      · simp only [Out.ok.injEq, Prod.mk.injEq] at h
        obtain ⟨rfl, rfl, rfl⟩ := h
        refine ⟨fun c hc => by simp at hc ⊢; exact Or.inr hc, ?_⟩
        intro fs hfs
        simp only [List.mem_singleton] at hfs
        exact ⟨b, by simp, Or.inl hfs.symm⟩
      · split at h
        · rename_i t' out' r' he
          simp only [Out.ok.injEq, Prod.mk.injEq] at h
          obtain ⟨rfl, rfl, rfl⟩ := h
          obtain ⟨h1, h2⟩ := ih 0 _ _ _ he
          refine ⟨fun c hc => by simp [h1 c hc], ?_⟩
          intro fs hfs
          rw [List.mem_cons] at hfs
          rcases hfs with rfl | hfs
          · exact ⟨b, by simp, Or.inl rfl⟩
          · exact (h2 fs hfs).mono (fun c hc => by simp [hc])
        · simp at h
        · simp at h
        · simp at h
    split at h
    · simp only [Out.ok.injEq, Prod.mk.injEq] at h
      obtain ⟨rfl, rfl, rfl⟩ := h
      exact ⟨fun _ h => h, by simp⟩
    · simp at h

theorem dealRound_cut (fits : Nat → RBlk → Bool) (main : Nat) (mainEnd master : Int) : ∀ (order : List Nat) (s s' : Nat → Trk)
    (out : List Piece) (r : Bool), dealRound fits main mainEnd master order s = .ok (s', out, r) →
    (∀ t, ∀ b ∈ (s' t).todo, b ∈ (s t).todo) ∧ ∀ p ∈ out, CutAt (s p.1).todo master p.2 := by
  intro order
  induction order with
  | nil =>
    intro s s' out r h
    simp only [dealRound, Out.ok.injEq, Prod.mk.injEq] at h
    obtain ⟨rfl, rfl, rfl⟩ := h
    exact ⟨fun _ _ h => h, by simp⟩
  | cons t ts ih =>
    intro s s' out r h
    rw [dealRound] at h
    split at h
    · simp at h
    · simp at h
    · simp at h
    rename_i tr o1 r1 he
    obtain ⟨h1, h2⟩ := dealTrack_cut _ _ _ _ _ _ _ _ _ he
    split at h
    · simp at h
    · simp at h
    · simp at h
    rename_i s2 o2 r2 he2
    obtain ⟨h3, h4⟩ := ih _ _ _ _ he2
    simp only [Out.ok.injEq, Prod.mk.injEq] at h
    obtain ⟨rfl, rfl, rfl⟩ := h
    have hstep : ∀ u, ∀ b ∈ (if u = t then tr else s u).todo, b ∈ (s u).todo := by
      intro u b hb
      by_cases e : u = t
      · subst e; simp only [if_true] at hb; exact h1 b hb
      · simp only [e, if_false] at hb; exact hb
    refine ⟨fun u b hb => hstep u b (h3 u b hb), ?_⟩
    intro p hp
    rw [List.mem_append] at hp
    rcases hp with hp | hp
    · obtain ⟨fs, hfs, rfl⟩ := List.mem_map.1 hp
      exact h2 fs hfs
    · exact (h4 p hp).mono (hstep p.1)

theorem dealCluster_cut (fits : Nat → RBlk → Bool) (order : List Nat) (main : Nat) (master : Int) : ∀ (fuel : Nat) (s s' : Nat → Trk)
    (out : List Piece), dealCluster fits order main master fuel s = .ok (s', out) →
    (∀ t, ∀ b ∈ (s' t).todo, b ∈ (s t).todo) ∧ ∀ p ∈ out, CutAt (s p.1).todo master p.2 := by
  intro fuel
  induction fuel with
  | zero => intro s s' out h; simp [dealCluster] at h
  | succ fuel ih =>
    intro s s' out h
    rw [dealCluster] at h
    split at h
    · simp only [Out.ok.injEq, Prod.mk.injEq] at h
      obtain ⟨rfl, rfl⟩ := h
      exact ⟨fun _ _ h => h, by simp⟩
    split at h
    · simp at h
    · simp at h
    · simp at h
    rename_i s1 o1 r1 he
    obtain ⟨h1, h2⟩ := dealRound_cut _ _ _ _ _ _ _ _ _ he
    split at h
    · simp only [Out.ok.injEq, Prod.mk.injEq] at h
      obtain ⟨rfl, rfl⟩ := h
      exact ⟨h1, h2⟩
    split at h
    · simp at h
    · simp at h
    · simp at h
    rename_i s2 o2 he2
    obtain ⟨h3, h4⟩ := ih _ _ _ he2
    simp only [Out.ok.injEq, Prod.mk.injEq] at h
    obtain ⟨rfl, rfl⟩ := h
    refine ⟨fun u b hb => h1 u b (h3 u b hb), ?_⟩
    intro p hp
    rw [List.mem_append] at hp
    rcases hp with hp | hp
    · exact h2 p hp
    · exact (h4 p hp).mono (h1 p.1)

theorem dealAll_cut (fits : Int → Nat → RBlk → Bool) (order : List Nat) (main : Nat) (fuel : Nat) : ∀ (ts : List Int) (s : Nat → Trk)
    (clusters : List (List Piece)), dealAll fits order main fuel ts s = .ok clusters →
    clusters.length = ts.length ∧ ∀ (k : Nat) (c : List Piece), clusters[k]? = some c → ∀ p ∈ c, CutAt (s p.1).todo ((ts[k + 1]?).getD invalidTs) p.2 := by
  intro ts
  induction ts with
  | nil =>
    intro s cl h
    simp only [dealAll, Out.ok.injEq] at h
    subst h
    simp
  | cons t ts ih =>
    intro s cl h
    unfold dealAll at h
    simp only at h
    split at h
    · simp at h
    · simp at h
    · simp at h
    rename_i s1 o1 he
    obtain ⟨h1, h2⟩ := dealCluster_cut _ _ _ _ _ _ _ _ he
    split at h
    · simp at h
    · simp at h
    · simp at h
    rename_i outs he2
    obtain ⟨h3, h4⟩ := ih _ _ he2
    simp only [Out.ok.injEq] at h
    subst h
    refine ⟨by simp [h3], ?_⟩
    intro k c hk p hp
    cases k with
    | zero =>
      simp only [List.getElem?_cons_zero, Option.some.injEq] at hk
      subst hk
      have := h2 p hp
      simp only [List.getElem?_cons_succ]
      cases ts with
      | nil => exact this
      | cons n ts => exact this
    | succ k =>
      simp only [List.getElem?_cons_succ] at hk ⊢
      exact (h4 k c hk p hp).mono (h1 p.1)

/-- **C210**, laces: whatever the tracks, each block `mkclean --remux` puts in a Cluster has either all the frames of a block of that track or,
of a laced block, exactly those next in line that end before the following Cluster starts. -/
theorem C210_laces_cut (fits : Int → Nat → RBlk → Bool) (order : List Nat) (main : Nat) (tracks : Nat → List RBlk)
    (k0 : Int) (ks : List Int) (hvalid : ∀ b ∈ decodeTimes invalidTs (tracks main), b.dt < invalidTs)
    (hkeys : ((decodeTimes invalidTs (tracks main)).filter (·.key)).map (·.dt) = k0 :: ks)
    (hsorted : (k0 :: ks).Pairwise (· ≤ ·)) (clusters : List (List Piece)) (hrun : remux fits order main tracks = .ok clusters) :
    clusters.length = (boundaries k0 ks).length + 1 ∧
    ∀ (k : Nat) (c : List Piece), clusters[k]? = some c → ∀ p ∈ c,
      CutAt (tracks p.1) (((boundaries k0 ks)[k]?).getD invalidTs) p.2 := by
  have hk : keyTimes (decodeTimes invalidTs (tracks main)) = k0 :: ks := hkeys
  have hmem : ∀ k ∈ k0 :: ks, k < invalidTs := by
    intro k hk'
    rw [← hkeys, List.mem_map] at hk'
    obtain ⟨b, hb, rfl⟩ := hk'
    exact hvalid b (List.mem_filter.1 hb).1
  have hthin : thin ((k0 :: ks).length + 1) (k0 :: ks) 0 invalidTs = some (k0 :: boundaries k0 ks) := by
    rw [thin]
    simp only [List.getElem?_cons_zero, ne_eq, not_true_eq_false, false_and, if_false]
    have := thin_eq ks (k0 :: ks).length [k0] k0 (by simpa using hsorted) (by simp)
      (by have := hmem k0 (by simp); omega) (by intro t ht; have := hmem t (by simp [ht]); omega)
    simpa using this
  unfold remux at hrun
  simp only at hrun
  rw [hk, hthin] at hrun
  simp only [reduceCtorEq, if_false] at hrun
  split at hrun
  · simp at hrun
  obtain ⟨h1, h2⟩ := dealAll_cut _ _ _ _ _ _ _ hrun
  refine ⟨by simpa using h1, ?_⟩
  intro k c hc p hp
  have := h2 k c hc p hp
  rw [List.getElem?_cons_succ] at this
  obtain ⟨b, hb, hcut⟩ := this
  have hfr : ∀ (bs : List RBlk) (q : Int), ∀ b ∈ decodeTimes q bs, ∃ b' ∈ bs, b'.frames = b.frames := by
    intro bs
    induction bs with
    | nil => intro q b hb; simp [decodeTimes] at hb
    | cons x bs ih =>
      intro q b hb
      unfold decodeTimes at hb
      simp only [List.mem_cons] at hb
      rcases hb with rfl | hb
      · exact ⟨x, by simp, rfl⟩
      · obtain ⟨b', h1, h2⟩ := ih _ b hb
        exact ⟨b', by simp [h1], h2⟩
  obtain ⟨b', hb', hbf⟩ := hfr _ _ b hb
  refine ⟨b', hb', ?_⟩
  rw [hbf]; exact hcut

/-- A video track (1) with keyframes at 0 s and 2 s and an audio track (2) of single frames. -/
def plainTracks : Nat → List RBlk
  | 1 => [vblk 0 true 0, vblk 1000000000 false 1, vblk 2000000000 true 2, vblk 3000000000 false 3]
  | 2 => [vblk 0 true 10, vblk 900000000 true 11, vblk 1000000000 true 12, vblk 1500000000 true 13, vblk 2500000000 true 14]
  | _ => []

/-- The second audio block is written before the first video block: it starts before the next one. -/
example : (remux (fun _ _ _ => true) [2, 1] 1 plainTracks) = .ok
    [[(2, [⟨[10], invalidTs⟩]), (2, [⟨[11], invalidTs⟩]), (2, [⟨[12], invalidTs⟩]), (1, [⟨[0], invalidTs⟩]), (2, [⟨[13], invalidTs⟩]),
      (1, [⟨[1], invalidTs⟩])],
     [(2, [⟨[14], invalidTs⟩]), (1, [⟨[2], invalidTs⟩]), (1, [⟨[3], invalidTs⟩])]] := by decide +kernel

/-- The theorem applies to it. -/
example : ∃ clusters, remux (fun _ _ _ => true) ([2] ++ [1]) 1 plainTracks = .ok clusters ∧ clusters.length = 2 ∧
    (∀ (k : Nat) (c : List Piece), clusters[k]? = some c → (c.filter (fun p => p.1 = 1)).map (·.2) =
        ((plainTracks 1).filter (fun b => within [2000000000] k b.ts)).map (·.frames)) := by
  obtain ⟨cl, h1, h2, h3, _⟩ := C210_interleaving [2] 1 plainTracks (by decide) (by decide) (by decide +kernel) (by decide)
    (by decide) (by decide) (by decide) 0 [2000000000] (by decide)
  have hb : boundaries 0 [2000000000] = [2000000000] := by decide
  rw [hb] at h2 h3
  exact ⟨cl, h1, h2, h3⟩

/-- In the file of C112 the audio block that goes on into the second Cluster is cut. -/
example : ∀ clusters, remux (fun _ _ _ => true) [2, 1] 1 exTracks = .ok clusters → clusters.length = 2 ∧
    ∀ (k : Nat) (c : List Piece), clusters[k]? = some c → ∀ p ∈ c,
      CutAt (exTracks p.1) (((boundaries 0 [2000000000])[k]?).getD invalidTs) p.2 := fun cl h =>
  C210_laces_cut _ _ _ exTracks 0 [2000000000] (by decide +kernel) (by decide +kernel) (by decide) cl h

end Verif.Mkclean
