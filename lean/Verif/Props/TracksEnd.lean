import Verif.Props.TracksLoop
/-!
What mkclean does to the list of tracks, continued: the main track (C147), the cleaning ends (C148), old stereo modes (C149), and the
cases that go wrong (C144 to C149).
-/
set_option linter.unusedSimpArgs false
namespace Verif.Mkclean.Tracks
open Verif Verif.Mkv

/-! ### C147: the main track -/

theorem firstOf_spec (type : Int) : ∀ (ts : List Track) (r : Option Nat), firstOf type ts = .ok r →
    match r with
    | none => ∀ t ∈ ts, t.type ≠ some type
    | some i => ∃ t, ts[i]? = some t ∧ t.type = some type ∧ ∀ j, j < i → ∀ u, ts[j]? = some u → u.type ≠ some type
  | [], r, e => by cases e; exact fun _ h => nomatch h
  | t :: ts, r, e => by
    unfold firstOf at e
    cases ht : t.type with
    | none => rw [ht] at e; cases e
    | some y =>
      rw [ht] at e
      simp only at e
      by_cases hy : y = type
      · rw [if_pos hy] at e
        cases e
        exact ⟨t, rfl, by rw [ht, hy], fun j hj => absurd hj (Nat.not_lt_zero j)⟩
      · rw [if_neg hy] at e
        obtain ⟨q, hq, e⟩ := bind_ok e
        have ih := firstOf_spec type ts q hq
        have hne : t.type ≠ some type := by rw [ht]; intro h; cases h; exact hy rfl
        cases q with
        | none =>
          cases e
          intro u hu
          rcases List.mem_cons.mp hu with rfl | hu
          · exact hne
          · exact ih u hu
        | some i =>
          cases e
          obtain ⟨u, h1, h2, h3⟩ := ih
          refine ⟨u, h1, h2, fun j hj w hw => ?_⟩
          cases j with
          | zero => cases hw; exact hne
          | succ j => exact h3 j (Nat.lt_of_succ_lt_succ hj) w hw

/-- The first track of a type. -/
def FirstOf (type : Int) (ts : List Track) (i : Nat) : Prop :=
  ∃ t, ts[i]? = some t ∧ t.type = some type ∧ ∀ j, j < i → ∀ u, ts[j]? = some u → u.type ≠ some type

theorem erase_perm {α : Type} : ∀ (ts : List α) (i : Nat) (t : α), ts[i]? = some t → (ts.eraseIdx i ++ [t]).Perm ts
  | [], i, t, e => by cases e
  | a :: ts, 0, t, e => by cases e; exact List.perm_append_singleton _ _
  | a :: ts, i + 1, t, e => by
    rw [List.eraseIdx_cons_succ, List.cons_append]
    exact (erase_perm ts i t e).cons a

theorem erase_sublist {α : Type} : ∀ (ts : List α) (i : Nat), (ts.eraseIdx i).Sublist ts
  | [], _ => List.Sublist.refl _
  | _ :: _, 0 => List.sublist_cons_self _ _
  | a :: ts, i + 1 => (erase_sublist ts i).cons_cons a

/-- The numbers of some tracks, all of which have one. -/
def Numbers (ts : List Track) (ns : List Int) : Prop := ts.map (·.number) = ns.map some

theorem numbers_of {ts : List Track} (h : ¬ ts.any (fun t => t.number.isNone) = true) : Numbers ts (ts.filterMap Track.number) := by
  unfold Numbers
  induction ts with
  | nil => rfl
  | cons t ts ih =>
    simp only [List.any_cons, Bool.or_eq_true, not_or] at h
    cases hn : t.number with
    | none => rw [hn] at h; exact absurd rfl h.1
    | some n =>
      rw [List.map_cons, List.filterMap_cons]
      simp only [hn, List.map_cons]
      rw [ih h.2]

theorem C147_main_track (ts : List Track) (m : Option Nat) (order : List Int) (e : mainTrack ts = .ok (m, order)) :
    (m = none → ∀ t ∈ ts, t.type ≠ some 1 ∧ t.type ≠ some 2) ∧
    (∀ i, m = some i → FirstOf 1 ts i ∨ ((∀ t ∈ ts, t.type ≠ some 1) ∧ FirstOf 2 ts i)) ∧
    ∃ before last, Numbers (before ++ last) order ∧ (before ++ last).Perm ts ∧ before.Sublist ts ∧ last = (m.bind fun i => ts[i]?).toList := by
  unfold mainTrack at e
  obtain ⟨v, hv, e⟩ := bind_ok e
  obtain ⟨m', hm, e⟩ := bind_ok e
  have sv := firstOf_spec 1 ts v hv
  have key : (m' = none → ∀ t ∈ ts, t.type ≠ some 1 ∧ t.type ≠ some 2) ∧
      (∀ i, m' = some i → FirstOf 1 ts i ∨ ((∀ t ∈ ts, t.type ≠ some 1) ∧ FirstOf 2 ts i)) := by
    cases v with
    | some i => cases hm; exact ⟨fun h => (by cases h), fun j h => by cases h; exact .inl sv⟩
    | none =>
      have sm := firstOf_spec 2 ts m' hm
      cases m' with
      | none => exact ⟨fun _ t ht => ⟨sv t ht, sm t ht⟩, fun j h => by cases h⟩
      | some i => exact ⟨fun h => (by cases h), fun j h => by cases h; exact .inr ⟨sv, sm⟩⟩
  cases m' with
  | none =>
    simp only at e
    by_cases hn : ts.any (fun t => t.number.isNone) = true
    · rw [if_pos hn] at e; cases e
    · rw [if_neg hn] at e
      cases e
      refine ⟨key.1, key.2, ts, [], ?_, by rw [List.append_nil], List.Sublist.refl _, rfl⟩
      rw [List.append_nil]
      exact numbers_of hn
  | some i =>
    have ⟨t, ht⟩ : ∃ t, ts[i]? = some t := by
      rcases key.2 i rfl with ⟨t, h, _⟩ | ⟨_, t, h, _⟩ <;> exact ⟨t, h⟩
    simp only [ht, Option.toList_some] at e
    by_cases hn : (ts.eraseIdx i ++ [t]).any (fun t => t.number.isNone) = true
    · rw [if_pos hn] at e; cases e
    · rw [if_neg hn] at e
      cases e
      exact ⟨key.1, key.2, ts.eraseIdx i, [t], numbers_of hn, erase_perm ts i t ht, erase_sublist ts i, by rw [Option.bind_some, ht]; rfl⟩

/-- Subtitles, sound, two videos: the first video is the main track and comes last. -/
example : mainTrack [{ number := some 7, type := some 17 }, { number := some 3, type := some 2 }, { number := some 5, type := some 1 },
    { number := some 4, type := some 1 }] = .ok (some 2, [7, 3, 4, 5]) := by decide +kernel

/-! ### C148: the cleaning ends -/

theorem bind_hang {α β : Type} {x : Out α} {f : α → Out β} (h : x.bind f = .hang) : x = .hang ∨ ∃ a, x = .ok a ∧ f a = .hang := by
  cases x with
  | ok a => exact .inr ⟨a, rfl, h⟩
  | err => cases h
  | bad => cases h
  | hang => exact .inl rfl

theorem ck_hang {α : Type} {x : Int} {k : Out α} (h : ck x k = .hang) : k = .hang := by
  unfold ck at h
  split at h
  · exact h
  · cases h

theorem gcd_ends : ∀ (fuel : Nat) (a b : Int), b.natAbs < fuel → gcd fuel a b ≠ .hang
  | 0, _, _, h => absurd h (Nat.not_lt_zero _)
  | fuel + 1, a, b, h => by
    unfold gcd
    by_cases hb : b = 0 ∨ (a = -2 ^ 63 ∧ b = -1)
    · rw [if_pos hb]; intro h; cases h
    · rw [if_neg hb]
      simp only
      split
      · intro h; cases h
      · apply gcd_ends
        have : (Int.tmod a b).natAbs < b.natAbs := by
          rw [Int.natAbs_tmod]
          exact Nat.mod_lt _ (by omega)
        omega

theorem unshrink_ends (w h dw dh : Int) : unshrink w h dw dh ≠ .hang := by
  intro e
  unfold unshrink at e
  by_cases hc : dh < h ∧ dw < w
  · rw [if_pos hc] at e
    rcases bind_hang e with e | ⟨g, _, e⟩
    · exact gcd_ends _ _ _ (by omega) e
    · have e := ck_hang (ck_hang e)
      have sc : ∀ a b c, scale a b c ≠ .hang := by
        intro a b c hs
        unfold scale at hs
        split at hs
        · cases hs
        · cases ck_hang hs
      split at e
      · rcases bind_hang e with e | ⟨p, _, e⟩
        · split at e
          · rcases bind_hang e with e | ⟨_, _, e⟩
            · exact sc _ _ _ e
            · cases e
          · rcases bind_hang e with e | ⟨_, _, e⟩
            · exact sc _ _ _ e
            · cases e
        · have e := ck_hang (ck_hang e)
          split at e <;> cases e
      · cases e
  · rw [if_neg hc] at e; cases e

theorem cleanCrop_ends (v : Video) (w h : Int) : cleanCrop v w h ≠ .hang := by
  intro e
  unfold cleanCrop at e
  have e := ck_hang e
  split at e
  · cases e
  · have e := ck_hang e
    split at e <;> cases e

theorem cleanDisplay_ends (v : Video) : cleanDisplay v ≠ .hang := by
  intro e
  unfold cleanDisplay at e
  split at e
  · simp only at e
    split at e
    · cases e
    · split at e
      · cases e
      · rcases bind_hang e with e | ⟨v1, _, e⟩
        · unfold cleanRatio at e
          split at e
          · split at e
            · cases e
            · exact cleanCrop_ends _ _ _ e
          · cases e
        · rcases bind_hang e with e | ⟨o, _, e⟩
          · split at e
            · unfold cleanPixels at e
              rcases bind_hang e with e | ⟨q, _, e⟩
              · unfold displaySizes at e
                split at e <;> cases e
              · cases q with
                | none => cases e
                | some q =>
                  cases q with
                  | none => cases e
                  | some q =>
                    rcases bind_hang e with e | ⟨_, _, e⟩
                    · exact unshrink_ends _ _ _ _ e
                    · cases e
            · cases e
          · cases o with
            | none => cases e
            | some v2 =>
              simp only at e
              split at e
              · rcases bind_hang e with e | ⟨_, _, e⟩
                · exact cleanCrop_ends _ _ _ e
                · cases e
              · cases e
  · cases e

/-- How many numbers from `n` on are taken. -/
def above (uids : List (Option Int)) (n : Int) : Nat := uids.countP fun o => match o with
  | some x => decide (n ≤ x)
  | none => false

theorem above_le (uids : List (Option Int)) (n : Int) : above uids (n + 1) ≤ above uids n := by
  apply List.countP_mono_left
  intro o _ h
  cases o with
  | none => cases h
  | some x =>
    simp only [decide_eq_true_eq] at h ⊢
    omega

theorem above_lt {uids : List (Option Int)} {n : Int} (h : some n ∈ uids) : above uids (n + 1) < above uids n := by
  induction uids with
  | nil => cases h
  | cons o os ih =>
    have le := above_le os n
    unfold above at *
    rw [List.countP_cons, List.countP_cons]
    rcases List.mem_cons.mp h with rfl | h
    · simp only [Int.le_refl, decide_true, if_true]
      rw [if_neg (by simp only [decide_eq_true_eq]; omega)]
      omega
    · have := ih h
      cases o with
      | none => simp only [Bool.false_eq_true, if_false]; omega
      | some x =>
        simp only [decide_eq_true_eq]
        by_cases h1 : n + 1 ≤ x
        · rw [if_pos h1, if_pos (by omega)]; omega
        · rw [if_neg h1]; split <;> omega

theorem fresh_ends (uids : List (Option Int)) : ∀ (fuel : Nat) (n : Int), above uids n < fuel → fresh uids fuel n ≠ .hang
  | 0, _, h => absurd h (Nat.not_lt_zero _)
  | fuel + 1, n, h => by
    unfold fresh
    split
    · intro e; cases e
    · split
      · rename_i hu
        unfold hasUid at hu
        have := above_lt (List.contains_iff_mem.mp hu)
        exact fresh_ends uids fuel (n + 1) (by omega)
      · intro e; cases e

theorem above_length (uids : List (Option Int)) (n : Int) : above uids n ≤ uids.length := List.countP_le_length

theorem combine_ends (done : List Track) (t : Track) (s : Int) (todo : List Track) : combine done t s todo ≠ .hang := by
  intro e
  unfold combine at e
  split at e
  · cases ho : otherEye (3 - s) todo with
    | none => rw [ho] at e; cases e
    | some r =>
      obtain ⟨mid, o, ov, after⟩ := r
      rw [ho] at e
      simp only at e
      cases hn : t.number with
      | none => rw [hn] at e; cases e
      | some tn =>
        rw [hn] at e
        simp only at e
        rcases bind_hang e with e | ⟨number, _, e⟩
        · refine fresh_ends _ _ _ ?_ e
          have := above_length (((done ++ t :: mid ++ { o with video := some (ov.setEyes false 0) } :: after) ++ [t]).map (·.number)) (toInt tn + 1)
          simp only [List.length_map, List.length_append, List.length_cons, List.length_nil] at this ⊢
          omega
        · cases hu : t.uid with
          | none => rw [hu] at e; cases e
          | some tu =>
            rw [hu] at e
            simp only at e
            rcases bind_hang e with e | ⟨uid, _, e⟩
            · refine fresh_ends _ _ _ ?_ e
              have := above_length (((done ++ t :: mid ++ { o with video := some (ov.setEyes false 0) } :: after) ++ [t]).map (·.uid)) 1
              simp only [List.length_map, List.length_append, List.length_cons, List.length_nil] at this ⊢
              omega
            · rcases bind_hang e with e | ⟨_, _, e⟩
              · unfold planeUid at e
                split at e
                · cases e
                · rcases bind_hang e with e | ⟨_, _, e⟩
                  · refine fresh_ends _ _ _ ?_ e
                    have := above_length (((done ++ t :: mid ++ { o with video := some (ov.setEyes false 0) } :: after) ++ [combined t number uid]).map (·.uid)) uid
                    simp only [List.length_map, List.length_append, List.length_cons, List.length_nil] at this ⊢
                    omega
                  · cases e
              · cases e
  · cases e

theorem cleanRest_ends (cfg : Config) (side : Side) (n type : Int) (t : Track) : cleanRest cfg side n type t ≠ .hang := by
  intro e
  unfold cleanRest at e
  rcases bind_hang e with e | ⟨v, _, e⟩
  · unfold forceAlt at e
    split at e
    · split at e
      · cases e
      · cases e
      · split at e <;> cases e
    · cases e
  · rcases bind_hang e with e | ⟨ok, _, e⟩
    · unfold webmOk at e
      split at e
      · split at e <;> cases e
      · cases e
    · split at e
      · rcases bind_hang e with e | ⟨_, _, e⟩
        · unfold cleanAudio at e
          split at e
          · cases e
          · simp only at e
            split at e <;> cases e
        · cases e
      · cases e

theorem cleanTrack_ends (cfg : Config) (side : Side) (done : List Track) (t : Track) (todo : List Track) :
    cleanTrack cfg side done t todo ≠ .hang := by
  intro e
  unfold cleanTrack at e
  split at e
  · cases e
  · simp only at e
    split at e
    · cases e
    · split at e
      · cases e
      · rcases bind_hang e with e | ⟨alt, _, e⟩
        · unfold clearAlt at e
          split at e
          · split at e <;> cases e
          · cases e
        · split at e
          · exact cleanRest_ends _ _ _ _ _ e
          · rcases bind_hang e with e | ⟨o, _, e⟩
            · exact cleanDisplay_ends _ e
            · cases o with
              | none => cases e
              | some v =>
                simp only at e
                unfold cleanStereo at e
                split at e
                · exact cleanRest_ends _ _ _ _ _ e
                · simp only at e
                  split at e
                  · split at e
                    · exact cleanRest_ends _ _ _ _ _ e
                    · rcases bind_hang e with e | ⟨o, _, e⟩
                      · exact combine_ends _ _ _ _ e
                      · cases o with
                        | none => exact cleanRest_ends _ _ _ _ _ e
                        | some ts => cases e
                  · exact cleanRest_ends _ _ _ _ _ e

/-- How many more times a track can start the cleaning again: an old value for both eyes is turned into the number of an old value for one. -/
def weight (t : Track) : Nat :=
  match t.video.bind (·.eyes) with
  | none => 0
  | some x => if toInt x = 3 then 2 else if toInt x = 1 ∨ toInt x = 2 then 1 else 0

def weights (ts : List Track) : Nat := (ts.map weight).sum

theorem weights_append (a b : List Track) : weights (a ++ b) = weights a + weights b := by
  unfold weights; rw [List.map_append, List.sum_append]

theorem weights_cons (t : Track) (b : List Track) : weights (t :: b) = weight t + weights b := by
  unfold weights; rw [List.map_cons, List.sum_cons]

theorem weight_le (t : Track) : weight t ≤ 2 := by
  unfold weight
  split
  · omega
  · split
    · omega
    · split <;> omega

theorem weights_le (ts : List Track) : weights ts ≤ 2 * ts.length := by
  induction ts with
  | nil => exact Nat.le_refl _
  | cons t ts ih => rw [weights_cons, List.length_cons]; have := weight_le t; omega

theorem setEyes_true (v : Video) (x : Int) : (v.setEyes true x).eyes = some x := by
  obtain ⟨_, _, _, _, _, _, _, _, _, st, old⟩ := v
  cases st <;> rfl

theorem setEyes_any (v : Video) (x : Int) (h : v.eyes ≠ none) : (v.setEyes false x).eyes = some x := by
  obtain ⟨_, _, _, _, _, _, _, _, _, st, old⟩ := v
  cases st <;> rfl

theorem display_eyes {v v1 : Video} (e : cleanDisplay v = .ok (some v1)) : v1.stereo = v.stereo ∧ v1.oldStereo = v.oldStereo := by
  have cc : ∀ {u u' : Video} {w h : Int}, cleanCrop u w h = .ok u' → u'.stereo = u.stereo ∧ u'.oldStereo = u.oldStereo :=
    fun h => (cleanCrop_same h).2.2.2.2.2
  unfold cleanDisplay at e
  split at e
  · simp only at e
    split at e
    · cases e
    · split at e
      · cases e; exact ⟨rfl, rfl⟩
      · obtain ⟨v2, h1, e⟩ := bind_ok e
        obtain ⟨o, h2, e⟩ := bind_ok e
        have s1 : v2.stereo = v.stereo ∧ v2.oldStereo = v.oldStereo := by
          unfold cleanRatio at h1
          split at h1
          · split at h1
            · cases h1; exact ⟨rfl, rfl⟩
            · exact cc h1
          · cases h1; exact ⟨rfl, rfl⟩
        cases o with
        | none => cases e
        | some v3 =>
          have s2 : v3.stereo = v2.stereo ∧ v3.oldStereo = v2.oldStereo := by
            split at h2
            · rcases cleanPixels_ok h2 with ⟨rfl, _⟩ | ⟨_, _, _, _, _, rfl⟩ <;> exact ⟨rfl, rfl⟩
            · cases h2; exact ⟨rfl, rfl⟩
          simp only at e
          split at e
          · obtain ⟨v4, h4, e⟩ := bind_ok e
            cases e
            have := cc h4
            exact ⟨this.1.trans (s2.1.trans s1.1), this.2.trans (s2.2.trans s1.2)⟩
          · cases e
            exact ⟨s2.1.trans s1.1, s2.2.trans s1.2⟩
  · cases e

theorem eyes_eq {v v1 : Video} (h : v1.stereo = v.stereo ∧ v1.oldStereo = v.oldStereo) : v1.eyes = v.eyes := by
  unfold Video.eyes; rw [h.1, h.2]

/-- A track that is kept does not get heavier. -/
theorem keep_weight {cfg : Config} {side side' : Side} {done todo : List Track} {t t' : Track}
    (e : cleanTrack cfg side done t todo = .ok (side', .keep t')) : weight t' ≤ weight t := by
  rcases cleanTrack_ok e with ⟨hf, _⟩ | ⟨t2, hf, hk, _, _, _, hv⟩ | ⟨_, _, _, _, hf, _⟩
  · cases hf
  · cases hf
    rcases hv with ⟨h1, h2⟩ | ⟨v, v1, v2, h1, h2, h3, h4⟩
    · unfold weight; rw [h1, h2]; exact Nat.le_refl _
    · have ev : v1.eyes = v.eyes := eyes_eq (display_eyes h2)
      rcases h4 with rfl | rfl
      · have : (newEyes cfg v1).eyes = v.eyes ∨ ∃ x, v.eyes = some x ∧ (newEyes cfg v1).eyes = some (if toInt x = 3 then 1 else 0) := by
          unfold newEyes
          cases hx : v1.eyes with
          | none => simp only [hx]; exact .inl (hx ▸ ev)
          | some x =>
            simp only
            split
            · exact .inr ⟨x, by rw [← ev, hx], setEyes_true _ _⟩
            · exact .inl (ev ▸ rfl)
        unfold weight
        rw [h1, h3]
        simp only [Option.bind_some]
        rcases this with h | ⟨x, hx, h⟩
        · rw [h]; exact Nat.le_refl _
        · rw [h, hx]
          simp only
          by_cases h3 : toInt x = 3
          · rw [if_pos h3, if_pos h3]; decide
          · rw [if_neg h3]; exact Nat.zero_le _
      · unfold weight
        rw [h3]
        exact Nat.zero_le _
  · cases hf

theorem weight_eyes {t : Track} {v : Video} {x : Int} (h : t.video = some v) (he : v.eyes = some x) (hx : toInt x = 1 ∨ toInt x = 2) : weight t = 1 := by
  unfold weight
  rw [h]
  simp only [Option.bind_some, he]
  rw [if_neg (by omega), if_pos hx]

theorem weight_zero {t : Track} {v : Video} (h : t.video = some v) (he : v.eyes = some 0) : weight t = 0 := by
  unfold weight
  rw [h]
  simp only [Option.bind_some, he]
  decide

theorem again_weight {cfg : Config} {side side' : Side} {done todo : List Track} {t : Track} {ts : List Track}
    (e : cleanTrack cfg side done t todo = .ok (side', .again ts)) :
    ts.length = (done ++ t :: todo).length + 1 ∧ weights ts + 2 = weights (done ++ t :: todo) := by
  rcases cleanTrack_ok e with ⟨hf, _⟩ | ⟨_, hf, _⟩ | ⟨ts2, v, v1, x, hf, hv, hd, hx, _, h12, _, hcomb⟩
  · cases hf
  · cases hf
  · cases hf
    obtain ⟨c⟩ := combine_ok hcomb
    have wt : weight t = 1 := weight_eyes hv (by rw [← eyes_eq (display_eyes hd)]; exact hx) h12
    have wo : weight c.o = 1 := weight_eyes c.video c.eyes (by
      rcases h12 with h | h <;> rw [h]
      · exact .inr (by decide)
      · exact .inl (by decide))
    have l1 := congrArg List.length c.tsEq
    have l2 := congrArg List.length c.todoEq
    have w1 := congrArg weights c.tsEq
    have w2 := congrArg weights c.todoEq
    simp only [List.length_append, List.length_cons, List.length_nil] at l1 l2 ⊢
    simp only [weights_append, weights_cons] at w1 w2 ⊢
    rw [weight_zero (v := v1.setEyes true 0) rfl (setEyes_true _ _),
      weight_zero (v := c.ov.setEyes false 0) rfl (setEyes_any _ _ (by rw [c.eyes]; simp)),
      weight_zero (v := v1.setEyes true 0) rfl (setEyes_true _ _)] at w1
    simp only [weights, List.map_nil, List.sum_nil] at w1 w2 ⊢
    omega

theorem loop_ends (cfg : Config) : ∀ (fuel : Nat) (side : Side) (done todo : List Track),
    todo.length + weights (done ++ todo) * ((done ++ todo).length + weights (done ++ todo) + 1) ≤ fuel → cleanLoop cfg fuel side done todo ≠ .hang
  | 0, side, done, [], _ => by intro e; cases e
  | fuel + 1, side, done, [], _ => by intro e; cases e
  | 0, side, done, t :: todo, h => by simp only [List.length_cons] at h; omega
  | fuel + 1, side, done, t :: todo, h => by
    intro e
    unfold cleanLoop at e
    rcases bind_hang e with e | ⟨⟨s', f⟩, hf, e⟩
    · exact cleanTrack_ends _ _ _ _ _ e
    · have mono : ∀ {a b c d : Nat}, a ≤ b → c ≤ d → a * (c + a + 1) ≤ b * (d + b + 1) :=
        fun h1 h2 => Nat.mul_le_mul h1 (by omega)
      cases f with
      | drop =>
        refine loop_ends cfg fuel s' done todo ?_ e
        have m := mono (a := weights (done ++ todo)) (b := weights (done ++ t :: todo)) (c := (done ++ todo).length) (d := (done ++ t :: todo).length)
          (by simp only [weights_append, weights_cons]; omega) (by simp only [List.length_append, List.length_cons]; omega)
        simp only [List.length_cons] at h
        omega
      | keep t' =>
        refine loop_ends cfg fuel s' (done ++ [t']) todo ?_ e
        have kw := keep_weight hf
        have m := mono (a := weights (done ++ [t'] ++ todo)) (b := weights (done ++ t :: todo)) (c := (done ++ [t'] ++ todo).length) (d := (done ++ t :: todo).length)
          (by simp only [weights_append, weights_cons]; simp only [weights, List.map_nil, List.sum_nil]; omega) (by simp only [List.length_append, List.length_cons, List.length_nil]; omega)
        simp only [List.length_cons] at h
        omega
      | again ts =>
        refine loop_ends cfg fuel s' [] ts ?_ e
        have aw := again_weight hf
        simp only [List.nil_append]
        generalize (done ++ t :: todo).length = L at *
        generalize weights (done ++ t :: todo) = W at *
        rw [aw.1]
        have hw : weights ts = W - 2 := by omega
        rw [hw]
        have split : W * (L + W + 1) = (W - 2) * (L + W + 1) + 2 * (L + W + 1) := by
          rw [← Nat.add_mul]
          congr 1
          omega
        have le : (W - 2) * (L + 1 + (W - 2) + 1) ≤ (W - 2) * (L + W + 1) := Nat.mul_le_mul_left _ (by omega)
        simp only [List.length_cons] at h
        omega

theorem C148_ends (cfg : Config) (fuel : Nat) (side : Side) (ts : List Track) (h : 6 * ts.length ^ 2 + 3 * ts.length ≤ fuel) :
    cleanTracks cfg fuel side ts ≠ .hang := by
  intro e
  unfold cleanTracks at e
  rcases bind_hang e with e | ⟨r, _, e⟩
  · refine loop_ends cfg fuel side [] ts ?_ e
    simp only [List.nil_append]
    have w := weights_le ts
    have m : weights ts * (ts.length + weights ts + 1) ≤ 2 * ts.length * (ts.length + 2 * ts.length + 1) := Nat.mul_le_mul w (by omega)
    have : 2 * ts.length * (ts.length + 2 * ts.length + 1) + ts.length = 6 * ts.length ^ 2 + 3 * ts.length := by
      generalize ts.length = n
      rw [Nat.pow_two]
      have : n + 2 * n + 1 = 3 * n + 1 := by omega
      rw [this, Nat.mul_add, Nat.mul_one, Nat.mul_mul_mul_comm]
      omega
    omega
  · split at e <;> cases e

/-! ### C149: old stereo modes -/

/-- The stereo mode of a track. -/
def Track.eyes (t : Track) : Option Int := t.video.bind Video.eyes

/-- What an old stereo mode becomes: both eyes in a picture become "side by side", a single eye becomes mono. -/
def modern (x : Int) : Int := if x = 3 then 1 else if x = 1 ∨ x = 2 then 0 else x

theorem keep_eyes {cfg : Config} {side side' : Side} {done todo : List Track} {t : Track} {f : Fate} (halt : side.alt = [])
    (e : cleanTrack cfg side done t todo = .ok (side', f)) :
    side'.alt = [] ∧ ∀ t', f = .keep t' → (t.video = none ∧ t'.video = none) ∨
      ∃ v v1, t.video = some v ∧ cleanDisplay v = .ok (some v1) ∧ t'.video = some (newEyes cfg v1) := by
  have rest : ∀ {s s' : Side} {n ty : Int} {t t' : Track} {f : Fate}, s.alt = [] → cleanRest cfg s n ty t = .ok (s', f) →
      s'.alt = [] ∧ (f = .keep t' → t'.video = t.video) := by
    intro s s' n ty t t' f hs e
    obtain ⟨rfl, v, h1, h⟩ := cleanRest_ok e
    refine ⟨hs, fun hf => ?_⟩
    have hv : v = t.video := by
      unfold forceAlt at h1
      rw [hs] at h1
      by_cases ha : altSeen [] n
      · rw [if_pos ha] at h1; cases h1
      · rw [if_neg ha] at h1; cases h1; rfl
    rcases h with ⟨h, _⟩ | ⟨_, _, _, h⟩
    · rw [hf] at h; cases h
    · rw [hf] at h; cases h; exact hv
  unfold cleanTrack at e
  cases hn : t.number with
  | none => rw [hn] at e; cases e; exact ⟨halt, fun _ h => by cases h⟩
  | some tn =>
    rw [hn] at e
    simp only at e
    by_cases hc : t.codec = none ∧ t.ops = []
    · rw [if_pos hc] at e; cases e; exact ⟨halt, fun _ h => by cases h⟩
    · rw [if_neg hc] at e
      cases ht : t.type with
      | none => rw [ht] at e; cases e; exact ⟨halt, fun _ h => by cases h⟩
      | some ty =>
        rw [ht] at e
        simp only at e
        obtain ⟨alt, ha, e⟩ := bind_ok e
        have h0 : alt = [] := by
          unfold clearAlt at ha
          rw [halt] at ha
          split at ha
          · rw [if_neg (by simp)] at ha; cases ha
          · cases ha; rfl
        subst h0
        cases hv : t.video with
        | none =>
          rw [hv] at e
          exact ⟨(rest (t' := t) rfl e).1, fun t' h => .inl ⟨rfl, ((rest rfl e).2 h).trans hv⟩⟩
        | some v =>
          rw [hv] at e
          simp only at e
          obtain ⟨o, ho, e⟩ := bind_ok e
          cases o with
          | none => cases e; exact ⟨rfl, fun _ h => by cases h⟩
          | some v1 =>
            rcases cleanStereo_ok rfl e with e | ⟨_, _, _, _, _, _, hr⟩
            · exact ⟨(rest (t' := t) rfl e).1, fun t' h => .inr ⟨v, v1, rfl, ho, (rest rfl e).2 h⟩⟩
            · cases hr; exact ⟨rfl, fun _ h => by cases h⟩

theorem newEyes_modern (cfg : Config) (v : Video) (h31 : ∀ x, v.eyes = some x → 0 ≤ x ∧ x < 2 ^ 31) :
    (newEyes cfg v).eyes = v.eyes.map fun x => if cfg.oldSource then modern x else x := by
  unfold newEyes
  cases hx : v.eyes with
  | none => simp only; exact hx
  | some x =>
    simp only [Option.map_some]
    have hb := h31 x hx
    rw [toInt_of hb.1 hb.2]
    cases ho : cfg.oldSource with
    | false =>
      rw [if_neg (by rintro ⟨h, _⟩; cases h)]
      exact hx
    | true =>
      unfold modern
      by_cases hc : x ≠ 0 ∧ x ≤ 3
      · rw [if_pos ⟨rfl, hc⟩, setEyes_true]
        by_cases h3 : x = 3
        · rw [if_pos h3, if_pos rfl, if_pos h3]
        · rw [if_neg h3, if_pos rfl, if_neg h3, if_pos (by omega)]
      · rw [if_neg (fun h => hc h.2), if_pos rfl, if_neg (by omega), if_neg (by omega)]
        exact hx

theorem C149_old_stereo_partial (cfg : Config) (fuel : Nat) (side : Side) (ts : List Track) (r : Side × List Track) (halt : side.alt = [])
    (h31 : ∀ t ∈ ts, ∀ x, t.eyes = some x → 0 ≤ x ∧ x < 2 ^ 31)
    (hone : ¬ ((∃ t ∈ ts, t.eyes = some 1) ∧ ∃ t ∈ ts, t.eyes = some 2))
    (e : cleanTracks cfg fuel side ts = .ok r) :
    ∀ t' ∈ r.2, ∃ t ∈ ts, t'.number = t.number ∧ t'.uid = t.uid ∧ t'.eyes = t.eyes.map fun x => if cfg.oldSource then modern x else x := by
  obtain ⟨s, hl, _, _⟩ := cleanTracks_ok e
  have key := cleanLoop_inv (cfg := cfg) (fun side done todo => side.alt = [] ∧ (∀ t ∈ todo, t ∈ ts) ∧
      ∀ t' ∈ done, ∃ t ∈ ts, t'.number = t.number ∧ t'.uid = t.uid ∧ t'.eyes = t.eyes.map fun x => if cfg.oldSource then modern x else x) ?_ ?_ ?_
    fuel side [] ts (s, r.2) ⟨halt, fun _ h => h, fun _ h => nomatch h⟩ hl
  · exact key.2.2
  · intro side done t todo side' hI e
    exact ⟨(keep_eyes hI.1 e).1, fun u hu => hI.2.1 u (List.mem_cons_of_mem _ hu), hI.2.2⟩
  · intro side done t todo side' t' hI e
    have ke := keep_eyes hI.1 e
    refine ⟨ke.1, fun u hu => hI.2.1 u (List.mem_cons_of_mem _ hu), ?_⟩
    intro u hu
    rw [List.mem_append, List.mem_singleton] at hu
    rcases hu with hu | rfl
    · exact hI.2.2 u hu
    · have ht := hI.2.1 t List.mem_cons_self
      refine ⟨t, ht, ?_⟩
      have hk : u.number = t.number ∧ u.uid = t.uid := by
        rcases cleanTrack_ok e with ⟨hf, _⟩ | ⟨t2, hf, hk, _⟩ | ⟨_, _, _, _, hf, _⟩
        · cases hf
        · cases hf; exact ⟨hk.number, hk.uid⟩
        · cases hf
      refine ⟨hk.1, hk.2, ?_⟩
      rcases ke.2 u rfl with ⟨h1, h2⟩ | ⟨v, v1, h1, h2, h3⟩
      · unfold Track.eyes; rw [h1, h2]; rfl
      · have ev := eyes_eq (display_eyes h2)
        have te : t.eyes = v1.eyes := by unfold Track.eyes; rw [h1, ev]; rfl
        have ue : u.eyes = (newEyes cfg v1).eyes := by unfold Track.eyes; rw [h3]; rfl
        rw [ue, te]
        exact newEyes_modern cfg v1 (by rw [← te]; exact h31 t ht)
  · intro side done t todo side' ts2 hI e
    exfalso
    rcases cleanTrack_ok e with ⟨hf, _⟩ | ⟨_, hf, _⟩ | ⟨_, v, v1, x, hf, hv, hd, hx, _, h12, _, hcomb⟩
    · cases hf
    · cases hf
    · cases hf
      obtain ⟨c⟩ := combine_ok hcomb
      have ht := hI.2.1 t List.mem_cons_self
      have te : t.eyes = some x := by unfold Track.eyes; rw [hv]; exact (eyes_eq (display_eyes hd)).symm.trans hx
      have hb := h31 t ht x te
      rw [toInt_of hb.1 hb.2] at h12
      have ho : c.o ∈ ts := by
        have : c.o ∈ todo := Eq.mpr (congrArg (fun l => c.o ∈ l) c.todoEq) (by simp)
        exact hI.2.1 c.o (List.mem_cons_of_mem _ this)
      have oe : c.o.eyes = some (3 - toInt x) := by unfold Track.eyes; rw [c.video]; exact c.eyes
      have oe := oe.trans (congrArg (fun k => some (3 - k)) (toInt_of hb.1 hb.2))
      apply hone
      rcases h12 with rfl | rfl
      · exact ⟨⟨t, ht, te⟩, ⟨c.o, ho, oe⟩⟩
      · exact ⟨⟨c.o, ho, oe⟩, ⟨t, ht, te⟩⟩

/-! ### Cases -/

/-- A track of video with that number, UID and stereo mode. -/
def film (n u : Int) (eyes : Option Int) : Track :=
  { number := some n, uid := some u, type := some 1, codec := some vp8, video := some { pixelW := some 640, pixelH := some 480, oldStereo := eyes } }

/-- A track of sound. -/
def sound (n u : Int) : Track := { number := some n, uid := some u, type := some 2, codec := some vorbis, audio := some { freq := some 44100, outFreq := some 44100 }, links := [5, 6] }

def oldFile : Config := { oldSource := true, attachments := some [some 5, none], guess := fun _ _ => 0 }
def newFile : Config := { oldFile with oldSource := false }

/-- A file of two eyes: both become mono, and a track is added that combines them, with a number and a UID no track has. -/
example : cleanTracks oldFile 20 ⟨1, []⟩ [film 1 7 (some 2), sound 2 8, film 3 1 (some 1)] = .ok (⟨4, []⟩,
    [{ film 1 7 none with video := some { pixelW := some 640, pixelH := some 480, stereo := some 0 } },
     { sound 2 8 with audio := some { freq := some 44100 }, links := [5] },
     { film 3 1 none with video := some { pixelW := some 640, pixelH := some 480, oldStereo := some 0 } },
     { film 4 2 none with codec := some vCombined, video := some { pixelW := some 640, pixelH := some 480, stereo := some 0 }, ops := [[(7, 0), (1, 1)]] }]) := by
  decide +kernel

example : Distinct Track.number [film 1 7 (some 2), sound 2 8, film 3 1 (some 1)] ∧ Distinct Track.uid [film 1 7 (some 2), sound 2 8, film 3 1 (some 1)] :=
  ⟨by unfold Distinct; decide +kernel, by unfold Distinct; decide +kernel⟩

theorem film_sane (n u : Int) (eyes : Option Int) : ∀ v, (film n u eyes).video = some v → Sane v := by
  intro v h
  cases h
  have i31 : ∀ {k : Int}, 0 ≤ k ∧ k < 2 ^ 31 → In31 (some k) := fun h x e => by cases e; exact h
  have inone : In31 none := fun x e => by cases e
  exact ⟨by simp, by simp, i31 (by decide), i31 (by decide), inone, inone, inone, inone, inone, inone⟩

/-- C144 and C146 speak of such tracks. -/
example : Sound newFile 8 (film 1 7 none) ∧ Usable 8 (film 1 7 none) ∧ Solid (film 1 7 none) := by
  have nb : ∀ v, (film 1 7 none).video = some v → ¬ Blank v := by
    intro v h; cases h; decide
  refine ⟨⟨?_, film_sane _ _ _, fun a h => (by cases h), fun _ h => (by cases h)⟩, ⟨?_, ?_, ?_, nb, ?_⟩, ⟨?_, ?_, ?_, fun v h => ⟨nb v h, 640, 480, ?_⟩⟩⟩
  · intro n h; cases h; decide
  · simp [film]
  · simp [film]
  · simp [film]
  · intro _; exact ⟨vp8, 1, rfl, rfl, .inl ⟨by decide, by decide⟩⟩
  · simp [film]
  · simp [film]
  · simp [film]
  · cases h
    exact ⟨rfl, rfl, by decide, by decide, by decide, by decide, fun _ h => (by cases h), fun _ h => (by cases h)⟩

/-- A track number 0, a missing pixel width, a sampling frequency of 0, and for WebM a combined track without codec, crash mkclean. -/
theorem C144_crash_counterexample :
    cleanTracks newFile 20 ⟨4, []⟩ [{ sound 0 8 with links := [] }] = .bad ∧
    cleanTracks newFile 20 ⟨4, []⟩ [{ film 1 7 none with video := some { pixelH := some 480 } }] = .bad ∧
    cleanTracks newFile 20 ⟨4, []⟩ [{ sound 2 8 with audio := some { freq := some 0 } }] = .bad ∧
    cleanTracks newFile 20 ⟨8, []⟩ [{ film 1 7 none with codec := none, ops := [[(1, 0), (2, 1)]] }] = .bad ∧
    cleanTracks oldFile 20 ⟨1, []⟩ [{ film 1 7 (some 2) with uid := none }, film 3 1 (some 1)] = .bad := by decide +kernel

/-- A track a combined track names is removed, the combined track stays. -/
theorem C146_planes_counterexample :
    ∃ (ts : List Track) (r : Side × List Track), Planes ts ∧ cleanTracks newFile 20 ⟨4, []⟩ ts = .ok r ∧ ¬ Planes r.2 := by
  refine ⟨[film 1 7 none, { film 2 8 none with video := some { pixelW := some 640, pixelH := some 480, displayW := some 0 } },
      { film 3 9 none with ops := [[(7, 0), (8, 1)]] }],
    (⟨4, []⟩, [film 1 7 none, { film 3 9 none with ops := [[(7, 0), (8, 1)]] }]), ?_, by decide +kernel, ?_⟩
  · unfold Planes; decide +kernel
  · unfold Planes; decide +kernel

/-- The same with the combined track mkclean made itself. -/
theorem C146_own_planes_counterexample :
    ∃ (ts : List Track) (r : Side × List Track), (∀ t ∈ ts, t.ops = []) ∧ cleanTracks oldFile 20 ⟨1, []⟩ ts = .ok r ∧ ¬ Planes r.2 := by
  refine ⟨[film 1 7 (some 2), { film 2 8 none with video := some { pixelW := some 640, pixelH := some 480, displayW := some 0, oldStereo := some 1 } }],
    (⟨4, []⟩, [{ film 1 7 none with video := some { pixelW := some 640, pixelH := some 480, stereo := some 0 } },
      { film 3 1 none with codec := some vCombined, video := some { pixelW := some 640, pixelH := some 480, stereo := some 0 }, ops := [[(7, 0), (8, 1)]] }]), by decide +kernel, by decide +kernel, ?_⟩
  unfold Planes; decide +kernel

/-- A picture with both eyes in it becomes mono when the file also has two single eyes: mode 3 is turned into 1, then the cleaning
starts again and takes the 1 for an old mode. -/
theorem C149_old_stereo_counterexample :
    ∃ (r : Side × List Track) (t : Track), cleanTracks oldFile 30 ⟨1, []⟩ [film 1 7 (some 3), film 2 8 (some 1), film 3 9 (some 2)] = .ok r ∧
      t ∈ r.2 ∧ t.number = some 1 ∧ t.eyes = some 0 ∧ modern 3 = 1 := by
  refine ⟨(⟨4, []⟩, [{ film 1 7 none with video := some { pixelW := some 640, pixelH := some 480, stereo := some 0 } },
      { film 2 8 none with video := some { pixelW := some 640, pixelH := some 480, stereo := some 0 } },
      { film 3 9 none with video := some { pixelW := some 640, pixelH := some 480, oldStereo := some 0 } },
      { film 4 1 none with codec := some vCombined, video := some { pixelW := some 640, pixelH := some 480, stereo := some 0 }, ops := [[(8, 1), (9, 0)]] }]),
    { film 1 7 none with video := some { pixelW := some 640, pixelH := some 480, stereo := some 0 } }, by decide +kernel, List.mem_cons_self, rfl, rfl, by decide⟩

/-- With only one of the eyes the modes become what they mean. -/
example : ¬ ((∃ t ∈ [film 1 7 (some 3), film 2 8 (some 1)], t.eyes = some 1) ∧ ∃ t ∈ [film 1 7 (some 3), film 2 8 (some 1)], t.eyes = some 2) := by
  decide +kernel

end Verif.Mkclean.Tracks
