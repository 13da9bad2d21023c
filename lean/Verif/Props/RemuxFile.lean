import Verif.Props.Collect
import Verif.Props.Remux
/-!
Remuxing a whole file keeps every frame of every block (C204): the preparation of C203 followed by the dealing of C112.
-/
namespace Verif.Mkclean.Collect
open Verif Verif.Mkclean.Link
open Verif.Mkv (Out invalidTs)

/-- mkclean.c:2297-2735: `view` is what reading a block gives. -/
def remuxFile (fits : Int → Nat → RBlk → Bool) (view : Blk → RBlk) (ts : List Tracks.Track) (cs : List Cluster) :
    Out (Option (List (List Piece))) :=
  (prepare 2 ts cs).bind fun p =>
  match p with
  | .exit _ => .ok none
  | .start s blocks =>
    (remux fits (s.order.map Int.toNat) s.main fun n => ((blocks[n]?).getD []).map view).bind fun r => .ok (some r)

/-- The blocks of a track in the file. -/
def ofTrack (cs : List Cluster) (n : Nat) : List Blk := (fileBlocks cs).filter fun b => b.num == n

theorem numbers_toNat {ts : List Tracks.Track} {ns : List Int} (h : Tracks.Numbers ts ns) (i : Nat) (t : Tracks.Track) (e : ts[i]? = some t) :
    ∃ n, ns[i]? = some n ∧ t.number = some n := by
  unfold Tracks.Numbers at h
  have := congrArg (fun l => l[i]?) h
  simp only [List.getElem?_map, e, Option.map_some] at this
  cases hn : ns[i]? with
  | none => rw [hn] at this; cases this
  | some n => rw [hn] at this; exact ⟨n, rfl, by simpa using this⟩

/-! ### Clusters hold blocks of the tracks in the order only -/

theorem round_tracks (fits : Nat → RBlk → Bool) (main : Nat) (mainEnd master : Int) : ∀ (order : List Nat) (s s' : Nat → Trk)
    (out : List Piece) (r : Bool), dealRound fits main mainEnd master order s = .ok (s', out, r) → ∀ p ∈ out, p.1 ∈ order
  | [], s, s', out, r, e => by cases e; exact fun _ h => nomatch h
  | t :: ts, s, s', out, r, e => by
    unfold dealRound at e
    split at e
    · cases e
    · cases e
    · cases e
    · split at e
      · cases e
      · cases e
      · cases e
      · rename_i h
        cases e
        intro p hp
        rcases List.mem_append.mp hp with hp | hp
        · obtain ⟨fs, _, rfl⟩ := List.mem_map.mp hp
          exact List.mem_cons_self
        · exact List.mem_cons_of_mem _ (round_tracks fits main mainEnd master ts _ _ _ _ h p hp)

theorem cluster_tracks (fits : Nat → RBlk → Bool) (order : List Nat) (main : Nat) (master : Int) : ∀ (fuel : Nat) (s s' : Nat → Trk)
    (out : List Piece), dealCluster fits order main master fuel s = .ok (s', out) → ∀ p ∈ out, p.1 ∈ order
  | 0, s, s', out, e => by cases e
  | fuel + 1, s, s', out, e => by
    unfold dealCluster at e
    split at e
    · cases e; exact fun _ h => nomatch h
    · split at e
      · cases e
      · cases e
      · cases e
      · rename_i h
        have h1 := round_tracks fits main _ master order _ _ _ _ h
        split at e
        · cases e; exact h1
        · split at e
          · cases e
          · cases e
          · cases e
          · rename_i h'
            cases e
            intro p hp
            rcases List.mem_append.mp hp with hp | hp
            · exact h1 p hp
            · exact cluster_tracks fits order main master fuel _ _ _ h' p hp

theorem all_tracks (fits : Int → Nat → RBlk → Bool) (order : List Nat) (main : Nat) (fuel : Nat) : ∀ (ts : List Int) (s : Nat → Trk)
    (outs : List (List Piece)), dealAll fits order main fuel ts s = .ok outs → ∀ p ∈ outs.flatten, p.1 ∈ order
  | [], s, outs, e => by cases e; exact fun _ h => nomatch h
  | t :: ts, s, outs, e => by
    unfold dealAll at e
    simp only at e
    split at e
    · cases e
    · cases e
    · cases e
    · rename_i h
      split at e
      · cases e
      · cases e
      · cases e
      · rename_i h'
        cases e
        intro p hp
        rw [List.flatten_cons] at hp
        rcases List.mem_append.mp hp with hp | hp
        · exact cluster_tracks _ order main _ fuel _ _ _ h p hp
        · exact all_tracks fits order main fuel ts _ _ h' p hp

theorem remux_tracks {fits : Int → Nat → RBlk → Bool} {order : List Nat} {main : Nat} {tracks : Nat → List RBlk} {outs : List (List Piece)}
    (e : remux fits order main tracks = .ok outs) : ∀ p ∈ outs.flatten, p.1 ∈ order := by
  unfold remux at e
  simp only at e
  split at e
  · cases e
  · split at e
    · cases e
    · split at e
      · cases e
      · exact all_tracks _ _ _ _ _ _ _ e

/-! ### The whole file -/

theorem firstOf_unique {y z : Int} {ts : List Tracks.Track} {i j : Nat} (h : Tracks.FirstOf y ts i) (h' : Tracks.FirstOf z ts j) (e : y = z) :
    i = j := by
  subst e
  obtain ⟨t, ht, hy, hf⟩ := h
  obtain ⟨u, hu, hz, hg⟩ := h'
  rcases Nat.lt_trichotomy i j with h | h | h
  · exact absurd hy (hg i h t ht)
  · exact h
  · exact absurd hz (hf j h u hu)

/-- **C204.** For tracks with different numbers below 32768, and blocks of these tracks that can be read and are in the order of their
timestamps in each track: if the main track has at least two blocks and a keyframe, the new Clusters hold, for every track of the file,
exactly the frames of all its blocks, each once and in their order, and nothing else. -/
theorem C204_remux_file (fits : Int → Nat → RBlk → Bool) (view : Blk → RBlk) (ts : List Tracks.Track) (cs : List Cluster)
    (hp : ∀ t ∈ ts, ∃ n : Nat, t.number = some (n : Int) ∧ n < 32768 ∧ t.type.isSome) (hd : (ts.map (·.number)).Nodup)
    (hb : ∀ b ∈ fileBlocks cs, ∃ t ∈ ts, t.number = some (b.num : Int)) (hfits : ∀ c t b, fits c t b = true)
    (hview : ∀ b ∈ fileBlocks cs, (view b).frames ≠ [] ∧ (view b).ts < invalidTs ∧
      ((view b).hasDur = true → ∀ f ∈ (view b).frames, f.finish < invalidTs))
    (horder : ∀ n, ((ofTrack cs n).map fun b => (view b).ts).Pairwise (· ≤ ·))
    (i : Nat) (main : Tracks.Track) (n : Nat) (hi : (ts.filter fun t => HasBlocks cs t)[i]? = some main)
    (hn : main.number = some (n : Int))
    (hmain : Tracks.FirstOf 1 (ts.filter fun t => HasBlocks cs t) i ∨
      ((∀ t ∈ ts, HasBlocks cs t → t.type ≠ some 1) ∧ Tracks.FirstOf 2 (ts.filter fun t => HasBlocks cs t) i))
    (hlen : 2 ≤ (ofTrack cs n).length) (hkey : ∃ b ∈ ofTrack cs n, (view b).key = true) :
    ∃ clusters, remuxFile fits view ts cs = .ok (some clusters) ∧
      ∀ k : Nat, (clusters.flatten.filter (fun p => p.1 = k)).flatMap (·.2) = (ofTrack cs k).flatMap fun b => (view b).frames := by
  have hP : ∀ t ∈ ts, Proper t := fun t ht => by
    obtain ⟨k, h, hk, hy⟩ := hp t ht
    exact ⟨⟨k, h, by omega, by simp only [Int.reducePow]; omega⟩, hy⟩
  have hmm : main ∈ ts.filter fun t => HasBlocks cs t := List.mem_of_getElem? hi
  rcases C203_tracks_left 0 ts cs hP hb with ⟨_, hno⟩ | ⟨s, blocks, e, htr, hms, ⟨before, m, hm, hnum, hsub, hperm, hmn⟩, hbl⟩
  · exfalso
    rcases hmain with ⟨t, ht, hy, _⟩ | ⟨_, t, ht, hy, _⟩
    · have := List.mem_filter.mp (List.mem_of_getElem? ht)
      exact (hno t this.1 (of_decide_eq_true this.2)).1 hy
    · have := List.mem_filter.mp (List.mem_of_getElem? ht)
      exact (hno t this.1 (of_decide_eq_true this.2)).2 hy
  · rw [htr] at hms hm hsub hperm
    -- the main track is the one named
    have hat : s.mainAt = i := by
      rcases hmain with h | ⟨h0, h⟩ <;> rcases hms with h' | ⟨h0', h'⟩
      · exact (firstOf_unique h' h rfl)
      · obtain ⟨t, ht, hy, _⟩ := h
        exact absurd hy (h0' t (List.mem_of_getElem? ht))
      · obtain ⟨t, ht, hy, _⟩ := h'
        have := List.mem_filter.mp (List.mem_of_getElem? ht)
        exact absurd hy (h0 t this.1 (of_decide_eq_true this.2))
      · exact (firstOf_unique h' h rfl)
    rw [hat, hi] at hm
    cases hm
    have hsn : s.main = n := by
      obtain ⟨k, hk, hlt, _⟩ := hp main (List.mem_filter.mp hmm).1
      rw [hn] at hk
      cases hk
      have := hmn n hn (by omega)
      omega
    -- the order of tracks
    have hsplit : ∃ others : List Nat, s.order.map Int.toNat = others ++ [n] ∧
        (∀ k : Nat, k ∈ others ++ [n] ↔ ∃ t ∈ ts.filter (fun t => HasBlocks cs t), t.number = some (k : Int)) ∧ n ∉ others := by
      unfold Tracks.Numbers at hnum
      have hord : s.order.map Int.toNat = (before ++ [main]).map fun t => (t.number.getD 0).toNat := by
        have := congrArg (List.map fun o : Option Int => (o.getD 0).toNat) hnum
        rw [List.map_map, List.map_map] at this
        exact this.symm
      have hfst : ∀ t ∈ before ++ [main], ∃ k : Nat, t.number = some (k : Int) := fun t ht => by
        obtain ⟨k, h, _⟩ := hp t (List.mem_filter.mp (hperm.mem_iff.mp ht)).1
        exact ⟨k, h⟩
      refine ⟨before.map fun t => (t.number.getD 0).toNat, ?_, fun k => ?_, ?_⟩
      · rw [hord, List.map_append, List.map_singleton, hn]
        simp
      · have : n = (main.number.getD 0).toNat := by rw [hn]; simp
        rw [this, ← List.map_singleton (f := fun t : Tracks.Track => (t.number.getD 0).toNat), ← List.map_append, List.mem_map]
        constructor
        · rintro ⟨t, ht, rfl⟩
          obtain ⟨j, hj⟩ := hfst t ht
          exact ⟨t, hperm.mem_iff.mp ht, by rw [hj]; simp⟩
        · rintro ⟨t, ht, hk⟩
          exact ⟨t, hperm.mem_iff.mpr ht, by rw [hk]; simp⟩
      · intro hmem
        obtain ⟨t, ht, he⟩ := List.mem_map.mp hmem
        obtain ⟨j, hj⟩ := hfst t (List.mem_append_left _ ht)
        rw [hj] at he
        simp only [Option.getD_some, Int.toNat_natCast] at he
        have hnd : ((before ++ [main]).map (·.number)).Nodup := by
          rw [(hperm.map _).nodup_iff]
          exact hd.sublist ((List.filter_sublist).map _)
        rw [List.map_append, List.nodup_append] at hnd
        exact hnd.2.2 _ (List.mem_map_of_mem ht) _ (List.mem_map_of_mem (List.mem_singleton_self main)) (by rw [hj, hn, he])
    obtain ⟨others, ho, hmem, hno⟩ := hsplit
    have htracks : ∀ k ∈ others ++ [n], ((blocks[k]?).getD []).map view = (ofTrack cs k).map view := fun k hk => by
      obtain ⟨t, ht, hnk⟩ := (hmem k).mp hk
      rw [hbl t (by rw [htr]; exact ht) k hnk]
      rfl
    have hnm : n ∈ others ++ [n] := List.mem_append_right _ (List.mem_singleton_self n)
    have hof : ∀ k, ∀ b ∈ ofTrack cs k, b ∈ fileBlocks cs := fun k b h => (List.mem_filter.mp h).1
    obtain ⟨clusters, hc, hall⟩ := C112_in_order fits others n (fun k => ((blocks[k]?).getD []).map view) hno hfits
      (fun k hk b hbk => by
        rw [htracks k hk] at hbk
        obtain ⟨x, hx, rfl⟩ := List.mem_map.mp hbk
        exact hview x (hof k x hx))
      (fun k hk => by
        rw [htracks k hk, List.map_map]
        exact horder k)
      (by rw [htracks n hnm, List.length_map]; exact hlen)
      (by
        obtain ⟨b, h1, h2⟩ := hkey
        exact ⟨view b, by rw [htracks n hnm]; exact List.mem_map_of_mem h1, h2⟩)
    refine ⟨clusters, ?_, fun k => ?_⟩
    · unfold remuxFile
      rw [e]
      simp only [Out.bind, ho, hsn, hc]
    · by_cases hk : k ∈ others ++ [n]
      · rw [hall k hk, htracks k hk, List.flatMap_map]
      · have h1 : clusters.flatten.filter (fun p => p.1 = k) = [] := by
          rw [List.filter_eq_nil_iff]
          intro p hpm hpk
          have := remux_tracks hc p hpm
          rw [of_decide_eq_true hpk] at this
          exact hk this
        have h2 : ofTrack cs k = [] := by
          unfold ofTrack
          rw [List.filter_eq_nil_iff]
          intro b hbm hbk
          have hbn : b.num = k := beq_iff_eq.mp hbk
          obtain ⟨t, ht, hnt⟩ := hb b hbm
          rw [hbn] at hnt
          exact hk ((hmem k).mpr ⟨t, List.mem_filter.mpr ⟨ht, decide_eq_true ⟨b, hbm, by rw [hnt, hbn]⟩⟩, hnt⟩)
        rw [h1, h2]
        rfl

/-! ### A case -/

/-- The blocks of the example: one frame each. -/
def plain (b : Blk) : RBlk := ⟨b.sizes.length, 0, b.key, false, true, false, [⟨[UInt8.ofNat b.num], 0⟩]⟩

/-- `C204_remux_file` applies to the file of C203: video track 9 of two blocks, sound and subtitles. -/
example : ∃ clusters, remuxFile (fun _ _ _ => true) plain someTracks someClusters = .ok (some clusters) ∧
    (clusters.flatten.filter (fun p => p.1 = 9)).flatMap (·.2) = [⟨[9], 0⟩, ⟨[9], 0⟩] ∧
    (clusters.flatten.filter (fun p => p.1 = 1)).flatMap (·.2) = [] := by
  have hord : ∀ n, ((ofTrack someClusters n).map fun b => (plain b).ts).Pairwise (· ≤ ·) := fun n => by
    have : ∀ b ∈ ofTrack someClusters n, (plain b).ts = 1 := fun b hb => by
      have := (List.mem_filter.mp hb).1
      have h : (fileBlocks someClusters).all (fun b => (plain b).ts == 1) = true := by decide +kernel
      simpa using List.all_eq_true.mp h b this
    rw [List.pairwise_map]
    rw [List.pairwise_iff_getElem]
    intro i j hi hj _
    rw [this _ (List.getElem_mem hi), this _ (List.getElem_mem hj)]
    exact Int.le_refl _
  obtain ⟨clusters, h1, h2⟩ := C204_remux_file (fun _ _ _ => true) plain someTracks someClusters
    (by
      intro t ht
      simp only [someTracks, List.mem_cons, List.not_mem_nil, or_false] at ht
      rcases ht with rfl | rfl | rfl | rfl
      · exact ⟨1, rfl, by decide, rfl⟩
      · exact ⟨2, rfl, by decide, rfl⟩
      · exact ⟨9, rfl, by decide, rfl⟩
      · exact ⟨3, rfl, by decide, rfl⟩)
    (by decide +kernel)
    (by
      intro b hb
      have h : (fileBlocks someClusters).all (fun b => someTracks.any fun t => t.number == some (b.num : Int)) = true := by decide +kernel
      obtain ⟨t, ht, e⟩ := List.any_eq_true.mp (List.all_eq_true.mp h b hb)
      exact ⟨t, ht, by simpa using e⟩)
    (fun _ _ _ => rfl)
    (fun b hb => ⟨by simp [plain], by
      have h : (fileBlocks someClusters).all (fun b => (plain b).ts == 1) = true := by decide +kernel
      have : (plain b).ts = 1 := by simpa using List.all_eq_true.mp h b hb
      rw [this]; decide, fun h => by cases h⟩)
    hord 1 { number := some 9, type := some 1 } 9 (by decide +kernel) rfl
    (.inl ⟨{ number := some 9, type := some 1 }, by decide +kernel, rfl, fun j hj u hu => by
      have : j = 0 := by omega
      subst this
      have h0 : (someTracks.filter fun t => HasBlocks someClusters t)[0]? = some { number := some 2, type := some 17 } := by decide +kernel
      rw [h0] at hu
      cases hu
      decide⟩)
    (by decide +kernel) ⟨blk 9, by
      refine List.mem_filter.mpr ⟨?_, rfl⟩
      exact List.mem_of_getElem? (i := 0) rfl, rfl⟩
  refine ⟨clusters, h1, ?_, ?_⟩
  · rw [h2 9]; decide +kernel
  · rw [h2 1]; decide +kernel

end Verif.Mkclean.Collect
