import Verif.Mkclean.Collect
import Verif.Props.TracksEnd
/-!
Preparing to remux: every block is collected once, with its track and in the order of the file, tracks without blocks are deleted and no
others, and the main track is chosen among those left (C203).
-/
namespace Verif.Mkclean.Collect
open Verif Verif.Mkclean.Link
open Verif.Mkv (Out)

/-! ### Words of the statements -/

/-- The blocks of a file in its order. -/
def fileBlocks (cs : List Cluster) : List Blk :=
  cs.flatMap fun c => c.children.filterMap fun
    | .simple b => some b
    | .group b _ => b
    | .other _ => none

/-- A track has a TrackNumber and a TrackType, as mkclean makes sure of earlier (C144, C145). -/
def Proper (t : Tracks.Track) : Prop := (∃ n : Int, t.number = some n ∧ 0 ≤ n ∧ n < 2 ^ 63) ∧ t.type.isSome

/-- The file has a block of the track. -/
def HasBlocks (cs : List Cluster) (t : Tracks.Track) : Prop := ∃ b ∈ fileBlocks cs, t.number = some (b.num : Int)

instance (cs : List Cluster) (t : Tracks.Track) : Decidable (HasBlocks cs t) := inferInstanceAs (Decidable (∃ b ∈ _, _))

/-! ### Collecting -/

theorem blocks_eq (cs : List Cluster) : fileBlocks cs = cs.flatMap fun c => c.children.filterMap blockOf := by
  unfold fileBlocks
  congr 1

/-- What `arr` becomes when blocks are appended. -/
def Grown (arr arr' : List (List Blk)) (bs : List Blk) : Prop :=
  arr'.length = arr.length ∧ ∀ (n : Nat) (l : List Blk), arr[n]? = some l → arr'[n]? = some (l ++ bs.filter (fun b => b.num == n))

theorem grown_nil (arr : List (List Blk)) : Grown arr arr [] := ⟨rfl, fun n l h => by rw [List.filter_nil, List.append_nil]; exact h⟩

theorem grown_trans {a b c : List (List Blk)} {x y : List Blk} (h : Grown a b x) (h' : Grown b c y) : Grown a c (x ++ y) := by
  refine ⟨h'.1.trans h.1, fun n l e => ?_⟩
  rw [h'.2 n _ (h.2 n l e), List.filter_append, List.append_assoc]

theorem store_grown (arr : List (List Blk)) (b : Blk) (h : b.num < arr.length) : ∃ arr', store arr b = .ok arr' ∧ Grown arr arr' [b] := by
  unfold store
  rw [List.getElem?_eq_getElem h]
  refine ⟨_, rfl, by rw [List.length_set], fun n l e => ?_⟩
  by_cases hn : b.num = n
  · subst hn
    rw [List.getElem?_set_self h]
    rw [List.getElem?_eq_getElem h] at e
    cases e
    simp
  · rw [List.getElem?_set_ne hn, e]
    simp [hn]

theorem storeChildren_grown : ∀ (cs : List Child) (arr : List (List Blk)), (∀ b ∈ cs.filterMap blockOf, b.num < arr.length) →
    ∃ arr', storeChildren arr cs = .ok arr' ∧ Grown arr arr' (cs.filterMap blockOf)
  | [], arr, _ => ⟨arr, rfl, grown_nil arr⟩
  | c :: cs, arr, h => by
    unfold storeChildren
    rw [List.filterMap_cons] at h ⊢
    cases hc : blockOf c with
    | none =>
      simp only [hc] at h ⊢
      exact storeChildren_grown cs arr h
    | some b =>
      simp only [hc] at h ⊢
      obtain ⟨a, e, g⟩ := store_grown arr b (h b (List.mem_cons_self))
      obtain ⟨a', e', g'⟩ := storeChildren_grown cs a (fun x hx => by rw [g.1]; exact h x (List.mem_cons_of_mem _ hx))
      refine ⟨a', ?_, grown_trans g g'⟩
      rw [e]
      exact e'

theorem storeClusters_grown : ∀ (cs : List Cluster) (arr : List (List Blk)), (∀ b ∈ fileBlocks cs, b.num < arr.length) →
    ∃ arr', storeClusters arr cs = .ok arr' ∧ Grown arr arr' (fileBlocks cs)
  | [], arr, _ => ⟨arr, rfl, grown_nil arr⟩
  | c :: cs, arr, h => by
    unfold storeClusters
    have e : fileBlocks (c :: cs) = c.children.filterMap blockOf ++ fileBlocks cs := by
      rw [blocks_eq, blocks_eq, List.flatMap_cons]
    rw [e] at h ⊢
    obtain ⟨a, e, g⟩ := storeChildren_grown c.children arr (fun x hx => h x (List.mem_append_left _ hx))
    obtain ⟨a', e', g'⟩ := storeClusters_grown cs a (fun x hx => by rw [g.1]; exact h x (List.mem_append_right _ hx))
    refine ⟨a', ?_, grown_trans g g'⟩
    rw [e]
    exact e'

/-- **C203.** Every block is collected once, with the blocks of its track, in the order of the file. -/
theorem C203_blocks_by_track (max : Nat) (cs : List Cluster) (h : ∀ b ∈ fileBlocks cs, b.num ≤ max) :
    ∃ arr, collect max cs = .ok arr ∧ arr.length = max + 1 ∧
      ∀ n, n ≤ max → arr[n]? = some ((fileBlocks cs).filter fun b => b.num == n) := by
  obtain ⟨a, e, g⟩ := storeClusters_grown cs (List.replicate (max + 1) []) (fun b hb => by
    rw [List.length_replicate]; exact Nat.lt_succ_of_le (h b hb))
  refine ⟨a, e, by rw [g.1, List.length_replicate], fun n hn => ?_⟩
  have := g.2 n [] (by rw [List.getElem?_replicate]; exact if_pos (Nat.lt_succ_of_le hn))
  rw [List.nil_append] at this
  exact this

theorem maxTrackNum_ge : ∀ (ns : List (Option Int)) (m : Nat), m ≤ maxTrackNum m ns ∧
    ∀ n : Int, some n ∈ ns → 0 ≤ n → n < 2 ^ 63 → n.toNat ≤ maxTrackNum m ns
  | [], m => ⟨Nat.le_refl _, fun _ h => nomatch h⟩
  | none :: ns, m => by
    unfold maxTrackNum
    refine ⟨(maxTrackNum_ge ns m).1, fun n h => (maxTrackNum_ge ns m).2 n ?_⟩
    rcases List.mem_cons.mp h with h | h
    · cases h
    · exact h
  | some k :: ns, m => by
    unfold maxTrackNum
    generalize hq : (if (k % 2 ^ 64).toNat > m then (k % 2 ^ 64).toNat else m) = q
    have hm : m ≤ q ∧ (k % 2 ^ 64).toNat ≤ q := by
      rw [← hq]
      split <;> omega
    have ih := maxTrackNum_ge ns q
    refine ⟨Nat.le_trans hm.1 ih.1, fun n h h0 h1 => ?_⟩
    rcases List.mem_cons.mp h with h | h
    · cases h
      have : (k % 2 ^ 64).toNat = k.toNat := by simp only [Int.reducePow] at *; omega
      have := ih.1
      omega
    · exact ih.2 n h h0 h1

/-! ### Choosing -/

/-- The filter with which the tracks are left. -/
def kept (arr : List (List Blk)) (t : Tracks.Track) : Bool :=
  match t.number with
  | none => true
  | some n => !((arr[(n % 2 ^ 64).toNat]?).getD []).isEmpty

/-- The entry of a number is empty. -/
def empty (arr : List (List Blk)) (n : Int) : Bool := ((arr[(n % 2 ^ 64).toNat]?).getD []).isEmpty

theorem deleteFirst_spec (n : Int) : ∀ (ts : List Tracks.Track), (∀ t ∈ ts, t.number.isSome) →
    (∃ pre t post, ts = pre ++ t :: post ∧ t.number = some n ∧ (∀ u ∈ pre, u.number ≠ some n) ∧
      deleteFirst n ts = .ok (pre ++ post, true)) ∨
    ((∀ t ∈ ts, t.number ≠ some n) ∧ deleteFirst n ts = .ok (ts, false))
  | [], _ => .inr ⟨fun _ h => (nomatch h), rfl⟩
  | t :: ts, h => by
    unfold deleteFirst
    cases hn : t.number with
    | none => have := h t List.mem_cons_self; rw [hn] at this; cases this
    | some m =>
      simp only
      by_cases hm : m = n
      · rw [if_pos hm]
        exact .inl ⟨[], t, ts, rfl, by rw [hn, hm], fun _ h => (nomatch h), rfl⟩
      · rw [if_neg hm]
        rcases deleteFirst_spec n ts (fun u hu => h u (List.mem_cons_of_mem _ hu)) with ⟨pre, u, post, e, h1, h2, h3⟩ | ⟨h1, h2⟩
        · refine .inl ⟨t :: pre, u, post, by rw [e]; rfl, h1, fun w hw => ?_, by rw [h3]; rfl⟩
          rcases List.mem_cons.mp hw with rfl | hw
          · rw [hn]; intro h; cases h; exact hm rfl
          · exact h2 w hw
        · refine .inr ⟨fun u hu => ?_, by rw [h2]; rfl⟩
          rcases List.mem_cons.mp hu with rfl | hu
          · rw [hn]; intro h; cases h; exact hm rfl
          · exact h1 u hu

/-- How often a number occurs among the tracks. -/
def times (n : Int) (ts : List Tracks.Track) : Nat := ts.countP fun t => t.number == some n

/-- The pass deletes the tracks of the empty entries, when it comes across each number as often as there are tracks with it. -/
theorem pass_spec (arr : List (List Blk)) : ∀ (ns : List Int) (ts : List Tracks.Track),
    (∀ t ∈ ts, t.number.isSome) → (∀ n ∈ ns, (n % 2 ^ 64).toNat < arr.length) →
    (∀ n : Int, empty arr n = true → ns.count n = times n ts) →
    pass arr ns ts = .ok (ts.filter (kept arr), !(ns.any (empty arr)))
  | [], ts, hs, _, hc => by
    unfold pass
    have : ts.filter (kept arr) = ts := by
      rw [List.filter_eq_self]
      intro t ht
      unfold kept
      cases hn : t.number with
      | none => rfl
      | some n =>
        simp only
        cases he : empty arr n with
        | true =>
          have := hc n he
          rw [List.count_nil] at this
          have h0 := (List.countP_eq_zero.mp this.symm) t ht
          rw [hn] at h0
          simp at h0
        | false => unfold empty at he; rw [he]; rfl
    rw [this]
    rfl
  | n :: ns, ts, hs, hl, hc => by
    have hn := hl n List.mem_cons_self
    have hl' : ∀ m ∈ ns, (m % 2 ^ 64).toNat < arr.length := fun m hm => hl m (List.mem_cons_of_mem _ hm)
    unfold pass
    have hget : arr[(n % 2 ^ 64).toNat]? = some arr[(n % 2 ^ 64).toNat] := List.getElem?_eq_getElem hn
    have hem : empty arr n = arr[(n % 2 ^ 64).toNat].isEmpty := by
      unfold empty
      rw [hget]
      rfl
    rw [hget]
    simp only [List.any_cons]
    by_cases h0 : arr[(n % 2 ^ 64).toNat].length = 0
    · rw [if_pos h0]
      have he : empty arr n = true := by rw [hem, List.isEmpty_iff_length_eq_zero]; exact h0
      have hcn := hc n he
      rw [List.count_cons_self] at hcn
      rcases deleteFirst_spec n ts hs with ⟨pre, t, post, e, h1, h2, h3⟩ | ⟨h1, _⟩
      · rw [h3]
        have hk : kept arr t = false := by
          unfold kept
          rw [h1]
          unfold empty at he
          simp only [he, Bool.not_true]
        have hf : ts.filter (kept arr) = (pre ++ post).filter (kept arr) := by
          rw [e, List.filter_append, List.filter_append, List.filter_cons, if_neg (by rw [hk]; exact Bool.false_ne_true)]
        have ih := pass_spec arr ns (pre ++ post) (fun u hu => hs u (by
            rw [e]
            rcases List.mem_append.mp hu with h | h
            · exact List.mem_append_left _ h
            · exact List.mem_append_right _ (List.mem_cons_of_mem _ h))) hl' (fun m hm => by
            have hcm := hc m hm
            unfold times at hcm ⊢
            rw [e, List.countP_append, List.countP_cons] at hcm
            rw [List.countP_append]
            by_cases hmn : m = n
            · subst hmn
              rw [List.count_cons_self, h1] at hcm
              simp only [beq_self_eq_true, if_true] at hcm
              omega
            · rw [List.count_cons_of_ne (Ne.symm hmn), h1] at hcm
              have : (some n == some m) = false := by
                simp only [beq_eq_false_iff_ne, ne_eq, Option.some.injEq]
                exact fun h => hmn h.symm
              rw [this] at hcm
              simpa using hcm)
        simp only [Out.bind, ih, hf, he, Bool.true_or, Bool.not_true, Bool.and_false]
      · have : times n ts = 0 := List.countP_eq_zero.mpr fun t ht => by simp [h1 t ht]
        omega
    · rw [if_neg h0]
      have he : empty arr n = false := by
        rw [hem]
        cases hh : arr[(n % 2 ^ 64).toNat].isEmpty with
        | false => rfl
        | true => exact absurd (List.isEmpty_iff_length_eq_zero.mp hh) h0
      rw [he, Bool.false_or]
      refine pass_spec arr ns ts hs hl' fun m hm => ?_
      have := hc m hm
      rwa [List.count_cons_of_ne (fun h => by rw [h, hm] at he; cases he)] at this

theorem firstOf_ok (y : Int) : ∀ ts : List Tracks.Track, (∀ t ∈ ts, t.type.isSome) → ∃ r, Tracks.firstOf y ts = .ok r
  | [], _ => ⟨none, rfl⟩
  | t :: ts, h => by
    unfold Tracks.firstOf
    cases ht : t.type with
    | none => have := h t List.mem_cons_self; rw [ht] at this; cases this
    | some z =>
      simp only
      split
      · exact ⟨_, rfl⟩
      · obtain ⟨r, e⟩ := firstOf_ok y ts (fun u hu => h u (List.mem_cons_of_mem _ hu))
        rw [e]
        exact ⟨_, rfl⟩

theorem mainTrack_ok (ts : List Tracks.Track) (h : ∀ t ∈ ts, t.type.isSome) (hn : ∀ t ∈ ts, t.number.isSome) :
    ∃ r, Tracks.mainTrack ts = .ok r := by
  unfold Tracks.mainTrack
  obtain ⟨v, e⟩ := firstOf_ok 1 ts h
  obtain ⟨a, e'⟩ := firstOf_ok 2 ts h
  have any : ∀ l : List Tracks.Track, (∀ t ∈ l, t ∈ ts) → ¬ l.any (fun t => t.number.isNone) = true := fun l hl ha => by
    obtain ⟨t, ht, h0⟩ := List.any_eq_true.mp ha
    have := hn t (hl t ht)
    cases hh : t.number with
    | none => rw [hh] at this; cases this
    | some _ => rw [hh] at h0; cases h0
  have go : ∀ m : Option Nat, ∃ r, (let order : List Tracks.Track := match m with
        | none => ts
        | some i => ts.eraseIdx i ++ ts[i]?.toList
      if order.any fun (t : Tracks.Track) => t.number.isNone then (Out.bad : Out (Option Nat × List Int))
      else .ok (m, order.filterMap Tracks.Track.number)) = .ok r := fun m => by
    cases m with
    | none => exact ⟨_, if_neg (any ts fun _ h => h)⟩
    | some i =>
      refine ⟨_, if_neg (any _ fun t ht => ?_)⟩
      rcases List.mem_append.mp ht with h | h
      · exact (Tracks.erase_sublist ts i).subset h
      · rw [Option.mem_toList] at h
        exact List.mem_of_getElem? h
  rw [e]
  cases v with
  | some i => exact go (some i)
  | none =>
    simp only [Out.bind, e']
    exact go a

/-- The numbers in the order are those of the tracks, each as often. -/
theorem order_count {ts before last : List Tracks.Track} {order : List Int} (hn : Tracks.Numbers (before ++ last) order)
    (hp : (before ++ last).Perm ts) (n : Int) : order.count n = times n ts := by
  unfold times Tracks.Numbers at *
  rw [← hp.countP_eq]
  have : (order.map some).count (some n) = order.count n := by
    rw [List.count, List.countP_map]
    congr 1
  rw [← this, ← hn, List.count, List.countP_map]
  congr 1

theorem order_mem {ts before last : List Tracks.Track} {order : List Int} (hn : Tracks.Numbers (before ++ last) order)
    (hp : (before ++ last).Perm ts) (n : Int) (h : n ∈ order) : ∃ t ∈ ts, t.number = some n := by
  unfold Tracks.Numbers at hn
  have : some n ∈ (before ++ last).map (·.number) := by rw [hn]; exact List.mem_map_of_mem h
  obtain ⟨t, ht, e⟩ := List.mem_map.mp this
  exact ⟨t, hp.mem_iff.mp ht, e⟩

/-- Two rounds are enough. -/
theorem choose_eq (fuel : Nat) (arr : List (List Blk)) (ts : List Tracks.Track) (hp : ∀ t ∈ ts, Proper t)
    (hl : ∀ t ∈ ts, ∀ n : Int, t.number = some n → n.toNat < arr.length) :
    ∃ r, Tracks.mainTrack (ts.filter (kept arr)) = .ok r ∧
      choose (fuel + 2) arr ts = .ok (r.1.bind fun i => (((ts.filter (kept arr))[i]?).bind (·.number)).map fun n =>
        ⟨ts.filter (kept arr), i, mainNum n, r.2⟩) := by
  have isn : ∀ t ∈ ts, t.number.isSome := fun t ht => by obtain ⟨⟨n, h, _⟩, _⟩ := hp t ht; rw [h]; rfl
  have ist : ∀ t ∈ ts, t.type.isSome := fun t ht => (hp t ht).2
  have sub : ∀ t ∈ ts.filter (kept arr), t ∈ ts := fun t ht => (List.mem_filter.mp ht).1
  obtain ⟨r, hr⟩ := mainTrack_ok ts ist isn
  obtain ⟨q, hq⟩ := mainTrack_ok (ts.filter (kept arr)) (fun t ht => ist t (sub t ht)) (fun t ht => isn t (sub t ht))
  obtain ⟨c1, c2, before, last, c3, c4, _, _⟩ := Tracks.C147_main_track ts r.1 r.2 hr
  obtain ⟨d1, d2, before', last', d3, d4, _, _⟩ := Tracks.C147_main_track _ q.1 q.2 hq
  have bound : ∀ (us : List Tracks.Track), (∀ t ∈ us, t ∈ ts) → ∀ b l order, Tracks.Numbers (b ++ l) order → (b ++ l).Perm us →
      ∀ n ∈ order, (n % 2 ^ 64).toNat < arr.length := fun us hu b l order h1 h2 n hn => by
    obtain ⟨t, ht, e⟩ := order_mem h1 h2 n hn
    obtain ⟨⟨m, hm, h0, h63⟩, _⟩ := hp t (hu t ht)
    rw [e] at hm
    cases hm
    have := hl t (hu t ht) n e
    have e64 : (n % 2 ^ 64).toNat = n.toNat := by simp only [Int.reducePow] at *; omega
    rw [e64]; exact this
  have p1 := pass_spec arr r.2 ts isn (bound ts (fun _ h => h) _ _ _ c3 c4) (fun n _ => order_count c3 c4 n)
  have p2 := pass_spec arr q.2 (ts.filter (kept arr)) (fun t ht => isn t (sub t ht)) (bound _ sub _ _ _ d3 d4) (fun n _ => order_count d3 d4 n)
  have at' : ∀ (us : List Tracks.Track), (∀ t ∈ us, t ∈ ts) → ∀ i, (∃ y, Tracks.FirstOf y us i) →
      ∃ n, (us[i]?).bind (·.number) = some n := fun us hu i h => by
    obtain ⟨y, t, ht, _⟩ := h
    have := isn t (hu t (List.mem_of_getElem? ht))
    cases hn : t.number with
    | none => rw [hn] at this; cases this
    | some n => exact ⟨n, by rw [ht, Option.bind_some, hn]⟩
  refine ⟨q, hq, ?_⟩
  unfold choose
  rw [hr]
  simp only [Out.bind]
  cases hm : r.1 with
  | none =>
    have hno := c1 hm
    cases hq1 : q.1 with
    | none => rfl
    | some i =>
      rcases d2 i hq1 with ⟨t, ht, hy, _⟩ | ⟨_, t, ht, hy, _⟩
      · exact absurd hy (hno t (sub t (List.mem_of_getElem? ht))).1
      · exact absurd hy (hno t (sub t (List.mem_of_getElem? ht))).2
  | some i =>
    obtain ⟨n, hn⟩ := at' ts (fun _ h => h) i (by
      rcases c2 i hm with h | ⟨_, h⟩
      · exact ⟨_, h⟩
      · exact ⟨_, h⟩)
    simp only [hn, p1]
    cases he : r.2.any (empty arr) with
    | false =>
      have hall : ts.filter (kept arr) = ts := by
        rw [List.filter_eq_self]
        intro t ht
        obtain ⟨⟨k, hk, _⟩, _⟩ := hp t ht
        unfold kept
        rw [hk]
        have hmem : k ∈ r.2 := by
          have hct := order_count c3 c4 k
          have : 0 < times k ts := List.countP_pos_iff.mpr ⟨t, ht, by rw [hk]; exact beq_self_eq_true _⟩
          rw [← hct] at this
          exact List.count_pos_iff.mp this
        have := List.any_eq_false.mp he k hmem
        unfold empty at this
        simpa using this
      rw [hall] at hq ⊢
      rw [hq] at hr
      cases hr
      simp only [Bool.not_false, if_true, hm, Option.bind_some, hn, Option.map_some]
    | true =>
      simp only [Bool.not_true, Bool.false_eq_true, if_false]
      unfold choose
      rw [hq]
      simp only [Out.bind]
      cases hq1 : q.1 with
      | none => rfl
      | some j =>
        obtain ⟨k, hk⟩ := at' _ sub j (by
          rcases d2 j hq1 with h | ⟨_, h⟩
          · exact ⟨_, h⟩
          · exact ⟨_, h⟩)
        simp only [hk, p2]
        have h2 : q.2.any (empty arr) = false := by
          rw [List.any_eq_false]
          intro m hm
          obtain ⟨t, ht, e⟩ := order_mem d3 d4 m hm
          have := (List.mem_filter.mp ht).2
          unfold kept at this
          rw [e] at this
          unfold empty
          simpa using this
        have hff : (ts.filter (kept arr)).filter (kept arr) = ts.filter (kept arr) := by
          rw [List.filter_filter]
          simp
        rw [h2, hff]
        simp only [Bool.not_false, if_true, Option.bind_some, hk, Option.map_some]

/-- **C203.** For tracks with number and type, and blocks that all belong to one of them: mkclean goes on with exactly the tracks that
have blocks, in their order, and all blocks of each in the order of the file; the main track is the first video track among them, or the
first audio track when there is no video, and comes last in the order of tracks. It stops when no such track has blocks, and only then. -/
theorem C203_tracks_left (fuel : Nat) (ts : List Tracks.Track) (cs : List Cluster) (hp : ∀ t ∈ ts, Proper t)
    (hb : ∀ b ∈ fileBlocks cs, ∃ t ∈ ts, t.number = some (b.num : Int)) :
    (prepare (fuel + 2) ts cs = .ok (.exit 0) ∧ ∀ t ∈ ts, HasBlocks cs t → t.type ≠ some 1 ∧ t.type ≠ some 2) ∨
    ∃ s blocks, prepare (fuel + 2) ts cs = .ok (.start s blocks) ∧
      s.tracks = ts.filter (fun t => HasBlocks cs t) ∧
      (Tracks.FirstOf 1 s.tracks s.mainAt ∨ ((∀ t ∈ s.tracks, t.type ≠ some 1) ∧ Tracks.FirstOf 2 s.tracks s.mainAt)) ∧
      (∃ before main, s.tracks[s.mainAt]? = some main ∧ Tracks.Numbers (before ++ [main]) s.order ∧ before.Sublist s.tracks ∧
        (before ++ [main]).Perm s.tracks ∧ (∀ n : Int, main.number = some n → n < 32768 → (s.main : Int) = n)) ∧
      ∀ t ∈ s.tracks, ∀ n : Nat, t.number = some (n : Int) → blocks[n]? = some ((fileBlocks cs).filter fun b => b.num == n) := by
  have hmax := maxTrackNum_ge (ts.map (·.number)) 0
  have numle : ∀ t ∈ ts, ∀ n : Int, t.number = some n → n.toNat ≤ maxTrackNum 0 (ts.map (·.number)) := fun t ht n e => by
    obtain ⟨⟨m, hm, h0, h1⟩, _⟩ := hp t ht
    rw [e] at hm
    cases hm
    exact hmax.2 n (by rw [← e]; exact List.mem_map_of_mem (f := (·.number)) ht) h0 h1
  obtain ⟨arr, ea, hlen, hget⟩ := C203_blocks_by_track (maxTrackNum 0 (ts.map (·.number))) cs (fun b hbm => by
    obtain ⟨t, ht, e⟩ := hb b hbm
    have := numle t ht _ e
    rwa [Int.toNat_natCast] at this)
  obtain ⟨r, hr, he⟩ := choose_eq fuel arr ts hp (fun t ht n e => by rw [hlen]; exact Nat.lt_succ_of_le (numle t ht n e))
  have hk : ∀ t ∈ ts, (kept arr t = true ↔ HasBlocks cs t) := fun t ht => by
    obtain ⟨⟨n, hn, h0, h1⟩, _⟩ := hp t ht
    have e64 : (n % 2 ^ 64).toNat = n.toNat := by simp only [Int.reducePow] at *; omega
    unfold kept HasBlocks
    rw [hn]
    simp only [e64, hget n.toNat (numle t ht n hn), Option.getD_some, Bool.not_eq_true', List.isEmpty_eq_false_iff,
      Option.some.injEq]
    constructor
    · intro h
      obtain ⟨b, hbm⟩ := List.exists_mem_of_ne_nil _ h
      obtain ⟨h2, h3⟩ := List.mem_filter.mp hbm
      refine ⟨b, h2, ?_⟩
      have := beq_iff_eq.mp h3
      omega
    · rintro ⟨b, h2, h3⟩
      exact List.ne_nil_of_mem (List.mem_filter.mpr ⟨h2, by rw [beq_iff_eq]; omega⟩)
  have hf : ts.filter (kept arr) = ts.filter (fun t => HasBlocks cs t) := by
    apply List.filter_congr
    intro t ht
    rw [Bool.eq_iff_iff, hk t ht, decide_eq_true_iff]
  rw [hf] at hr he
  obtain ⟨c1, c2, before, last, c3, c4, c5, c6⟩ := Tracks.C147_main_track _ r.1 r.2 hr
  unfold prepare
  rw [ea]
  simp only [Out.bind, he]
  cases hm : r.1 with
  | none =>
    refine .inl ⟨rfl, fun t ht hh => ?_⟩
    exact c1 hm t (List.mem_filter.mpr ⟨ht, by rw [decide_eq_true_iff]; exact hh⟩)
  | some i =>
    have hfi := c2 i hm
    obtain ⟨t, ht⟩ : ∃ t, (ts.filter (fun t => HasBlocks cs t))[i]? = some t := by
      rcases hfi with ⟨t, h, _⟩ | ⟨_, t, h, _⟩ <;> exact ⟨t, h⟩
    have htm := (List.mem_filter.mp (List.mem_of_getElem? ht)).1
    obtain ⟨⟨n, hn, h0, h1⟩, _⟩ := hp t htm
    simp only [Option.bind_some, ht, hn, Option.map_some]
    rw [hm, Option.bind_some, ht] at c6
    simp only [Option.toList_some] at c6
    subst c6
    refine .inr ⟨_, _, rfl, rfl, hfi, ⟨before, t, ht, c3, c5, c4, fun k e hk => ?_⟩, fun u hu k e => ?_⟩
    · rw [hn] at e
      cases e
      simp only [mainNum]
      simp only [Int.reducePow] at *
      omega
    · have hum := (List.mem_filter.mp hu).1
      have := numle u hum _ e
      rw [Int.toNat_natCast] at this
      exact hget k this

/-- What stays in a Cluster after the blocks are linked with the tracks to write belongs to one of them, as `C203_tracks_left` asks. -/
theorem C203_after_linking (ws : List TEntry) : ∀ (cs rs : List Child), writeChildren ws cs = .ok rs →
    ∀ b ∈ rs.filterMap blockOf, ∃ w ∈ ws, w.number = some (b.num : Int)
  | [], rs, e => by cases e; exact fun _ h => nomatch h
  | c :: cs, rs, e => by
    unfold writeChildren at e
    obtain ⟨k, hk, e⟩ := Tracks.bind_ok e
    obtain ⟨q, hq, e⟩ := Tracks.bind_ok e
    cases e
    have ih := C203_after_linking ws cs q hq
    have one : ∀ b, writeLinked ws b = .ok k → k = true → ∃ w ∈ ws, w.number = some (b.num : Int) := fun b h ht => by
      unfold writeLinked at h
      cases hf : findTrack ws b.num with
      | none => rw [hf] at h; cases h; cases ht
      | some w => exact ⟨w, List.mem_of_find?_eq_some hf, by simpa using List.find?_some hf⟩
    intro b hb
    cases k with
    | false => exact ih b hb
    | true =>
      simp only [if_true] at hb
      rw [List.filterMap_cons] at hb
      cases c with
      | simple x =>
        rcases List.mem_cons.mp hb with rfl | hb
        · exact one _ hk rfl
        · exact ih b hb
      | group x y =>
        cases x with
        | none => exact ih b hb
        | some x =>
          rcases List.mem_cons.mp hb with rfl | hb
          · exact one _ hk rfl
          · exact ih b hb
      | other y => exact ih b hb

/-! ### Cases -/

/-- A block for the examples. -/
def blk (n : Nat) : Blk := ⟨n, [4], true, false, none⟩

/-- A file with a video track without blocks, subtitles, sound and another video track; with blocks of the last three. -/
def someTracks : List Tracks.Track :=
  [{ number := some 1, type := some 1 }, { number := some 2, type := some 17 }, { number := some 9, type := some 1 },
   { number := some 3, type := some 2 }]

def someClusters : List Cluster :=
  [⟨some 0, [.simple (blk 9), .other 7, .group (some (blk 3)) 1]⟩, ⟨some 5, [.group none 2, .simple (blk 2), .simple (blk 9)]⟩]

/-- They meet the hypotheses of `C203_tracks_left`, and the second video track, which has blocks, is the main track. -/
example : (∀ t ∈ someTracks, Proper t) ∧ (∀ b ∈ fileBlocks someClusters, ∃ t ∈ someTracks, t.number = some (b.num : Int)) ∧
    (match prepare 2 someTracks someClusters with
     | .ok (.start s blocks) => decide (s = ⟨someTracks.tail, 1, 9, [2, 3, 9]⟩ ∧ blocks.map (·.length) = [0, 0, 1, 1, 0, 0, 0, 0, 0, 2])
     | _ => false) = true := by
  refine ⟨?_, ?_, by decide +kernel⟩
  · intro t ht
    simp only [someTracks, List.mem_cons, List.not_mem_nil, or_false] at ht
    rcases ht with rfl | rfl | rfl | rfl <;> exact ⟨⟨_, rfl, by decide, by decide⟩, rfl⟩
  · intro b hb
    have h : (fileBlocks someClusters).all (fun b => someTracks.any fun t => t.number == some (b.num : Int)) = true := by decide +kernel
    obtain ⟨t, ht, e⟩ := List.any_eq_true.mp (List.all_eq_true.mp h b hb)
    exact ⟨t, ht, by simpa using e⟩

/-- Blocks of the three tracks of a file with two eyes and sound. -/
def eyesClusters : List Cluster := [⟨some 0, [.simple (blk 1), .simple (blk 3), .simple (blk 2)]⟩]

/-- What mkclean makes of the tracks of two eyes and sound. -/
def madeOfEyes : List Tracks.Track :=
  [{ Tracks.film 1 7 none with video := some { pixelW := some 640, pixelH := some 480, stereo := some 0 } },
   { Tracks.sound 2 8 with audio := some { freq := some 44100 }, links := [5] },
   { Tracks.film 3 1 none with video := some { pixelW := some 640, pixelH := some 480, oldStereo := some 0 } },
   { Tracks.film 4 2 none with
     codec := some Tracks.vCombined
     video := some { pixelW := some 640, pixelH := some 480, stereo := some 0 }
     ops := [[(7, 0), (1, 1)]] }]

/-- **C203.** The track mkclean itself makes to combine two eyes has no blocks of its own, so that remuxing deletes it again: the file
written has no combined track. -/
theorem C203_combined_counterexample :
    ∃ side tracks, Tracks.cleanTracks Tracks.oldFile 20 ⟨1, []⟩ [Tracks.film 1 7 (some 2), Tracks.sound 2 8, Tracks.film 3 1 (some 1)] =
        .ok (side, tracks) ∧ (∃ t ∈ tracks, t.codec = some Tracks.vCombined ∧ t.ops ≠ []) ∧
      ∃ s blocks, prepare 2 tracks eyesClusters = .ok (.start s blocks) ∧ ∀ t ∈ s.tracks, t.codec ≠ some Tracks.vCombined ∧ t.ops = [] := by
  refine ⟨⟨4, []⟩, madeOfEyes, by decide +kernel, ?_, ⟨madeOfEyes.take 3, 0, 1, [2, 3, 1]⟩,
    [[], [blk 1], [blk 2], [blk 3], []], by rfl, by decide +kernel⟩
  exact ⟨_, List.mem_of_getElem? (i := 3) rfl, rfl, by decide⟩

/-- **C203.** A file of subtitles: mkclean stops with the exit code of success, and the file it began is not erased. -/
theorem C203_subtitles_counterexample :
    prepare 2 [{ number := some 1, type := some 17 }] [⟨some 0, [.simple (blk 1)]⟩] = .ok (.exit 0) := rfl

end Verif.Mkclean.Collect
