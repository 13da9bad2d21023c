import Verif.Mkvalidator.VideoLemmas
/-!
Lemmas about the end of a run of mkvalidator.
-/
set_option linter.unusedSimpArgs false
namespace Verif.Mkvalidator
open Verif Verif.Core Verif.Mkv

/-- The part neither crashes nor hangs. -/
def Run.Ends (r : Run) : Prop := r.fin = .next ∨ r.fin = .exit

theorem ends_say (evs : List Ev) : (say evs).Ends := .inl rfl
theorem ends_exit (evs : List Ev) : Run.Ends ⟨evs, .exit⟩ := .inr rfl

theorem ends_andThen {a b : Run} (ha : a.Ends) (hb : b.Ends) : (a.andThen b).Ends := by
  unfold Run.andThen
  by_cases h : a.fin = .next
  · rw [if_pos h]; exact hb
  · rw [if_neg h]; exact ha

theorem ends_inOrder {rs : List Run} (h : ∀ r ∈ rs, r.Ends) : (inOrder rs).Ends := by
  induction rs with
  | nil => exact ends_say []
  | cons r rs ih => exact ends_andThen (h r List.mem_cons_self) (ih fun x hx => h x (List.mem_cons_of_mem _ hx))

theorem ends_ite {p : Prop} [Decidable p] {a b : Run} (ha : p → a.Ends) (hb : ¬ p → b.Ends) : (if p then a else b).Ends := by
  by_cases h : p
  · rw [if_pos h]; exact ha h
  · rw [if_neg h]; exact hb h

theorem next_andThen {a b : Run} (h : (a.andThen b).fin = .next) : a.fin = .next ∧ b.fin = .next := by
  unfold Run.andThen at h
  by_cases ha : a.fin = .next
  · rw [if_pos ha] at h; exact ⟨ha, h⟩
  · rw [if_neg ha] at h; exact absurd h ha

/-- A Video element shown with a positive height and no negative width. -/
def ShownOk (v : Video) : Prop :=
  0 ≤ (displayOf v.displayW (v.unit.getD 0) (v.pixelW.getD 0)).1 ∧ 0 < (displayOf v.displayH (v.unit.getD 0) (v.pixelH.getD 0)).1

theorem ends_pixel (webm : Bool) (u a b c d : Int) (ha : 0 ≤ a) (hb : 0 < b) : (pixelEvs webm u a b c d).Ends := by
  unfold pixelEvs
  refine ends_ite (fun _ => ?_) (fun _ => ends_say _)
  obtain ⟨x, rfl⟩ := Int.eq_ofNat_of_zero_le ha
  obtain ⟨y, rfl⟩ := Int.eq_ofNat_of_zero_le (Int.le_of_lt hb)
  rw [gcd_pos _ x y (by omega) (by omega)]
  exact ends_say _

theorem ends_video (webm : Bool) (v : Option Video) (h : ∀ x, v = some x → ShownOk x) : (checkVideo webm v).Ends := by
  cases v with
  | none => exact ends_say _
  | some v =>
    obtain ⟨h1, h2⟩ := h v rfl
    exact ends_andThen (ends_say _) (ends_andThen (ends_pixel _ _ _ _ _ _ h1 h2) (ends_say _))

/-- A track that does no harm. -/
def TrackOk (t : Track) : Prop :=
  (∀ n, t.num = some n → 0 ≤ n ∧ n < 65535) ∧ (t.type = some 1 → ∀ v, t.video = some v → ShownOk v)

theorem ends_tracksRun (webm : Bool) (ts : List Track) (h : ∀ t ∈ ts, TrackOk t) : (tracksRun webm ts).Ends := by
  refine ends_inOrder fun r hr => ?_
  rcases List.mem_map.mp hr with ⟨t, ht, rfl⟩
  exact ends_ite (fun h1 => ends_video _ _ ((h t ht).2 h1)) (fun _ => ends_say _)

/-- The step of `trackMax`. -/
def maxStep (m : Nat) (t : Track) : Nat := match t.num with | none => m | some n => max m (n % 2 ^ 64).toNat

theorem trackMax_eq (ts : List Track) : trackMax ts = ts.foldl maxStep 0 := rfl

theorem maxStep_none {m : Nat} {t : Track} (h : t.num = none) : maxStep m t = m := by unfold maxStep; rw [h]
theorem maxStep_some {m : Nat} {t : Track} {n : Int} (h : t.num = some n) : maxStep m t = max m (n % 2 ^ 64).toNat := by
  unfold maxStep; rw [h]

theorem trackMax_fold (ts : List Track) : ∀ m : Nat,
    m ≤ ts.foldl maxStep m
    ∧ (∀ t ∈ ts, ∀ n, t.num = some n → (n % 2 ^ 64).toNat ≤ ts.foldl maxStep m)
    ∧ ∀ k, m ≤ k → (∀ t ∈ ts, ∀ n, t.num = some n → (n % 2 ^ 64).toNat ≤ k) → ts.foldl maxStep m ≤ k := by
  induction ts with
  | nil => intro m; exact ⟨Nat.le_refl _, fun _ ht => absurd ht List.not_mem_nil, fun k h _ => h⟩
  | cons t ts ih =>
    intro m
    rw [List.foldl_cons]
    obtain ⟨h1, h2, h3⟩ := ih (maxStep m t)
    cases hn : t.num with
    | none =>
      rw [maxStep_none hn] at h1 h2 h3 ⊢
      refine ⟨h1, ?_, ?_⟩
      · intro x hx n hxn
        rcases List.mem_cons.mp hx with rfl | hx
        · rw [hn] at hxn; cases hxn
        · exact h2 x hx n hxn
      · intro k hk h
        exact h3 k hk fun x hx => h x (List.mem_cons_of_mem _ hx)
    | some n0 =>
      rw [maxStep_some hn] at h1 h2 h3 ⊢
      refine ⟨by omega, ?_, ?_⟩
      · intro x hx n hxn
        rcases List.mem_cons.mp hx with rfl | hx
        · rw [hn] at hxn; cases hxn; omega
        · exact h2 x hx n hxn
      · intro k hk h
        refine h3 k ?_ fun x hx => h x (List.mem_cons_of_mem _ hx)
        have := h t List.mem_cons_self n0 hn
        omega

/-- All TrackNumbers are below 65535. -/
def NumsOk (ts : List Track) : Prop := ∀ t ∈ ts, ∀ n, t.num = some n → 0 ≤ n ∧ n < 65535

theorem trackMax_lt {ts : List Track} (h : NumsOk ts) : trackMax ts < 65535 := by
  have := (trackMax_fold ts 0).2.2 65534 (by omega) (by
    intro t ht n hn
    have := h t ht n hn
    simp only [Int.reducePow]
    omega)
  rw [trackMax_eq]
  omega

theorem le_trackMax {ts : List Track} {t : Track} {n : Nat} (ht : t ∈ ts) (hn : t.num = some (n : Int)) (hb : n < 65536) :
    n ≤ trackMax ts := by
  have := (trackMax_fold ts 0).2.1 t ht n hn
  rw [trackMax_eq]
  simp only [Int.reducePow] at this
  omega

theorem keyStep_ok {ts : List Track} (h : NumsOk ts) (pos : Int) (st : KeyState) (b : Blk) :
    ∃ x, keyStep (trackMax ts + 1) ts pos st b = .ok x := by
  unfold keyStep
  by_cases h1 : b.track > trackMax ts + 1
  · rw [if_pos h1]; exact ⟨_, rfl⟩
  · rw [if_neg h1]
    by_cases h2 : isVideo ts (s16 b.track) = true
    · rw [if_pos h2]
      have hlt := trackMax_lt h
      have h3 : ¬ b.track ≥ trackMax ts + 1 := by
        intro h3
        have heq : b.track = trackMax ts + 1 := by omega
        unfold isVideo trackFor at h2
        cases hf : ts.find? (fun t => t.num.getD 0 == s16 b.track) with
        | none => rw [hf] at h2; cases h2
        | some t =>
          have hm := List.mem_of_find?_eq_some hf
          have hp := List.find?_some hf
          have hp : t.num.getD 0 = s16 b.track := by simpa using hp
          cases hn : t.num with
          | none =>
            rw [hn] at hp
            unfold s16 at hp
            simp only [Option.getD_none, Nat.reducePow, Int.reducePow] at hp
            split at hp <;> omega
          | some n =>
            have hr := h t hm n hn
            rw [hn] at hp
            unfold s16 at hp
            simp only [Option.getD_some, Nat.reducePow, Int.reducePow] at hp
            split at hp
            · subst hp
              have := le_trackMax hm hn (by omega)
              omega
            · omega
      rw [if_neg h3]
      exact ⟨_, rfl⟩
    · rw [if_neg h2]; exact ⟨_, rfl⟩

theorem keyLoop_ok {ts : List Track} (h : NumsOk ts) (pos : Int) : ∀ (bs : List Blk) (st : KeyState),
    ∃ x, keyLoop (trackMax ts + 1) ts pos st bs = .ok x
  | [], st => ⟨_, rfl⟩
  | b :: bs, st => by
    obtain ⟨⟨st1, e⟩, hs⟩ := keyStep_ok h pos st b
    obtain ⟨⟨st2, es⟩, hl⟩ := keyLoop_ok h pos bs st1
    rw [keyLoop, hs]
    dsimp only
    rw [hl]
    exact ⟨_, rfl⟩

theorem ends_videoStart {ts : List Track} (h : NumsOk ts) : ∀ (cs : List Cluster) (prev : Int),
    (checkVideoStart (trackMax ts + 1) ts prev cs).fin = .next
  | [], _ => rfl
  | c :: cs, prev => by
    obtain ⟨⟨st, es⟩, hk⟩ := keyLoop_ok h c.pos c.blocks {}
    rw [checkVideoStart, hk]
    have hlt := trackMax_lt h
    have he : keyEvs (trackMax ts + 1) st = say ((List.range (trackMax ts + 1)).flatMap fun i => if st.key i && st.first i != 0 then [.warn 0xC0] else []) := by
      unfold keyEvs; rw [if_neg (by omega)]
    have hr := ends_videoStart h cs c.ts
    dsimp only
    rw [he]
    simp only [Run.andThen, say, if_true]
    rw [hr]

/-! ### The state main collects -/

theorem eltStep_state (o : Opts) (webm : Bool) (st : St) (e : Elt) :
    (∀ t ∈ (eltStep o webm st e).1.tracks, t ∈ st.tracks ∨ ∃ ts, e.body = .tracks ts ∧ t ∈ ts)
    ∧ (∀ c ∈ (eltStep o webm st e).1.clusters, c ∈ st.clusters ∨ e.body = .cluster c)
    ∧ (st.found.tracks.isSome = true → (eltStep o webm st e).1.found.tracks.isSome = true)
    ∧ (∀ ts, e.body = .tracks ts → (eltStep o webm st e).2.fin = .next → (eltStep o webm st e).1.found.tracks.isSome = true) := by
  have key : ∀ (p : St × Run), p.1.tracks = st.tracks → p.1.clusters = st.clusters → p.1.found.tracks = st.found.tracks →
      (∀ t ∈ p.1.tracks, t ∈ st.tracks ∨ ∃ ts, e.body = .tracks ts ∧ t ∈ ts)
      ∧ (∀ c ∈ p.1.clusters, c ∈ st.clusters ∨ e.body = .cluster c)
      ∧ (st.found.tracks.isSome = true → p.1.found.tracks.isSome = true) := by
    intro p h1 h2 h3
    rw [h1, h2, h3]
    exact ⟨fun t ht => .inl ht, fun c hc => .inl hc, id⟩
  have keyT : (∀ ts, e.body = .tracks ts → False) → ∀ (p : St × Run), p.1.tracks = st.tracks → p.1.clusters = st.clusters →
      p.1.found.tracks = st.found.tracks →
      (∀ t ∈ p.1.tracks, t ∈ st.tracks ∨ ∃ ts, e.body = .tracks ts ∧ t ∈ ts)
      ∧ (∀ c ∈ p.1.clusters, c ∈ st.clusters ∨ e.body = .cluster c)
      ∧ (st.found.tracks.isSome = true → p.1.found.tracks.isSome = true)
      ∧ (∀ ts, e.body = .tracks ts → p.2.fin = .next → p.1.found.tracks.isSome = true) := by
    intro hno p h1 h2 h3
    obtain ⟨a, b, c⟩ := key p h1 h2 h3
    exact ⟨a, b, c, fun ts h => (hno ts h).elim⟩
  cases hb : e.body with
  | cluster c =>
    unfold eltStep
    rw [hb]
    dsimp only
    by_cases hr : (!e.readOk) = true
    · rw [if_pos hr]
      simp [unreadable]
      intro t h; exact .inl h
    · rw [if_neg hr]
      simp only [taken]
      refine ⟨fun t h => .inl h, ?_, id, ?_⟩
      · intro x hx
        rcases List.mem_append.mp hx with h | h
        · exact .inl h
        · rw [List.mem_singleton] at h; exact .inr (by rw [h])
      · intro ts h; cases h
  | tracks ts =>
    unfold eltStep
    rw [hb]
    dsimp only
    by_cases hr : (!e.readOk) = true
    · rw [if_pos hr]
      simp only [unreadable]
      exact ⟨fun t h => .inl h, fun c h => .inl h, id, fun _ _ h => by cases h⟩
    · rw [if_neg hr]
      by_cases hs : st.found.tracks.isSome = true
      · rw [if_pos hs]
        exact ⟨fun t h => .inl h, fun c h => .inl h, id, fun _ _ _ => hs⟩
      · rw [if_neg hs]
        simp only [taken]
        exact ⟨fun t h => .inr ⟨ts, rfl, h⟩, fun c h => .inl h, fun _ => rfl, fun _ _ _ => rfl⟩
  | _ =>
    have hno : ∀ ts, e.body = .tracks ts → False := by intro ts h; rw [hb] at h; cases h
    rw [← hb]
    apply keyT hno
    all_goals
      unfold eltStep
      simp only [hb]
      repeat' (first | rfl | split)

theorem ends_eltStep (o : Opts) (webm : Bool) (st : St) (e : Elt)
    (h : ∀ ts, e.body = .tracks ts → ∀ t ∈ ts, TrackOk t) : (eltStep o webm st e).2.Ends := by
  have ht : ∀ f more, more.Ends → (taken st e f more).2.Ends := fun f more hm => ends_andThen (ends_say _) hm
  cases hb : e.body with
  | tracks ts =>
    have h := h ts hb
    unfold eltStep
    rw [hb]
    dsimp only
    repeat' split
    · exact ends_exit _
    · exact ends_say _
    · exact ht _ _ (ends_tracksRun webm ts h)
  | _ =>
    unfold eltStep
    rw [hb]
    dsimp only
    repeat' (first
      | exact ends_exit _
      | exact ends_say _
      | exact ht _ _ (ends_say _)
      | exact ends_andThen (ends_say _) (ht _ _ (ends_say _))
      | split)

theorem eltLoop_state (o : Opts) (webm : Bool) : ∀ (es : List Elt) (st : St),
    (∀ e ∈ es, ∀ ts, e.body = .tracks ts → ∀ t ∈ ts, TrackOk t) →
    (eltLoop o webm st es).2.Ends
    ∧ (∀ t ∈ (eltLoop o webm st es).1.tracks, t ∈ st.tracks ∨ ∃ e ∈ es, ∃ ts, e.body = .tracks ts ∧ t ∈ ts)
    ∧ (∀ c ∈ (eltLoop o webm st es).1.clusters, c ∈ st.clusters ∨ ∃ e ∈ es, e.body = .cluster c)
    ∧ (st.found.tracks.isSome = true → (eltLoop o webm st es).1.found.tracks.isSome = true)
    ∧ ((∃ e ∈ es, ∃ ts, e.body = .tracks ts) → (eltLoop o webm st es).2.fin = .next →
        (eltLoop o webm st es).1.found.tracks.isSome = true)
  | [], st, _ => ⟨ends_say _, fun t h => .inl h, fun c h => .inl h, id, fun ⟨e, he, _⟩ => by cases he⟩
  | e :: es, st, h => by
    have hs := eltStep_state o webm st e
    have he := ends_eltStep o webm st e (h e List.mem_cons_self)
    rw [eltLoop]
    generalize eltStep o webm st e = p at hs he ⊢
    obtain ⟨st1, r⟩ := p
    obtain ⟨s1, s2, s3, s4⟩ := hs
    obtain ⟨l0, l1, l2, l3, l4⟩ := eltLoop_state o webm es st1 fun x hx => h x (List.mem_cons_of_mem _ hx)
    dsimp only at s1 s2 s3 s4 he ⊢
    by_cases hn : r.fin = .next
    · rw [if_pos hn]
      refine ⟨ends_andThen he l0, ?_, ?_, fun hx => l3 (s3 hx), ?_⟩
      · intro t ht
        rcases l1 t ht with h1 | ⟨x, hx, ts, h1, h2⟩
        · rcases s1 t h1 with h2 | ⟨ts, h2, h3⟩
          · exact .inl h2
          · exact .inr ⟨e, List.mem_cons_self, ts, h2, h3⟩
        · exact .inr ⟨x, List.mem_cons_of_mem _ hx, ts, h1, h2⟩
      · intro c hc
        rcases l2 c hc with h1 | ⟨x, hx, h1⟩
        · rcases s2 c h1 with h2 | h2
          · exact .inl h2
          · exact .inr ⟨e, List.mem_cons_self, h2⟩
        · exact .inr ⟨x, List.mem_cons_of_mem _ hx, h1⟩
      · rintro ⟨x, hx, ts, hb⟩ hf
        obtain ⟨_, f2⟩ := next_andThen hf
        rcases List.mem_cons.mp hx with rfl | hx
        · exact l3 (s4 ts hb hn)
        · exact l4 ⟨x, hx, ts, hb⟩ f2
    · rw [if_neg hn]
      refine ⟨he, ?_, ?_, s3, fun _ hf => absurd hf hn⟩
      · intro t ht
        rcases s1 t ht with h2 | ⟨ts, h2, h3⟩
        · exact .inl h2
        · exact .inr ⟨e, List.mem_cons_self, ts, h2, h3⟩
      · intro c hc
        rcases s2 c hc with h2 | h2
        · exact .inl h2
        · exact .inr ⟨e, List.mem_cons_self, h2⟩

theorem ends_head (o : Opts) (h : Head) : (headRun o h).Ends := by
  unfold headRun
  cases h.read <;> dsimp only
  · exact ends_exit _
  · exact ends_exit _
  · exact ends_exit _
  · refine ends_inOrder ?_
    intro r hr
    simp only [List.mem_cons, List.not_mem_nil, or_false] at hr
    rcases hr with rfl | rfl | rfl | rfl | rfl | rfl | rfl | rfl
    all_goals first
      | exact ends_say _
      | exact ends_ite (fun _ => ends_exit _) (fun _ => ends_say _)
      | exact ends_ite (fun _ => ends_say _) (fun _ => ends_exit _)

theorem ends_segment (o : Opts) (fits : Nat → Bool) (webm : Bool) (f : File) (st : St) (hfit : ∀ n, n ≤ 65535 → fits n = true)
    (ht : ∀ t ∈ st.tracks, TrackOk t) (hc : st.found.tracks.isSome = true ∨ ∀ c ∈ st.clusters, c.blocks = []) :
    (segmentRun o fits webm f st).Ends := by
  unfold segmentRun
  refine ends_ite (fun _ => ends_exit _) (fun _ => ends_inOrder ?_)
  intro r hr
  simp only [List.mem_cons, List.not_mem_nil, or_false] at hr
  rcases hr with rfl | rfl | rfl | rfl | rfl | rfl | rfl
  · exact ends_say _
  · cases st.found.seekHead <;> exact ends_say _
  · cases st.found.seekHead2 <;> exact ends_say _
  · unfold clustersRun
    refine ends_ite (fun _ => ends_say _) (fun _ => ends_inOrder ?_)
    intro r hr
    simp only [List.mem_cons, List.not_mem_nil, or_false] at hr
    rcases hr with rfl | rfl | rfl | rfl | rfl | rfl
    · unfold linkRun
      refine ends_ite (fun h => ?_) (fun _ => ends_say _)
      exfalso
      rw [Bool.and_eq_true, Option.isNone_iff_eq_none, List.any_eq_true] at h
      obtain ⟨h1, c, h2, h3⟩ := h
      rcases hc with hc | hc
      · rw [h1] at hc; cases hc
      · rw [hc c h2] at h3; cases h3
    · refine ends_ite (fun _ => ?_) (fun _ => ends_say _)
      have ht : NumsOk st.tracks := fun t h => (ht t h).1
      have := trackMax_lt ht
      rw [if_pos (hfit _ (by omega))]
      exact .inl (ends_videoStart ht _ _)
    · exact ends_say _
    · exact ends_say _
    · exact ends_ite (fun _ => ends_say _) (fun _ => ends_say _)
    · exact ends_ite (fun _ => ends_exit _) (fun _ => ends_say _)
  · exact ends_ite (fun _ => ends_say _) (fun _ => ends_say _)
  · exact ends_say _
  · exact ends_say _

end Verif.Mkvalidator
