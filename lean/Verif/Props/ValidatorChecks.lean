import Verif.Mkvalidator.StartLemmas
import Verif.Props.Validator
import Verif.Core.StrLemmas
/-!
Theorems about the checks of mkvalidator: C127 (it ends), C128 (start of Clusters), C129 (lacing and keyframes).
-/
set_option linter.unusedSimpArgs false
namespace Verif.Mkvalidator
open Verif Verif.Core Verif.Mkv

/-! ### C127 -/

theorem shownOk_iff (v : Video) : ShownOk v ↔
    0 ≤ shown v.displayW (v.unit.getD 0) (v.pixelW.getD 0) ∧ 0 < shown v.displayH (v.unit.getD 0) (v.pixelH.getD 0) := by
  unfold ShownOk
  rw [displayOf_fst, displayOf_fst]

/-- C127, what holds: mkvalidator exits for every file whose TrackNumbers are below 65535, whose video tracks are shown with
a height that is not 0 (no size being negative), and that has a Tracks element if it has blocks - provided memory can be had
for 65535 entries.

Not true, see the counterexamples: that it exits for every file. -/
theorem C127_ends_partial (o : Opts) (fits : Nat → Bool) (f : File) (hfit : ∀ n, n ≤ 65535 → fits n = true)
    (ht : ∀ e ∈ f.elts, ∀ ts, e.body = .tracks ts → ∀ t ∈ ts,
      (∀ n, t.num = some n → 0 ≤ n ∧ n < 65535)
      ∧ (t.type = some 1 → ∀ v, t.video = some v →
          0 ≤ shown v.displayW (v.unit.getD 0) (v.pixelW.getD 0) ∧ 0 < shown v.displayH (v.unit.getD 0) (v.pixelH.getD 0)))
    (hc : (∃ e ∈ f.elts, ∃ ts, e.body = .tracks ts) ∨ ∀ e ∈ f.elts, ∀ c, e.body = .cluster c → c.blocks = []) :
    ∃ s, (validate o fits f).status o = .exited s := by
  have ht' : ∀ e ∈ f.elts, ∀ ts, e.body = .tracks ts → ∀ t ∈ ts, TrackOk t := by
    intro e he ts hts t htt
    obtain ⟨h1, h2⟩ := ht e he ts hts t htt
    exact ⟨h1, fun h v hv => (shownOk_iff v).mpr (h2 h v hv)⟩
  have hend : (validate o fits f).Ends := by
    unfold validate
    refine ends_andThen (ends_head o f.head) ?_
    obtain ⟨l0, l1, l2, _, l4⟩ := eltLoop_state o f.head.webm f.elts { void := voidAmount f.head.nodes } ht'
    generalize eltLoop o f.head.webm { void := voidAmount f.head.nodes } f.elts = p at l0 l1 l2 l4 ⊢
    obtain ⟨st, r⟩ := p
    dsimp only at l0 l1 l2 l4 ⊢
    by_cases hn : r.fin = .next
    · refine ends_andThen l0 (ends_segment o fits _ f st hfit ?_ ?_)
      · intro t htt
        rcases l1 t htt with h | ⟨e, he, ts, h1, h2⟩
        · cases h
        · exact ht' e he ts h1 t h2
      · rcases hc with hc | hc
        · exact .inl (l4 hc hn)
        · right
          intro c hcc
          rcases l2 c hcc with h | ⟨e, he, h1⟩
          · cases h
          · exact hc e he c h1
    · unfold Run.andThen; rw [if_neg hn]; exact l0
  unfold Run.status
  rcases hend with h | h
  · rw [h]; split <;> exact ⟨_, rfl⟩
  · rw [h]; split <;> exact ⟨_, rfl⟩

/-- A file that meets the hypotheses: audio and video, two Clusters. -/
def plain : File :=
  { elts :=
      [{ body := .info 1000000 true, pos := 10 },
       { body := .tracks [{ num := some 1, type := some 1, codec := some nVp8, video := some { pixelW := some 640, pixelH := some 360 } },
                          { num := some 2, type := some 2, codec := some nVorbis }], pos := 50 },
       { body := .cluster { pos := 100, size := 300, ts := 0, blocks := [⟨1, true, false, 0, 90⟩, ⟨2, true, true, 5000000, 80⟩] }, pos := 100 },
       { body := .cluster { pos := 400, size := 200, ts := 1000000000, blocks := [⟨1, false, false, 1000000000, 90⟩] }, pos := 400 }] }

example : (validate { warnings := false } (fun _ => true) plain).status {} = .exited 0
    ∧ (validate {} (fun _ => true) plain).evs = [.warn 0x801, .warn 0x800] := by decide +kernel

/-- A video track with the number 65535. -/
def lastTrack : Track := { num := some 65535, type := some 1, video := some { pixelW := some 16, pixelH := some 16 } }

theorem trackMax_last : trackMax [lastTrack] = 65535 := by decide +kernel

/-- C127, counterexample: a video track with the number 65535 keeps mkvalidator running forever. -/
theorem C127_ends_counterexample :
    ∃ f : File, (validate {} (fun _ => true) f).status {} = .running :=
  ⟨{ elts := [{ body := .info 1000000 false }, { body := .tracks [lastTrack] }, { body := .cluster { pos := 9, size := 9, ts := 0 } }] },
    by decide +kernel⟩

/-- C127, counterexample: blocks without a Tracks element crash it. -/
theorem C127_tracks_counterexample :
    ∃ f : File, (∀ e ∈ f.elts, ∀ ts, e.body ≠ .tracks ts) ∧ (validate {} (fun _ => true) f).status {} = .crashed :=
  ⟨{ elts := [{ body := .info 1000000 false }, { body := .cluster { pos := 9, size := 9, ts := 0, blocks := [⟨1, true, false, 0, 1⟩] } }] },
    (by intro e he ts h; simp only [List.mem_cons, List.not_mem_nil, or_false] at he; rcases he with rfl | rfl <;> cases h),
    by decide +kernel⟩

/-! ### C128 -/

/-- Specification: the first track entry with this number (0 if it has none). -/
def FirstTrack (ts : List Track) (n : Int) (t : Track) : Prop :=
  ∃ l r, ts = l ++ t :: r ∧ (∀ x ∈ l, x.num.getD 0 ≠ n) ∧ t.num.getD 0 = n

/-- Specification: a Cluster whose first block of the track `i` is no keyframe, but a later one is. -/
def StartsLate (i : Nat) (c : Cluster) : Prop :=
  ∃ l b r, c.blocks = l ++ b :: r ∧ (∀ x ∈ l, x.track ≠ i) ∧ b.track = i ∧ b.key = false ∧ ∃ x ∈ r, x.track = i ∧ x.key = true

theorem isVideo_iff (ts : List Track) (n : Int) : isVideo ts n = true ↔ ∃ t, FirstTrack ts n t ∧ t.type.getD 0 = 1 := by
  unfold isVideo
  cases h : trackFor ts n with
  | none =>
    rw [trackFor_none] at h
    constructor
    · intro h; cases h
    · rintro ⟨t, ⟨l, r, h1, _, h3⟩, _⟩
      exact absurd h3 (h t (by rw [h1]; simp))
  | some t =>
    constructor
    · intro h1
      exact ⟨t, trackFor_some.mp h, by simpa using h1⟩
    · rintro ⟨t', h1, h2⟩
      have := trackFor_some.mpr h1
      rw [h] at this
      cases this
      simpa using h2

theorem startsLate_iff (i : Nat) (c : Cluster) (pos : Int) (hpos : pos ≠ 0) :
    (((after pos i false 0 c.blocks).1 = true ∧ (after pos i false 0 c.blocks).2 ≠ 0) ↔ StartsLate i c) := by
  unfold after
  simp only [Bool.false_or, bne_self_eq_false, Bool.false_eq_true, if_false]
  cases hf : c.blocks.find? (fun b => b.track == i) with
  | none =>
    rw [List.find?_eq_none] at hf
    constructor
    · rintro ⟨_, h⟩; exact absurd rfl h
    · rintro ⟨l, b, r, h1, _, h3, _⟩
      exact absurd h3 (by simpa using hf b (by rw [h1]; simp))
  | some b =>
    rw [List.find?_eq_some_iff_append] at hf
    obtain ⟨hb, l, r, h1, h2⟩ := hf
    have hb : b.track = i := by simpa using hb
    have h2 : ∀ x ∈ l, x.track ≠ i := fun x hx => by simpa using h2 x hx
    constructor
    · rintro ⟨ha, hk⟩
      cases hbk : b.key with
      | true => dsimp only at hk; rw [hbk] at hk; exact absurd rfl hk
      | false =>
        refine ⟨l, b, r, h1, h2, hb, hbk, ?_⟩
        rw [List.any_eq_true] at ha
        obtain ⟨x, hx, hx2⟩ := ha
        simp only [Bool.and_eq_true, beq_iff_eq] at hx2
        rw [h1] at hx
        rcases List.mem_append.mp hx with hx | hx
        · exact absurd hx2.1 (h2 x hx)
        · rcases List.mem_cons.mp hx with rfl | hx
          · rw [hbk] at hx2; cases hx2.2
          · exact ⟨x, hx, hx2⟩
    · rintro ⟨l', b', r', h1', h2', hb', hk', x, hx, hx1, hx2⟩
      have hbb : b = b' := by
        have e1 : c.blocks.find? (fun b => b.track == i) = some b :=
          List.find?_eq_some_iff_append.mpr ⟨by simpa using hb, l, r, h1, fun x hx => by simpa using h2 x hx⟩
        have e2 : c.blocks.find? (fun b => b.track == i) = some b' :=
          List.find?_eq_some_iff_append.mpr ⟨by simpa using hb', l', r', h1', fun x hx => by simpa using h2' x hx⟩
        rw [e1] at e2; injection e2
      subst hbb
      constructor
      · rw [List.any_eq_true]
        exact ⟨x, by rw [h1']; simp [hx], by simp [hx1, hx2]⟩
      · dsimp only; rw [hk']; simpa using hpos

/-- The messages about Timestamps. -/
def times : Int → List Cluster → List Ev
  | _, [] => []
  | prev, c :: cs => timeEvs prev c.ts ++ times c.ts cs

theorem start_evs {ts : List Track} (ht : NumsOk ts) : ∀ (cs : List Cluster) (prev : Int), (∀ c ∈ cs, c.pos ≠ 0) →
    (checkVideoStart (trackMax ts + 1) ts prev cs).fin = .next
    ∧ ∀ e, e ∈ (checkVideoStart (trackMax ts + 1) ts prev cs).evs ↔ e ∈ times prev cs
      ∨ (e = .lost 0xC3 ∧ ∃ c ∈ cs, ∃ b ∈ c.blocks, b.track > trackMax ts + 1)
      ∨ (e = .warn 0xC0 ∧ ∃ c ∈ cs, ∃ i, i < trackMax ts + 1 ∧ isVideo ts (s16 i) = true ∧ StartsLate i c)
  | [], _, _ => ⟨rfl, fun e => by simp [checkVideoStart, say, times]⟩
  | c :: cs, prev, hpos => by
    obtain ⟨x, hk⟩ := keyLoop_ok ht c.pos c.blocks {}
    have ha := fun i => keyLoop_after (trackMax ts + 1) c.pos (hpos c List.mem_cons_self) i c.blocks {} x hk
    have hes := (ha 0).2
    obtain ⟨st, es⟩ := x
    have hlt := trackMax_lt ht
    have he : keyEvs (trackMax ts + 1) st = say ((List.range (trackMax ts + 1)).flatMap fun i => if st.key i && st.first i != 0 then [.warn 0xC0] else []) := by
      unfold keyEvs; rw [if_neg (by omega)]
    obtain ⟨hr, ih⟩ := start_evs ht cs c.ts fun y hy => hpos y (List.mem_cons_of_mem _ hy)
    have hkev : ∀ e, e ∈ ((List.range (trackMax ts + 1)).flatMap fun i => if st.key i && st.first i != 0 then [Ev.warn 0xC0] else [])
        ↔ e = .warn 0xC0 ∧ ∃ i, i < trackMax ts + 1 ∧ isVideo ts (s16 i) = true ∧ StartsLate i c := by
      intro e
      rw [List.mem_flatMap]
      have hone : ∀ i, i < trackMax ts + 1 → ((st.key i && st.first i != 0) = true ↔ isVideo ts (s16 i) = true ∧ StartsLate i c) := by
        intro i hi
        have h1 := (ha i).1
        dsimp only at h1
        rw [decide_eq_true hi, Bool.and_true] at h1
        by_cases hv : isVideo ts (s16 i) = true
        · rw [if_pos hv] at h1
          rw [Bool.and_eq_true, bne_iff_ne]
          rw [← startsLate_iff i c c.pos (hpos c List.mem_cons_self), ← h1]
          exact ⟨fun h => ⟨hv, h⟩, fun h => h.2⟩
        · rw [if_neg hv] at h1
          injection h1 with h1 h2
          rw [h1]
          simp [hv]
      constructor
      · rintro ⟨i, hi, h⟩
        rw [List.mem_range] at hi
        rw [mem_ite] at h
        exact ⟨h.2, i, hi, (hone i hi).mp h.1⟩
      · rintro ⟨h, i, hi, h2⟩
        exact ⟨i, List.mem_range.mpr hi, mem_ite.mpr ⟨(hone i hi).mpr h2, h⟩⟩
    rw [checkVideoStart, hk]
    dsimp only
    rw [he]
    simp only [Run.andThen, say, if_true]
    refine ⟨hr, fun e => ?_⟩
    rw [List.mem_append, List.mem_append, List.mem_append, hkev, hes, ih, times, List.mem_append]
    constructor
    · rintro (h | ⟨h, h2⟩ | ⟨h, h2⟩ | h | ⟨h, c', hc', h2⟩ | ⟨h, c', hc', h2⟩)
      · exact .inl (.inl h)
      · exact .inr (.inl ⟨h, c, List.mem_cons_self, h2⟩)
      · exact .inr (.inr ⟨h, c, List.mem_cons_self, h2⟩)
      · exact .inl (.inr h)
      · exact .inr (.inl ⟨h, c', List.mem_cons_of_mem _ hc', h2⟩)
      · exact .inr (.inr ⟨h, c', List.mem_cons_of_mem _ hc', h2⟩)
    · rintro ((h | h) | ⟨h, c', hc', h2⟩ | ⟨h, c', hc', h2⟩)
      · exact .inl h
      · exact .inr (.inr (.inr (.inl h)))
      · rcases List.mem_cons.mp hc' with rfl | hc'
        · exact .inr (.inl ⟨h, h2⟩)
        · exact .inr (.inr (.inr (.inr (.inl ⟨h, c', hc', h2⟩))))
      · rcases List.mem_cons.mp hc' with rfl | hc'
        · exact .inr (.inr (.inl ⟨h, h2⟩))
        · exact .inr (.inr (.inr (.inr (.inr ⟨h, c', hc', h2⟩))))

theorem mem_timeEvs (prev t : Int) (e : Ev) : e ∈ timeEvs prev t ↔
    (e = .err 0xC1 ∧ t = invalidTs) ∨ (e = .warn 0xC2 ∧ prev ≠ invalidTs ∧ t ≠ invalidTs ∧ t ≤ prev) := by
  unfold timeEvs
  by_cases h1 : t = invalidTs
  · rw [if_pos h1]; simp [h1]
  · rw [if_neg h1]
    by_cases h2 : prev ≠ invalidTs ∧ prev ≥ t
    · rw [if_pos h2]; simp [h1, h2]
    · rw [if_neg h2]
      simp only [List.not_mem_nil, h1, and_false, false_or, false_iff]
      rintro ⟨_, h3, _, h4⟩
      exact h2 ⟨h3, h4⟩

theorem mem_times (e : Ev) : ∀ (cs : List Cluster) (prev : Int), e ∈ times prev cs ↔
    (e = .err 0xC1 ∧ ∃ c ∈ cs, c.ts = invalidTs)
    ∨ (e = .warn 0xC2 ∧ ((∃ c r, cs = c :: r ∧ prev ≠ invalidTs ∧ c.ts ≠ invalidTs ∧ c.ts ≤ prev)
        ∨ ∃ l a b r, cs = l ++ a :: b :: r ∧ a.ts ≠ invalidTs ∧ b.ts ≠ invalidTs ∧ b.ts ≤ a.ts))
  | [], prev => by simp [times]
  | c :: cs, prev => by
    rw [times, List.mem_append, mem_timeEvs, mem_times e cs c.ts]
    constructor
    · rintro ((⟨h, h1⟩ | ⟨h, h1⟩) | ⟨h, x, hx, h1⟩ | ⟨h, ⟨x, r, rfl, h1⟩ | ⟨l, a, b, r, rfl, h1⟩⟩)
      · exact .inl ⟨h, c, List.mem_cons_self, h1⟩
      · exact .inr ⟨h, .inl ⟨c, cs, rfl, h1⟩⟩
      · exact .inl ⟨h, x, List.mem_cons_of_mem _ hx, h1⟩
      · exact .inr ⟨h, .inr ⟨[], c, x, r, rfl, h1⟩⟩
      · exact .inr ⟨h, .inr ⟨c :: l, a, b, r, rfl, h1⟩⟩
    · rintro (⟨h, x, hx, h1⟩ | ⟨h, ⟨x, r, hx, h1⟩ | ⟨l, a, b, r, hx, h1⟩⟩)
      · rcases List.mem_cons.mp hx with rfl | hx
        · exact .inl (.inl ⟨h, h1⟩)
        · exact .inr (.inl ⟨h, x, hx, h1⟩)
      · injection hx with hx _
        subst hx
        exact .inl (.inr ⟨h, h1⟩)
      · cases l with
        | nil =>
          injection hx with hx1 hx2
          subst hx1
          exact .inr (.inr ⟨h, .inl ⟨b, r, hx2, h1⟩⟩)
        | cons y l =>
          injection hx with hx1 hx2
          exact .inr (.inr ⟨h, .inr ⟨l, a, b, r, hx2, h1⟩⟩)

/-- C128, what holds: with TrackNumbers below 65535 and for every list of Clusters, `CheckVideoStart` goes through all of
them and warns with 0xC0 exactly if in some Cluster the first block of a video track is no keyframe and a later one is; it
reports 0xC1 exactly if some Cluster has no Timestamp, 0xC2 exactly if a Timestamp is not above that of the Cluster before,
0xC3 exactly if a block has a track number at least 2 above the highest TrackNumber.

Not true, see the counterexamples: that a Cluster whose video does not start with a keyframe is always reported, and that an
unknown track number is. -/
theorem C128_start_partial (ts : List Track) (cs : List Cluster)
    (ht : ∀ t ∈ ts, ∀ n, t.num = some n → 0 ≤ n ∧ n < 65535) (hpos : ∀ c ∈ cs, c.pos ≠ 0) (evs : List Ev) (fin : Fin)
    (hr : checkVideoStart (trackMax ts + 1) ts invalidTs cs = ⟨evs, fin⟩) :
    fin = .next
    ∧ (.warn 0xC0 ∈ evs ↔ ∃ c ∈ cs, ∃ i : Nat, i < 32768 ∧ (∃ t, FirstTrack ts i t ∧ t.type.getD 0 = 1) ∧ StartsLate i c)
    ∧ (.err 0xC1 ∈ evs ↔ ∃ c ∈ cs, c.ts = invalidTs)
    ∧ (.warn 0xC2 ∈ evs ↔ ∃ l a b r, cs = l ++ a :: b :: r ∧ a.ts ≠ invalidTs ∧ b.ts ≠ invalidTs ∧ b.ts ≤ a.ts)
    ∧ (.lost 0xC3 ∈ evs ↔ ∃ c ∈ cs, ∃ b ∈ c.blocks, 2 ≤ b.track ∧ ∀ t ∈ ts, ∀ n, t.num = some n → n + 2 ≤ b.track) := by
  obtain ⟨hf, he⟩ := start_evs ht cs invalidTs hpos
  rw [hr] at hf he
  dsimp only at hf he
  refine ⟨hf, ?_, ?_, ?_, ?_⟩
  · rw [he, mem_times]
    simp only [reduceCtorEq, false_and, Ev.warn.injEq, false_or, true_and, Nat.reduceEqDiff]
    constructor
    · rintro ⟨c, hc, i, hi, hv, hs⟩
      rw [isVideo_iff] at hv
      obtain ⟨t, htt, hty⟩ := hv
      have hlt := trackMax_lt ht
      have hi2 : i < 32768 := by
        apply Decidable.byContradiction
        intro hge
        obtain ⟨l, r, h1, _, h3⟩ := htt
        unfold s16 at h3
        simp only [Nat.reducePow, Int.reducePow] at h3
        rw [if_neg hge] at h3
        cases hn : t.num with
        | none => rw [hn] at h3; simp only [Option.getD_none] at h3; omega
        | some n =>
          have := ht t (by rw [h1]; simp) n hn
          rw [hn] at h3; simp only [Option.getD_some] at h3; omega
      have hs16 : s16 i = i := by unfold s16; rw [if_pos (by omega)]
      rw [hs16] at htt
      exact ⟨c, hc, i, hi2, ⟨t, htt, hty⟩, hs⟩
    · rintro ⟨c, hc, i, hi, ⟨t, htt, hty⟩, hs⟩
      have hs16 : s16 i = i := by unfold s16; rw [if_pos (by omega)]
      refine ⟨c, hc, i, ?_, by rw [hs16]; exact (isVideo_iff ts i).mpr ⟨t, htt, hty⟩, hs⟩
      obtain ⟨l, r, h1, _, h3⟩ := htt
      cases hn : t.num with
      | none => rw [hn] at h3; simp only [Option.getD_none] at h3; omega
      | some n =>
        rw [hn] at h3; simp only [Option.getD_some] at h3
        subst h3
        have := le_trackMax (ts := ts) (by rw [h1]; simp) hn (by omega)
        omega
  · rw [he, mem_times]; simp
  · rw [he, mem_times]; simp
  · rw [he, mem_times]
    simp only [reduceCtorEq, false_and, false_or, true_and, or_false]
    have hb : ∀ b : Blk, b.track > trackMax ts + 1 ↔ 2 ≤ b.track ∧ ∀ t ∈ ts, ∀ n, t.num = some n → n + 2 ≤ b.track := by
      intro b
      obtain ⟨_, m2, m3⟩ := trackMax_fold ts 0
      rw [← trackMax_eq] at m2 m3
      constructor
      · intro h
        refine ⟨by omega, fun t htt n hn => ?_⟩
        have h1 := ht t htt n hn
        have h2 := m2 t htt n hn
        simp only [Int.reducePow] at h2
        omega
      · rintro ⟨h1, h2⟩
        have := m3 (b.track - 2) (by omega) (by
          intro t htt n hn
          have h3 := ht t htt n hn
          have h4 := h2 t htt n hn
          simp only [Int.reducePow]
          omega)
        omega
    constructor
    · rintro ⟨c, hc, b, hbb, h⟩; exact ⟨c, hc, b, hbb, (hb b).mp h⟩
    · rintro ⟨c, hc, b, hbb, h⟩; exact ⟨c, hc, b, hbb, (hb b).mpr h⟩

/-- A video track with the number 1. -/
def video1 : Track := { num := some 1, type := some 1, video := some { pixelW := some 16, pixelH := some 16 } }

/-- Two frames, the second a keyframe: a warning. -/
example : checkVideoStart (trackMax [video1] + 1) [video1] invalidTs [{ pos := 9, size := 9, ts := 5, blocks := [⟨1, false, false, 5, 1⟩, ⟨1, true, false, 6, 1⟩] }]
    = say [.warn 0xC0] := by decide +kernel

/-- C128, counterexample: a Cluster whose video has no keyframe at all is not reported. -/
theorem C128_start_counterexample :
    ∃ c : Cluster, c.blocks ≠ [] ∧ (∀ b ∈ c.blocks, b.track = 1 ∧ b.key = false)
      ∧ checkVideoStart (trackMax [video1] + 1) [video1] invalidTs [c] = say [] :=
  ⟨{ pos := 9, size := 9, ts := 5, blocks := [⟨1, false, false, 5, 1⟩, ⟨1, false, false, 6, 1⟩] }, by decide, by decide, by decide +kernel⟩

/-- C128, counterexample: a block of a track that does not exist is not reported. -/
theorem C128_unknown_counterexample :
    ∃ c : Cluster, (∃ b ∈ c.blocks, b.track = 2) ∧ checkVideoStart (trackMax [video1] + 1) [video1] invalidTs [c] = say [] :=
  ⟨{ pos := 9, size := 9, ts := 5, blocks := [⟨2, true, false, 5, 1⟩] }, by decide, by decide +kernel⟩

end Verif.Mkvalidator
