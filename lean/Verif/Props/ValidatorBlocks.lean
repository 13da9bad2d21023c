import Verif.Props.ValidatorChecks
import Verif.Props.Cue
/-!
Theorems about the checks of mkvalidator: C129 (lacing and keyframes), C130 (SeekHead), C131 (PrevSize and Position),
C132 (Cues), C133 (void data), C134 (Tracks).
-/
set_option linter.unusedSimpArgs false
namespace Verif.Mkvalidator
open Verif Verif.Core Verif.Mkv

/-! ### C129 -/

/-- Specification: two names are the same but for the case of letters. -/
def SameName (a b : Bytes) : Prop := a.map toUpper = b.map toUpper

/-- Specification: a track all of whose blocks must be keyframes: neither video nor TrueHD audio. -/
def AllKeys (t : Track) : Prop := t.type.getD 0 ≠ 1 ∧ (t.type.getD 0 = 2 → ¬ SameName (t.codec.getD []) nTrueHd)

theorem upper_chr : ∀ c : UInt8, asciiUpper (chr c) = chr (toUpper c) := by
  apply all_u8; decide +kernel

theorem map_comp_eq (a b : Bytes) : (a.map fun c => chr (toUpper c)) = (b.map fun c => chr (toUpper c)) ↔ a.map toUpper = b.map toUpper := by
  induction a generalizing b with
  | nil => cases b <;> simp
  | cons x a ih =>
    cases b with
    | nil => simp
    | cons y b =>
      simp only [List.map_cons, List.cons.injEq, ih]
      constructor
      · rintro ⟨h1, h2⟩; exact ⟨chr_inj _ _ h1, h2⟩
      · rintro ⟨h1, h2⟩; exact ⟨by rw [h1], h2⟩

theorem isame_iff (a b : Bytes) : isame a b = true ↔ SameName a b := by
  rw [isame_eq]
  unfold uppers SameName
  simp only [upper_chr]
  exact map_comp_eq a b

theorem firstTrack_unique {ts : List Track} {n : Int} {a b : Track} (ha : FirstTrack ts n a) (hb : FirstTrack ts n b) : a = b := by
  have h1 := trackFor_some.mpr ha
  have h2 := trackFor_some.mpr hb
  rw [h1] at h2
  injection h2

theorem s16_eq {n : Nat} (h : n < 32768) : s16 n = n := by unfold s16; rw [if_pos (by omega)]

theorem needsKey_iff {ts : List Track} {n : Int} {t : Track} (h : FirstTrack ts n t) : needsKey ts n = true ↔ AllKeys t := by
  unfold needsKey AllKeys SameName
  rw [trackFor_some.mpr h]
  dsimp only
  by_cases h1 : t.type.getD 0 = 1
  · rw [if_pos h1]; simp [h1]
  · rw [if_neg h1]
    by_cases h2 : t.type.getD 0 = 2
    · rw [if_pos h2]
      have := isame_iff (t.codec.getD []) nTrueHd
      unfold SameName at this
      rw [Bool.not_eq_true', ← Bool.not_eq_true, this]
      simp [h2]
    · rw [if_neg h2]; simp [h1, h2]

theorem isLaced_iff {ts : List Track} {n : Int} {t : Track} (h : FirstTrack ts n t) : isLaced ts n = false ↔ t.lacing = some 0 := by
  unfold isLaced
  rw [trackFor_some.mpr h]
  dsimp only
  cases t.lacing with
  | none => simp
  | some x => simp

theorem mem_laceEvs (ts : List Track) (b : Blk) (ht : ∀ t ∈ ts, ∀ n, t.num = some n → 0 ≤ n ∧ n < 32768) (hb : b.track < 65536) (e : Ev) :
    e ∈ laceEvs ts b ↔
      (e = .err 0xB0 ∧ b.laced = true ∧ ∃ t, FirstTrack ts b.track t ∧ t.lacing = some 0)
      ∨ (e = .err 0xB1 ∧ b.key = false ∧ ∃ t, FirstTrack ts b.track t ∧ AllKeys t)
      ∨ (e = .err 0xB2 ∧ ∀ t ∈ ts, t.num.getD 0 ≠ b.track) := by
  have hnum : ∀ t ∈ ts, 0 ≤ t.num.getD 0 ∧ t.num.getD 0 < 32768 := by
    intro t htt
    cases hn : t.num with
    | none => simp
    | some n => exact ht t htt n hn
  have hany : ts.any (fun t => trackNum t == s16 b.track) = true ↔ ∃ t ∈ ts, t.num.getD 0 = b.track := by
    rw [List.any_eq_true]
    constructor
    · rintro ⟨t, htt, h⟩
      refine ⟨t, htt, ?_⟩
      have h1 := hnum t htt
      rw [beq_iff_eq] at h
      unfold trackNum toInt32 s16 at h
      simp only [Nat.reducePow, Int.reducePow] at h
      split at h <;> omega
    · rintro ⟨t, htt, h⟩
      refine ⟨t, htt, ?_⟩
      have h1 := hnum t htt
      rw [beq_iff_eq]
      unfold trackNum toInt32 s16
      simp only [Nat.reducePow, Int.reducePow]
      split <;> omega
  unfold laceEvs
  by_cases h : ts.any (fun t => trackNum t == s16 b.track) = true
  · rw [if_pos h]
    rw [hany] at h
    have hlt : b.track < 32768 := by
      obtain ⟨t, htt, h1⟩ := h
      have := hnum t htt
      omega
    rw [s16_eq hlt]
    cases hf : trackFor ts b.track with
    | none =>
      rw [trackFor_none] at hf
      obtain ⟨t, htt, h1⟩ := h
      exact absurd h1 (hf t htt)
    | some t =>
      have hft : FirstTrack ts b.track t := trackFor_some.mp hf
      have hl := isLaced_iff hft
      have hk := needsKey_iff hft
      rw [List.mem_append, mem_ite, mem_ite, Bool.and_eq_true, Bool.and_eq_true, Bool.not_eq_true', hl, hk, Bool.not_eq_true']
      constructor
      · rintro (⟨⟨h1, h2⟩, h3⟩ | ⟨⟨h1, h2⟩, h3⟩)
        · exact .inl ⟨h3, h1, t, hft, h2⟩
        · exact .inr (.inl ⟨h3, h1, t, hft, h2⟩)
      · rintro (⟨h3, h1, t', h4, h2⟩ | ⟨h3, h1, t', h4, h2⟩ | ⟨h3, h1⟩)
        · rw [firstTrack_unique h4 hft] at h2
          exact .inl ⟨⟨h1, h2⟩, h3⟩
        · rw [firstTrack_unique h4 hft] at h2
          exact .inr ⟨⟨h1, h2⟩, h3⟩
        · obtain ⟨t', ht', h2⟩ := h
          exact absurd h2 (h1 t' ht')
  · rw [if_neg h]
    rw [hany] at h
    have hno : ∀ t ∈ ts, t.num.getD 0 ≠ b.track := fun t htt h1 => h ⟨t, htt, h1⟩
    have hnf : ∀ t, ¬ FirstTrack ts b.track t := by
      rintro t ⟨l, r, h1, _, h3⟩
      exact hno t (by rw [h1]; simp) h3
    rw [List.mem_singleton]
    constructor
    · intro h; exact .inr (.inr ⟨h, hno⟩)
    · rintro (⟨_, _, t, h4, _⟩ | ⟨_, _, t, h4, _⟩ | ⟨h, _⟩)
      · exact absurd h4 (hnf t)
      · exact absurd h4 (hnf t)
      · exact h

/-- C129, what holds: with TrackNumbers below 32768 and for every list of Clusters, `CheckLacingKeyframe` reports 0xB0
exactly if some block is laced although its track forbids lacing, 0xB1 exactly if some block is no keyframe although its
track has only keyframes, 0xB2 exactly if some block is of a track that does not exist, and nothing else.

Not true, see the counterexample: the last, with TrackNumbers from 32768 on. -/
theorem C129_lacing_partial (ts : List Track) (cs : List Cluster)
    (ht : ∀ t ∈ ts, ∀ n, t.num = some n → 0 ≤ n ∧ n < 32768) (hb : ∀ c ∈ cs, ∀ b ∈ c.blocks, b.track < 65536) (e : Ev) :
    e ∈ checkLacing ts cs ↔ ∃ c ∈ cs, ∃ b ∈ c.blocks,
      (e = .err 0xB0 ∧ b.laced = true ∧ ∃ t, FirstTrack ts b.track t ∧ t.lacing = some 0)
      ∨ (e = .err 0xB1 ∧ b.key = false ∧ ∃ t, FirstTrack ts b.track t ∧ AllKeys t)
      ∨ (e = .err 0xB2 ∧ ∀ t ∈ ts, t.num.getD 0 ≠ b.track) := by
  unfold checkLacing
  rw [List.mem_flatMap]
  constructor
  · rintro ⟨c, hc, h⟩
    rw [List.mem_flatMap] at h
    obtain ⟨b, hbb, h⟩ := h
    exact ⟨c, hc, b, hbb, (mem_laceEvs ts b ht (hb c hc b hbb) e).mp h⟩
  · rintro ⟨c, hc, b, hbb, h⟩
    exact ⟨c, hc, List.mem_flatMap.mpr ⟨b, hbb, (mem_laceEvs ts b ht (hb c hc b hbb) e).mpr h⟩⟩

/-- A subtitle track without lacing: a laced block that is no keyframe, and a block of another track. -/
example : checkLacing [{ num := some 1, type := some 17, lacing := some 0 }]
    [{ pos := 9, size := 9, ts := 5, blocks := [⟨1, false, true, 5, 1⟩, ⟨2, true, false, 6, 1⟩] }] = [.err 0xB0, .err 0xB1, .err 0xB2] := by decide +kernel

/-- C129, counterexample: the blocks of a track with the number 40000 are reported as those of an unknown track. -/
theorem C129_lacing_counterexample :
    ∃ (t : Track) (c : Cluster), t.num = some 40000 ∧ (∀ b ∈ c.blocks, b.track = 40000) ∧ checkLacing [t] [c] = [.err 0xB2] :=
  ⟨{ num := some 40000, type := some 2 }, { pos := 9, size := 9, ts := 5, blocks := [⟨40000, true, false, 5, 1⟩] }, rfl, by decide, by decide +kernel⟩

/-! ### C130 -/

/-- Specification: an entry of a SeekHead that starts at `place` is right. -/
structure SeekRight (f : Found) (place : Int) (main : Bool) (s : Seek) (p : Int) : Prop where
  pos : s.pos = some p
  id : s.id ≠ 0
  info : s.id = 0x1549A966 → f.info = some p
  tracks : s.id = 0x1654AE6B → f.tracks = some p
  cues : s.id = 0x1C53BB6B → f.cues = some p
  tags : s.id = 0x1254C367 → f.tags = some p
  chapters : s.id = 0x1043A770 → f.chapters = some p
  attachments : s.id = 0x1941A469 → f.attachments = some p
  seekHead : s.id = 0x114D9B74 → p ≠ place ∧ (main = true → f.seekHead2 ≠ none) ∧ (main = false → f.seekHead = some p)
  cluster : s.id = 0x1F43B675 → p ∈ f.clusters ∨ f.clusters = []

theorem refEvs_nil (x : Option Int) (p : Int) (a b : Nat) : (∀ c, .err c ∉ refEvs x p a b) ↔ x = some p := by
  cases x with
  | none => simp [refEvs]
  | some q =>
    simp only [refEvs]
    by_cases h : q ≠ p
    · rw [if_pos h]; simp [h]
    · rw [if_neg h]; simp at h; simp [h]

theorem seekEvs_right (f : Found) (self : Int) (main : Bool) (s : Seek) :
    (∀ c, .err c ∉ seekEvs f self main s) ↔ ∃ p, SeekRight f self main s p := by
  unfold seekEvs
  cases hp : s.pos with
  | none =>
    constructor
    · intro h; exact absurd (List.mem_singleton.mpr rfl) (h 0x60)
    · rintro ⟨p, h⟩; rw [h.pos] at hp; cases hp
  | some p =>
    dsimp only
    have hex : (∃ q, SeekRight f self main s q) ↔ SeekRight f self main s p := by
      constructor
      · rintro ⟨q, h⟩
        have := h.pos
        rw [hp] at this
        cases this
        exact h
      · intro h; exact ⟨p, h⟩
    rw [hex]
    have hR : SeekRight f self main s p ↔ s.id ≠ 0 ∧ (s.id = 0x1549A966 → f.info = some p) ∧ (s.id = 0x1654AE6B → f.tracks = some p)
        ∧ (s.id = 0x1C53BB6B → f.cues = some p) ∧ (s.id = 0x1254C367 → f.tags = some p) ∧ (s.id = 0x1043A770 → f.chapters = some p)
        ∧ (s.id = 0x1941A469 → f.attachments = some p)
        ∧ (s.id = 0x114D9B74 → p ≠ self ∧ (main = true → f.seekHead2 ≠ none) ∧ (main = false → f.seekHead = some p))
        ∧ (s.id = 0x1F43B675 → p ∈ f.clusters ∨ f.clusters = []) :=
      ⟨fun h => ⟨h.id, h.info, h.tracks, h.cues, h.tags, h.chapters, h.attachments, h.seekHead, h.cluster⟩,
       fun ⟨a, b, c, d, e, g, i, j, k⟩ => ⟨hp, a, b, c, d, e, g, i, j, k⟩⟩
    rw [hR]
    by_cases h0 : s.id = 0
    · rw [if_pos h0]; simp [h0]
    rw [if_neg h0]
    by_cases h1 : s.id = idInfo
    · rw [if_pos h1, refEvs_nil]; simp [h1, idInfo]
    rw [if_neg h1]
    by_cases h2 : s.id = idTracks
    · rw [if_pos h2, refEvs_nil]; simp [h2, idTracks]
    rw [if_neg h2]
    by_cases h3 : s.id = idCues
    · rw [if_pos h3, refEvs_nil]; simp [h3, idCues]
    rw [if_neg h3]
    by_cases h4 : s.id = idTags
    · rw [if_pos h4, refEvs_nil]; simp [h4, idTags]
    rw [if_neg h4]
    by_cases h5 : s.id = idChapters
    · rw [if_pos h5, refEvs_nil]; simp [h5, idChapters]
    rw [if_neg h5]
    by_cases h6 : s.id = idAttachments
    · rw [if_pos h6, refEvs_nil]; simp [h6, idAttachments]
    rw [if_neg h6]
    by_cases h7 : s.id = idSeekHead
    · rw [if_pos h7]
      simp only [h7, idSeekHead, Nat.reduceEqDiff, false_implies, true_and, forall_const, and_true, ne_eq, not_false_eq_true]
      by_cases hs : self = p
      · rw [if_pos hs]; simp [hs]
      · rw [if_neg hs]
        have hs' : ¬ p = self := fun h => hs h.symm
        cases main with
        | true => cases f.seekHead2 <;> simp [hs']
        | false =>
          by_cases hq : some p ≠ f.seekHead
          · rw [if_neg (by simp), if_pos hq]
            have hq' : ¬ f.seekHead = some p := fun h => hq h.symm
            simp [hs', hq']
          · rw [if_neg (by simp), if_neg hq]
            simp only [ne_eq, Decidable.not_not] at hq
            simp [hs', ← hq]
    rw [if_neg h7]
    have hid : s.id ≠ 0x1549A966 ∧ s.id ≠ 0x1654AE6B ∧ s.id ≠ 0x1C53BB6B ∧ s.id ≠ 0x1254C367 ∧ s.id ≠ 0x1043A770 ∧ s.id ≠ 0x1941A469 ∧ s.id ≠ 0x114D9B74 :=
      ⟨h1, h2, h3, h4, h5, h6, h7⟩
    by_cases h8 : s.id = idCluster
    · rw [if_pos h8]
      simp only [h8, idCluster, Nat.reduceEqDiff, false_implies, true_and, forall_const, and_true, ne_eq, not_false_eq_true]
      by_cases hc : f.clusters = []
      · simp [hc]
      · by_cases hm : p ∈ f.clusters
        · simp [hm]
        · simp [hm, hc]
    · rw [if_neg h8]
      have h8' : s.id ≠ 0x1F43B675 := h8
      simp [hid, h0, h8']

/-- Specification: an element that is there is mentioned by an entry with its ID and some position. -/
def Mentioned (entries : List Seek) (id : Nat) : Prop := ∃ s ∈ entries, s.id = id ∧ s.pos ≠ none

theorem unref_iff (entries : List Seek) (id : Nat) (x : Option Int) :
    .warn 0x861 ∈ unref entries id x ↔ x ≠ none ∧ ¬ Mentioned entries id := by
  unfold unref Mentioned
  rw [mem_ite, Bool.and_eq_true, Bool.not_eq_true', ← Bool.not_eq_true, List.any_eq_true]
  simp only [and_true, Bool.and_eq_true, beq_iff_eq, Option.isSome_iff_ne_none]

theorem unref2_iff (self : Int) (entries : List Seek) (x : Option Int) :
    .warn 0x861 ∈ unref2 self entries x ↔ x ≠ none ∧ ¬ ∃ s ∈ entries, s.id = 0x114D9B74 ∧ s.pos ≠ none ∧ s.pos ≠ some self := by
  unfold unref2
  rw [mem_ite, Bool.and_eq_true, Bool.not_eq_true', ← Bool.not_eq_true, List.any_eq_true]
  simp only [and_true, Bool.and_eq_true, beq_iff_eq, bne_iff_ne, Option.isSome_iff_ne_none, idSeekHead, and_assoc]

theorem unref_no_err (entries : List Seek) (id : Nat) (x : Option Int) (c : Nat) : .err c ∉ unref entries id x := by
  unfold unref; rw [mem_ite]; rintro ⟨_, h⟩; cases h

theorem unref2_no_err (self : Int) (entries : List Seek) (x : Option Int) (c : Nat) : .err c ∉ unref2 self entries x := by
  unfold unref2; rw [mem_ite]; rintro ⟨_, h⟩; cases h

theorem seekEvs_no_861 (f : Found) (self : Int) (main : Bool) (s : Seek) : .warn 0x861 ∉ seekEvs f self main s := by
  have hr : ∀ x p a b, .warn 0x861 ∉ refEvs x p a b := by
    intro x p a b
    cases x with
    | none => simp [refEvs]
    | some q => simp only [refEvs]; rw [mem_ite]; rintro ⟨_, h⟩; cases h
  unfold seekEvs
  cases s.pos with
  | none => simp
  | some p =>
    dsimp only
    have hi : ∀ (p : Prop) [Decidable p] (a b : List Ev), .warn 0x861 ∉ a → .warn 0x861 ∉ b → .warn 0x861 ∉ (if p then a else b) := by
      intro p _ a b ha hb
      by_cases h : p
      · rw [if_pos h]; exact ha
      · rw [if_neg h]; exact hb
    repeat' apply hi
    all_goals first | exact hr _ _ _ _ | simp

/-- C130, what holds: for every SeekHead, `CheckSeekHead` reports no error exactly if all entries are right; and for the
first SeekHead it warns with 0x861 exactly if one of the elements found is not mentioned.

Not true, see the counterexamples: that all errors are found. -/
theorem C130_seek_partial (f : Found) (self : Int) (main : Bool) (entries : List Seek) :
    ((∀ c, .err c ∉ checkSeekHead f self main entries) ↔ ∀ s ∈ entries, ∃ p, SeekRight f self main s p)
    ∧ (.warn 0x861 ∈ checkSeekHead f self main entries ↔ main = true ∧
        ((f.info ≠ none ∧ ¬ Mentioned entries 0x1549A966) ∨ (f.tracks ≠ none ∧ ¬ Mentioned entries 0x1654AE6B)
        ∨ (f.cues ≠ none ∧ ¬ Mentioned entries 0x1C53BB6B) ∨ (f.tags ≠ none ∧ ¬ Mentioned entries 0x1254C367)
        ∨ (f.chapters ≠ none ∧ ¬ Mentioned entries 0x1043A770) ∨ (f.attachments ≠ none ∧ ¬ Mentioned entries 0x1941A469)
        ∨ (f.seekHead2 ≠ none ∧ ¬ ∃ s ∈ entries, s.id = 0x114D9B74 ∧ s.pos ≠ none ∧ s.pos ≠ some self))) := by
  unfold checkSeekHead
  constructor
  · have h1 : (∀ c, Ev.err c ∉ entries.flatMap (seekEvs f self main)) ↔ ∀ s ∈ entries, ∃ p, SeekRight f self main s p := by
      constructor
      · intro h s hs
        exact (seekEvs_right f self main s).mp fun c hc => h c (List.mem_flatMap.mpr ⟨s, hs, hc⟩)
      · intro h c hc
        obtain ⟨s, hs, hc⟩ := List.mem_flatMap.mp hc
        exact (seekEvs_right f self main s).mpr (h s hs) c hc
    rw [← h1]
    constructor
    · intro h c hc; exact h c (List.mem_append_left _ hc)
    · intro h c hc
      rcases List.mem_append.mp hc with hc | hc
      · exact h c hc
      · cases main with
        | false => cases hc
        | true =>
          simp only [if_true, List.mem_append] at hc
          rcases hc with (((((hc | hc) | hc) | hc) | hc) | hc) | hc
          · exact unref_no_err _ _ _ _ hc
          · exact unref_no_err _ _ _ _ hc
          · exact unref_no_err _ _ _ _ hc
          · exact unref_no_err _ _ _ _ hc
          · exact unref_no_err _ _ _ _ hc
          · exact unref_no_err _ _ _ _ hc
          · exact unref2_no_err _ _ _ _ hc
  · have h1 : .warn 0x861 ∉ entries.flatMap (seekEvs f self main) := by
      intro hc
      obtain ⟨s, _, hc⟩ := List.mem_flatMap.mp hc
      exact seekEvs_no_861 f self main s hc
    rw [List.mem_append]
    cases main with
    | false => simp [h1]
    | true =>
      simp only [if_true, List.mem_append, h1, false_or, unref_iff, unref2_iff, true_and, or_assoc]
      rfl

/-- A SeekHead with the right place of Info and the wrong one of Tracks; the Tags are not mentioned. -/
example : checkSeekHead { info := some 100, tracks := some 200, tags := some 900 } 50 true [⟨idInfo, some 100⟩, ⟨idTracks, some 201⟩]
    = [.err 0x65, .warn 0x861] := by decide +kernel

/-- C130, counterexample: an entry of the first SeekHead that gives a wrong place (7, not 300) for the second one. -/
theorem C130_second_counterexample :
    ∃ (f : Found) (s : Seek), s.id = 0x114D9B74 ∧ f.seekHead = some 50 ∧ f.seekHead2 = some 300 ∧ s.pos = some 7
      ∧ checkSeekHead f 50 true [s] = [] :=
  ⟨{ seekHead := some 50, seekHead2 := some 300 }, ⟨idSeekHead, some 7⟩, rfl, rfl, rfl, rfl, by decide +kernel⟩

/-- C130, counterexample: an entry for a Cluster in a file without Clusters. -/
theorem C130_cluster_counterexample :
    ∃ (f : Found) (s : Seek), s.id = 0x1F43B675 ∧ f.clusters = [] ∧ s.pos = some 7 ∧ checkSeekHead f 50 true [s] = [] :=
  ⟨{ seekHead := some 50 }, ⟨idCluster, some 7⟩, rfl, rfl, rfl, by decide +kernel⟩

/-! ### C131 -/

/-- C131, what holds: for every list of Clusters, `CheckPosSize` reports 0xA0 exactly if the first has a PrevSize, 0xA1
exactly if a PrevSize is not the distance from the start of the Cluster before, 0xA2 exactly if a Position is not the
distance from the start of the Segment's data, and nothing else.

Not true, see the counterexample: that 0xA1 is reported exactly if PrevSize is not the size of the Cluster before. -/
theorem C131_places_partial (data : Int) (cs : List Cluster) (e : Ev) :
    e ∈ checkPosSize data none cs ↔
      (e = .err 0xA0 ∧ ∃ c r, cs = c :: r ∧ c.prevSize ≠ none)
      ∨ (e = .err 0xA1 ∧ ∃ l a b r n, cs = l ++ a :: b :: r ∧ b.prevSize = some n ∧ n ≠ b.pos - a.pos)
      ∨ (e = .err 0xA2 ∧ ∃ c ∈ cs, ∃ n, c.position = some n ∧ n ≠ c.pos - data) := by
  have hP : ∀ c : Cluster, e ∈ (match c.position with
      | none => []
      | some n => if n ≠ c.pos - data then [Ev.err 0xA2] else []) ↔ e = .err 0xA2 ∧ ∃ n, c.position = some n ∧ n ≠ c.pos - data := by
    intro c
    cases c.position with
    | none => simp
    | some n => dsimp only; rw [mem_ite]; simp [and_comm]
  have gen : ∀ (cs : List Cluster) (p : Int), e ∈ checkPosSize data (some p) cs ↔
      (e = .err 0xA1 ∧ ((∃ c r n, cs = c :: r ∧ c.prevSize = some n ∧ n ≠ c.pos - p)
        ∨ ∃ l a b r n, cs = l ++ a :: b :: r ∧ b.prevSize = some n ∧ n ≠ b.pos - a.pos))
      ∨ (e = .err 0xA2 ∧ ∃ c ∈ cs, ∃ n, c.position = some n ∧ n ≠ c.pos - data) := by
    intro cs
    induction cs with
    | nil => intro p; simp [checkPosSize]
    | cons c cs ih =>
      intro p
      have hS : e ∈ (match c.prevSize with
          | none => []
          | some n => if n ≠ c.pos - p then [Ev.err 0xA1] else []) ↔ e = .err 0xA1 ∧ ∃ n, c.prevSize = some n ∧ n ≠ c.pos - p := by
        cases c.prevSize with
        | none => simp
        | some n => dsimp only; rw [mem_ite]; simp [and_comm]
      rw [checkPosSize, List.mem_append, List.mem_append]
      refine Iff.trans (or_congr (or_congr hS (hP c)) (ih c.pos)) ?_
      constructor
      · rintro ((⟨h, n, h1⟩ | ⟨h, n, h1⟩) | ⟨h, ⟨c', r, n, rfl, h1⟩ | ⟨l, a, b, r, n, rfl, h1⟩⟩ | ⟨h, c', hc', h1⟩)
        · exact .inl ⟨h, .inl ⟨c, cs, n, rfl, h1⟩⟩
        · exact .inr ⟨h, c, List.mem_cons_self, n, h1⟩
        · exact .inl ⟨h, .inr ⟨[], c, c', r, n, rfl, h1⟩⟩
        · exact .inl ⟨h, .inr ⟨c :: l, a, b, r, n, rfl, h1⟩⟩
        · exact .inr ⟨h, c', List.mem_cons_of_mem _ hc', h1⟩
      · rintro (⟨h, ⟨c', r, n, hx, h1⟩ | ⟨l, a, b, r, n, hx, h1⟩⟩ | ⟨h, c', hc', n, h1⟩)
        · injection hx with hx _
          subst hx
          exact .inl (.inl ⟨h, n, h1⟩)
        · cases l with
          | nil =>
            injection hx with hx1 hx2
            subst hx1
            exact .inr (.inl ⟨h, .inl ⟨b, r, n, hx2, h1⟩⟩)
          | cons y l =>
            injection hx with hx1 hx2
            exact .inr (.inl ⟨h, .inr ⟨l, a, b, r, n, hx2, h1⟩⟩)
        · rcases List.mem_cons.mp hc' with rfl | hc'
          · exact .inl (.inr ⟨h, n, h1⟩)
          · exact .inr (.inr ⟨h, c', hc', n, h1⟩)
  cases cs with
  | nil => simp [checkPosSize]
  | cons c cs =>
    have hS : e ∈ (match c.prevSize with
        | none => []
        | some n => [Ev.err 0xA0]) ↔ e = .err 0xA0 ∧ c.prevSize ≠ none := by
      cases c.prevSize with
      | none => simp
      | some n => simp
    rw [checkPosSize, List.mem_append, List.mem_append]
    refine Iff.trans (or_congr (or_congr hS (hP c)) (gen cs c.pos)) ?_
    constructor
    · rintro ((⟨h, h1⟩ | ⟨h, n, h1⟩) | ⟨h, ⟨c', r, n, rfl, h1⟩ | ⟨l, a, b, r, n, rfl, h1⟩⟩ | ⟨h, c', hc', h1⟩)
      · exact .inl ⟨h, c, cs, rfl, h1⟩
      · exact .inr (.inr ⟨h, c, List.mem_cons_self, n, h1⟩)
      · exact .inr (.inl ⟨h, [], c, c', r, n, rfl, h1⟩)
      · exact .inr (.inl ⟨h, c :: l, a, b, r, n, rfl, h1⟩)
      · exact .inr (.inr ⟨h, c', List.mem_cons_of_mem _ hc', h1⟩)
    · rintro (⟨h, c', r, hx, h1⟩ | ⟨h, l, a, b, r, n, hx, h1⟩ | ⟨h, c', hc', n, h1⟩)
      · injection hx with hx _
        subst hx
        exact .inl (.inl ⟨h, h1⟩)
      · cases l with
        | nil =>
          injection hx with hx1 hx2
          subst hx1
          exact .inr (.inl ⟨h, .inl ⟨b, r, n, hx2, h1⟩⟩)
        | cons y l =>
          injection hx with hx1 hx2
          exact .inr (.inl ⟨h, .inr ⟨l, a, b, r, n, hx2, h1⟩⟩)
      · rcases List.mem_cons.mp hc' with rfl | hc'
        · exact .inl (.inr ⟨h, n, h1⟩)
        · exact .inr (.inr ⟨h, c', hc', n, h1⟩)

/-- Two Clusters, the second with the right PrevSize and a wrong Position. -/
example : checkPosSize 40 none [{ pos := 100, size := 300, ts := 0 }, { pos := 400, size := 200, ts := 1, prevSize := some 300, position := some 361 }]
    = [.err 0xA2] := by decide +kernel

/-- C131, counterexample: with a Void of 50 bytes between two Clusters a right PrevSize is reported as an error, a wrong one is not. -/
theorem C131_places_counterexample :
    ∃ a b : Cluster, a.pos + a.size + 50 = b.pos ∧ b.prevSize = some a.size ∧ .err 0xA1 ∈ checkPosSize 40 none [a, b]
      ∧ checkPosSize 40 none [a, { b with prevSize := some (a.size + 50) }] = [] :=
  ⟨{ pos := 100, size := 300, ts := 0 }, { pos := 450, size := 200, ts := 1, prevSize := some 300 }, by decide, rfl, by decide +kernel, by decide +kernel⟩

/-! ### C132 -/

theorem blockAt_none_iff (ts : Int) (k : Nat) (hk : k < 32768) (bs : List Blk) :
    Mkclean.blockAt ts (k : Int) (bs.map fun b => ⟨b.time, b.track⟩) = none ↔ ∀ b ∈ bs, ¬ (b.track = k ∧ b.time = ts) := by
  have hs : Mkclean.s16 (k : Int) = k := by unfold Mkclean.s16; simp only [Int.reducePow]; omega
  induction bs with
  | nil => simp [Mkclean.blockAt]
  | cons b bs ih =>
    simp only [List.map_cons, Mkclean.blockAt, hs]
    by_cases h : (b.track : Int) = k ∧ b.time = ts
    · rw [if_pos h]
      simp only [reduceCtorEq, false_iff]
      intro hall
      exact hall b List.mem_cons_self ⟨by omega, h.2⟩
    · rw [if_neg h, Option.map_eq_none_iff, List.forall_mem_cons]
      refine Iff.trans ih ?_
      constructor
      · intro h2; exact ⟨fun h3 => h ⟨by omega, h3.2⟩, h2⟩
      · intro h2; exact h2.2

/-- C132, what holds: if the cue points have times and tracks below 32768, `CheckCueEntries` reports 0x312 exactly if for some
cue point there is no block of its track with its time, warns with 0x311 exactly if a cue point is earlier than the one
before, and reports nothing else. The time of a cue point is CueTime times the TimestampScale.

Not true, see the counterexample: the first, with tracks from 32768 on. -/
theorem C132_cues_partial (scale : Int) (cs : List Cluster) (cues : List Cue)
    (hc : ∀ c ∈ cues, ∃ t : Int, ∃ k : Nat, c.time = some t ∧ c.track = some (k : Int) ∧ k < 32768 ∧ 0 ≤ t * scale ∧ t * scale < 2 ^ 63 - 1) (e : Ev) :
    e ∈ checkCues scale cs invalidTs cues ↔
      (e = .err 0x312 ∧ ∃ c ∈ cues, ∀ t k, c.time = some t → c.track = some k →
          ¬ ∃ cl ∈ cs, ∃ b ∈ cl.blocks, (b.track : Int) = k ∧ b.time = t * scale)
      ∨ (e = .warn 0x311 ∧ ∃ l a b r t u, cues = l ++ a :: b :: r ∧ a.time = some t ∧ b.time = some u ∧ u * scale < t * scale) := by
  have gen : ∀ (cues : List Cue) (prev : Int), (∀ c ∈ cues, ∃ t : Int, ∃ k : Nat, c.time = some t ∧ c.track = some (k : Int) ∧ k < 32768 ∧ 0 ≤ t * scale ∧ t * scale < 2 ^ 63 - 1) →
      (e ∈ checkCues scale cs prev cues ↔
      (e = .err 0x312 ∧ ∃ c ∈ cues, ∀ t k, c.time = some t → c.track = some k →
          ¬ ∃ cl ∈ cs, ∃ b ∈ cl.blocks, (b.track : Int) = k ∧ b.time = t * scale)
      ∨ (e = .warn 0x311 ∧ ((prev ≠ invalidTs ∧ ∃ c r t, cues = c :: r ∧ c.time = some t ∧ t * scale < prev)
          ∨ ∃ l a b r t u, cues = l ++ a :: b :: r ∧ a.time = some t ∧ b.time = some u ∧ u * scale < t * scale))) := by
    intro cues
    induction cues with
    | nil => intro prev _; simp [checkCues]
    | cons c cues ih =>
      intro prev hc
      obtain ⟨t, k, ht, hk, hk2, h0, h63⟩ := hc c List.mem_cons_self
      have hts : cueTs scale c = t * scale := by
        unfold cueTs; rw [ht]; exact s64_of_range _ (by omega) (by omega)
      have htr : cueTrack c = k := by unfold cueTrack; rw [hk]; dsimp only; omega
      have hall : (cs.all fun cl => (Mkclean.blockAt (t * scale) k (cl.blocks.map fun b => ⟨b.time, b.track⟩)).isNone) = true
          ↔ ¬ ∃ cl ∈ cs, ∃ b ∈ cl.blocks, (b.track : Int) = k ∧ b.time = t * scale := by
        rw [List.all_eq_true]
        constructor
        · rintro h ⟨cl, hcl, b, hb, h1, h2⟩
          have := h cl hcl
          rw [Option.isNone_iff_eq_none, blockAt_none_iff _ _ hk2] at this
          exact this b hb ⟨by omega, h2⟩
        · intro h cl hcl
          rw [Option.isNone_iff_eq_none, blockAt_none_iff _ _ hk2]
          rintro b hb ⟨h1, h2⟩
          exact h ⟨cl, hcl, b, hb, by omega, h2⟩
      have hne : t * scale ≠ invalidTs := by
        intro h; rw [h] at h63; exact absurd h63 (by decide)
      rw [checkCues]
      rw [hts, htr, List.mem_append, List.mem_append, mem_ite, mem_ite, hall, ih _ fun x hx => hc x (List.mem_cons_of_mem _ hx)]
      constructor
      · rintro ((⟨⟨h1, h2⟩, h⟩ | ⟨h1, h⟩) | ⟨h, x, hx, h1⟩ | ⟨h, ⟨_, x, r, u, rfl, h1, h2⟩ | ⟨l, a, b, r, u, w, rfl, h1⟩⟩)
        · exact .inr ⟨h, .inl ⟨h2, c, cues, t, rfl, ht, h1⟩⟩
        · refine .inl ⟨h, c, List.mem_cons_self, ?_⟩
          intro t' k' e1 e2
          rw [ht] at e1; rw [hk] at e2; cases e1; cases e2
          exact h1
        · exact .inl ⟨h, x, List.mem_cons_of_mem _ hx, h1⟩
        · exact .inr ⟨h, .inr ⟨[], c, x, r, t, u, rfl, ht, h1, h2⟩⟩
        · exact .inr ⟨h, .inr ⟨c :: l, a, b, r, u, w, rfl, h1⟩⟩
      · rintro (⟨h, x, hx, h1⟩ | ⟨h, ⟨h1, x, r, u, hx, h2, h3⟩ | ⟨l, a, b, r, u, w, hx, h1, h2, h3⟩⟩)
        · rcases List.mem_cons.mp hx with rfl | hx
          · exact .inl (.inr ⟨h1 t k ht hk, h⟩)
          · exact .inr (.inl ⟨h, x, hx, h1⟩)
        · injection hx with hx _
          subst hx
          rw [ht] at h2; cases h2
          exact .inl (.inl ⟨⟨h3, h1⟩, h⟩)
        · cases l with
          | nil =>
            injection hx with hx1 hx2
            subst hx1
            rw [ht] at h1; cases h1
            exact .inr (.inr ⟨h, .inl ⟨hne, b, r, w, hx2, h2, h3⟩⟩)
          | cons y l =>
            injection hx with hx1 hx2
            exact .inr (.inr ⟨h, .inr ⟨l, a, b, r, u, w, hx2, h1, h2, h3⟩⟩)
  rw [gen cues invalidTs hc]
  simp

/-- Two cue points out of order, the first without a block. -/
example : checkCues 1000000 [{ pos := 9, size := 9, ts := 5, blocks := [⟨1, true, false, 5000000, 1⟩] }] invalidTs [⟨some 7, some 1⟩, ⟨some 5, some 1⟩]
    = [.err 0x312, .warn 0x311] := by decide +kernel

/-- C132, counterexample: a cue point for a block of the track 40000 is reported although the block is there. -/
theorem C132_cues_counterexample :
    ∃ (c : Cluster) (cue : Cue), cue = ⟨some 5, some 40000⟩ ∧ (∃ b ∈ c.blocks, b.track = 40000 ∧ b.time = 5 * 1000000)
      ∧ checkCues 1000000 [c] invalidTs [cue] = [.err 0x312] :=
  ⟨{ pos := 9, size := 9, ts := 5, blocks := [⟨40000, true, false, 5000000, 1⟩] }, ⟨some 5, some 40000⟩, rfl, by decide, by decide +kernel⟩

end Verif.Mkvalidator
