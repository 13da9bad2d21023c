import Verif.Props.Tracks
import Verif.Core.StrLemmas
/-!
What mkclean does to the list of tracks: the tracks that are left are fit to be written (C143), numbers and UIDs stay different (C145),
combined tracks name tracks that exist (C146), the main track (C147), the cleaning ends (C148).
-/
set_option linter.unusedSimpArgs false
namespace Verif.Mkclean.Tracks
open Verif Verif.Mkv

/-! ### C143: the tracks that are left -/

/-- A name in capitals. -/
def capitals (s : Bytes) : Bytes := s.map fun c => if 97 ≤ c ∧ c ≤ 122 then c - 32 else c

/-- A track WebM allows: video of VP8 or VP9, audio of Vorbis or Opus. -/
def WebM (t : Track) : Prop :=
  ∃ c ty, t.codec = some c ∧ t.type = some ty ∧
    ((ty % 2 ^ 32 = 1 ∧ capitals c ∈ [vp8, vp9]) ∨ (ty % 2 ^ 32 = 2 ∧ capitals c ∈ [vorbis, opus]))

/-- A track that may be written with that profile (8 is WebM). -/
structure Fit (files : Option (List (Option Int))) (profile : Nat) (t : Track) : Prop where
  number : t.number ≠ none
  type : t.type ≠ none
  codec : t.codec ≠ none ∨ t.ops ≠ []
  rate : ∀ a, t.audio = some a → ∃ f, a.freq = some f ∧ f ≠ 0
  links : ∀ l ∈ t.links, ∃ fs, files = some fs ∧ some l ∈ fs
  webm : profile = 8 → WebM t

theorem upper_chr (c : UInt8) : Core.asciiUpper (Core.chr c) = Core.chr (if 97 ≤ c ∧ c ≤ 122 then c - 32 else c) := by
  revert c
  apply Core.all_u8
  decide +kernel

theorem chr_inj {a b : UInt8} (h : Core.chr a = Core.chr b) : a = b := by
  have ha := a.toNat_lt
  have hb := b.toNat_lt
  unfold Core.chr at h
  apply UInt8.toNat_inj.mp
  split at h <;> split at h <;> omega

theorem capitals_isame {a b : Bytes} (h : capitals a = capitals b) : Core.isame a b = true := by
  rw [Core.isame_eq]
  have e : ∀ s : Bytes, Core.uppers s = (capitals s).map Core.chr := by
    intro s
    unfold Core.uppers capitals
    rw [List.map_map]
    exact List.map_congr_left fun c _ => upper_chr c
  rw [e, e, h]

theorem isame_capitals {a b : Bytes} (h : Core.isame a b = true) : capitals a = capitals b := by
  have hu := (Core.isame_eq a b).mp h
  unfold Core.uppers at hu
  have : (capitals a).map Core.chr = (capitals b).map Core.chr := by
    unfold capitals
    rw [List.map_map, List.map_map]
    have e : ∀ s : Bytes, (s.map fun c => Core.asciiUpper (Core.chr c)) = s.map (Core.chr ∘ fun c => if 97 ≤ c ∧ c ≤ 122 then c - 32 else c) :=
      fun s => List.map_congr_left fun c _ => upper_chr c
    rw [← e, ← e]
    exact hu
  have inj : ∀ x y : Bytes, x.map Core.chr = y.map Core.chr → x = y := by
    intro x
    induction x with
    | nil => intro y h; cases y with
      | nil => rfl
      | cons _ _ => cases h
    | cons a x ih => intro y h; cases y with
      | nil => cases h
      | cons b y =>
        simp only [List.map_cons, List.cons.injEq] at h
        rw [chr_inj h.1, ih y h.2]
  exact inj _ _ this

theorem toInt_mod {x k : Int} (h : toInt x = k) (hk : 0 ≤ k) : x % 2 ^ 32 = k := by
  unfold toInt at h
  simp only [Int.reducePow] at *
  omega

theorem webm_spec {profile : Nat} {type : Int} {codec : Option Bytes} (e : webmOk profile type codec = .ok true) (h8 : profile = 8) :
    ∃ c, codec = some c ∧ ((type = 1 ∧ capitals c ∈ [vp8, vp9]) ∨ (type = 2 ∧ capitals c ∈ [vorbis, opus])) := by
  unfold webmOk at e
  rw [if_pos h8] at e
  cases codec with
  | none => cases e
  | some c =>
    simp only [Out.ok.injEq, Bool.or_eq_true, Bool.and_eq_true, beq_iff_eq] at e
    refine ⟨c, rfl, ?_⟩
    rcases e with ⟨h1, h2 | h2⟩ | ⟨h1, h2 | h2⟩
    · exact .inl ⟨h1, by rw [isame_capitals h2]; decide +kernel⟩
    · exact .inl ⟨h1, by rw [isame_capitals h2]; decide +kernel⟩
    · exact .inr ⟨h1, by rw [isame_capitals h2]; decide +kernel⟩
    · exact .inr ⟨h1, by rw [isame_capitals h2]; decide +kernel⟩

theorem audio_rate {g : Int} {o : Option Audio} {a : Audio} (e : cleanAudio g o = .ok (some a)) : ∃ f, a.freq = some f ∧ f ≠ 0 := by
  unfold cleanAudio at e
  cases o with
  | none => cases e
  | some b =>
    simp only at e
    by_cases hz : b.freq.getD 8000 = 0 ∧ g = 0
    · rw [if_pos hz] at e; cases e
    · rw [if_neg hz] at e
      cases e
      refine ⟨_, rfl, ?_⟩
      by_cases hf : b.freq.getD 8000 = 0
      · rw [if_pos hf]; exact fun hg => hz ⟨hf, hg⟩
      · rw [if_neg hf]; exact hf

theorem kept_fit {cfg : Config} {profile : Nat} {t t' : Track} (k : KeptAs cfg profile t t') (hn : t.number ≠ none)
    (hc : t.codec ≠ none ∨ t.ops ≠ []) : Fit cfg.attachments profile t' := by
  obtain ⟨ty, hty, hw⟩ := k.webm
  refine ⟨by rw [k.number]; exact hn, by rw [k.type, hty]; simp, by rw [k.codec, k.ops]; exact hc, ?_, ?_, ?_⟩
  · intro a ha
    have := k.audio
    rw [ha] at this
    exact audio_rate this
  · intro l hl
    rw [k.links] at hl
    unfold cleanLinks at hl
    rw [List.mem_filter] at hl
    cases hf : cfg.attachments with
    | none => rw [hf] at hl; cases hl.2
    | some fs =>
      rw [hf] at hl
      exact ⟨fs, rfl, List.contains_iff_mem.mp hl.2⟩
  · intro h8
    obtain ⟨c, h1, h2⟩ := webm_spec hw h8
    refine ⟨c, ty, by rw [k.codec]; exact h1, by rw [k.type]; exact hty, ?_⟩
    rcases h2 with ⟨h2, h3⟩ | ⟨h2, h3⟩
    · exact .inl ⟨toInt_mod h2 (by decide), h3⟩
    · exact .inr ⟨toInt_mod h2 (by decide), h3⟩

theorem Fit.mono {fs : Option (List (Option Int))} {p q : Nat} {t : Track} (f : Fit fs p t) (h : q = p ∨ q = 4) : Fit fs q t :=
  ⟨f.number, f.type, f.codec, f.rate, f.links, fun h8 => f.webm (by rcases h with h | h <;> omega)⟩

theorem C143_fit_tracks (cfg : Config) (fuel : Nat) (side : Side) (ts : List Track) (r : Side × List Track)
    (e : cleanTracks cfg fuel side ts = .ok r) : r.2 ≠ [] ∧ ∀ t ∈ r.2, Fit cfg.attachments r.1.profile t := by
  obtain ⟨s, hl, hp, hne⟩ := cleanTracks_ok e
  refine ⟨hne, ?_⟩
  rw [hp]
  refine cleanLoop_inv (fun side done _ => ∀ t ∈ done, Fit cfg.attachments side.profile t) ?_ ?_ ?_ fuel side [] ts (s, r.2) (fun _ h => nomatch h) hl
  · intro side done t todo side' hI e
    rcases cleanTrack_ok e with ⟨_, hs⟩ | ⟨_, hf, _⟩ | ⟨_, _, _, _, hf, _⟩
    · exact fun t ht => (hI t ht).mono hs
    · cases hf
    · cases hf
  · intro side done t todo side' t' hI e
    rcases cleanTrack_ok e with ⟨hf, _⟩ | ⟨t2, hf, hk, hn, hc, hs, _⟩ | ⟨_, _, _, _, hf, _⟩
    · cases hf
    · cases hf
      intro x hx
      rw [List.mem_append, List.mem_singleton] at hx
      rcases hx with hx | rfl
      · exact (hI x hx).mono hs
      · exact kept_fit hk hn hc
    · cases hf
  · intro side done t todo side' ts hI e x hx
    cases hx

/-! ### C145: numbers and UIDs -/

/-- The numbers of some tracks are different. -/
def Distinct (f : Track → Option Int) (ts : List Track) : Prop := (ts.filterMap f).Nodup

theorem insert_at {l m : List Int} {n : Int} (h : (l ++ m).Nodup) (hn : n ∉ l ++ m) : (l ++ n :: m).Nodup := by
  rw [List.nodup_append] at h ⊢
  rw [List.mem_append] at hn
  refine ⟨h.1, List.nodup_cons.mpr ⟨fun hc => hn (.inr hc), h.2.1⟩, ?_⟩
  intro a ha b hb
  rw [List.mem_cons] at hb
  rcases hb with rfl | hb
  · rintro rfl; exact hn (.inl ha)
  · exact h.2.2 a ha b hb

theorem C145_distinct (cfg : Config) (fuel : Nat) (side : Side) (ts : List Track) (r : Side × List Track)
    (hn : Distinct Track.number ts) (hu : Distinct Track.uid ts)
    (e : cleanTracks cfg fuel side ts = .ok r) : Distinct Track.number r.2 ∧ Distinct Track.uid r.2 := by
  obtain ⟨s, hl, hp, hne⟩ := cleanTracks_ok e
  have key := cleanLoop_inv (cfg := cfg) (fun _ done todo => Distinct Track.number (done ++ todo) ∧ Distinct Track.uid (done ++ todo)) ?_ ?_ ?_
    fuel side [] ts (s, r.2) ⟨hn, hu⟩ hl
  · simp only [List.append_nil] at key; exact key
  · intro side done t todo side' hI _
    have sub : (done ++ todo).Sublist (done ++ t :: todo) := List.Sublist.append_left (List.sublist_cons_self _ _) _
    exact ⟨hI.1.sublist (sub.filterMap _), hI.2.sublist (sub.filterMap _)⟩
  · intro side done t todo side' t' hI e
    rcases cleanTrack_ok e with ⟨hf, _⟩ | ⟨t2, hf, hk, _⟩ | ⟨_, _, _, _, hf, _⟩
    · cases hf
    · cases hf
      unfold Distinct at hI ⊢
      simp only [List.append_assoc, List.cons_append, List.nil_append, List.filterMap_append, List.filterMap_cons, hk.number, hk.uid] at hI ⊢
      exact hI
    · cases hf
  · intro side done t todo side' ts hI e
    rcases cleanTrack_ok e with ⟨hf, _⟩ | ⟨_, hf, _⟩ | ⟨ts2, v, v1, x, hf, _, _, _, _, _, _, hcomb⟩
    · cases hf
    · cases hf
    · cases hf
      obtain ⟨c⟩ := combine_ok hcomb
      have hfn := c.freshNumber
      have hfu := c.freshUid
      have hpl := c.plane
      have notIn : ∀ {f : Track → Option Int} {L : List Track} {n : Int}, (∀ x ∈ L, f x ≠ some n) → n ∉ L.filterMap f := by
        intro f L n h hc
        obtain ⟨l, hl, hl2⟩ := List.mem_filterMap.mp hc
        exact h l hl hl2
      have e1 := notIn hfn
      have e2 := notIn hfu
      have hasN : t.number = some c.tn := c.hasNumber
      have hasU : t.uid = some c.tu := c.hasUid
      rw [c.todoEq] at hI
      unfold Distinct at hI ⊢
      rw [List.nil_append]
      constructor
      · have : ts.filterMap Track.number = (done ++ { t with video := some (v1.setEyes true 0) } :: c.mid ++ c.o :: c.after).filterMap Track.number ++ c.number :: [] := by
          refine (congrArg (List.filterMap Track.number) c.tsEq).trans ?_
          simp only [List.append_assoc, List.cons_append, List.nil_append, List.filterMap_append, List.filterMap_cons, List.filterMap_nil, combined, hasN]
          cases c.o.number <;> simp only [List.append_assoc, List.cons_append, List.nil_append]
        rw [this]
        refine insert_at ?_ (by rw [List.append_nil]; exact e1)
        simp only [List.append_assoc, List.cons_append, List.nil_append, List.append_nil, List.filterMap_append, List.filterMap_cons] at hI ⊢
        exact hI.1
      · have : ts.filterMap Track.uid =
            ((done ++ { t with video := some (v1.setEyes true 0) } :: c.mid).filterMap Track.uid ++ c.pu :: c.after.filterMap Track.uid) ++ c.uid :: [] := by
          refine (congrArg (List.filterMap Track.uid) c.tsEq).trans ?_
          simp only [List.append_assoc, List.cons_append, List.nil_append, List.filterMap_append, List.filterMap_cons, List.filterMap_nil, combined, hasU]
        rw [this]
        rw [List.filterMap_append, List.filterMap_cons] at e2
        have orig : ((done ++ { t with video := some (v1.setEyes true 0) } :: c.mid).filterMap Track.uid ++
            (match c.o.uid with
              | none => c.after.filterMap Track.uid
              | some b => b :: c.after.filterMap Track.uid)).Nodup := by
          have := hI.2
          simp only [List.append_assoc, List.cons_append, List.nil_append, List.filterMap_append, List.filterMap_cons, hasU] at this ⊢
          cases hou : c.o.uid <;> simp only [hou] at this ⊢ <;> exact this
        rcases hpl with hpl | ⟨h0, h1, h2⟩
        · rw [hpl] at e2 orig
          refine insert_at ?_ ?_
          · rw [List.append_nil]; exact orig
          · rw [List.append_nil]; exact e2
        · have e3 := notIn h2
          rw [List.filterMap_append, List.filterMap_cons] at e3
          rw [h0] at e2 e3 orig
          refine insert_at ?_ ?_
          · rw [List.append_nil]
            exact insert_at orig e3
          · rw [List.append_nil]
            intro hc
            rw [List.mem_append, List.mem_cons] at hc
            rw [List.mem_append] at e2
            rcases hc with hc | hc | hc
            · exact e2 (.inl hc)
            · exact h1 hc.symm
            · exact e2 (.inr hc)

/-! ### C144: files of the new profiles -/

/-- A track that stays with that profile (8 is WebM). -/
def Usable (profile : Nat) (t : Track) : Prop :=
  t.number ≠ none ∧ (t.codec ≠ none ∨ t.ops ≠ []) ∧ t.type ≠ none ∧ (∀ v, t.video = some v → ¬ Blank v) ∧ (profile = 8 → WebM t)

/-- A track mkclean does not crash on: a number that is not 0, both pixel sizes, no size of more than 31 bits, a sampling frequency, and
for WebM a codec. -/
structure Sound (cfg : Config) (profile : Nat) (t : Track) : Prop where
  number : ∀ n, t.number = some n → n % 2 ^ 32 ≠ 0
  video : ∀ v, t.video = some v → Sane v
  audio : ∀ a, t.audio = some a → a.freq = some 0 → cfg.guess t.codec t.rest ≠ 0
  codec : profile = 8 → t.codec ≠ none

/-- An attachment with that UID exists. -/
def Linked (files : Option (List (Option Int))) (l : Int) : Prop := ∃ fs, files = some fs ∧ some l ∈ fs

open Classical in
/-- What a track that stays becomes. -/
structure Cleaned (cfg : Config) (t t' : Track) : Prop where
  number : t'.number = t.number
  uid : t'.uid = t.uid
  type : t'.type = t.type
  codec : t'.codec = t.codec
  ops : t'.ops = t.ops
  flag : t'.flagEnabled = t.flagEnabled
  rest : t'.rest = t.rest
  links : t'.links = t.links.filter fun l => decide (Linked cfg.attachments l)
  silent : t.audio = none → t'.audio = none
  audio : ∀ a, t.audio = some a → ∃ a' f, t'.audio = some a' ∧ a'.freq = some f ∧
    f = (if a.freq = some 0 then cfg.guess t.codec t.rest else a.freq.getD 8000) ∧ a'.outFreq.getD f = a.outFreq.getD f
  blind : t.video = none → t'.video = none
  video : ∀ v, t.video = some v → ∃ v', t'.video = some v' ∧ v'.pixelW = v.pixelW ∧ v'.pixelH = v.pixelH ∧ v'.stereo = v.stereo ∧
    v'.oldStereo = v.oldStereo ∧ (v.uncropped → SameLook v v')

/-- Two lists related place by place. -/
inductive Each {α β : Type} (R : α → β → Prop) : List α → List β → Prop
  | nil : Each R [] []
  | cons {a b as bs} : R a b → Each R as bs → Each R (a :: as) (b :: bs)

open Classical in
theorem links_spec (files : Option (List (Option Int))) (links : List Int) :
    cleanLinks files links = links.filter fun l => decide (Linked files l) := by
  unfold cleanLinks
  apply List.filter_congr
  intro l _
  cases files with
  | none =>
    symm
    exact decide_eq_false (by rintro ⟨_, h, _⟩; cases h)
  | some fs =>
    simp only
    by_cases h : some l ∈ fs
    · rw [List.contains_iff_mem.mpr h]
      symm
      exact decide_eq_true ⟨fs, rfl, h⟩
    · have : fs.contains (some l) = false := by
        cases hc : fs.contains (some l) with
        | false => rfl
        | true => exact absurd (List.contains_iff_mem.mp hc) h
      rw [this]
      symm
      exact decide_eq_false (by rintro ⟨_, hx, hy⟩; cases hx; exact h hy)

theorem mod_toInt {x k : Int} (h : x % 2 ^ 32 = k) (hk : k < 2 ^ 31) (_ : 0 ≤ k) : toInt x = k := by
  unfold toInt
  simp only [Int.reducePow] at *
  omega

theorem webm_total {profile : Nat} {t : Track} {ty : Int} (hty : t.type = some ty) (hc : profile = 8 → t.codec ≠ none) :
    ((profile = 8 → WebM t) → webmOk profile (toInt ty) t.codec = .ok true) ∧
    (¬ (profile = 8 → WebM t) → webmOk profile (toInt ty) t.codec = .ok false) := by
  by_cases h8 : profile = 8
  · cases hcod : t.codec with
    | none => exact absurd hcod (hc h8)
    | some c =>
      constructor
      · intro hw
        obtain ⟨c', ty', h1, h2, h3⟩ := hw h8
        rw [hcod] at h1
        rw [hty] at h2
        cases h1
        cases h2
        unfold webmOk
        rw [if_pos h8]
        simp only [Out.ok.injEq, Bool.or_eq_true, Bool.and_eq_true, beq_iff_eq]
        have cap : ∀ b, capitals b = b → capitals c = b → Core.isame c b = true := fun b hb hcb => capitals_isame (hcb.trans hb.symm)
        rcases h3 with ⟨h3, h4⟩ | ⟨h3, h4⟩
        · simp only [List.mem_cons, List.not_mem_nil, or_false] at h4
          refine .inl ⟨mod_toInt h3 (by decide) (by decide), ?_⟩
          rcases h4 with h4 | h4
          · exact .inl (cap _ (by decide +kernel) h4)
          · exact .inr (cap _ (by decide +kernel) h4)
        · simp only [List.mem_cons, List.not_mem_nil, or_false] at h4
          refine .inr ⟨mod_toInt h3 (by decide) (by decide), ?_⟩
          rcases h4 with h4 | h4
          · exact .inl (cap _ (by decide +kernel) h4)
          · exact .inr (cap _ (by decide +kernel) h4)
      · intro hn
        cases hw : webmOk profile (toInt ty) (some c) with
        | ok b =>
          cases b with
          | false => rfl
          | true =>
            exfalso
            apply hn
            intro _
            obtain ⟨c', h1, h2⟩ := webm_spec hw h8
            refine ⟨c', ty, hcod.trans h1, hty, ?_⟩
            rcases h2 with ⟨h2, h3⟩ | ⟨h2, h3⟩
            · exact .inl ⟨toInt_mod h2 (by decide), h3⟩
            · exact .inr ⟨toInt_mod h2 (by decide), h3⟩
        | err => unfold webmOk at hw; rw [if_pos h8] at hw; cases hw
        | bad => unfold webmOk at hw; rw [if_pos h8] at hw; cases hw
        | hang => unfold webmOk at hw; rw [if_pos h8] at hw; cases hw
  · refine ⟨fun _ => ?_, fun hn => absurd (fun h => absurd h h8) hn⟩
    unfold webmOk
    rw [if_neg h8]

theorem noAlt {n : Int} (hn : n ≠ 0) : altSeen [] n = false := by
  unfold altSeen
  apply decide_eq_false
  simp only [List.length_nil]
  omega

theorem toInt_nonzero {n : Int} (h : n % 2 ^ 32 ≠ 0) : toInt n ≠ 0 := by
  unfold toInt
  simp only [Int.reducePow] at *
  omega

theorem audio_total {g : Int} {o : Option Audio} (h : ∀ a, o = some a → a.freq = some 0 → g ≠ 0) :
    ∃ o', cleanAudio g o = .ok o' ∧ (o = none → o' = none) ∧ ∀ a, o = some a → ∃ a' f, o' = some a' ∧ a'.freq = some f ∧
      f = (if a.freq = some 0 then g else a.freq.getD 8000) ∧ a'.outFreq.getD f = a.outFreq.getD f := by
  cases o with
  | none => exact ⟨none, rfl, fun _ => rfl, fun _ e => by cases e⟩
  | some a =>
    have iz : a.freq.getD 8000 = 0 ↔ a.freq = some 0 := by
      cases hf : a.freq with
      | none => simp
      | some f => simp
    unfold cleanAudio
    simp only
    rw [if_neg (by rintro ⟨h1, h2⟩; exact h a rfl (iz.mp h1) h2)]
    refine ⟨_, rfl, (by intro hc; cases hc), fun b hb => ?_⟩
    cases hb
    refine ⟨_, _, rfl, rfl, ite_iff' iz, ?_⟩
    simp only
    generalize (if a.freq.getD 8000 = 0 then g else a.freq.getD 8000) = f
    by_cases ho : a.outFreq = some f
    · rw [if_pos ho, ho]; rfl
    · rw [if_neg ho]
where
  ite_iff' {p q : Prop} [Decidable p] [Decidable q] {a b : Int} (h : p ↔ q) : (if p then a else b) = if q then a else b := by
    by_cases hp : p
    · rw [if_pos hp, if_pos (h.mp hp)]
    · rw [if_neg hp, if_neg (fun hq => hp (h.mpr hq))]

/-- One turn of the loop. -/
theorem turn {cfg : Config} {side : Side} {t : Track} (done todo : List Track) (hnew : cfg.oldSource = false) (halt : side.alt = [])
    (s : Sound cfg side.profile t) :
    (Usable side.profile t → ∃ t', Cleaned cfg t t' ∧ cleanTrack cfg side done t todo = .ok (side, .keep t')) ∧
    (¬ Usable side.profile t → cleanTrack cfg side done t todo = .ok (side, .drop)) := by
  have hside : ({ side with alt := [] } : Side) = side := by obtain ⟨⟩ := side; simp only at halt; subst halt; rfl
  unfold cleanTrack
  cases hn : t.number with
  | none => exact ⟨fun u => absurd hn u.1, fun _ => rfl⟩
  | some n =>
    simp only
    by_cases hc : t.codec = none ∧ t.ops = []
    · rw [if_pos hc]
      refine ⟨fun u => ?_, fun _ => rfl⟩
      rcases u.2.1 with h | h
      · exact absurd hc.1 h
      · exact absurd hc.2 h
    · rw [if_neg hc]
      have hco : t.codec ≠ none ∨ t.ops ≠ [] := by
        by_cases ha : t.codec = none
        · exact .inr fun hb => hc ⟨ha, hb⟩
        · exact .inl ha
      cases ht : t.type with
      | none => exact ⟨fun u => absurd ht u.2.2.1, fun _ => rfl⟩
      | some ty =>
        simp only
        have seen := noAlt (toInt_nonzero (s.number n hn))
        have hcl : clearAlt side.alt (toInt n) (toInt ty) = .ok [] := by
          unfold clearAlt
          rw [halt, seen]
          rfl
        rw [hcl]
        simp only [Out.bind, hside]
        obtain ⟨au, hau, haun, haus⟩ := audio_total (g := cfg.guess t.codec t.rest) s.audio
        have wt := webm_total ht s.codec
        have rest : ∀ v, 
            ((side.profile = 8 → WebM t) → cleanRest cfg side (toInt n) (toInt ty) { t with video := v } =
              .ok (side, .keep { t with video := v, audio := au, links := cleanLinks cfg.attachments t.links })) ∧
            (¬ (side.profile = 8 → WebM t) → cleanRest cfg side (toInt n) (toInt ty) { t with video := v } = .ok (side, .drop)) := by
          intro v
          unfold cleanRest forceAlt
          rw [halt, seen]
          simp only [Out.bind, Bool.false_eq_true, if_false]
          refine ⟨fun hw => ?_, fun hw => ?_⟩
          · rw [wt.1 hw]
            simp only [if_true, hau]
          · rw [wt.2 hw]
            simp only [Bool.false_eq_true, if_false]
        cases hv : t.video with
        | none =>
          have hself : ({ t with video := none } : Track) = t := by obtain ⟨⟩ := t; simp only at hv; subst hv; rfl
          have rn := rest none
          rw [hself] at rn
          simp only
          refine ⟨fun u => ⟨_, ?_, rn.1 u.2.2.2.2⟩, fun nu => rn.2 fun hw => nu ⟨by rw [hn]; simp, hco, by rw [ht]; simp, fun v e => (by rw [hv] at e; cases e), hw⟩⟩
          exact ⟨rfl, rfl, rfl, rfl, rfl, rfl, rfl, links_spec _ _, haun, haus, fun _ => rfl, fun v e => by rw [hv] at e; cases e⟩
        | some v =>
          have sv := s.video v hv
          have dt := cleanDisplay_total sv
          simp only
          by_cases hb : Blank v
          · rw [dt.1 hb]
            exact ⟨fun u => absurd hb (u.2.2.2.1 v hv), fun _ => rfl⟩
          · obtain ⟨v', e⟩ := dt.2 hb
            rw [e]
            simp only
            have rs := rest (some v')
            have cs : cleanStereo cfg side (toInt n) (toInt ty) done { t with video := some v' } v' todo =
                cleanRest cfg side (toInt n) (toInt ty) { t with video := some v' } := by
              unfold cleanStereo
              cases v'.eyes with
              | none => rfl
              | some x =>
                simp only
                rw [if_neg (by rw [hnew]; rintro ⟨h, _⟩; cases h)]
            rw [hn, ht] at cs
            rw [cs, ← hn, ← ht]
            refine ⟨fun u => ⟨_, ?_, rs.1 u.2.2.2.2⟩, fun nu => rs.2 fun hw => nu ⟨by rw [hn]; simp, hco, by rw [ht]; simp, fun w e => (by rw [hv] at e; cases e; exact hb), hw⟩⟩
            refine ⟨rfl, rfl, rfl, rfl, rfl, rfl, rfl, links_spec _ _, haun, haus, fun e => (by rw [hv] at e; cases e), fun w e2 => ?_⟩
            rw [hv] at e2
            cases e2
            have ⟨pw, hpw⟩ : ∃ w, v.pixelW = some w := by
              cases h : v.pixelW with
              | none => exact absurd h sv.pw
              | some w => exact ⟨w, rfl⟩
            have ⟨ph, hph⟩ : ∃ w, v.pixelH = some w := by
              cases h : v.pixelH with
              | none => exact absurd h sv.ph
              | some w => exact ⟨w, rfl⟩
            have b1 := sv.pw31 pw hpw
            have b2 := sv.ph31 ph hph
            have n1 : pw ≠ 0 := fun h => hb (.inl (by rw [hpw, h]))
            have n2 : ph ≠ 0 := fun h => hb (.inr (.inl (by rw [hph, h])))
            have pic : Picture v pw ph := ⟨hpw, hph, by omega, b1.2, by omega, b2.2, fun x hx => (sv.dw31 x hx).1, fun x hx => (sv.dh31 x hx).1⟩
            have same := display_same pic e
            refine ⟨v', rfl, same.1, same.2.1, same.2.2.1, same.2.2.2, fun uc => ?_⟩
            exact C139_aspect_ratio_partial v v' pw ph pic e (.inl ⟨by rw [uc.1]; rfl, by rw [uc.2.1]; rfl⟩) (.inl ⟨by rw [uc.2.2.1]; rfl, by rw [uc.2.2.2]; rfl⟩)

open Classical in
theorem loop_new {cfg : Config} {side : Side} (hnew : cfg.oldSource = false) (halt : side.alt = []) :
    ∀ (ts done : List Track) (fuel : Nat), (∀ t ∈ ts, Sound cfg side.profile t) → ts.length ≤ fuel →
      ∃ out, Each (Cleaned cfg) (ts.filter fun t => decide (Usable side.profile t)) out ∧ cleanLoop cfg fuel side done ts = .ok (side, done ++ out)
  | [], done, fuel, _, _ => ⟨[], .nil, by cases fuel <;> rw [cleanLoop, List.append_nil]⟩
  | t :: ts, done, 0, _, hf => absurd hf (by simp)
  | t :: ts, done, fuel + 1, hs, hf => by
    have tn := turn done ts hnew halt (hs t List.mem_cons_self)
    have hf' : ts.length ≤ fuel := by simp only [List.length_cons] at hf; omega
    by_cases hu : Usable side.profile t
    · obtain ⟨t', c, e⟩ := tn.1 hu
      obtain ⟨out, h1, h2⟩ := loop_new hnew halt ts (done ++ [t']) fuel (fun x hx => hs x (List.mem_cons_of_mem _ hx)) hf'
      refine ⟨t' :: out, ?_, ?_⟩
      · rw [List.filter_cons_of_pos (by exact decide_eq_true hu)]; exact .cons c h1
      · unfold cleanLoop
        rw [e]
        simp only [Out.bind, h2, List.append_assoc, List.cons_append, List.nil_append]
    · obtain ⟨out, h1, h2⟩ := loop_new hnew halt ts done fuel (fun x hx => hs x (List.mem_cons_of_mem _ hx)) hf'
      refine ⟨out, ?_, ?_⟩
      · rw [List.filter_cons_of_neg (by simpa using hu)]; exact h1
      · unfold cleanLoop
        rw [tn.2 hu]
        simp only [Out.bind, h2]

open Classical in
theorem C144_new_sources (cfg : Config) (side : Side) (ts : List Track) (fuel : Nat) (hnew : cfg.oldSource = false) (halt : side.alt = [])
    (hs : ∀ t ∈ ts, Sound cfg side.profile t) (hf : ts.length ≤ fuel) :
    ∃ out, Each (Cleaned cfg) (ts.filter fun t => decide (Usable side.profile t)) out ∧
      cleanTracks cfg fuel side ts = if out = [] then .err else .ok (side, out) := by
  obtain ⟨out, h1, h2⟩ := loop_new hnew halt ts [] fuel hs hf
  refine ⟨out, h1, ?_⟩
  have hside : ({ side with alt := [] } : Side) = side := by obtain ⟨⟩ := side; simp only at halt; subst halt; rfl
  unfold cleanTracks
  rw [h2]
  simp only [Out.bind, List.nil_append]
  by_cases ho : out = []
  · rw [if_pos ho, if_pos ho]
  · rw [if_neg ho, if_neg ho, halt]
    simp only [List.any_nil, Bool.false_eq_true, if_false, hside]


/-! ### C146: combined tracks -/

/-- Every plane of a combined track names a track of the list. -/
def Planes (ts : List Track) : Prop := ∀ t ∈ ts, ∀ op ∈ t.ops, ∀ p ∈ op, ∃ u ∈ ts, u.uid = some p.1

/-- A complete track with a picture that has a size. -/
structure Solid (t : Track) : Prop where
  number : t.number ≠ none
  codec : t.codec ≠ none ∨ t.ops ≠ []
  type : t.type ≠ none
  video : ∀ v, t.video = some v → ¬ Blank v ∧ ∃ w h, Picture v w h

theorem drop_why {cfg : Config} {side side' : Side} {done todo : List Track} {t : Track}
    (e : cleanTrack cfg side done t todo = .ok (side', .drop)) :
    t.number = none ∨ (t.codec = none ∧ t.ops = []) ∨ t.type = none ∨ (∃ v, t.video = some v ∧ cleanDisplay v = .ok none) ∨ side'.profile = 8 := by
  have webm : ∀ {s s' : Side} {n ty : Int} {t : Track}, cleanRest cfg s n ty t = .ok (s', .drop) → s'.profile = 8 := by
    intro s s' n ty t e
    obtain ⟨rfl, v, _, h⟩ := cleanRest_ok e
    rcases h with ⟨_, h⟩ | ⟨_, _, _, h⟩
    · unfold webmOk at h
      by_cases h8 : s'.profile = 8
      · exact h8
      · rw [if_neg h8] at h; cases h
    · cases h
  unfold cleanTrack at e
  cases hn : t.number with
  | none => exact .inl rfl
  | some tn =>
    rw [hn] at e
    simp only at e
    by_cases hc : t.codec = none ∧ t.ops = []
    · exact .inr (.inl hc)
    · rw [if_neg hc] at e
      cases ht : t.type with
      | none => exact .inr (.inr (.inl rfl))
      | some ty =>
        rw [ht] at e
        simp only at e
        obtain ⟨alt, ha, e⟩ := bind_ok e
        cases hv : t.video with
        | none =>
          rw [hv] at e
          exact .inr (.inr (.inr (.inr (webm e))))
        | some v =>
          rw [hv] at e
          simp only at e
          obtain ⟨o, ho, e⟩ := bind_ok e
          cases o with
          | none => exact .inr (.inr (.inr (.inl ⟨v, rfl, ho⟩)))
          | some v1 =>
            rcases cleanStereo_ok rfl e with e | ⟨_, _, _, _, _, _, hr⟩
            · exact .inr (.inr (.inr (.inr (webm e))))
            · cases hr

theorem display_none {v : Video} {w h : Int} (p : Picture v w h) (e : cleanDisplay v = .ok none) : Blank v := by
  have p1 := p.w0
  have p2 := p.h0
  unfold cleanDisplay at e
  rw [p.pw, p.ph] at e
  simp only [toInt_of (Int.le_of_lt p.w0) p.w1, toInt_of (Int.le_of_lt p.h0) p.h1] at e
  rw [if_neg (by omega)] at e
  by_cases hd : v.displayW = none ∧ v.displayH = none
  · rw [if_pos hd] at e; cases e
  · rw [if_neg hd] at e
    obtain ⟨v1, h1, e⟩ := bind_ok e
    obtain ⟨o, ho, e⟩ := bind_ok e
    have fin : ∀ v2 : Video, o = some v2 → False := by
      rintro v2 rfl
      simp only at e
      by_cases hc : ({ v2 with unit := some (v2.unit.getD 0) } : Video).unit ≠ some 3
      · rw [if_pos hc] at e
        obtain ⟨_, _, e⟩ := bind_ok e
        cases e
      · rw [if_neg hc] at e; cases e
    by_cases hu : v1.unit = none ∨ v1.unit = some 0
    · rw [if_pos hu] at ho
      have zero : v1.displayW = some 0 ∨ (v1.displayW ≠ none ∧ v1.displayH = some 0) := by
        unfold cleanPixels at ho
        obtain ⟨q, hq, ho⟩ := bind_ok ho
        cases q with
        | some q =>
          exfalso
          cases q with
          | none => cases ho; exact fin _ rfl
          | some q =>
            obtain ⟨_, _, ho⟩ := bind_ok ho
            cases ho
            exact fin _ rfl
        | none =>
          unfold displaySizes at hq
          cases hdw : v1.displayW with
          | none =>
            cases hdh : v1.displayH with
            | none => rw [hdw, hdh] at hq; cases hq
            | some dh =>
              rw [hdw, hdh] at hq
              simp only at hq
              split at hq <;> cases hq
          | some dw =>
            by_cases h0 : dw = 0
            · exact .inl (by rw [h0])
            · cases hdh : v1.displayH with
              | none =>
                rw [hdw, hdh] at hq
                simp only [if_neg h0] at hq
                split at hq <;> cases hq
              | some dh =>
                rw [hdw, hdh] at hq
                simp only [if_neg h0] at hq
                by_cases h1 : dh = 0
                · exact .inr ⟨by simp, by rw [h1]⟩
                · rw [if_neg h1] at hq; cases hq
      unfold cleanRatio at h1
      by_cases h3 : v.unit = some 3
      · rw [if_pos h3] at h1
        by_cases hl : (v.displayW = none ∨ v.displayW = some w) ∧ (v.displayH = none ∨ v.displayH = some h)
        · rw [if_pos hl] at h1
          cases h1
          simp only at zero
          exfalso
          rcases zero with hz | ⟨_, hz⟩
          · rcases hl.1 with hl | hl <;> rw [hl] at hz <;> cases hz
            omega
          · rcases hl.2 with hl | hl <;> rw [hl] at hz <;> cases hz
            omega
        · rw [if_neg hl] at h1
          have := (cleanCrop_same h1).2.2.2.2.1
          rw [this, h3] at hu
          rcases hu with hu | hu <;> cases hu
      · rw [if_neg h3] at h1
        cases h1
        exact .inr (.inr ⟨hu, zero⟩)
    · rw [if_neg hu] at ho
      cases ho
      exact absurd rfl (fin v1)

/-- A picture that has a size has one after the cleaning. -/
theorem display_solid {v v1 : Video} {w h : Int} (p : Picture v w h) (nb : ¬ Blank v) (e : cleanDisplay v = .ok (some v1)) :
    ¬ Blank v1 ∧ Picture v1 w h := by
  have p1 := p.w0
  have p2 := p.h0
  have same := display_same p e
  have mk : (∀ x, v1.displayW = some x → 0 ≤ x) → (∀ x, v1.displayH = some x → 0 ≤ x) →
      ¬ ((v1.unit = none ∨ v1.unit = some 0) ∧ (v1.displayW = some 0 ∨ (v1.displayW ≠ none ∧ v1.displayH = some 0))) → ¬ Blank v1 ∧ Picture v1 w h := by
    intro a b c
    refine ⟨?_, ⟨same.1.trans p.pw, same.2.1.trans p.ph, p.w0, p.w1, p.h0, p.h1, a, b⟩⟩
    rintro (hb | hb | hb)
    · rw [same.1, p.pw] at hb; cases hb; omega
    · rw [same.2.1, p.ph] at hb; cases hb; omega
    · exact c hb
  have nb' : ¬ ((v.unit = none ∨ v.unit = some 0) ∧ (v.displayW = some 0 ∨ (v.displayW ≠ none ∧ v.displayH = some 0))) := fun hb => nb (.inr (.inr hb))
  rcases cleanDisplay_cases p.pw p.ph ⟨p.w0, p.w1⟩ ⟨p.h0, p.h1⟩ e with ⟨_, _, rfl⟩ | ⟨_, ⟨h3, _, e1⟩ | ⟨k, hk, _, _, e1⟩ | ⟨_, _, v2, e2, hr⟩⟩
  · exact ⟨nb, p⟩
  · have s := cleanCrop_same e1
    exact mk (by rw [s.2.2.1]; exact p.dw) (by rw [s.2.2.2.1]; exact p.dh) (by rw [s.2.2.1, s.2.2.2.1, s.2.2.2.2.1]; exact nb')
  · have s := cleanCrop_same e1
    exact mk (by rw [s.2.2.1]; exact p.dw) (by rw [s.2.2.2.1]; exact p.dh) (by rw [s.2.2.1, s.2.2.2.1, s.2.2.2.2.1]; exact nb')
  · have hd : v1.displayW = v2.displayW ∧ v1.displayH = v2.displayH := by
      rcases hr with ⟨_, rfl⟩ | ⟨_, e3⟩
      · exact ⟨rfl, rfl⟩
      · have := cleanCrop_same e3; exact ⟨this.2.2.1, this.2.2.2.1⟩
    have key : (∀ x, v2.displayW = some x → 0 ≤ x) ∧ (∀ x, v2.displayH = some x → 0 ≤ x) ∧ ¬ (v2.displayW = some 0 ∨ (v2.displayW ≠ none ∧ v2.displayH = some 0)) := by
      rcases cleanPixels_ok e2 with ⟨rfl, _⟩ | ⟨dw, dh, q, hq, hx, rfl⟩
      · exact ⟨fun _ h => (by cases h), fun _ h => (by cases h), fun h => by
          rcases h with h | h
          · cases h
          · exact absurd rfl h.1⟩
      · simp only
        by_cases hs : dw = w ∧ dh ≤ 0
        · have h0 : dh = 0 := by
            rcases hx with ⟨_, h1, _⟩ | ⟨_, h1, _⟩ | ⟨_, _, h1, _⟩
            · have := p.dh _ h1; omega
            · have := p.dh _ h1; omega
            · omega
          have hq' : q = (dw, dh, false) := by
            unfold unshrink at hq
            rw [if_neg (by omega)] at hq
            cases hq
            rfl
          rw [hq']
          simp only [if_pos hs.1]
          refine ⟨fun _ h => (by cases h), fun x hx => ?_, fun h => ?_⟩
          · by_cases hz : dh = h
            · rw [if_pos hz] at hx; cases hx
            · rw [if_neg hz] at hx; cases hx; omega
          · rcases h with h | h
            · cases h
            · exact absurd rfl h.1
        · have pos : 0 < dw ∧ 0 < dh := by
            rcases hx with ⟨h1, h2, h3, h4⟩ | ⟨_, h1, h2, _⟩ | ⟨h1, _, h2, _, h3⟩
            · have := p.dw _ h1; have := p.dh _ h2; omega
            · have := p.dh _ h1; omega
            · have := p.dw _ h1; omega
          have sp := size_pos p1 p2 pos.1 pos.2 hq
          refine ⟨fun x h => ?_, fun x h => ?_, fun h => ?_⟩
          · split at h <;> cases h; omega
          · split at h <;> cases h; omega
          · rcases h with h | ⟨_, h⟩
            · split at h
              · cases h
              · injection h with h; omega
            · split at h
              · cases h
              · injection h with h; omega
    refine mk (by rw [hd.1]; exact key.1) (by rw [hd.2]; exact key.2.1) ?_
    rw [hd.1, hd.2]
    exact fun h => key.2.2 h.2

theorem eyes_solid {v v' : Video} (h : ¬ Blank v ∧ ∃ w h, Picture v w h)
    (e : v'.pixelW = v.pixelW ∧ v'.pixelH = v.pixelH ∧ v'.displayW = v.displayW ∧ v'.displayH = v.displayH ∧ v'.unit = v.unit) :
    ¬ Blank v' ∧ ∃ w h, Picture v' w h := by
  obtain ⟨nb, w, h, p⟩ := h
  obtain ⟨e1, e2, e3, e4, e5⟩ := e
  refine ⟨?_, w, h, e1.trans p.pw, e2.trans p.ph, p.w0, p.w1, p.h0, p.h1, by rw [e3]; exact p.dw, by rw [e4]; exact p.dh⟩
  unfold Blank at nb ⊢
  rw [e1, e2, e3, e4, e5]
  exact nb

theorem setEyes_same (v : Video) (f : Bool) (x : Int) : (v.setEyes f x).pixelW = v.pixelW ∧ (v.setEyes f x).pixelH = v.pixelH ∧
    (v.setEyes f x).displayW = v.displayW ∧ (v.setEyes f x).displayH = v.displayH ∧ (v.setEyes f x).unit = v.unit := by
  unfold Video.setEyes
  split
  · exact ⟨rfl, rfl, rfl, rfl, rfl⟩
  · split <;> exact ⟨rfl, rfl, rfl, rfl, rfl⟩

theorem newEyes_same (cfg : Config) (v : Video) : (newEyes cfg v).pixelW = v.pixelW ∧ (newEyes cfg v).pixelH = v.pixelH ∧
    (newEyes cfg v).displayW = v.displayW ∧ (newEyes cfg v).displayH = v.displayH ∧ (newEyes cfg v).unit = v.unit := by
  unfold newEyes
  split
  · exact ⟨rfl, rfl, rfl, rfl, rfl⟩
  · split
    · exact setEyes_same _ _ _
    · exact ⟨rfl, rfl, rfl, rfl, rfl⟩

theorem C146_planes_partial (cfg : Config) (fuel : Nat) (side : Side) (ts : List Track) (r : Side × List Track)
    (hp : Planes ts) (hs : ∀ t ∈ ts, Solid t) (h8 : side.profile ≠ 8)
    (e : cleanTracks cfg fuel side ts = .ok r) : Planes r.2 := by
  obtain ⟨s, hl, _, _⟩ := cleanTracks_ok e
  have key := cleanLoop_inv (cfg := cfg) (fun side done todo => Planes (done ++ todo) ∧ (∀ t ∈ done ++ todo, Solid t) ∧ side.profile ≠ 8) ?_ ?_ ?_
    fuel side [] ts (s, r.2) ⟨hp, hs, h8⟩ hl
  · simp only [List.append_nil] at key; exact key.1
  · intro side done t todo side' hI e
    have sol := hI.2.1 t (by simp)
    exfalso
    have prof : side'.profile ≠ 8 := by
      rcases cleanTrack_ok e with ⟨_, h | h⟩ | ⟨_, hf, _⟩ | ⟨_, _, _, _, hf, _⟩
      · rw [h]; exact hI.2.2
      · omega
      · cases hf
      · cases hf
    rcases drop_why e with h | h | h | ⟨v, hv, h⟩ | h
    · exact sol.number h
    · rcases sol.codec with hc | hc
      · exact hc h.1
      · exact hc h.2
    · exact sol.type h
    · obtain ⟨nb, w, hh, p⟩ := sol.video v hv
      exact nb (display_none p h)
    · exact prof h
  · intro side done t todo side' t' hI e
    rcases cleanTrack_ok e with ⟨hf, _⟩ | ⟨t2, hf, hk, hn, hc, hs, hv⟩ | ⟨_, _, _, _, hf, _⟩
    · cases hf
    · cases hf
      refine ⟨?_, ?_, fun hc => hI.2.2 (by rcases hs with hs | hs <;> omega)⟩
      · intro x hx op hop p hpp
        have back : ∀ x ∈ done ++ t' :: todo, ∃ y ∈ done ++ t :: todo, y.uid = x.uid ∧ y.ops = x.ops := by
          intro x hx
          rw [List.mem_append, List.mem_cons] at hx
          rcases hx with hx | rfl | hx
          · exact ⟨x, by simp [hx], rfl, rfl⟩
          · exact ⟨t, by simp, hk.uid.symm, hk.ops.symm⟩
          · exact ⟨x, by simp [hx], rfl, rfl⟩
        rw [List.append_assoc] at hx ⊢
        obtain ⟨y, hy, _, ho⟩ := back x hx
        obtain ⟨u, hu, hup⟩ := hI.1 y hy op (ho ▸ hop) p hpp
        rw [List.mem_append, List.mem_cons] at hu
        rcases hu with hu | rfl | hu
        · exact ⟨u, by simp [hu], hup⟩
        · exact ⟨t', by simp, hk.uid.trans hup⟩
        · exact ⟨u, by simp [hu], hup⟩
      · intro x hx
        rw [List.append_assoc, List.mem_append, List.singleton_append, List.mem_cons] at hx
        rcases hx with hx | rfl | hx
        · exact hI.2.1 x (by simp [hx])
        · have sol := hI.2.1 t (by simp)
          refine ⟨by rw [hk.number]; exact hn, by rw [hk.codec, hk.ops]; exact hc, by rw [hk.type]; exact sol.type, ?_⟩
          intro v' hv'
          rcases hv with ⟨_, hv⟩ | ⟨v, v1, v2, h1, h2, h3, h4⟩
          · rw [hv] at hv'; cases hv'
          · rw [h3] at hv'
            cases hv'
            obtain ⟨nb, w, h, p⟩ := sol.video v h1
            have d := display_solid p nb h2
            have n := eyes_solid ⟨d.1, w, h, d.2⟩ (newEyes_same cfg v1)
            rcases h4 with rfl | rfl
            · exact n
            · exact eyes_solid n ⟨rfl, rfl, rfl, rfl, rfl⟩
        · exact hI.2.1 x (by simp [hx])
    · cases hf
  · intro side done t todo side' ts hI e
    rcases cleanTrack_ok e with ⟨hf, _⟩ | ⟨_, hf, _⟩ | ⟨ts2, v, v1, x, hf, hv, hd, _, _, _, h4, hcomb⟩
    · cases hf
    · cases hf
    · cases hf
      obtain ⟨c⟩ := combine_ok hcomb
      have hts := c.tsEq
      have htodo := c.todoEq
      have hu : t.uid = some c.tu := c.hasUid
      have sol := hI.2.1 t (by simp)
      obtain ⟨nb, w, h, p⟩ := sol.video v hv
      have d := display_solid p nb hd
      have sv := eyes_solid ⟨d.1, w, h, d.2⟩ (setEyes_same v1 true 0)
      have inTs := fun y => Eq.mpr (congrArg (fun l => y ∈ l) hts)
      have memTodo : c.o ∈ done ++ t :: todo := by
        have : c.o ∈ todo := Eq.mpr (congrArg (fun l => c.o ∈ l) htodo) (by simp)
        simp [this]
      have so := hI.2.1 c.o memTodo
      have memT : ({ t with video := some (v1.setEyes true 0) } : Track) ∈ ts := inTs _ (by simp)
      have memO : ({ c.o with video := some (c.ov.setEyes false 0), uid := some c.pu } : Track) ∈ ts := inTs _ (by simp)
      have up : ∀ u ∈ done ++ t :: todo, ∀ a, u.uid = some a → ∃ u' ∈ ts, u'.uid = some a := by
        intro u hu a ha
        rw [htodo] at hu
        simp only [List.mem_append, List.mem_cons] at hu
        rcases hu with hu | rfl | hu | rfl | hu
        · exact ⟨u, by rw [hts]; simp [hu], ha⟩
        · exact ⟨_, memT, ha⟩
        · exact ⟨u, by rw [hts]; simp [hu], ha⟩
        · refine ⟨_, memO, ?_⟩
          rcases c.plane with hp | ⟨hp, _⟩
          · exact hp.symm.trans ha
          · rw [hp] at ha; cases ha
        · exact ⟨u, by rw [hts]; simp [hu], ha⟩
      rw [List.nil_append]
      refine ⟨?_, ?_, by omega⟩
      · intro y hy op hop q hq
        rw [hts] at hy
        simp only [List.mem_append, List.mem_cons, List.not_mem_nil, or_false] at hy
        have old : ∀ z ∈ done ++ t :: todo, op ∈ z.ops → ∃ u ∈ ts, u.uid = some q.1 := by
          intro z hz hzo
          obtain ⟨u, hu, ha⟩ := hI.1 z hz op hzo q hq
          exact up u hu _ ha
        rcases hy with ((hy | rfl | hy) | rfl | hy) | rfl
        · exact old y (by simp [hy]) hop
        · exact old t (by simp) hop
        · exact old y (by rw [htodo]; simp [hy]) hop
        · exact old c.o memTodo hop
        · exact old y (by rw [htodo]; simp [hy]) hop
        · simp only [List.mem_append, List.mem_singleton] at hop
          rcases hop with hop | rfl
          · exact old t (by simp) hop
          · by_cases h2 : toInt x = 2
            · rw [if_pos h2] at hq
              simp only [List.mem_cons, List.not_mem_nil, or_false] at hq
              rcases hq with rfl | rfl
              · exact ⟨_, memT, hu⟩
              · exact ⟨_, memO, rfl⟩
            · rw [if_neg h2] at hq
              simp only [List.mem_cons, List.not_mem_nil, or_false] at hq
              rcases hq with rfl | rfl
              · exact ⟨_, memT, hu⟩
              · exact ⟨_, memO, rfl⟩
      · intro y hy
        rw [hts] at hy
        simp only [List.mem_append, List.mem_cons, List.not_mem_nil, or_false] at hy
        rcases hy with ((hy | rfl | hy) | rfl | hy) | rfl
        · exact hI.2.1 y (by simp [hy])
        · exact ⟨sol.number, sol.codec, sol.type, fun z hz => by cases hz; exact sv⟩
        · exact hI.2.1 y (by rw [htodo]; simp [hy])
        · exact ⟨so.number, so.codec, so.type, fun z hz => by
            cases hz
            exact eyes_solid (so.video c.ov c.video) (setEyes_same c.ov false 0)⟩
        · exact hI.2.1 y (by rw [htodo]; simp [hy])
        · exact ⟨by simp [combined], .inl (by simp [combined]), sol.type, fun z hz => by
            simp only [combined] at hz
            cases hz
            exact sv⟩

end Verif.Mkclean.Tracks
