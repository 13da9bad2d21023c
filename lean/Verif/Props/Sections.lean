import Verif.Mkclean.Sections
import Verif.Props.Setup
/-!
Property theorems C187 and C188: the sections and the Segment Info mkclean takes from the source.
-/
namespace Verif.Sections
open Verif Verif.Mkv

/-! ### C187: the sections -/

/-- The readable sections of a kind, in their order. -/
def readable (k : Kind) (l : List Sec) : List Nat := (l.filter fun s => s.kind = k && s.ok).map (·.data)

/-- C187 as hoped for: when the output is a file, the content of every readable section of the source gets into it (Cues with
`--keep-cues`). -/
def AllTaken : Prop :=
  ∀ (l : List Sec) (s : Sec), s ∈ l → s.ok = true →
    (s.kind = .chapters → (takeAll false true l).chapters = some s.data) ∧ (s.kind = .tags → (takeAll false true l).tags = some s.data) ∧
    (s.kind = .attachments → (takeAll false true l).attachments = some s.data) ∧ (s.kind = .cluster → s.data ∈ (takeAll false true l).clusters)

theorem readable_cons (k : Kind) (s : Sec) (l : List Sec) :
    readable k (s :: l) = (if s.kind = k ∧ s.ok = true then [s.data] else []) ++ readable k l := by
  unfold readable
  rw [List.filter_cons]
  by_cases h : s.kind = k ∧ s.ok = true
  · simp [h]
  · rw [if_neg h]
    have : (decide (s.kind = k) && s.ok) = false := by
      rw [Bool.eq_false_iff]
      intro hc
      simp at hc
      exact h hc
    simp [this]

theorem takeAll_from (live keep : Bool) (l : List Sec) : ∀ f : Found, l.foldl (take live keep) f =
    { info := (readable .info l).getLast?.or f.info
      tracks := (readable .tracks l).getLast?.or f.tracks
      chapters := if live then f.chapters else (readable .chapters l).getLast?.or f.chapters
      tags := if live then f.tags else (readable .tags l).getLast?.or f.tags
      cues := if live ∨ keep = false then f.cues else (readable .cues l).getLast?.or f.cues
      attachments := if live then f.attachments else (readable .attachments l).getLast?.or f.attachments
      clusters := f.clusters ++ readable .cluster l } := by
  induction l with
  | nil => intro f; simp [readable]
  | cons s l ih =>
    intro f
    rw [List.foldl_cons, ih]
    obtain ⟨k, ok, d⟩ := s
    cases live <;> cases keep <;> cases ok <;> cases k <;> simp [take, readable_cons] <;>
      (cases h : (readable _ l).getLast? <;> simp [List.getLast?_cons, h])

/-- C187, exactly what holds: of the Segment Infos, Tracks, Chapters, Tags and Attachments the last readable one is taken, and with
`--keep-cues` of the Cues; of the Clusters all readable ones, in their order. For a live stream Chapters, Tags, Attachments and Cues
are ignored. -/
theorem C187_sections_partial (live keep : Bool) (l : List Sec) : takeAll live keep l =
    { info := (readable .info l).getLast?
      tracks := (readable .tracks l).getLast?
      chapters := if live then none else (readable .chapters l).getLast?
      tags := if live then none else (readable .tags l).getLast?
      cues := if live ∨ keep = false then none else (readable .cues l).getLast?
      attachments := if live then none else (readable .attachments l).getLast?
      clusters := readable .cluster l } := by
  unfold takeAll
  rw [takeAll_from]
  simp

/-- C187. A section that is the only readable one of its kind is taken. -/
theorem C187_single (keep : Bool) (l : List Sec) (d : Nat) :
    (readable .chapters l = [d] → (takeAll false keep l).chapters = some d) ∧ (readable .tags l = [d] → (takeAll false keep l).tags = some d) ∧
    (readable .attachments l = [d] → (takeAll false keep l).attachments = some d) := by
  rw [C187_sections_partial]
  refine ⟨?_, ?_, ?_⟩ <;> intro h <;> simp [h]

/-- C187 fails: of several Tags, which a file may have, the last is kept. -/
theorem C187_counterexample : ¬ AllTaken := by
  intro h
  have := (h [⟨.tags, true, 1⟩, ⟨.tags, true, 2⟩] ⟨.tags, true, 1⟩ (by simp) rfl).2.1 rfl
  exact absurd this (by decide)

example : takeAll false false [⟨.info, true, 1⟩, ⟨.tracks, true, 2⟩, ⟨.cluster, true, 3⟩, ⟨.cluster, false, 4⟩, ⟨.cluster, true, 5⟩,
    ⟨.cues, true, 6⟩, ⟨.tags, true, 7⟩, ⟨.chapters, false, 8⟩] =
    { info := some 1, tracks := some 2, tags := some 7, clusters := [3, 5] } := by decide

/-! ### C188: the Segment Info -/

theorem setScale_find (v : Int) (l : List IElt) : (setScale v l).find? isScale = some (.scale v) := by
  induction l with
  | nil => rfl
  | cons e l ih =>
    cases e <;> simp [setScale, isScale] at ih ⊢ <;> exact ih

theorem setScale_erase (v : Int) (l : List IElt) : (setScale v l).eraseP isScale = l.eraseP isScale := by
  induction l with
  | nil => rfl
  | cons e l ih => cases e <;> simp [setScale, List.eraseP_cons, isScale] at ih ⊢ <;> exact ih

theorem setScale_findD (v : Int) (l : List IElt) : (setScale v l).find? isDuration = l.find? isDuration := by
  induction l with
  | nil => rfl
  | cons e l ih => cases e <;> simp [List.find?_cons, setScale, isDuration] at ih ⊢ <;> exact ih

theorem erase_findD (l : List IElt) : (l.eraseP isScale).find? isDuration = l.find? isDuration := by
  induction l with
  | nil => rfl
  | cons e l ih => cases e <;> simp [List.find?_cons, List.eraseP_cons, isScale, isDuration] at ih ⊢ <;> exact ih

theorem rescale_findS (a b : Int) (l : List IElt) : (rescale a b l).find? isScale = l.find? isScale := by
  induction l with
  | nil => rfl
  | cons e l ih => cases e <;> simp [List.find?_cons, rescale, isScale] at ih ⊢ <;> exact ih

theorem eraseD_findS (l : List IElt) : (l.eraseP isDuration).find? isScale = l.find? isScale := by
  induction l with
  | nil => rfl
  | cons e l ih => cases e <;> simp [List.find?_cons, List.eraseP_cons, isScale, isDuration] at ih ⊢ <;> exact ih

theorem erase_comm (l : List IElt) : (l.eraseP isDuration).eraseP isScale = (l.eraseP isScale).eraseP isDuration := by
  induction l with
  | nil => rfl
  | cons e l ih => cases e <;> simp [List.find?_cons, List.eraseP_cons, isScale, isDuration] at ih ⊢ <;> exact ih

theorem rescale_erase (a b : Int) (l : List IElt) : (rescale a b l).eraseP isDuration = l.eraseP isDuration := by
  induction l with
  | nil => rfl
  | cons e l ih => cases e <;> simp [rescale, List.eraseP_cons, isDuration] at ih ⊢ <;> exact ih

/-- The first Duration. -/
def durationOf : List IElt → Option Rat
  | [] => none
  | .duration d :: _ => some d
  | _ :: l => durationOf l

theorem find_duration (l : List IElt) : l.find? isDuration = (durationOf l).map .duration := by
  induction l with
  | nil => rfl
  | cons e l ih => cases e <;> simp [durationOf, isDuration] at ih ⊢ <;> exact ih

theorem rescale_find (a b : Int) (l : List IElt) : (rescale a b l).find? isDuration = (durationOf l).map fun d => .duration (d * a / b) := by
  induction l with
  | nil => rfl
  | cons e l ih => cases e <;> simp [durationOf, rescale, isDuration] at ih ⊢ <;> exact ih

theorem durationOf_setScale (v : Int) (l : List IElt) : durationOf (setScale v l) = durationOf l := by
  induction l with
  | nil => rfl
  | cons e l ih => cases e <;> simp [durationOf, setScale] at ih ⊢ <;> exact ih

/-- The elements that are neither the TimestampScale nor the Duration (further ones of these are left where they are). -/
def rest (l : List IElt) : List IElt := (l.eraseP isScale).eraseP isDuration

theorem rescale_none (a b : Int) (l : List IElt) (h : durationOf l = none) : rescale a b l = l := by
  induction l with
  | nil => rfl
  | cons e l ih => cases e <;> simp [durationOf, rescale] at h ih ⊢ <;> exact ih h

theorem rest_none (l : List IElt) (h : durationOf l = none) : rest l = l.eraseP isScale := by
  unfold rest
  apply List.eraseP_of_forall_not
  have hf : (l.eraseP isScale).find? isDuration = none := by rw [erase_findD, find_duration, h]; rfl
  intro a ha
  exact List.find?_eq_none.1 hf a ha

/-- C188. In a file mkclean writes the Segment Info begins with the Duration, if there was one, and the TimestampScale; everything else
follows as it was. The Duration lasts as long as before: its value times the new scale is the old value times the old scale. -/
theorem C188_segment_info_partial (asked : Int) (l l' : List IElt) (h : newInfo false asked l = .ok l') :
    ∃ new, Setup.newScale asked (oldScale l) = .ok new ∧
      (durationOf l = none → l' = .scale new :: rest l) ∧
      (∀ d, durationOf l = some d → ∃ d', l' = .duration d' :: .scale new :: rest l ∧ (new ≠ 0 → d' * new = d * oldScale l)) := by
  unfold newInfo at h
  cases hs : Setup.newScale asked (oldScale l) with
  | err => rw [hs] at h; cases h
  | bad => rw [hs] at h; cases h
  | hang => rw [hs] at h; cases h
  | ok new =>
    rw [hs] at h
    refine ⟨new, rfl, ?_⟩
    simp only [Bool.false_eq_true, if_false, Out.ok.injEq] at h
    by_cases hc : new ≠ 0 ∧ new ≠ oldScale l
    · rw [if_pos hc] at h
      have h1 : toFront isScale (rescale (oldScale l) new (setScale new l)) =
          .scale new :: (rescale (oldScale l) new (setScale new l)).eraseP isScale := by
        unfold toFront
        rw [rescale_findS, setScale_find]
      rw [h1] at h
      unfold toFront at h
      rw [List.find?_cons_of_neg (by simp [isDuration]), erase_findD, rescale_find, List.eraseP_cons_of_neg (by simp [isDuration]), ← erase_comm,
        rescale_erase, erase_comm, setScale_erase] at h
      rw [durationOf_setScale] at h
      refine ⟨fun hn => ?_, fun d hd => ?_⟩
      · rw [hn] at h
        simp only [Option.map_none] at h
        rw [← h, rescale_none _ _ _ (by rw [durationOf_setScale, hn]), setScale_erase, rest_none l hn]
      · rw [hd] at h
        simp only [Option.map_some] at h
        refine ⟨_, h.symm, fun hz => Rat.div_mul_cancel ?_⟩
        intro h0
        exact hz (Rat.intCast_inj.1 h0)
    · rw [if_neg hc] at h
      have h1 : toFront isScale (setScale new l) = .scale new :: l.eraseP isScale := by
        unfold toFront
        rw [setScale_find, setScale_erase]
      rw [h1] at h
      unfold toFront at h
      rw [List.find?_cons_of_neg (by simp [isDuration]), erase_findD, find_duration, List.eraseP_cons_of_neg (by simp [isDuration])] at h
      refine ⟨fun hn => ?_, fun d hd => ?_⟩
      · rw [hn] at h
        simp only [Option.map_none] at h
        rw [← h, rest_none l hn]
      · rw [hd] at h
        simp only [Option.map_some] at h
        exact ⟨d, h.symm, fun hz => by
          have : new = oldScale l := by
            refine Classical.byContradiction fun hne => hc ⟨hz, hne⟩
          rw [this]⟩

/-- C188. A live stream has no Duration if the source has at most one. -/
theorem C188_live (asked : Int) (l l' : List IElt) (h1 : (l.filter isDuration).length ≤ 1) (h : newInfo true asked l = .ok l') :
    durationOf l' = none := by
  unfold newInfo at h
  cases hs : Setup.newScale asked (oldScale l) with
  | err => rw [hs] at h; cases h
  | bad => rw [hs] at h; cases h
  | hang => rw [hs] at h; cases h
  | ok new =>
    rw [hs] at h
    simp only [if_true, Out.ok.injEq] at h
    have h2 : toFront isScale ((setScale new l).eraseP isDuration) = .scale new :: rest l := by
      unfold toFront
      rw [eraseD_findS, setScale_find, erase_comm, setScale_erase]
      rfl
    have h3 : (rest l).find? isDuration = none := by
      have : ∀ l : List IElt, (l.filter isDuration).length ≤ 1 → (l.eraseP isDuration).find? isDuration = none := by
        intro l
        induction l with
        | nil => intro _; rfl
        | cons e l ih =>
          intro hl
          by_cases he : isDuration e = true
          · rw [List.eraseP_cons_of_pos he]
            rw [List.filter_cons_of_pos he, List.length_cons] at hl
            have : l.filter isDuration = [] := List.length_eq_zero_iff.1 (by omega)
            rw [List.find?_eq_none]
            exact List.filter_eq_nil_iff.1 this
          · rw [List.eraseP_cons_of_neg (by simpa using he), List.find?_cons_of_neg he]
            rw [List.filter_cons_of_neg he] at hl
            exact ih hl
      unfold rest
      rw [← erase_comm, erase_findD]
      exact this l h1
    rw [h2] at h
    unfold toFront at h
    rw [List.find?_cons_of_neg (by simp [isDuration]), h3] at h
    simp only at h
    rw [← h]
    have := find_duration (rest l)
    rw [h3] at this
    simp only [durationOf]
    cases hd : durationOf (rest l) with
    | none => rfl
    | some d => rw [hd] at this; cases this

theorem grow_ge (n : Nat) : ∀ v w : Int, Setup.grow n v = .ok w → ¬ w < 100000 := by
  induction n with
  | zero =>
    intro v w h
    unfold Setup.grow at h
    split at h
    · cases h
    · cases h; assumption
  | succ n ih =>
    intro v w h
    unfold Setup.grow at h
    split at h
    · exact ih _ _ h
    · cases h; assumption

/-- C188. Cleaning a file mkclean wrote leaves the Segment Info as it is. -/
theorem C188_stable (l l' : List IElt) (h : newInfo false 0 l = .ok l') : newInfo false 0 l' = .ok l' := by
  obtain ⟨new, hs, hn, hd⟩ := C188_segment_info_partial 0 l l' h
  have hge : ¬ new < 100000 := by
    unfold Setup.newScale at hs
    rw [if_pos rfl] at hs
    exact grow_ge 64 _ _ hs
  have hsame : Setup.newScale 0 new = .ok new := by
    unfold Setup.newScale
    rw [if_pos rfl]
    unfold Setup.grow
    rw [if_neg hge]
  cases hdur : durationOf l with
  | none =>
    rw [hn hdur]
    have hr : (rest l).find? isDuration = none := by
      rw [rest_none l hdur, erase_findD, find_duration, hdur]
      rfl
    unfold newInfo
    simp only [oldScale, hsame, setScale, Bool.false_eq_true, if_false, ne_eq, not_true, and_false]
    have h1 : toFront isScale (.scale new :: rest l) = .scale new :: rest l := by simp [toFront, isScale, List.find?_cons, List.eraseP_cons]
    rw [h1]
    unfold toFront
    rw [List.find?_cons_of_neg (by simp [isDuration]), hr]
  | some d =>
    obtain ⟨d', e, _⟩ := hd d hdur
    rw [e]
    unfold newInfo
    simp only [oldScale, hsame, setScale, Bool.false_eq_true, if_false, ne_eq, not_true, and_false]
    have h1 : toFront isScale (.duration d' :: .scale new :: rest l) = .scale new :: .duration d' :: rest l := by
      simp [toFront, isScale, List.find?_cons, List.eraseP_cons]
    rw [h1]
    simp [toFront, isDuration, List.find?_cons, List.eraseP_cons]

example : newInfo false 0 [.other 1, .duration 500, .scale 50000, .other 2] = .ok [.duration 250, .scale 100000, .other 1, .other 2] ∧
    newInfo false 0 [.duration 250, .scale 100000, .other 1, .other 2] = .ok [.duration 250, .scale 100000, .other 1, .other 2] ∧
    newInfo true 0 [.other 1, .duration 500] = .ok [.scale 1000000, .other 1] := by decide +kernel

end Verif.Sections
