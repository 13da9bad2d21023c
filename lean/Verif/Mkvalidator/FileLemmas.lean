import Verif.Mkvalidator.StartLemmas
/-!
Lemmas about what `main` of mkvalidator collects from the elements of the Segment.
-/
set_option linter.unusedSimpArgs false
namespace Verif.Mkvalidator
open Verif Verif.Core Verif.Mkv

/-! ### The elements by kind -/

def Body.clusterOf : Body → Option Cluster | .cluster c => some c | _ => none
def Body.seekOf : Body → Option (List Seek) | .seekHead s => some s | _ => none
def Body.scaleOf : Body → Option Int | .info s _ => some s | _ => none
def Body.tracksOf : Body → Option (List Track) | .tracks ts => some ts | _ => none
def Body.cuesOf : Body → Option (List Cue) | .cues cs => some cs | _ => none
def Body.filesOf : Body → Option (List Int) | .attachments fs => some fs | _ => none
def Body.chaptersOf : Body → Option Unit | .chapters => some () | _ => none
def Body.tagsOf : Body → Option Unit | .tags => some () | _ => none

/-- Place and content of the first element of a kind. -/
def firstOf {α : Type} (g : Body → Option α) (es : List Elt) : Option (Int × α) :=
  es.findSome? fun e => (g e.body).map fun a => (e.pos, a)

theorem firstOf_append {α : Type} (g : Body → Option α) (es : List Elt) (e : Elt) :
    firstOf g (es ++ [e]) = (firstOf g es).or ((g e.body).map fun a => (e.pos, a)) := by
  unfold firstOf
  rw [List.findSome?_append]
  congr 1
  simp [List.findSome?_cons]
  cases g e.body <;> rfl

/-- What `main` knows after the elements `done` (not with `--live`). -/
structure Known (done : List Elt) (st : St) : Prop where
  clusters : st.clusters = done.filterMap fun e => e.body.clusterOf
  places : st.found.clusters = done.filterMap fun e => e.body.clusterOf.map fun _ => e.pos
  info : st.found.info = (firstOf Body.scaleOf done).map (·.1)
  scale : st.scale = ((firstOf Body.scaleOf done).map (·.2)).getD 1000000
  tracks : st.found.tracks = (firstOf Body.tracksOf done).map (·.1)
  entries : st.tracks = ((firstOf Body.tracksOf done).map (·.2)).getD []
  video : st.hasVideo = st.tracks.any fun t => t.type == some 1
  cues : st.found.cues = (firstOf Body.cuesOf done).map (·.1)
  points : st.cues = ((firstOf Body.cuesOf done).map (·.2)).getD []
  attachments : st.found.attachments = (firstOf Body.filesOf done).map (·.1)
  files : st.files = ((firstOf Body.filesOf done).map (·.2)).getD []
  seekHead : st.found.seekHead = (firstOf Body.seekOf done).map (·.1)
  seeks : st.seeks = ((firstOf Body.seekOf done).map (·.2)).getD []
  chapters : st.found.chapters = (firstOf Body.chaptersOf done).map (·.1)
  tags : st.found.tags = (firstOf Body.tagsOf done).map (·.1)

theorem known_nil (n : Nat) : Known [] { void := n } := by constructor <;> rfl

theorem isNone_map {α β : Type} {o : Option α} {f : α → β} {x : Option β} (h : x = o.map f) : x.isNone = o.isNone := by
  rw [h]; cases o <;> rfl
theorem isSome_map {α β : Type} {o : Option α} {f : α → β} {x : Option β} (h : x = o.map f) : x.isSome = o.isSome := by
  rw [h]; cases o <;> rfl

theorem known_step (o : Opts) (webm : Bool) (st : St) (e : Elt) (done : List Elt) (hl : o.live = false) (h : Known done st)
    (hn : (eltStep o webm st e).2.fin = .next) : Known (done ++ [e]) (eltStep o webm st e).1 := by
  obtain ⟨h1, h2, h3, h4, h5, h6, h7, h8, h9, h10, h11, h12, h13, h14, h15⟩ := h
  cases hb : e.body with
  | cluster c =>
    unfold eltStep at hn ⊢
    simp only [hb] at hn ⊢
    by_cases hr : (!e.readOk) = true
    · rw [if_pos hr] at hn; cases hn
    · rw [if_neg hr]
      constructor <;>
        simp only [taken, firstOf_append, hb, Body.clusterOf, Body.seekOf, Body.scaleOf, Body.tracksOf, Body.cuesOf, Body.filesOf,
          Body.chaptersOf, Body.tagsOf, Option.map_none, Option.or_none, List.filterMap_append, List.filterMap_cons, List.filterMap_nil,
          Option.map_some, Bool.false_eq_true, if_false] <;> first | assumption | (rw [h1]; rfl) | (rw [h2]; rfl)
  | seekHead entries =>
    unfold eltStep at hn ⊢
    simp only [hb] at hn ⊢
    rw [hl] at hn ⊢
    simp only [Bool.false_eq_true, if_false] at hn ⊢
    by_cases hr : (!e.readOk) = true
    · rw [if_pos hr] at hn; cases hn
    · rw [if_neg hr]
      rw [isNone_map h12]
      cases hf : firstOf Body.seekOf done with
      | none =>
        constructor <;>
        simp only [taken, firstOf_append, hb, Body.clusterOf, Body.seekOf, Body.scaleOf, Body.tracksOf, Body.cuesOf, Body.filesOf,
          Body.chaptersOf, Body.tagsOf, Option.map_none, Option.or_none, List.filterMap_append, List.filterMap_cons, List.filterMap_nil,
          Option.map_some, Bool.false_eq_true, if_false, Option.isNone_none, if_true, hf, Option.none_or, List.append_nil, Option.getD_some] <;> assumption
      | some x =>
        rw [hf] at h12 h13
        simp only [Option.isNone_some, Bool.false_eq_true, if_false]
        by_cases h2n : st.found.seekHead2.isNone = true
        · rw [if_pos h2n]
          constructor <;>
          simp only [taken, firstOf_append, hb, Body.clusterOf, Body.seekOf, Body.scaleOf, Body.tracksOf, Body.cuesOf, Body.filesOf,
            Body.chaptersOf, Body.tagsOf, Option.map_none, Option.or_none, List.filterMap_append, List.filterMap_cons, List.filterMap_nil,
            Option.map_some, Bool.false_eq_true, if_false, hf, Option.some_or, List.append_nil, Option.getD_some] <;> assumption
        · rw [if_neg h2n]
          constructor <;>
          simp only [taken, firstOf_append, hb, Body.clusterOf, Body.seekOf, Body.scaleOf, Body.tracksOf, Body.cuesOf, Body.filesOf,
            Body.chaptersOf, Body.tagsOf, Option.map_none, Option.or_none, List.filterMap_append, List.filterMap_cons, List.filterMap_nil,
            Option.map_some, Bool.false_eq_true, if_false, hf, Option.some_or, List.append_nil, Option.getD_some, id] <;> assumption
  | info scale duration =>
    unfold eltStep at hn ⊢
    simp only [hb] at hn ⊢
    by_cases hr : (!e.readOk) = true
    · rw [if_pos hr] at hn; cases hn
    · rw [if_neg hr, isSome_map h3]
      cases hf : firstOf Body.scaleOf done <;> rw [hf] at h3 h4 <;> constructor <;>
        simp only [taken, extra, firstOf_append, hb, Body.clusterOf, Body.seekOf, Body.scaleOf, Body.tracksOf, Body.cuesOf, Body.filesOf,
          Body.chaptersOf, Body.tagsOf, Option.map_none, Option.or_none, List.filterMap_append, List.filterMap_cons, List.filterMap_nil,
          Option.map_some, Bool.false_eq_true, if_false, if_true, Option.isSome_none, Option.isSome_some, hf, Option.none_or, Option.some_or, List.append_nil, Option.getD_some] <;> assumption
  | tracks ts =>
    unfold eltStep at hn ⊢
    simp only [hb] at hn ⊢
    by_cases hr : (!e.readOk) = true
    · rw [if_pos hr] at hn; cases hn
    · rw [if_neg hr, isSome_map h5]
      cases hf : firstOf Body.tracksOf done <;> rw [hf] at h5 h6 <;> constructor <;>
        simp only [taken, extra, firstOf_append, hb, Body.clusterOf, Body.seekOf, Body.scaleOf, Body.tracksOf, Body.cuesOf, Body.filesOf,
          Body.chaptersOf, Body.tagsOf, Option.map_none, Option.or_none, List.filterMap_append, List.filterMap_cons, List.filterMap_nil,
          Option.map_some, Bool.false_eq_true, if_false, if_true, Option.isSome_none, Option.isSome_some, hf, Option.none_or, Option.some_or, List.append_nil, Option.getD_some] <;> assumption
  | cues cs =>
    unfold eltStep at hn ⊢
    simp only [hb] at hn ⊢
    rw [hl] at hn ⊢
    simp only [Bool.false_eq_true, if_false] at hn ⊢
    by_cases hr : (!e.readOk) = true
    · rw [if_pos hr] at hn; cases hn
    · rw [if_neg hr, isSome_map h8]
      cases hf : firstOf Body.cuesOf done <;> rw [hf] at h8 h9 <;> constructor <;>
        simp only [taken, extra, firstOf_append, hb, Body.clusterOf, Body.seekOf, Body.scaleOf, Body.tracksOf, Body.cuesOf, Body.filesOf,
          Body.chaptersOf, Body.tagsOf, Option.map_none, Option.or_none, List.filterMap_append, List.filterMap_cons, List.filterMap_nil,
          Option.map_some, Bool.false_eq_true, if_false, if_true, Option.isSome_none, Option.isSome_some, hf, Option.none_or, Option.some_or, List.append_nil, Option.getD_some] <;> assumption
  | chapters =>
    unfold eltStep at hn ⊢
    simp only [hb] at hn ⊢
    rw [hl] at hn ⊢
    simp only [Bool.false_eq_true, if_false] at hn ⊢
    by_cases hr : (!e.readOk) = true
    · rw [if_pos hr] at hn; cases hn
    · rw [if_neg hr, isSome_map h14]
      cases hf : firstOf Body.chaptersOf done <;> rw [hf] at h14 <;> constructor <;>
        simp only [taken, extra, firstOf_append, hb, Body.clusterOf, Body.seekOf, Body.scaleOf, Body.tracksOf, Body.cuesOf, Body.filesOf,
          Body.chaptersOf, Body.tagsOf, Option.map_none, Option.or_none, List.filterMap_append, List.filterMap_cons, List.filterMap_nil,
          Option.map_some, Bool.false_eq_true, if_false, if_true, Option.isSome_none, Option.isSome_some, hf, Option.none_or, Option.some_or, List.append_nil, Option.getD_some] <;> assumption
  | tags =>
    unfold eltStep at hn ⊢
    simp only [hb] at hn ⊢
    by_cases hr : (!e.readOk) = true
    · rw [if_pos hr] at hn; cases hn
    · rw [if_neg hr, isSome_map h15]
      cases hf : firstOf Body.tagsOf done <;> rw [hf] at h15 <;> constructor <;>
        simp only [taken, extra, firstOf_append, hb, Body.clusterOf, Body.seekOf, Body.scaleOf, Body.tracksOf, Body.cuesOf, Body.filesOf,
          Body.chaptersOf, Body.tagsOf, Option.map_none, Option.or_none, List.filterMap_append, List.filterMap_cons, List.filterMap_nil,
          Option.map_some, Bool.false_eq_true, if_false, if_true, Option.isSome_none, Option.isSome_some, hf, Option.none_or, Option.some_or, List.append_nil, Option.getD_some] <;> assumption
  | attachments fs =>
    unfold eltStep at hn ⊢
    simp only [hb] at hn ⊢
    rw [hl] at hn ⊢
    simp only [Bool.false_eq_true, if_false] at hn ⊢
    by_cases hr : (!e.readOk) = true
    · rw [if_pos hr] at hn; cases hn
    · rw [if_neg hr, isSome_map h10]
      cases hf : firstOf Body.filesOf done <;> rw [hf] at h10 h11 <;> constructor <;>
        simp only [taken, extra, firstOf_append, hb, Body.clusterOf, Body.seekOf, Body.scaleOf, Body.tracksOf, Body.cuesOf, Body.filesOf,
          Body.chaptersOf, Body.tagsOf, Option.map_none, Option.or_none, List.filterMap_append, List.filterMap_cons, List.filterMap_nil,
          Option.map_some, Bool.false_eq_true, if_false, if_true, Option.isSome_none, Option.isSome_some, hf, Option.none_or, Option.some_or, List.append_nil, Option.getD_some] <;> assumption
  | _ =>
    unfold eltStep
    simp only [hb]
    constructor <;>
      simp only [skipped, firstOf_append, hb, Body.clusterOf, Body.seekOf, Body.scaleOf, Body.tracksOf, Body.cuesOf, Body.filesOf,
        Body.chaptersOf, Body.tagsOf, Option.map_none, Option.or_none, List.filterMap_append, List.filterMap_cons, List.filterMap_nil,
        Bool.false_eq_true, if_false, List.append_nil] <;> assumption

theorem known_loop (o : Opts) (webm : Bool) (hl : o.live = false) : ∀ (es : List Elt) (st : St) (done : List Elt), Known done st →
    (eltLoop o webm st es).2.fin = .next → Known (done ++ es) (eltLoop o webm st es).1
  | [], st, done, h, _ => by rw [List.append_nil]; exact h
  | e :: es, st, done, h, hn => by
    have hs := known_step o webm st e done hl h
    rw [eltLoop] at hn ⊢
    generalize eltStep o webm st e = p at hs hn ⊢
    obtain ⟨st1, r⟩ := p
    dsimp only at hs hn ⊢
    by_cases hr : r.fin = .next
    · rw [if_pos hr] at hn ⊢
      have := known_loop o webm hl es st1 (done ++ [e]) (hs hr) (next_andThen hn).2
      rw [List.append_assoc] at this
      exact this
    · rw [if_neg hr] at hn; exact absurd hn hr

/-- The messages of the round for an element are among those of the loop. -/
theorem loop_split (o : Opts) (webm : Bool) (e : Elt) (r : List Elt) : ∀ (l : List Elt) (st : St),
    (eltLoop o webm st (l ++ e :: r)).2.fin = .next →
    (eltLoop o webm st l).2.fin = .next ∧ (eltStep o webm (eltLoop o webm st l).1 e).2.fin = .next
    ∧ ∀ x ∈ (eltStep o webm (eltLoop o webm st l).1 e).2.evs, x ∈ (eltLoop o webm st (l ++ e :: r)).2.evs
  | [], st, hn => by
    rw [List.nil_append, eltLoop] at hn ⊢
    rw [show eltLoop o webm st [] = (st, say []) from rfl]
    generalize eltStep o webm st e = p at hn ⊢
    obtain ⟨st1, q⟩ := p
    dsimp only at hn ⊢
    by_cases hr : q.fin = .next
    · rw [if_pos hr]
      refine ⟨rfl, hr, fun x hx => ?_⟩
      unfold Run.andThen
      rw [if_pos hr]
      exact List.mem_append_left _ hx
    · rw [if_neg hr] at hn; exact absurd hn hr
  | a :: l, st, hn => by
    have he : ∀ x, eltLoop o webm st (a :: x) = (let (st, r) := eltStep o webm st a
      if r.fin = .next then
        let (st', r') := eltLoop o webm st x
        (st', r.andThen r')
      else (st, r)) := fun _ => rfl
    rw [List.cons_append] at hn ⊢
    rw [he] at hn
    rw [he, he]
    generalize eltStep o webm st a = p at hn ⊢
    obtain ⟨st1, q⟩ := p
    dsimp only at hn ⊢
    by_cases hr : q.fin = .next
    · rw [if_pos hr] at hn
      rw [if_pos hr, if_pos hr]
      obtain ⟨i1, i2, i3⟩ := loop_split o webm e r l st1 (next_andThen hn).2
      refine ⟨?_, i2, ?_⟩
      · unfold Run.andThen; rw [if_pos hr]; exact i1
      · intro x hx
        unfold Run.andThen; rw [if_pos hr]
        exact List.mem_append_right _ (i3 x hx)
    · rw [if_neg hr] at hn; exact absurd hn hr

theorem andThen_evs {a b : Run} (h : (a.andThen b).fin = .next) : (a.andThen b).evs = a.evs ++ b.evs := by
  unfold Run.andThen at h ⊢
  by_cases ha : a.fin = .next
  · rw [if_pos ha]
  · rw [if_neg ha] at h; exact absurd h ha

theorem inOrder_mem {rs : List Run} (h : (inOrder rs).fin = .next) {r : Run} (hr : r ∈ rs) : r.fin = .next ∧ ∀ e ∈ r.evs, e ∈ (inOrder rs).evs := by
  induction rs with
  | nil => cases hr
  | cons a rs ih =>
    rw [inOrder] at h ⊢
    rw [andThen_evs h]
    obtain ⟨h1, h2⟩ := next_andThen h
    rcases List.mem_cons.mp hr with rfl | hr
    · exact ⟨h1, fun e he => List.mem_append_left _ he⟩
    · obtain ⟨i1, i2⟩ := ih h2 hr
      exact ⟨i1, fun e he => List.mem_append_right _ (i2 e he)⟩

end Verif.Mkvalidator
