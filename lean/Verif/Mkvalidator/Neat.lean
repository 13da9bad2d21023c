import Verif.Props.ValidatorFile
import Verif.Ebml.EltLemmas
/-!
What mkvalidator makes of a Segment whose elements are where they are said to be: specification of what it sees, and
lemmas for C205.
-/
set_option linter.unusedSimpArgs false
namespace Verif.Accepted
open Verif Verif.EbmlDoc Verif.Mkvalidator
open Verif.Mkv (Out)

/-- The ID of an element. -/
def docId : Doc → Nat
  | .elem id _ _ => id
  | .group id _ _ _ _ => id

/-- The children of an element. -/
def kids : Doc → List Doc
  | .elem _ _ _ => []
  | .group _ _ _ _ ch => ch

/-- The content of the first child with the given ID that is not a group. -/
def childIn (id : Nat) : List Doc → Option Bytes
  | [] => none
  | .elem i _ p :: ds => if i = id then some p else childIn id ds
  | .group .. :: ds => childIn id ds

def child (id : Nat) (d : Doc) : Option Bytes := childIn id (kids d)

/-- What a reader makes of an entry of a SeekHead in a Segment whose data starts at `data`. -/
def seekOf (data : Int) (d : Doc) : Seek :=
  ⟨((child 0x53AB d).map beNat).getD 0, (child 0x53AC d).map fun v => data + beNat v⟩

/-- The ID of what mkvalidator takes for an element. -/
def bodyId : Body → Nat
  | .cluster _ => 0x1F43B675
  | .seekHead _ => 0x114D9B74
  | .info _ _ => 0x1549A966
  | .tracks _ => 0x1654AE6B
  | .cues _ => 0x1C53BB6B
  | .chapters => 0x1043A770
  | .tags => 0x1254C367
  | .attachments _ => 0x1941A469
  | .void _ => 0xEC
  | .dummy => 0
  | .other => 0

/-- mkvalidator sees the element `d` at `pos`, in a Segment whose data starts at `data`, as `e`. -/
structure Sees (data pos : Int) (d : Doc) (e : Elt) : Prop where
  kind : bodyId e.body = docId d
  start : e.pos = pos
  stop : e.endPos = pos + (encode d).length
  readOk : e.readOk = true
  seek : ∀ s, e.body = .seekHead s → s = (kids d).map (seekOf data)
  cluster : ∀ c, e.body = .cluster c → c.pos = pos ∧ c.prevSize = (child 0xAB d).map (fun v => (beNat v : Int)) ∧
    c.position = (child 0xA7 d).map (fun v => (beNat v : Int))

/-- mkvalidator sees the elements one behind the other from `pos` on. -/
def SeesAll (data : Int) : Int → List Doc → List Elt → Prop
  | _, [], es => es = []
  | pos, d :: ds, es => ∃ e r, es = e :: r ∧ Sees data pos d e ∧ SeesAll data (pos + (encode d).length) ds r

/-- Messages about the place of elements, elements that are missing, double, unknown or not listed: no Info (0x40), no
Tracks (0x41), wrong size of the Segment (0x42), wrong entries of a SeekHead (0x60 to 0x71), an unknown element (0x80),
wrong PrevSize and Position (0xA0 to 0xA2), double elements (0x101 to 0x160), no SeekHead (0x801), entries that are
unknown (0x860) or missing (0x861). -/
def placeCodes : List Nat :=
  [0x40, 0x41, 0x42, 0x60, 0x61, 0x62, 0x63, 0x64, 0x65, 0x66, 0x67, 0x68, 0x69, 0x6A, 0x6B, 0x6C, 0x6D, 0x6E, 0x6F,
   0x70, 0x71, 0x80, 0xA0, 0xA1, 0xA2, 0x100, 0x101, 0x103, 0x110, 0x111, 0x120, 0x121, 0x130, 0x131, 0x140, 0x141,
   0x150, 0x151, 0x160, 0x161, 0x180, 0x801, 0x860, 0x861]

/-- The code of a message. -/
def evCode : Ev → Nat
  | .err c | .lost c | .fatal c | .warn c => c

/-- None of the messages is one of those. -/
def Calm (evs : List Ev) : Prop := ∀ e ∈ evs, evCode e ∉ placeCodes

theorem calm_nil : Calm [] := by intro e h; cases h
theorem calm_one {e : Ev} (h : evCode e ∉ placeCodes) : Calm [e] := by
  intro x hx; rw [List.mem_singleton] at hx; rw [hx]; exact h
theorem calm_append {a b : List Ev} (ha : Calm a) (hb : Calm b) : Calm (a ++ b) := by
  intro e he; rcases List.mem_append.1 he with h | h
  · exact ha e h
  · exact hb e h
theorem calm_andThen {a b : Run} (ha : Calm a.evs) (hb : a.fin = .next → Calm b.evs) : Calm (a.andThen b).evs := by
  unfold Run.andThen
  by_cases h : a.fin = .next
  · rw [if_pos h]; exact calm_append ha (hb h)
  · rw [if_neg h]; exact ha
theorem calm_inOrder {rs : List Run} (h : ∀ r ∈ rs, Calm r.evs) : Calm (inOrder rs).evs := by
  induction rs with
  | nil => exact calm_nil
  | cons a rs ih =>
    rw [inOrder]
    exact calm_andThen (h a (by simp)) fun _ => ih fun x hx => h x (by simp [hx])
theorem calm_ite {p : Prop} [Decidable p] {a b : List Ev} (ha : Calm a) (hb : Calm b) : Calm (if p then a else b) := by
  split
  · exact ha
  · exact hb
theorem calm_flatMap {α : Type} {l : List α} {f : α → List Ev} (h : ∀ x ∈ l, Calm (f x)) : Calm (l.flatMap f) := by
  intro e he
  obtain ⟨x, hx, hxe⟩ := List.mem_flatMap.1 he
  exact h x hx e hxe
theorem calm_runIte {p : Prop} [Decidable p] {a b : Run} (ha : Calm a.evs) (hb : Calm b.evs) : Calm (if p then a else b).evs := by
  split
  · exact ha
  · exact hb

/-- Goals about explicit lists of messages. -/
macro "calm" : tactic =>
  `(tactic| repeat' first
    | exact calm_nil
    | exact calm_one (by decide)
    | apply calm_append
    | apply calm_ite
    | split)

mutual
theorem calm_unknowns : ∀ ks : List Mkvalidator.Node, Calm (unknownEvs ks)
  | [] => by rw [unknownEvs]; exact calm_nil
  | k :: ks => by rw [unknownEvs]; exact calm_append (calm_unknown k) (calm_unknowns ks)
theorem calm_unknown : ∀ k : Mkvalidator.Node, Calm (unknownEv k)
  | .dummy => by rw [unknownEv]; exact calm_one (by decide)
  | .void _ => by rw [unknownEv]; exact calm_nil
  | .leaf => by rw [unknownEv]; exact calm_nil
  | .master ks => by rw [unknownEv]; exact calm_unknowns ks
end

theorem calm_common (e : Elt) : Calm (commonEvs e) := by
  unfold commonEvs
  refine calm_append (calm_unknowns _) ?_
  intro x hx
  obtain ⟨v, _, rfl⟩ := List.mem_map.1 hx
  cases v <;> decide

theorem calm_head (o : Opts) (h : Head) : Calm (headRun o h).evs := by
  unfold headRun
  cases h.read with
  | absent => exact calm_one (by decide)
  | unreadable => exact calm_one (by decide)
  | damaged => exact calm_one (by decide)
  | good =>
    apply calm_inOrder
    intro r hr
    simp only [List.mem_cons, List.not_mem_nil, or_false] at hr
    rcases hr with rfl | rfl | rfl | rfl | rfl | rfl | rfl | rfl
    · exact calm_unknowns _
    · exact calm_ite (calm_one (by decide)) calm_nil
    · exact calm_ite (calm_one (by decide)) calm_nil
    · exact calm_ite (calm_one (by decide)) calm_nil
    · exact calm_runIte (calm_one (by decide)) calm_nil
    · exact calm_ite (calm_one (by decide)) calm_nil
    · exact calm_ite calm_nil (calm_one (by decide))
    · exact calm_runIte calm_nil (calm_one (by decide))

theorem calm_pixel (webm : Bool) (u a b c d : Int) : Calm (pixelEvs webm u a b c d).evs := by
  unfold pixelEvs
  apply calm_runIte
  · cases gcd (b.natAbs + 1) a b with
    | ok g => exact calm_ite (calm_one (by decide)) (calm_ite (calm_one (by decide)) calm_nil)
    | err => exact calm_nil
    | bad => exact calm_nil
    | hang => exact calm_nil
  · exact calm_nil

theorem calm_display (x : Option Int) (u p : Int) : Calm (displayOf x u p).2 := by
  unfold displayOf
  split
  · exact calm_nil
  · split
    · exact calm_one (by decide)
    · exact calm_nil

theorem calm_crop (v : Video) (u a b c d : Int) : Calm (cropEvs v u a b c d) := by
  unfold cropEvs evIfSome
  calm

theorem calm_video (webm : Bool) (v : Option Video) : Calm (checkVideo webm v).evs := by
  cases v with
  | none => exact calm_one (by decide)
  | some v =>
    unfold checkVideo
    refine calm_andThen ?_ fun _ => calm_andThen (calm_pixel _ _ _ _ _ _) fun _ => calm_crop _ _ _ _ _ _
    refine calm_append (calm_append (calm_append (calm_display _ _ _) (calm_display _ _ _)) ?_) ?_
    · exact calm_ite (calm_one (by decide)) calm_nil
    · exact calm_ite (calm_one (by decide)) calm_nil

theorem calm_tracksRun (webm : Bool) (ts : List Track) : Calm (tracksRun webm ts).evs := by
  apply calm_inOrder
  intro r hr
  obtain ⟨t, _, rfl⟩ := List.mem_map.1 hr
  exact calm_runIte (calm_video _ _) calm_nil

theorem calm_links (files : Option (List Int)) : ∀ ls, Calm (linkEvs files ls)
  | [] => by unfold linkEvs; exact calm_nil
  | l :: ls => by
    unfold linkEvs
    cases files with
    | none => exact calm_one (by decide)
    | some fs => exact calm_append (calm_ite calm_nil (calm_one (by decide))) (calm_links _ ls)

theorem calm_tracks (webm : Bool) (files : Option (List Int)) (ts : List Track) : Calm (checkTracks webm files ts) := by
  unfold checkTracks
  apply calm_flatMap
  intro t _
  refine calm_append ?_ (calm_links _ _)
  unfold codecEvs
  dsimp only
  calm

theorem calm_lacing (ts : List Track) (cs : List Cluster) : Calm (checkLacing ts cs) := by
  apply calm_flatMap
  intro c _
  apply calm_flatMap
  intro b _
  unfold laceEvs
  calm

theorem calm_empty (ts : List Track) (cs : List Cluster) : Calm (emptyEvs ts cs) := by
  apply calm_flatMap
  intro c _
  calm

theorem calm_keyLoop (n : Nat) (ts : List Track) (pos : Int) : ∀ (bs : List Blk) (st st' : KeyState) (es : List Ev),
    keyLoop n ts pos st bs = .ok (st', es) → Calm es
  | [], st, st', es, h => by
    unfold keyLoop at h
    cases h
    exact calm_nil
  | b :: bs, st, st', es, h => by
    unfold keyLoop at h
    cases hk : keyStep n ts pos st b with
    | ok p =>
      obtain ⟨s1, e1⟩ := p
      rw [hk] at h
      dsimp only at h
      have he1 : Calm e1 := by
        unfold keyStep at hk
        split at hk
        · cases hk; exact calm_one (by decide)
        · split at hk
          · split at hk
            · cases hk
            · cases hk; exact calm_nil
          · cases hk; exact calm_nil
      cases hl : keyLoop n ts pos s1 bs with
      | ok q =>
        obtain ⟨s2, e2⟩ := q
        rw [hl] at h
        cases h
        exact calm_append he1 (calm_keyLoop n ts pos bs s1 _ _ hl)
      | err => rw [hl] at h; cases h
      | bad => rw [hl] at h; cases h
      | hang => rw [hl] at h; cases h
    | err => rw [hk] at h; cases h
    | bad => rw [hk] at h; cases h
    | hang => rw [hk] at h; cases h

theorem calm_start (n : Nat) (ts : List Track) : ∀ (cs : List Cluster) (prev : Int), Calm (checkVideoStart n ts prev cs).evs
  | [], prev => by rw [checkVideoStart]; exact calm_nil
  | c :: cs, prev => by
    rw [checkVideoStart]
    refine calm_andThen ?_ fun _ => ?_
    · show Calm (timeEvs prev c.ts)
      unfold timeEvs
      calm
    · cases hk : keyLoop n ts c.pos {} c.blocks with
      | ok p =>
        obtain ⟨s, es⟩ := p
        refine calm_andThen (calm_keyLoop _ _ _ _ _ _ _ hk) fun _ => calm_andThen ?_ fun _ => calm_start n ts cs c.ts
        unfold keyEvs
        apply calm_runIte
        · exact calm_nil
        · apply calm_flatMap
          intro i _
          calm
      | err => exact calm_nil
      | bad => exact calm_nil
      | hang => exact calm_nil

theorem calm_cues (scale : Int) (cs : List Cluster) : ∀ (l : List Mkv.Cue) (prev : Int), Calm (checkCues scale cs prev l)
  | [], _ => by rw [checkCues]; exact calm_nil
  | c :: l, prev => by
    rw [checkCues]
    refine calm_append (calm_append ?_ ?_) (calm_cues scale cs l _)
    · exact calm_ite (calm_one (by decide)) calm_nil
    · exact calm_ite (calm_one (by decide)) calm_nil


/-! ### The places of the elements -/

/-- IDs and places of elements that are one behind the other. -/
def placesFrom (pos : Int) : List Doc → List (Nat × Int)
  | [] => []
  | d :: ds => (docId d, pos) :: placesFrom (pos + (encode d).length) ds

theorem placesFrom_append : ∀ (a b : List Doc) (pos : Int),
    placesFrom pos (a ++ b) = placesFrom pos a ++ placesFrom (pos + (encodeList a).length) b
  | [], b, pos => by simp [placesFrom, encodeList]
  | d :: a, b, pos => by
    rw [List.cons_append, placesFrom, placesFrom, placesFrom_append a b, Ebml.encodeList_cons, List.cons_append,
      List.length_append]
    rw [show pos + ((encode d).length : Int) + ((encodeList a).length : Int)
      = pos + (((encode d).length + (encodeList a).length : Nat) : Int) by omega]

theorem placesFrom_ids : ∀ (a : List Doc) (pos : Int), (placesFrom pos a).map (·.1) = a.map docId
  | [], _ => rfl
  | d :: a, pos => by rw [placesFrom, List.map_cons, List.map_cons, placesFrom_ids a]

/-- ID and place of an element as mkvalidator sees it. -/
def key (e : Elt) : Nat × Int := (bodyId e.body, e.pos)

theorem sees_keys (data : Int) : ∀ (ds : List Doc) (pos : Int) (es : List Elt), SeesAll data pos ds es →
    es.map key = placesFrom pos ds
  | [], _, es, h => by rw [SeesAll] at h; rw [h]; rfl
  | d :: ds, pos, es, h => by
    rw [SeesAll] at h
    obtain ⟨e, r, rfl, h1, h2⟩ := h
    rw [List.map_cons, placesFrom, sees_keys data ds _ r h2]
    simp only [key, h1.kind, h1.start]

theorem sees_append (data : Int) : ∀ (a b : List Doc) (pos : Int) (es : List Elt), SeesAll data pos (a ++ b) es →
    ∃ x y, es = x ++ y ∧ SeesAll data pos a x ∧ SeesAll data (pos + (encodeList a).length) b y
  | [], b, pos, es, h => ⟨[], es, rfl, by rw [SeesAll], by simpa [encodeList] using h⟩
  | d :: a, b, pos, es, h => by
    rw [List.cons_append, SeesAll] at h
    obtain ⟨e, r, rfl, h1, h2⟩ := h
    obtain ⟨x, y, rfl, hx, hy⟩ := sees_append data a b _ r h2
    refine ⟨e :: x, y, rfl, ?_, ?_⟩
    · rw [SeesAll]; exact ⟨e, x, rfl, h1, hx⟩
    · rw [Ebml.encodeList_cons, List.length_append]
      rw [show pos + (((encode d).length + (encodeList a).length : Nat) : Int)
        = pos + ((encode d).length : Int) + ((encodeList a).length : Int) by omega]
      exact hy

theorem sees_ok (data : Int) : ∀ (ds : List Doc) (pos : Int) (es : List Elt), SeesAll data pos ds es →
    ∀ e ∈ es, e.readOk = true
  | [], _, es, h, e, he => by rw [SeesAll] at h; rw [h] at he; cases he
  | d :: ds, pos, es, h, e, he => by
    rw [SeesAll] at h
    obtain ⟨e0, r, rfl, h1, h2⟩ := h
    rcases List.mem_cons.1 he with rfl | he
    · exact h1.readOk
    · exact sees_ok data ds _ r h2 e he

theorem sees_last (data : Int) : ∀ (ds : List Doc) (pos : Int) (es : List Elt), SeesAll data pos ds es →
    ∀ e, es.getLast? = some e → e.endPos = pos + (encodeList ds).length
  | [], _, es, h, e, he => by rw [SeesAll] at h; rw [h] at he; cases he
  | d :: ds, pos, es, h, e, he => by
    rw [SeesAll] at h
    obtain ⟨e0, r, rfl, h1, h2⟩ := h
    rw [Ebml.encodeList_cons, List.length_append]
    cases hr : r with
    | nil =>
      rw [hr] at he h2
      simp only [List.getLast?_singleton, Option.some.injEq] at he
      cases ds with
      | nil => rw [← he, h1.stop]; simp [encodeList]
      | cons d2 ds => rw [SeesAll] at h2; obtain ⟨_, _, h3, _⟩ := h2; cases h3
    | cons e1 r1 =>
      rw [hr] at he
      rw [List.getLast?_cons_cons] at he
      have := sees_last data ds _ r h2 e (by rw [hr]; exact he)
      omega

/-- The place of the first element with an ID. -/
def placeOf (id : Nat) (l : List (Nat × Int)) : Option Int := (l.find? fun k => k.1 == id).map (·.2)

theorem firstOf_place {α : Type} (g : Body → Option α) (id : Nat) (hg : ∀ b, (g b).isSome = (bodyId b == id)) (es : List Elt) :
    (firstOf g es).map (·.1) = placeOf id (es.map key) := by
  unfold placeOf firstOf
  induction es with
  | nil => rfl
  | cons e es ih =>
    rw [List.findSome?_cons, List.map_cons, List.find?_cons]
    have h := hg e.body
    simp only [key]
    cases hb : g e.body with
    | none =>
      rw [hb] at h
      rw [show (bodyId e.body == id) = false from h.symm]
      exact ih
    | some a =>
      rw [hb] at h
      rw [show (bodyId e.body == id) = true from h.symm]
      rfl

theorem isClu : ∀ b : Body, b.clusterOf.isSome = (bodyId b == 0x1F43B675) := by intro b; cases b <;> rfl

theorem clusters_place (es : List Elt) :
    (es.filterMap fun e => e.body.clusterOf.map fun _ => e.pos)
      = ((es.map key).filter fun k => k.1 == 0x1F43B675).map (·.2) := by
  induction es with
  | nil => rfl
  | cons e es ih =>
    rw [List.filterMap_cons, List.map_cons, List.filter_cons]
    have h := isClu e.body
    cases hc : e.body.clusterOf with
    | none =>
      rw [hc] at h
      rw [if_neg (show ¬ ((key e).1 == 0x1F43B675) = true by show ¬ (bodyId e.body == 0x1F43B675) = true; rw [← h]; simp)]
      exact ih
    | some c =>
      rw [hc] at h
      rw [if_pos (show ((key e).1 == 0x1F43B675) = true from h.symm), List.map_cons, ← ih]
      rfl

theorem placeOf_mem {id : Nat} {p : Int} {a b : List (Nat × Int)} (hn : (a.map (·.1)).Nodup) (h : (id, p) ∈ a) :
    placeOf id (a ++ b) = some p := by
  unfold placeOf
  induction a with
  | nil => cases h
  | cons x a ih =>
    rw [List.map_cons, List.nodup_cons] at hn
    rw [List.cons_append, List.find?_cons]
    rcases List.mem_cons.1 h with rfl | h
    · simp
    · have : (x.1 == id) = false := by
        rw [beq_eq_false_iff_ne]
        intro hx
        exact hn.1 (hx ▸ List.mem_map_of_mem h)
      rw [this]
      exact ih hn.2 h

theorem placeOf_some {id : Nat} {p : Int} {l : List (Nat × Int)} (h : placeOf id l = some p) : (id, p) ∈ l := by
  unfold placeOf at h
  cases hf : l.find? fun k => k.1 == id with
  | none => rw [hf] at h; cases h
  | some x =>
    rw [hf] at h
    simp only [Option.map_some, Option.some.injEq] at h
    have h1 := List.mem_of_find?_eq_some hf
    have h2 := List.find?_some hf
    simp only [beq_iff_eq] at h2
    rw [← h, ← h2]
    exact h1

/-! ### The loop over the elements -/

/-- The IDs mkclean writes into a Segment. -/
def knownIds : List Nat :=
  [0x1F43B675, 0x114D9B74, 0x1549A966, 0x1654AE6B, 0x1C53BB6B, 0x1043A770, 0x1254C367, 0x1941A469, 0xEC]

/-- No element is there twice but Clusters and Voids. -/
def Once (es : List Elt) : Prop :=
  ∀ l e r, es = l ++ e :: r → bodyId e.body ≠ 0x1F43B675 → bodyId e.body ≠ 0xEC → ∀ x ∈ l, bodyId x.body ≠ bodyId e.body

theorem firstOf_none {α : Type} (g : Body → Option α) (id : Nat) (hg : ∀ b, (g b).isSome = (bodyId b == id)) {es : List Elt}
    (h : ∀ x ∈ es, bodyId x.body ≠ id) : firstOf g es = none := by
  have := firstOf_place g id hg es
  have h2 : placeOf id (es.map key) = none := by
    cases hp : placeOf id (es.map key) with
    | none => rfl
    | some p =>
      have := placeOf_some hp
      obtain ⟨x, hx, hk⟩ := List.mem_map.1 this
      simp only [key, Prod.mk.injEq] at hk
      exact absurd hk.1 (h x hx)
  rw [h2] at this
  cases hf : firstOf g es with
  | none => rfl
  | some x => rw [hf] at this; cases this

theorem isSeek : ∀ b : Body, b.seekOf.isSome = (bodyId b == 0x114D9B74) := by intro b; cases b <;> rfl
theorem isInfo : ∀ b : Body, b.scaleOf.isSome = (bodyId b == 0x1549A966) := by intro b; cases b <;> rfl
theorem isTracks : ∀ b : Body, b.tracksOf.isSome = (bodyId b == 0x1654AE6B) := by intro b; cases b <;> rfl
theorem isCues : ∀ b : Body, b.cuesOf.isSome = (bodyId b == 0x1C53BB6B) := by intro b; cases b <;> rfl
theorem isFiles : ∀ b : Body, b.filesOf.isSome = (bodyId b == 0x1941A469) := by intro b; cases b <;> rfl
theorem isChapters : ∀ b : Body, b.chaptersOf.isSome = (bodyId b == 0x1043A770) := by intro b; cases b <;> rfl
theorem isTags : ∀ b : Body, b.tagsOf.isSome = (bodyId b == 0x1254C367) := by intro b; cases b <;> rfl

theorem calm_taken (st : St) (e : Elt) (f : St → St) {more : Run} (h : Calm more.evs) : Calm (taken st e f more).2.evs :=
  calm_andThen (calm_common e) fun _ => h

/-- One element that is there for the first time and can be read. -/
theorem step_calm (o : Opts) (webm : Bool) (hl : o.live = false) (st : St) (e : Elt) (done : List Elt) (hk : Known done st)
    (h2 : st.found.seekHead2 = none) (hok : e.readOk = true) (hid : bodyId e.body ∈ knownIds)
    (hnew : bodyId e.body ≠ 0x1F43B675 → bodyId e.body ≠ 0xEC → ∀ x ∈ done, bodyId x.body ≠ bodyId e.body) :
    Calm (eltStep o webm st e).2.evs ∧ (eltStep o webm st e).1.found.seekHead2 = none
    ∧ (bodyId e.body ≠ 0xEC → (eltStep o webm st e).1.prev = some e.endPos) := by
  unfold eltStep
  cases hb : e.body with
  | cluster c =>
    simp only [hok, Bool.not_true, Bool.false_eq_true, if_false]
    exact ⟨calm_taken _ _ _ calm_nil, h2, fun _ => rfl⟩
  | seekHead s =>
    rw [hb] at hnew
    simp only [bodyId] at hnew
    have hn := hnew (by decide) (by decide)
    have : st.found.seekHead = none := by rw [hk.seekHead, firstOf_none _ _ isSeek hn]; rfl
    simp only [hok, hl, this, Bool.not_true, Bool.false_eq_true, if_false, Option.isNone_none, if_true]
    exact ⟨calm_taken _ _ _ calm_nil, h2, fun _ => rfl⟩
  | info a b =>
    rw [hb] at hnew
    simp only [bodyId] at hnew
    have hn := hnew (by decide) (by decide)
    have : st.found.info = none := by rw [hk.info, firstOf_none _ _ isInfo hn]; rfl
    simp only [hok, hl, this, Bool.not_true, Bool.false_eq_true, if_false, Option.isSome_none, if_true, Bool.false_and]
    exact ⟨calm_taken _ _ _ calm_nil, h2, fun _ => rfl⟩
  | tracks ts =>
    rw [hb] at hnew
    simp only [bodyId] at hnew
    have hn := hnew (by decide) (by decide)
    have : st.found.tracks = none := by rw [hk.tracks, firstOf_none _ _ isTracks hn]; rfl
    simp only [hok, hl, this, Bool.not_true, Bool.false_eq_true, if_false, Option.isSome_none, if_true]
    exact ⟨calm_taken _ _ _ (calm_tracksRun _ _), h2, fun _ => rfl⟩
  | cues cs =>
    rw [hb] at hnew
    simp only [bodyId] at hnew
    have hn := hnew (by decide) (by decide)
    have : st.found.cues = none := by rw [hk.cues, firstOf_none _ _ isCues hn]; rfl
    simp only [hok, hl, this, Bool.not_true, Bool.false_eq_true, if_false, Option.isSome_none, if_true]
    exact ⟨calm_taken _ _ _ calm_nil, h2, fun _ => rfl⟩
  | chapters =>
    rw [hb] at hnew
    simp only [bodyId] at hnew
    have hn := hnew (by decide) (by decide)
    have : st.found.chapters = none := by rw [hk.chapters, firstOf_none _ _ isChapters hn]; rfl
    simp only [hok, hl, this, Bool.not_true, Bool.false_eq_true, if_false, Option.isSome_none, if_true]
    exact ⟨calm_taken _ _ _ calm_nil, h2, fun _ => rfl⟩
  | tags =>
    rw [hb] at hnew
    simp only [bodyId] at hnew
    have hn := hnew (by decide) (by decide)
    have : st.found.tags = none := by rw [hk.tags, firstOf_none _ _ isTags hn]; rfl
    simp only [hok, hl, this, Bool.not_true, Bool.false_eq_true, if_false, Option.isSome_none, if_true]
    exact ⟨calm_taken _ _ _ calm_nil, h2, fun _ => rfl⟩
  | attachments fs =>
    rw [hb] at hnew
    simp only [bodyId] at hnew
    have hn := hnew (by decide) (by decide)
    have : st.found.attachments = none := by rw [hk.attachments, firstOf_none _ _ isFiles hn]; rfl
    simp only [hok, hl, this, Bool.not_true, Bool.false_eq_true, if_false, Option.isSome_none, if_true]
    exact ⟨calm_taken _ _ _ calm_nil, h2, fun _ => rfl⟩
  | void n => exact ⟨calm_nil, h2, fun h => absurd rfl h⟩
  | dummy => rw [hb] at hid; exact absurd hid (by decide)
  | other => rw [hb] at hid; exact absurd hid (by decide)

theorem loop_calm (o : Opts) (webm : Bool) (hl : o.live = false) : ∀ (es done : List Elt) (st : St), Known done st →
    st.found.seekHead2 = none → (∀ e ∈ es, e.readOk = true ∧ bodyId e.body ∈ knownIds) → Once (done ++ es) →
    Calm (eltLoop o webm st es).2.evs
    ∧ ((eltLoop o webm st es).2.fin = .next → (eltLoop o webm st es).1.found.seekHead2 = none
      ∧ ∀ e, es.getLast? = some e → bodyId e.body ≠ 0xEC → (eltLoop o webm st es).1.prev = some e.endPos)
  | [], done, st, hk, h2, ho, hd => by
    rw [eltLoop]
    exact ⟨calm_nil, fun _ => ⟨h2, fun e he => by cases he⟩⟩
  | e :: es, done, st, hk, h2, ho, hd => by
    have hs := step_calm o webm hl st e done hk h2 (ho e (by simp)).1 (ho e (by simp)).2 (hd done e es rfl)
    have hkn := known_step o webm st e done hl hk
    rw [eltLoop]
    generalize eltStep o webm st e = p at hs hkn ⊢
    obtain ⟨st1, r⟩ := p
    dsimp only at hs hkn ⊢
    by_cases hr : r.fin = .next
    · rw [if_pos hr]
      have ih := loop_calm o webm hl es (done ++ [e]) st1 (hkn hr) hs.2.1 (fun x hx => ho x (by simp [hx]))
        (by rw [List.append_assoc]; exact hd)
      dsimp only
      refine ⟨calm_andThen hs.1 fun _ => ih.1, fun hn => ?_⟩
      have := ih.2 (next_andThen hn).2
      refine ⟨this.1, fun x hx hv => ?_⟩
      cases es with
      | nil =>
        simp only [List.getLast?_singleton, Option.some.injEq] at hx
        subst hx
        exact hs.2.2 hv
      | cons y ys =>
        rw [List.getLast?_cons_cons] at hx
        exact this.2 x hx hv
    · rw [if_neg hr]
      exact ⟨hs.1, fun h => absurd h hr⟩

/-! ### PrevSize and the SeekHead -/

/-- Clusters without Position whose PrevSize, if they have one, is the size of the Cluster before, which takes `prev`
bytes. -/
def Chained : Option Nat → List Doc → Prop
  | _, [] => True
  | prev, d :: ds => docId d = 0x1F43B675 ∧ child 0xA7 d = none ∧ (∀ v, child 0xAB d = some v → prev = some (beNat v)) ∧
    Chained (some (encode d).length) ds

theorem posSize_ok (data : Int) : ∀ (ds : List Doc) (n : Option Nat) (pos : Int) (es : List Elt), SeesAll data pos ds es →
    Chained n ds → checkPosSize data (n.map fun k : Nat => pos - (k : Int)) (es.filterMap fun e => e.body.clusterOf) = []
  | [], n, pos, es, h, _ => by rw [SeesAll] at h; rw [h]; rfl
  | d :: ds, n, pos, es, h, hc => by
    rw [SeesAll] at h
    obtain ⟨e, r, rfl, h1, h2⟩ := h
    rw [Chained] at hc
    obtain ⟨c1, c2, c3, c4⟩ := hc
    have hk := isClu e.body
    rw [h1.kind, c1] at hk
    cases hb : e.body with
    | cluster c =>
      have hcl := h1.cluster c hb
      have ih := posSize_ok data ds (some (encode d).length) _ r h2 c4
      have hp : (some (encode d).length).map (fun k : Nat => pos + ((encode d).length : Int) - (k : Int)) = some pos := by
        rw [Option.map_some]; congr 1; omega
      rw [hp] at ih
      have hfm : (e :: r).filterMap (fun e => e.body.clusterOf) = c :: r.filterMap (fun e => e.body.clusterOf) := by
        rw [List.filterMap_cons, hb]; rfl
      rw [hfm, checkPosSize, hcl.2.2, hcl.2.1, c2, hcl.1, ih]
      simp only [Option.map_none, List.append_nil]
      cases hv : child 0xAB d with
      | none => rfl
      | some v =>
        rw [c3 v hv]
        simp only [Option.map_some]
        rw [if_neg (by omega)]
    | _ => rw [hb] at hk; exact absurd hk (by simp [Body.clusterOf])

/-- The six kinds of element that a SeekHead of mkclean lists apart from Clusters. -/
def listedIds : List Nat := [0x1549A966, 0x1654AE6B, 0x1043A770, 0x1941A469, 0x1254C367, 0x1C53BB6B]

/-- A Segment whose data starts at `data`: a SeekHead `S`, a Void `V`, some of the listed elements `M`, each at most
once, and Clusters `K`. The SeekHead has an entry with the place of each element of `M` and of the first Cluster. -/
structure Neat (data : Int) (S V : Doc) (M K : List Doc) : Prop where
  seekHead : docId S = 0x114D9B74
  void : docId V = 0xEC
  ids : ∀ d ∈ M, docId d ∈ listedIds
  once : (M.map docId).Nodup
  info : 0x1549A966 ∈ M.map docId
  tracks : 0x1654AE6B ∈ M.map docId
  clusters : ∀ d ∈ K, docId d = 0x1F43B675
  chained : Chained none K
  entries : (kids S).map (seekOf data) =
    (placesFrom (data + (encode S).length + (encode V).length) (M ++ K.take 1)).map fun x => ⟨x.1, some x.2⟩

theorem places_mem {pos : Int} {ds : List Doc} {x : Nat × Int} (h : x ∈ placesFrom pos ds) : ∃ d ∈ ds, docId d = x.1 := by
  have h1 : x.1 ∈ ds.map docId := by rw [← placesFrom_ids ds pos]; exact List.mem_map_of_mem h
  obtain ⟨d, hd, he⟩ := List.mem_map.1 h1
  exact ⟨d, hd, he⟩

/-- The places of a neat Segment. -/
theorem Neat.places {data : Int} {S V : Doc} {M K : List Doc} (h : Neat data S V M K) :
    placesFrom data (S :: V :: (M ++ K)) = (0x114D9B74, data) :: (0xEC, data + (encode S).length) ::
      (placesFrom (data + (encode S).length + (encode V).length) M ++
        placesFrom (data + (encode S).length + (encode V).length + (encodeList M).length) K) := by
  rw [placesFrom, placesFrom, placesFrom_append, h.seekHead, h.void]

theorem Neat.placeOf {data : Int} {S V : Doc} {M K : List Doc} (h : Neat data S V M K) {id : Nat} {p : Int}
    (hm : (id, p) ∈ placesFrom (data + (encode S).length + (encode V).length) M) :
    placeOf id (placesFrom data (S :: V :: (M ++ K))) = some p := by
  have hid : id ∈ listedIds := by
    obtain ⟨d, hd, he⟩ := places_mem hm
    have he' : docId d = id := he
    rw [← he']; exact h.ids d hd
  have h1 : ((0x114D9B74 : Nat) == id) = false := by
    rw [beq_eq_false_iff_ne]; rintro rfl; exact absurd hid (by decide)
  have h2 : ((0xEC : Nat) == id) = false := by
    rw [beq_eq_false_iff_ne]; rintro rfl; exact absurd hid (by decide)
  rw [h.places]
  have := placeOf_mem (b := placesFrom (data + (encode S).length + (encode V).length + (encodeList M).length) K)
    (by rw [placesFrom_ids]; exact h.once) hm
  unfold Accepted.placeOf at this ⊢
  rw [List.find?_cons, List.find?_cons]
  simp only [h1, h2]
  exact this

/-- What is found is listed. -/
theorem Neat.found {data : Int} {S V : Doc} {M K : List Doc} (h : Neat data S V M K) {id : Nat} {p : Int} (hid : id ∈ listedIds)
    (hf : Accepted.placeOf id (placesFrom data (S :: V :: (M ++ K))) = some p) :
    (id, p) ∈ placesFrom (data + (encode S).length + (encode V).length) M := by
  have := placeOf_some hf
  rw [h.places] at this
  simp only [List.mem_cons, List.mem_append, Prod.mk.injEq] at this
  rcases this with ⟨rfl, _⟩ | ⟨rfl, _⟩ | h1 | h1
  · exact absurd hid (by decide)
  · exact absurd hid (by decide)
  · exact h1
  · obtain ⟨d, hd, he⟩ := places_mem h1
    rw [h.clusters d hd] at he
    simp only at he
    subst he
    exact absurd hid (by decide)

theorem refEvs_right {x : Option Int} {p : Int} {a b : Nat} (h : x = some p) : refEvs x p a b = [] := by
  rw [h]; simp [refEvs]

/-- `CheckSeekHead` says nothing about a neat Segment. -/
theorem Neat.seek_ok {data : Int} {S V : Doc} {M K : List Doc} (h : Neat data S V M K) {es : List Elt}
    (hs : SeesAll data data (S :: V :: (M ++ K)) es) {st : St} (hk : Known es st) (h2 : st.found.seekHead2 = none) (self : Int) :
    checkSeekHead st.found self true ((kids S).map (seekOf data)) = [] := by
  have hkeys := sees_keys data _ _ _ hs
  have fi : st.found.info = _ := hk.info.trans (firstOf_place _ _ isInfo es)
  have ft : st.found.tracks = _ := hk.tracks.trans (firstOf_place _ _ isTracks es)
  have fc : st.found.cues = _ := hk.cues.trans (firstOf_place _ _ isCues es)
  have fg : st.found.tags = _ := hk.tags.trans (firstOf_place _ _ isTags es)
  have fh : st.found.chapters = _ := hk.chapters.trans (firstOf_place _ _ isChapters es)
  have fa : st.found.attachments = _ := hk.attachments.trans (firstOf_place _ _ isFiles es)
  have fk : st.found.clusters = _ := hk.places.trans (clusters_place es)
  rw [hkeys] at fi ft fc fg fh fa fk
  have hE := h.entries
  unfold checkSeekHead
  rw [if_pos rfl]
  have hentries : ((kids S).map (seekOf data)).flatMap (seekEvs st.found self true) = [] := by
    rw [List.flatMap_eq_nil_iff]
    intro s hsm
    rw [hE] at hsm
    obtain ⟨x, hx, rfl⟩ := List.mem_map.1 hsm
    rw [placesFrom_append] at hx
    rcases List.mem_append.1 hx with hx | hx
    · obtain ⟨id, p⟩ := x
      have hid : id ∈ listedIds := by
        obtain ⟨d, hd, he⟩ := places_mem hx
        have he' : docId d = id := he
        rw [← he']; exact h.ids d hd
      have hp := h.placeOf hx
      simp only [listedIds, List.mem_cons, List.not_mem_nil, or_false] at hid
      rcases hid with rfl | rfl | rfl | rfl | rfl | rfl
      · have := refEvs_right (a := 0x62) (b := 0x63) (fi.trans hp)
        simpa [seekEvs, idInfo, idTracks, idCues, idTags, idChapters, idAttachments] using this
      · have := refEvs_right (a := 0x64) (b := 0x65) (ft.trans hp)
        simpa [seekEvs, idInfo, idTracks, idCues, idTags, idChapters, idAttachments] using this
      · have := refEvs_right (a := 0x6A) (b := 0x6B) (fh.trans hp)
        simpa [seekEvs, idInfo, idTracks, idCues, idTags, idChapters, idAttachments] using this
      · have := refEvs_right (a := 0x6C) (b := 0x6D) (fa.trans hp)
        simpa [seekEvs, idInfo, idTracks, idCues, idTags, idChapters, idAttachments] using this
      · have := refEvs_right (a := 0x68) (b := 0x69) (fg.trans hp)
        simpa [seekEvs, idInfo, idTracks, idCues, idTags, idChapters, idAttachments] using this
      · have := refEvs_right (a := 0x66) (b := 0x67) (fc.trans hp)
        simpa [seekEvs, idInfo, idTracks, idCues, idTags, idChapters, idAttachments] using this
    · cases K with
      | nil => rw [List.take_nil, placesFrom] at hx; cases hx
      | cons k ks =>
        rw [List.take_succ_cons, List.take_zero, placesFrom, placesFrom, List.mem_singleton] at hx
        have hkid := h.clusters k (by simp)
        have : st.found.clusters.contains x.2 = true := by
          rw [fk, h.places, hx]
          simp [placesFrom, hkid]
        rw [hx] at this ⊢
        simp only [hkid] at this ⊢
        simp [seekEvs, idInfo, idTracks, idCues, idTags, idChapters, idAttachments, idSeekHead, idCluster] at this ⊢
        simp [this]
  have hun : ∀ (id : Nat) (f : Option Int), id ∈ listedIds → f = Accepted.placeOf id (placesFrom data (S :: V :: (M ++ K))) →
      unref ((kids S).map (seekOf data)) id f = [] := by
    intro id f hid hf
    unfold unref
    cases hp : f with
    | none => simp
    | some p =>
      have hin := h.found hid (hf.symm.trans hp)
      rw [if_neg]
      simp only [Option.isSome_some, Bool.true_and, Bool.not_eq_true', Bool.not_eq_false]
      rw [hE, List.any_eq_true]
      refine ⟨⟨id, some p⟩, List.mem_map.2 ⟨(id, p), ?_, rfl⟩, by simp⟩
      rw [placesFrom_append]
      exact List.mem_append_left _ hin
  rw [hentries, hun idInfo _ (by decide) fi, hun idTracks _ (by decide) ft, hun idCues _ (by decide) fc,
    hun idTags _ (by decide) fg, hun idChapters _ (by decide) fh, hun idAttachments _ (by decide) fa, h2]
  rfl

/-- The IDs of a neat Segment. -/
theorem Neat.known {data : Int} {S V : Doc} {M K : List Doc} (h : Neat data S V M K) {es : List Elt}
    (hs : SeesAll data data (S :: V :: (M ++ K)) es) : ∀ e ∈ es, e.readOk = true ∧ bodyId e.body ∈ knownIds := by
  intro e he
  refine ⟨sees_ok _ _ _ _ hs e he, ?_⟩
  have hmem : key e ∈ placesFrom data (S :: V :: (M ++ K)) := by
    rw [← sees_keys data _ _ _ hs]; exact List.mem_map_of_mem he
  obtain ⟨d, hd, hid⟩ := places_mem hmem
  have hid' : docId d = bodyId e.body := hid
  rw [← hid']
  simp only [List.mem_cons, List.mem_append] at hd
  rcases hd with rfl | rfl | hd | hd
  · rw [h.seekHead]; decide
  · rw [h.void]; decide
  · have := h.ids d hd
    generalize docId d = x at this
    simp only [listedIds, List.mem_cons, List.not_mem_nil, or_false] at this
    rcases this with rfl | rfl | rfl | rfl | rfl | rfl <;> decide
  · rw [h.clusters d hd]; decide

theorem Neat.only_once {data : Int} {S V : Doc} {M K : List Doc} (h : Neat data S V M K) {es : List Elt}
    (hs : SeesAll data data (S :: V :: (M ++ K)) es) : Once es := by
  intro l e r hes hc hv x hx heq
  have hkeys := sees_keys data _ _ _ hs
  have hids : es.map (fun e => bodyId e.body) = (S :: V :: (M ++ K)).map docId := by
    have := congrArg (List.map (·.1)) hkeys
    rw [placesFrom_ids, List.map_map] at this
    exact this
  rw [hes] at hids
  simp only [List.map_append, List.map_cons, h.seekHead, h.void] at hids
  -- the IDs without those of Clusters and Voids
  have hf := congrArg (List.filter fun i => i != 0x1F43B675 && i != 0xEC) hids
  have hK : (K.map docId).filter (fun i => i != 0x1F43B675 && i != 0xEC) = [] := by
    rw [List.filter_eq_nil_iff]
    intro i hi
    obtain ⟨d, hd, rfl⟩ := List.mem_map.1 hi
    rw [h.clusters d hd]; decide
  have hM : (M.map docId).filter (fun i => i != 0x1F43B675 && i != 0xEC) = M.map docId := by
    rw [List.filter_eq_self]
    intro i hi
    obtain ⟨d, hd, rfl⟩ := List.mem_map.1 hi
    have := h.ids d hd
    generalize docId d = x at this
    simp only [listedIds, List.mem_cons, List.not_mem_nil, or_false] at this
    rcases this with rfl | rfl | rfl | rfl | rfl | rfl <;> decide
  have hrhs : (List.filter (fun i : Nat => i != 0x1F43B675 && i != 0xEC)
      (0x114D9B74 :: 0xEC :: (M.map docId ++ K.map docId))).Nodup := by
    rw [List.filter_cons_of_pos (by decide), List.filter_cons_of_neg (by decide), List.filter_append, hK, hM, List.append_nil,
      List.nodup_cons]
    refine ⟨?_, h.once⟩
    intro hi
    obtain ⟨d, hd, he⟩ := List.mem_map.1 hi
    have := h.ids d hd
    rw [he] at this
    exact absurd this (by decide)
  rw [← hf, List.filter_append, List.filter_cons_of_pos (by simp [hc, hv]), List.nodup_append] at hrhs
  refine hrhs.2.2 (bodyId e.body) ?_ (bodyId e.body) (by simp) rfl
  rw [List.mem_filter]
  exact ⟨List.mem_map.2 ⟨x, hx, heq⟩, by simp [hc, hv]⟩

/-- mkvalidator, run over a neat Segment, has nothing to say about the places of its elements. -/
theorem Neat.accepted {data : Int} {S V : Doc} {M K : List Doc} (h : Neat data S V M K) (o : Opts) (hl : o.live = false)
    (fits : Nat → Bool) (f : File) (hs : SeesAll data data (S :: V :: (M ++ K)) f.elts) (hd : f.dataPos = data)
    (he : f.segEnd = some (data + (encodeList (S :: V :: (M ++ K))).length)) : Calm (validate o fits f).evs := by
  unfold validate
  refine calm_andThen (calm_head _ _) fun _ => ?_
  have hlc := loop_calm o f.head.webm hl f.elts [] { void := voidAmount f.head.nodes } (known_nil _) rfl (h.known hs)
    (by rw [List.nil_append]; exact h.only_once hs)
  have hkn := known_loop o f.head.webm hl f.elts { void := voidAmount f.head.nodes } [] (known_nil _)
  generalize eltLoop o f.head.webm { void := voidAmount f.head.nodes } f.elts = p at hlc hkn
  obtain ⟨st, r⟩ := p
  dsimp only at hlc hkn ⊢
  refine calm_andThen hlc.1 fun hn => ?_
  obtain ⟨h2, hprev⟩ := hlc.2 hn
  have hk := hkn hn
  rw [List.nil_append] at hk
  have hkeys := sees_keys data _ _ _ hs
  obtain ⟨e0, hM0⟩ : ∃ p, (0x1549A966, p) ∈ placesFrom (data + (encode S).length + (encode V).length) M := by
    have := h.info
    rw [← placesFrom_ids M (data + (encode S).length + (encode V).length)] at this
    obtain ⟨x, hx, hx1⟩ := List.mem_map.1 this
    exact ⟨x.2, by rw [← hx1]; exact hx⟩
  have hinfo : st.found.info = some e0 := by
    rw [hk.info, firstOf_place _ _ isInfo, hkeys, h.placeOf hM0]
  obtain ⟨e1, hM1⟩ : ∃ p, (0x1654AE6B, p) ∈ placesFrom (data + (encode S).length + (encode V).length) M := by
    have := h.tracks
    rw [← placesFrom_ids M (data + (encode S).length + (encode V).length)] at this
    obtain ⟨x, hx, hx1⟩ := List.mem_map.1 this
    exact ⟨x.2, by rw [← hx1]; exact hx⟩
  have htracks : st.found.tracks = some e1 := by
    rw [hk.tracks, firstOf_place _ _ isTracks, hkeys, h.placeOf hM1]
  -- the SeekHead is the first element
  have hs0 := hs
  rw [SeesAll] at hs0
  obtain ⟨es, er, hes, hse, hsr⟩ := hs0
  have hsb : ∃ s, es.body = .seekHead s := by
    have := hse.kind
    rw [h.seekHead] at this
    cases hb : es.body with
    | seekHead s => exact ⟨s, rfl⟩
    | _ => rw [hb] at this; simp [bodyId] at this
  obtain ⟨s, hsb⟩ := hsb
  have hfirst : firstOf Body.seekOf f.elts = some (es.pos, s) := by
    rw [hes, firstOf, List.findSome?_cons, hsb]; rfl
  have hseek : st.found.seekHead = some es.pos := by rw [hk.seekHead, hfirst]; rfl
  have hseeks : st.seeks = (kids S).map (seekOf data) := by rw [hk.seeks, hfirst, ← hse.seek s hsb]; rfl
  unfold segmentRun
  rw [if_neg (by rw [hinfo]; simp)]
  apply calm_inOrder
  intro r hr
  simp only [List.mem_cons, List.not_mem_nil, or_false] at hr
  rcases hr with rfl | rfl | rfl | rfl | rfl | rfl | rfl
  · -- the end of the Segment
    rw [he]
    cases hp : st.prev with
    | none => exact calm_nil
    | some p =>
      dsimp only
      obtain ⟨l, hlast⟩ : ∃ l, f.elts.getLast? = some l := by
        rw [hes]; exact ⟨_, List.getLast?_cons⟩
      have hend := sees_last data _ _ _ hs l hlast
      have hnv : bodyId l.body ≠ 0xEC := by
        -- the last element is one of `M` or `K`
        have hne : M ++ K ≠ [] := by
          intro hnil
          have := h.info
          rw [(List.append_eq_nil_iff.1 hnil).1] at this
          cases this
        have hids : f.elts.map (fun e => bodyId e.body) = (S :: V :: (M ++ K)).map docId := by
          have := congrArg (List.map (·.1)) hkeys
          rw [placesFrom_ids, List.map_map] at this
          exact this
        have hl2 := congrArg List.getLast? hids
        rw [List.getLast?_map, List.getLast?_map, hlast] at hl2
        obtain ⟨y, ys, hyy⟩ := List.exists_cons_of_ne_nil hne
        have hlast2 : (S :: V :: (M ++ K)).getLast? = (M ++ K).getLast? := by
          rw [hyy, List.getLast?_cons_cons, List.getLast?_cons_cons]
        rw [hlast2] at hl2
        cases hg : (M ++ K).getLast? with
        | none => rw [List.getLast?_eq_none_iff] at hg; exact absurd hg hne
        | some d =>
          rw [hg] at hl2
          simp only [Option.map_some, Option.some.injEq] at hl2
          rw [hl2]
          rcases List.mem_append.1 (List.mem_of_getLast? hg) with hd | hd
          · intro h0
            have := h.ids d hd
            rw [h0] at this
            exact absurd this (by decide)
          · rw [h.clusters d hd]; decide
      have := hprev l hlast hnv
      rw [hp] at this
      simp only [Option.some.injEq] at this
      rw [this, hend, if_neg (by simp)]
      exact calm_nil
  · rw [hseek, hseeks]
    dsimp only
    rw [h.seek_ok hs hk h2]
    exact calm_nil
  · rw [h2]; exact calm_nil
  · unfold clustersRun
    apply calm_runIte
    · exact calm_nil
    · apply calm_inOrder
      intro r hr
      simp only [List.mem_cons, List.not_mem_nil, or_false] at hr
      rcases hr with rfl | rfl | rfl | rfl | rfl | rfl
      · unfold linkRun; exact calm_runIte calm_nil calm_nil
      · exact calm_runIte (calm_start _ _ _ _) calm_nil
      · exact calm_lacing _ _
      · rw [hd, hk.clusters]
        have hsplit := hs
        rw [show S :: V :: (M ++ K) = (S :: V :: M) ++ K by simp] at hsplit
        obtain ⟨x, y, hxy, hx, hy⟩ := sees_append data _ _ _ _ hsplit
        have hx0 : x.filterMap (fun e => e.body.clusterOf) = [] := by
          rw [List.filterMap_eq_nil_iff]
          intro e he'
          have hmem : key e ∈ placesFrom data (S :: V :: M) := by
            rw [← sees_keys data _ _ _ hx]; exact List.mem_map_of_mem he'
          obtain ⟨d, hdm, hid⟩ := places_mem hmem
          have hid' : docId d = bodyId e.body := hid
          have hi := isClu e.body
          rw [← hid'] at hi
          simp only [List.mem_cons] at hdm
          have : (docId d == 0x1F43B675) = false := by
            rw [beq_eq_false_iff_ne]
            rcases hdm with rfl | rfl | hdm
            · rw [h.seekHead]; decide
            · rw [h.void]; decide
            · intro h0
              have := h.ids d hdm
              rw [h0] at this
              exact absurd this (by decide)
          rw [this] at hi
          cases hc : e.body.clusterOf with
          | none => rfl
          | some c => rw [hc] at hi; cases hi
        rw [hxy, List.filterMap_append, hx0, List.nil_append]
        have := posSize_ok data K none _ y hy h.chained
        rw [show (none : Option Nat).map (fun k : Nat => data + ((encodeList (S :: V :: M)).length : Int) - (k : Int)) = none from rfl] at this
        rw [this]
        exact calm_nil
      · apply calm_runIte
        · exact calm_ite (calm_one (by decide)) calm_nil
        · exact calm_cues _ _ _ _
      · rw [htracks]; exact calm_nil
  · rw [htracks]; exact calm_tracks _ _ _
  · exact calm_empty _ _
  · exact calm_ite (calm_one (by decide)) calm_nil

end Verif.Accepted
