import Verif.Mkclean.Link
/-!
Properties of linking blocks with their tracks: C150 to C152.
-/
set_option linter.unusedSimpArgs false
namespace Verif.Mkclean.Link
open Verif Verif.Mkv

/-! ### Specification -/

/-- The elements of two lists correspond one by one. -/
inductive Each {α β : Type} (R : α → β → Prop) : List α → List β → Prop
  | nil : Each R [] []
  | cons {a b as bs} : R a b → Each R as bs → Each R (a :: as) (b :: bs)

/-- `t` is the first TrackEntry with the number `n`, and its frames can be decoded. -/
def Plays (ts : List TEntry) (n : Nat) (t : TEntry) : Prop :=
  (∃ pre post, ts = pre ++ t :: post ∧ t.number = some (n : Int) ∧ ∀ u ∈ pre, u.number ≠ some (n : Int)) ∧ ∃ e, t.enc = .enc e

/-- Audio or subtitles. -/
def AllKey (t : TEntry) : Prop := t.type = some 2 ∨ t.type = some 17

/-- The sizes of the frames once decoded, as far as the sizes tell: with the header that was stripped. -/
def decodedSizes (enc : Mkv.Track) (sizes : List Nat) : List Nat :=
  match enc with
  | .enc (.strip hdr _) => sizes.map fun n => (n + hdr.length) % 2 ^ 32
  | _ => sizes

/-- `b` became `b'`, with its track; `marks`: blocks of audio and subtitles are marked as keyframes. -/
def Became (marks group : Bool) (ts : List TEntry) (b b' : Blk) : Prop :=
  ∃ t, Plays ts b.num t ∧ b'.track = some t ∧ b'.num = b.num ∧ b'.sizes = decodedSizes t.enc b.sizes ∧
    (marks = true ∧ AllKey t → b'.key = true ∧ (b'.disc = true ↔ b.disc = true ∧ group = true)) ∧
    (¬ (marks = true ∧ AllKey t) → b'.key = b.key ∧ b'.disc = b.disc)

/-- What is left of a child of a Cluster. -/
inductive Fate (marks : Bool) (ts : List TEntry) : Child → List Child → Prop
  | simple {b b'} : Became marks false ts b b' → Fate marks ts (.simple b) [.simple b']
  | simpleGone {b} : (¬ ∃ t, Plays ts b.num t) → Fate marks ts (.simple b) []
  | group {b b' x} : Became marks true ts b b' → Fate marks ts (.group (some b) x) [.group (some b') x]
  | groupGone {b x} : (¬ ∃ t, Plays ts b.num t) → Fate marks ts (.group (some b) x) []
  | bare {x} : Fate marks ts (.group none x) [.group none x]
  | other {x} : Fate marks ts (.other x) [.other x]

/-- `b` is one of the blocks of these elements. -/
def IsBlock (b : Blk) (cs : List Child) : Prop := .simple b ∈ cs ∨ ∃ x, .group (some b) x ∈ cs

/-! ### Proofs -/

theorem findTrack_some (ts : List TEntry) (n : Nat) (t : TEntry) (h : findTrack ts n = some t) :
    ∃ pre post, ts = pre ++ t :: post ∧ t.number = some (n : Int) ∧ ∀ u ∈ pre, u.number ≠ some (n : Int) := by
  induction ts with
  | nil => simp [findTrack] at h
  | cons u us ih =>
    unfold findTrack at h ih
    rw [List.find?_cons] at h
    by_cases hu : (u.number == some (n : Int)) = true
    · rw [hu] at h
      cases h
      exact ⟨[], us, rfl, by simpa using hu, by simp⟩
    · rw [Bool.not_eq_true] at hu
      rw [hu] at h
      obtain ⟨pre, post, e1, e2, e3⟩ := ih h
      refine ⟨u :: pre, post, by rw [e1]; rfl, e2, ?_⟩
      intro v hv
      rcases List.mem_cons.1 hv with rfl | hv
      · simpa using hu
      · exact e3 v hv

theorem findTrack_first (ts pre post : List TEntry) (n : Nat) (t : TEntry) (e : ts = pre ++ t :: post)
    (ht : t.number = some (n : Int)) (hp : ∀ u ∈ pre, u.number ≠ some (n : Int)) : findTrack ts n = some t := by
  subst e
  unfold findTrack
  rw [List.find?_append, List.find?_eq_none.2 (by intro u hu; simpa using hp u hu)]
  simp [ht]

theorem plays_iff (ts : List TEntry) (n : Nat) (t : TEntry) :
    Plays ts n t ↔ findTrack ts n = some t ∧ ∃ e, t.enc = .enc e := by
  constructor
  · rintro ⟨⟨pre, post, e1, e2, e3⟩, he⟩
    exact ⟨findTrack_first ts pre post n t e1 e2 e3, he⟩
  · rintro ⟨h, he⟩
    exact ⟨findTrack_some ts n t h, he⟩

theorem u32_eq (n m : Nat) : u32 ((n : Int) + m) = (n + m) % 2 ^ 32 := by
  unfold u32
  simp only [Int.reducePow, Nat.reducePow]
  omega

theorem linkRead_enc (e : Enc) (sizes : List Nat) :
    ∃ l, linkRead (.enc e) true (LBlk.fresh sizes) = .ok l ∧ l.sizes = decodedSizes (.enc e) sizes := by
  cases e with
  | plain => exact ⟨_, rfl, rfl⟩
  | strip hdr on =>
    refine ⟨_, rfl, ?_⟩
    simp only [decodedSizes, LBlk.fresh, u32_eq]
  | zlib d i on => exact ⟨_, rfl, rfl⟩

theorem linkOne_fate (ts : List TEntry) (b : Blk) (g : Bool) (h : ∀ t ∈ ts, t.enc ≠ .empty) :
    (∃ b', linkOne false ts b = .ok (some b') ∧ Became false g ts b b') ∨
    (linkOne false ts b = .ok none ∧ ¬ ∃ t, Plays ts b.num t) := by
  unfold linkOne
  cases hf : findTrack ts b.num with
  | none =>
    refine .inr ⟨by simp, ?_⟩
    rintro ⟨t, ht⟩
    rw [plays_iff, hf] at ht
    cases ht.1
  | some t =>
    have hm : t ∈ ts := by
      obtain ⟨pre, post, e, _⟩ := findTrack_some ts b.num t hf
      rw [e]; simp
    cases he : t.enc with
    | empty => exact absurd he (h t hm)
    | unsupported =>
      refine .inr ⟨?_, ?_⟩
      · simp only [he, linkRead, LBlk.fresh, checkCompression, Option.isSome_none, Bool.false_eq_true, if_false, ne_eq,
          not_true_eq_false]
      · rintro ⟨u, hu⟩
        rw [plays_iff, hf] at hu
        obtain ⟨hu1, e, hu2⟩ := hu
        cases hu1
        rw [he] at hu2
        cases hu2
    | enc e =>
      obtain ⟨l, hl1, hl2⟩ := linkRead_enc e b.sizes
      refine .inl ⟨{ b with sizes := l.sizes, track := some t }, ?_, t, ?_⟩
      · simp only [he, hl1]
      · refine ⟨(plays_iff ts b.num t).2 ⟨hf, e, he⟩, rfl, rfl, by rw [he]; exact hl2, by simp, by simp⟩

theorem linkChild_fate (ts : List TEntry) (c : Child) (h : ∀ t ∈ ts, t.enc ≠ .empty) :
    ∃ r, linkChild false ts c = .ok r ∧ Fate false ts c r := by
  cases c with
  | simple b =>
    rcases linkOne_fate ts b false h with ⟨b', e, hb⟩ | ⟨e, hb⟩
    · exact ⟨_, by simp only [linkChild, e, Out.bind]; rfl, .simple hb⟩
    · exact ⟨_, by simp only [linkChild, e, Out.bind]; rfl, .simpleGone hb⟩
  | group b x =>
    cases b with
    | none => exact ⟨_, rfl, .bare⟩
    | some b =>
      rcases linkOne_fate ts b true h with ⟨b', e, hb⟩ | ⟨e, hb⟩
      · exact ⟨_, by simp only [linkChild, e, Out.bind]; rfl, .group hb⟩
      · exact ⟨_, by simp only [linkChild, e, Out.bind]; rfl, .groupGone hb⟩
  | other x => exact ⟨_, rfl, .other⟩

/-- C150. `MATROSKA_LinkClusterBlocks` that is told to drop what has no track keeps, in their order, all elements
that are no blocks and exactly the blocks whose track is there and can be decoded; each block is linked with the
first TrackEntry of its number. (A track with a ContentEncodings that is empty is excluded, see the
counterexample.) -/
theorem C150_blocks_of_tracks_partial (ts : List TEntry) (cs : List Child) (h : ∀ t ∈ ts, t.enc ≠ .empty) :
    ∃ parts, linkChildren false ts cs = .ok parts.flatten ∧ Each (Fate false ts) cs parts := by
  induction cs with
  | nil => exact ⟨[], rfl, .nil⟩
  | cons c cs ih =>
    obtain ⟨parts, e, hp⟩ := ih
    obtain ⟨r, e', hr⟩ := linkChild_fate ts c h
    exact ⟨r :: parts, by simp only [linkChildren, e, e', Out.bind, List.flatten_cons], .cons hr hp⟩

/-- The full statement of C150: as above for all tracks. -/
def BlocksOfTracks : Prop :=
  ∀ (ts : List TEntry) (cs : List Child), ∃ parts, linkChildren false ts cs = .ok parts.flatten ∧ Each (Fate false ts) cs parts

/-- C150 is false: a block on a track with an empty ContentEncodings makes `CheckCompression` use a null pointer
(matroskamain.c:278). -/
theorem C150_empty_encodings_counterexample : ¬ BlocksOfTracks := by
  intro h
  obtain ⟨parts, e, _⟩ := h [⟨some 1, some 1, .empty⟩] [.simple ⟨1, [5], true, false, none⟩]
  simp [linkChildren, linkChild, linkOne, findTrack, linkRead, LBlk.fresh, checkCompression, Out.bind] at e

/-- C150, the other mode (`KeepUnmatched`, used by mkvalidator): nothing is dropped. -/
theorem C150_keep (ts : List TEntry) (cs : List Child) (h : ∀ t ∈ ts, t.enc ≠ .empty) :
    ∃ out, linkChildren true ts cs = .ok out ∧ out.length = cs.length := by
  have one : ∀ b, ∃ b', linkOne true ts b = .ok (some b') := by
    intro b
    unfold linkOne
    cases hf : findTrack ts b.num with
    | none => exact ⟨_, rfl⟩
    | some t =>
      have hm : t ∈ ts := by
        obtain ⟨pre, post, e, _⟩ := findTrack_some ts b.num t hf
        rw [e]; simp
      cases he : t.enc with
      | empty => exact absurd he (h t hm)
      | unsupported =>
        refine ⟨{ b with track := some t }, ?_⟩
        simp only [he, linkRead, LBlk.fresh, checkCompression, Option.isSome_none, Bool.false_eq_true, if_false, ne_eq,
          not_true_eq_false, if_true]
      | enc e =>
        obtain ⟨l, hl1, hl2⟩ := linkRead_enc e b.sizes
        exact ⟨{ b with sizes := l.sizes, track := some t }, by simp only [he, hl1]⟩
  induction cs with
  | nil => exact ⟨[], rfl, rfl⟩
  | cons c cs ih =>
    obtain ⟨out, e, hl⟩ := ih
    have : ∃ c', linkChild true ts c = .ok [c'] := by
      cases c with
      | simple b => obtain ⟨b', e⟩ := one b; exact ⟨_, by simp only [linkChild, e, Out.bind]; rfl⟩
      | group b x =>
        cases b with
        | none => exact ⟨_, rfl⟩
        | some b => obtain ⟨b', e⟩ := one b; exact ⟨_, by simp only [linkChild, e, Out.bind]; rfl⟩
      | other x => exact ⟨_, rfl⟩
    obtain ⟨c', e'⟩ := this
    exact ⟨c' :: out, by simp only [linkChildren, e, e', Out.bind]; rfl, by simp [hl]⟩

/-! ### mkclean -/

/-- What is left of a Cluster. -/
def ClusterFate (offset : Option Int) (ts : List TEntry) (c c' : Cluster) : Prop :=
  (∃ parts, Each (Fate true ts) c.children parts ∧ c'.children = parts.flatten) ∧
  (offset = none → c'.time = c.time) ∧
  ∀ o, offset = some o → ∃ t, c'.time = some t ∧ -2 ^ 63 ≤ t ∧ t < 2 ^ 63 ∧ (t - (o + c.time.getD 0)) % 2 ^ 64 = 0

/-- A block of the elements has more than one frame, its track is `n` and has a type. -/
def HasLace (n : Nat) (cs : List Child) : Prop :=
  ∃ b, IsBlock b cs ∧ b.num = n ∧ b.sizes.length > 1 ∧ ∃ t y, b.track = some t ∧ t.type = some y

theorem hasLace_append (n : Nat) (a b : List Child) : HasLace n (a ++ b) ↔ HasLace n a ∨ HasLace n b := by
  simp only [HasLace, IsBlock, List.mem_append]
  constructor
  · rintro ⟨b', (h | h) | ⟨x, h | h⟩, r⟩
    · exact .inl ⟨b', .inl h, r⟩
    · exact .inr ⟨b', .inl h, r⟩
    · exact .inl ⟨b', .inr ⟨x, h⟩, r⟩
    · exact .inr ⟨b', .inr ⟨x, h⟩, r⟩
  · rintro (⟨b', h | ⟨x, h⟩, r⟩ | ⟨b', h | ⟨x, h⟩, r⟩)
    · exact ⟨b', .inl (.inl h), r⟩
    · exact ⟨b', .inr ⟨x, .inl h⟩, r⟩
    · exact ⟨b', .inl (.inr h), r⟩
    · exact ⟨b', .inr ⟨x, .inr h⟩, r⟩

theorem hasLace_nil (n : Nat) : ¬ HasLace n [] := by
  rintro ⟨b, h | ⟨x, h⟩, _⟩ <;> cases h

theorem hasLace_simple (n : Nat) (b : Blk) :
    HasLace n [.simple b] ↔ b.num = n ∧ b.sizes.length > 1 ∧ ∃ t y, b.track = some t ∧ t.type = some y := by
  constructor
  · rintro ⟨b', h | ⟨x, h⟩, r⟩
    · rw [List.mem_singleton] at h; cases h; exact r
    · rw [List.mem_singleton] at h; cases h
  · intro h; exact ⟨b, .inl (by simp), h⟩

theorem hasLace_group (n : Nat) (b : Blk) (x : Nat) :
    HasLace n [.group (some b) x] ↔ b.num = n ∧ b.sizes.length > 1 ∧ ∃ t y, b.track = some t ∧ t.type = some y := by
  constructor
  · rintro ⟨b', h | ⟨x, h⟩, r⟩
    · rw [List.mem_singleton] at h; cases h
    · rw [List.mem_singleton] at h; cases h; exact r
  · intro h; exact ⟨b, .inr ⟨x, by simp⟩, h⟩

/-- The marks of a list are right: as many as before, and set where they were or where a lace is. -/
def Marks (laced laced' : List Bool) (cs : List Child) : Prop :=
  laced'.length = laced.length ∧ ∀ n : Nat, laced'[n]? = some true ↔ laced[n]? = some true ∨ (n < laced.length ∧ HasLace n cs)

theorem marks_same (laced : List Bool) (cs : List Child) (h : ∀ n, n < laced.length → ¬ HasLace n cs) : Marks laced laced cs :=
  ⟨rfl, fun n => ⟨.inl, fun h' => h'.elim id fun h' => absurd h'.2 (h n h'.1)⟩⟩

theorem marks_trans {a b c : List Bool} {x y : List Child} (h : Marks a b x) (h' : Marks b c y) : Marks a c (x ++ y) := by
  refine ⟨h'.1.trans h.1, fun n => ?_⟩
  rw [h'.2, h.2, hasLace_append, h.1]
  grind

theorem marks_set (laced : List Bool) (b : Blk) (cs : List Child) (hb : b.num < laced.length) (hl : b.sizes.length > 1)
    (hc : ∀ n, HasLace n cs ↔ b.num = n ∧ b.sizes.length > 1 ∧ ∃ t y, b.track = some t ∧ t.type = some y)
    (ht : ∃ t y, b.track = some t ∧ t.type = some y) : Marks laced (laced.set b.num true) cs := by
  refine ⟨by simp, fun n => ?_⟩
  rw [hc, List.getElem?_set]
  by_cases e : b.num = n
  · subst e
    exact ⟨fun _ => .inr ⟨hb, rfl, hl, ht⟩, fun _ => by simp [hb]⟩
  · simp [e]

theorem mark_block {ts : List TEntry} {b b' : Blk} {g : Bool} (h : Became false g ts b b') (laced : List Bool) :
    (markBlock g b' = none ∧ Became true g ts b b' ∧ ∀ t y, b'.track = some t → t.type ≠ some y) ∨
    ∃ b'', markBlock g b' = some b'' ∧ Became true g ts b b'' ∧ b''.num = b'.num ∧ b''.sizes = b'.sizes ∧ b''.track = b'.track ∧
      ∃ t y, b''.track = some t ∧ t.type = some y := by
  obtain ⟨t, h1, h2, h3, h4, h5, h6⟩ := h
  obtain ⟨hk, hd⟩ := h6 (by simp)
  unfold markBlock
  rw [h2]
  cases hy : t.type with
  | none =>
    refine .inl ⟨by simp only [hy], ⟨t, h1, h2, h3, h4, ?_, fun _ => ⟨hk, hd⟩⟩, ?_⟩
    · rintro ⟨_, h | h⟩ <;> rw [hy] at h <;> cases h
    · intro u y hu
      cases hu
      rw [hy]; simp
  | some y =>
    by_cases hc : keyType y = true
    · refine .inr ⟨{ b' with key := true, disc := b'.disc && g, track := some t }, by simp only [hy, hc, if_true],
        ⟨t, h1, rfl, h3, h4, ?_, ?_⟩, rfl, rfl, by simp [h2], t, y, rfl, hy⟩
      · intro _
        simp [hd]
      · intro hn
        refine absurd ⟨rfl, ?_⟩ hn
        simp only [keyType, Bool.or_eq_true, beq_iff_eq] at hc
        rcases hc with rfl | rfl
        · exact .inl hy
        · exact .inr hy
    · refine .inr ⟨b', by simp only [hy, hc]; rfl, ⟨t, h1, h2, h3, h4, ?_, fun _ => ⟨hk, hd⟩⟩, rfl, rfl, h2.symm ▸ rfl, t, y, h2, hy⟩
      rintro ⟨_, h | h⟩ <;> rw [hy] at h <;> cases h <;> exact absurd rfl hc

/-- One child that was linked is marked. -/
theorem mark_child (ts : List TEntry) (c : Child) (r : List Child) (laced : List Bool) (h : Fate false ts c r)
    (hn : ∀ t ∈ ts, ∀ n : Nat, t.number = some (n : Int) → n < laced.length) :
    ∃ r' laced', markChildren laced r = .ok (r', laced') ∧ Fate true ts c r' ∧ Marks laced laced' r' := by
  have num : ∀ {b b' : Blk} {g}, Became true g ts b b' → b'.num < laced.length := by
    rintro b b' g ⟨t, ⟨⟨pre, post, e, ht, _⟩, _⟩, _, hnum, _⟩
    rw [hnum]
    exact hn t (by rw [e]; simp) _ ht
  cases h with
  | simple hb =>
    rename_i b b'
    rcases mark_block hb laced with ⟨e, hb', hno⟩ | ⟨b'', e, hb', e1, e2, e3, ht⟩
    · refine ⟨[.simple b'], laced, by simp [markChildren, markChild, e, Out.bind], .simple hb', marks_same _ _ ?_⟩
      intro n _ hl
      obtain ⟨_, _, t, y, h1, h2⟩ := (hasLace_simple n b').1 hl
      exact hno t y h1 h2
    · by_cases hl : b''.sizes.length > 1
      · refine ⟨[.simple b''], laced.set b''.num true, ?_, .simple hb', marks_set laced b'' _ (num hb') hl (fun n => hasLace_simple n b'') ht⟩
        simp [markChildren, markChild, e, Out.bind, noteLaced, hl, num hb']
      · refine ⟨[.simple b''], laced, ?_, .simple hb', marks_same _ _ ?_⟩
        · simp [markChildren, markChild, e, Out.bind, noteLaced, hl]
        · intro n _ h
          exact hl ((hasLace_simple n b'').1 h).2.1
  | simpleGone hb => exact ⟨[], laced, rfl, .simpleGone hb, marks_same _ _ fun n _ => hasLace_nil n⟩
  | group hb =>
    rename_i b b' x
    rcases mark_block hb laced with ⟨e, hb', hno⟩ | ⟨b'', e, hb', e1, e2, e3, ht⟩
    · refine ⟨[.group (some b') x], laced, by simp [markChildren, markChild, e, Out.bind], .group hb', marks_same _ _ ?_⟩
      intro n _ hl
      obtain ⟨_, _, t, y, h1, h2⟩ := (hasLace_group n b' x).1 hl
      exact hno t y h1 h2
    · by_cases hl : b''.sizes.length > 1
      · refine ⟨[.group (some b'') x], laced.set b''.num true, ?_, .group hb', marks_set laced b'' _ (num hb') hl (fun n => hasLace_group n b'' x) ht⟩
        simp [markChildren, markChild, e, Out.bind, noteLaced, hl, num hb']
      · refine ⟨[.group (some b'') x], laced, ?_, .group hb', marks_same _ _ ?_⟩
        · simp [markChildren, markChild, e, Out.bind, noteLaced, hl]
        · intro n _ h
          exact hl ((hasLace_group n b'' x).1 h).2.1
  | groupGone hb => exact ⟨[], laced, rfl, .groupGone hb, marks_same _ _ fun n _ => hasLace_nil n⟩
  | bare =>
    rename_i x
    refine ⟨[.group none x], laced, rfl, .bare, marks_same _ _ ?_⟩
    rintro n _ ⟨b, h | ⟨y, h⟩, _⟩ <;> rw [List.mem_singleton] at h <;> cases h
  | other =>
    rename_i x
    refine ⟨[.other x], laced, rfl, .other, marks_same _ _ ?_⟩
    rintro n _ ⟨b, h | ⟨y, h⟩, _⟩ <;> rw [List.mem_singleton] at h <;> cases h

theorem markChildren_append (a : List Child) : ∀ (laced : List Bool) (b : List Child),
    markChildren laced (a ++ b) = (markChildren laced a).bind fun r => (markChildren r.2 b).bind fun s => .ok (r.1 ++ s.1, s.2) := by
  induction a with
  | nil =>
    intro laced b
    simp only [List.nil_append, markChildren, Out.bind]
    cases markChildren laced b <;> rfl
  | cons c cs ih =>
    intro laced b
    simp only [List.cons_append, markChildren]
    cases markChild laced c with
    | ok r =>
      simp only [Out.bind, ih]
      cases markChildren r.2 cs with
      | ok s =>
        simp only [Out.bind]
        cases markChildren s.2 b <;> rfl
      | _ => rfl
    | _ => rfl

theorem mark_children (ts : List TEntry) (cs : List Child) (parts : List (List Child)) (h : Each (Fate false ts) cs parts) :
    ∀ laced : List Bool, (∀ t ∈ ts, ∀ n : Nat, t.number = some (n : Int) → n < laced.length) →
    ∃ parts' laced', markChildren laced parts.flatten = .ok (parts'.flatten, laced') ∧ Each (Fate true ts) cs parts' ∧
      Marks laced laced' parts'.flatten := by
  induction h with
  | nil => intro laced _; exact ⟨[], laced, rfl, .nil, marks_same _ _ fun n _ => hasLace_nil n⟩
  | cons hr hp ih =>
    intro laced hn
    obtain ⟨r', l1, e1, f1, m1⟩ := mark_child ts _ _ laced hr hn
    obtain ⟨parts', l2, e2, f2, m2⟩ := ih l1 (by rw [m1.1]; exact hn)
    refine ⟨r' :: parts', l2, ?_, .cons f1 f2, ?_⟩
    · rw [List.flatten_cons, markChildren_append, e1]
      simp only [Out.bind, e2, List.flatten_cons]
    · rw [List.flatten_cons]; exact marks_trans m1 m2

theorem s64_mod (x : Int) : -2 ^ 63 ≤ s64 x ∧ s64 x < 2 ^ 63 ∧ (s64 x - x) % 2 ^ 64 = 0 := by
  unfold s64
  simp only [Int.reducePow]
  omega

/-- The Timestamp of a Cluster, moved. -/
def moved (offset : Option Int) (time : Option Int) : Option Int :=
  match offset with
  | none => time
  | some o => some (s64 (o + time.getD 0))

theorem link_clusters (offset : Option Int) (ts : List TEntry) (cs : List Cluster) (h : ∀ t ∈ ts, t.enc ≠ .empty) :
    ∀ laced : List Bool, (∀ t ∈ ts, ∀ n : Nat, t.number = some (n : Int) → n < laced.length) →
    ∃ l out laced', linkAll offset ts cs = .ok l ∧ markClusters laced l = .ok (out, laced') ∧ Each (ClusterFate offset ts) cs out ∧
      Marks laced laced' (out.flatMap (·.children)) := by
  induction cs with
  | nil => intro laced _; exact ⟨[], [], laced, rfl, rfl, .nil, marks_same _ _ fun n _ => hasLace_nil n⟩
  | cons c cs ih =>
    intro laced hn
    obtain ⟨parts, e, hp⟩ := C150_blocks_of_tracks_partial ts c.children h
    obtain ⟨parts', l1, e1, f1, m1⟩ := mark_children ts _ _ hp laced hn
    obtain ⟨l, out, l2, e2, e3, f2, m2⟩ := ih l1 (by rw [m1.1]; exact hn)
    refine ⟨⟨moved offset c.time, parts.flatten⟩ :: l, ⟨moved offset c.time, parts'.flatten⟩ :: out, l2, ?_, ?_,
      .cons ⟨⟨parts', f1, rfl⟩, ?_, ?_⟩ f2, ?_⟩
    · simp only [linkAll, linkCluster, e, Out.bind, e2]
      cases offset <;> rfl
    · simp only [markClusters, e1, Out.bind, e3]
    · rintro rfl; rfl
    · rintro o rfl
      exact ⟨_, rfl, s64_mod _⟩
    · simp only [List.flatMap_cons]; exact marks_trans m1 m2

theorem toInt_of {n : Int} (h : 0 ≤ n ∧ n < 2 ^ 31) : toInt n = n := by
  unfold toInt
  simp only [Int.reducePow] at *
  omega

theorem maxNumber_ge (ts : List TEntry) : ∀ i : Int, i ≤ maxNumber i ts ∧ ∀ t ∈ ts, ∀ n, t.number = some n → toInt n ≤ maxNumber i ts := by
  induction ts with
  | nil => intro i; exact ⟨Int.le_refl i, by simp⟩
  | cons t ts ih =>
    intro i
    unfold maxNumber
    cases hn : t.number with
    | none =>
      refine ⟨(ih i).1, ?_⟩
      intro u hu n hn'
      rcases List.mem_cons.1 hu with rfl | hu
      · rw [hn] at hn'; cases hn'
      · exact (ih i).2 u hu n hn'
    | some m =>
      have := ih (max i (toInt m))
      refine ⟨by have := this.1; simp only; omega, ?_⟩
      intro u hu n hn'
      rcases List.mem_cons.1 hu with rfl | hu
      · rw [hn] at hn'
        cases hn'
        have := this.1
        simp only; omega
      · exact this.2 u hu n hn'

theorem maxNumber_lt (ts : List TEntry) (b : Int) : ∀ i : Int, i < b → (∀ t ∈ ts, ∀ n, t.number = some n → toInt n < b) → maxNumber i ts < b := by
  induction ts with
  | nil => intro i hi _; exact hi
  | cons t ts ih =>
    intro i hi h
    unfold maxNumber
    cases hn : t.number with
    | none => exact ih i hi fun u hu => h u (by simp [hu])
    | some m =>
      have := h t (by simp) m hn
      exact ih _ (by omega) fun u hu => h u (by simp [hu])

/-- Track numbers that fit the table of mkclean. -/
def SmallNumbers (ts : List TEntry) : Prop := ∀ t ∈ ts, ∀ n, t.number = some n → 0 ≤ n ∧ n < 2 ^ 31 - 1

theorem wtracks_gt (ts : List TEntry) (h : SmallNumbers ts) : ∀ t ∈ ts, ∀ n : Int, t.number = some n → n.toNat < wtracks ts := by
  intro t ht n hn
  have h1 := h t ht n hn
  have h2 := (maxNumber_ge ts (-1)).2 t ht n hn
  have h3 := maxNumber_lt ts (2 ^ 31 - 1) (-1) (by decide) (by
    intro u hu m hm
    have := h u hu m hm
    rw [toInt_of ⟨this.1, by have := this.2; simp only [Int.reducePow, Int.reduceSub] at *; omega⟩]
    exact this.2)
  rw [toInt_of ⟨h1.1, by have := h1.2; simp only [Int.reducePow, Int.reduceSub] at *; omega⟩] at h2
  unfold wtracks
  simp only [Int.reducePow, Int.reduceSub] at *
  rw [if_neg (by omega)]
  omega

/-- C151. mkclean keeps, in their order, exactly the blocks whose track is there and can be decoded (and all that are
no blocks); blocks of audio and subtitle tracks become keyframes that cannot be discarded, all other blocks keep
their marks; the Timestamps stay, or are moved by the same amount in a live stream. The only refusal is that of
SimpleBlocks for the old profiles. Excluded: tracks with an empty ContentEncodings (C150) and
numbers that do not fit. -/
theorem C151_mkclean_blocks_partial (old : Bool) (offset : Option Int) (ts : List TEntry) (cs : List Cluster)
    (h : ∀ t ∈ ts, t.enc ≠ .empty) (hn : SmallNumbers ts) :
    (linkClusters old offset ts cs = .err ↔ old = true ∧ ∃ c ∈ cs, ∃ b, Child.simple b ∈ c.children) ∧
    (¬ (old = true ∧ ∃ c ∈ cs, ∃ b, Child.simple b ∈ c.children) →
      ∃ out laced, linkClusters old offset ts cs = .ok (out, laced) ∧ Each (ClusterFate offset ts) cs out) := by
  have key : (old && cs.any (fun c => c.children.any Child.isSimple)) = true ↔ old = true ∧ ∃ c ∈ cs, ∃ b, Child.simple b ∈ c.children := by
    rw [Bool.and_eq_true, List.any_eq_true]
    refine and_congr_right fun _ => exists_congr fun c => and_congr_right fun _ => ?_
    rw [List.any_eq_true]
    constructor
    · rintro ⟨x, hx, hs⟩
      cases x with
      | simple b => exact ⟨b, hx⟩
      | _ => cases hs
    · rintro ⟨b, hb⟩; exact ⟨_, hb, rfl⟩
  obtain ⟨l, out, laced, e1, e2, f, _⟩ := link_clusters offset ts cs h (List.replicate (wtracks ts) false) (by
    intro t ht n hn'
    have := wtracks_gt ts hn t ht n hn'
    simpa using this)
  by_cases hk : (old && cs.any (fun c => c.children.any Child.isSimple)) = true
  · refine ⟨?_, fun hno => absurd (key.1 hk) hno⟩
    unfold linkClusters
    rw [if_pos hk]
    exact ⟨fun _ => key.1 hk, fun _ => rfl⟩
  · have : linkClusters old offset ts cs = .ok (out, laced) := by
      unfold linkClusters
      rw [if_neg hk, e1]
      exact e2
    refine ⟨?_, fun _ => ⟨out, laced, this, f⟩⟩
    rw [this]
    exact ⟨fun h => (by cases h), fun h => absurd (key.2 h) hk⟩

/-- C151: linking the blocks with the tracks to write, which have the same numbers, drops none of them. -/
theorem C151_write_link_keeps (ts ws : List TEntry) (hw : ws.map (·.number) = ts.map (·.number)) (cs : List Child)
    (parts : List (List Child)) (h : Each (Fate true ts) cs parts) : writeChildren ws parts.flatten = .ok parts.flatten := by
  have same : ∀ n t, findTrack ts n = some t → ∃ w, findTrack ws n = some w := by
    intro n t ht
    have hm : some (n : Int) ∈ ws.map (·.number) := by
      rw [hw]
      obtain ⟨pre, post, e, hnum, _⟩ := findTrack_some ts n t ht
      rw [e]; simp [hnum]
    obtain ⟨w, hw1, hw2⟩ := List.mem_map.1 hm
    cases hf : findTrack ws n with
    | some w => exact ⟨w, rfl⟩
    | none =>
      unfold findTrack at hf
      have := List.find?_eq_none.1 hf w hw1
      simp [hw2] at this
  have one : ∀ {b b' : Blk} {g}, Became true g ts b b' → writeLinked ws b' = .ok true := by
    rintro b b' g ⟨t, hp, htr, hnum, _⟩
    obtain ⟨w, hw⟩ := same b.num t ((plays_iff ts b.num t).1 hp).1
    simp only [writeLinked, hnum, hw, htr]
  induction h with
  | nil => rfl
  | cons hr hp ih =>
    rw [List.flatten_cons]
    cases hr with
    | simple hb => simp only [List.singleton_append, writeChildren, one hb, Out.bind, ih, if_true]
    | group hb => simp only [List.singleton_append, writeChildren, one hb, Out.bind, ih, if_true]
    | bare => simp only [List.singleton_append, writeChildren, Out.bind, ih, if_true]
    | other => simp only [List.singleton_append, writeChildren, Out.bind, ih, if_true]
    | simpleGone _ => simpa using ih
    | groupGone _ => simpa using ih

/-- C152. In the file written a TrackEntry forbids lacing (FlagLacing 0) exactly if none of its blocks has more than one
frame. For tracks that all have a type and small numbers; without --alt-3d, which appends frames to blocks. -/
theorem C152_lacing_flag_partial (old : Bool) (offset : Option Int) (ts : List TEntry) (cs out : List Cluster) (laced : List Bool)
    (h : ∀ t ∈ ts, t.enc ≠ .empty) (hn : SmallNumbers ts) (hy : ∀ t ∈ ts, t.type ≠ none)
    (hl : linkClusters old offset ts cs = .ok (out, laced)) (t : TEntry) (ht : t ∈ ts) (n : Nat) (hnum : t.number = some (n : Int)) :
    (flagLacing laced n = .ok (some 0) ∨ flagLacing laced n = .ok none) ∧
    (flagLacing laced n = .ok (some 0) ↔ ∀ c ∈ out, ∀ b, IsBlock b c.children → b.num = n → b.sizes.length ≤ 1) := by
  obtain ⟨l, out', laced', e1, e2, f, m⟩ := link_clusters offset ts cs h (List.replicate (wtracks ts) false) (by
    intro t ht n hn'
    have := wtracks_gt ts hn t ht n hn'
    simpa using this)
  have : out' = out ∧ laced' = laced := by
    unfold linkClusters at hl
    by_cases hk : (old && cs.any (fun c => c.children.any Child.isSimple)) = true
    · rw [if_pos hk] at hl; cases hl
    · rw [if_neg hk, e1] at hl
      simp only [Out.bind] at hl
      rw [e2] at hl
      cases hl
      exact ⟨rfl, rfl⟩
  obtain ⟨rfl, rfl⟩ := this
  have hlt : n < wtracks ts := by
    have := wtracks_gt ts hn t ht n hnum
    simpa using this
  have hlen : n < laced'.length := by rw [m.1]; simpa using hlt
  have hsmall := hn t ht n hnum
  have hidx : ((n : Int) % 2 ^ 64).toNat = n := by
    simp only [Int.reducePow, Int.reduceSub] at *
    omega
  have hlace : HasLace n (out'.flatMap (·.children)) ↔ ∃ c ∈ out', ∃ b, IsBlock b c.children ∧ b.num = n ∧ b.sizes.length > 1 := by
    have typed : ∀ (cs out : List Cluster), Each (ClusterFate offset ts) cs out → ∀ c ∈ out, ∀ b, IsBlock b c.children →
        ∃ t y, b.track = some t ∧ t.type = some y := by
      intro cs out hf
      induction hf with
      | nil => intro c hc; cases hc
      | cons hcf hrest ih =>
        rename_i c0 _ _ _
        intro c hc b hb
        rcases List.mem_cons.1 hc with rfl | hc
        · obtain ⟨⟨parts, hp, e⟩, _⟩ := hcf
          rw [e] at hb
          clear e ih hrest
          generalize c0.children = cc at hp
          induction hp with
          | nil => rcases hb with hb | ⟨x, hb⟩ <;> cases hb
          | cons hr _ ih =>
            have fin : ∀ {b0 g}, Became true g ts b0 b → ∃ t y, b.track = some t ∧ t.type = some y := by
              rintro b0 g ⟨t, ⟨⟨pre, post, e, _⟩, _⟩, htr, _⟩
              have := hy t (by rw [e]; simp)
              cases hty : t.type with
              | none => exact absurd hty this
              | some y => exact ⟨t, y, htr, hty⟩
            rw [List.flatten_cons] at hb
            simp only [IsBlock, List.mem_append] at hb
            rcases hb with (hb | hb) | ⟨x, hb | hb⟩
            · cases hr <;> simp only [List.mem_singleton, List.not_mem_nil, Child.simple.injEq, reduceCtorEq] at hb
              rename_i hbc
              subst hb; exact fin hbc
            · exact ih (.inl hb)
            · cases hr <;> simp only [List.mem_singleton, List.not_mem_nil, Child.group.injEq, Option.some.injEq, reduceCtorEq, false_and] at hb
              rename_i hbc
              obtain ⟨rfl, _⟩ := hb
              exact fin hbc
            · exact ih (.inr ⟨x, hb⟩)
        · exact ih c hc b hb
    constructor
    · rintro ⟨b, hb, hbn, hbl, _⟩
      simp only [IsBlock, List.mem_flatMap] at hb
      rcases hb with ⟨c, hc, hb⟩ | ⟨x, c, hc, hb⟩
      · exact ⟨c, hc, b, .inl hb, hbn, hbl⟩
      · exact ⟨c, hc, b, .inr ⟨x, hb⟩, hbn, hbl⟩
    · rintro ⟨c, hc, b, hb, hbn, hbl⟩
      refine ⟨b, ?_, hbn, hbl, typed cs out' f c hc b hb⟩
      simp only [IsBlock, List.mem_flatMap]
      rcases hb with hb | ⟨x, hb⟩
      · exact .inl ⟨c, hc, hb⟩
      · exact .inr ⟨x, c, hc, hb⟩
  have hm := m.2 n
  rw [hlace] at hm
  have hr : ¬ (List.replicate (wtracks ts) false)[n]? = some true := by
    rw [List.getElem?_replicate]
    split <;> simp
  have hm' : laced'[n]? = some true ↔ ∃ c ∈ out', ∃ b, IsBlock b c.children ∧ b.num = n ∧ b.sizes.length > 1 := by
    rw [hm]
    exact ⟨fun h => (h.resolve_left hr).2, fun h => .inr ⟨by simpa using hlt, h⟩⟩
  unfold flagLacing
  rw [hidx]
  have hget : laced'[n]? = some laced'[n] := List.getElem?_eq_getElem hlen
  rw [hget]
  rw [hget] at hm'
  cases hv : laced'[n] with
  | true =>
    refine ⟨.inr rfl, ?_⟩
    rw [hv] at hm'
    obtain ⟨c, hc, b, hb, hbn, hbl⟩ := hm'.1 rfl
    constructor
    · intro h; cases h
    · intro h
      have := h c hc b hb hbn
      omega
  | false =>
    refine ⟨.inl rfl, ?_⟩
    rw [hv] at hm'
    refine ⟨fun _ c hc b hb hbn => ?_, fun _ => rfl⟩
    by_cases hbl : b.sizes.length ≤ 1
    · exact hbl
    · have := hm'.2 ⟨c, hc, b, hb, hbn, by omega⟩
      cases this

/-- The full statement of C152. -/
def LacingFlag : Prop :=
  ∀ (ts : List TEntry) (cs out : List Cluster) (laced : List Bool), (∀ t ∈ ts, t.enc ≠ .empty) →
    linkClusters false none ts cs = .ok (out, laced) → ∀ t ∈ ts, ∀ n : Nat, t.number = some (n : Int) →
    (flagLacing laced n = .ok (some 0) ∨ flagLacing laced n = .ok none) ∧
    (flagLacing laced n = .ok (some 0) ↔ ∀ c ∈ out, ∀ b, IsBlock b c.children → b.num = n → b.sizes.length ≤ 1)

/-- C152 is false: a track number of 2^32 is looked up behind the table. -/
theorem C152_number_counterexample : ¬ LacingFlag := by
  intro h
  have := (h [⟨some (2 ^ 32), some 1, .enc .plain⟩] [] [] [false] (by simp) rfl _ (List.mem_singleton.2 rfl) (2 ^ 32) rfl).1
  rcases this with h | h <;> revert h <;> decide

/-- C152 is also false for a laced block of a track without a type. -/
theorem C152_type_counterexample : ¬ LacingFlag := by
  intro h
  have := (h [⟨some 1, none, .enc .plain⟩] [⟨some 0, [.simple ⟨1, [5, 6], true, false, none⟩]⟩]
    [⟨some 0, [.simple ⟨1, [5, 6], true, false, some ⟨some 1, none, .enc .plain⟩⟩]⟩] [false, false] (by simp) rfl _ (List.mem_singleton.2 rfl) 1 rfl).2.1 rfl
    _ (List.mem_singleton.2 rfl) _ (.inl (List.mem_singleton.2 rfl)) rfl
  revert this; decide

/-- A case of the three theorems: a video and an audio track and one with an encoding that is not supported; a block of an unknown
track and one that cannot be decoded disappear, the audio block becomes a keyframe, and its track may have laces. -/
example :
    let ts : List TEntry := [⟨some 1, some 1, .enc (.strip [0, 0] true)⟩, ⟨some 2, some 2, .enc .plain⟩, ⟨some 3, some 1, .unsupported⟩]
    (∀ t ∈ ts, t.enc ≠ .empty) ∧ SmallNumbers ts ∧ (∀ t ∈ ts, t.type ≠ none) ∧
    linkClusters true none ts [⟨some 7, [.group (some ⟨1, [5], false, false, none⟩) 4, .other 9, .group (some ⟨2, [3, 4], false, false, none⟩) 5,
        .group (some ⟨3, [1], false, false, none⟩) 6, .group (some ⟨4, [1], false, false, none⟩) 7]⟩]
      = .ok ([⟨some 7, [.group (some ⟨1, [7], false, false, some ⟨some 1, some 1, .enc (.strip [0, 0] true)⟩⟩) 4, .other 9,
          .group (some ⟨2, [3, 4], true, false, some ⟨some 2, some 2, .enc .plain⟩⟩) 5]⟩], [false, false, true, false]) ∧
    flagLacing [false, false, true, false] 1 = .ok (some 0) ∧ flagLacing [false, false, true, false] 2 = .ok none := by
  refine ⟨by simp, ?_, by simp, rfl, rfl, rfl⟩
  intro t ht n hn
  simp only [List.mem_cons, List.not_mem_nil, or_false] at ht
  rcases ht with rfl | rfl | rfl <;> cases hn <;> decide

end Verif.Mkclean.Link
