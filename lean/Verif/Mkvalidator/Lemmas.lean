import Verif.Mkvalidator.Main
/-!
Lemmas about the model of mkvalidator: which messages its parts can put out, and how `Result` follows from them.
-/
set_option linter.unusedSimpArgs false
namespace Verif.Mkvalidator
open Verif Verif.Core Verif.Mkv

/-- Codes of `OutputError` calls whose value is dropped. -/
def droppedCodes : List Nat := [5, 6, 7, 9, 10, 0xC3]

/-- Codes of errors that end the program. -/
def fatalCodes : List Nat := [3, 4, 12, 8, 0x20, 0x40, 0x41, 0x100, 0x111, 0x121, 0x131, 0x141, 0x151, 0x161, 0x180]

/-- A message other than a fatal one and the one about void data, with a code the program can use for it. -/
def EvOk : Ev → Prop
  | .err c => 0 < c ∧ c < 4096 ∧ c ∉ droppedCodes ∧ c ∉ fatalCodes
  | .lost c => c ∈ droppedCodes
  | .fatal _ => False
  | .warn c => c ≠ 0xD0

instance : DecidablePred EvOk := fun e => by cases e <;> unfold EvOk <;> infer_instance

/-- All messages are such. -/
structure EvsOk (evs : List Ev) : Prop where
  ok : ∀ e ∈ evs, EvOk e

theorem evsOk_nil : EvsOk [] := ⟨fun e he => by cases he⟩
theorem evsOk_append {a b : List Ev} (ha : EvsOk a) (hb : EvsOk b) : EvsOk (a ++ b) := by
  refine ⟨fun e he => ?_⟩
  rcases List.mem_append.mp he with h | h
  · exact ha.ok e h
  · exact hb.ok e h
theorem evsOk_one {e : Ev} (h : EvOk e) : EvsOk [e] := by
  refine ⟨fun x hx => ?_⟩
  rw [List.mem_singleton] at hx; subst hx; exact h
theorem evsOk_ite {p : Prop} [Decidable p] {a b : List Ev} (ha : EvsOk a) (hb : EvsOk b) : EvsOk (if p then a else b) := by
  by_cases h : p
  · rw [if_pos h]; exact ha
  · rw [if_neg h]; exact hb
theorem evsOk_flatMap {α : Type} {l : List α} {f : α → List Ev} (h : ∀ x ∈ l, EvsOk (f x)) : EvsOk (l.flatMap f) := by
  refine ⟨fun e he => ?_⟩
  rcases List.mem_flatMap.mp he with ⟨x, hx, hex⟩
  exact (h x hx).ok e hex

/-- A run whose messages are fine; only a fatal one, the last, makes it exit. -/
def RunOk (r : Run) : Prop :=
  (r.fin ≠ .exit ∧ EvsOk r.evs) ∨ (r.fin = .exit ∧ ∃ pre c, r.evs = pre ++ [.fatal c] ∧ EvsOk pre ∧ c ∈ fatalCodes)

theorem runOk_say {evs : List Ev} (h : EvsOk evs) : RunOk (say evs) := .inl ⟨by simp [say], h⟩
theorem runOk_fatal {c : Nat} (h : c ∈ fatalCodes) : RunOk ⟨[.fatal c], .exit⟩ := .inr ⟨rfl, [], c, rfl, evsOk_nil, h⟩
theorem runOk_stop {f : Fin} (h : f ≠ .exit) : RunOk ⟨[], f⟩ := .inl ⟨h, evsOk_nil⟩

theorem runOk_andThen {a b : Run} (ha : RunOk a) (hb : RunOk b) : RunOk (a.andThen b) := by
  unfold Run.andThen
  by_cases h : a.fin = .next
  · rw [if_pos h]
    rcases ha with ⟨_, ha⟩ | ⟨hx, _⟩
    · rcases hb with ⟨hf, hb⟩ | ⟨hf, pre, c, he, hp, hc⟩
      · exact .inl ⟨hf, evsOk_append ha hb⟩
      · exact .inr ⟨hf, a.evs ++ pre, c, by rw [he, List.append_assoc], evsOk_append ha hp, hc⟩
    · rw [h] at hx; cases hx
  · rw [if_neg h]; exact ha

theorem runOk_inOrder {rs : List Run} (h : ∀ r ∈ rs, RunOk r) : RunOk (inOrder rs) := by
  induction rs with
  | nil => exact runOk_say evsOk_nil
  | cons r rs ih =>
    exact runOk_andThen (h r List.mem_cons_self) (ih fun x hx => h x (List.mem_cons_of_mem _ hx))

theorem runOk_ite {p : Prop} [Decidable p] {a b : Run} (ha : RunOk a) (hb : RunOk b) : RunOk (if p then a else b) := by
  by_cases h : p
  · rw [if_pos h]; exact ha
  · rw [if_neg h]; exact hb

/-! ### Messages of the checks -/

/-- Closes goals `EvsOk` for sums of tests with fixed codes. -/
macro "evs_ok" : tactic => `(tactic| repeat' (first
  | exact evsOk_nil
  | exact evsOk_one (by decide)
  | apply evsOk_append
  | apply evsOk_ite))

mutual
theorem evsOk_unknown : ∀ ks : List Node, EvsOk (unknownEvs ks)
  | [] => by rw [unknownEvs]; exact evsOk_nil
  | k :: ks => by rw [unknownEvs]; exact evsOk_append (evsOk_unknown1 k) (evsOk_unknown ks)
theorem evsOk_unknown1 : ∀ k : Node, EvsOk (unknownEv k)
  | .dummy => by rw [unknownEv]; exact evsOk_one (by decide)
  | .void _ => by rw [unknownEv]; exact evsOk_nil; 
  | .leaf => by rw [unknownEv]; exact evsOk_nil
  | .master kids => by rw [unknownEv]; exact evsOk_unknown kids
end

theorem runOk_pixel (webm : Bool) (u a b c d : Int) : RunOk (pixelEvs webm u a b c d) := by
  unfold pixelEvs
  apply runOk_ite
  · cases gcd (b.natAbs + 1) a b
    · exact runOk_say (by evs_ok)
    · exact runOk_stop (by decide)
    · exact runOk_stop (by decide)
    · exact runOk_stop (by decide)
  · exact runOk_say evsOk_nil

theorem evsOk_display (x : Option Int) (u p : Int) : EvsOk (displayOf x u p).2 := by
  cases x with
  | some d => exact evsOk_nil
  | none =>
    unfold displayOf
    by_cases h : u ≠ 0
    · simp only [if_pos h]; exact evsOk_one (by decide)
    · simp only [if_neg h]; exact evsOk_nil

theorem evsOk_ifSome (x : Option Int) {e : Ev} (h : EvOk e) : EvsOk (evIfSome x e) := evsOk_ite (evsOk_one h) evsOk_nil

theorem evsOk_crop (v : Video) (u a b c d : Int) : EvsOk (cropEvs v u a b c d) := by
  unfold cropEvs
  have := fun x => evsOk_ifSome x (e := .err 0xE4) (by decide)
  repeat' (first
    | exact this _
    | exact evsOk_nil
    | exact evsOk_one (by decide)
    | apply evsOk_append
    | apply evsOk_ite)

theorem runOk_video (webm : Bool) (v : Option Video) : RunOk (checkVideo webm v) := by
  cases v with
  | none => exact runOk_say (evsOk_one (by decide))
  | some v =>
    refine runOk_andThen (runOk_say ?_) (runOk_andThen (runOk_pixel ..) (runOk_say (evsOk_crop ..)))
    refine evsOk_append (evsOk_append (evsOk_append (evsOk_display ..) (evsOk_display ..)) ?_) ?_ <;> evs_ok

theorem evsOk_links (files : Option (List Int)) : ∀ ls, EvsOk (linkEvs files ls)
  | [] => evsOk_nil
  | l :: ls => by
    cases files with
    | none => exact evsOk_one (by decide)
    | some fs => exact evsOk_append (evsOk_ite evsOk_nil (evsOk_one (by decide))) (evsOk_links _ ls)

theorem evsOk_tracks (webm : Bool) (files : Option (List Int)) (ts : List Track) : EvsOk (checkTracks webm files ts) := by
  refine evsOk_flatMap fun t _ => evsOk_append ?_ (evsOk_links ..)
  unfold codecEvs
  evs_ok

theorem evsOk_ref (x : Option Int) (p : Int) {a b : Nat} (ha : EvOk (.err a)) (hb : EvOk (.err b)) : EvsOk (refEvs x p a b) := by
  cases x with
  | none => exact evsOk_one ha
  | some q => exact evsOk_ite (evsOk_one hb) evsOk_nil

theorem evsOk_seek (f : Found) (self : Int) (main : Bool) (s : Seek) : EvsOk (seekEvs f self main s) := by
  unfold seekEvs
  cases s.pos with
  | none => exact evsOk_one (by decide)
  | some p =>
    dsimp only
    repeat' (first
      | exact evsOk_nil
      | exact evsOk_one (by decide)
      | exact evsOk_ref _ _ (by decide) (by decide)
      | apply evsOk_ite)

theorem evsOk_seekHead (f : Found) (self : Int) (main : Bool) (es : List Seek) : EvsOk (checkSeekHead f self main es) := by
  refine evsOk_append (evsOk_flatMap fun s _ => evsOk_seek ..) ?_
  unfold unref unref2
  evs_ok

theorem evsOk_posSize (data : Int) : ∀ (cs : List Cluster) (prev : Option Int), EvsOk (checkPosSize data prev cs)
  | [], _ => evsOk_nil
  | c :: cs, prev => by
    rw [checkPosSize]
    refine evsOk_append (evsOk_append ?_ ?_) (evsOk_posSize data cs _)
    · cases c.prevSize with
      | none => exact evsOk_nil
      | some n =>
        cases prev with
        | none => exact evsOk_one (by decide)
        | some p => dsimp only; evs_ok
    · cases c.position with
      | none => exact evsOk_nil
      | some n => dsimp only; evs_ok

theorem evsOk_lacing (ts : List Track) (cs : List Cluster) : EvsOk (checkLacing ts cs) := by
  refine evsOk_flatMap fun c _ => evsOk_flatMap fun b _ => ?_
  unfold laceEvs
  evs_ok

theorem evsOk_empty (ts : List Track) (cs : List Cluster) : EvsOk (emptyEvs ts cs) :=
  evsOk_flatMap fun i _ => evsOk_ite (evsOk_one (by decide)) evsOk_nil

theorem keyStep_evs {n : Nat} {ts : List Track} {pos : Int} {st st' : KeyState} {b : Blk} {es : List Ev}
    (h : keyStep n ts pos st b = .ok (st', es)) : EvsOk es := by
  unfold keyStep at h
  by_cases h1 : b.track > n
  · rw [if_pos h1] at h; cases h; exact evsOk_one (by decide)
  · rw [if_neg h1] at h
    by_cases h2 : isVideo ts (s16 b.track) = true
    · rw [if_pos h2] at h
      by_cases h3 : b.track ≥ n
      · rw [if_pos h3] at h; cases h
      · rw [if_neg h3] at h; cases h; exact evsOk_nil
    · rw [if_neg h2] at h; cases h; exact evsOk_nil

theorem keyLoop_evs {n : Nat} {ts : List Track} {pos : Int} : ∀ {bs : List Blk} {st st' : KeyState} {es : List Ev},
    keyLoop n ts pos st bs = .ok (st', es) → EvsOk es
  | [], st, st', es, h => by cases h; exact evsOk_nil
  | b :: bs, st, st', es, h => by
    rw [keyLoop] at h
    cases hs : keyStep n ts pos st b with
    | ok p =>
      obtain ⟨st1, e⟩ := p
      rw [hs] at h
      dsimp only at h
      cases hl : keyLoop n ts pos st1 bs with
      | ok q =>
        obtain ⟨st2, es2⟩ := q
        rw [hl] at h; cases h
        exact evsOk_append (keyStep_evs hs) (keyLoop_evs hl)
      | err => rw [hl] at h; cases h
      | bad => rw [hl] at h; cases h
      | hang => rw [hl] at h; cases h
    | err => rw [hs] at h; cases h
    | bad => rw [hs] at h; cases h
    | hang => rw [hs] at h; cases h

theorem runOk_keyEvs (n : Nat) (st : KeyState) : RunOk (keyEvs n st) := by
  unfold keyEvs
  exact runOk_ite (runOk_stop (by decide)) (runOk_say (evsOk_flatMap fun i _ => evsOk_ite (evsOk_one (by decide)) evsOk_nil))

theorem runOk_videoStart (n : Nat) (ts : List Track) : ∀ (cs : List Cluster) (prev : Int), RunOk (checkVideoStart n ts prev cs)
  | [], _ => runOk_say evsOk_nil
  | c :: cs, prev => by
    rw [checkVideoStart]
    refine runOk_andThen (runOk_say ?_) ?_
    · unfold timeEvs; evs_ok
    · cases h : keyLoop n ts c.pos {} c.blocks with
      | ok p =>
        obtain ⟨st, es⟩ := p
        exact runOk_andThen (runOk_say (keyLoop_evs h)) (runOk_andThen (runOk_keyEvs ..) (runOk_videoStart n ts cs _))
      | err => exact runOk_stop (by decide)
      | bad => exact runOk_stop (by decide)
      | hang => exact runOk_stop (by decide)

theorem evsOk_cues (scale : Int) (cs : List Cluster) : ∀ (l : List Cue) (prev : Int), EvsOk (checkCues scale cs prev l)
  | [], _ => evsOk_nil
  | c :: l, prev => by
    rw [checkCues]
    refine evsOk_append ?_ (evsOk_cues scale cs l _)
    evs_ok

/-! ### Messages of main -/

theorem evsOk_common (e : Elt) : EvsOk (commonEvs e) := by
  refine evsOk_append (evsOk_unknown _) ⟨fun x hx => ?_⟩
  rcases List.mem_map.mp hx with ⟨v, _, rfl⟩
  cases v <;> decide

theorem runOk_tracksRun (webm : Bool) (ts : List Track) : RunOk (tracksRun webm ts) := by
  refine runOk_inOrder fun r hr => ?_
  rcases List.mem_map.mp hr with ⟨t, _, rfl⟩
  exact runOk_ite (runOk_video ..) (runOk_say evsOk_nil)

theorem runOk_taken (st : St) (e : Elt) (f : St → St) {more : Run} (h : RunOk more) : RunOk (taken st e f more).2 :=
  runOk_andThen (runOk_say (evsOk_common e)) h

theorem runOk_eltStep (o : Opts) (webm : Bool) (st : St) (e : Elt) : RunOk (eltStep o webm st e).2 := by
  have hs : ∀ evs, EvsOk evs → RunOk (skipped st evs).2 := fun evs h => runOk_say h
  have hu : ∀ c, c ∈ fatalCodes → RunOk (unreadable st c).2 := fun c h => runOk_fatal h
  have hx : ∀ ev, EvOk ev → RunOk (extra st e ev).2 := fun ev h => runOk_say (evsOk_one h)
  have hn : RunOk (say []) := runOk_say evsOk_nil
  unfold eltStep
  cases e.body <;> dsimp only
  all_goals repeat' (first
    | exact hs _ evsOk_nil
    | exact hs _ (evsOk_one (by decide))
    | exact hu _ (by decide)
    | exact hx _ (by decide)
    | exact hn
    | exact runOk_taken _ _ _ hn
    | exact runOk_taken _ _ _ (runOk_say (evsOk_ite (evsOk_one (by decide)) evsOk_nil))
    | exact runOk_taken _ _ _ (runOk_tracksRun ..)
    | exact runOk_andThen (runOk_say (evsOk_one (by decide))) (runOk_taken _ _ _ hn)
    | split)

theorem runOk_eltLoop (o : Opts) (webm : Bool) : ∀ (es : List Elt) (st : St), RunOk (eltLoop o webm st es).2
  | [], _ => runOk_say evsOk_nil
  | e :: es, st => by
    rw [eltLoop]
    have h := runOk_eltStep o webm st e
    generalize eltStep o webm st e = p at h ⊢
    obtain ⟨st1, r⟩ := p
    dsimp only at h ⊢
    by_cases hn : r.fin = .next
    · rw [if_pos hn]
      exact runOk_andThen h (runOk_eltLoop o webm es st1)
    · rw [if_neg hn]; exact h

theorem runOk_clusters (o : Opts) (fits : Nat → Bool) (f : File) (st : St) : RunOk (clustersRun o fits f st) := by
  unfold clustersRun
  refine runOk_ite (runOk_say evsOk_nil) (runOk_inOrder ?_)
  intro r hr
  simp only [List.mem_cons, List.not_mem_nil, or_false] at hr
  rcases hr with rfl | rfl | rfl | rfl | rfl | rfl
  · exact runOk_ite (runOk_stop (by decide)) (runOk_say evsOk_nil)
  · exact runOk_ite (runOk_videoStart ..) (runOk_say evsOk_nil)
  · exact runOk_say (evsOk_lacing ..)
  · exact runOk_say (evsOk_posSize ..)
  · exact runOk_ite (runOk_say (by evs_ok)) (runOk_say (evsOk_cues ..))
  · exact runOk_ite (runOk_fatal (by decide)) (runOk_say evsOk_nil)

/-- `segmentRun` without its last part. -/
def segmentPre (o : Opts) (fits : Nat → Bool) (webm : Bool) (f : File) (st : St) : Run :=
  if st.found.info.isNone then ⟨[.fatal 0x40], .exit⟩
  else
    inOrder
      [say (match f.segEnd, st.prev with
        | some e, some p => if e ≠ p then [.err 0x42] else []
        | _, _ => []),
       match st.found.seekHead with
        | none => say (if o.live then [] else [.warn 0x801])
        | some p => say (checkSeekHead st.found p true st.seeks),
       match st.found.seekHead2 with
        | none => say []
        | some p => say (checkSeekHead st.found p false st.seeks2),
       clustersRun o fits f st,
       if st.found.tracks.isSome then say (checkTracks webm (if st.found.attachments.isSome then some st.files else none) st.tracks) else say [],
       say (emptyEvs st.tracks st.clusters)]

/-- The last part. -/
def voidEvs (n : Nat) : List Ev := if n > 4 * 1024 then [.warn 0xD0] else []

theorem andThen_assoc (a b c : Run) : (a.andThen b).andThen c = a.andThen (b.andThen c) := by
  unfold Run.andThen
  by_cases ha : a.fin = .next
  · rw [if_pos ha]
    by_cases hb : b.fin = .next
    · rw [if_pos hb]; simp only [hb, if_true, ha, List.append_assoc]
    · rw [if_neg hb]; simp only [hb, if_false, ha, if_true]
  · rw [if_neg ha, if_neg ha, if_neg ha]

theorem inOrder_append (rs : List Run) (r : Run) : inOrder (rs ++ [r]) = (inOrder rs).andThen r := by
  induction rs with
  | nil =>
    simp only [List.nil_append, inOrder]
    unfold Run.andThen say
    simp only [if_true, List.append_nil, List.nil_append]
    by_cases h : r.fin = .next
    · rw [if_pos h]
      obtain ⟨e, f⟩ := r
      simp only at h
      rw [h]
    · rw [if_neg h]
  | cons a rs ih => rw [List.cons_append, inOrder, ih, inOrder, andThen_assoc]

theorem segmentRun_eq (o : Opts) (fits : Nat → Bool) (webm : Bool) (f : File) (st : St) :
    segmentRun o fits webm f st = (segmentPre o fits webm f st).andThen (say (voidEvs st.void)) := by
  unfold segmentRun segmentPre
  by_cases h : st.found.info.isNone = true
  · rw [if_pos h, if_pos h]; rfl
  · rw [if_neg h, if_neg h, ← inOrder_append]; rfl

theorem runOk_segment (o : Opts) (fits : Nat → Bool) (webm : Bool) (f : File) (st : St) : RunOk (segmentPre o fits webm f st) := by
  unfold segmentPre
  refine runOk_ite (runOk_fatal (by decide)) (runOk_inOrder ?_)
  intro r hr
  simp only [List.mem_cons, List.not_mem_nil, or_false] at hr
  rcases hr with rfl | rfl | rfl | rfl | rfl | rfl
  · apply runOk_say
    split
    · evs_ok
    · exact evsOk_nil
  · cases st.found.seekHead with
    | none => exact runOk_say (by evs_ok)
    | some p => exact runOk_say (evsOk_seekHead ..)
  · cases st.found.seekHead2 with
    | none => exact runOk_say evsOk_nil
    | some p => exact runOk_say (evsOk_seekHead ..)
  · exact runOk_clusters ..
  · exact runOk_ite (runOk_say (evsOk_tracks ..)) (runOk_say evsOk_nil)
  · exact runOk_say (evsOk_empty ..)

theorem runOk_head (o : Opts) (h : Head) : RunOk (headRun o h) := by
  unfold headRun
  cases h.read <;> dsimp only
  · exact runOk_fatal (by decide)
  · exact runOk_fatal (by decide)
  · exact runOk_fatal (by decide)
  · refine runOk_inOrder ?_
    intro r hr
    simp only [List.mem_cons, List.not_mem_nil, or_false] at hr
    rcases hr with rfl | rfl | rfl | rfl | rfl | rfl | rfl | rfl
    · exact runOk_say (evsOk_unknown _)
    · exact runOk_say (by evs_ok)
    · exact runOk_say (by evs_ok)
    · exact runOk_say (by evs_ok)
    · exact runOk_ite (runOk_fatal (by decide)) (runOk_say evsOk_nil)
    · exact runOk_say (by evs_ok)
    · exact runOk_say (by evs_ok)
    · exact runOk_ite (runOk_say evsOk_nil) (runOk_fatal (by decide))

/-- The elements of the Segment as `main` collects them. -/
def collected (o : Opts) (f : File) : St := (eltLoop o f.head.webm { void := voidAmount f.head.nodes } f.elts).1

/-- A run without the message about void data. -/
def validatePre (o : Opts) (fits : Nat → Bool) (f : File) : Run :=
  (headRun o f.head).andThen
    ((eltLoop o f.head.webm { void := voidAmount f.head.nodes } f.elts).2.andThen (segmentPre o fits f.head.webm f (collected o f)))

theorem validate_eq (o : Opts) (fits : Nat → Bool) (f : File) :
    validate o fits f = (validatePre o fits f).andThen (say (voidEvs (collected o f).void)) := by
  unfold validate validatePre collected
  dsimp only
  rw [segmentRun_eq, andThen_assoc, andThen_assoc]

theorem runOk_pre (o : Opts) (fits : Nat → Bool) (f : File) : RunOk (validatePre o fits f) :=
  runOk_andThen (runOk_head ..) (runOk_andThen (runOk_eltLoop ..) (runOk_segment ..))

/-- A message other than a fatal one. -/
def EvOkW : Ev → Prop
  | .err c => 0 < c ∧ c < 4096 ∧ c ∉ droppedCodes ∧ c ∉ fatalCodes
  | .lost c => c ∈ droppedCodes
  | .fatal _ => False
  | .warn _ => True

instance : DecidablePred EvOkW := fun e => by cases e <;> unfold EvOkW <;> infer_instance

structure EvsOkW (evs : List Ev) : Prop where
  ok : ∀ e ∈ evs, EvOkW e

theorem evsOk_weak {evs : List Ev} (h : EvsOk evs) : EvsOkW evs :=
  ⟨fun e he => by have := h.ok e he; cases e <;> first | exact this | trivial⟩

def RunOkW (r : Run) : Prop :=
  (r.fin ≠ .exit ∧ EvsOkW r.evs) ∨ (r.fin = .exit ∧ ∃ pre c, r.evs = pre ++ [.fatal c] ∧ EvsOkW pre ∧ c ∈ fatalCodes)

theorem runOk_validate (o : Opts) (fits : Nat → Bool) (f : File) : RunOkW (validate o fits f) := by
  rw [validate_eq]
  have h := runOk_pre o fits f
  generalize validatePre o fits f = r at h ⊢
  unfold Run.andThen
  by_cases hn : r.fin = .next
  · rw [if_pos hn]
    rcases h with ⟨_, h⟩ | ⟨hx, _⟩
    · refine .inl ⟨by simp [say], ⟨fun e he => ?_⟩⟩
      rcases List.mem_append.mp he with he | he
      · exact (evsOk_weak h).ok e he
      · simp only [say, voidEvs] at he
        split at he
        · rw [List.mem_singleton] at he; rw [he]; trivial
        · cases he
    · rw [hn] at hx; cases hx
  · rw [if_neg hn]
    rcases h with ⟨hf, h⟩ | ⟨hf, pre, c, he, h, hc⟩
    · exact .inl ⟨hf, evsOk_weak h⟩
    · exact .inr ⟨hf, pre, c, he, evsOk_weak h, hc⟩

/-! ### Result -/

/-- The code an accumulated message adds. -/
def Ev.kept : Ev → Option Nat
  | .err c => some c
  | _ => none

theorem low8_or (a b : BitVec 32) : low8 (a ||| b) = 0 ↔ low8 a = 0 ∧ low8 b = 0 := by
  unfold low8
  have h : ∀ x : BitVec 32, x.toNat % 256 = 0 ↔ x.extractLsb' 0 8 = 0#8 := by
    intro x
    rw [← BitVec.toNat_inj]
    simp only [BitVec.extractLsb'_toNat, Nat.shiftRight_zero, Nat.reducePow, BitVec.toNat_ofNat, Nat.zero_mod]
  rw [h, h, h, BitVec.extractLsb'_or, BitVec.or_eq_zero_iff]

theorem low8_neg {c : Nat} (_ : c < 4096) : low8 (neg c) = 0 ↔ c % 256 = 0 := by
  unfold low8 neg
  rw [BitVec.toNat_neg, BitVec.toNat_ofNat]
  omega

theorem neg_ne {c : Nat} (h0 : 0 < c) (h : c < 4096) : neg c ≠ 0#32 := by
  intro hx
  have := congrArg BitVec.toNat hx
  unfold neg at this
  rw [BitVec.toNat_neg, BitVec.toNat_ofNat] at this
  simp only [BitVec.toNat_ofNat, Nat.zero_mod] at this
  omega

theorem result_fold (evs : List Ev) (h : EvsOkW evs) : ∀ r : BitVec 32,
    (low8 (evs.foldl Ev.apply r) = 0 ↔ low8 r = 0 ∧ ∀ c, .err c ∈ evs → c % 256 = 0)
    ∧ (evs.foldl Ev.apply r = 0#32 ↔ r = 0#32 ∧ ∀ c, .err c ∉ evs) := by
  induction evs with
  | nil =>
    intro r
    refine ⟨⟨fun h => ⟨h, fun c hc => by cases hc⟩, fun h => h.1⟩, ⟨fun h => ⟨h, fun c hc => by cases hc⟩, fun h => h.1⟩⟩
  | cons e es ih =>
    intro r
    have hes : EvsOkW es := ⟨fun x hx => h.ok x (List.mem_cons_of_mem _ hx)⟩
    have he := h.ok e List.mem_cons_self
    rw [List.foldl_cons]
    obtain ⟨i1, i2⟩ := ih hes (Ev.apply r e)
    rw [i1, i2]
    cases e with
    | err c =>
      obtain ⟨c0, c1, _, _⟩ := he
      simp only [Ev.apply, List.mem_cons, Ev.err.injEq]
      rw [low8_or, low8_neg c1, BitVec.or_eq_zero_iff]
      constructor
      · constructor
        · rintro ⟨⟨a, b⟩, d⟩
          refine ⟨a, fun x hx => ?_⟩
          rcases hx with rfl | hx
          · exact b
          · exact d x hx
        · rintro ⟨a, d⟩
          exact ⟨⟨a, d c (.inl rfl)⟩, fun x hx => d x (.inr hx)⟩
      · constructor
        · rintro ⟨⟨_, b⟩, _⟩; exact absurd b (neg_ne c0 c1)
        · rintro ⟨_, d⟩; exact absurd (.inl rfl) (d c)
    | lost c => simp [Ev.apply]
    | fatal c => exact absurd he id
    | warn c => simp [Ev.apply]

end Verif.Mkvalidator
