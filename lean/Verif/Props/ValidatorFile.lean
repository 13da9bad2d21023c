import Verif.Props.ValidatorBlocks
import Verif.Mkvalidator.FileLemmas
/-!
Theorems about mkvalidator: C133 (void data), C134 (codecs and attachment links), C135 (a file without errors).
-/
set_option linter.unusedSimpArgs false
namespace Verif.Mkvalidator
open Verif Verif.Core Verif.Mkv

/-! ### C133 -/

mutual
/-- Specification: the void data among elements and all they contain. -/
def voidIn : List Node → Nat
  | [] => 0
  | k :: ks => voidOf k + voidIn ks
def voidOf : Node → Nat
  | .dummy | .leaf => 0
  | .void n => n
  | .master kids => voidIn kids
end

/-- Specification: the void data of an element of the Segment. -/
def voidElt (e : Elt) : Nat :=
  match e.body with
  | .void n => n
  | _ => voidIn e.nodes

/-- Specification: the void data of a file. -/
def voidFile (f : File) : Nat := voidIn f.head.nodes + (f.elts.map voidElt).sum

mutual
theorem voidLoop_le : ∀ (ks : List Node) (a : Nat), voidLoop a ks ≤ a + voidIn ks
  | [], a => by rw [voidLoop, voidIn]; omega
  | k :: ks, a => by
    rw [voidLoop, voidIn]
    have h1 := voidLoop_le ks (voidStep a k)
    have h2 := voidStep_le k a
    omega
theorem voidStep_le : ∀ (k : Node) (a : Nat), voidStep a k ≤ a + voidOf k
  | .dummy, a => by rw [voidStep, voidOf]; omega
  | .leaf, a => by rw [voidStep, voidOf]; omega
  | .void n, a => by rw [voidStep, voidOf]; omega
  | .master kids, a => by
    rw [voidStep, voidOf]
    have := voidLoop_le kids 0
    omega
end

theorem voidAmount_le (ks : List Node) : voidAmount ks ≤ voidIn ks := by
  have := voidLoop_le ks 0
  unfold voidAmount
  omega

theorem step_void (o : Opts) (webm : Bool) (st : St) (e : Elt) : (eltStep o webm st e).1.void ≤ st.void + voidElt e := by
  have h := voidAmount_le e.nodes
  unfold eltStep voidElt
  cases hb : e.body <;> dsimp only
  all_goals repeat' split
  all_goals try simp only [taken, skipped, extra, unreadable, id]
  all_goals omega

theorem loop_void (o : Opts) (webm : Bool) : ∀ (es : List Elt) (st : St),
    (eltLoop o webm st es).1.void ≤ st.void + (es.map voidElt).sum
  | [], st => by simp [eltLoop]
  | e :: es, st => by
    rw [eltLoop]
    have hs := step_void o webm st e
    generalize eltStep o webm st e = p at hs ⊢
    obtain ⟨st1, r⟩ := p
    dsimp only at hs ⊢
    rw [List.map_cons, List.sum_cons]
    by_cases hr : r.fin = .next
    · rw [if_pos hr]
      have := loop_void o webm es st1
      dsimp only
      omega
    · rw [if_neg hr]
      dsimp only
      omega

theorem voidIn_zero (ks : List Node) (h : voidIn ks = 0) : voidAmount ks = 0 := by have := voidAmount_le ks; omega

theorem step_void_flat (o : Opts) (webm : Bool) (st : St) (e : Elt) (h : voidIn e.nodes = 0) (_hn : (eltStep o webm st e).2.fin = .next) :
    (eltStep o webm st e).1.void = st.void + voidElt e := by
  have h0 := voidIn_zero _ h
  unfold eltStep voidElt
  cases hb : e.body <;> dsimp only
  all_goals repeat' split
  all_goals try simp only [taken, skipped, extra, unreadable, id]
  all_goals omega

theorem loop_void_flat (o : Opts) (webm : Bool) : ∀ (es : List Elt) (st : St), (∀ e ∈ es, voidIn e.nodes = 0) →
    (eltLoop o webm st es).2.fin = .next → (eltLoop o webm st es).1.void = st.void + (es.map voidElt).sum
  | [], st, _, _ => by simp [eltLoop]
  | e :: es, st, h, hn => by
    rw [eltLoop] at hn ⊢
    have hs := step_void_flat o webm st e (h e List.mem_cons_self)
    generalize eltStep o webm st e = p at hs hn ⊢
    obtain ⟨st1, r⟩ := p
    dsimp only at hs hn ⊢
    rw [List.map_cons, List.sum_cons]
    by_cases hr : r.fin = .next
    · rw [if_pos hr] at hn ⊢
      have := loop_void_flat o webm es st1 (fun x hx => h x (List.mem_cons_of_mem _ hx)) (next_andThen hn).2
      have := hs hr
      dsimp only
      omega
    · rw [if_neg hr] at hn; exact absurd hn hr

theorem warn_void (o : Opts) (fits : Nat → Bool) (f : File) :
    .warn 0xD0 ∈ (validate o fits f).evs ↔ (validatePre o fits f).fin = .next ∧ 4096 < (collected o f).void := by
  rw [validate_eq]
  have h := runOk_pre o fits f
  have hno : .warn 0xD0 ∉ (validatePre o fits f).evs := by
    intro hx
    rcases h with ⟨_, h⟩ | ⟨_, pre, c, he, h, _⟩
    · exact h.ok _ hx rfl
    · rw [he] at hx
      rcases List.mem_append.mp hx with hx | hx
      · exact h.ok _ hx rfl
      · rw [List.mem_singleton] at hx; cases hx
  unfold Run.andThen
  by_cases hn : (validatePre o fits f).fin = .next
  · rw [if_pos hn]
    simp only [say, List.mem_append, hno, false_or, voidEvs, mem_ite, hn, true_and, and_true]
    try omega
  · rw [if_neg hn]
    simp [hno, hn]

/-- C133, what holds: if mkvalidator warns about void data, the file holds more than 4096 bytes of it; and if there is void
data directly in the Segment only, it warns exactly then, provided it gets to the end.

Not true, see the counterexample: that it warns about every such file. -/
theorem C133_void_partial (o : Opts) (fits : Nat → Bool) (f : File) :
    (.warn 0xD0 ∈ (validate o fits f).evs → 4096 < voidFile f)
    ∧ ((validate o fits f).fin = .next → voidIn f.head.nodes = 0 → (∀ e ∈ f.elts, voidIn e.nodes = 0) →
        (.warn 0xD0 ∈ (validate o fits f).evs ↔ 4096 < voidFile f)) := by
  rw [warn_void]
  unfold voidFile
  constructor
  · rintro ⟨_, h⟩
    have h1 := loop_void o f.head.webm f.elts { void := voidAmount f.head.nodes }
    have h2 := voidAmount_le f.head.nodes
    unfold collected at h
    dsimp only at h1
    omega
  · intro hn hh he
    rw [validate_eq] at hn
    have hp := (next_andThen hn).1
    have hl : (eltLoop o f.head.webm { void := voidAmount f.head.nodes } f.elts).2.fin = .next := (next_andThen (next_andThen hp).2).1
    have h1 := loop_void_flat o f.head.webm f.elts { void := voidAmount f.head.nodes } he hl
    have h2 := voidIn_zero _ hh
    unfold collected
    dsimp only at h1
    constructor
    · rintro ⟨_, h⟩; omega
    · intro h; exact ⟨hp, by omega⟩

/-- Two Voids of 3000 bytes in the Segment: a warning. -/
example : .warn 0xD0 ∈ (validate {} (fun _ => true) { elts := [{ body := .info 1000000 false }, { body := .void 3000 }, { body := .void 3000 }] }).evs := by
  decide +kernel

/-- C133, counterexample: two Voids of 3000 bytes in one element draw no warning. -/
theorem C133_void_counterexample :
    ∃ f : File, voidFile f = 6000 ∧ (validate {} (fun _ => true) f).fin = .next ∧ .warn 0xD0 ∉ (validate {} (fun _ => true) f).evs :=
  ⟨{ elts := [{ body := .info 1000000 false, nodes := [.void 3000, .void 3000] }] }, by decide +kernel, by decide +kernel, by decide +kernel⟩

/-! ### C134 -/

theorem mem_links (files : Option (List Int)) (e : Ev) : ∀ ls : List Int, e ∈ linkEvs files ls ↔
    (e = .err 0x305 ∧ files = none ∧ ls ≠ []) ∨ (e = .err 0x306 ∧ ∃ fs, files = some fs ∧ ∃ l ∈ ls, l ∉ fs)
  | [] => by simp [linkEvs]
  | l :: ls => by
    cases files with
    | none => simp [linkEvs]
    | some fs =>
      rw [linkEvs]
      rw [List.mem_append, mem_links (some fs) e ls]
      by_cases h : fs.contains l = true
      · rw [if_pos h]
        have hm : l ∈ fs := by simpa using h
        simp [hm]
      · rw [if_neg h]
        have hm : l ∉ fs := by simpa using h
        simp [hm]
        intro h _ _ _; exact h

/-- C134: for every list of tracks `CheckTracks` reports exactly: in WebM files 0x302 for a track that is neither audio nor
video, 0x303 for audio that is not Vorbis or Opus, 0x304 for video that is not VP8 or VP9; 0x305 for an AttachmentLink in a
file without attachments, 0x306 for one to an attachment that does not exist; 0x30A for audio with a sampling frequency of
zero; a warning 0x307 for a codec name with small letters. Case does not matter in the names of codecs. There are no other
errors. -/
theorem C134_tracks (webm : Bool) (files : Option (List Int)) (ts : List Track) :
    (∀ c, .err c ∈ checkTracks webm files ts ↔ ∃ t ∈ ts,
      (c = 0x302 ∧ webm = true ∧ t.type.getD 0 ≠ 1 ∧ t.type.getD 0 ≠ 2)
      ∨ (c = 0x303 ∧ webm = true ∧ t.type.getD 0 = 2 ∧ ¬ SameName (t.codec.getD []) nVorbis ∧ ¬ SameName (t.codec.getD []) nOpus)
      ∨ (c = 0x304 ∧ webm = true ∧ t.type.getD 0 = 1 ∧ ¬ SameName (t.codec.getD []) nVp8 ∧ ¬ SameName (t.codec.getD []) nVp9)
      ∨ (c = 0x305 ∧ files = none ∧ t.links ≠ [])
      ∨ (c = 0x306 ∧ ∃ fs, files = some fs ∧ ∃ l ∈ t.links, l ∉ fs)
      ∨ (c = 0x30A ∧ t.type.getD 0 = 2 ∧ (t.outFreqZero = true ∨ t.freqZero = true)))
    ∧ (.warn 0x307 ∈ checkTracks webm files ts ↔ ∃ t ∈ ts, ∃ x ∈ t.codec.getD [], 97 ≤ x ∧ x ≤ 122) := by
  have hup : ∀ s : Bytes, s.map toUpper ≠ s ↔ ∃ x ∈ s, 97 ≤ x ∧ x ≤ 122 := by
    intro s
    have hone : ∀ x : UInt8, toUpper x ≠ x ↔ 97 ≤ x ∧ x ≤ 122 := by apply all_u8; decide +kernel
    induction s with
    | nil => simp
    | cons a s ih =>
      have := hone a
      simp only [List.map_cons, ne_eq, List.cons.injEq, not_and, List.mem_cons, exists_eq_or_imp] at this ⊢
      refine Iff.trans ?_ (or_congr this ih)
      by_cases h : toUpper a = a <;> simp [h]
  have hsame : ∀ a b : Bytes, (!isame a b) = true ↔ ¬ SameName a b := by
    intro a b; rw [Bool.not_eq_true', ← Bool.not_eq_true, isame_iff]
  have hcod : ∀ (t : Track) (e : Ev), e ∈ codecEvs webm t ↔
      (e = .warn 0x307 ∧ ∃ x ∈ t.codec.getD [], 97 ≤ x ∧ x ≤ 122)
      ∨ (e = .warn 0x308 ∧ oddCodec ((t.codec.getD []).map toUpper) = true)
      ∨ (e = .err 0x30A ∧ t.type.getD 0 = 2 ∧ (t.outFreqZero = true ∨ t.freqZero = true))
      ∨ (e = .err 0x302 ∧ webm = true ∧ t.type.getD 0 ≠ 1 ∧ t.type.getD 0 ≠ 2)
      ∨ (e = .err 0x303 ∧ webm = true ∧ t.type.getD 0 = 2 ∧ ¬ SameName (t.codec.getD []) nVorbis ∧ ¬ SameName (t.codec.getD []) nOpus)
      ∨ (e = .err 0x304 ∧ webm = true ∧ t.type.getD 0 = 1 ∧ ¬ SameName (t.codec.getD []) nVp8 ∧ ¬ SameName (t.codec.getD []) nVp9) := by
    intro t e
    unfold codecEvs
    dsimp only
    rw [List.mem_append, List.mem_append, List.mem_append, mem_ite, mem_ite, hup]
    have h1 : e ∈ (if t.type.getD 0 = 2 then (if t.outFreqZero then [Ev.err 0x30A] else []) ++ (if t.freqZero then [Ev.err 0x30A] else []) else [])
        ↔ e = .err 0x30A ∧ t.type.getD 0 = 2 ∧ (t.outFreqZero = true ∨ t.freqZero = true) := by
      by_cases h : t.type.getD 0 = 2
      · rw [if_pos h, List.mem_append, mem_ite, mem_ite]
        constructor
        · rintro (⟨a, b⟩ | ⟨a, b⟩)
          · exact ⟨b, h, .inl a⟩
          · exact ⟨b, h, .inr a⟩
        · rintro ⟨b, _, a | a⟩
          · exact .inl ⟨a, b⟩
          · exact .inr ⟨a, b⟩
      · rw [if_neg h]; simp [h]
    have h2 : e ∈ (if webm then
          (if t.type.getD 0 ≠ 2 ∧ t.type.getD 0 ≠ 1 then [Ev.err 0x302] else [])
            ++ (if t.type.getD 0 = 2 then (if !isame (t.codec.getD []) nVorbis && !isame (t.codec.getD []) nOpus then [.err 0x303] else [])
                else if t.type.getD 0 = 1 then (if !isame (t.codec.getD []) nVp8 && !isame (t.codec.getD []) nVp9 then [.err 0x304] else [])
                else [])
        else []) ↔ (e = .err 0x302 ∧ webm = true ∧ t.type.getD 0 ≠ 1 ∧ t.type.getD 0 ≠ 2)
      ∨ (e = .err 0x303 ∧ webm = true ∧ t.type.getD 0 = 2 ∧ ¬ SameName (t.codec.getD []) nVorbis ∧ ¬ SameName (t.codec.getD []) nOpus)
      ∨ (e = .err 0x304 ∧ webm = true ∧ t.type.getD 0 = 1 ∧ ¬ SameName (t.codec.getD []) nVp8 ∧ ¬ SameName (t.codec.getD []) nVp9) := by
      by_cases hw : webm = true
      · rw [if_pos hw, List.mem_append, mem_ite]
        by_cases ht2 : t.type.getD 0 = 2
        · rw [if_pos ht2, mem_ite, Bool.and_eq_true, hsame, hsame]
          simp [ht2, hw, and_comm]
        · rw [if_neg ht2]
          by_cases ht1 : t.type.getD 0 = 1
          · rw [if_pos ht1, mem_ite, Bool.and_eq_true, hsame, hsame]
            simp [ht1, hw, and_comm]
          · rw [if_neg ht1]
            simp [ht1, ht2, hw, and_comm]
      · rw [if_neg hw]; simp [hw]
    rw [h1, h2, and_comm (b := e = .warn 0x307), and_comm (b := e = .warn 0x308), or_assoc, or_assoc]
  have hall : ∀ e, e ∈ checkTracks webm files ts ↔ ∃ t ∈ ts, e ∈ codecEvs webm t ∨ e ∈ linkEvs files t.links := by
    intro e
    unfold checkTracks
    rw [List.mem_flatMap]
    simp only [List.mem_append]
  constructor
  · intro c
    rw [hall]
    refine exists_congr fun t => and_congr_right fun _ => ?_
    rw [hcod, mem_links]
    simp only [reduceCtorEq, false_and, false_or, Ev.err.injEq]
    constructor
    · rintro ((h | h | h | h) | h | h)
      · exact .inr (.inr (.inr (.inr (.inr h))))
      · exact .inl h
      · exact .inr (.inl h)
      · exact .inr (.inr (.inl h))
      · exact .inr (.inr (.inr (.inl h)))
      · exact .inr (.inr (.inr (.inr (.inl h))))
    · rintro (h | h | h | h | h | h)
      · exact .inl (.inr (.inl h))
      · exact .inl (.inr (.inr (.inl h)))
      · exact .inl (.inr (.inr (.inr h)))
      · exact .inr (.inl h)
      · exact .inr (.inr h)
      · exact .inl (.inl h)
  · rw [hall]
    refine exists_congr fun t => and_congr_right fun _ => ?_
    rw [hcod, mem_links]
    simp

/-- A WebM file with FLAC audio under a name in small letters and a link to an attachment that is not there. -/
example : checkTracks true (some [7]) [{ num := some 1, type := some 2, codec := some [0x61, 0x5F, 0x66, 0x6C, 0x61, 0x63], links := [7, 8] }]
    = [.warn 0x307, .err 0x303, .err 0x306] := by decide +kernel

/-- Opus in small letters passes for WebM. -/
example : checkTracks true none [{ num := some 1, type := some 2, codec := some [0x61, 0x5F, 0x6F, 0x70, 0x75, 0x73] }] = [.warn 0x307] := by
  decide +kernel

/-! ### C135 -/

/-- Specification: the first element of the Segment of a kind. -/
def IsFirst (f : File) (kind : Body → Prop) (e : Elt) : Prop :=
  ∃ l r, f.elts = l ++ e :: r ∧ kind e.body ∧ ∀ x ∈ l, ¬ kind x.body

theorem firstOf_spec {α : Type} {g : Body → Option α} {kind : Body → Prop} (hk : ∀ b, kind b ↔ g b ≠ none) {f : File} {e : Elt} {a : α}
    (h : IsFirst f kind e) (ha : g e.body = some a) : firstOf g f.elts = some (e.pos, a) := by
  obtain ⟨l, r, h1, _, h3⟩ := h
  unfold firstOf
  rw [List.findSome?_eq_some_iff]
  refine ⟨l, e, r, h1, by rw [ha]; rfl, fun x hx => ?_⟩
  have := h3 x hx
  rw [hk, Decidable.not_not] at this
  rw [this]; rfl

theorem firstOf_exists {α : Type} {g : Body → Option α} {kind : Body → Prop} (hk : ∀ b, kind b ↔ g b ≠ none) {f : File} {p : Int} {a : α}
    (h : firstOf g f.elts = some (p, a)) : ∃ e, IsFirst f kind e ∧ g e.body = some a ∧ e.pos = p := by
  unfold firstOf at h
  rw [List.findSome?_eq_some_iff] at h
  obtain ⟨l, e, r, h1, h2, h3⟩ := h
  cases hg : g e.body with
  | none => rw [hg] at h2; cases h2
  | some a' =>
    rw [hg] at h2
    simp only [Option.map_some, Option.some.injEq, Prod.mk.injEq] at h2
    obtain ⟨rfl, rfl⟩ := h2
    refine ⟨e, ⟨l, r, h1, by rw [hk, hg]; simp, fun x hx => ?_⟩, hg, rfl⟩
    have := h3 x hx
    rw [hk, Decidable.not_not]
    cases hx : g x.body with
    | none => rfl
    | some y => rw [hx] at this; cases this

theorem kind_seek (b : Body) : (∃ s, b = .seekHead s) ↔ b.seekOf ≠ none := by cases b <;> simp [Body.seekOf]
theorem kind_info (b : Body) : (∃ s d, b = .info s d) ↔ b.scaleOf ≠ none := by cases b <;> simp [Body.scaleOf]
theorem kind_tracks (b : Body) : (∃ s, b = .tracks s) ↔ b.tracksOf ≠ none := by cases b <;> simp [Body.tracksOf]
theorem kind_cues (b : Body) : (∃ s, b = .cues s) ↔ b.cuesOf ≠ none := by cases b <;> simp [Body.cuesOf]
theorem kind_files (b : Body) : (∃ s, b = .attachments s) ↔ b.filesOf ≠ none := by cases b <;> simp [Body.filesOf]
theorem kind_chapters (b : Body) : b = .chapters ↔ b.chaptersOf ≠ none := by cases b <;> simp [Body.chaptersOf]
theorem kind_tags (b : Body) : b = .tags ↔ b.tagsOf ≠ none := by cases b <;> simp [Body.tagsOf]

/-- Specification: what an entry of a SeekHead names, for the IDs that are checked. -/
def Named (f : File) (id : Nat) (e : Elt) : Prop :=
  (id = 0x1549A966 ∧ IsFirst f (fun b => ∃ s d, b = .info s d) e)
  ∨ (id = 0x1654AE6B ∧ IsFirst f (fun b => ∃ ts, b = .tracks ts) e)
  ∨ (id = 0x1C53BB6B ∧ IsFirst f (fun b => ∃ cs, b = .cues cs) e)
  ∨ (id = 0x1254C367 ∧ IsFirst f (fun b => b = .tags) e)
  ∨ (id = 0x1043A770 ∧ IsFirst f (fun b => b = .chapters) e)
  ∨ (id = 0x1941A469 ∧ IsFirst f (fun b => ∃ fs, b = .attachments fs) e)

/-- What a report without errors says about the Segment: the run has gone through all parts. -/
theorem clean_parts {o : Opts} {fits : Nat → Bool} {f : File} (hl : o.live = false) (hq : o.quick = false) {s : Nat}
    (hs : (validate o fits f).status o = .exited s) (hno : ∀ c, ¬ Printed o (validate o fits f) c) :
    (validate o fits f).fin = .next ∧ (∀ c, .err c ∉ (validate o fits f).evs)
    ∧ (eltLoop o f.head.webm { void := voidAmount f.head.nodes } f.elts).2.fin = .next
    ∧ (∀ e ∈ (eltLoop o f.head.webm { void := voidAmount f.head.nodes } f.elts).2.evs, e ∈ (validate o fits f).evs)
    ∧ Known f.elts (collected o f)
    ∧ (segmentPre o fits f.head.webm f (collected o f)).fin = .next
    ∧ (∀ e ∈ (segmentPre o fits f.head.webm f (collected o f)).evs, e ∈ (validate o fits f).evs) := by
  have hp := printed_iff (r := validate o fits f) hq
  have hn : (validate o fits f).fin = .next := by
    have hst : (validate o fits f).status o = (match (validate o fits f).fin with
        | .next | .exit => .exited (low8 (result (validate o fits f).evs))
        | .crash => .crashed
        | .hang => .running) := by
      unfold Run.status; rw [hq]; cases lines o (validate o fits f).evs <;> rfl
    rw [hst] at hs
    have hr := runOk_validate o fits f
    generalize validate o fits f = r at hs hr hno hp ⊢
    rcases hr with ⟨hf, _⟩ | ⟨_, pre, c, he, _, _⟩
    · cases h : r.fin with
      | next => rfl
      | exit => exact absurd h hf
      | crash => rw [h] at hs; cases hs
      | hang => rw [h] at hs; cases hs
    · exact absurd ((hp c).mpr (.inr (.inr (by rw [he]; simp)))) (hno c)
  have herr : ∀ c, .err c ∉ (validate o fits f).evs := fun c h => hno c ((hp c).mpr (.inl h))
  have hv := validate_eq o fits f
  have hn' := hn
  rw [hv] at hn'
  have hp1 := (next_andThen hn').1
  have he1 : (validate o fits f).evs = (validatePre o fits f).evs ++ voidEvs (collected o f).void := by
    rw [hv]; exact andThen_evs hn'
  have hp2 := (next_andThen hp1).2
  have he2 := andThen_evs hp1
  have he3 := andThen_evs hp2
  obtain ⟨hp3, hp4⟩ := next_andThen hp2
  refine ⟨hn, herr, hp3, ?_, ?_, hp4, ?_⟩
  · intro e he
    rw [he1]
    refine List.mem_append_left _ ?_
    unfold validatePre
    rw [he2, he3]
    exact List.mem_append_right _ (List.mem_append_left _ he)
  · have := known_loop o f.head.webm hl f.elts _ [] (known_nil (voidAmount f.head.nodes)) hp3
    rw [List.nil_append] at this
    exact this
  · intro e he
    rw [he1]
    refine List.mem_append_left _ ?_
    unfold validatePre
    rw [he2, he3]
    exact List.mem_append_right _ (List.mem_append_right _ he)

/-- C135: what a report without errors is worth. If mkvalidator (without `--live` and `--quick`) exits without having printed
an error, and TrackNumbers are below 32768 and cue points in range, then

* there is an Info, and if there are Clusters there is a Tracks;
* every block of every Cluster is of a track of the first Tracks, is laced only if that track allows it, and is a keyframe if
  all blocks of the track have to be;
* every Position of a Cluster is right, no Cluster has something missing, invalid or double or a wrong checksum, and, if there
  is a video track (and memory for its tables), every Cluster has a Timestamp;
* for every cue point of the first Cues there is a block of its track with its time;
* every entry of the first SeekHead for an Info, Tracks, Cues, Tags, Chapters or Attachments gives the place of the first
  such element, and one for a Cluster, if there are any, the place of a Cluster;
* every AttachmentLink of a track names an attachment of the first Attachments. -/
theorem C135_clean_partial (o : Opts) (fits : Nat → Bool) (f : File) (hl : o.live = false) (hq : o.quick = false) (s : Nat)
    (hs : (validate o fits f).status o = .exited s) (hno : ∀ c, ¬ Printed o (validate o fits f) c)
    (hnum : ∀ e ∈ f.elts, ∀ ts, e.body = .tracks ts → ∀ t ∈ ts, ∀ n, t.num = some n → 0 ≤ n ∧ n < 32768)
    (hblk : ∀ e ∈ f.elts, ∀ c, e.body = .cluster c → c.pos = e.pos ∧ c.pos ≠ 0 ∧ ∀ b ∈ c.blocks, b.track < 65536)
    (hcue : ∀ e ∈ f.elts, ∀ cs, e.body = .cues cs → ∀ e' ∈ f.elts, ∀ scale d, e'.body = .info scale d → ∀ c ∈ cs,
      ∃ t : Int, ∃ k : Nat, c.time = some t ∧ c.track = some (k : Int) ∧ k < 32768 ∧ 0 ≤ t * scale ∧ t * scale < 2 ^ 63 - 1) :
    (∃ e, IsFirst f (fun b => ∃ s d, b = .info s d) e)
    ∧ (∀ e ∈ f.elts, ∀ c, e.body = .cluster c →
        (∃ x ts, IsFirst f (fun b => ∃ ts, b = .tracks ts) x ∧ x.body = .tracks ts
          ∧ (∀ b ∈ c.blocks, ∃ t, FirstTrack ts b.track t ∧ (b.laced = true → t.lacing ≠ some 0) ∧ (AllKeys t → b.key = true))
          ∧ ((∃ t ∈ ts, t.type = some 1) → (∀ n, fits n = true) → c.ts ≠ invalidTs))
        ∧ e.viol = [] ∧ ∀ n, c.position = some n → n = e.pos - f.dataPos)
    ∧ (∀ x cs y scale d, IsFirst f (fun b => ∃ cs, b = .cues cs) x → x.body = .cues cs →
        IsFirst f (fun b => ∃ s d, b = .info s d) y → y.body = .info scale d →
        (∃ e ∈ f.elts, ∃ c, e.body = .cluster c) →
        ∀ cue ∈ cs, ∃ e ∈ f.elts, ∃ c, e.body = .cluster c ∧ ∃ b ∈ c.blocks, cue.track = some (b.track : Int) ∧ ∃ t, cue.time = some t ∧ b.time = t * scale)
    ∧ (∀ x entries, IsFirst f (fun b => ∃ s, b = .seekHead s) x → x.body = .seekHead entries →
        ∀ s ∈ entries, (s.id ∈ [0x1549A966, 0x1654AE6B, 0x1C53BB6B, 0x1254C367, 0x1043A770, 0x1941A469] → ∃ e, Named f s.id e ∧ s.pos = some e.pos)
          ∧ (s.id = 0x1F43B675 → (∃ e ∈ f.elts, ∃ c, e.body = .cluster c) → ∃ e ∈ f.elts, (∃ c, e.body = .cluster c) ∧ s.pos = some e.pos))
    ∧ (∀ x ts, IsFirst f (fun b => ∃ ts, b = .tracks ts) x → x.body = .tracks ts → ∀ t ∈ ts, ∀ l ∈ t.links,
        ∃ y fs, IsFirst f (fun b => ∃ fs, b = .attachments fs) y ∧ y.body = .attachments fs ∧ l ∈ fs) := by
  obtain ⟨_, herr, hloop, hlev, hk, hseg, hsev⟩ := clean_parts hl hq hs hno
  have hinfo : (collected o f).found.info.isNone ≠ true := by
    intro h
    unfold segmentPre at hseg
    rw [if_pos h] at hseg
    cases hseg
  unfold segmentPre at hseg hsev
  rw [if_neg hinfo] at hseg hsev
  have hpart : ∀ r : Run, r ∈ _ → r.fin = .next ∧ ∀ c, .err c ∉ r.evs := fun r hr =>
    ⟨(inOrder_mem hseg hr).1, fun c hc => herr c (hsev _ ((inOrder_mem hseg hr).2 _ hc))⟩
  generalize hst : collected o f = st at hk hinfo hseg hsev hpart
  -- the first Info
  have hI : ∃ p sc, firstOf Body.scaleOf f.elts = some (p, sc) := by
    cases h : firstOf Body.scaleOf f.elts with
    | none => rw [hk.info, h] at hinfo; exact absurd rfl hinfo
    | some x => exact ⟨x.1, x.2, rfl⟩
  obtain ⟨ip, isc, hI⟩ := hI
  have hclmem : ∀ c, c ∈ st.clusters ↔ ∃ e ∈ f.elts, e.body = .cluster c := by
    intro c
    rw [hk.clusters, List.mem_filterMap]
    constructor
    · rintro ⟨e, he, h⟩
      refine ⟨e, he, ?_⟩
      cases hb : e.body <;> rw [hb] at h <;> simp [Body.clusterOf] at h
      rw [h]
    · rintro ⟨e, he, h⟩
      exact ⟨e, he, by rw [h]; rfl⟩
  have hclus := (hpart (clustersRun o fits f st) (by simp))
  -- parts of the run over the Clusters
  have hcl : ∀ c ∈ st.clusters, st.found.tracks.isNone ≠ true
      ∧ (st.hasVideo = true → ∀ n, n = trackMax st.tracks + 1 → fits n = true → ∀ c', .err c' ∉ (checkVideoStart n st.tracks invalidTs st.clusters).evs)
      ∧ (∀ c', .err c' ∉ checkLacing st.tracks st.clusters) ∧ (∀ c', .err c' ∉ checkPosSize f.dataPos none st.clusters)
      ∧ (st.found.cues.isNone ≠ true → ∀ c', .err c' ∉ checkCues st.scale st.clusters invalidTs st.cues) := by
    intro c hc
    have hne : ¬ st.clusters.isEmpty = true := by
      intro h; rw [List.isEmpty_iff] at h; rw [h] at hc; cases hc
    unfold clustersRun at hclus
    rw [if_neg hne] at hclus
    obtain ⟨hcf, hce⟩ := hclus
    have hsub : ∀ r : Run, r ∈ _ → r.fin = .next ∧ ∀ c, .err c ∉ r.evs := fun r hr =>
      ⟨(inOrder_mem hcf hr).1, fun c hc => hce c ((inOrder_mem hcf hr).2 _ hc)⟩
    have p2 := hsub _ (List.mem_cons_of_mem _ List.mem_cons_self)
    have p3 := hsub _ (List.mem_cons_of_mem _ (List.mem_cons_of_mem _ List.mem_cons_self))
    have p4 := hsub _ (List.mem_cons_of_mem _ (List.mem_cons_of_mem _ (List.mem_cons_of_mem _ List.mem_cons_self)))
    have p5 := hsub _ (List.mem_cons_of_mem _ (List.mem_cons_of_mem _ (List.mem_cons_of_mem _ (List.mem_cons_of_mem _ List.mem_cons_self))))
    have p6 := hsub _ (List.mem_cons_of_mem _ (List.mem_cons_of_mem _ (List.mem_cons_of_mem _ (List.mem_cons_of_mem _ (List.mem_cons_of_mem _ List.mem_cons_self)))))
    refine ⟨?_, ?_, p3.2, p4.2, ?_⟩
    · intro h
      rw [if_pos h] at p6
      cases p6.1
    · intro hv n hn hf
      rw [if_pos hv, ← hn, if_pos hf] at p2
      exact p2.2
    · intro h
      rw [if_neg h] at p5
      exact p5.2
  refine ⟨?_, ?_, ?_, ?_, ?_⟩
  · obtain ⟨e, h, _⟩ := firstOf_exists kind_info hI
    exact ⟨e, h⟩
  · intro e he c hec
    have hc : c ∈ st.clusters := (hclmem c).mpr ⟨e, he, hec⟩
    obtain ⟨c1, c2, c3, c4, _⟩ := hcl c hc
    have hT : ∃ p ts, firstOf Body.tracksOf f.elts = some (p, ts) := by
      cases h : firstOf Body.tracksOf f.elts with
      | none => rw [hk.tracks, h] at c1; exact absurd rfl c1
      | some x => exact ⟨x.1, x.2, rfl⟩
    obtain ⟨tp, ts, hT⟩ := hT
    have hts : st.tracks = ts := by rw [hk.entries, hT]; rfl
    obtain ⟨x, hx1, hx2, _⟩ := firstOf_exists kind_tracks hT
    have hxb : x.body = .tracks ts := by
      cases hb : x.body <;> rw [hb] at hx2 <;> simp [Body.tracksOf] at hx2
      rw [hx2]
    have hxm : x ∈ f.elts := by obtain ⟨l, r, h, _⟩ := hx1; rw [h]; simp
    have hnum' := hnum x hxm ts hxb
    have hbl : ∀ c ∈ st.clusters, ∀ b ∈ c.blocks, b.track < 65536 := by
      intro c' hc'
      obtain ⟨e', he', hb'⟩ := (hclmem c').mp hc'
      exact (hblk e' he' c' hb').2.2
    have hpos : ∀ c ∈ st.clusters, c.pos ≠ 0 := by
      intro c' hc'
      obtain ⟨e', he', hb'⟩ := (hclmem c').mp hc'
      exact (hblk e' he' c' hb').2.1
    refine ⟨⟨x, ts, hx1, hxb, ?_, ?_⟩, ?_, ?_⟩
    · intro b hb
      have hlac : ∀ code, ¬ _ := fun code h => c3 code ((C129_lacing_partial st.tracks st.clusters (by rw [hts]; exact hnum') hbl (.err code)).mpr h)
      have hkn : ∃ t ∈ ts, t.num.getD 0 = b.track := by
        apply Decidable.byContradiction
        intro hx
        refine hlac 0xB2 ⟨c, hc, b, hb, .inr (.inr ⟨rfl, ?_⟩)⟩
        rw [hts]
        intro t ht h
        exact hx ⟨t, ht, h⟩
      cases hf : trackFor ts b.track with
      | none =>
        rw [trackFor_none] at hf
        obtain ⟨t, ht, h⟩ := hkn
        exact absurd h (hf t ht)
      | some t =>
        have hft : FirstTrack ts b.track t := trackFor_some.mp hf
        refine ⟨t, hft, ?_, ?_⟩
        · intro h1 h2
          exact hlac 0xB0 ⟨c, hc, b, hb, .inl ⟨rfl, h1, t, by rw [hts]; exact hft, h2⟩⟩
        · intro h1
          cases hkey : b.key with
          | true => rfl
          | false => exact absurd ⟨c, hc, b, hb, .inr (.inl ⟨rfl, hkey, t, by rw [hts]; exact hft, h1⟩)⟩ (hlac 0xB1)
    · rintro ⟨t, ht, hty⟩ hfit hinv
      have hvid : st.hasVideo = true := by
        rw [hk.video, List.any_eq_true, hts]
        exact ⟨t, ht, by rw [hty]; rfl⟩
      refine c2 hvid _ (by rw [hts]) (hfit _) 0xC1 ?_
      have h128 := C128_start_partial st.tracks st.clusters (by rw [hts]; intro t ht n hn; have := hnum' t ht n hn; omega) hpos _ _
        (rfl : checkVideoStart (trackMax st.tracks + 1) st.tracks invalidTs st.clusters
          = ⟨(checkVideoStart (trackMax st.tracks + 1) st.tracks invalidTs st.clusters).evs, (checkVideoStart (trackMax st.tracks + 1) st.tracks invalidTs st.clusters).fin⟩)
      rw [← hts]
      exact h128.2.2.1.mpr ⟨c, hc, hinv⟩
    · obtain ⟨l, r, hsplit⟩ := List.append_of_mem he
      rw [hsplit] at hloop hlev
      obtain ⟨_, hstep, hsub⟩ := loop_split o f.head.webm e r l _ hloop
      cases hv : e.viol with
      | nil => rfl
      | cons v vs =>
        exfalso
        refine herr v.code (hlev _ (hsub _ ?_))
        unfold eltStep at hstep ⊢
        simp only [hec] at hstep ⊢
        by_cases hr : (!e.readOk) = true
        · rw [if_pos hr] at hstep; cases hstep
        · rw [if_neg hr]
          simp only [taken, Run.andThen, say, if_true]
          refine List.mem_append_left _ ?_
          unfold commonEvs
          refine List.mem_append_right _ ?_
          rw [hv]
          simp
    · intro n hn
      have := c4 0xA2
      rw [C131_places_partial] at this
      apply Decidable.byContradiction
      intro hne
      refine this (.inr (.inr ⟨rfl, c, hc, n, hn, ?_⟩))
      rw [(hblk e he c hec).1]
      exact hne
  · intro x cs y scale d hx hxb hy hyb hex cue hcu
    obtain ⟨e0, he0, c0, hc0⟩ := hex
    have hc : c0 ∈ st.clusters := (hclmem c0).mpr ⟨e0, he0, hc0⟩
    obtain ⟨_, _, _, _, c5⟩ := hcl c0 hc
    have h1 := firstOf_spec kind_cues hx (a := cs) (by rw [hxb]; rfl)
    have h2 := firstOf_spec kind_info hy (a := scale) (by rw [hyb]; rfl)
    have hcs : st.cues = cs := by rw [hk.points, h1]; rfl
    have hsc : st.scale = scale := by rw [hk.scale, h2]; rfl
    have hxm : x ∈ f.elts := by obtain ⟨l, r, h, _⟩ := hx; rw [h]; simp
    have hym : y ∈ f.elts := by obtain ⟨l, r, h, _⟩ := hy; rw [h]; simp
    have hr := hcue x hxm cs hxb y hym scale d hyb
    have h312 := c5 (by rw [hk.cues, h1]; simp) 0x312
    rw [hcs, hsc, C132_cues_partial scale st.clusters cs hr] at h312
    obtain ⟨t, k, ht, hkk, _, _, _⟩ := hr cue hcu
    apply Classical.byContradiction
    intro hne
    refine h312 (.inl ⟨rfl, cue, hcu, ?_⟩)
    rintro t' k' ht' hk' ⟨cl, hcl', b, hb, hbt, hbtime⟩
    obtain ⟨e1, he1, hb1⟩ := (hclmem cl).mp hcl'
    exact hne ⟨e1, he1, cl, hb1, b, hb, by rw [hk', hbt], t', ht', hbtime⟩
  · intro x entries hx hxb sk hsk
    have h1 := firstOf_spec kind_seek hx (a := entries) (by rw [hxb]; rfl)
    have hsh : st.found.seekHead = some x.pos := by rw [hk.seekHead, h1]; rfl
    have hse : st.seeks = entries := by rw [hk.seeks, h1]; rfl
    have hp := (hpart _ (List.mem_cons_of_mem _ List.mem_cons_self)).2
    rw [hsh, hse] at hp
    obtain ⟨p, hright⟩ := (C130_seek_partial st.found x.pos true entries).1.mp hp sk hsk
    have key : ∀ {α : Type} (g : Body → Option α) (kind : Body → Prop), (∀ b, kind b ↔ g b ≠ none) → ∀ q : Option Int,
        q = (firstOf g f.elts).map (·.1) → q = some p → ∃ e, IsFirst f kind e ∧ e.pos = p := by
      intro α g kind hkd q hq1 hq2
      rw [hq1] at hq2
      cases hf : firstOf g f.elts with
      | none => rw [hf] at hq2; cases hq2
      | some z =>
        rw [hf] at hq2
        simp only [Option.map_some, Option.some.injEq] at hq2
        obtain ⟨e, h, _, h'⟩ := firstOf_exists hkd (a := z.2) (p := z.1) hf
        exact ⟨e, h, by rw [h', hq2]⟩
    constructor
    · intro hid
      simp only [List.mem_cons, List.not_mem_nil, or_false] at hid
      rw [hright.pos]
      unfold Named
      rcases hid with h | h | h | h | h | h
      · obtain ⟨e, h', hp'⟩ := key _ _ kind_info _ hk.info (hright.info h)
        exact ⟨e, .inl ⟨h, h'⟩, by rw [hp']⟩
      · obtain ⟨e, h', hp'⟩ := key _ _ kind_tracks _ hk.tracks (hright.tracks h)
        exact ⟨e, .inr (.inl ⟨h, h'⟩), by rw [hp']⟩
      · obtain ⟨e, h', hp'⟩ := key _ _ kind_cues _ hk.cues (hright.cues h)
        exact ⟨e, .inr (.inr (.inl ⟨h, h'⟩)), by rw [hp']⟩
      · obtain ⟨e, h', hp'⟩ := key _ _ kind_tags _ hk.tags (hright.tags h)
        exact ⟨e, .inr (.inr (.inr (.inl ⟨h, h'⟩))), by rw [hp']⟩
      · obtain ⟨e, h', hp'⟩ := key _ _ kind_chapters _ hk.chapters (hright.chapters h)
        exact ⟨e, .inr (.inr (.inr (.inr (.inl ⟨h, h'⟩)))), by rw [hp']⟩
      · obtain ⟨e, h', hp'⟩ := key _ _ kind_files _ hk.attachments (hright.attachments h)
        exact ⟨e, .inr (.inr (.inr (.inr (.inr ⟨h, h'⟩)))), by rw [hp']⟩
    · rintro hid ⟨e0, he0, c0, hc0⟩
      rcases hright.cluster hid with h | h
      · rw [hk.places, List.mem_filterMap] at h
        obtain ⟨e, he, h⟩ := h
        cases hb : e.body <;> rw [hb] at h <;> simp [Body.clusterOf] at h
        rename_i c
        exact ⟨e, he, ⟨c, hb⟩, by rw [hright.pos, h]⟩
      · exfalso
        rw [hk.places] at h
        have : e0.pos ∈ f.elts.filterMap fun e => e.body.clusterOf.map fun _ => e.pos :=
          List.mem_filterMap.mpr ⟨e0, he0, by rw [hc0]; rfl⟩
        rw [h] at this
        cases this
  · intro x ts hx hxb t ht l hlk
    have h1 := firstOf_spec kind_tracks hx (a := ts) (by rw [hxb]; rfl)
    have hft : st.found.tracks.isSome = true := by rw [hk.tracks, h1]; rfl
    have hte : st.tracks = ts := by rw [hk.entries, h1]; rfl
    have hp := (hpart _ (List.mem_cons_of_mem _ (List.mem_cons_of_mem _ (List.mem_cons_of_mem _ (List.mem_cons_of_mem _ List.mem_cons_self))))).2
    rw [if_pos hft, hte] at hp
    have h134 := (C134_tracks f.head.webm (if st.found.attachments.isSome then some st.files else none) ts).1
    cases hA : firstOf Body.filesOf f.elts with
    | none =>
      exfalso
      refine hp 0x305 ((h134 0x305).mpr ⟨t, ht, .inr (.inr (.inr (.inl ⟨rfl, ?_, ?_⟩)))⟩)
      · rw [hk.attachments, hA]; rfl
      · intro h; rw [h] at hlk; cases hlk
    | some z =>
      obtain ⟨y, hy1, hy2, _⟩ := firstOf_exists kind_files (a := z.2) (p := z.1) hA
      have hyb : y.body = .attachments z.2 := by
        cases hb : y.body <;> rw [hb] at hy2 <;> simp [Body.filesOf] at hy2
        rw [hy2]
      refine ⟨y, z.2, hy1, hyb, ?_⟩
      apply Decidable.byContradiction
      intro hne
      refine hp 0x306 ((h134 0x306).mpr ⟨t, ht, .inr (.inr (.inr (.inr (.inl ⟨rfl, z.2, ?_, l, hlk, hne⟩))))⟩)
      rw [hk.attachments, hk.files, hA]; rfl

/-- A file with SeekHead, Info, Tracks, Attachments, two Clusters and Cues without any message. -/
def good : File :=
  { dataPos := 40,
    elts :=
      [{ body := .seekHead [⟨idInfo, some 200⟩, ⟨idTracks, some 300⟩, ⟨idCues, some 900⟩, ⟨idAttachments, some 400⟩], pos := 40 },
       { body := .info 1000000 true, pos := 200 },
       { body := .tracks [{ num := some 1, type := some 1, codec := some nVp8, video := some { pixelW := some 640, pixelH := some 360 }, links := [5] },
                          { num := some 2, type := some 2, codec := some nVorbis }], pos := 300 },
       { body := .attachments [5, 6], pos := 400 },
       { body := .cluster { pos := 500, size := 300, ts := 0, blocks := [⟨1, true, false, 0, 90⟩, ⟨2, true, true, 5000000, 80⟩] }, pos := 500 },
       { body := .cluster { pos := 800, size := 100, ts := 1000000000, prevSize := some 300, position := some 760, blocks := [⟨1, true, false, 1000000000, 90⟩] }, pos := 800 },
       { body := .cues [⟨some 0, some 1⟩, ⟨some 1000, some 1⟩], pos := 900 }] }

example : (validate {} (fun _ => true) good).evs = [] ∧ (validate {} (fun _ => true) good).status {} = .exited 0
    ∧ (validate {} (fun _ => true) good).saysValid {} = true := by decide +kernel

end Verif.Mkvalidator
