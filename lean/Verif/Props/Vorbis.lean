import Verif.Vorbis.PrivateLemmas

/-! C166 to C168: the headers of Vorbis tracks and the durations of their frames (libmatroska2/matroskablock.c:198-289, tremor/info.c). -/

namespace Verif.Vorbis
open Verif

/-! ### Headers of a track -/

/-- The three headers of a Vorbis track; `shapes` says how the lengths of each codebook are written. -/
structure Headers where
  info : Info
  vendor : List Int
  comments : List (List Int)
  shapes : List Shape
  setup : Setup

/-- They are well formed. -/
structure Headers.Ok (t : Headers) : Prop where
  info : t.info.Ok
  vendor : StringOk t.vendor
  few : t.comments.length < 2 ^ 31 - 1
  comments : ∀ s ∈ t.comments, StringOk s
  setup : t.setup.Ok t.info.channels.toNat
  shapes : List.Forall₂ (fun sh b => sh.Fits b.lengths) t.shapes t.setup.books

/-- The packet with the comments. -/
def Headers.comment (t : Headers) : Bytes := packet 3 (commentBits t.vendor t.comments)

/-- CodecPrivate of the track. -/
def Headers.priv (t : Headers) : Bytes :=
  private3 (packet 1 t.info.bits) t.comment (packet 5 (t.setup.bits t.info.channels.toNat t.shapes))

/-- What they say. -/
def Headers.hdr (t : Headers) : Hdr := ⟨some t.info, true, some t.setup, t.setup.modes⟩

/-- A track with two channels at 48 kHz, two codebooks, a floor, a residue, a mapping with coupled channels, a short and a long mode. -/
def stereo : Headers where
  info := ⟨2, 48000, 0, 128000, 0, 256, 2048⟩
  vendor := [88, 105]
  comments := [[84, 61, 49], []]
  shapes := [.tagged, .runs 1 [1, 2]]
  setup := {
    books := [⟨2, 9, [0, 3, 3, 3, 3, 0, 2, 4, 4], 1, some ⟨0xE0000001, 0x60000001, 2, 1, [3, 0, 1]⟩⟩, ⟨1, 3, [1, 2, 2], 0, none⟩]
    times := 1
    floors := [.one ⟨[0, 1, 0], [⟨2, 0, 0, [1]⟩, ⟨1, 1, 1, [-1, 0]⟩], 2, 7, [12, 100, 46, 3, 127]⟩, .zero ⟨10, 48000, 64, 6, 100, [0]⟩]
    residues := [(1, ⟨0, 256, 16, 1, [1, 9], [0, 0, 1]⟩)]
    maps := [⟨2, [(0, 1)], [0, 1], [(0, 0), (1, 0)]⟩]
    modes := [⟨0, 0, 0, 0⟩, ⟨1, 0, 0, 0⟩] }

theorem mode_ok (flag : Int) (h : In flag 0 2) : Mode.Ok 1 ⟨flag, 0, 0, 0⟩ := ⟨h, rfl, rfl, ⟨Int.le_refl 0, by change (0 : Int) < 1; decide⟩⟩

instance (n most : Nat) : Decidable (Few n most) := inferInstanceAs (Decidable (_ ∧ _))

theorem stereo_ok : stereo.Ok where
  info := ⟨by decide, by decide, by decide, by decide, by decide, ⟨8, by decide, rfl⟩, ⟨11, by decide, rfl⟩, by decide⟩
  vendor := ⟨by decide, by decide⟩
  few := by decide
  comments := by
    intro s hs
    simp only [stereo, List.mem_cons, List.not_mem_nil, or_false] at hs
    rcases hs with rfl | rfl <;> exact ⟨by decide, by decide⟩
  setup := by
    have hb1 : Book.Ok ⟨2, 9, [0, 3, 3, 3, 3, 0, 2, 4, 4], 1, some ⟨0xE0000001, 0x60000001, 2, 1, [3, 0, 1]⟩⟩ := by
      refine ⟨⟨by decide, by decide, by decide, by decide, by decide, by decide, ?_⟩, by decide, ?_⟩
      · intro q hq
        simp only [Option.some.injEq] at hq
        subst hq
        exact ⟨by decide, by decide, by decide, by decide, by decide⟩
      · intro q hq
        simp only [Option.some.injEq] at hq
        subst hq
        unfold Quant.Count
        decide
    have hb2 : Book.Ok ⟨1, 3, [1, 2, 2], 0, none⟩ :=
      ⟨⟨by decide, by decide, by decide, by decide, by decide, by decide, by intro q hq; simp at hq⟩, by decide, by intro q hq; simp at hq⟩
    have hb : ∀ b ∈ stereo.setup.books, b.Ok := by
      intro b h
      simp only [stereo, List.mem_cons, List.not_mem_nil, or_false] at h
      rcases h with rfl | rfl
      · exact hb1
      · exact hb2
    refine ⟨⟨by decide, fun b h => (hb b h).toSound, by decide, by decide, ?_, by decide, ?_, by decide, ?_, by decide, ?_⟩, hb⟩
    · intro f h
      simp only [stereo, List.mem_cons, List.not_mem_nil, or_false] at h
      rcases h with rfl | rfl
      · refine ⟨by decide, by decide, by decide, by decide, ?_, by decide, by decide, by decide, by decide, by decide⟩
        intro c hc
        simp only [List.mem_cons, List.not_mem_nil, or_false] at hc
        rcases hc with rfl | rfl <;> exact ⟨by decide, by decide, by decide, by decide, by decide, by decide⟩
      · exact ⟨by decide, by decide, by decide, by decide, by decide, by decide, by decide⟩
    · intro r h
      simp only [stereo, List.mem_cons, List.not_mem_nil, or_false] at h
      subst h
      exact ⟨by decide, ⟨by decide, by decide, by decide, by decide, by decide, by decide, by decide, by decide, by decide⟩⟩
    · intro m h
      simp only [stereo, List.mem_cons, List.not_mem_nil, or_false] at h
      subst h
      exact ⟨by decide, by decide, by decide, by decide, by decide, by decide, by decide⟩
    · intro m h
      simp only [stereo, List.mem_cons, List.not_mem_nil, or_false] at h
      rcases h with rfl | rfl <;> exact mode_ok _ (by decide)
  shapes := by
    refine .cons ?_ (.cons ?_ .nil)
    · change ∀ l ∈ _, In l 0 33
      decide
    · exact ⟨by decide, by simp [Fills], by decide⟩

/-- The same track, with another vendor and other modes. -/
def stereoWith (vendor : List Int) (modes : List Mode) : Headers :=
  { stereo with vendor := vendor, setup := { stereo.setup with modes := modes } }

theorem stereoWith_ok (vendor : List Int) (modes : List Mode) (hv : StringOk vendor) (hn : Few modes.length 64) (hm : ∀ m ∈ modes, m.Ok 1) :
    (stereoWith vendor modes).Ok :=
  let o := stereo_ok
  let p := o.setup
  ⟨o.info, hv, o.few, o.comments, ⟨⟨p.numBooks, p.books, p.times, p.numFloors, p.floors, p.numResidues, p.residues, p.numMaps, p.maps, hn, hm⟩,
    p.whole⟩, o.shapes⟩

/-! ### C166 -/

/-- Full statement of C166: whatever CodecPrivate, the data of a block and the sizes of its frames are, looking for the durations ends, with
a duration for each frame or with an error, without undefined behaviour. -/
def NoUndefined : Prop :=
  ∀ (priv data : Bytes) (sizes : List Nat), vorbisTimes priv data sizes = .err ∨ ∃ ds, vorbisTimes priv data sizes = .ok ds

/-- The first two headers, each in its packet, behind their sizes. -/
def begin2 : Bytes := [2, 30, 17, 1, 118, 111, 114, 98, 105, 115, 0, 0, 0, 0, 2, 128, 187, 0, 0, 0, 0, 0, 0, 0, 244, 1, 0, 0, 0, 0, 0, 184, 1,
  3, 118, 111, 114, 98, 105, 115, 1, 0, 0, 0, 88, 0, 0, 0, 0, 1]

/-- The start of a setup header. -/
def begin3 : Bytes := [5, 118, 111, 114, 98, 105, 115, 0, 66, 67, 86]

/-- A setup header with the modes 0 and 1. -/
def modes2 : Bytes := begin3 ++ [1, 0, 2, 0, 0, 0, 0, 0, 0, 0, 16, 0, 0, 0, 0, 0, 0, 0, 0, 0, 0, 0, 0, 0, 0, 0, 0, 0, 0, 0, 0, 0, 0, 0, 2, 0, 0, 0,
  0, 0, 1, 0, 0, 0, 0, 2]

/-- C166 is false: sixty-four posts, the first behind the end of their array. -/
theorem C166_posts_counterexample :
    readPrivate (begin2 ++ begin3 ++ [1, 0, 2, 0, 0, 0, 0, 0, 0, 0, 16, 0, 128, 0, 0, 0, 0, 14, 0, 0] ++ List.replicate 8 0) = .crash .posts := by
  decide +kernel

/-- C166 is false: a residue with more than 256 books. -/
theorem C166_booklist_counterexample :
    readPrivate (begin2 ++ begin3 ++ [1, 0, 2, 0, 0, 0, 0, 0, 0, 0, 16, 0, 0, 0, 0, 0, 0, 0, 0, 0, 0, 0, 0, 0, 0, 224, 7]) = .crash .booklist := by
  decide +kernel

/-- C166 is false: a floor that ends behind the number of its partitions, or behind a class. -/
theorem C166_truncated_counterexample :
    readPrivate (begin2 ++ begin3 ++ [1, 0, 0, 0, 0, 0, 0, 0, 0, 4, 0, 8]) = .crash .partition ∧
    readPrivate (begin2 ++ begin3 ++ [1, 0, 0, 0, 0, 0, 0, 0, 0, 4, 0, 8, 0, 0, 0]) = .crash .maskIndex ∧
    readPrivate (begin2 ++ begin3 ++ [1, 0, 2, 0, 0, 0, 0, 0, 0, 0, 16, 0, 128]) = .crash .shift ∧
    readPrivate [0, 1, 118, 111, 114, 98, 105, 115, 0, 0, 0, 0, 2, 128, 187, 0, 0, 0, 0, 0, 0, 0, 244, 1, 0, 0, 0, 0, 0] = .crash .shift := by
  decide +kernel

/-- C166 is false: codebooks without dimensions, with 64 dimensions, and with 2^31 values. -/
theorem C166_codebook_counterexample :
    readPrivate (begin2 ++ begin3 ++ [0, 0, 1, 0, 0, 128, 0, 0, 0, 0, 0, 0, 0, 0, 0]) = .crash .zeroDim ∧
    readPrivate (begin2 ++ begin3 ++ [64, 0, 1, 0, 0, 128, 0, 0, 0, 0, 0, 0, 0, 0, 0]) = .crash .power ∧
    readPrivate (begin2 ++ begin3 ++ [0, 128, 0, 0, 1, 1, 0, 64, 1, 0, 0, 0, 0, 0, 0, 0, 0]) = .crash .values := by
  decide +kernel

/-- C166 is false: the length of a comment is 2^31-1, to which one is added. -/
theorem C166_comment_counterexample :
    readPrivate [2, 30, 11, 1, 118, 111, 114, 98, 105, 115, 0, 0, 0, 0, 2, 128, 187, 0, 0, 0, 0, 0, 0, 0, 244, 1, 0, 0, 0, 0, 0, 184, 1,
      3, 118, 111, 114, 98, 105, 115, 255, 255, 255, 127] = .crash .comment := by
  decide +kernel

/-- C166 is false: a second setup header with a floor of type 2 has the first one freed through a pointer from behind a table. -/
theorem C166_free_counterexample :
    readPrivate ([3, 30, 17, 57] ++ begin2.drop 3 ++ modes2 ++ begin3 ++ [1, 0, 2, 0, 0, 0, 0, 0, 0, 0, 32, 0, 0]) = .crash .freeType := by
  decide +kernel

/-- C166 is false, exactly so for the sizes at the start: they are read behind the end if and only if CodecPrivate is empty, or shorter than
its first byte says and all bytes behind that are 255. -/
theorem C166_lace_exact (priv : Bytes) :
    readPrivate priv = .crash .lace ↔ priv = [] ∨ ∃ n rest, priv = n :: rest ∧ rest.length < n.toNat ∧ ∀ b ∈ rest, b = 255 := by
  have hL : LaceBeyond priv ↔ priv = [] ∨ ∃ n rest, priv = n :: rest ∧ rest.length < n.toNat ∧ ∀ b ∈ rest, b = 255 := by
    cases priv with
    | nil => simp [LaceBeyond]
    | cons n rest => simp only [LaceBeyond, reduceCtorEq, false_or, List.cons.injEq]; exact ⟨fun h => ⟨n, rest, ⟨rfl, rfl⟩, h⟩,
        fun ⟨_, _, ⟨h1, h2⟩, h⟩ => by subst h1; subst h2; exact h⟩
  rw [← hL]
  rcases readPrivate_cases priv with ⟨h1, h2⟩ | ⟨h1, h2⟩
  · exact ⟨fun _ => h1, fun _ => h2⟩
  · refine ⟨fun e => ?_, fun h => absurd h h1⟩
    rw [e] at h2
    rcases h2 with ((h | h | h) | (h | h | h | h) | h | h) | h | h <;> cases h

/-- C166 is false: the durations of frames when the setup header was bad, when there is none, for a mode that is not there, for a frame
without a byte. -/
theorem C166_durations_counterexample :
    vorbisTimes (begin2 ++ begin3) [0] [1] = .crash .noSetup ∧
    vorbisTimes (0 :: (begin2.drop 3).take 30) [0] [1] = .crash .noModes ∧
    vorbisTimes (begin2 ++ begin3 ++ [1, 0, 2, 0, 0, 0, 0, 0, 0, 0, 16, 0, 0, 0, 0, 0, 0, 0, 0, 0, 0, 0, 0, 0, 0, 0, 0, 0, 0, 0, 0, 0, 0, 0, 4, 0, 0,
      0, 0, 0, 1, 0, 0, 0, 0, 2, 0, 0, 0, 0, 4]) [0x60] [1] = .crash .mode ∧
    vorbisTimes (begin2 ++ modes2) [] [0] = .crash .frame := by
  decide +kernel

theorem C166_counterexample : ¬ NoUndefined := by
  intro h
  rcases h (begin2 ++ modes2) [] [0] with h | ⟨ds, h⟩ <;> rw [C166_durations_counterexample.2.2.2] at h <;> simp at h

theorem frameTimes_length (h : Hdr) (sizes : List Nat) : ∀ data ds, frameTimes h data sizes = .ok ds → ds.length = sizes.length := by
  induction sizes with
  | nil => intro data ds e; rw [frameTimes] at e; simp only [Res.ok.injEq] at e; rw [← e]; rfl
  | cons n sizes ih =>
    intro data ds e
    rw [frameTimes] at e
    cases h1 : frameTime h data with
    | ok d =>
      cases h2 : frameTimes h (data.drop n) sizes with
      | ok ds' =>
        rw [h1, h2] at e
        simp only [Res.bind, Res.ok.injEq] at e
        rw [← e, List.length_cons, List.length_cons, ih _ _ h2]
      | _ => rw [h1, h2] at e; simp [Res.bind] at e
    | _ => rw [h1] at e; simp [Res.bind] at e

/-- C166, what holds: everything ends, there is a duration for each frame unless there is an error; behaviour is undefined only in the ways
above. No other array is accessed out of its bounds, whatever the bytes are. -/
theorem C166_ends_partial (priv data : Bytes) (sizes : List Nat) :
    match vorbisTimes priv data sizes with
    | .ok ds => ds.length = sizes.length
    | .err => True
    | .crash c => c ∈ [Crash.posts, .booklist, .partition, .maskIndex, .shift, .zeroDim, .power, .values, .comment, .freeType, .lace, .noSetup,
        .noModes, .mode, .frame]
    | .hang => False := by
  unfold vorbisTimes
  rcases readPrivate_cases priv with ⟨_, h2⟩ | ⟨_, h2⟩
  · rw [h2]; simp [Res.bind]
  · cases hr : readPrivate priv with
    | err => simp [Res.bind]
    | hang => rw [hr] at h2; exact h2.elim
    | crash c =>
      rw [hr] at h2
      simp only [Res.bind]
      rcases h2 with ((h | h | h) | (h | h | h | h) | h | h) | h | h <;> rw [h] <;> decide
    | ok h =>
      rw [hr] at h2
      simp only [Res.bind]
      have := frameTimes_ends h h2 sizes data
      cases hf : frameTimes h data sizes with
      | ok ds => exact frameTimes_length h sizes data ds hf
      | err => trivial
      | hang => rw [hf] at this; exact this.elim
      | crash c =>
        rw [hf] at this
        simp only
        rcases this with h | h | h | h <;> rw [h] <;> decide

/-- Not all is undefined. -/
example : vorbisTimes (begin2 ++ modes2) [0, 9, 0x40] [2, 1] = .ok [some 5333333, some 42666666] := by decide +kernel
example : vorbisTimes (begin2.take 20) [0] [1] = .err := by decide +kernel

/-- The value, if there is one. -/
def okOf {α : Type} : Res α → Option α
  | .ok a => some a
  | _ => none

theorem okOf_eq {α : Type} {x : Res α} {a : α} (h : okOf x = some a) : x = .ok a := by
  cases x <;> simp [okOf] at h
  rw [h]

theorem any_some {α : Type} {o : Option α} {p : α → Bool} (h : o.any p = true) : ∃ a, o = some a ∧ p a = true := by
  cases o with
  | none => simp at h
  | some a => exact ⟨a, rfl, h⟩

/-- C166, what holds of headers that are accepted: whatever refers to something refers to a thing that is there, and every field is in the
range its bits allow for. -/
theorem C166_accepted_in_range (priv : Bytes) (h : Hdr) (hr : readPrivate priv = .ok h) (p : Setup) (hp : h.setup = some p) :
    ∃ i, h.info = some i ∧ i.Ok ∧ p.Sound i.channels.toNat := by
  rcases readPrivate_cases priv with ⟨_, h2⟩ | ⟨_, h2⟩
  · rw [h2] at hr; simp at hr
  · rw [hr] at h2
    have hs : h.Sound := h2
    cases hi : h.info with
    | none => rw [hs.cleared hi] at hp; simp at hp
    | some i => exact ⟨i, rfl, hs.info i hi, (hs.setup i p hi hp).toSound⟩

example : ∃ h p, readPrivate (begin2 ++ modes2) = .ok h ∧ h.setup = some p ∧ p.modes.map Mode.blockflag = [0, 1] := by
  have : (okOf (readPrivate (begin2 ++ modes2))).any (fun h => h.setup.any fun p => decide (p.modes.map Mode.blockflag = [0, 1])) = true := by
    decide +kernel
  obtain ⟨h, h1, h2⟩ := any_some this
  obtain ⟨p, h3, h4⟩ := any_some h2
  exact ⟨h, p, okOf_eq h1, h3, of_decide_eq_true h4⟩

/-! ### C167 -/

/-- Full statement of C167: the headers of any Vorbis track are read as they were written, and what is accepted is well formed. -/
def HeadersRead : Prop :=
  (∀ t : Headers, t.Ok → readPrivate t.priv = .ok t.hdr) ∧
  ∀ (priv : Bytes) (h : Hdr) (i : Info) (p : Setup), readPrivate priv = .ok h → h.info = some i → h.setup = some p → p.Ok i.channels.toNat

/-- C167 is false: a track is rejected whenever its comments take 255 bytes or more. The first byte of CodecPrivate is taken for the number of
bytes the sizes take, while it is the number of sizes. -/
theorem C167_long_comments_rejected (t : Headers) (h : 255 ≤ t.comment.length) : readPrivate t.priv = .err :=
  readPrivate_long t.info t.comment _ h

/-- The track of above, by a vendor with a name of 300 letters. -/
def longVendor : Headers := stereoWith (List.replicate 300 88) [⟨0, 0, 0, 0⟩]

theorem longVendor_ok : longVendor.Ok :=
  stereoWith_ok _ _ ⟨by rw [List.length_replicate]; decide, by intro c hc; rw [List.eq_of_mem_replicate hc]; decide⟩ ⟨by decide, by decide⟩ (by
    intro m hm
    simp only [List.mem_cons, List.not_mem_nil, or_false] at hm
    subst hm
    exact mode_ok 0 (by decide))

theorem longVendor_length : 255 ≤ longVendor.comment.length := by
  unfold Headers.comment packet
  simp only [List.length_cons, pack_length]
  decide +kernel

theorem C167_counterexample : ¬ HeadersRead := by
  intro h
  have := h.1 longVendor longVendor_ok
  rw [C167_long_comments_rejected longVendor longVendor_length] at this
  simp at this

/-- C167 is false the other way round as well: a codebook with code words of 32 and 33 bits is accepted. -/
theorem C167_long_words_counterexample : ∃ priv h i p, readPrivate priv = .ok h ∧ h.info = some i ∧ h.setup = some p ∧ ¬ p.Ok i.channels.toNat := by
  have : (okOf (readPrivate (begin2 ++ begin3 ++ [1, 0, 2, 0, 0, 127, 1, 0, 0, 0, 2, 0, 0, 0, 0, 0, 0, 0, 0, 0, 0, 0, 0, 0, 0, 0, 0, 0, 0, 0, 0, 0, 0, 64, 0,
      0, 0, 0, 0, 32, 0, 0, 0, 0, 64]))).any (fun h => h.setup.any fun p => h.info.isSome && p.books.any fun b => decide (33 ∈ b.lengths)) = true := by
    decide +kernel
  obtain ⟨h, h1, h2⟩ := any_some this
  obtain ⟨p, h3, h4⟩ := any_some h2
  rw [Bool.and_eq_true] at h4
  obtain ⟨i, hi⟩ := Option.isSome_iff_exists.1 h4.1
  obtain ⟨b, hb, hl⟩ := List.any_eq_true.1 h4.2
  exact ⟨_, h, i, p, okOf_eq h1, hi, h3, fun ho => absurd ((ho.whole b hb).short 33 (of_decide_eq_true hl)) (by decide)⟩

/-- C167 is false: a codebook of type 2 with 131072 entries of 32768 dimensions is accepted without any value. -/
theorem C167_no_values_counterexample :
    (okOf (unpackBook (some (enc 24 0x564342 ++ enc 16 32768 ++ enc 24 131072 ++ enc 1 1 ++ enc 5 0 ++ enc 18 131072 ++ enc 4 2 ++ enc 32 0 ++
      enc 32 0 ++ enc 4 0 ++ enc 1 0)))).map (fun x => (x.1.dim, x.1.entries, x.1.maptype, x.1.quant)) =
    some (32768, 131072, 2, some ⟨0, 0, 1, 0, []⟩) := by
  decide +kernel

/-- C167, what holds: the headers of a track are read as they were written if the comments take less than 255 bytes, codebooks of type 1 have
at most 20 dimensions and codebooks of type 2 less than 2^31 values. -/
theorem C167_headers_partial (t : Headers) (ht : t.Ok) (hc : t.comment.length < 255) (h1 : ∀ b ∈ t.setup.books, b.maptype = 1 → b.dim ≤ 20)
    (h2 : ∀ b ∈ t.setup.books, b.maptype = 2 → b.entries.toNat * b.dim.toNat < 2 ^ 31) : readPrivate t.priv = .ok t.hdr := by
  refine readPrivate_good t.info ht.info t.vendor t.comments ht.vendor ht.few ht.comments t.shapes t.setup ht.setup ?_ hc
  have hb := ht.setup.whole
  have := ht.shapes
  revert hb h1 h2 this
  generalize t.shapes = shapes
  generalize t.setup.books = books
  intro h1 h2 hb this
  induction this with
  | nil => exact .nil
  | cons h _ ih =>
    rename_i sh b shs bs _
    refine .cons ⟨hb b (by simp), small_of_dim b (hb b (by simp)).toSound (fun hm => ⟨?_, h1 b (by simp) hm⟩) (h2 b (by simp)), h⟩
      (ih (fun b m => h1 b (by simp [m])) (fun b m => h2 b (by simp [m])) fun b m => hb b (by simp [m]))
    have ho := hb b (by simp)
    cases hq : b.quant with
    | none => have := ho.none.2 hq; omega
    | some q =>
      have := ho.count q hq
      rw [Quant.Count, if_pos hm] at this
      have d0 := ho.dim.1
      by_cases hd : b.dim = 0
      · rw [hd] at this
        simp at this
        omega
      · omega

theorem stereo_comment : stereo.comment.length < 255 := by
  unfold Headers.comment packet
  simp only [List.length_cons, pack_length]
  decide +kernel

/-- The track of above is read as written. -/
example : readPrivate stereo.priv = .ok stereo.hdr := C167_headers_partial stereo stereo_ok stereo_comment (by decide) (by decide)

/-- The number of values of a codebook of type 1, for any number of entries: behaviour is undefined without dimensions and when a power does
not fit 64 bits, otherwise it is the root. -/
theorem C167_values_exact (dim entries root : Nat) (hr : root ^ dim ≤ entries ∧ entries < (root + 1) ^ dim) (s : St) :
    valueCount 1 dim entries s = if dim = 0 then .crash .zeroDim
      else if 2 ^ 63 ≤ (entries / 2 ^ ((ilog entries - 1) * (dim - 1) / dim) + 1) ^ dim then .crash .power else .ok ((root : Int), s) := by
  unfold valueCount
  rw [if_pos rfl, Int.toNat_natCast, Int.toNat_natCast, quantVals_eq dim entries root hr, quantStart, Nat.shiftRight_eq_div_pow]
  split
  · rfl
  · split <;> rfl

example : (3 : Nat) ^ 4 ≤ 100 ∧ 100 < (3 + 1) ^ 4 := by decide

/-! ### C168 -/

/-- The samples of a block in a mode. -/
def blockOf (i : Info) (m : Mode) : Nat := if m.blockflag = 0 then i.short else i.long

/-- Full statement of C168: the duration of a frame is the time its block takes at the rate of the track, in nanoseconds; the block is that of
the mode the packet names. -/
def DurationsRight : Prop :=
  ∀ (t : Headers), t.Ok → readPrivate t.priv = .ok t.hdr → ∀ (c : UInt8) (rest : Bytes) (m : Mode),
    t.setup.modes[modeOf t.setup.modes.length c]? = some m →
      vorbisTimes t.priv (c :: rest) [rest.length + 1] = .ok [some (1000000000 * (blockOf t.info m : Int) / t.info.rate)]

/-- The bits the code takes for the mode. -/
def highBits (modes : Nat) (c : UInt8) : Nat := c.toNat % 128 / 2 ^ (7 - ilog (modes - 1))

/-- They are the right ones exactly with one mode and with more than 32. -/
theorem C168_mode_exact (n : Nat) (h1 : 1 ≤ n) (h2 : n ≤ 64) : (∀ c, highBits n c = modeOf n c) ↔ n = 1 ∨ 33 ≤ n := by
  have key : ∀ n ∈ List.range 65, 1 ≤ n → (((List.range 256).all fun c => decide (highBits n (UInt8.ofNat c) = modeOf n (UInt8.ofNat c))) = true ↔
      n = 1 ∨ 33 ≤ n) := by decide +kernel
  rw [← key n (by simp; omega) h1, List.all_eq_true]
  refine ⟨fun h c _ => decide_eq_true (h _), fun h c => ?_⟩
  have := of_decide_eq_true (h c.toNat (by simp; exact c.toNat_lt))
  rwa [UInt8.ofNat_toNat] at this

/-- The duration of one frame, whatever was set up. -/
theorem frameTime_eq (t : Headers) (ht : t.Ok) (c : UInt8) (rest : Bytes) : frameTime t.hdr (c :: rest) =
    if t.setup.modes.length < highBits t.setup.modes.length c then .ok none
    else match t.setup.modes[highBits t.setup.modes.length c]? with
      | none => .crash .mode
      | some m => .ok (some (Mkv.playing (blockOf t.info m) (toInt32 t.info.rate.toNat))) := by
  have e : (c.toNat &&& 0x7F) >>> (7 - ilog (t.setup.modes.length - 1)) = highBits t.setup.modes.length c := by
    rw [Nat.shiftRight_eq_div_pow, show (0x7F : Nat) = 2 ^ 7 - 1 from rfl, Nat.and_two_pow_sub_one_eq_mod]
    rfl
  unfold frameTime Headers.hdr
  simp only [e]
  split
  · rfl
  · cases hm : t.setup.modes[highBits t.setup.modes.length c]? with
    | none => rfl
    | some m =>
      have hf := (ht.setup.modes m (List.mem_of_getElem? hm)).blockflag
      obtain ⟨f1, f2⟩ := hf
      simp only
      by_cases h0 : m.blockflag = 0
      · rw [if_pos h0, blockOf, if_pos h0]
      · rw [if_neg h0, if_pos (by omega), blockOf, if_neg h0]

theorem playing_eq (i : Info) (hi : i.Ok) (hr : i.rate < 2 ^ 31) (b : Nat) :
    Mkv.playing b (toInt32 i.rate.toNat) = 1000000000 * (b : Int) / i.rate := by
  obtain ⟨r1, r2⟩ := hi.rate
  have e : toInt32 i.rate.toNat = i.rate := by
    unfold toInt32
    simp only [Int.reducePow, Nat.reducePow] at *
    rw [if_pos (by omega)]
    omega
  unfold Mkv.playing
  rw [e, if_neg (by omega), Int.tdiv_eq_ediv_of_nonneg (by omega)]

theorem frameTimes_frames (h : Hdr) (f : Bytes → Option Int) (frames : List Bytes) (hf : ∀ x ∈ frames, ∀ rest, frameTime h (x ++ rest) = .ok (f x)) :
    frameTimes h frames.flatten (frames.map List.length) = .ok (frames.map f) := by
  induction frames with
  | nil => rfl
  | cons x frames ih =>
    rw [List.flatten_cons, List.map_cons, frameTimes, hf x (by simp), List.drop_left, ih fun y hy => hf y (by simp [hy])]
    rfl

/-- C168 is false: of two modes, the second is named by the byte 2, and the duration is that of the first. -/
theorem C168_counterexample : ¬ DurationsRight := by
  intro h
  have hp := C167_headers_partial stereo stereo_ok stereo_comment (by decide) (by decide)
  have := h stereo stereo_ok hp 2 [] ⟨1, 0, 0, 0⟩ (by decide)
  unfold vorbisTimes at this
  rw [hp] at this
  revert this
  decide +kernel

/-- The track of above at a rate of 2^31. -/
def fast : Headers := { stereo with info := { stereo.info with rate := 2 ^ 31 } }

theorem fast_ok : fast.Ok :=
  let o := stereo_ok
  ⟨⟨o.info.channels, by decide, o.info.upper, o.info.nominal, o.info.lower, o.info.short, o.info.long, o.info.order⟩, o.vendor, o.few, o.comments,
    o.setup, o.shapes⟩

/-- C168 is false: a rate of 2^31 or more is taken for a negative number. -/
theorem C168_rate_counterexample : fast.Ok ∧ vorbisTimes fast.priv [0] [1] = .ok [some (-119)] := by
  refine ⟨fast_ok, ?_⟩
  unfold vorbisTimes
  rw [C167_headers_partial fast fast_ok stereo_comment (by decide) (by decide)]
  decide +kernel

/-- C168, what the code does: the duration of each frame is that of the block of the mode its high bits name, none if they name a mode
that is too high by more than one. When they name the first one that is not there, behaviour is undefined. -/
theorem C168_durations_exact (t : Headers) (ht : t.Ok) (hp : readPrivate t.priv = .ok t.hdr) (hr : t.info.rate < 2 ^ 31) (frames : List Bytes)
    (hf : ∀ f ∈ frames, f ≠ []) (hm : ∀ f ∈ frames, highBits t.setup.modes.length (f.headD 0) ≠ t.setup.modes.length) :
    vorbisTimes t.priv frames.flatten (frames.map List.length) = .ok (frames.map fun f =>
      (t.setup.modes[highBits t.setup.modes.length (f.headD 0)]?).map fun m => 1000000000 * (blockOf t.info m : Int) / t.info.rate) := by
  unfold vorbisTimes
  rw [hp]
  refine frameTimes_frames t.hdr _ frames fun f h rest => ?_
  cases f with
  | nil => exact absurd rfl (hf _ h)
  | cons c f =>
    have hne := hm _ h
    rw [List.cons_append, frameTime_eq t ht]
    simp only [List.headD_cons] at hne ⊢
    by_cases hl : t.setup.modes.length < highBits t.setup.modes.length c
    · rw [if_pos hl, List.getElem?_eq_none (by omega)]
      rfl
    · rw [if_neg hl, List.getElem?_eq_getElem (by omega)]
      simp only [Option.map_some, playing_eq t.info ht.info hr]

/-- A mode that is too high by one. -/
theorem C168_mode_undefined (t : Headers) (ht : t.Ok) (hp : readPrivate t.priv = .ok t.hdr) (c : UInt8) (rest : Bytes) (sizes : List Nat)
    (hm : highBits t.setup.modes.length c = t.setup.modes.length) : vorbisTimes t.priv (c :: rest) ((rest.length + 1) :: sizes) = .crash .mode := by
  unfold vorbisTimes
  rw [hp]
  change frameTimes t.hdr (c :: rest) _ = _
  rw [frameTimes, frameTime_eq t ht, hm, if_neg (by omega), List.getElem?_eq_none (by omega)]
  rfl

example : highBits 3 0x60 = 3 := by decide

/-- C168, what holds: with one mode, or with more than 32, and a rate below 2^31, the durations of all frames are right. -/
theorem C168_durations_partial (t : Headers) (ht : t.Ok) (hp : readPrivate t.priv = .ok t.hdr) (hr : t.info.rate < 2 ^ 31)
    (hn : t.setup.modes.length = 1 ∨ 33 ≤ t.setup.modes.length) (frames : List (UInt8 × Bytes × Mode))
    (hm : ∀ f ∈ frames, t.setup.modes[modeOf t.setup.modes.length f.1]? = some f.2.2) :
    vorbisTimes t.priv (frames.map fun f => f.1 :: f.2.1).flatten (frames.map fun f => f.2.1.length + 1) =
      .ok (frames.map fun f => some (1000000000 * (blockOf t.info f.2.2 : Int) / t.info.rate)) := by
  have hh := (C168_mode_exact _ ht.setup.numModes.1 ht.setup.numModes.2).2 hn
  have := C168_durations_exact t ht hp hr (frames.map fun f => f.1 :: f.2.1) (by
    intro f h
    obtain ⟨x, _, rfl⟩ := List.mem_map.1 h
    simp) (by
    intro f h
    obtain ⟨x, hx, rfl⟩ := List.mem_map.1 h
    rw [List.headD_cons, hh]
    have := (List.getElem?_eq_some_iff.1 (hm x hx)).1
    omega)
  rw [List.map_map, List.map_map] at this
  refine this.trans ?_
  congr 1
  refine List.map_congr_left fun f h => ?_
  simp only [Function.comp_apply, List.headD_cons, hh, hm f h, Option.map_some]

/-- The track of above with the long mode only. -/
example : vorbisTimes (stereoWith [88, 105] [⟨1, 0, 0, 0⟩]).priv [8, 1, 2, 6, 3] [3, 2] = .ok [some 42666666, some 42666666] := by
  have ok : (stereoWith [88, 105] [⟨1, 0, 0, 0⟩]).Ok := stereoWith_ok _ _ ⟨by decide, by decide⟩ ⟨by decide, by decide⟩ (by
    intro m hm
    simp only [List.mem_cons, List.not_mem_nil, or_false] at hm
    subst hm
    exact mode_ok 1 (by decide))
  exact C168_durations_partial _ ok (C167_headers_partial _ ok stereo_comment (by decide) (by decide)) (by decide) (Or.inl rfl)
    [(8, [1, 2], ⟨1, 0, 0, 0⟩), (6, [3], ⟨1, 0, 0, 0⟩)] (by decide)

end Verif.Vorbis
