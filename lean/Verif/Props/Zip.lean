import Verif.Mkv.Zip
import Verif.Mkv.BlockSize
import Verif.Props.Bzip

/-! C163 to C165: frames packed with zlib or bzip2 (libmatroska2/matroskamain.c:144-226, 1014-1330, 1875-1911). -/

namespace Verif.Mkv
open Verif.Bzip (bunzip)

/-! ### C163 -/

/-- Full statement of C163: with a `deflate` that keeps its promises, compressing any frame ends and gives all that `deflate` has for it. -/
def ZipComplete : Prop :=
  ∀ (σ : Type) (deflate : Deflate σ) (todo : σ → Bytes → Prop), Deflates deflate todo → NeedsRoom deflate →
    ∀ (s : σ) (p frame : Bytes) (room : Nat), todo s p → p.length ≤ room → ∃ fuel, zipFrame deflate fuel s frame room = .ok (p, p.length)

/-- A `deflate` that has its bytes ready. -/
def readyDeflate : Deflate Bytes := fun s n => if n = 0 then ([], false, s) else (s.take n, decide (s.length ≤ n), s.drop n)

theorem readyDeflate_ok : Deflates readyDeflate (fun s p => s = p) ∧ NeedsRoom readyDeflate := by
  refine ⟨?_, fun s => rfl⟩
  rintro s _ n rfl hn
  have : n ≠ 0 := by omega
  simp only [readyDeflate, if_neg this, decide_eq_true_eq, decide_eq_false_iff_not, and_true, true_and]
  exact ⟨id, by omega⟩

/-- C163 is false: an empty frame is never compressed, the loop does not end, with any `deflate` that does nothing without room. -/
theorem C163_zip_empty_frame_hangs {σ : Type} (deflate : Deflate σ) (h : NeedsRoom deflate) (fuel : Nat) (s : σ) (room : Nat) :
    zipFrame deflate fuel s [] room = .hang := by
  rw [zipFrame, List.length_nil, zipLoop_empty deflate h]
  rfl

theorem C163_zip_complete_counterexample : ¬ ZipComplete := by
  intro h
  obtain ⟨fuel, hf⟩ := h Bytes readyDeflate _ readyDeflate_ok.1 readyDeflate_ok.2 [0x78, 0xDA, 3, 0, 0, 0, 0, 1] _ [] 100 rfl (by decide)
  rw [C163_zip_empty_frame_hangs _ readyDeflate_ok.2] at hf
  simp at hf

/-- C163, what holds: a frame that is not empty is compressed as a whole, whatever its size and the size of the result; the size reported is
that of the result, and as much as fits is in the buffer. -/
theorem C163_zip_complete_partial {σ : Type} (deflate : Deflate σ) (todo : σ → Bytes → Prop) (h : Deflates deflate todo) (s : σ) (p frame : Bytes)
    (room : Nat) (ht : todo s p) (hf : frame ≠ []) (fuel : Nat) (hfuel : p.length < fuel) :
    zipFrame deflate fuel s frame room = .ok (p.take (min room p.length), p.length) := by
  rw [zipFrame, zipLoop_gives deflate todo h _ (List.length_pos_iff.2 hf) fuel s p [] ht hfuel, bind_ok, List.nil_append]

/-- A frame of one byte takes ten bytes, in ten calls. -/
example : zipFrame readyDeflate 12 [1, 2, 3, 4, 5, 6, 7, 8, 9, 10] [0xAA] 101 = .ok ([1, 2, 3, 4, 5, 6, 7, 8, 9, 10], 10) :=
  C163_zip_complete_partial readyDeflate _ readyDeflate_ok.1 _ _ [0xAA] 101 rfl (by simp) 12 (by decide)

/-- So a block on a track compressed with zlib is not written when a frame is empty and those before it compress. -/
theorem C163_empty_frame_not_written (simple : Bool) (deflate : Bytes → Bytes) (inflate : Bytes → Option Bytes) (h : Head) (before after : List Bytes)
    (bytes : Bytes) : writeBlock simple (.zlib deflate inflate true) h (before ++ [] :: after) ≠ .ok bytes := by
  intro hw
  rw [writeBlock] at hw
  cases hr : renderHead simple h with
  | none => rw [hr] at hw; simp at hw
  | some hd =>
    rw [hr] at hw
    simp only at hw
    obtain ⟨_, _, hw⟩ := bind_eq_ok hw
    obtain ⟨pay, hp, _⟩ := bind_eq_ok hw
    exact writeFrames_framesOk _ _ _ hp [] (by simp) rfl

/-! ### C164 -/

/-- C164. With an `inflate` that keeps its promises, decompressing a complete stream gives all its data, of any size. -/
theorem C164_unzip_complete {σ : Type} (inflate : Inflate σ) (todo : σ → Bytes → Prop) (h : Inflates inflate todo) (s : σ) (data : Bytes)
    (ht : todo s data) (fuel : Nat) (hfuel : data.length < fuel) : unzipLoop inflate fuel s [] = .ok data := by
  rw [unzipLoop_gives inflate todo h fuel s data [] ht hfuel, List.nil_append]

/-- C164. Whatever the input, if `inflate` can give only so many bytes, decompressing ends with an error or with no more than them. -/
theorem C164_unzip_ends {σ : Type} (inflate : Inflate σ) (b : σ → Nat) (h : Bounded inflate b) (s : σ) (fuel : Nat) (hfuel : b s < fuel) :
    unzipLoop inflate fuel s [] = .err ∨ ∃ out, unzipLoop inflate fuel s [] = .ok out ∧ out.length ≤ b s := by
  rcases unzipLoop_ends inflate b h fuel s [] hfuel with e | ⟨out, e, hl⟩
  · exact Or.inl e
  · exact Or.inr ⟨out, e, hl⟩

/-- An `inflate` that has its data ready, with four bytes of checksum behind. -/
def readyInflate : Inflate Bytes := fun s n => if s.length < n then (s, .done, 0, []) else (s.take n, .more, 4, s.drop n)

theorem readyInflate_ok : Inflates readyInflate (fun s p => s = p) ∧ Bounded readyInflate List.length := by
  constructor
  · rintro s _ n rfl hn
    simp only [readyInflate]
    by_cases c : s.length < n
    · rw [if_pos c]
      exact ⟨(List.take_of_length_le (Nat.le_of_lt c)).symm, fun _ => Nat.le_of_lt c, by simp, by simp⟩
    · rw [if_neg c]
      exact ⟨rfl, by simp, by simp, fun _ => ⟨by omega, by simp, rfl⟩⟩
  · intro s n
    simp only [readyInflate]
    by_cases c : s.length < n
    · rw [if_pos c]; simp
    · rw [if_neg c]; simp only [List.length_take, List.length_drop]; omega

/-- 2048 bytes: two calls fill their room, a third one finds the end. -/
example : unzipLoop readyInflate 2049 (List.replicate 2048 7) [] = .ok (List.replicate 2048 7) :=
  C164_unzip_complete readyInflate _ readyInflate_ok.1 _ _ rfl 2049 (by rw [List.length_replicate]; omega)

/-! ### C165 -/

/-- The frame, or nothing when decompressing it failed. -/
def unpacked : Out (List Nat) → Option Bytes
  | .ok d => some (d.map UInt8.ofNat)
  | _ => none

/-- A frame as read from a track with bzip2: the decompressor of `Verif.Bzip` on its bytes, matroskamain.c:1134-1173 and 1265-1304. -/
def bunzipFrame (s : Bytes) : Option Bytes := unpacked (bunzip (s.map UInt8.toNat))

/-- `p` is a bzip2 stream for the frame `f`: some choice of blocks, with some size of blocks. -/
def BzipOf (f p : Bytes) : Prop :=
  ∃ (size : Nat) (bs : List Bzip.Spec.Block), 1 ≤ size ∧ size ≤ 9 ∧ (∀ b ∈ bs, b.Ok size) ∧
    p.map UInt8.toNat = Bzip.Spec.stream size bs ∧ f.map UInt8.toNat = bs.flatMap Bzip.Spec.Block.data

theorem bytes_back : ∀ f : Bytes, (f.map UInt8.toNat).map UInt8.ofNat = f
  | [] => rfl
  | b :: f => by simp only [List.map_cons, bytes_back f, UInt8.ofNat_toNat]

theorem bunzipFrame_of (f p : Bytes) (h : BzipOf f p) : bunzipFrame p = some f := by
  obtain ⟨size, bs, h1, h9, hb, hp, hf⟩ := h
  have := Bzip.bunzip_spec size h1 h9 bs hb [] (by simp)
  rw [List.append_nil, ← hp, ← hf] at this
  unfold bunzipFrame
  rw [this, unpacked, bytes_back]

theorem bzip_not_empty (f p : Bytes) (h : BzipOf f p) : p ≠ [] := by
  rintro rfl
  have h1 := bunzipFrame_of f [] h
  have h2 : bunzip [] = .err := by decide +kernel
  unfold bunzipFrame at h1
  rw [List.map_nil, h2] at h1
  simp [unpacked] at h1

/-- C165. Every frame has such a stream, with every size of blocks. -/
theorem C165_bzip_frame_exists (f : Bytes) (size : Nat) (h1 : 1 ≤ size) (h9 : size ≤ 9) : ∃ p, BzipOf f p := by
  obtain ⟨bs, hb, hd⟩ := Bzip.blocks_exist size h1 h9 _ (f.map UInt8.toNat) (Nat.lt_succ_self _)
    (fun b hb => by obtain ⟨c, _, rfl⟩ := List.mem_map.1 hb; exact UInt8.toNat_lt c)
  obtain ⟨_, _, _, hlt⟩ := Bzip.pack_spec _ (Bzip.Spec.streamBits size bs) (Nat.lt_succ_self _)
  refine ⟨(Bzip.Spec.stream size bs).map UInt8.ofNat, size, bs, h1, h9, hb, ?_, hd.symm⟩
  rw [List.map_map]
  conv_rhs => rw [← List.map_id (Bzip.Spec.stream size bs)]
  apply List.map_congr_left
  intro b hb
  have := hlt b hb
  simp only [Function.comp_apply, id_eq, UInt8.toNat_ofNat']
  omega

/-- C165. A block of any lacing whose frames were packed with bzip2, each in its own way, is read as the block of the frames: 1 to 256 frames
(one without lacing) below 2 GiB, in streams the lacing can carry, whatever follows the block. -/
theorem C165_bzip_block (simple : Bool) (h : Head) (frames packed : List Bytes) (hh : HeadOk h) (hp : List.Forall₂ BzipOf frames packed)
    (hlt : ∀ f ∈ frames, f.length < 2 ^ 31) (hl : LaceOk h.lacing (packed.map List.length)) (rest : Bytes) :
    ∃ hd, renderHead simple h = some hd ∧
      ∀ block, block = hd ++ laceHead h.lacing (ints (packed.map List.length)) ++ packed.flatten →
        ∀ deflate, readBlock simple (.zlib deflate bunzipFrame true) (block ++ rest) block.length
          = .ok ⟨{ h with key := simple && h.key, discard := simple && h.discard }, frames.map List.length, frames.flatten⟩ := by
  have hinv : List.Forall₂ (fun f p => bunzipFrame p = some f) frames packed := hp.imp bunzipFrame_of
  have hne : h.lacing ≠ .none ∨ packed.flatten ++ rest ≠ [] ∨ 0x80 ≤ h.track := by
    by_cases c : h.lacing = .none
    · refine Or.inr (Or.inl ?_)
      rw [c] at hl
      cases hp with
      | nil => simp [LaceOk] at hl
      | cons h1 _ =>
        intro e
        simp only [List.flatten_cons, List.append_eq_nil_iff] at e
        exact bzip_not_empty _ _ h1 e.1.1
    · exact Or.inl c
  obtain ⟨hd, e1, _⟩ := readBlock_packed simple id bunzipFrame h frames packed hh hinv hlt hl rest hne
  refine ⟨hd, e1, ?_⟩
  rintro _ rfl deflate
  obtain ⟨hd', e1', e2⟩ := readBlock_packed simple deflate bunzipFrame h frames packed hh hinv hlt hl rest hne
  rw [e1, Option.some.injEq] at e1'
  subst e1'
  exact e2

/-- Two frames `aab`. -/
example : List.Forall₂ BzipOf [[97, 97, 98], [97, 97, 98]]
    [(Bzip.Spec.stream 9 [Bzip.sampleBlock]).map UInt8.ofNat, (Bzip.Spec.stream 9 [Bzip.sampleBlock]).map UInt8.ofNat] ∧
    LaceOk .fixed ([(Bzip.Spec.stream 9 [Bzip.sampleBlock]).map UInt8.ofNat, (Bzip.Spec.stream 9 [Bzip.sampleBlock]).map UInt8.ofNat].map List.length) := by
  have h : BzipOf [97, 97, 98] ((Bzip.Spec.stream 9 [Bzip.sampleBlock]).map UInt8.ofNat) :=
    ⟨9, [Bzip.sampleBlock], by omega, by omega, by simp [Bzip.sampleBlock_ok], by decide +kernel, by decide +kernel⟩
  exact ⟨.cons h (.cons h .nil), by decide, by decide, by decide +kernel, by decide +kernel, by decide +kernel⟩

end Verif.Mkv
