import Verif.Bzip.PlanLemmas
import Verif.Bzip.GrowLemmas
/-!
Properties of bzip2 decompression: C159 to C162.
-/
namespace Verif.Bzip
open Verif Verif.Mkv

/-- C159. Whatever the bytes of a frame: decompression ends, with data or with an error, and no array is accessed outside of its bounds. -/
theorem C159_bzip_ends_in_bounds (inp : List Nat) (h : ∀ b ∈ inp, b < 256) : bunzip inp = .err ∨ ∃ out, bunzip inp = .ok out := by
  have := bunzip_fine inp h
  cases e : bunzip inp with
  | ok out => exact Or.inr ⟨out, rfl⟩
  | err => exact Or.inl rfl
  | bad => rw [e] at this; exact this.elim
  | hang => rw [e] at this; exact this.elim

/-- What `bzip2` makes of `aab`. -/
def sampleStream : List Nat := [66, 90, 104, 57, 49, 65, 89, 38, 83, 89, 18, 166, 249, 23, 0, 0, 0, 1, 0, 48, 0, 32, 0, 33, 0, 130, 140, 93, 201, 20, 225, 66, 64, 74, 155, 228, 92]

example : bunzip sampleStream = .ok [97, 97, 98] ∧ bunzip (sampleStream.set 30 5) = .err ∧ bunzip (sampleStream.take 30) = .err := by decide +kernel

/-- C160. A stream of the format gives its data, whatever the compressor chose (cutting of runs, order of equal rotations, randomisation, maps with
bytes that do not occur, codes, tables), however long the data, and whatever follows the stream. -/
theorem C160_bzip_round_trip (size : Nat) (h1 : 1 ≤ size) (h9 : size ≤ 9) (bs : List Spec.Block) (hbs : ∀ b ∈ bs, b.Ok size) (more : List Nat)
    (hm : ∀ b ∈ more, b < 256) : bunzip (Spec.stream size bs ++ more) = .ok (bs.flatMap Spec.Block.data) := bunzip_spec size h1 h9 bs hbs more hm

/-- C160. All data can be written that way, with any size of blocks. -/
theorem C160_bzip_all_data (size : Nat) (h1 : 1 ≤ size) (h9 : size ≤ 9) (data : List Nat) (h : ∀ b ∈ data, b < 256) :
    ∃ bs : List Spec.Block, (∀ b ∈ bs, b.Ok size) ∧ bunzip (Spec.stream size bs) = .ok data := by
  obtain ⟨bs, hb, hd⟩ := blocks_exist size h1 h9 _ data (Nat.lt_succ_self _) h
  refine ⟨bs, hb, ?_⟩
  have := bunzip_spec size h1 h9 bs hb [] (by simp)
  rw [List.append_nil, hd] at this
  exact this

/-- C160. A stream has one meaning: compressors that write the same bytes had the same data. -/
theorem C160_bzip_one_meaning (size size' : Nat) (h1 : 1 ≤ size) (h9 : size ≤ 9) (h1' : 1 ≤ size') (h9' : size' ≤ 9) (bs bs' : List Spec.Block)
    (hbs : ∀ b ∈ bs, b.Ok size) (hbs' : ∀ b ∈ bs', b.Ok size') (h : Spec.stream size bs = Spec.stream size' bs') :
    bs.flatMap Spec.Block.data = bs'.flatMap Spec.Block.data := by
  have e1 := bunzip_spec size h1 h9 bs hbs [] (by simp)
  have e2 := bunzip_spec size' h1' h9' bs' hbs' [] (by simp)
  rw [h, e2] at e1
  exact (Out.ok.inj e1).symm

/-- A block as `bzip2` writes it for `aab`. -/
def sampleBlock : Spec.Block :=
  { runs := [(97, 2), (98, 1)], rand := false, rows := [0, 1, 2], used := [97, 98], tabs := [[1, 3, 3, 2], [1, 3, 3, 2]], sel := [0] }

theorem sampleBlock_ok : sampleBlock.Ok 9 := by
  constructor
  · simp [sampleBlock, Spec.RunsOk]
  all_goals first | decide +kernel | skip
  · exact ⟨by decide +kernel, by decide +kernel⟩
  · intro t ht
    have : t = [1, 3, 3, 2] := by simpa [sampleBlock] using ht
    subst this
    exact ⟨rfl, by decide, by decide⟩

example : bunzip (Spec.stream 9 [sampleBlock, sampleBlock] ++ [1, 2, 3]) = .ok [97, 97, 98, 97, 97, 98] :=
  C160_bzip_round_trip 9 (by omega) (by omega) [sampleBlock, sampleBlock] (by simp [sampleBlock_ok]) [1, 2, 3] (by decide)

/-- C161. What is accepted ends with the mark of the end and with the checksum of the blocks that were put out, and each of these blocks has its
own checksum behind the mark of a block. -/
theorem C161_bzip_checksum (inp : List Nat) (h : ∀ b ∈ inp, b < 256) (out : List Nat) (ho : bunzip inp = .ok out) :
    ∃ (blocks : List (List Nat)) (pre rest : List Bool), out = blocks.flatten ∧
      (∀ d ∈ blocks, ∃ pre mid, inp.flatMap (toBits 8) = pre ++ toBits 48 0x314159265359 ++ toBits 32 (Spec.crc d).toNat ++ mid) ∧
      inp.flatMap (toBits 8) = pre ++ toBits 48 0x177245385090 ++ toBits 32 ((blocks.map Spec.crc).foldl Spec.combine 0).toNat ++ rest := by
  have := bunzip_fine inp h
  rw [ho] at this
  obtain ⟨blocks, pre, rest, h1, h3, h2⟩ := this
  refine ⟨blocks, pre, rest, h1, fun d hd => ?_, ?_⟩
  · obtain ⟨pre, mid, h4⟩ := h3 d hd
    exact ⟨pre, mid, by rw [h4, heading]; simp only [List.append_assoc]⟩
  · rw [h2, trailer]
    simp only [List.append_assoc]

/-- Another checksum at the end, or none. -/
example : bunzip (Spec.stream 9 []) = .ok [] ∧ bunzip ((Spec.stream 9 []).set 13 1) = .err ∧ bunzip ((Spec.stream 9 []).take 13) = .err := by decide +kernel

/-- The checksum of a block changed. -/
example : bunzip (sampleStream.set 10 19) = .err := by decide +kernel

/-- C162. A stream that is cut off, wherever, is refused. -/
theorem C162_bzip_cut_refused (size : Nat) (h1 : 1 ≤ size) (h9 : size ≤ 9) (bs : List Spec.Block) (hbs : ∀ b ∈ bs, b.Ok size) (n : Nat)
    (hn : n < (Spec.stream size bs).length) : bunzip ((Spec.stream size bs).take n) = .err := by
  obtain ⟨_, _, _, hb⟩ := pack_spec _ (Spec.streamBits size bs) (Nat.lt_succ_self _)
  rcases C159_bzip_ends_in_bounds ((Spec.stream size bs).take n) (fun b h => hb b (List.mem_of_mem_take h)) with h | ⟨out, h⟩
  · exact h
  · exact absurd h (bunzip_cut size h1 h9 bs hbs n hn out)

/-- C162. Bytes behind what was accepted change nothing, whatever the input. -/
theorem C162_bzip_trailing (inp more out : List Nat) (h : bunzip inp = .ok out) : bunzip (inp ++ more) = .ok out := bunzip_more inp more out h

example : bunzip ((Spec.stream 9 [sampleBlock]).take 30) = .err ∧ bunzip (sampleStream ++ [66, 90, 104]) = .ok [97, 97, 98] :=
  ⟨C162_bzip_cut_refused 9 (by omega) (by omega) [sampleBlock] (by simp [sampleBlock_ok]) 30 (by decide +kernel),
   C162_bzip_trailing _ [66, 90, 104] _ (by decide +kernel)⟩

end Verif.Bzip
