import Verif.Ebml.CrcLemmas
/-!
Properties C16-C19 and C69: the CRC-32 element.
-/
namespace Verif.Ebml
open Verif.Crc32 Crc

/-- C16: initialise, add the whole buffer, finalize: the standard CRC-32. -/
theorem C16_crc_is_crc32 (buf : Bytes) : finalize (addBuffer init buf) = crc32 buf := by
  rw [addBuffer_spec, finalize, crc32, init, negl]
  have : (0xffffffff#32) = BitVec.allOnes 32 := by decide
  rw [this, BitVec.xor_allOnes]

example : finalize (addBuffer init [0x31, 0x32, 0x33, 0x34, 0x35, 0x36, 0x37, 0x38, 0x39]) = 0xCBF43926#32 := by
  decide +kernel

/-- C17: cutting the buffer into any sequence of pieces (of any lengths, so that the word loop
runs at any phase) does not change the accumulated value. -/
theorem C17_crc_chunking (c : BitVec 32) (pieces : List Bytes) :
    pieces.foldl addBuffer c = addBuffer c pieces.flatten := by
  induction pieces generalizing c with
  | nil => simp [addBuffer_spec, register]
  | cons p ps ih => rw [List.foldl_cons, ih, List.flatten_cons, addBuffer_spec, addBuffer_spec, addBuffer_spec, ← register_append]

example : [[1, 2, 3], [4, 5, 6, 7, 8], [9]].foldl addBuffer init = addBuffer init [1, 2, 3, 4, 5, 6, 7, 8, 9] := by
  decide +kernel

/-- C18: the four bytes the writer stores for a payload (added in any pieces), read back, verify
against the payload; and they verify against a payload only if its CRC-32 is the same. -/
theorem C18_written_checksum_verifies (pieces : List Bytes) :
    ∃ stored, readCrc (renderCrc (finalize (pieces.foldl addBuffer init))) = some stored ∧
      ∀ buf, crcMatches stored buf = true ↔ crc32 buf = crc32 pieces.flatten := by
  refine ⟨finalize (pieces.foldl addBuffer init), ?_, ?_⟩
  · have hlen : (renderCrc (finalize (pieces.foldl addBuffer init))).length = 4 := by
      rw [renderCrc, leBytes_length]
    rw [readCrc, if_neg (by omega), List.take_of_length_le (by omega), renderCrc, leNat_leBytes]
    have := (finalize (pieces.foldl addBuffer init)).isLt
    rw [Nat.mod_eq_of_lt (by simpa using this), BitVec.ofNat_toNat, BitVec.setWidth_eq]
  · intro buf
    rw [C17_crc_chunking, C16_crc_is_crc32]
    have h := C16_crc_is_crc32 buf
    unfold finalize init at h
    rw [crcMatches, h]
    simp only [beq_iff_eq]
    exact eq_comm

example : readCrc (renderCrc (finalize (addBuffer init [1, 2, 3, 4, 5]))) = some (0x470B99F4#32) := by decide +kernel

/-- C19: if two payloads differ only inside a window of at most 32 consecutive bits, the checksum
of one does not verify against the other. -/
theorem C19_burst_detected (good bad : Bytes) (before window window' after : List Bool)
    (hg : good.flatMap bits = before ++ window ++ after)
    (hb : bad.flatMap bits = before ++ window' ++ after)
    (hlen : window.length = window'.length) (h32 : window.length ≤ 32) (hne : window ≠ window') :
    crcMatches (finalize (addBuffer init good)) bad = false := by
  have hreg : register negl good ≠ register negl bad := by
    intro h
    unfold register at h
    rw [hg, hb, List.foldl_append, List.foldl_append, List.foldl_append, List.foldl_append] at h
    have h1 := foldl_bitStep_inj _ h
    rw [foldl_bitStep window h32, foldl_bitStep window' (hlen ▸ h32), hlen] at h1
    have h2 := gIter_injective _ h1
    have h3 := congrArg (fun z => z ^^^ (before.foldl bitStep negl)) h2
    simp only [BitVec.xor_comm (before.foldl bitStep negl), BitVec.xor_assoc, BitVec.xor_self, BitVec.xor_zero] at h3
    apply hne
    apply bitsNat_inj hlen
    have h4 := congrArg BitVec.toNat h3
    simp only [BitVec.toNat_ofNat] at h4
    have l1 : bitsNat window < 2 ^ 32 :=
      Nat.lt_of_lt_of_le (bitsNat_lt _) (Nat.pow_le_pow_right (by decide) h32)
    have l2 : bitsNat window' < 2 ^ 32 :=
      Nat.lt_of_lt_of_le (bitsNat_lt _) (Nat.pow_le_pow_right (by decide) (hlen ▸ h32))
    rwa [Nat.mod_eq_of_lt l1, Nat.mod_eq_of_lt l2] at h4
  simp only [crcMatches, finalize, init, addBuffer_spec, beq_eq_false_iff_ne]
  intro h
  apply hreg
  have := congrArg (· ^^^ negl) h
  simpa only [BitVec.xor_assoc, BitVec.xor_self, BitVec.xor_zero] using this

/-- Bits 7 to 9 of a two byte payload changed. -/
example : ([0xFF, 0x01] : Bytes).flatMap bits = List.replicate 7 true ++ [true, true, false] ++ List.replicate 6 false ∧
    ([0x7F, 0x02] : Bytes).flatMap bits = List.replicate 7 true ++ [false, false, true] ++ List.replicate 6 false := by
  decide

/-- C19, byte form: replacing any run of at most four bytes by different bytes is detected. -/
theorem C19_four_bytes_detected (before run run' after : Bytes)
    (hlen : run.length = run'.length) (h4 : run.length ≤ 4) (hne : run ≠ run') :
    crcMatches (finalize (addBuffer init (before ++ run ++ after))) (before ++ run' ++ after) = false := by
  have hl : ∀ l : Bytes, (l.flatMap bits).length = 8 * l.length := by
    intro l
    induction l with
    | nil => rfl
    | cons b l ih => rw [List.flatMap_cons, List.length_append, ih, bits_length, List.length_cons]; omega
  refine C19_burst_detected _ _ (before.flatMap bits) (run.flatMap bits) (run'.flatMap bits) (after.flatMap bits)
    (by simp [List.flatMap_append]) (by simp [List.flatMap_append]) (by rw [hl, hl, hlen]) (by rw [hl]; omega) ?_
  intro h
  apply hne
  have hN : leNat run = leNat run' := by rw [← bitsNat_flatMap, ← bitsNat_flatMap, h]
  clear h4 h hne
  induction run generalizing run' with
  | nil => cases run' <;> simp_all
  | cons b r ih =>
    cases run' with
    | nil => simp at hlen
    | cons b' r' =>
      simp only [leNat] at hN
      have h0 := b.toNat_lt; have h1 := b'.toNat_lt
      have hb : b.toNat = b'.toNat := by omega
      rw [UInt8.toNat_inj.mp hb, ih r' (by simpa using hlen) (by omega)]

example : ([1, 2] : Bytes).length = ([1, 3] : Bytes).length ∧ ([1, 2] : Bytes) ≠ [1, 3] := by decide

/-- C69 is false: the same payload, checksummed and stored by a big-endian build, does not verify
in a little-endian build (and vice versa). -/
theorem C69_host_order_counterexample :
    ∃ buf stored, readCrc (renderCrc (finalize (addBufferBE init buf))) = some stored ∧ crcMatches stored buf = false :=
  ⟨[1], _, rfl, by decide +kernel⟩

/-- C69, exact characterisation: a big-endian build stores the four bytes of the CRC-32 in the
opposite order, so the stored field is host independent exactly for palindromic checksums. -/
theorem C69_host_order_partial (buf : Bytes) :
    renderCrc (finalize (addBufferBE init buf)) = (renderCrc (finalize (addBuffer init buf))).reverse := by
  have hi : init = bswap init := by decide
  have hf : finalize (addBufferBE init buf) = bswap (finalize (addBuffer init buf)) := by
    unfold finalize
    have hn : negl = bswap negl := by decide
    conv => lhs; rw [hi, hn]
    rw [addBufferBE_spec, bswap_xor]
  rw [hf]
  generalize finalize (addBuffer init buf) = c
  have hc := c.isLt
  have key : ∀ b0 b1 b2 b3 : UInt8, renderCrc (bswap (BitVec.ofNat 32 (leNat [b0, b1, b2, b3]))) = [b3, b2, b1, b0] := by
    intro b0 b1 b2 b3
    have h0 := b0.toNat_lt; have h1 := b1.toNat_lt; have h2 := b2.toNat_lt; have h3 := b3.toNat_lt
    rw [bswap_leNat]
    simp only [renderCrc, beNat, List.foldl, leBytes, BitVec.toNat_ofNat, List.cons.injEq, and_true]
    refine ⟨?_, ?_, ?_, ?_⟩ <;> (apply UInt8.toNat_inj.mp; rw [UInt8.toNat_ofNat']; omega)
  have hl : renderCrc c = [UInt8.ofNat (c.toNat % 256), UInt8.ofNat (c.toNat / 256 % 256),
      UInt8.ofNat (c.toNat / 256 / 256 % 256), UInt8.ofNat (c.toNat / 256 / 256 / 256 % 256)] := rfl
  have hle : BitVec.ofNat 32 (leNat (renderCrc c)) = c := by
    rw [renderCrc, leNat_leBytes, Nat.mod_eq_of_lt (by simpa using hc), BitVec.ofNat_toNat, BitVec.setWidth_eq]
  rw [hl] at hle
  conv => lhs; rw [← hle]
  rw [key, hl]; rfl

example : renderCrc (finalize (addBufferBE init [1])) = [0xA5, 0x05, 0xDF, 0x1B] ∧
    renderCrc (finalize (addBuffer init [1])) = [0x1B, 0xDF, 0x05, 0xA5] := by decide +kernel

end Verif.Ebml
