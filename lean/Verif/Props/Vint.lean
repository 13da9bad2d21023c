import Verif.Ebml.VintLemmas
/-!
Properties C01-C10: EBML size fields and element IDs.

`codedValue s n true` is the byte string the writer stores for a finite size `s` in an
`n`-byte field, `codedSizeLength s k true` the length it picks when `k` was requested
(`0` = automatic), `readCodedSize` the reader.
-/
namespace Verif.Ebml

/-- C01. A finite size below 2^35-1, written with the automatic length, is read back. -/
theorem C01_size_roundtrip (s : Nat) (h : s < 2 ^ 35 - 1) (rest : Bytes) :
    ∃ n, n = codedSizeLength s 0 true ∧ (codedValue s n true).length = n ∧
      readCodedSize (codedValue s n true ++ rest) = ⟨s, n, 2 ^ (7 * n) - 1⟩ ∧
      s ≠ 2 ^ (7 * n) - 1 := by
  have hr := codedSizeLength_range (s : Int) 0 (by omega) true
  refine ⟨_, rfl, codedValue_length _ _ _ hr.1, ?_, ?_⟩
  · rw [readCodedSize_codedValue _ _ hr.1 hr.2, unknownMark_eq _ hr.1 hr.2]
    congr 1
    revert hr
    simp only [codedSizeLength, Bool.not_true, Bool.false_eq_true, if_false]
    (repeat' split) <;> simp <;> omega
  · revert hr
    simp only [codedSizeLength, Bool.not_true, Bool.false_eq_true, if_false]
    (repeat' split) <;> simp <;> omega

example : readCodedSize (codedValue 500 (codedSizeLength 500 0 true) true ++ [7, 8]) = ⟨500, 2, 16383⟩ := by
  decide

/-- C02. A finite size written in an explicitly requested field length is read back; the
field has exactly the requested length. -/
theorem C02_forced_size_roundtrip (n : Nat) (h1 : 1 ≤ n) (h8 : n ≤ 8) (s : Nat)
    (h : s < 2 ^ (7 * n) - 1) (rest : Bytes) :
    codedSizeLength s n true = n ∧ (codedValue s n true).length = n ∧
      readCodedSize (codedValue s n true ++ rest) = ⟨s, n, 2 ^ (7 * n) - 1⟩ := by
  have hn : n = 1 ∨ n = 2 ∨ n = 3 ∨ n = 4 ∨ n = 5 ∨ n = 6 ∨ n = 7 ∨ n = 8 := by omega
  refine ⟨?_, codedValue_length _ _ _ h1, ?_⟩
  · rcases hn with e | e | e | e | e | e | e | e <;> subst e <;> simp at h <;>
      simp only [codedSizeLength, Bool.not_true, Bool.false_eq_true, if_false] <;> (repeat' split) <;> omega
  · rw [readCodedSize_codedValue _ _ h1 h8, unknownMark_eq _ h1 h8]
    congr 1
    rcases hn with e | e | e | e | e | e | e | e <;> subst e <;> simp at h <;> simp <;> omega

example : readCodedSize (codedValue (2 ^ 40) 8 true ++ [1]) = ⟨2 ^ 40, 8, 2 ^ 56 - 1⟩ := by decide

/-- Full statement of C03: every size an EBML size field can represent survives. -/
def AllSizesWritable : Prop :=
  ∀ s : Nat, s < 2 ^ 56 - 1 →
    (readCodedSize (codedValue s (codedSizeLength s 0 true) true)).value = s

/-- C03 is false: 32 GiB is written as size 0. -/
theorem C03_all_sizes_writable_counterexample : ¬ AllSizesWritable := by
  intro h
  exact absurd (h (2 ^ 35) (by decide)) (by decide)

/-- C03, what holds: the automatic length never exceeds 5 bytes, so the size is read back
modulo 2^35; it survives exactly when it is below 2^35. -/
theorem C03_all_sizes_writable_partial (s : Nat) (rest : Bytes) :
    ((readCodedSize (codedValue s (codedSizeLength s 0 true) true ++ rest)).value = s ↔ s < 2 ^ 35) ∧
    (readCodedSize (codedValue s (codedSizeLength s 0 true) true ++ rest)).value = s % 2 ^ 35 := by
  have hr := codedSizeLength_range (s : Int) 0 (by omega) true
  rw [readCodedSize_codedValue _ _ hr.1 hr.2]
  clear hr
  simp only [codedSizeLength, Bool.not_true, Bool.false_eq_true, if_false]
  (repeat' split) <;> simp <;> omega

/-- Full statement of C04. -/
def UnknownUnambiguous : Prop :=
  (∀ n, 1 ≤ n → n ≤ 8 → ∀ L rest,
      (readCodedSize (codedValue L n false ++ rest)).value
        = (readCodedSize (codedValue L n false ++ rest)).unknown) ∧
  (∀ (s k : Nat) rest, k ≤ 8 →
      (readCodedSize (codedValue s (codedSizeLength s k true) true ++ rest)).value
        ≠ (readCodedSize (codedValue s (codedSizeLength s k true) true ++ rest)).unknown)

/-- C04 is false: a finite element of 2^35-1 bytes is written as an element of unknown size. -/
theorem C04_unknown_unambiguous_counterexample : ¬ UnknownUnambiguous := by
  rintro ⟨_, h⟩
  exact absurd rfl (h (2 ^ 35 - 1) 0 [] (by decide))

/-- C04, what holds: an infinite element is always recognised, in every field length and
whatever its stale data size; a finite size is never mistaken for unknown as long as it is
below 2^35-1. -/
theorem C04_unknown_unambiguous_partial :
    (∀ n, 1 ≤ n → n ≤ 8 → ∀ L rest,
      readCodedSize (codedValue L n false ++ rest) = ⟨2 ^ (7 * n) - 1, n, 2 ^ (7 * n) - 1⟩) ∧
    (∀ (s k : Nat) rest, k ≤ 8 → s < 2 ^ 35 - 1 →
      (readCodedSize (codedValue s (codedSizeLength s k true) true ++ rest)).value = s ∧
      s < (readCodedSize (codedValue s (codedSizeLength s k true) true ++ rest)).unknown) := by
  constructor
  · intro n h1 h8 L rest
    rw [codedValue_infinite, readCodedSize_codedValue _ _ h1 h8, unknownMark_eq _ h1 h8]
    congr 1
    have hn : n = 1 ∨ n = 2 ∨ n = 3 ∨ n = 4 ∨ n = 5 ∨ n = 6 ∨ n = 7 ∨ n = 8 := by omega
    rcases hn with e | e | e | e | e | e | e | e <;> subst e <;> decide
  · intro s k rest hk hs
    have hr := codedSizeLength_range (s : Int) k hk true
    rw [readCodedSize_codedValue _ _ hr.1 hr.2, unknownMark_eq _ hr.1 hr.2]
    have hkk : k = 0 ∨ k = 1 ∨ k = 2 ∨ k = 3 ∨ k = 4 ∨ k = 5 ∨ k = 6 ∨ k = 7 ∨ k = 8 := by omega
    clear hr
    simp only [codedSizeLength, Bool.not_true, Bool.false_eq_true, if_false]
    rcases hkk with e | e | e | e | e | e | e | e | e <;> subst e <;> (repeat' split) <;> simp <;> omega

example : (readCodedSize (codedValue 127 (codedSizeLength 127 0 true) true)).value = 127 ∧
    127 < (readCodedSize (codedValue 127 (codedSizeLength 127 0 true) true)).unknown := by decide

/-- C05. Decoding is bounded by the available bytes and by 8, fits 7 bits per byte, depends
only on the consumed bytes, and succeeds exactly when the first byte announces a length
that is available. -/
theorem C05_decode_bounded (buf : Bytes) :
    (readCodedSize buf).len ≤ buf.length ∧ (readCodedSize buf).len ≤ 8 ∧
    ((readCodedSize buf).len ≠ 0 →
      (readCodedSize buf).value < 2 ^ (7 * (readCodedSize buf).len) ∧
      ∀ rest, readCodedSize (buf.take (readCodedSize buf).len ++ rest) = readCodedSize buf) ∧
    (∀ n, 0 < n → ((readCodedSize buf).len = n ↔
      n ≤ 8 ∧ n ≤ buf.length ∧ ∃ b0, buf.head? = some b0 ∧ 2 ^ (8 - n) ≤ b0.toNat ∧ b0.toNat < 2 ^ (9 - n))) := by
  cases buf with
  | nil => simp [readCodedSize]; omega
  | cons b0 rest =>
    cases hf : findMarker b0 (rest.length + 1) 8 with
    | none =>
      have hlen : (readCodedSize (b0 :: rest)).len = 0 := by simp [readCodedSize, hf]
      refine ⟨by omega, by omega, by omega, ?_⟩
      intro n hn
      constructor
      · omega
      · rintro ⟨h1, h2, b, hb, h3, h4⟩
        simp only [List.head?_cons, Option.some.injEq] at hb
        subst hb
        exfalso
        apply findMarker_none b0 _ hf (n - 1)
        have e1 : 7 - (n - 1) = 8 - n := by omega
        have e2 : 8 - (n - 1) = 9 - n := by omega
        rw [e1, e2]
        exact ⟨by omega, by simp at h2; omega, h3, h4⟩
    | some i =>
      have hm := (findMarker_iff _ _ _).1 hf
      obtain ⟨h1, h2, h3, h4⟩ := hm
      have hs := readCodedSize_shape _ _ _ hf
      rw [hs]
      refine ⟨by simp; omega, by simp; omega, ?_, ?_⟩
      · intro _
        constructor
        · have hlt : (rest.take i).length = i := by simp; omega
          have hbl := beNat_lt (rest.take i)
          rw [hlt] at hbl
          have hsmall : b0.toNat - 2 ^ (7 - i) < 2 ^ (7 - i) := by
            have e2 : 8 - i = (7 - i) + 1 := by omega
            rw [e2, Nat.pow_succ] at h4
            omega
          have e : 2 ^ (7 * (i + 1)) = 2 ^ (7 - i) * 256 ^ i := by
            have : (256 : Nat) ^ i = 2 ^ (8 * i) := by rw [Nat.pow_mul]
            rw [this, ← Nat.pow_add]; congr 1; omega
          simp only
          rw [e]
          have := Nat.mul_le_mul_right (256 ^ i) (Nat.succ_le_of_lt hsmall)
          rw [Nat.succ_mul] at this
          omega
        · intro r
          simp only [List.take_succ_cons, List.cons_append]
          have hf' : findMarker b0 ((rest.take i ++ r).length + 1) 8 = some i := by
            rw [findMarker_iff]
            refine ⟨h1, ?_, h3, h4⟩
            simp only [List.length_append, List.length_take]; omega
          rw [readCodedSize_shape _ _ _ hf']
          congr 3
          rw [List.take_append_of_le_length (by simp; omega), List.take_take]
          simp
      · intro n hn
        simp only [List.head?_cons, Option.some.injEq, List.length_cons]
        constructor
        · intro he
          subst he
          have e1 : 7 - i = 8 - (i + 1) := by omega
          have e2 : 8 - i = 9 - (i + 1) := by omega
          rw [e1] at h3; rw [e2] at h4
          exact ⟨by omega, by omega, b0, rfl, h3, h4⟩
        · rintro ⟨g1, g2, b, hb, g3, g4⟩
          subst hb
          have e1 : 8 - n = 7 - (n - 1) := by omega
          have e2 : 9 - n = 8 - (n - 1) := by omega
          rw [e1] at g3; rw [e2] at g4
          have : findMarker b0 (rest.length + 1) 8 = some (n - 1) :=
            (findMarker_iff _ _ _).2 ⟨by omega, by omega, g3, g4⟩
          rw [hf] at this
          simp only [Option.some.injEq] at this
          omega

example : (readCodedSize [0x40, 0x05, 0xFF]).len = 2 ∧ (readCodedSize [0x40]).len = 0 ∧
    (readCodedSize [0x00, 0xFF]).len = 0 := by decide

/-- C06. Re-encoding what was decoded, with the length it had, reproduces the bytes read;
hence two fields with the same length and value are the same bytes. -/
theorem C06_canonical (buf : Bytes) (h : (readCodedSize buf).len ≠ 0) :
    codedValue (readCodedSize buf).value (readCodedSize buf).len true = buf.take (readCodedSize buf).len ∧
    ∀ buf', readCodedSize buf' = readCodedSize buf →
      buf'.take (readCodedSize buf').len = buf.take (readCodedSize buf).len := by
  refine ⟨codedValue_readCodedSize buf h, ?_⟩
  intro buf' he
  rw [← codedValue_readCodedSize buf h, ← codedValue_readCodedSize buf' (by rw [he]; exact h), he]

example : (readCodedSize [0x20, 0x01, 0x02, 0x99]).len = 3 := by decide

/-- The general behaviour of signed fields: what is read when `v` is written in `n` bytes. -/
theorem readCodedSizeSigned_codedValueSigned (v : Int) (n : Nat) (h1 : 1 ≤ n) (h8 : n ≤ 8) (rest : Bytes) :
    readCodedSizeSigned (codedValueSigned v n ++ rest) = ((v + writeBias v) % 2 ^ (7 * n) - readBias n, n) := by
  simp only [readCodedSizeSigned, codedValueSigned]
  rw [readCodedSize_codedValue _ _ h1 h8]
  have : 0 ≤ (v + writeBias v) % 2 ^ (7 * n) := Int.emod_nonneg _ (by
    have : (0 : Int) < 2 ^ (7 * n) := Int.pow_pos (by decide)
    omega)
  rw [Int.toNat_of_nonneg this]

/-- C07. A signed size difference of magnitude below 2^27 written with its natural length is
read back with that length. -/
theorem C07_signed_roundtrip (v : Int) (hlo : -(2 ^ 27) < v) (hhi : v < 2 ^ 27) (rest : Bytes) :
    readCodedSizeSigned (codedValueSigned v (codedSizeLengthSigned v 0) ++ rest)
      = (v, codedSizeLengthSigned v 0) := by
  have hr := codedSizeLengthSigned_range v 0 (by omega)
  rw [readCodedSizeSigned_codedValueSigned _ _ hr.1 hr.2]
  clear hr
  simp only [Int.reducePow, Int.reduceNeg] at hlo hhi
  simp only [codedSizeLengthSigned, writeBias]
  (repeat' split) <;> simp [readBias] <;> omega

example : readCodedSizeSigned (codedValueSigned (-64) (codedSizeLengthSigned (-64) 0) ++ [3]) = (-64, 2) := by
  decide

/-- Full statement of C08. -/
def SignedAnyLength : Prop :=
  ∀ (v : Int) (k : Nat), k ≤ 8 → -(2 ^ 34) < v → v < 2 ^ 34 →
    readCodedSizeSigned (codedValueSigned v (codedSizeLengthSigned v k))
      = (v, codedSizeLengthSigned v k)

/-- C08 is false: asking for 2 bytes for the difference 5 gives back -8123. -/
theorem C08_signed_any_length_counterexample : ¬ SignedAnyLength := by
  intro h
  exact absurd (h 5 2 (by decide) (by decide) (by decide)) (by decide)

/-- A second witness, without forcing a length: -2^27 is read back as 2^35 - 2^27. -/
theorem C08_signed_natural_counterexample :
    readCodedSizeSigned (codedValueSigned (-(2 ^ 27)) (codedSizeLengthSigned (-(2 ^ 27)) 0))
      = (2 ^ 35 - 2 ^ 27, 5) := by decide

/-- C08, what holds, for every value and every length `n`: the value survives exactly when
its biased form fits the field and the bias the writer derives from the value is the one
the reader derives from the length. -/
theorem C08_signed_any_length_partial (v : Int) (n : Nat) (h1 : 1 ≤ n) (h8 : n ≤ 8) (rest : Bytes)
    (hfit : 0 ≤ v + writeBias v ∧ v + writeBias v < 2 ^ (7 * n)) :
    readCodedSizeSigned (codedValueSigned v n ++ rest) = (v, n) ↔ writeBias v = readBias n := by
  rw [readCodedSizeSigned_codedValueSigned _ _ h1 h8, Int.emod_eq_of_lt hfit.1 hfit.2]
  simp only [Prod.mk.injEq, and_true]
  omega

example : (0 ≤ (5 : Int) + writeBias 5 ∧ (5 : Int) + writeBias 5 < 2 ^ (7 * 2)) ∧ writeBias 5 ≠ readBias 2 := by
  decide

/-- C09. Natural lengths are minimal: no shorter field can hold the size below its unknown
marker (unsigned), or the biased difference below its unknown marker (signed). The chosen
length does hold it, in the supported range. -/
theorem C09_minimal_length :
    (∀ s : Nat, (s < 2 ^ 35 - 1 → s < 2 ^ (7 * codedSizeLength s 0 true) - 1) ∧
      ∀ m, 1 ≤ m → m < codedSizeLength s 0 true → ¬ s < 2 ^ (7 * m) - 1) ∧
    (∀ v : Int, (-(2 ^ 27) < v → v < 2 ^ 27 →
        -(2 ^ (7 * codedSizeLengthSigned v 0 - 1)) < v ∧ v < 2 ^ (7 * codedSizeLengthSigned v 0 - 1)) ∧
      ∀ m, 1 ≤ m → m < codedSizeLengthSigned v 0 → ¬ (-(2 ^ (7 * m - 1)) < v ∧ v < 2 ^ (7 * m - 1))) := by
  constructor
  · intro s
    constructor
    · simp only [codedSizeLength, Bool.not_true, Bool.false_eq_true, if_false]
      (repeat' split) <;> simp <;> omega
    · intro m hm hlt
      have : m = 1 ∨ m = 2 ∨ m = 3 ∨ m = 4 := by
        revert hlt
        simp only [codedSizeLength, Bool.not_true, Bool.false_eq_true, if_false]
        (repeat' split) <;> omega
      revert hlt
      simp only [codedSizeLength, Bool.not_true, Bool.false_eq_true, if_false]
      rcases this with e | e | e | e <;> subst e <;> (repeat' split) <;> simp <;> omega
  · intro v
    constructor
    · simp only [codedSizeLengthSigned]
      (repeat' split) <;> simp <;> omega
    · intro m hm hlt
      have : m = 1 ∨ m = 2 ∨ m = 3 ∨ m = 4 := by
        revert hlt
        simp only [codedSizeLengthSigned]
        (repeat' split) <;> omega
      revert hlt
      simp only [codedSizeLengthSigned]
      rcases this with e | e | e | e <;> subst e <;> (repeat' split) <;> simp <;> omega

example : codedSizeLength 127 0 true = 2 ∧ codedSizeLengthSigned 64 0 = 2 ∧ codedSizeLengthSigned 63 0 = 1 := by
  decide

/-- A well-formed element ID of `n` bytes: the length marker is its highest set bit. -/
def WellFormedId (id n : Nat) : Prop := 1 ≤ n ∧ n ≤ 4 ∧ 2 ^ (7 * n) ≤ id ∧ id < 2 ^ (7 * n + 1)

/-- C10. A well-formed ID is written in exactly its length and read back by both readers,
whatever follows it. -/
theorem C10_id_roundtrip (id n : Nat) (h : WellFormedId id n) (bufSize : Nat) (hb : 4 ≤ bufSize) (rest : Bytes) :
    ∃ bytes, fillBufferID bufSize id = some bytes ∧ bytes.length = n ∧ idLength id = n ∧
      bufferToID (bytes ++ rest) = some id ∧ idFromBuffer (bytes ++ rest) n = id := by
  obtain ⟨h1, h4, hlo, hhi⟩ := h
  have h32 : id < 2 ^ 32 := Nat.lt_of_lt_of_le hhi (Nat.pow_le_pow_right (by decide) (by omega))
  have hid : idLength id = n := by
    rw [idLength_eq id h32]
    have hn : n = 1 ∨ n = 2 ∨ n = 3 ∨ n = 4 := by omega
    rcases hn with e | e | e | e <;> subst e <;> simp at hlo hhi <;> (repeat' split) <;> omega
  refine ⟨beBytes n id, by simp [fillBufferID, hid]; omega, by simp, hid, ?_, ?_⟩
  · have hmask : ∀ b : UInt8, ((b &&& 0x80 ≠ 0) ↔ 128 ≤ b.toNat) ∧
        (b.toNat < 128 → ((b &&& 0x40 ≠ 0) ↔ 64 ≤ b.toNat)) ∧
        (b.toNat < 64 → ((b &&& 0x20 ≠ 0) ↔ 32 ≤ b.toNat)) ∧
        (b.toNat < 32 → ((b &&& 0x10 ≠ 0) ↔ 16 ≤ b.toNat)) := by
      apply forall_u8; decide +kernel
    have hn : n = 1 ∨ n = 2 ∨ n = 3 ∨ n = 4 := by omega
    rcases hn with e | e | e | e <;> subst e <;> simp only [Nat.reduceMul, Nat.reduceAdd, Nat.reducePow] at hlo hhi
    · simp only [beBytes, List.nil_append, List.cons_append, bufferToID]
      have hm := hmask (lowByte (id : Int))
      simp only [lowByte_toNat] at hm
      rw [if_pos (hm.1.2 (by omega))]
      simp only [lowByte_toNat, Option.some.injEq]; omega
    · simp only [beBytes, List.nil_append, List.cons_append, bufferToID]
      have hm := hmask (lowByte ((id : Int) / 256))
      simp only [lowByte_toNat] at hm
      rw [if_neg (fun hh => by have := hm.1.1 hh; omega), if_pos ((hm.2.1 (by omega)).2 (by omega))]
      simp only [lowByte_toNat, Option.some.injEq]; omega
    · simp only [beBytes, List.nil_append, List.cons_append, bufferToID]
      have hm := hmask (lowByte ((id : Int) / 256 / 256))
      simp only [lowByte_toNat] at hm
      rw [if_neg (fun hh => by have := hm.1.1 hh; omega), if_neg (fun hh => by have := (hm.2.1 (by omega)).1 hh; omega),
        if_pos ((hm.2.2.1 (by omega)).2 (by omega))]
      simp only [lowByte_toNat, Option.some.injEq]; omega
    · simp only [beBytes, List.nil_append, List.cons_append, bufferToID]
      have hm := hmask (lowByte ((id : Int) / 256 / 256 / 256))
      simp only [lowByte_toNat] at hm
      rw [if_neg (fun hh => by have := hm.1.1 hh; omega), if_neg (fun hh => by have := (hm.2.1 (by omega)).1 hh; omega),
        if_neg (fun hh => by have := (hm.2.2.1 (by omega)).1 hh; omega),
        if_pos ((hm.2.2.2 (by omega)).2 (by omega))]
      simp only [lowByte_toNat, Option.some.injEq]; omega
  · have e : (if n = 1 then 1 else if n = 2 then 2 else if n = 3 then 3 else 4) = n := by
      (repeat' split) <;> omega
    simp only [idFromBuffer, e]
    rw [List.take_append_of_le_length (by simp), List.take_of_length_le (by simp), beNat_beBytes_nat]
    apply Nat.mod_eq_of_lt
    have : (256 : Nat) ^ n = 2 ^ (8 * n) := by rw [Nat.pow_mul]
    rw [this]
    exact Nat.lt_of_lt_of_le hhi (Nat.pow_le_pow_right (by decide) (by omega))

example : WellFormedId 0x1A45DFA3 4 ∧ WellFormedId 0x4286 2 := by
  constructor <;> (unfold WellFormedId; decide)

end Verif.Ebml
