import Verif.Ebml.NumberLemmas
/-!
Properties C11-C15: integer, float and date payloads.
-/
namespace Verif.Ebml

/-- `v` is representable as an unsigned number of `n` bytes. -/
def FitsUnsigned (v : BitVec 64) (n : Nat) : Prop := v.toNat < 256 ^ n

/-- `v` is representable as a two's complement number of `n` bytes. -/
def FitsSigned (v : BitVec 64) (n : Nat) : Prop :=
  -(2 ^ (8 * n - 1) : Nat) ≤ v.toInt ∧ v.toInt < (2 ^ (8 * n - 1) : Nat)

/-- C13 (unsigned): the chosen size holds the value and no smaller one does. -/
theorem C13_unsigned_minimal (v : BitVec 64) :
    1 ≤ naturalSizeInt v ∧ naturalSizeInt v ≤ 8 ∧ FitsUnsigned v (naturalSizeInt v) ∧
    ∀ m, 1 ≤ m → m < naturalSizeInt v → ¬ FitsUnsigned v m := by
  have hv := v.isLt
  unfold FitsUnsigned
  refine ⟨?_, ?_, ?_, ?_⟩
  · unfold naturalSizeInt; (repeat' split) <;> omega
  · unfold naturalSizeInt; (repeat' split) <;> omega
  · unfold naturalSizeInt; (repeat' split) <;> simp <;> omega
  · intro m h1 hm
    have : m = 1 ∨ m = 2 ∨ m = 3 ∨ m = 4 ∨ m = 5 ∨ m = 6 ∨ m = 7 := by
      revert hm
      unfold naturalSizeInt; (repeat' split) <;> omega
    revert hm
    unfold naturalSizeInt
    rcases this with e | e | e | e | e | e | e <;> subst e <;> (repeat' split) <;> simp <;> omega

/-- C13 (signed): the chosen size holds the value and no smaller one does. -/
theorem C13_signed_minimal (v : BitVec 64) :
    1 ≤ naturalSizeSigned v ∧ naturalSizeSigned v ≤ 8 ∧ FitsSigned v (naturalSizeSigned v) ∧
    ∀ m, 1 ≤ m → m < naturalSizeSigned v → ¬ FitsSigned v m := by
  have hlo : -(2 ^ 63 : Int) ≤ v.toInt := BitVec.le_toInt v
  have hhi : v.toInt < (2 ^ 63 : Int) := BitVec.toInt_lt
  simp only [Int.reducePow, Int.reduceNeg] at hlo hhi
  unfold FitsSigned
  refine ⟨?_, ?_, ?_, ?_⟩
  · unfold naturalSizeSigned; (repeat' split) <;> omega
  · unfold naturalSizeSigned; (repeat' split) <;> omega
  · unfold naturalSizeSigned; (repeat' split) <;> simp <;> omega
  · intro m h1 hm
    have : m = 1 ∨ m = 2 ∨ m = 3 ∨ m = 4 ∨ m = 5 ∨ m = 6 ∨ m = 7 := by
      revert hm
      unfold naturalSizeSigned; (repeat' split) <;> omega
    revert hm
    unfold naturalSizeSigned
    rcases this with e | e | e | e | e | e | e <;> subst e <;> (repeat' split) <;> simp <;> omega

example : naturalSizeInt 256#64 = 2 ∧ naturalSizeSigned (-129#64) = 2 ∧ naturalSizeSigned (-128#64) = 1 := by
  decide

/-- C13 (requested minimum): the final payload size is the larger of the two. -/
theorem C13_requested_minimum (n : Nat) (d : Int) :
    (updateDataSize n d : Int) = max (n : Int) d := by
  unfold updateDataSize; split <;> omega

/-- C11. An unsigned value written with any payload size (up to 8 bytes) that holds it -
in particular the automatically chosen size raised to any requested minimum - is read back;
the stale stack byte never shows. -/
theorem C11_unsigned_roundtrip (v : BitVec 64) (n : Nat) (h1 : 1 ≤ n) (h8 : n ≤ 8) (hfit : FitsUnsigned v n)
    (d : Int) (hd : d ≤ n) (junk : UInt8) :
    (renderInt v n d junk).length = n ∧ readInt (renderInt v n d junk) = some v := by
  have hr : renderInt v n d junk = beBytes n v.toInt := by
    unfold renderInt; rw [if_neg (by omega), if_neg (by omega)]
  rw [hr]
  refine ⟨by simp, ?_⟩
  unfold readInt
  rw [if_neg (by simp; omega)]
  congr 1
  apply BitVec.eq_of_toNat_eq
  rw [foldl_zext, beNat_beBytes_toInt v n h8]
  unfold FitsUnsigned at hfit
  have h0n : (0#64).toNat = 0 := rfl
  rw [h0n, Nat.zero_mul, Nat.zero_add, Nat.mod_eq_of_lt hfit, Nat.mod_eq_of_lt v.isLt]

/-- C11, at the size `EBML_ElementUpdateSize` computes for any requested minimum up to 8. -/
theorem C11_unsigned_roundtrip_auto (v : BitVec 64) (d : Int) (hd : d ≤ 8) (junk : UInt8) :
    readInt (renderInt v (updateDataSize (naturalSizeInt v) d) d junk) = some v := by
  obtain ⟨h1, h8, hf, _⟩ := C13_unsigned_minimal v
  have hm := C13_requested_minimum (naturalSizeInt v) d
  refine (C11_unsigned_roundtrip v _ (by omega) (by omega) ?_ d (by omega) junk).2
  unfold FitsUnsigned at *
  exact Nat.lt_of_lt_of_le hf (Nat.pow_le_pow_right (by decide) (by omega))

example : FitsUnsigned 0xFFFFFFFFFFFFFFFF#64 8 ∧
    readInt (renderInt 0xFFFFFFFFFFFFFFFF#64 8 1 0) = some 0xFFFFFFFFFFFFFFFF#64 := by
  constructor <;> (try unfold FitsUnsigned) <;> decide

/-- Full statement of C12, for a platform whose plain `char` is signed or not. -/
def SignedRoundtrip (charSigned : Bool) : Prop :=
  ∀ (v : BitVec 64) (n : Nat) (junk : UInt8), 1 ≤ n → n ≤ 8 → FitsSigned v n →
    readSignedInt charSigned junk (renderInt v n 1 junk) = some v

theorem renderInt_one (v : BitVec 64) (n : Nat) (junk : UInt8) (h1 : 1 ≤ n) :
    renderInt v n 1 junk = beBytes n v.toInt := by
  unfold renderInt; rw [if_neg (by omega), if_neg (by omega)]

theorem readSigned_unfold (c : Bool) (junk : UInt8) (v : BitVec 64) (n : Nat) (h1 : 1 ≤ n) (h8 : n ≤ 8)
    (hfit : FitsSigned v n) :
    readSignedInt c junk (beBytes n v.toInt) =
      some (List.foldl (fun (v : BitVec 64) (b : UInt8) => (v <<< 8) |||
        (if c then b.toBitVec.signExtend 64 else b.toBitVec.zeroExtend 64))
          (if v.toInt < 0 then -1#64 else 0#64) (beBytes n v.toInt)) := by
  unfold readSignedInt
  rw [if_neg (by simp; omega)]
  obtain ⟨k, rfl⟩ : ∃ k, n = k + 1 := ⟨n - 1, by omega⟩
  have hs := first_byte_sign v.toInt k hfit.1 hfit.2
  have hh : (beBytes (k + 1) v.toInt).headD junk = lowByte (v.toInt / (256 ^ k : Nat)) := by
    rw [beBytes_succ_left]; rfl
  have hb : ∀ b : UInt8, (b &&& 0x80 ≠ 0) ↔ 128 ≤ b.toNat := by
    apply forall_u8; decide +kernel
  simp only [hh, hb, hs]

/-- C12 holds where plain `char` is unsigned. -/
theorem C12_signed_roundtrip_unsigned_char : SignedRoundtrip false := by
  intro v n junk h1 h8 hfit
  rw [renderInt_one _ _ _ h1, readSigned_unfold _ _ _ _ h1 h8 hfit]
  simp only [Bool.false_eq_true, if_false]
  rw [foldl_zext_signed v n h1 h8 hfit.1 hfit.2]

/-- C12 is false where plain `char` is signed (x86 and most ABIs): 128 is read as -128. -/
theorem C12_signed_roundtrip_counterexample : ¬ SignedRoundtrip true := by
  intro h
  have := h 128#64 2 0 (by decide) (by decide) (by unfold FitsSigned; decide)
  exact absurd this (by decide)

/-- C12, exact extent of the failure with signed `char`: at the automatically chosen size a
value survives if and only if every payload byte after the first is below 0x80. -/
theorem C12_signed_roundtrip_partial (v : BitVec 64) (junk : UInt8) :
    readSignedInt true junk (renderInt v (naturalSizeSigned v) 1 junk) = some v ↔
      ∀ b ∈ (renderInt v (naturalSizeSigned v) 1 junk).tail, b.toNat < 128 := by
  obtain ⟨h1, h8, hfit, hmin⟩ := C13_signed_minimal v
  generalize hn : naturalSizeSigned v = n at *
  rw [renderInt_one _ _ _ h1, readSigned_unfold _ _ _ _ h1 h8 hfit]
  simp only [if_true]
  have hz := foldl_zext_signed v n h1 h8 hfit.1 hfit.2
  obtain ⟨k, rfl⟩ : ∃ k, n = k + 1 := ⟨n - 1, by omega⟩
  have hs := first_byte_sign v.toInt k hfit.1 hfit.2
  rw [beBytes_succ_left] at *
  simp only [List.foldl_cons, List.tail_cons, Option.some.injEq] at *
  constructor
  · intro he
    intro b hb
    apply Nat.lt_of_not_le
    intro hge
    have hbad := foldl_sext_bad (beBytes k v.toInt)
      ((if v.toInt < 0 then -1#64 else 0#64) <<< 8 ||| (lowByte (v.toInt / (256 ^ k : Nat))).toBitVec.signExtend 64)
      (by simp; omega) ⟨b, hb, hge⟩
    simp only [beBytes_length] at hbad
    rw [he] at hbad
    have hk : 1 ≤ k := by
      cases k with
      | zero => simp [beBytes] at hb
      | succ k => omega
    apply hmin k hk (by omega)
    refine ⟨hbad.2, ?_⟩
    have : (0 : Int) < (2 ^ (8 * k - 1) : Nat) := by exact_mod_cast Nat.pow_pos (by decide)
    omega
  · intro hall
    rw [foldl_sext_good _ _ hall]
    have hfirst : ((if v.toInt < 0 then -1#64 else 0#64) <<< 8 ||| (lowByte (v.toInt / (256 ^ k : Nat))).toBitVec.signExtend 64)
        = ((if v.toInt < 0 then -1#64 else 0#64) <<< 8 ||| (lowByte (v.toInt / (256 ^ k : Nat))).toBitVec.zeroExtend 64) := by
      by_cases hneg : v.toInt < 0
      · have hge := hs.2 hneg
        rw [shl8_or_sext_neg _ _ hge]
        apply BitVec.eq_of_toInt_eq
        rw [sext_toInt _ hge]
        rw [if_pos hneg]
        have := toInt_step (-1#64) (lowByte (v.toInt / (256 ^ k : Nat))) 1 (by decide) (by decide) (by decide)
        rw [this]
        have : (-1#64).toInt = -1 := by decide
        rw [this]; omega
      · rw [sext_eq_zext]
        apply Nat.lt_of_not_le
        intro hge
        exact hneg (hs.1 hge)
    rw [hfirst]
    exact hz

example : readSignedInt true 0 (renderInt (-300#64) 2 1 0) ≠ some (-300#64) ∧
    readSignedInt true 0 (renderInt 300#64 2 1 0) = some 300#64 := by decide

/-- C14. An 8-byte float payload is the big-endian image of the stored pattern and reading
restores every bit; a 4-byte payload is the big-endian image of the converted pattern, and
reading it restores exactly that pattern, converted back. -/
theorem C14_float_bits (toF32 : BitVec 64 → BitVec 32) (toF64 : BitVec 32 → BitVec 64) (v : BitVec 64) :
    renderFloat toF32 v 8 = beBytes 8 v.toNat ∧
    readFloat toF64 (renderFloat toF32 v 8) = some v ∧
    renderFloat toF32 v 4 = beBytes 4 (toF32 v).toNat ∧
    readFloat toF64 (renderFloat toF32 v 4) = some (toF64 (toF32 v)) := by
  have key : ∀ n x, x < 256 ^ n → memImage n (beNat (memImage n x)) = beBytes n (x : Int) := by
    intro n x hx
    -- both sides have the same big-endian value
    have hrev : ∀ n x, leBytes n x = (beBytes n (x : Int)).reverse := by
      intro n
      induction n with
      | zero => intro x; rfl
      | succ n ih =>
        intro x
        simp only [leBytes, beBytes, List.reverse_append, List.reverse_cons, List.reverse_nil, List.nil_append,
          List.singleton_append]
        rw [ih]; rfl
    unfold memImage
    rw [hrev n (beNat _)]
    have : beBytes n ((beNat (leBytes n x) : Nat) : Int) = leBytes n x := by
      have h := beBytes_beNat (leBytes n x)
      rwa [leBytes_length] at h
    rw [this, hrev, List.reverse_reverse]
  have h8 : renderFloat toF32 v 8 = beBytes 8 v.toNat := by
    unfold renderFloat; rw [if_pos rfl]; exact key 8 _ v.isLt
  have h4 : renderFloat toF32 v 4 = beBytes 4 (toF32 v).toNat := by
    unfold renderFloat; rw [if_neg (by decide)]; exact key 4 _ (toF32 v).isLt
  refine ⟨h8, ?_, h4, ?_⟩
  · rw [h8]; unfold readFloat
    rw [if_neg (by simp), if_pos (by simp), beNat_beBytes_nat, Nat.mod_eq_of_lt v.isLt]
    simp
  · rw [h4]; unfold readFloat
    rw [if_pos (by simp), beNat_beBytes_nat, Nat.mod_eq_of_lt (toF32 v).isLt]
    simp

example : renderFloat (fun _ => 0) 0x3FF8000000000001#64 8 = [0x3F, 0xF8, 0, 0, 0, 0, 0, 1] := by decide

/-- C15. Every valid date (an `int32_t` other than the reserved 0) is accepted, reads back as
the same number of seconds, and does so also after a trip through the 8-byte payload; the
reserved date is refused. -/
theorem C15_date_roundtrip (date : Int) (hlo : -(2 ^ 31) ≤ date) (hhi : date < 2 ^ 31) :
    (date = 0 → dateSet date = none) ∧
    (date ≠ 0 → ∃ v, dateSet date = some v ∧ dateGet true v = date ∧
      ∀ junk, (renderInt v (updateDataSize (naturalSizeSigned v) 8) 8 junk).length = 8 ∧
        ∃ v', dateRead (renderInt v (updateDataSize (naturalSizeSigned v) 8) 8 junk) = some v' ∧
          dateGet true v' = date) := by
  constructor
  · intro h; simp [dateSet, h]
  · intro h0
    simp only [Int.reducePow, Int.reduceNeg] at hlo hhi
    refine ⟨BitVec.ofInt 64 (date * 1000000000 / 1), by simp [dateSet, h0], ?_⟩
    have hv : (BitVec.ofInt 64 (date * 1000000000 / 1)).toInt = date * 1000000000 := by
      rw [BitVec.toInt_ofInt, Int.ediv_one]
      apply Int.bmod_eq_of_le <;> simp <;> omega
    generalize BitVec.ofInt 64 (date * 1000000000 / 1) = v at hv
    have hget : dateGet true v = date := by
      unfold dateGet
      simp only [Bool.not_true, Bool.false_eq_true, if_false, hv, Int.mul_one]
      rw [Int.mul_tdiv_cancel _ (by decide)]
      apply Int.bmod_eq_of_le <;> simp <;> omega
    refine ⟨hget, ?_⟩
    intro junk
    have h8 := (C13_signed_minimal v).2.1
    have hu : updateDataSize (naturalSizeSigned v) 8 = 8 := by
      unfold updateDataSize; split <;> omega
    rw [hu]
    have hr : renderInt v 8 8 junk = beBytes 8 v.toInt := by
      unfold renderInt; simp
    rw [hr]
    refine ⟨by simp, v, ?_, hget⟩
    unfold dateRead
    rw [if_neg (by simp)]
    congr 1
    have hle : ∀ l : Bytes, leNat l.reverse = beNat l := by
      intro l
      have h : ∀ l : Bytes, beNat l.reverse = leNat l := by
        intro l
        induction l with
        | nil => rfl
        | cons b l ih => rw [List.reverse_cons, beNat_append_one, ih, leNat]; omega
      have := h l.reverse
      rw [List.reverse_reverse] at this
      exact this.symm
    rw [hle, beNat_beBytes_toInt v 8 (by omega)]
    apply BitVec.eq_of_toNat_eq
    have := v.isLt
    simp only [BitVec.toNat_ofNat]
    omega

example : ∃ v, dateSet (-5) = some v ∧ dateGet true v = -5 := by
  refine ⟨_, rfl, ?_⟩; decide

end Verif.Ebml
