import Verif.Ebml.Number
import Verif.Ebml.VintLemmas
namespace Verif.Ebml

theorem shl8_or (v : BitVec 64) (b : UInt8) :
    ((v <<< 8) ||| b.toBitVec.zeroExtend 64).toNat = (v.toNat * 256 + b.toNat) % 2 ^ 64 := by
  have hz : (v <<< 8) &&& b.toBitVec.zeroExtend 64 = 0#64 := by
    apply BitVec.eq_of_getLsbD_eq
    intro i hi
    simp only [BitVec.getLsbD_and, BitVec.getLsbD_shiftLeft, BitVec.getLsbD_setWidth]
    by_cases h : i < 8
    · simp [h]
    · have : b.toBitVec.getLsbD i = false := BitVec.getLsbD_of_ge _ _ (by omega)
      simp [this]
  rw [← BitVec.add_eq_or_of_and_eq_zero _ _ hz, BitVec.toNat_add, BitVec.toNat_shiftLeft, BitVec.toNat_setWidth]
  have hb : b.toBitVec.toNat = b.toNat := rfl
  have := b.toNat_lt
  rw [hb, Nat.shiftLeft_eq]
  omega

theorem shl8_or_sext_neg (v : BitVec 64) (b : UInt8) (h : 128 ≤ b.toNat) :
    (v <<< 8) ||| b.toBitVec.signExtend 64 = b.toBitVec.signExtend 64 := by
  have hmsb : b.toBitVec.msb = true := by
    rw [BitVec.msb_eq_decide]
    have hb : b.toBitVec.toNat = b.toNat := rfl
    simp [hb]; omega
  apply BitVec.eq_of_getLsbD_eq
  intro i hi
  simp only [BitVec.getLsbD_or, BitVec.getLsbD_shiftLeft, BitVec.getLsbD_signExtend, hmsb]
  by_cases h8 : i < 8 <;> simp [h8, hi]

theorem sext_eq_zext (b : UInt8) (h : b.toNat < 128) :
    b.toBitVec.signExtend 64 = b.toBitVec.zeroExtend 64 := by
  apply BitVec.signExtend_eq_setWidth_of_msb_false
  rw [BitVec.msb_eq_decide]
  have hb : b.toBitVec.toNat = b.toNat := rfl
  simp [hb]; omega

theorem sext_toInt (b : UInt8) (h : 128 ≤ b.toNat) : (b.toBitVec.signExtend 64).toInt = (b.toNat : Int) - 256 := by
  rw [BitVec.toInt_signExtend_of_le (by decide), BitVec.toInt_eq_toNat_cond]
  have hb : b.toBitVec.toNat = b.toNat := rfl
  rw [hb]
  split <;> omega

/-- The zero-extending accumulation computes the big-endian value modulo 2^64. -/
theorem foldl_zext (buf : Bytes) (v : BitVec 64) :
    (List.foldl (fun (v : BitVec 64) (b : UInt8) => (v <<< 8) ||| b.toBitVec.zeroExtend 64) v buf).toNat
      = (v.toNat * 256 ^ buf.length + beNat buf) % 2 ^ 64 := by
  induction buf generalizing v with
  | nil => simp [Nat.mod_eq_of_lt v.isLt]
  | cons b l ih =>
    rw [List.foldl_cons, ih, shl8_or, List.length_cons, beNat_cons, Nat.pow_succ 256 l.length]
    rw [Nat.add_mod, Nat.mod_mul_mod, ← Nat.add_mod]
    congr 1
    rw [Nat.add_mul, Nat.mul_assoc, Nat.mul_comm 256 (256 ^ l.length), Nat.add_assoc]

theorem beNat_beBytes_toInt (v : BitVec 64) (n : Nat) (hn : n ≤ 8) :
    beNat (beBytes n v.toInt) = v.toNat % 256 ^ n := by
  have h1 := beNat_beBytes n v.toInt
  have h2 := beNat_beBytes_nat n v.toNat
  rw [← h2]
  congr 1
  apply beBytes_congr
  rw [BitVec.toInt_eq_toNat_cond]
  split
  · rfl
  · have hd : ((2 ^ 64 : Nat) : Int) = ((256 ^ n : Nat) : Int) * ((256 ^ (8 - n) : Nat) : Int) := by
      have : (2 ^ 64 : Nat) = 256 ^ n * 256 ^ (8 - n) := by
        rw [← Nat.pow_add]
        have : n + (8 - n) = 8 := by omega
        rw [this]
      rw [this, Int.natCast_mul]
    rw [hd, Int.sub_mul_emod_self_left]

theorem beBytes_succ_left (n : Nat) (x : Int) :
    beBytes (n + 1) x = lowByte (x / (256 ^ n : Nat)) :: beBytes n x := by
  induction n generalizing x with
  | zero => simp [beBytes]
  | succ n ih =>
    rw [beBytes, ih, List.cons_append]
    have e : x / 256 / ((256 ^ n : Nat) : Int) = x / ((256 ^ (n + 1) : Nat) : Int) := by
      rw [Int.ediv_ediv_of_nonneg (by decide), Nat.pow_succ, Nat.mul_comm, Int.natCast_mul]; rfl
    rw [e]; rfl

theorem toInt_step (w : BitVec 64) (b : UInt8) (B : Int) (h1 : w.toInt < 0) (h2 : -B ≤ w.toInt) (hB : B * 256 ≤ 2 ^ 63) :
    ((w <<< 8) ||| b.toBitVec.zeroExtend 64).toInt = w.toInt * 256 + b.toNat := by
  have hb : b.toNat < 256 := b.toNat_lt
  have h := shl8_or w b
  have hw := w.isLt
  rw [BitVec.toInt_eq_toNat_cond] at h1 h2 ⊢
  rw [h]
  rw [BitVec.toInt_eq_toNat_cond]
  split at h1
  · omega
  · rename_i hge
    rw [if_neg hge] at h2 ⊢
    split <;> omega

/-- Once a byte with the top bit set was OR-ed in, the accumulator is a small negative number. -/
theorem foldl_sext_neg (l : Bytes) (w : BitVec 64) (k : Nat) (hk : 1 ≤ k) (hlen : k + l.length ≤ 8)
    (h1 : w.toInt < 0) (h2 : -(2 ^ (8 * k - 1) : Nat) ≤ w.toInt) :
    let r := List.foldl (fun (v : BitVec 64) (b : UInt8) => (v <<< 8) ||| b.toBitVec.signExtend 64) w l
    r.toInt < 0 ∧ -(2 ^ (8 * (k + l.length) - 1) : Nat) ≤ r.toInt := by
  induction l generalizing w k with
  | nil => exact ⟨h1, h2⟩
  | cons b l ih =>
    have hb : b.toNat < 256 := b.toNat_lt
    simp only [List.length_cons] at hlen ⊢
    simp only [List.foldl_cons]
    have hpow : (2 ^ (8 * (k + 1) - 1) : Nat) = 2 ^ (8 * k - 1) * 256 := by
      have : 8 * (k + 1) - 1 = (8 * k - 1) + 8 := by omega
      rw [this, Nat.pow_add]
    have hpos : 1 ≤ 2 ^ (8 * k - 1) := Nat.pos_of_ne_zero (by simp)
    have e : k + (l.length + 1) = (k + 1) + l.length := by omega
    rw [e]
    by_cases hbb : 128 ≤ b.toNat
    · rw [shl8_or_sext_neg _ _ hbb]
      apply ih _ (k + 1) (by omega) (by omega)
      · rw [sext_toInt _ hbb]; omega
      · rw [sext_toInt _ hbb]; omega
    · rw [sext_eq_zext _ (by omega)]
      have hB : ((2 ^ (8 * k - 1) : Nat) : Int) * 256 ≤ 2 ^ 63 := by
        have : 2 ^ (8 * k - 1) * 256 ≤ 2 ^ 63 := by
          rw [← hpow]; exact Nat.pow_le_pow_right (by decide) (by omega)
        generalize 2 ^ (8 * k - 1) = q at *
        omega
      have hs := toInt_step w b _ h1 h2 hB
      apply ih _ (k + 1) (by omega) (by omega)
      · rw [hs]; omega
      · rw [hs]; omega

/-- With a later byte at or above 0x80 the sign-extending loop ends in the range of a shorter
number. -/
theorem foldl_sext_bad (l : Bytes) (w : BitVec 64) (hlen : l.length ≤ 8) (h : ∃ b ∈ l, 128 ≤ b.toNat) :
    let r := List.foldl (fun (v : BitVec 64) (b : UInt8) => (v <<< 8) ||| b.toBitVec.signExtend 64) w l
    r.toInt < 0 ∧ -(2 ^ (8 * l.length - 1) : Nat) ≤ r.toInt := by
  induction l generalizing w with
  | nil => simp at h
  | cons b l ih =>
    simp only [List.foldl_cons]
    by_cases hbb : 128 ≤ b.toNat
    · rw [shl8_or_sext_neg _ _ hbb]
      have hb : b.toNat < 256 := b.toNat_lt
      have := foldl_sext_neg l (b.toBitVec.signExtend 64) 1 (by omega) (by simp at hlen; omega)
        (by rw [sext_toInt _ hbb]; omega) (by rw [sext_toInt _ hbb]; simp; omega)
      simp only [List.length_cons]
      have e : l.length + 1 = 1 + l.length := by omega
      rw [e]; exact this
    · have h' : ∃ b ∈ l, 128 ≤ b.toNat := by
        obtain ⟨c, hc, hcc⟩ := h
        rcases List.mem_cons.1 hc with e | e
        · subst e; omega
        · exact ⟨c, e, hcc⟩
      have := ih ((w <<< 8) ||| b.toBitVec.signExtend 64) (by simp at hlen; omega) h'
      refine ⟨this.1, Int.le_trans ?_ this.2⟩
      have : 2 ^ (8 * l.length - 1) ≤ 2 ^ (8 * (b :: l).length - 1) :=
        Nat.pow_le_pow_right (by decide) (by simp; omega)
      omega

theorem foldl_sext_good (l : Bytes) (w : BitVec 64) (h : ∀ b ∈ l, b.toNat < 128) :
    List.foldl (fun (v : BitVec 64) (b : UInt8) => (v <<< 8) ||| b.toBitVec.signExtend 64) w l
      = List.foldl (fun (v : BitVec 64) (b : UInt8) => (v <<< 8) ||| b.toBitVec.zeroExtend 64) w l := by
  induction l generalizing w with
  | nil => rfl
  | cons b l ih =>
    simp only [List.foldl_cons]
    rw [sext_eq_zext _ (h b (by simp)), ih _ (fun c hc => h c (by simp [hc]))]

/-- First byte of the rendered number carries the sign. -/
theorem first_byte_sign (v : Int) (n : Nat) (hlo : -(2 ^ (8 * n + 7) : Nat) ≤ v) (hhi : v < (2 ^ (8 * n + 7) : Nat)) :
    128 ≤ (lowByte (v / (256 ^ n : Nat))).toNat ↔ v < 0 := by
  rw [lowByte_toNat]
  have hp : (2 ^ (8 * n + 7) : Nat) = 128 * 256 ^ n := by
    rw [Nat.pow_add, Nat.pow_mul, Nat.mul_comm]
  rw [hp] at hlo hhi
  have hpos : (0 : Int) < (256 ^ n : Nat) := by exact_mod_cast Nat.pow_pos (by decide)
  rw [Int.natCast_mul] at hlo hhi
  generalize hk : ((256 ^ n : Nat) : Int) = k at *
  have h1 : -128 ≤ v / k := by
    apply Int.le_ediv_of_mul_le hpos
    have : ((128 : Nat) : Int) = 128 := rfl
    omega
  have h2 : v / k < 128 := by
    apply Int.ediv_lt_of_lt_mul hpos
    exact hhi
  have h3 : v < 0 ↔ v / k < 0 := by
    constructor
    · exact fun h => Int.ediv_neg_of_neg_of_pos h hpos
    · intro h
      apply Int.not_le.mp
      intro h0
      have := Int.ediv_nonneg h0 (Int.le_of_lt hpos)
      omega
  rw [h3]; omega

/-- Main lemma: with zero extension (unsigned `char`) every admissible size round trips. -/
theorem foldl_zext_signed (v : BitVec 64) (n : Nat) (h1 : 1 ≤ n) (h8 : n ≤ 8)
    (hlo : -(2 ^ (8 * n - 1) : Nat) ≤ v.toInt) (hhi : v.toInt < (2 ^ (8 * n - 1) : Nat)) :
    List.foldl (fun (v : BitVec 64) (b : UInt8) => (v <<< 8) ||| b.toBitVec.zeroExtend 64)
      (if v.toInt < 0 then -1#64 else 0#64) (beBytes n v.toInt) = v := by
  apply BitVec.eq_of_toNat_eq
  rw [foldl_zext, beBytes_length, beNat_beBytes_toInt v n h8]
  have hv := v.isLt
  have hpow : (256 : Nat) ^ n = 2 * 2 ^ (8 * n - 1) := by
    have : (256 : Nat) ^ n = 2 ^ (8 * n) := by rw [Nat.pow_mul]
    rw [this, ← Nat.pow_succ']; congr 1; omega
  have hdvd : (2 ^ 64 : Nat) = 256 ^ n * 256 ^ (8 - n) := by
    rw [← Nat.pow_add]
    have : n + (8 - n) = 8 := by omega
    rw [this]
  generalize hk : (2 : Nat) ^ (8 * n - 1) = k at *
  by_cases hge : 2 * v.toNat < 2 ^ 64
  · have hvi : v.toInt = (v.toNat : Int) := by rw [BitVec.toInt_eq_toNat_cond, if_pos hge]
    rw [hvi] at hhi ⊢
    rw [if_neg (by omega)]
    have h0n : (0#64).toNat = 0 := rfl
    rw [h0n, Nat.zero_mul, Nat.zero_add, Nat.mod_eq_of_lt (a := v.toNat) (b := 256 ^ n) (by omega), Nat.mod_eq_of_lt hv]
  · have hvi : v.toInt = (v.toNat : Int) - (2 ^ 64 : Nat) := by rw [BitVec.toInt_eq_toNat_cond, if_neg hge]
    rw [hvi] at hlo ⊢
    rw [if_pos (by omega)]
    have hmod : v.toNat % 256 ^ n = v.toNat + 256 ^ n - 2 ^ 64 := by
      have hle : 2 ^ 64 - 256 ^ n ≤ v.toNat := by omega
      have he : v.toNat = (v.toNat + 256 ^ n - 2 ^ 64) + 256 ^ n * (256 ^ (8 - n) - 1) := by
        rw [Nat.mul_sub, ← hdvd]
        have : 256 ^ n ≤ 2 ^ 64 := by
          rw [hdvd]; exact Nat.le_mul_of_pos_right _ (Nat.pow_pos (by decide))
        omega
      conv => lhs; rw [he]
      rw [Nat.add_mul_mod_self_left]
      apply Nat.mod_eq_of_lt
      omega
    rw [hmod]
    have h1n : (-1#64).toNat = 2 ^ 64 - 1 := by decide
    rw [h1n]
    have he : (2 ^ 64 - 1) * 256 ^ n + (v.toNat + 256 ^ n - 2 ^ 64) = v.toNat + 2 ^ 64 * (256 ^ n - 1) := by
      rw [Nat.sub_mul, Nat.mul_sub]
      have hle : 256 ^ n ≤ 2 ^ 64 * 256 ^ n := Nat.le_mul_of_pos_left _ (by decide)
      have hpos : 0 < 256 ^ n := Nat.pow_pos (by decide)
      have hle2 : 2 ^ 64 ≤ v.toNat + 256 ^ n := by omega
      omega
    rw [he, Nat.add_mul_mod_self_left, Nat.mod_eq_of_lt hv]

end Verif.Ebml
