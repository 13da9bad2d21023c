import Verif.Bzip.Rle
import Verif.Bzip.Spec
/-!
The checksum of bzip2: a table for eight bits at once.
-/
set_option linter.unusedSimpArgs false
namespace Verif.Bzip
open Verif Verif.Mkv

/-! ### The checksum -/

theorem crcBit_xor (a b : BitVec 32) (x y : Bool) : Spec.crcBit (a ^^^ b) (x ^^ y) = Spec.crcBit a x ^^^ Spec.crcBit b y := by
  have hm : (a ^^^ b).msb = (a.msb ^^ b.msb) := by simp
  have hs : (a ^^^ b) <<< 1 = (a <<< 1) ^^^ (b <<< 1) := by
    ext i hi
    simp
    grind
  rw [Spec.crcBit, Spec.crcBit, Spec.crcBit, hm, hs]
  generalize a <<< 1 = u
  generalize b <<< 1 = v
  cases a.msb <;> cases b.msb <;> cases x <;> cases y <;> simp <;> ext i hi <;> simp <;> grind

/-- Eight bits of the checksum. -/
def crc8 (crc : BitVec 32) (c : Nat) : BitVec 32 := (toBits 8 c).foldl Spec.crcBit crc

theorem crc8_xor (a b : BitVec 32) (x y : Nat) : crc8 (a ^^^ b) (x ^^^ y) = crc8 a x ^^^ crc8 b y := by
  simp only [crc8, toBits, List.foldl_cons, List.foldl_nil, Nat.testBit_xor]
  simp only [crcBit_xor]

theorem crc_table : ∀ i : Fin 256, crcTable.getD i.val 0 = crc8 (BitVec.ofNat 32 i.val <<< 24) 0 := by decide +kernel

theorem crc_low : ∀ i : Fin 256, crc8 0 i.val = crc8 (BitVec.ofNat 32 i.val <<< 24) 0 := by decide +kernel

theorem crc8_low24 (a : BitVec 32) (h : a.toNat < 2 ^ 24) : crc8 a 0 = a <<< 8 := by
  have key : ∀ (n : Nat) (x : BitVec 32), x.toNat * 2 ^ n < 2 ^ 32 → (List.replicate n false).foldl Spec.crcBit x = x <<< n := by
    intro n
    induction n with
    | zero => intro x _; simp
    | succ n ih =>
      intro x hx
      rw [List.replicate_succ, List.foldl_cons]
      rw [Nat.pow_succ] at hx
      have h2 := Nat.two_pow_pos n
      have hx1 : x.toNat * 2 < 2 ^ 32 := by
        have : x.toNat * 2 * 1 ≤ x.toNat * 2 * 2 ^ n := Nat.mul_le_mul_left _ h2
        have e : x.toNat * 2 * 2 ^ n = x.toNat * (2 ^ n * 2) := by rw [Nat.mul_assoc, Nat.mul_comm 2]
        omega
      have hmsb : x.msb = false := by
        rw [BitVec.msb_eq_decide]; simp only [decide_eq_false_iff_not]; omega
      have e1 : Spec.crcBit x false = x <<< 1 := by rw [Spec.crcBit, hmsb]; rfl
      have e2 : (x <<< 1).toNat = x.toNat * 2 := by
        rw [BitVec.toNat_shiftLeft, Nat.shiftLeft_eq, Nat.mod_eq_of_lt (by simpa using hx1)]
      rw [e1, ih _ (by rw [e2, Nat.mul_assoc, Nat.mul_comm 2]; exact hx), ← BitVec.shiftLeft_add, Nat.add_comm]
  have := key 8 a (by omega)
  rw [crc8, ← this]; rfl

/-- A checksum in two parts. -/
theorem crc_split (crc : BitVec 32) : crc = ((crc <<< 8) >>> 8) ^^^ ((crc >>> 24) <<< 24) := by
  ext i hi
  simp only [BitVec.getElem_xor, BitVec.getElem_ushiftRight, BitVec.getLsbD_shiftLeft, BitVec.getElem_shiftLeft, BitVec.getLsbD_ushiftRight]
  by_cases h24 : i < 24
  · simp [h24, show 8 + i < 32 from by omega, BitVec.getLsbD_eq_getElem hi]
  · simp [h24, show ¬ 8 + i < 32 from by omega, show 24 + (i - 24) = i from by omega, BitVec.getLsbD_eq_getElem hi]

theorem crc_shift (crc : BitVec 32) : ((crc <<< 8) >>> 8) <<< 8 = crc <<< 8 := by
  ext i hi
  simp only [BitVec.getElem_ushiftRight, BitVec.getLsbD_shiftLeft, BitVec.getElem_shiftLeft, BitVec.getLsbD_ushiftRight]
  by_cases h8 : i < 8
  · simp [h8]
  · simp [h8, show 8 + (i - 8) = i from by omega, hi, BitVec.getLsbD_eq_getElem (show i - 8 < 32 from by omega)]

theorem crc_index (crc : BitVec 32) (c : Nat) :
    BitVec.ofNat 32 ((crc >>> 24).toNat ^^^ c) <<< 24 = ((crc >>> 24) <<< 24) ^^^ (BitVec.ofNat 32 c <<< 24) := by
  rw [BitVec.ofNat_xor, BitVec.ofNat_toNat, BitVec.setWidth_eq]
  generalize BitVec.ofNat 32 c = y
  generalize crc >>> 24 = x
  ext i hi
  simp only [BitVec.getElem_shiftLeft, BitVec.getElem_xor, BitVec.getLsbD_xor]
  by_cases h : i < 24 <;> simp [h]

/-- The table does eight bits at once. -/
theorem crcByte_eq (crc : BitVec 32) (c : Nat) (hc : c < 256) : crcByte crc c = crc8 crc c := by
  have hh : (crc >>> 24).toNat < 256 := by rw [BitVec.toNat_ushiftRight, Nat.shiftRight_eq_div_pow]; omega
  have hx : (crc >>> 24).toNat ^^^ c < 256 := Nat.xor_lt_two_pow (n := 8) hh (by omega)
  have htab := crc_table ⟨_, hx⟩
  dsimp only at htab
  rw [crcByte, Nat.mod_eq_of_lt hc, htab, crc_index]
  have hlow := crc8_low24 ((crc <<< 8) >>> 8) (by rw [BitVec.toNat_ushiftRight, Nat.shiftRight_eq_div_pow]; omega)
  rw [crc_shift] at hlow
  have e3 := crc_low ⟨c, hc⟩
  dsimp only at e3
  have e0 := crc8_xor ((crc >>> 24) <<< 24) (BitVec.ofNat 32 c <<< 24) 0 0
  have e2 := crc8_xor ((crc <<< 8) >>> 8) ((crc >>> 24) <<< 24) 0 0
  have e1 := crc8_xor crc 0 0 c
  rw [show crc ^^^ 0 = crc from BitVec.xor_zero, Nat.zero_xor] at e1
  rw [Nat.xor_self] at e0 e2
  rw [← crc_split] at e2
  rw [e0, ← hlow, ← e3, e1, e2, BitVec.xor_assoc]

theorem crc_fold (data : List Nat) (h : ∀ c ∈ data, c < 256) : ∀ x, data.foldl crcByte x = (data.flatMap (toBits 8)).foldl Spec.crcBit x := by
  induction data with
  | nil => intro x; rfl
  | cons c data ih =>
    intro x
    rw [List.foldl_cons, List.flatMap_cons, List.foldl_append, crcByte_eq x c (h c (by simp)), crc8]
    exact ih (fun d hd => h d (by simp [hd])) _

end Verif.Bzip
