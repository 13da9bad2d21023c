import Verif.Core.DoubleFrac
import Verif.Props.Frac
/-!
C218: a double as a fraction.
-/
namespace Verif.Props.DoubleFrac
open Verif Verif.Mkv Verif.Frac

/-- The bits of a double (IEEE 754): sign, exponent field and fraction field, as an `int64_t`. -/
def bits (neg : Bool) (E m : Nat) : Int := (if neg then -2 ^ 63 else 0) + E * 2 ^ 52 + m

theorem fields {E m : Nat} (hE : E < 2 ^ 11) (hm : m < 2 ^ 52) (neg : Bool) :
    bits neg E m / 2 ^ 52 % 2 ^ 12 = (if neg then 2048 else 0) + E ∧ bits neg E m % 2 ^ 52 = m := by
  unfold bits
  cases neg <;> simp only [Int.reducePow, Nat.reducePow, Bool.false_eq_true, if_false, if_true] at * <;> omega

/-- For a positive double with an exponent from -10 to 52 the fraction is the one of the mantissa and the power of two. -/
theorem doubleToFrac_pos {E m : Nat} (hE : 1013 ≤ E) (hE' : E ≤ 1075) (hm : m < 2 ^ 52) :
    doubleToFrac (bits false E m) = simplify (2 ^ 52 + m : Nat) ((2 ^ (1075 - E) : Nat) : Int) := by
  obtain ⟨h1, h2⟩ := fields (E := E) (by simp only [Nat.reducePow]; omega) hm false
  have hpos : 0 < bits false E m := by
    unfold bits; simp only [Int.reducePow, Bool.false_eq_true, if_false]; omega
  unfold doubleToFrac
  rw [if_neg (by omega), h1, h2]
  simp only [Bool.false_eq_true, if_false, if_neg (Int.not_lt.2 (Int.le_of_lt hpos)), Int.zero_add]
  rw [if_neg (by omega)]
  have hs : (52 - ((E : Int) - 1023)).toNat = 1075 - E := by omega
  rw [hs]
  have hM : (m : Int) + 2 ^ 52 = ((2 ^ 52 + m : Nat) : Int) := by simp only [Int.reducePow, Nat.reducePow]; omega
  have hD : (2 : Int) ^ (1075 - E) = ((2 ^ (1075 - E) : Nat) : Int) := by rw [Int.natCast_pow]; rfl
  rw [hM, hD]
  cases simplify ((2 ^ 52 + m : Nat) : Int) ((2 ^ (1075 - E) : Nat) : Int) <;> rfl

theorem sizes {E m : Nat} (hE : 1013 ≤ E) (hm : m < 2 ^ 52) :
    (((2 ^ 52 + m : Nat) : Int)).natAbs < 2 ^ 63 ∧ (((2 ^ (1075 - E) : Nat) : Int)).natAbs < 2 ^ 63 ∧ ((2 ^ (1075 - E) : Nat) : Int) ≠ 0 := by
  have h2 : 2 ^ (1075 - E) ≤ 2 ^ 62 := Nat.pow_le_pow_right (by omega) (by omega)
  have h3 : 0 < 2 ^ (1075 - E) := Nat.two_pow_pos _
  generalize 2 ^ (1075 - E) = d at *
  simp only [Nat.reducePow, Int.natAbs_natCast] at *
  omega

/-- **C218 (exact)**: a positive double between 2^-10 and 2^53 that is a fraction of two numbers below 2^31 gives a fraction of its value,
`(2^52+m) / 2^(1075-E)`. -/
theorem C218_exact_partial {E m : Nat} (hE : 1013 ≤ E) (hE' : E ≤ 1075) (hm : m < 2 ^ 52) (p' q' : Int) (hp : p'.natAbs < 2 ^ 31)
    (hq : q'.natAbs < 2 ^ 31) (hq0 : q' ≠ 0) (he : p' * (2 ^ (1075 - E) : Nat) = (2 ^ 52 + m : Nat) * q') :
    ∃ p q : Int, doubleToFrac (bits false E m) = .ok (p, q) ∧ 0 < q ∧ p * (2 ^ (1075 - E) : Nat) = (2 ^ 52 + m : Nat) * q := by
  obtain ⟨h1, h2, h3⟩ := sizes hE hm
  rw [doubleToFrac_pos hE hE' hm]
  exact C200_exact _ _ h1 h2 h3 p' q' hp hq hq0 he

/-- **C218 (close)**: one below 1 gives a fraction at most 2^-30 off. -/
theorem C218_close_partial {E m : Nat} (hE : 1013 ≤ E) (hE' : E < 1023) (hm : m < 2 ^ 52) :
    ∃ p q : Int, doubleToFrac (bits false E m) = .ok (p, q) ∧
      (p * (2 ^ (1075 - E) : Nat) - (2 ^ 52 + m : Nat) * q).natAbs * 2 ^ 30 ≤ q.natAbs * 2 ^ (1075 - E) := by
  obtain ⟨h1, h2, h3⟩ := sizes hE hm
  rw [doubleToFrac_pos hE (by omega) hm]
  have hle : 2 ^ 53 ≤ 2 ^ (1075 - E) := Nat.pow_le_pow_right (by omega) (by omega)
  obtain ⟨p, q, e, hc⟩ := C200_close ((2 ^ 52 + m : Nat) : Int) ((2 ^ (1075 - E) : Nat) : Int) h1 h2 (by
    rw [Int.natAbs_natCast, Int.natAbs_natCast]
    generalize 2 ^ (1075 - E) = d at *
    simp only [Nat.reducePow] at *
    omega)
  rw [Int.natAbs_natCast] at hc
  exact ⟨p, q, e, hc⟩

/-- One of 1 and more gives a fraction whose inverse is at most 2^-30 off. -/
theorem C218_close_inverse_partial {E m : Nat} (hE : 1023 ≤ E) (hE' : E ≤ 1075) (hm : m < 2 ^ 52) :
    ∃ p q : Int, doubleToFrac (bits false E m) = .ok (p, q) ∧
      (p * (2 ^ (1075 - E) : Nat) - (2 ^ 52 + m : Nat) * q).natAbs * 2 ^ 30 ≤ p.natAbs * (2 ^ 52 + m) := by
  obtain ⟨h1, h2, h3⟩ := sizes (E := E) (by omega) hm
  rw [doubleToFrac_pos (by omega) (by omega) hm]
  have hle : 2 ^ (1075 - E) ≤ 2 ^ 52 := Nat.pow_le_pow_right (by omega) (by omega)
  obtain ⟨p, q, e, hc⟩ := C200_close_inverse ((2 ^ 52 + m : Nat) : Int) ((2 ^ (1075 - E) : Nat) : Int) h1 h2 (by
    rw [Int.natAbs_natCast, Int.natAbs_natCast]
    generalize 2 ^ (1075 - E) = d at *
    simp only [Nat.reducePow] at *
    omega)
  rw [Int.natAbs_natCast] at hc
  exact ⟨p, q, e, hc⟩

/-- **C218 (negative)**: for every negative double (also minus zero) the sign is taken for a part of the exponent, and the conversion is
undefined. -/
theorem C218_negative {E m : Nat} (hE : E < 2 ^ 11) (hm : m < 2 ^ 52) : doubleToFrac (bits true E m) = .bad := by
  obtain ⟨h1, h2⟩ := fields hE hm true
  have hneg : bits true E m < 0 := by
    unfold bits; simp only [Int.reducePow, Nat.reducePow, if_true] at *; omega
  unfold doubleToFrac
  rw [if_neg (by omega), h1]
  simp only [if_true]
  rw [if_pos (by omega)]

/-- **C218 (range)**: the same for every positive one outside of that range. -/
theorem C218_range {E m : Nat} (hE : E < 2 ^ 11) (hm : m < 2 ^ 52) (h0 : 0 < E ∨ 0 < m) (hr : E < 1013 ∨ 1075 < E) :
    doubleToFrac (bits false E m) = .bad := by
  obtain ⟨h1, h2⟩ := fields hE hm false
  have hpos : 0 < bits false E m := by
    unfold bits; simp only [Int.reducePow, Bool.false_eq_true, if_false]; omega
  unfold doubleToFrac
  rw [if_neg (by omega), h1]
  simp only [Bool.false_eq_true, if_false]
  rw [if_pos (by omega)]

/-- **C218 (zero)**: zero gives 0/1. -/
theorem C218_zero : doubleToFrac (bits false 0 0) = .ok (0, 1) := by
  have : bits false 0 0 = 0 := by decide
  rw [this, doubleToFrac, if_pos rfl]

/-- Every finite double gives a fraction. -/
def EveryDouble : Prop := ∀ (neg : Bool) (E m : Nat), E < 2047 → m < 2 ^ 52 → ∃ r, doubleToFrac (bits neg E m) = .ok r

/-- **C218 counterexample**: -1.0. -/
theorem C218_counterexample : ¬ EveryDouble := by
  intro h
  obtain ⟨r, hr⟩ := h true 1023 0 (by omega) (by decide)
  rw [C218_negative (by decide) (by decide)] at hr
  cases hr

/-- 1.5 is 3/2: the bits are 0x3FF8000000000000. -/
example : bits false 1023 (2 ^ 51) = 0x3FF8000000000000 ∧
    ∃ p q : Int, doubleToFrac (bits false 1023 (2 ^ 51)) = .ok (p, q) ∧ 0 < q ∧ p * (2 ^ (1075 - 1023) : Nat) = (2 ^ 52 + 2 ^ 51 : Nat) * q :=
  ⟨by decide, C218_exact_partial (by decide) (by decide) (by decide) 3 2 (by decide) (by decide) (by decide) (by decide)⟩
/-- A third: 0x3FD5555555555555. -/
example : ∃ p q : Int, doubleToFrac (bits false 1021 0x5555555555555) = .ok (p, q) ∧
    (p * (2 ^ (1075 - 1021) : Nat) - (2 ^ 52 + 0x5555555555555 : Nat) * q).natAbs * 2 ^ 30 ≤ q.natAbs * 2 ^ (1075 - 1021) :=
  C218_close_partial (by decide) (by decide) (by decide)

end Verif.Props.DoubleFrac
