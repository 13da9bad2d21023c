import Verif.Core.Frac
import Verif.Props.Scanf
/-!
Property theorems C200 to C202: fractions, numbers in text, and fractions as text.
-/
namespace Verif.Frac
open Verif Verif.Mkv Verif.Scanf

/-! ### Euclid -/

theorem euclid_ordered : ∀ (k a b : Nat), a ≤ b → a * b < 2 ^ k → euclid (k + 1) a b = some (if b = 0 then 0 else Nat.gcd a b)
  | 0, a, b, h, hp => by
    rw [euclid]
    have hz : a * b = 0 := by omega
    rcases Nat.mul_eq_zero.1 hz with e | e
    · subst e; simp
    · subst e; simp
  | k + 1, a, b, h, hp => by
    rw [euclid]
    by_cases ha : a = 0
    · subst ha; simp
    · rw [if_pos (by omega), if_neg (by omega)]
      have h2 : 2 * (b % a) ≤ b := by
        have e := Nat.div_add_mod b a
        have hq : 1 ≤ b / a := (Nat.one_le_div_iff (by omega)).2 h
        have hm := Nat.mod_lt b (show 0 < a by omega)
        have : a * 1 ≤ a * (b / a) := Nat.mul_le_mul_left _ hq
        omega
      have h3 : 2 * ((b % a) * a) ≤ a * b := by
        have := Nat.mul_le_mul_right a h2
        rw [Nat.mul_assoc] at this
        rw [Nat.mul_comm a b]; exact this
      have hm := Nat.mod_lt b (show 0 < a by omega)
      rw [Nat.pow_succ] at hp
      rw [euclid_ordered k (b % a) a (by omega) (by omega), if_neg ha, ← Nat.gcd_rec]

/-- 128 rounds are enough for numbers below 2^63. -/
theorem euclid_gcd (a b : Nat) (ha : a < 2 ^ 63) (hb : b < 2 ^ 63) : euclid 128 a b = some (if b = 0 then 0 else Nat.gcd a b) := by
  have hp : a * b < 2 ^ 126 := by
    have h1 : a * b ≤ (2 ^ 63 - 1) * (2 ^ 63 - 1) := Nat.mul_le_mul (by omega) (by omega)
    have h2 : (2 ^ 63 - 1) * (2 ^ 63 - 1) < 2 ^ 126 := by decide
    omega
  by_cases h : a ≤ b
  · exact euclid_ordered 127 a b h (by have : 2 ^ 126 < 2 ^ 127 := by decide
                                       omega)
  · show euclid (127 + 1) a b = _
    rw [euclid]
    by_cases hb0 : b = 0
    · subst hb0; simp
    · rw [if_pos (by omega), Nat.mod_eq_of_lt (by omega), if_neg hb0,
        euclid_ordered 126 b a (by omega) (by rw [Nat.mul_comm]; exact hp), if_neg (by omega), Nat.gcd_comm]

theorem shrink_eq : ∀ (k n d : Nat), n < 2 ^ (31 + k) → d < 2 ^ (31 + k) →
    ∃ j, shrink k n d = (n / 2 ^ j, d / 2 ^ j) ∧ n / 2 ^ j ≤ intMax ∧ d / 2 ^ j ≤ intMax ∧
      (j = 0 ∨ 2 ^ 30 ≤ n / 2 ^ j ∨ 2 ^ 30 ≤ d / 2 ^ j)
  | 0, n, d, hn, hd => ⟨0, by simp [shrink], by simp [intMax] at *; omega, by simp [intMax] at *; omega, Or.inl rfl⟩
  | k + 1, n, d, hn, hd => by
    rw [shrink]
    split
    · rename_i hbig
      rw [show 31 + (k + 1) = (31 + k) + 1 by omega, Nat.pow_succ] at hn hd
      obtain ⟨j, e, h1, h2, h3⟩ := shrink_eq k (n / 2) (d / 2) (by omega) (by omega)
      refine ⟨j + 1, ?_, ?_, ?_, ?_⟩
      · rw [e, Nat.pow_succ, Nat.mul_comm, ← Nat.div_div_eq_div_mul, ← Nat.div_div_eq_div_mul]
      · rw [Nat.pow_succ, Nat.mul_comm, ← Nat.div_div_eq_div_mul]; exact h1
      · rw [Nat.pow_succ, Nat.mul_comm, ← Nat.div_div_eq_div_mul]; exact h2
      · right
        rw [show 2 ^ (j + 1) = 2 * 2 ^ j by rw [Nat.pow_succ, Nat.mul_comm], ← Nat.div_div_eq_div_mul, ← Nat.div_div_eq_div_mul]
        rcases h3 with rfl | h3
        · simp only [intMax] at *
          simp only [Nat.reducePow, Nat.pow_zero, Nat.div_one] at *
          omega
        · exact h3
    · rename_i hbig
      exact ⟨0, by simp, by simp; omega, by simp; omega, Or.inl rfl⟩

/-- The sizes of the result: the reduced fraction, both parts divided by one power of two. -/
theorem simplify_eq (num den : Int) (hn : num.natAbs < 2 ^ 63) (hd : den.natAbs < 2 ^ 63) :
    ∃ g j : Nat, 1 ≤ g ∧ g ∣ num.natAbs ∧ g ∣ den.natAbs ∧
      simplify num den = .ok (if (decide (num < 0) != decide (den < 0)) = true then -((num.natAbs / g / 2 ^ j : Nat) : Int)
        else ((num.natAbs / g / 2 ^ j : Nat) : Int), ((den.natAbs / g / 2 ^ j : Nat) : Int)) ∧
      num.natAbs / g / 2 ^ j ≤ intMax ∧ den.natAbs / g / 2 ^ j ≤ intMax ∧
      (j = 0 ∨ ((den ≠ 0 → g = Nat.gcd num.natAbs den.natAbs) ∧
        (2 ^ 30 ≤ num.natAbs / g / 2 ^ j ∨ 2 ^ 30 ≤ den.natAbs / g / 2 ^ j))) := by
  have hne : ¬ (num = -2 ^ 63 ∨ den = -2 ^ 63) := by
    simp only [Nat.reducePow, Int.reducePow] at *; omega
  unfold simplify
  rw [if_neg hne]
  simp only
  by_cases hbig : num.natAbs > intMax ∨ den.natAbs > intMax
  · rw [if_pos hbig, euclid_gcd _ _ hn hd]
    simp only
    have hone : ∀ g : Nat, 1 ≤ g → num.natAbs / g < 2 ^ (31 + 64) ∧ den.natAbs / g < 2 ^ (31 + 64) := by
      intro g hg
      have h1 := Nat.div_le_self num.natAbs g
      have h2 := Nat.div_le_self den.natAbs g
      simp only [Nat.reducePow, Nat.reduceAdd] at *
      omega
    by_cases hd0 : den.natAbs = 0
    · rw [if_pos hd0]
      simp only [show ¬ (0 > 1) by omega, if_false]
      obtain ⟨j, e, h1, h2, h3⟩ := shrink_eq 64 (num.natAbs / 1) (den.natAbs / 1) (hone 1 (by omega)).1 (hone 1 (by omega)).2
      refine ⟨1, j, by omega, by simp, by simp, by rw [e], h1, h2, ?_⟩
      rcases h3 with h3 | h3
      · exact Or.inl h3
      · exact Or.inr ⟨fun h => absurd hd0 (by omega), h3⟩
    · rw [if_neg hd0]
      have hg : 0 < Nat.gcd num.natAbs den.natAbs := Nat.gcd_pos_of_pos_right _ (by omega)
      have e1 : (if Nat.gcd num.natAbs den.natAbs > 1 then Nat.gcd num.natAbs den.natAbs else 1) = Nat.gcd num.natAbs den.natAbs := by
        split <;> omega
      rw [e1]
      obtain ⟨j, e, h1, h2, h3⟩ := shrink_eq 64 (num.natAbs / Nat.gcd num.natAbs den.natAbs) (den.natAbs / Nat.gcd num.natAbs den.natAbs)
        (hone _ hg).1 (hone _ hg).2
      refine ⟨_, j, hg, Nat.gcd_dvd_left _ _, Nat.gcd_dvd_right _ _, by rw [e], h1, h2, ?_⟩
      rcases h3 with h3 | h3
      · exact Or.inl h3
      · exact Or.inr ⟨fun _ => rfl, h3⟩
  · rw [if_neg hbig]
    refine ⟨1, 0, by omega, by simp, by simp, by simp, by simp; omega, by simp; omega, Or.inl rfl⟩

/-- The sign of the result, with the sizes apart. -/
theorem cross (num den : Int) (p q : Nat) :
    ((if (decide (num < 0) != decide (den < 0)) = true then -(p : Int) else p) * den - num * q).natAbs =
      ((p * den.natAbs : Nat) - (num.natAbs * q : Nat) : Int).natAbs := by
  rcases Int.natAbs_eq num with hn | hn <;> rcases Int.natAbs_eq den with hd | hd
  · have h1 : ¬ num < 0 := by omega
    have h2 : ¬ den < 0 := by omega
    rw [hn, hd] at *
    simp only [h1, h2, decide_false, bne_self_eq_false, Bool.false_eq_true, if_false, Int.natAbs_natCast, Int.natCast_mul]
  · have h1 : ¬ num < 0 := by omega
    by_cases h2 : den < 0
    · rw [hn, hd] at *
      simp only [h1, h2, decide_false, decide_true, Bool.false_bne, if_true, Int.natAbs_natCast, Int.natAbs_neg, Int.natCast_mul, Int.neg_mul_neg]
    · have e : den.natAbs = 0 := by omega
      have e' : den = 0 := by omega
      subst e'
      simp [Int.natAbs_mul]
  · have h2 : ¬ den < 0 := by omega
    by_cases h1 : num < 0
    · rw [hn, hd] at *
      simp only [h1, h2, decide_false, decide_true, Bool.bne_false, if_true, Int.natAbs_natCast, Int.natAbs_neg, Int.natCast_mul]
      rw [Int.neg_mul, Int.neg_mul, ← Int.natAbs_neg]
      congr 1; omega
    · have e' : num = 0 := by omega
      subst e'
      simp only [show ¬ ((0 : Int) < 0) by omega, h2, decide_false, bne_self_eq_false, Bool.false_eq_true, if_false]
      rw [hd]
      simp [Int.natAbs_mul]
  · by_cases h1 : num < 0
    · by_cases h2 : den < 0
      · rw [hn, hd] at *
        simp only [h1, h2, decide_true, bne_self_eq_false, Bool.false_eq_true, if_false, Int.natAbs_natCast, Int.natAbs_neg, Int.natCast_mul]
        rw [Int.neg_mul, Int.mul_neg, ← Int.natAbs_neg]
        congr 1; omega
      · have e' : den = 0 := by omega
        subst e'
        simp [Int.natAbs_mul]
    · have e' : num = 0 := by omega
      subst e'
      simp [Int.natAbs_mul]
      split <;> simp

theorem errBound (n d p q r s j : Nat) (hn : n = p * 2 ^ j + r) (hd : d = q * 2 ^ j + s) (hr : r < 2 ^ j) (hs : s < 2 ^ j)
    (hle : n ≤ d) (hj : j = 0 ∨ 2 ^ 30 ≤ p ∨ 2 ^ 30 ≤ q) :
    ((p * d : Nat) - (n * q : Nat) : Int).natAbs * 2 ^ 30 ≤ q * d := by
  have e : ((p * d : Nat) - (n * q : Nat) : Int) = ((p * s : Nat) : Int) - (r * q : Nat) := by
    have h1 : p * d = p * (q * 2 ^ j) + p * s := by rw [hd, Nat.mul_add]
    have h2 : n * q = p * (q * 2 ^ j) + r * q := by
      rw [hn, Nat.add_mul, Nat.mul_assoc, Nat.mul_comm (2 ^ j) q]
    rw [h1, h2]; omega
  rw [e]
  rcases hj with rfl | hj
  · have : r = 0 := by simp at hr; exact hr
    have : s = 0 := by simp at hs; exact hs
    subst_vars
    simp
  · have hpq : p ≤ q := by
      apply Classical.byContradiction
      intro hc
      have : (q + 1) * 2 ^ j ≤ p * 2 ^ j := Nat.mul_le_mul_right _ (by omega)
      rw [Nat.add_mul] at this
      omega
    have h1 : p * s ≤ q * 2 ^ j := Nat.mul_le_mul hpq (by omega)
    have h2 : r * q ≤ q * 2 ^ j := by rw [Nat.mul_comm]; exact Nat.mul_le_mul_left _ (by omega)
    have h3 : (((p * s : Nat) : Int) - (r * q : Nat)).natAbs ≤ q * 2 ^ j := by omega
    calc _ ≤ q * 2 ^ j * 2 ^ 30 := Nat.mul_le_mul_right _ h3
      _ ≤ q * 2 ^ j * q := Nat.mul_le_mul_left _ (by omega)
      _ = q * (q * 2 ^ j) := by rw [Nat.mul_comm]
      _ ≤ q * d := Nat.mul_le_mul_left _ (by omega)

/-- C200. The result always fits: both parts are at most `INT_MAX` in size and the denominator is not negative. -/
theorem C200_fits (num den : Int) (hn : num.natAbs < 2 ^ 63) (hd : den.natAbs < 2 ^ 63) :
    ∃ p q : Int, simplify num den = .ok (p, q) ∧ p.natAbs < 2 ^ 31 ∧ 0 ≤ q ∧ q < 2 ^ 31 := by
  obtain ⟨g, j, _, _, _, e, h1, h2, _⟩ := simplify_eq num den hn hd
  generalize num.natAbs / g / 2 ^ j = a at *
  generalize den.natAbs / g / 2 ^ j = b at *
  refine ⟨_, _, e, ?_, by omega, ?_⟩
  · simp only [intMax, Nat.reducePow] at *
    split
    · rw [Int.natAbs_neg, Int.natAbs_natCast]; omega
    · rw [Int.natAbs_natCast]; omega
  · simp only [intMax, Nat.reducePow, Int.reducePow] at *; omega

/-- C200. A fraction that has a representation in two `int`s keeps its value. -/
theorem C200_exact (num den : Int) (hn : num.natAbs < 2 ^ 63) (hd : den.natAbs < 2 ^ 63) (hd0 : den ≠ 0)
    (p' q' : Int) (hp : p'.natAbs < 2 ^ 31) (hq : q'.natAbs < 2 ^ 31) (hq0 : q' ≠ 0) (he : p' * den = num * q') :
    ∃ p q : Int, simplify num den = .ok (p, q) ∧ 0 < q ∧ p * den = num * q := by
  obtain ⟨g, j, hg, hgn, hgd, e, h1, h2, h3⟩ := simplify_eq num den hn hd
  have hD : 0 < den.natAbs := by omega
  have hj : j = 0 := by
    rcases h3 with h3 | ⟨h3, h4⟩
    · exact h3
    · have h3 := h3 hd0
      -- the reduced parts divide those of the other representation
      have hN : p'.natAbs * den.natAbs = num.natAbs * q'.natAbs := by
        rw [← Int.natAbs_mul, ← Int.natAbs_mul, he]
      obtain ⟨n1, hn1⟩ := hgn
      obtain ⟨d1, hd1⟩ := hgd
      have e1 : num.natAbs / g = n1 := by rw [hn1]; exact Nat.mul_div_cancel_left _ hg
      have e2 : den.natAbs / g = d1 := by rw [hd1]; exact Nat.mul_div_cancel_left _ hg
      rw [e1, e2] at h4
      have hc : Nat.Coprime n1 d1 := by
        have := Nat.coprime_div_gcd_div_gcd (m := num.natAbs) (n := den.natAbs) (by rw [← h3]; exact hg)
        rw [← h3, e1, e2] at this
        exact this
      have hN' : p'.natAbs * d1 = n1 * q'.natAbs := by
        have : g * (p'.natAbs * d1) = g * (n1 * q'.natAbs) := by
          rw [← Nat.mul_assoc, ← Nat.mul_assoc, ← hn1, Nat.mul_comm g, Nat.mul_assoc, ← hd1]; exact hN
        exact Nat.eq_of_mul_eq_mul_left hg this
      have hdq : d1 ∣ q'.natAbs := hc.symm.dvd_of_dvd_mul_left (by rw [← hN']; exact Nat.dvd_mul_left _ _)
      have hdl : d1 ≤ q'.natAbs := Nat.le_of_dvd (by omega) hdq
      have hnp : n1 ∣ p'.natAbs := hc.dvd_of_dvd_mul_right (by rw [hN']; exact Nat.dvd_mul_right _ _)
      have hnl : n1 = 0 ∨ n1 ≤ p'.natAbs := by
        by_cases hz : p'.natAbs = 0
        · left
          rw [hz, Nat.zero_mul] at hN'
          have := Nat.mul_eq_zero.1 hN'.symm
          omega
        · right; exact Nat.le_of_dvd (by omega) hnp
      apply Classical.byContradiction
      intro hj
      have hp2 : 2 ≤ 2 ^ j := by
        have := Nat.pow_le_pow_right (n := 2) (by omega) (show 1 ≤ j by omega)
        simpa using this
      have a1 : n1 / 2 ^ j ≤ n1 / 2 := Nat.div_le_div_left hp2 (by omega)
      have a2 : d1 / 2 ^ j ≤ d1 / 2 := Nat.div_le_div_left hp2 (by omega)
      simp only [Nat.reducePow] at *
      omega
  subst hj
  simp only [Nat.pow_zero, Nat.div_one] at e
  refine ⟨_, _, e, ?_, ?_⟩
  · have : 0 < den.natAbs / g := Nat.div_pos (Nat.le_of_dvd hD hgd) hg
    omega
  · have h := cross num den (num.natAbs / g) (den.natAbs / g)
    have hz : num.natAbs / g * den.natAbs = num.natAbs * (den.natAbs / g) := by
      obtain ⟨n1, hn1⟩ := hgn
      obtain ⟨d1, hd1⟩ := hgd
      rw [hn1, hd1, Nat.mul_div_cancel_left _ hg, Nat.mul_div_cancel_left _ hg]
      rw [← Nat.mul_assoc, Nat.mul_comm n1 g]
    rw [hz] at h
    simp only [Int.sub_self, Int.natAbs_zero] at h
    have := Int.natAbs_eq_zero.1 h
    omega

/-- What `simplify` does to the sizes, without signs. -/
theorem simplify_parts (num den : Int) (hn : num.natAbs < 2 ^ 63) (hd : den.natAbs < 2 ^ 63) :
    ∃ g n1 d1 j : Nat, 1 ≤ g ∧ num.natAbs = g * n1 ∧ den.natAbs = g * d1 ∧
      simplify num den = .ok (if (decide (num < 0) != decide (den < 0)) = true then -((n1 / 2 ^ j : Nat) : Int)
        else ((n1 / 2 ^ j : Nat) : Int), ((d1 / 2 ^ j : Nat) : Int)) ∧
      (j = 0 ∨ 2 ^ 30 ≤ n1 / 2 ^ j ∨ 2 ^ 30 ≤ d1 / 2 ^ j) := by
  obtain ⟨g, j, hg, hgn, hgd, e, h1, h2, h3⟩ := simplify_eq num den hn hd
  obtain ⟨n1, hn1⟩ := hgn
  obtain ⟨d1, hd1⟩ := hgd
  have e1 : num.natAbs / g = n1 := by rw [hn1]; exact Nat.mul_div_cancel_left _ hg
  have e2 : den.natAbs / g = d1 := by rw [hd1]; exact Nat.mul_div_cancel_left _ hg
  rw [e1, e2] at e h3
  refine ⟨g, n1, d1, j, hg, hn1, hd1, e, ?_⟩
  rcases h3 with h3 | ⟨_, h3⟩
  · exact Or.inl h3
  · exact Or.inr h3

theorem scaled (g n1 d1 p q : Nat) : ((p * (g * d1) : Nat) - (g * n1 * q : Nat) : Int).natAbs =
    g * ((p * d1 : Nat) - (n1 * q : Nat) : Int).natAbs := by
  have c1 : ((p * (g * d1) : Nat) - (g * n1 * q : Nat) : Int) = (g : Int) * ((p * d1 : Nat) - (n1 * q : Nat) : Int) := by
    rw [Int.mul_sub, ← Int.natCast_mul, ← Int.natCast_mul]
    congr 2
    · rw [Nat.mul_left_comm]
    · rw [Nat.mul_assoc]
  rw [c1, Int.natAbs_mul, Int.natAbs_natCast]

/-- C200. In any case a fraction of size at most one is off by at most 2^-30. -/
theorem C200_close (num den : Int) (hn : num.natAbs < 2 ^ 63) (hd : den.natAbs < 2 ^ 63) (hle : num.natAbs ≤ den.natAbs) :
    ∃ p q : Int, simplify num den = .ok (p, q) ∧ (p * den - num * q).natAbs * 2 ^ 30 ≤ q.natAbs * den.natAbs := by
  obtain ⟨g, n1, d1, j, hg, hn1, hd1, e, h3⟩ := simplify_parts num den hn hd
  refine ⟨_, _, e, ?_⟩
  have hj : 0 < 2 ^ j := Nat.two_pow_pos j
  have b := errBound n1 d1 (n1 / 2 ^ j) (d1 / 2 ^ j) (n1 % 2 ^ j) (d1 % 2 ^ j) j
    (by rw [Nat.mul_comm]; exact (Nat.div_add_mod _ _).symm) (by rw [Nat.mul_comm]; exact (Nat.div_add_mod _ _).symm)
    (Nat.mod_lt _ hj) (Nat.mod_lt _ hj)
    (by rw [hn1, hd1] at hle; exact Nat.le_of_mul_le_mul_left hle hg) h3
  have b' := Nat.mul_le_mul_left g b
  rw [cross, hn1, hd1, scaled, Nat.mul_assoc]
  refine Nat.le_trans b' (Nat.le_of_eq ?_)
  rw [Int.natAbs_natCast, Nat.mul_left_comm]

/-- C200. And so is the inverse of a fraction of size at least one. -/
theorem C200_close_inverse (num den : Int) (hn : num.natAbs < 2 ^ 63) (hd : den.natAbs < 2 ^ 63) (hle : den.natAbs ≤ num.natAbs) :
    ∃ p q : Int, simplify num den = .ok (p, q) ∧ (p * den - num * q).natAbs * 2 ^ 30 ≤ p.natAbs * num.natAbs := by
  obtain ⟨g, n1, d1, j, hg, hn1, hd1, e, h3⟩ := simplify_parts num den hn hd
  refine ⟨_, _, e, ?_⟩
  have hj : 0 < 2 ^ j := Nat.two_pow_pos j
  have b := errBound d1 n1 (d1 / 2 ^ j) (n1 / 2 ^ j) (d1 % 2 ^ j) (n1 % 2 ^ j) j
    (by rw [Nat.mul_comm]; exact (Nat.div_add_mod _ _).symm) (by rw [Nat.mul_comm]; exact (Nat.div_add_mod _ _).symm)
    (Nat.mod_lt _ hj) (Nat.mod_lt _ hj)
    (by rw [hn1, hd1] at hle; exact Nat.le_of_mul_le_mul_left hle hg) (h3.imp id Or.symm)
  have b' := Nat.mul_le_mul_left g b
  rw [cross, hn1, hd1, scaled, Nat.mul_assoc]
  have e1 : ((n1 / 2 ^ j * d1 : Nat) - (n1 * (d1 / 2 ^ j) : Nat) : Int).natAbs = ((d1 / 2 ^ j * n1 : Nat) - (d1 * (n1 / 2 ^ j) : Nat) : Int).natAbs := by
    rw [← Int.natAbs_neg, Int.neg_sub, Nat.mul_comm n1, Nat.mul_comm d1]
  rw [e1]
  have e2 : (if (decide (num < 0) != decide (den < 0)) = true then -((n1 / 2 ^ j : Nat) : Int) else ((n1 / 2 ^ j : Nat) : Int)).natAbs = n1 / 2 ^ j := by
    split
    · rw [Int.natAbs_neg, Int.natAbs_natCast]
    · rw [Int.natAbs_natCast]
  rw [e2]
  refine Nat.le_trans b' (Nat.le_of_eq ?_)
  rw [Nat.mul_left_comm]

/-- C200. Large numbers lose their denominator: 2^32 becomes 2^30/0. And the lowest number of 64 bits is undefined behaviour. -/
theorem C200_counterexample : simplify (2 ^ 32) 1 = .ok (2 ^ 30, 0) ∧ simplify (-2 ^ 63) 1 = .bad := by decide +kernel

/-- 2 500 000 000 / 1 000 000 000 has a common divisor and fits once it is divided by it; one third scaled by 2^40 + 1 as well;
two coprime numbers of 40 bits are cut. -/
example : simplify 2500000000 1000000000 = .ok (5, 2) ∧ simplify (-(2 ^ 40 + 1)) (3 * (2 ^ 40 + 1)) = .ok (-1, 3) ∧
    simplify (2 ^ 40 + 1) (2 ^ 41 + 1) = .ok (2 ^ 29, 2 ^ 30) := by decide +kernel

/-! ### Numbers in text -/

/-- No sign, `+` or `-`. -/
def signText : Option Bool → Str
  | none => []
  | some false => lit "+"
  | some true => lit "-"

/-- A number with its sign. -/
def withSign (g : Option Bool) (n : Nat) : Int := if g = some true then -(n : Int) else n

theorem takeSign_text (g : Option Bool) (c : Nat) (t : Str) (h1 : c ≠ 0x2D) (h2 : c ≠ 0x2B) :
    takeSign (signText g ++ c :: t) = (g == some true, c :: t) := by
  rcases g with _ | _ | _
  · show takeSign (c :: t) = _
    simp [takeSign, h1, h2]
  · rfl
  · rfl

theorem neg_i64 (g : Option Bool) (n : Nat) (h : n < 2 ^ 63) :
    (if (g == some true) = true then i64 (-(n : Int)) else Out.ok (n : Int)) = .ok (withSign g n) := by
  rcases g with _ | _ | _
  · rfl
  · rfl
  · show i64 (-(n : Int)) = .ok (-(n : Int))
    unfold i64
    simp only [Nat.reducePow, Int.reducePow] at *
    rw [if_pos (by omega)]

theorem digit_char (d : Nat) (h : d < 10) : digit (d + 48) = some d ∧ d + 48 ≠ 0x2D ∧ d + 48 ≠ 0x2B :=
  ⟨digit_decimal d h, by omega, by omega⟩

/-- C201. A number in text: an optional sign, digits, and anything behind them that is no digit. It is read with its value, up to 2^63 in size,
and the text behind it remains; larger ones are undefined behaviour. -/
theorem C201_integer (g : Option Bool) (ds rest : Str) (h0 : ds ≠ []) (hd : ∀ d ∈ ds, d < 10)
    (hr : ∀ c, rest.head? = some c → digit c = none) :
    exprInt (signText g ++ decimal ds ++ rest) =
      if value 10 ds < 2 ^ 63 then .ok (some (withSign g (value 10 ds), rest)) else .bad := by
  cases ds with
  | nil => exact absurd rfl h0
  | cons d ds =>
    obtain ⟨e1, e2, e3⟩ := digit_char d (hd d (by simp))
    have es := takeSign_text g (d + 48) (decimal ds ++ rest) e2 e3
    have ec : signText g ++ decimal (d :: ds) ++ rest = signText g ++ (d + 48) :: (decimal ds ++ rest) := by
      simp [decimal]
    have key := number_digits 10 (by decide) digit rest (decimal (d :: ds)) (d :: ds) (-1) 0 (decimal_val _ hd) (Or.inl (by omega))
      (fun c hc => Or.inl (hr c hc)) (by decide)
    rw [show decimal (d :: ds) ++ rest = (d + 48) :: (decimal ds ++ rest) by simp [decimal]] at key
    unfold exprInt
    rw [ec, es]
    simp only [List.head?_cons, Option.bind_some, e1]
    rw [if_neg (by simp)]
    have key' : number 10 digit ((d + 48) :: (decimal ds ++ rest)) (-1) 0 =
      if value 10 (d :: ds) < 2 ^ 63 then .ok ((value 10 (d :: ds) : Nat), rest) else .bad := key
    rw [key']
    by_cases hv : value 10 (d :: ds) < 2 ^ 63
    · rw [if_pos hv, if_pos hv]
      show (if (g == some true) = true then i64 (-((value 10 (d :: ds) : Nat) : Int)) else Out.ok ((value 10 (d :: ds) : Nat) : Int)).bind _ = _
      rw [neg_i64 g _ hv]
      rfl
    · rw [if_neg hv, if_neg hv]
      rfl

theorem digits_split : ∀ t : Str, ∃ ds rest, t = decimal ds ++ rest ∧ (∀ d ∈ ds, d < 10) ∧ ∀ c, rest.head? = some c → digit c = none
  | [] => ⟨[], [], rfl, by simp, by simp⟩
  | c :: t => by
    by_cases h : digit c = none
    · exact ⟨[], c :: t, rfl, by simp, by intro x hx; simp at hx; subst hx; exact h⟩
    · obtain ⟨ds, rest, e, h1, h2⟩ := digits_split t
      have hc : 48 ≤ c ∧ c ≤ 57 := by
        unfold digit at h
        split at h
        · assumption
        · exact absurd rfl h
      refine ⟨(c - 48) :: ds, rest, ?_, ?_, h2⟩
      · rw [e]; simp only [decimal, List.map_cons, List.cons_append]; congr 1; omega
      · intro d hd
        rcases List.mem_cons.1 hd with rfl | hd
        · omega
        · exact h1 d hd

/-- C201. Any other text is no number: nothing is read. -/
theorem C201_no_integer (s : Str) : exprInt s = .ok none ∨
    ∃ g ds rest, s = signText g ++ decimal ds ++ rest ∧ ds ≠ [] ∧ (∀ d ∈ ds, d < 10) ∧ ∀ c, rest.head? = some c → digit c = none := by
  by_cases h : (takeSign s).2.head?.bind digit = none
  · left
    unfold exprInt
    simp only [h, if_true]
  · right
    obtain ⟨ds, rest, e, h1, h2⟩ := digits_split (takeSign s).2
    have hne : ds ≠ [] := by
      intro hc
      subst hc
      rw [e] at h
      cases rest with
      | nil => exact h rfl
      | cons c r => exact h (h2 c rfl)
    have hs : ∃ g, s = signText g ++ (takeSign s).2 := by
      cases s with
      | nil => exact ⟨none, rfl⟩
      | cons c t =>
        by_cases hm : c = 0x2D
        · subst hm; exact ⟨some true, rfl⟩
        · by_cases hp : c = 0x2B
          · subst hp; exact ⟨some false, rfl⟩
          · exact ⟨none, by simp [takeSign, hm, hp, signText]⟩
    obtain ⟨g, hg⟩ := hs
    exact ⟨g, ds, rest, by rw [List.append_assoc, ← e]; exact hg, hne, h1, h2⟩

theorem exLoop_digits (rest : Str) : ∀ (ds : Str) (size : Int) (v : Nat), ds ≠ [] → (∀ d ∈ ds, d < 10) →
    ((ds.length : Int) = size ∨ (ds.length : Int) < size ∧ ∀ c, rest.head? = some c → digit c = none) → v < 2 ^ 63 →
    exLoop (decimal ds ++ rest) size v =
      if ds.foldl (fun a d => a * 10 + d) v < 2 ^ 63 then .ok ((ds.foldl (fun a d => a * 10 + d) v : Nat), size - ds.length, rest) else .bad
  | [], _, _, h, _, _, _ => absurd rfl h
  | d :: ds, size, v, _, hd, hs, hv => by
    have hd1 := hd d (by simp)
    have hmono := foldl_le 10 (by decide) ds (v * 10 + d)
    have e0 : decimal (d :: ds) ++ rest = (d + 48) :: (decimal ds ++ rest) := by simp [decimal]
    rw [e0, exLoop, List.foldl_cons]
    have e1 : ((v : Int) * 10) = ((v * 10 : Nat) : Int) := by simp
    have e2 : (((v * 10 : Nat) : Int) + (((d + 48 : Nat) : Int) - 48)) = ((v * 10 + d : Nat) : Int) := by omega
    rw [e1, i64_nat]
    by_cases h1 : v * 10 + d < 2 ^ 63
    · rw [if_pos (by omega), bind_ok, e2, i64_nat, if_pos h1, bind_ok]
      cases ds with
      | nil =>
        rw [if_pos (show List.foldl (fun a d => a * 10 + d) (v * 10 + d) [] < 2 ^ 63 from h1), if_neg]
        · rfl
        · rintro ⟨h2, h3⟩
          simp only [decimal, List.map_nil, List.nil_append, List.length_singleton] at h3 hs
          rcases hs with hs | ⟨_, hs⟩
          · exact h2 (by omega)
          · cases rest with
            | nil => simp at h3
            | cons c r => simp [hs c rfl] at h3
      | cons d2 ds =>
        have hd2 := (digit_char d2 (hd d2 (by simp))).1
        rw [if_pos]
        · rw [exLoop_digits rest (d2 :: ds) (size - 1) (v * 10 + d) (by simp) (fun x hx => hd x (by simp [hx])) ?_ h1]
          · split
            · congr 3
              simp only [List.length_cons]; omega
            · rfl
          · simp only [List.length_cons] at hs ⊢
            rcases hs with hs | ⟨hs, hs'⟩
            · left; omega
            · right; exact ⟨by omega, hs'⟩
        · simp only [decimal, List.map_cons, List.cons_append, List.head?_cons, Option.bind_some, hd2, Option.isSome_some, and_true]
          simp only [List.length_cons] at hs
          omega
    · have h2 : ¬ ds.foldl (fun a d => a * 10 + d) (v * 10 + d) < 2 ^ 63 := by omega
      rw [if_neg h2]
      by_cases h3 : v * 10 < 2 ^ 63
      · rw [if_pos h3, bind_ok, e2, i64_nat, if_neg h1]; rfl
      · rw [if_neg h3]; rfl

/-- C201. A number of fixed length: exactly that many digits are read whatever follows them, so that numbers may stand next to each other; with
fewer digits nothing is read. -/
theorem C201_fixed_length (g : Option Bool) (ds rest : Str) (size : Int) (h0 : ds ≠ []) (hd : ∀ d ∈ ds, d < 10) (hv : value 10 ds < 2 ^ 63) :
    (size = ds.length → exprIntEx (signText g ++ decimal ds ++ rest) size = .ok (some (withSign g (value 10 ds), rest))) ∧
    (ds.length < size → (∀ c, rest.head? = some c → digit c = none) → exprIntEx (signText g ++ decimal ds ++ rest) size = .ok none) := by
  have key : ((ds.length : Int) = size ∨ (ds.length : Int) < size ∧ ∀ c, rest.head? = some c → digit c = none) →
      exprIntEx (signText g ++ decimal ds ++ rest) size =
        if size - ds.length ≠ 0 then .ok none else .ok (some (withSign g (value 10 ds), rest)) := by
    intro hs
    have hl := exLoop_digits rest ds size 0 h0 hd hs (by decide)
    rw [if_pos (show ds.foldl (fun a d => a * 10 + d) 0 < 2 ^ 63 from hv)] at hl
    cases ds with
    | nil => exact absurd rfl h0
    | cons d ds =>
      obtain ⟨e1, e2, e3⟩ := digit_char d (hd d (by simp))
      have es := takeSign_text g (d + 48) (decimal ds ++ rest) e2 e3
      have ec : signText g ++ decimal (d :: ds) ++ rest = signText g ++ (d + 48) :: (decimal ds ++ rest) := by simp [decimal]
      rw [show decimal (d :: ds) ++ rest = (d + 48) :: (decimal ds ++ rest) by simp [decimal]] at hl
      unfold exprIntEx
      rw [ec, es]
      simp only [List.head?_cons, Option.bind_some, e1]
      rw [if_neg (by simp)]
      rw [show exLoop ((d + 48) :: (decimal ds ++ rest)) size 0 = _ from hl, bind_ok]
      by_cases hz : size - (d :: ds).length ≠ 0
      · exact (if_pos hz).trans (if_pos hz).symm
      · refine (if_neg hz).trans (Eq.trans ?_ (if_neg hz).symm)
        show (if (g == some true) = true then i64 (-((value 10 (d :: ds) : Nat) : Int)) else Out.ok ((value 10 (d :: ds) : Nat) : Int)).bind _ = _
        rw [neg_i64 g _ hv]
        rfl
  constructor
  · intro h
    rw [key (Or.inl h.symm), if_neg (by omega)]
  · intro h hr
    rw [key (Or.inr ⟨h, hr⟩), if_pos (by omega)]

/-- C201. A hexadecimal number: an optional sign, `0x`, digits in either case, and anything behind them that is no such digit. -/
theorem C201_hexadecimal (g : Option Bool) (cs ds rest : Str) (h0 : ds ≠ []) (hs : SpellsHex cs ds)
    (hr : ∀ c, rest.head? = some c → hex c = none) :
    exprHex (signText g ++ lit "0x" ++ cs ++ rest) =
      if value 16 ds < 2 ^ 63 then .ok (some (withSign g (value 16 ds), rest)) else .bad := by
  have ec : signText g ++ lit "0x" ++ cs ++ rest = signText g ++ 0x30 :: 0x78 :: (cs ++ rest) := by
    simp [lit]
  have es := takeSign_text g 0x30 (0x78 :: (cs ++ rest)) (by decide) (by decide)
  have key : number 16 hex (cs ++ rest) (-1) 0 = if value 16 ds < 2 ^ 63 then .ok ((value 16 ds : Nat), rest) else .bad :=
    number_digits 16 (by decide) hex rest cs ds (-1) 0 hs (Or.inl (by omega)) (fun c hc => Or.inl (hr c hc)) (by decide)
  unfold exprHex
  rw [ec, es]
  simp only
  rw [if_pos (show List.take 2 (0x30 :: 0x78 :: (cs ++ rest)) = lit "0x" from rfl)]
  have hne : ((cs ++ rest).head?.bind hex) ≠ none := by
    cases ds with
    | nil => exact absurd rfl h0
    | cons d ds =>
      cases cs with
      | nil => simp [SpellsHex] at hs
      | cons c cs =>
        simp only [SpellsHex, List.map_cons, List.cons.injEq] at hs
        simp [hs.1]
  rw [show List.drop 2 (0x30 :: 0x78 :: (cs ++ rest)) = cs ++ rest from rfl, if_neg hne, key]
  by_cases hv : value 16 ds < 2 ^ 63
  · rw [if_pos hv, if_pos hv, bind_ok]
    show (if (g == some true) = true then i64 (-((value 16 ds : Nat) : Int)) else Out.ok ((value 16 ds : Nat) : Int)).bind _ = _
    rw [neg_i64 g _ hv]
    rfl
  · rw [if_neg hv, if_neg hv]
    rfl

/-! ### Fractions in text -/

theorem decimals_digits (rest : Str) (hr : ∀ c, rest.head? = some c → digit c = none) : ∀ (ds : Str) (n d : Nat), (∀ x ∈ ds, x < 10) →
    ds.foldl (fun a x => a * 10 + x) n < 2 ^ 63 → d * 10 ^ ds.length < 2 ^ 63 →
    decimals (decimal ds ++ rest) n d = .ok ((ds.foldl (fun a x => a * 10 + x) n : Nat), (d * 10 ^ ds.length : Nat), rest)
  | [], n, d, _, _, _ => by
    cases rest with
    | nil => simp [decimal, decimals]
    | cons c r => simp [decimal, decimals, hr c rfl]
  | x :: ds, n, d, hd, hv, hp => by
    have hmono := foldl_le 10 (by decide) ds (n * 10 + x)
    rw [List.foldl_cons] at hv
    have e0 : decimal (x :: ds) ++ rest = (x + 48) :: (decimal ds ++ rest) := by simp [decimal]
    have ep : d * 10 ^ (x :: ds).length = d * 10 * 10 ^ ds.length := by
      rw [List.length_cons, Nat.pow_succ, Nat.mul_comm (10 ^ ds.length), Nat.mul_assoc]
    rw [ep] at hp
    have hp1 : d * 10 ≤ d * 10 * 10 ^ ds.length := Nat.le_mul_of_pos_right _ (Nat.pow_pos (by decide))
    have e1 : ((n : Int) * 10) = ((n * 10 : Nat) : Int) := by simp
    have e2 : (((n * 10 : Nat) : Int) + (x : Int)) = ((n * 10 + x : Nat) : Int) := by simp
    have e3 : ((d : Int) * 10) = ((d * 10 : Nat) : Int) := by simp
    rw [e0, decimals, (digit_char x (hd x (by simp))).1]
    simp only
    rw [e1, i64_nat, if_pos (by omega), bind_ok, e2, i64_nat, if_pos (by omega), bind_ok, e3, i64_nat, if_pos (by omega), bind_ok,
      decimals_digits rest hr ds (n * 10 + x) (d * 10) (fun y hy => hd y (by simp [hy])) hv hp, ep, List.foldl_cons]

/-- C201. A fraction in text: digits, a point or a comma, and decimals (perhaps none). What comes out is the quotient of the digits
without the point and the power of ten, through `SimplifyFrac`. -/
theorem C201_fraction (ip fp rest : Str) (sep : Nat) (hs : sep = 0x2E ∨ sep = 0x2C) (h0 : ip ≠ []) (hi : ∀ d ∈ ip, d < 10) (hf : ∀ d ∈ fp, d < 10)
    (hr : ∀ c, rest.head? = some c → digit c = none) (hv : value 10 (ip ++ fp) < 2 ^ 63) (hl : fp.length ≤ 18) :
    ∃ p q : Int, exprFrac (decimal ip ++ [sep] ++ decimal fp ++ rest) = .ok (some ((p, q), rest)) ∧
      simplify (value 10 (ip ++ fp)) (10 ^ fp.length) = .ok (p, q) := by
  have hsd : digit sep = none := by rcases hs with rfl | rfl <;> rfl
  have hp : 10 ^ fp.length < 2 ^ 63 := by
    have : 10 ^ fp.length ≤ 10 ^ 18 := Nat.pow_le_pow_right (by decide) hl
    have : 10 ^ 18 < 2 ^ 63 := by decide
    omega
  have hvf : fp.foldl (fun a x => a * 10 + x) (value 10 ip) = value 10 (ip ++ fp) := by simp [value]
  have hvi : value 10 ip < 2 ^ 63 := by
    have := foldl_le 10 (by decide) fp (value 10 ip)
    omega
  obtain ⟨p, q, e, _⟩ := C200_fits (value 10 (ip ++ fp)) ((10 ^ fp.length : Nat) : Int) (by rw [Int.natAbs_natCast]; exact hv)
    (by rw [Int.natAbs_natCast]; exact hp)
  refine ⟨p, q, ?_, by rw [← e]; simp⟩
  have ei := C201_integer none ip ([sep] ++ decimal fp ++ rest) h0 hi (by intro c hc; simp at hc; subst hc; exact hsd)
  rw [if_pos hvi] at ei
  have et : decimal ip ++ [sep] ++ decimal fp ++ rest = signText none ++ decimal ip ++ ([sep] ++ decimal fp ++ rest) := by
    simp [signText]
  unfold exprFrac
  rw [et, ei, bind_ok]
  simp only
  have hh : ([sep] ++ decimal fp ++ rest).head? = some 0x2E ∨ ([sep] ++ decimal fp ++ rest).head? = some 0x2C := by
    rcases hs with rfl | rfl
    · left; simp
    · right; simp
  rw [if_pos hh]
  have ed := decimals_digits rest hr fp (value 10 ip) 1 hf (by rw [hvf]; exact hv) (by rw [Nat.one_mul]; exact hp)
  rw [hvf, Nat.one_mul] at ed
  rw [show List.drop 1 ([sep] ++ decimal fp ++ rest) = decimal fp ++ rest by simp]
  rw [show decimals (decimal fp ++ rest) (withSign none (value 10 ip)) 1 = _ from ed, bind_ok]
  simp only
  rw [e, bind_ok]

/-- C201. So a fraction in text that two `int`s can represent is read exactly. -/
theorem C201_fraction_exact (ip fp rest : Str) (sep : Nat) (hs : sep = 0x2E ∨ sep = 0x2C) (h0 : ip ≠ []) (hi : ∀ d ∈ ip, d < 10)
    (hf : ∀ d ∈ fp, d < 10) (hr : ∀ c, rest.head? = some c → digit c = none) (hv : value 10 (ip ++ fp) < 2 ^ 63) (hl : fp.length ≤ 18)
    (p' q' : Int) (hp : p'.natAbs < 2 ^ 31) (hq : q'.natAbs < 2 ^ 31) (hq0 : q' ≠ 0)
    (he : p' * 10 ^ fp.length = value 10 (ip ++ fp) * q') :
    ∃ p q : Int, exprFrac (decimal ip ++ [sep] ++ decimal fp ++ rest) = .ok (some ((p, q), rest)) ∧ 0 < q ∧
      p * 10 ^ fp.length = value 10 (ip ++ fp) * q := by
  obtain ⟨p, q, e1, e2⟩ := C201_fraction ip fp rest sep hs h0 hi hf hr hv hl
  have hpw : ((10 : Int) ^ fp.length) = ((10 ^ fp.length : Nat) : Int) := by simp
  have h10 : 10 ^ fp.length < 2 ^ 63 := by
    have : 10 ^ fp.length ≤ 10 ^ 18 := Nat.pow_le_pow_right (by decide) hl
    have : 10 ^ 18 < 2 ^ 63 := by decide
    omega
  have hpos : 0 < 10 ^ fp.length := Nat.pow_pos (by decide)
  obtain ⟨p2, q2, e3, h1, h2⟩ := C200_exact (value 10 (ip ++ fp)) (10 ^ fp.length) (by rw [Int.natAbs_natCast]; exact hv)
    (by rw [hpw, Int.natAbs_natCast]; exact h10) (by rw [hpw]; omega) p' q' hp hq hq0 he
  rw [e2] at e3
  injection e3 with e3
  injection e3 with e3 e4
  subst e3; subst e4
  exact ⟨p, q, e1, h1, h2⟩

/-- C201. Without a point the fraction is the number, of either sign. -/
theorem C201_whole (g : Option Bool) (ds rest : Str) (h0 : ds ≠ []) (hd : ∀ d ∈ ds, d < 10) (hv : value 10 ds < 2 ^ 31)
    (hr : ∀ c, rest.head? = some c → digit c = none ∧ c ≠ 0x2E ∧ c ≠ 0x2C) :
    exprFrac (signText g ++ decimal ds ++ rest) = .ok (some ((withSign g (value 10 ds), 1), rest)) := by
  have hv' : value 10 ds < 2 ^ 63 := by simp only [Nat.reducePow] at *; omega
  have ei := C201_integer g ds rest h0 hd (fun c hc => (hr c hc).1)
  rw [if_pos hv'] at ei
  unfold exprFrac
  rw [ei, bind_ok]
  simp only
  have hh : ¬ (rest.head? = some 0x2E ∨ rest.head? = some 0x2C) := by
    rintro (h | h)
    · exact (hr _ h).2.1 rfl
    · exact (hr _ h).2.2 rfl
  rw [if_neg hh, bind_ok]
  simp only
  generalize value 10 ds = n at hv hv'
  have : simplify (withSign g n) 1 = .ok (withSign g n, 1) := by
    unfold simplify
    have hw : (withSign g n).natAbs = n := by
      unfold withSign; split
      · rw [Int.natAbs_neg, Int.natAbs_natCast]
      · rw [Int.natAbs_natCast]
    have hne : ¬ (withSign g n = -2 ^ 63 ∨ (1 : Int) = -2 ^ 63) := by
      simp only [Nat.reducePow, Int.reducePow] at *; omega
    rw [if_neg hne]
    simp only [hw]
    have hsm : ¬ (n > intMax ∨ Int.natAbs 1 > intMax) := by
      rw [show Int.natAbs 1 = 1 from rfl]
      simp only [intMax, Nat.reducePow] at *
      omega
    rw [if_neg hsm]
    simp only [show ¬ ((1 : Int) < 0) by omega, decide_false, Bool.bne_false]
    congr 2
    unfold withSign at *
    split
    · rename_i hg
      by_cases hn : n = 0
      · subst hn; simp
      · rw [if_pos (by simp; omega)]
    · rename_i hg
      rw [if_neg (by simp)]
  rw [this, bind_ok]

/-- C201. Decimals of negative numbers go the wrong way: `-1.5` is read as -5/10 and `-0.5` as 5/10. -/
theorem C201_negative_counterexample : exprFrac (lit "-1.5") = .ok (some ((-5, 10), [])) ∧ exprFrac (lit "-0.5") = .ok (some ((5, 10), [])) := by
  decide +kernel

/-- `2023-11` read as numbers of length four and two (the sign belongs to the second), a price, and a hexadecimal number. -/
example : exprIntEx (lit "2023-11") 4 = .ok (some (2023, lit "-11")) ∧ exprIntEx (lit "-11") 2 = .ok (some (-11, [])) ∧
    exprIntEx (lit "202311") 4 = .ok (some (2023, lit "11")) ∧ exprIntEx (lit "20x") 4 = .ok none ∧
    exprFrac (lit "12,50 EUR") = .ok (some ((1250, 100), lit " EUR")) ∧ exprHex (lit "-0xfFz") = .ok (some (-255, lit "z")) := by decide +kernel

end Verif.Frac
