import Verif.Mkvalidator.Lemmas
/-!
Lemmas about `gcd` and `CheckVideoTrack` in the model of mkvalidator.
-/
set_option linter.unusedSimpArgs false
namespace Verif.Mkvalidator
open Verif Verif.Core Verif.Mkv

theorem gcd_pos : ∀ (fuel : Nat) (a b : Nat), 0 < b → b < fuel → gcd fuel a b = .ok ((Nat.gcd a b : Nat) : Int)
  | 0, a, b, _, h => by omega
  | fuel + 1, a, b, hb, h => by
    rw [gcd, if_neg (by omega), if_neg (by omega)]
    have hc : Int.tmod (a : Int) (b : Int) = ((a % b : Nat) : Int) := by
      rw [Int.tmod_eq_emod_of_nonneg (by omega)]; rfl
    dsimp only
    rw [hc]
    by_cases h0 : a % b = 0
    · rw [if_pos (by omega)]
      rw [Nat.gcd_comm, Nat.gcd_rec, h0, Nat.gcd_zero_left]
    · rw [if_neg (by omega)]
      have hlt := Nat.mod_lt a hb
      rw [gcd_pos fuel b (a % b) (by omega) (by omega)]
      congr 2
      rw [Nat.gcd_comm b, ← Nat.gcd_rec, Nat.gcd_comm]

theorem gcd_zero (fuel : Nat) (a : Int) : gcd (fuel + 1) a 0 = .bad := by rw [gcd, if_pos rfl]

theorem mem_ite {p : Prop} [Decidable p] {e x : Ev} : e ∈ (if p then [x] else []) ↔ p ∧ e = x := by
  by_cases h : p
  · rw [if_pos h]; simp [h]
  · rw [if_neg h]; simp [h]

/-- Specification: the number of points that count against a display size: reduced to lowest terms, same proportions as
the picture, at most an eighth of it both ways (two points). -/
def points (w h pw ph : Nat) : Nat :=
  (if Nat.gcd w h = 1 then 1 else 0) + (if w * ph = h * pw then 1 else 0) + (if 8 * w ≤ pw ∧ 8 * h ≤ ph then 2 else 0)

theorem serious_eq (webm : Bool) {w h pw ph : Nat} (hw : w < 2 ^ 31) (hh : h < 2 ^ 31) (hpw : pw < 2 ^ 31) (hph : ph < 2 ^ 31) :
    serious webm w h pw ph (Nat.gcd w h : Nat) = (points w h pw ph : Int) - (if webm then 0 else 1) := by
  have hb : ∀ {a b : Nat}, a < 2 ^ 31 → b < 2 ^ 31 → s64 ((a : Int) * b) = ((a * b : Nat) : Int) := by
    intro a b ha hb
    have : a * b < 2 ^ 62 := by
      calc a * b ≤ 2 ^ 31 * b := Nat.mul_le_mul_right _ (by omega)
        _ < 2 ^ 31 * 2 ^ 31 := Nat.mul_lt_mul_of_pos_left hb (by decide)
        _ = 2 ^ 62 := by decide
    rw [← Int.natCast_mul]
    generalize a * b = x at *
    unfold s64
    simp only [Nat.reducePow, Int.reducePow] at *
    omega
  have h8 : ∀ {a : Nat}, a < 2 ^ 31 → s64 (8 * (a : Int)) = 8 * (a : Int) := by
    intro a ha
    unfold s64
    simp only [Nat.reducePow, Int.reducePow] at *
    omega
  unfold serious points
  rw [hb hw hph, hb hh hpw, h8 hw, h8 hh]
  have e1 : ((Nat.gcd w h : Nat) : Int) = 1 ↔ Nat.gcd w h = 1 := by omega
  have e2 : ((w * ph : Nat) : Int) = ((h * pw : Nat) : Int) ↔ w * ph = h * pw := by omega
  have e3 : (8 * (w : Int) ≤ pw ∧ 8 * (h : Int) ≤ ph) ↔ (8 * w ≤ pw ∧ 8 * h ≤ ph) := by omega
  simp only [e1, e2, e3]
  by_cases a : Nat.gcd w h = 1 <;> by_cases b : w * ph = h * pw <;> by_cases c : 8 * w ≤ pw ∧ 8 * h ≤ ph <;>
    simp [a, b, c]

end Verif.Mkvalidator
