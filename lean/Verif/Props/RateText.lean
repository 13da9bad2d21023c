import Verif.Core.RateText
import Verif.Props.FracText
import Verif.Props.TickText
/-!
Property C250: data rates as text.
-/
namespace Verif.Rate
open Verif Verif.Mkv Verif.Scanf

/-- The text of a number. -/
def int (v : Int) : List Nat := (if v < 0 then lit "-" else []) ++ Tick.dec v.natAbs

/-- The text of a rate of `kbit` kbit/s: as it is below 1000, otherwise in Mbit/s, rounded to two decimals. -/
def rateText (kbit : Int) : List Nat :=
  if kbit < 1000 then int kbit ++ lit " kbit/s"
  else Tick.dec ((kbit.toNat + 5) / 1000) ++ lit "." ++ Tick.two ((kbit.toNat + 5) / 10 % 100) ++ lit " Mbit/s"

/-! ### Helpers -/

theorem cat_done (n : Nat) (a t : List Nat) :
    Frac.catText n t (.done (a.take (n - 1) ++ [0])) = .done ((a ++ t).take (n - 1) ++ [0]) := by
  show Printf.O.done (((a.take (n - 1) ++ [0]).dropLast ++ t).take (n - 1) ++ [0]) = _
  rw [List.dropLast_concat, Tick.take_cut]

theorem int_text (n : Nat) (h1 : 1 ≤ n) (hn : n < 2 ^ 64) (v : Int) (hlo : -2 ^ 31 ≤ v) (hhi : v < 2 ^ 31) :
    intToString n v false = .done ((int v).take (n - 1) ++ [0]) := by
  have hp := Printf.C93_documented_text n h1 hn [.dir {} (.dec v)] (by
      intro p hp; simp at hp; subst hp; simp [Printf.Piece.WF])
    (by
      intro p hp; simp at hp; subst hp
      simp only [Printf.Piece.InRange]
      refine ⟨trivial, ?_, by decide, by simp⟩
      simp only [Int.reducePow] at *; omega)
    (fits_plain _ _ (by intro p hp; simp at hp; subst hp; simp [Printf.Piece.RightAligned]))
  have ht : Printf.text [.dir {} (.dec v)] = int v := by
    unfold int
    rw [← Tick.digitsText_dec]
    by_cases h : v < 0 <;> simp [Printf.text, Printf.Piece.text, Printf.Conv.text, Printf.numText, Printf.Spec.width, lit, h]
  unfold intToString
  rw [if_neg (by simp), ← mask_d v]
  change Printf.printf n _ (Printf.args [.dir {} (.dec v)]) = _
  rw [hp, ht]

theorem two_eq (v : Nat) (h : v < 100) :
    List.replicate (2 - (Printf.digitsText 10 false v).length) 0x30 ++ Printf.digitsText 10 false v = Tick.two v := by
  have : ∀ v, v < 100 → List.replicate (2 - (Printf.digitsText 10 false v).length) 0x30 ++ Printf.digitsText 10 false v = Tick.two v := by
    decide +kernel
  exact this v h

theorem parts (k : Nat) (h : 1000 ≤ k) (hk : k < 2 ^ 31 - 6) :
    Frac.fracParts k 1000 0 2 = .ok ((((k + 5) / 10 / 100 : Nat) : Int), (((k + 5) / 10 % 100 : Nat) : Int)) := by
  simp only [Nat.reducePow, Nat.reduceSub] at hk
  unfold Frac.fracParts
  simp only [ne_eq, not_true_eq_false, if_false]
  rw [if_pos (by decide), if_neg (by decide), if_pos (by omega)]
  have hr : (1000 : Int).tdiv (2 * 100) = 5 := by decide
  have hb : (10 : Int) ^ (2 : Int).toNat = 100 := by decide
  simp only [show ¬ ((1000 : Int) < 0) by decide, if_false, hr, hb]
  rw [if_pos (by simp only [Frac.intMax]; omega)]
  have e : (k : Int) + 5 = ((k + 5 : Nat) : Int) := by omega
  rw [e, Int.tdiv_eq_ediv_of_nonneg (by omega), Int.tdiv_eq_ediv_of_nonneg (by omega)]
  congr 2 <;> omega

theorem mbit (n k : Nat) (h1 : 1 ≤ n) (hn : n < 2 ^ 64) (h : 1000 ≤ k) (hk : k < 2 ^ 31 - 6) :
    Frac.fractionToString n k 1000 0 2 =
      .ok (.done ((Tick.dec ((k + 5) / 1000) ++ lit "." ++ Tick.two ((k + 5) / 10 % 100)).take (n - 1) ++ [0])) := by
  have ht : (k + 5) / 10 / 10 ^ 2 ≤ Frac.intMax := by
    simp only [Nat.reducePow, Nat.reduceSub, Frac.intMax] at *; omega
  obtain ⟨hwf, hir, hf⟩ := Frac.pieces_ok 2 ((k + 5) / 10 / 10 ^ 2) ((k + 5) / 10 % 10 ^ 2) (by decide) ht (Nat.mod_lt _ (by decide))
  have hs := Frac.star_width n 2 (by decide) (((k + 5) / 10 / 10 ^ 2 : Nat) : Int) (((k + 5) / 10 % 10 ^ 2 : Nat) : Int)
  rw [Printf.C93_documented_text n h1 hn _ hwf hir (hf n), Frac.pieces_text 2 ((k + 5) / 10) (by decide)] at hs
  unfold Frac.fractionToString
  rw [parts k h hk]
  show Out.ok (if (0 : Int) > 0 then _ else _) = _
  rw [if_neg (by decide)]
  refine (congrArg Out.ok hs).trans ?_
  unfold Frac.fixedText
  rw [if_neg (by decide), List.append_assoc, List.append_assoc, two_eq _ (Nat.mod_lt _ (by decide)), Tick.digitsText_dec, Nat.div_div_eq_div_mul]

/-! ### The property -/

/-- The text of every data rate is that of its rate in kbit/s (1000 bits, rounded towards zero), in a small buffer its beginning. -/
theorem C250_text (n : Nat) (h1 : 1 ≤ n) (hn : n < 2 ^ 64) (rate : Int) (hlo : -2 ^ 31 ≤ rate) (hhi : rate < 2 ^ 31) :
    byteRateToString n rate = .ok (.done ((rateText ((rate * 8).tdiv 1000)).take (n - 1) ++ [0])) := by
  simp only [Int.reducePow, Int.reduceNeg] at hlo hhi
  have hb : -17179870 ≤ (rate * 8).tdiv 1000 ∧ (rate * 8).tdiv 1000 ≤ 17179870 := by
    by_cases h : 0 ≤ rate
    · rw [Int.tdiv_eq_ediv_of_nonneg (by omega)]; omega
    · have := Int.neg_tdiv (-(rate * 8)) 1000
      rw [Int.neg_neg] at this
      rw [this, Int.tdiv_eq_ediv_of_nonneg (by omega)]; omega
  have hk : scale32 rate 8 1000 = (rate * 8).tdiv 1000 := by
    unfold scale32
    rw [if_pos (by decide)]
    exact low32_id _ (by simp only [Int.reducePow, Int.reduceNeg]; omega) (by simp only [Int.reducePow]; omega)
  unfold byteRateToString
  simp only [hk]
  generalize (rate * 8).tdiv 1000 = v at *
  unfold rateText
  by_cases hv : v < 1000
  · rw [if_neg (by omega), if_pos hv, int_text n h1 hn v (by simp only [Int.reducePow, Int.reduceNeg]; omega)
      (by simp only [Int.reducePow]; omega), cat_done]
  · rw [if_pos (by omega), if_neg hv]
    have e : v = (v.toNat : Int) := by omega
    have := mbit n v.toNat h1 hn (by omega) (by simp only [Nat.reducePow, Nat.reduceSub]; omega)
    rw [← e] at this
    rw [this]
    show Out.ok (Frac.catText n _ (.done _)) = _
    rw [cat_done]

/-- The Mbit/s shown, in hundredths, are off by at most half a hundredth. -/
theorem C250_rounded (kbit : Nat) : kbit ≤ (kbit + 5) / 10 * 10 + 5 ∧ (kbit + 5) / 10 * 10 ≤ kbit + 5 := by omega

/-- A rate of at least one Mbit/s is shown in Mbit/s, one below in kbit/s; the last characters tell which. -/
theorem C250_unit (kbit : Int) : (lit " Mbit/s" <:+ rateText kbit ↔ 1000 ≤ kbit) ∧ (lit " kbit/s" <:+ rateText kbit ↔ kbit < 1000) := by
  have hne : ∀ (a : List Nat) (x y : List Nat), x.length = y.length → x <:+ a ++ y → x = y := by
    intro a x y hl h
    obtain ⟨t, ht⟩ := h
    exact (List.append_inj' ht hl).2
  unfold rateText
  by_cases h : kbit < 1000
  · rw [if_pos h]
    refine ⟨⟨fun hs => ?_, fun hx => by omega⟩, fun _ => h, fun _ => List.suffix_append _ _⟩
    exact absurd (hne (int kbit) (lit " Mbit/s") (lit " kbit/s") (by decide) hs) (by decide)
  · rw [if_neg h]
    refine ⟨⟨fun _ => by omega, fun _ => List.suffix_append _ _⟩, fun hs => ?_, fun hx => absurd hx h⟩
    exact absurd (hne (Tick.dec ((kbit.toNat + 5) / 1000) ++ lit "." ++ Tick.two ((kbit.toNat + 5) / 10 % 100)) (lit " kbit/s")
      (lit " Mbit/s") (by decide) hs) (by decide)

example : byteRateToString 20 124999 = .ok (.done (lit "999 kbit/s" ++ [0])) ∧
    byteRateToString 20 125000 = .ok (.done (lit "1.00 Mbit/s" ++ [0])) ∧
    byteRateToString 20 1234567 = .ok (.done (lit "9.88 Mbit/s" ++ [0])) ∧
    byteRateToString 6 1234567 = .ok (.done (lit "9.88 " ++ [0])) ∧
    byteRateToString 20 (-2147483648) = .ok (.done (lit "-17179869 kbit/s" ++ [0])) := by decide +kernel

end Verif.Rate
