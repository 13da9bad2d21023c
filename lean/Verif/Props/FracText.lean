import Verif.Props.Frac
/-!
Property theorems C202: fractions as text.
-/
namespace Verif.Frac
open Verif Verif.Mkv Verif.Scanf

/-- The format with its width written out. -/
def pieces (k : Nat) (a b : Int) : List Printf.Piece :=
  if k = 0 then [.dir {} (.dec a)] else [.dir {} (.dec a), .lit 0x2E, .dir { zero := true, ws := [k] } (.dec b)]

theorem parseD_width (k : Nat) (hk : k ≤ 9) : Printf.parseD [0x30, k + 0x30, 0x64] = ⟨false, true, (k : Int), false, false, false, [0x64]⟩ := by
  have : ∀ k : Fin 10, Printf.parseD [0x30, k.val + 0x30, 0x64] = ⟨false, true, (k.val : Int), false, false, false, [0x64]⟩ := by decide +kernel
  exact this ⟨k, by omega⟩

theorem parseD_star : Printf.parseD [0x30, 0x2A, 0x64] = ⟨false, true, -1, true, false, false, [0x64]⟩ := by decide +kernel

theorem directive_star (k : Nat) (hk : k ≤ 9) (args : List Printf.Arg) (s : Printf.S) :
    Printf.directive [0x30, 0x2A, 0x64] (.int k :: args) s = Printf.directive [0x30, k + 0x30, 0x64] args s := by
  unfold Printf.directive
  rw [parseD_width k hk, parseD_star]
  rfl

theorem loop_star (f k : Nat) (hk : k ≤ 9) (args : List Printf.Arg) (s : Printf.S) :
    Printf.loop f [0x25, 0x30, 0x2A, 0x64] (.int k :: args) s = Printf.loop f [0x25, 0x30, k + 0x30, 0x64] args s := by
  cases f with
  | zero => rfl
  | succ f =>
    rw [Printf.loop, Printf.loop]
    simp only [directive_star k hk]
    rfl

theorem parseD_d (t : List Nat) : Printf.parseD (0x64 :: t) = ⟨false, false, -1, false, false, false, 0x64 :: t⟩ := rfl

theorem directive_d (t : List Nat) (a : Int) (args : List Printf.Arg) (s : Printf.S) :
    Printf.directive (0x64 :: t) (.int a :: args) s =
      match Printf.lift args (Printf.emitAll (Printf.number false false false false (-1) a) s) with
      | .inl o => .inl o
      | .inr (s', args') => .inr (t, args', s') := by
  unfold Printf.directive
  rw [parseD_d]
  rfl

/-- `%0*d` with a width of one digit is the format with that digit. -/
theorem star_width (n k : Nat) (hk : k ≤ 9) (a b : Int) :
    (if (k : Int) ≠ 0 then Printf.printf n (lit "%d.%0*d") [.int a, .int k, .int b] else Printf.printf n (lit "%d") [.int a]) =
      Printf.printf n (Printf.mask (pieces k a b)) (Printf.args (pieces k a b)) := by
  by_cases hz : k = 0
  · subst hz; rfl
  · rw [if_pos (by omega)]
    have e1 : Printf.mask (pieces k a b) = [0x25, 0x64, 0x2E, 0x25, 0x30, k + 0x30, 0x64] := by
      unfold pieces; rw [if_neg hz]; rfl
    have e2 : Printf.args (pieces k a b) = [.int a, .int b] := by
      unfold pieces; rw [if_neg hz]; rfl
    rw [e1, e2, show lit "%d.%0*d" = [0x25, 0x64, 0x2E, 0x25, 0x30, 0x2A, 0x64] from rfl]
    unfold Printf.printf
    simp only [List.length_cons, List.length_nil]
    generalize (⟨n, [], n⟩ : Printf.S) = s
    rw [Printf.loop, Printf.loop]
    simp only [directive_d, List.head?_cons]
    split
    · rw [if_pos trivial, if_pos trivial, if_neg (by decide), if_neg (by decide)]
      cases Printf.emitAll (Printf.number false false false false (-1) a) s with
      | none => rfl
      | some s' =>
        simp only [Printf.lift]
        rw [Printf.loop, Printf.loop]
        split
        · simp only [show ¬ (0x2E = 0x25) by decide, if_false]
          cases Printf.put s' 0x2E with
          | none => rfl
          | some s2 => exact loop_star _ k hk [.int b] s2
        · rfl
    · rfl

/-! ### The number printed -/

/-- The text of `t` units of the last place, with `k` decimals. -/
def fixedText (k t : Nat) : Str :=
  Printf.digitsText 10 false (t / 10 ^ k) ++
    if k = 0 then [] else lit "." ++ List.replicate (k - (Printf.digitsText 10 false (t % 10 ^ k)).length) 0x30 ++ Printf.digitsText 10 false (t % 10 ^ k)

/-- `t` units of the last place stand for `num/den`: at most half a unit too much and less than one too little. -/
def Rounds (k num den t : Nat) : Prop := 2 * (t * den) ≤ 2 * (num * 10 ^ k) + den ∧ num * 10 ^ k < t * den + den

theorem units (n d B : Nat) (hd : 0 < d) (hB : 0 < B) : n / d = n * B / d / B ∧ n % d * B / d = n * B / d % B := by
  have h1 : n * B / d = n / d * B + n % d * B / d := by
    have e : n * B = n % d * B + d * (n / d * B) := by
      have := Nat.div_add_mod n d
      calc n * B = (d * (n / d) + n % d) * B := by rw [this]
        _ = _ := by rw [Nat.add_mul, Nat.mul_assoc, Nat.add_comm]
    rw [e, Nat.add_mul_div_left _ _ hd, Nat.add_comm]
  have h2 : n % d * B / d < B := by
    rw [Nat.div_lt_iff_lt_mul hd, Nat.mul_comm B d]
    exact Nat.mul_lt_mul_of_pos_right (Nat.mod_lt _ hd) hB
  rw [h1]
  constructor
  · rw [Nat.mul_comm (n / d) B, Nat.mul_add_div hB, Nat.div_eq_of_lt h2, Nat.add_zero]
  · rw [Nat.mul_comm (n / d) B, Nat.mul_add_mod, Nat.mod_eq_of_lt h2]

theorem rounds_of (k num den n : Nat) (hd : 0 < den) (h1 : num ≤ n) (h2 : n ≤ num + den / (2 * 10 ^ k)) :
    Rounds k num den (n * 10 ^ k / den) := by
  have hB : 0 < 10 ^ k := Nat.pow_pos (by decide)
  unfold Rounds
  generalize 10 ^ k = B at *
  have e := Nat.div_add_mod (n * B) den
  have hm := Nat.mod_lt (n * B) hd
  have h3 : n * B ≤ num * B + den / (2 * B) * B := by
    rw [← Nat.add_mul]; exact Nat.mul_le_mul_right _ h2
  have h4 : den / (2 * B) * (2 * B) ≤ den := Nat.div_mul_le_self _ _
  have h5 : 2 * (den / (2 * B) * B) ≤ den := by
    rw [Nat.mul_left_comm]; exact h4
  have h6 : num * B ≤ n * B := Nat.mul_le_mul_right _ h1
  rw [Nat.mul_comm den] at e
  generalize n * B / den * den = x at *
  generalize n * B % den = y at *
  generalize n * B = z at *
  generalize num * B = w at *
  generalize den / (2 * B) * B = u at *
  omega

/-- What the rounding adds stays below the half unit, also at `INT_MAX`. -/
theorem parts_eq (num den : Nat) (k : Nat) (hk : k ≤ 9) (hn : num ≤ intMax) (hd : 0 < den) :
    ∃ n : Nat, num ≤ n ∧ n ≤ num + den / (2 * 10 ^ k) ∧ n ≤ intMax ∧
      (if (num : Int) > 0 then (if (num : Int) < intMax - Int.tdiv den (2 * 10 ^ k) then (num : Int) + Int.tdiv den (2 * 10 ^ k) else intMax) else (num : Int)) = n := by
  have e : Int.tdiv (den : Int) (2 * 10 ^ k) = ((den / (2 * 10 ^ k) : Nat) : Int) := by
    rw [Int.tdiv_eq_ediv_of_nonneg (by omega)]
    simp
  rw [e]
  generalize den / (2 * 10 ^ k) = r
  by_cases h : (num : Int) > 0
  · rw [if_pos h]
    by_cases h2 : (num : Int) < intMax - r
    · rw [if_pos h2]; exact ⟨num + r, by omega, by omega, by omega, by simp⟩
    · rw [if_neg h2]; exact ⟨intMax, by omega, by omega, by omega, rfl⟩
  · rw [if_neg h]; exact ⟨num, by omega, by omega, by omega, rfl⟩

theorem tail_parts (n d B : Nat) (hd : 0 < d) (hB : 0 < B) :
    (Int.tdiv (n : Int) d, Int.tdiv (((n : Int) - Int.tdiv n d * d) * B) d) = (((n * B / d / B : Nat) : Int), ((n * B / d % B : Nat) : Int)) := by
  have e1 : Int.tdiv (n : Int) d = ((n / d : Nat) : Int) := by
    rw [Int.tdiv_eq_ediv_of_nonneg (by omega)]; simp
  have e2 : (n : Int) - ((n / d : Nat) : Int) * d = ((n % d : Nat) : Int) := by
    have := Nat.div_add_mod n d
    rw [Nat.mul_comm] at this
    have h : ((n / d * d + n % d : Nat) : Int) = n := by rw [this]
    rw [Int.natCast_add, Int.natCast_mul] at h
    omega
  rw [e1, e2, ← Int.natCast_mul, Int.tdiv_eq_ediv_of_nonneg (by omega), ← Int.natCast_ediv]
  rw [(units n d B hd hB).1.symm, (units n d B hd hB).2.symm]

theorem fracParts_nonneg (num den : Nat) (percent : Int) (k : Nat) (hk : k ≤ 9) (hd : 0 < den)
    (hn : num * (if percent = 0 then 1 else 100) ≤ intMax) :
    ∃ t, fracParts num den percent k = .ok (((t / 10 ^ k : Nat) : Int), ((t % 10 ^ k : Nat) : Int)) ∧
      Rounds k (num * (if percent = 0 then 1 else 100)) den t ∧ t / 10 ^ k ≤ intMax := by
  have hB : 0 < 10 ^ k := Nat.pow_pos (by decide)
  have hfit : percentFit 64 (num : Int) den = ((num : Int), (den : Int)) ∨ percent = 0 := by
    by_cases hp : percent = 0
    · exact Or.inr hp
    · left
      rw [if_neg hp] at hn
      show (if (num : Int).natAbs > intMax / 100 then _ else _) = _
      rw [if_neg]
      rw [Int.natAbs_natCast]
      simp only [intMax, Nat.reducePow] at *
      omega
  have hp1 : (if percent ≠ 0 then percentFit 64 (num : Int) den else ((num : Int), (den : Int))) = ((num : Int), (den : Int)) := by
    split
    · rcases hfit with h | h
      · exact h
      · contradiction
    · rfl
  have hp2 : (if percent ≠ 0 then (num : Int) * 100 else num) = ((num * (if percent = 0 then 1 else 100) : Nat) : Int) := by
    by_cases hp : percent = 0
    · rw [if_neg (by simpa using hp), if_pos hp, Nat.mul_one]
    · rw [if_pos hp, if_neg hp]; simp
  obtain ⟨n, h1, h2, h3, h4⟩ := parts_eq (num * (if percent = 0 then 1 else 100)) den k hk hn hd
  refine ⟨n * 10 ^ k / den, ?_, rounds_of k _ den n hd h1 h2, ?_⟩
  · unfold fracParts
    simp only [hp1, hp2]
    rw [if_pos (by omega), if_neg (by omega)]
    simp only [show ¬ ((den : Int) < 0) by omega, if_false, Int.toNat_natCast]
    rw [h4]
    have := tail_parts n den (10 ^ k) hd hB
    rw [show ((10 ^ k : Nat) : Int) = (10 : Int) ^ k by simp] at this
    rw [this]
  · rw [← (units n den (10 ^ k) hd hB).1]
    exact Nat.le_trans (Nat.div_le_self _ _) h3

theorem pieces_text (k t : Nat) (hk : k ≤ 9) : Printf.text (pieces k ((t / 10 ^ k : Nat) : Int) ((t % 10 ^ k : Nat) : Int)) = fixedText k t := by
  unfold pieces fixedText
  generalize t / 10 ^ k = a
  generalize t % 10 ^ k = b
  by_cases hz : k = 0
  · rw [if_pos hz, if_pos hz]
    simp [Printf.text, Printf.Piece.text, Printf.Conv.text, Printf.numText, Printf.Spec.width]
  · rw [if_neg hz, if_neg hz]
    simp [Printf.text, Printf.Piece.text, Printf.Conv.text, Printf.numText, Printf.Spec.width, lit, show ¬ ((a : Int) < 0) by omega, show ¬ ((b : Int) < 0) by omega]

theorem pieces_ok (k a b : Nat) (hk : k ≤ 9) (ha : a ≤ intMax) (hb : b < 10 ^ k) :
    (∀ p ∈ pieces k a b, p.WF) ∧ (∀ p ∈ pieces k a b, p.InRange) ∧ ∀ n, Printf.Fits n (pieces k a b) := by
  have hb' : b < 10 ^ 9 := Nat.lt_of_lt_of_le hb (Nat.pow_le_pow_right (by decide) hk)
  simp only [intMax, Nat.reducePow] at ha hb'
  have hra : ∀ p ∈ pieces k a b, ¬ p.RightAligned := by
    unfold pieces
    split <;> simp [Printf.Piece.RightAligned]
  refine ⟨?_, ?_, ?_⟩
  · unfold pieces
    split
    · simp [Printf.Piece.WF]
    · simp [Printf.Piece.WF]; omega
  · unfold pieces
    split
    · simp [Printf.Piece.InRange, Printf.Spec.width]; omega
    · simp [Printf.Piece.InRange, Printf.Spec.width]; omega
  · intro n pre p post e hr
    exact absurd hr (hra p (by rw [e]; simp))

/-- C202. The text of a fraction that is not negative, with up to nine decimals: it is cut to the buffer, and the number it shows differs from
the value (times 100 for percentages) by at most half a unit of the last place upwards and less than one unit downwards. -/
theorem C202_text (n num den : Nat) (percent : Int) (k : Nat) (h1 : 1 ≤ n) (hn : n < 2 ^ 64) (hk : k ≤ 9) (hd : 0 < den)
    (hnum : num * (if percent = 0 then 1 else 100) < 2 ^ 31) :
    ∃ t, Rounds k (num * (if percent = 0 then 1 else 100)) den t ∧
      fractionToString n num den percent k = .ok (.done ((fixedText k t ++ (if percent > 0 then lit "%" else [])).take (n - 1) ++ [0])) := by
  obtain ⟨t, e, hr, ht⟩ := fracParts_nonneg num den percent k hk hd (by simp only [intMax, Nat.reducePow] at *; omega)
  refine ⟨t, hr, ?_⟩
  have hB : 0 < 10 ^ k := Nat.pow_pos (by decide)
  obtain ⟨hwf, hir, hf⟩ := pieces_ok k (t / 10 ^ k) (t % 10 ^ k) hk ht (Nat.mod_lt _ hB)
  unfold fractionToString
  rw [e, bind_ok]
  simp only
  rw [star_width n k hk, Printf.C93_documented_text n h1 hn _ hwf hir (hf n), pieces_text k t hk]
  by_cases hp : percent > 0
  · rw [if_pos hp, if_pos hp]
    simp only [catText]
    congr 3
    rw [List.dropLast_concat]
    rw [List.take_append, List.take_append, List.take_take, Nat.min_self, List.length_take]
    congr 1
    by_cases hl : (fixedText k t).length ≤ n - 1
    · rw [Nat.min_eq_right hl]
    · rw [Nat.min_eq_left (by omega), show n - 1 - (n - 1) = 0 by omega, show n - 1 - (fixedText k t).length = 0 by omega]
  · rw [if_neg hp, if_neg hp, List.append_nil]

/-- C202. A value that has this many decimals is shown exactly. -/
theorem C202_exact (k num den t x : Nat) (hd : 0 < den) (hr : Rounds k num den t) (he : num * 10 ^ k = x * den) : t = x := by
  unfold Rounds at hr
  rw [he] at hr
  obtain ⟨h1, h2⟩ := hr
  have a1 : x ≤ t := by
    apply Classical.byContradiction
    intro hc
    have : (t + 1) * den ≤ x * den := Nat.mul_le_mul_right _ (by omega)
    rw [Nat.add_mul, Nat.one_mul] at this
    omega
  have a2 : t ≤ x := by
    apply Classical.byContradiction
    intro hc
    have : (x + 1) * den ≤ t * den := Nat.mul_le_mul_right _ (by omega)
    rw [Nat.add_mul, Nat.one_mul] at this
    omega
  omega

/-- C202. A denominator of zero is shown as zero. -/
theorem C202_no_denominator (n : Nat) (num : Int) (k : Nat) (h1 : 1 ≤ n) (hn : n < 2 ^ 64) (hk : k ≤ 9) :
    fractionToString n num 0 0 k = .ok (.done ((fixedText k 0).take (n - 1) ++ [0])) := by
  have hB : 0 < 10 ^ k := Nat.pow_pos (by decide)
  have e : fracParts num 0 0 k = .ok (((0 / 10 ^ k : Nat) : Int), ((0 % 10 ^ k : Nat) : Int)) := by
    rw [Nat.zero_div, Nat.zero_mod]; rfl
  obtain ⟨hwf, hir, hf⟩ := pieces_ok k (0 / 10 ^ k) (0 % 10 ^ k) hk (by rw [Nat.zero_div]; exact Nat.zero_le _) (Nat.mod_lt _ hB)
  unfold fractionToString
  rw [e, bind_ok]
  simp only
  rw [star_width n k hk, Printf.C93_documented_text n h1 hn _ hwf hir (hf n), pieces_text k 0 hk]
  rfl

/-- C202. The signs of both parts do not matter if they are the same (no percentages: their shifts round down). -/
theorem C202_signs (n : Nat) (num den : Int) (decimal : Int) (hd : 0 < den) :
    fractionToString n (-num) (-den) 0 decimal = fractionToString n num den 0 decimal := by
  have : fracParts (-num) (-den) 0 decimal = fracParts num den 0 decimal := by
    unfold fracParts
    simp only [ne_eq, not_true_eq_false, if_false]
    rw [if_pos (show ¬ -den = 0 by omega), if_pos (show ¬ den = 0 by omega)]
    simp only [show -den < 0 by omega, show ¬ den < 0 by omega, if_true, if_false, Int.neg_neg]
  unfold fractionToString
  rw [this]

/-- C202. Negative fractions have two signs, `-3/2` is shown as `-1.-50`; a value of two thirds is cut, not rounded; a percentage of a large
whole number is shown as zero. -/
theorem C202_counterexample :
    fractionToString 32 (-3) 2 0 2 = .ok (.done (lit "-1.-50" ++ [0])) ∧
    fractionToString 32 2 3 0 2 = .ok (.done (lit "0.66" ++ [0])) ∧
    fractionToString 32 1000000000 1 1 0 = .ok (.done (lit "0%" ++ [0])) ∧
    fractionToString 32 1 3 0 10 = .bad := by decide +kernel

/-- 24000/1001 frames per second, a quarter as percentage, and a small buffer. -/
example : fractionToString 32 24000 1001 0 3 = .ok (.done (lit "23.976" ++ [0])) ∧
    fractionToString 32 1 4 1 1 = .ok (.done (lit "25.0%" ++ [0])) ∧
    fractionToString 4 24000 1001 0 3 = .ok (.done (lit "23." ++ [0])) ∧
    Rounds 3 24000 1001 23976 ∧ fixedText 3 23976 = lit "23.976" ∧ fixedText 3 5 = lit "0.005" := by
  refine ⟨by decide +kernel, by decide +kernel, by decide +kernel, by unfold Rounds; decide, by decide +kernel, by decide +kernel⟩

end Verif.Frac
