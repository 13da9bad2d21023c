import Verif.Core.PrintfLemmas
set_option linter.unusedSimpArgs false
set_option linter.unusedVariables false
namespace Verif.Printf

/-- `k` digits, the highest first. -/
def fixed (b : Nat) (up : Bool) : Nat → Nat → List Nat
  | 0, _ => []
  | k + 1, n => digitChar up (n / b ^ k) :: fixed b up k (n % b ^ k)

theorem fixed_snoc (b : Nat) (up : Bool) (hb : 1 < b) : ∀ (k n : Nat),
    fixed b up (k + 1) n = fixed b up k (n / b) ++ [digitChar up (if k = 0 then n else n % b)]
  | 0, n => by simp [fixed]
  | k + 1, n => by
    have hb0 : 0 < b := by omega
    rw [fixed, fixed_snoc b up hb k]
    have e1 : n % b ^ (k + 1) / b = n / b % b ^ k := by
      rw [Nat.pow_succ, Nat.mul_comm, Nat.mod_mul_right_div_self]
    have e2 : n / b ^ (k + 1) = n / b / b ^ k := by rw [Nat.pow_succ, Nat.mul_comm, Nat.div_div_eq_div_mul]
    rw [e1, e2, fixed, List.cons_append]
    congr 3
    by_cases hk : k = 0
    · subst hk; simp
    · rw [if_neg hk, if_neg (by omega), Nat.pow_succ, Nat.mod_mul_left_mod]

theorem fixed_length (b : Nat) (up : Bool) : ∀ (k n : Nat), (fixed b up k n).length = k
  | 0, n => rfl
  | k + 1, n => by simp [fixed, fixed_length b up k]

theorem digitsText_small (b : Nat) (up : Bool) (n : Nat) (hn : n < b) (hb : b ≤ 16) :
    digitsText b up n = [digitChar up n] := by
  have h := digitChar_small n (by omega)
  unfold digitsText
  rw [Nat.toDigits_of_lt_base hn]
  cases up
  · simp [h.2.1]
  · simp [h.1]

theorem digitsText_big (b : Nat) (up : Bool) (n : Nat) (hb1 : 1 < b) (hn : b ≤ n) (hb : b ≤ 16) :
    digitsText b up n = digitsText b up (n / b) ++ [digitChar up (n % b)] := by
  have hm : n % b < b := Nat.mod_lt _ (by omega)
  have h := digitChar_small (n % b) (by omega)
  unfold digitsText
  rw [Nat.toDigits_of_base_le hb1 hn, List.map_append]
  cases up
  · simp [h.2.1]
  · simp [h.1]

theorem digitsText_pos (b : Nat) (up : Bool) (n : Nat) : 0 < (digitsText b up n).length := by
  unfold digitsText; rw [List.length_map]; exact Nat.length_toDigits_pos

theorem digitsText_le (b : Nat) (up : Bool) (n k : Nat) (hb : 1 < b) (hk : 0 < k) :
    (digitsText b up n).length ≤ k ↔ n < b ^ k := by
  unfold digitsText; rw [List.length_map]; exact Nat.length_toDigits_le_iff hb hk

/-- Zeros, then the digits. -/
theorem fixed_eq (b : Nat) (up : Bool) (hb1 : 1 < b) (hb : b ≤ 16) : ∀ (k n : Nat), n < b ^ (k + 1) →
    fixed b up (k + 1) n = List.replicate (k + 1 - (digitsText b up n).length) 0x30 ++ digitsText b up n
  | 0, n, h => by
    rw [Nat.pow_one] at h
    rw [digitsText_small b up n h hb]; simp [fixed]
  | k + 1, n, h => by
    have hlt : n / b < b ^ (k + 1) := by
      rw [Nat.div_lt_iff_lt_mul (by omega)]; rwa [Nat.pow_succ] at h
    rw [fixed_snoc b up hb1, if_neg (by omega), fixed_eq b up hb1 hb k (n / b) hlt]
    by_cases hn : n < b
    · rw [Nat.div_eq_of_lt hn, Nat.mod_eq_of_lt hn, digitsText_small b up 0 (by omega) hb, digitsText_small b up n hn hb]
      have : digitChar up 0 = 0x30 := by cases up <;> rfl
      rw [this]
      simp only [List.length_singleton, Nat.add_sub_cancel]
      rw [List.replicate_succ']
    · rw [digitsText_big b up n hb1 (by omega) hb]
      simp only [List.length_append, List.length_singleton]
      rw [← List.append_assoc]
      congr 3
      omega

theorem wrap64_id (v : Int) (h1 : 0 ≤ v) (h2 : v < 2 ^ 63) : wrap64 v = v := by
  unfold wrap64; simp only [Int.reducePow] at *; omega

/-- One digit of the loop, in naturals. -/
theorem intChars_step (b : Nat) (up : Bool) (f n k : Nat) (sign zero : Bool) (hb1 : 1 < b) (hb : b ≤ 16) (hn : n < b ^ (k + 1))
    (h63 : n < 2 ^ 63) :
    intChars b up (f + 1) (n : Int) (b ^ k) sign zero =
      (if sign && (b ^ k == 1 || zero || decide (n / b ^ k > 0)) then [0x2D] else []) ++
      [if (n / b ^ k == 0 && !zero && b ^ k != 1) then 0x20 else digitChar up (n / b ^ k)] ++
      intChars b up f ((n % b ^ k : Nat) : Int) (b ^ k / b)
        (sign && !(sign && (b ^ k == 1 || zero || decide (n / b ^ k > 0))))
        (if (n / b ^ k == 0 && !zero && b ^ k != 1) then zero else true) := by
  have hpos : 0 < b ^ k := Nat.pow_pos (by omega)
  have hd : n / b ^ k < b := by rw [Nat.div_lt_iff_lt_mul hpos, Nat.mul_comm, ← Nat.pow_succ]; exact hn
  have hi : (Int.tdiv (n : Int) ((b ^ k : Nat) : Int) % 2 ^ 32).toNat = n / b ^ k := by
    rw [Int.tdiv_eq_ediv_of_nonneg (by omega), ← Int.natCast_ediv]
    generalize n / b ^ k = x at hd
    simp only [Int.reducePow]; omega
  have hm : wrap64 ((n : Int) - ((n / b ^ k : Nat) : Int) * ((b ^ k : Nat) : Int)) = ((n % b ^ k : Nat) : Int) := by
    have hdm := Nat.div_add_mod n (b ^ k)
    have e : (n : Int) - ((n / b ^ k : Nat) : Int) * ((b ^ k : Nat) : Int) = ((n % b ^ k : Nat) : Int) := by
      rw [Nat.mul_comm] at hdm
      rw [← Int.natCast_mul]
      generalize n / b ^ k * b ^ k = y at hdm
      generalize n % b ^ k = r at hdm
      omega
    rw [e]
    have : n % b ^ k ≤ n := Nat.mod_le _ _
    exact wrap64_id _ (Int.natCast_nonneg _) (by
      simp only [Int.reducePow]; simp only [Nat.reducePow] at h63
      generalize n % b ^ k = r at this
      omega)
  rw [intChars, if_neg (by omega)]
  simp only [hi, hm]

theorem intChars_zero (b : Nat) (up : Bool) (f : Nat) (vl : Int) (sign zero : Bool) :
    intChars b up f vl 0 sign zero = [] := by
  cases f <;> simp [intChars]

theorem pow_div (b k : Nat) (hb : 1 < b) : b ^ (k + 1) / b = b ^ k := by
  rw [Nat.pow_succ, Nat.mul_div_cancel _ (by omega)]

theorem pow_ne_one (b k : Nat) (hb : 1 < b) : b ^ (k + 1) ≠ 1 := by
  have : b ^ 0 < b ^ (k + 1) := Nat.pow_lt_pow_right hb (by omega)
  rw [Nat.pow_zero] at this; omega

/-- Digits only. -/
theorem intChars_digits (b : Nat) (up : Bool) (hb1 : 1 < b) (hb : b ≤ 16) : ∀ (k f n : Nat), k < f → n < b ^ (k + 1) → n < 2 ^ 63 →
    intChars b up f (n : Int) (b ^ k) false true = fixed b up (k + 1) n
  | 0, f, n, hf, hn, h63 => by
    obtain ⟨g, rfl⟩ : ∃ g, f = g + 1 := ⟨f - 1, by omega⟩
    rw [intChars_step b up g n 0 false true hb1 hb hn h63]
    simp only [Bool.false_and, Bool.not_true, Bool.and_false, Bool.false_eq_true, if_false, List.nil_append, fixed]
    have : b ^ 0 / b = 0 := by rw [Nat.pow_zero]; exact Nat.div_eq_of_lt hb1
    rw [this, intChars_zero]
    simp
  | k + 1, f, n, hf, hn, h63 => by
    obtain ⟨g, rfl⟩ : ∃ g, f = g + 1 := ⟨f - 1, by omega⟩
    rw [intChars_step b up g n (k + 1) false true hb1 hb hn h63]
    simp only [Bool.false_and, Bool.not_true, Bool.and_false, Bool.false_eq_true, if_false, List.nil_append]
    have hm : n % b ^ (k + 1) < b ^ (k + 1) := Nat.mod_lt _ (Nat.pow_pos (by omega))
    have : n % b ^ (k + 1) ≤ n := Nat.mod_le _ _
    rw [pow_div b k hb1, intChars_digits b up hb1 hb k g _ (by omega) hm (by omega), fixed]
    rfl

/-- Zero filling: the sign comes first. -/
theorem intChars_fill (b : Nat) (up : Bool) (hb1 : 1 < b) (hb : b ≤ 16) (k f n : Nat) (sign : Bool) (hf : k < f)
    (hn : n < b ^ (k + 1)) (h63 : n < 2 ^ 63) :
    intChars b up f (n : Int) (b ^ k) sign true = (if sign then [0x2D] else []) ++ fixed b up (k + 1) n := by
  cases sign with
  | false => rw [intChars_digits b up hb1 hb k f n hf hn h63]; rfl
  | true =>
    rw [← intChars_digits b up hb1 hb k f n hf hn h63]
    obtain ⟨g, rfl⟩ : ∃ g, f = g + 1 := ⟨f - 1, by omega⟩
    rw [intChars_step b up g n k true true hb1 hb hn h63, intChars_step b up g n k false true hb1 hb hn h63]
    simp

/-- Blanks, the sign, the digits. -/
theorem intChars_blank (b : Nat) (up : Bool) (hb1 : 1 < b) (hb : b ≤ 16) (sign : Bool) : ∀ (k f n : Nat), k < f →
    n < b ^ (k + 1) → n < 2 ^ 63 →
    intChars b up f (n : Int) (b ^ k) sign false =
      List.replicate (k + 1 - (digitsText b up n).length) 0x20 ++ (if sign then [0x2D] else []) ++ digitsText b up n
  | 0, f, n, hf, hn, h63 => by
    obtain ⟨g, rfl⟩ : ∃ g, f = g + 1 := ⟨f - 1, by omega⟩
    rw [intChars_step b up g n 0 sign false hb1 hb hn h63]
    have : b ^ 0 / b = 0 := by rw [Nat.pow_zero]; exact Nat.div_eq_of_lt hb1
    rw [this, intChars_zero, digitsText_small b up n (by simpa using hn) hb]
    simp
  | k + 1, f, n, hf, hn, h63 => by
    obtain ⟨g, rfl⟩ : ∃ g, f = g + 1 := ⟨f - 1, by omega⟩
    rw [intChars_step b up g n (k + 1) sign false hb1 hb hn h63]
    have hm : n % b ^ (k + 1) < b ^ (k + 1) := Nat.mod_lt _ (Nat.pow_pos (by omega))
    have hle : n % b ^ (k + 1) ≤ n := Nat.mod_le _ _
    have hne := pow_ne_one b k hb1
    by_cases h0 : n < b ^ (k + 1)
    · rw [Nat.div_eq_of_lt h0, Nat.mod_eq_of_lt h0, pow_div b k hb1]
      have e1 : (b ^ (k + 1) == 1) = false := by simp [hne]
      have e2 : (b ^ (k + 1) != 1) = true := by simp [hne]
      simp only [e1, e2, Nat.lt_irrefl, decide_false, Bool.or_self, Bool.and_false, Bool.false_eq_true, if_false,
        List.nil_append, BEq.rfl, Bool.not_false, Bool.and_self, if_true, Bool.and_true, gt_iff_lt]
      rw [intChars_blank b up hb1 hb sign k g n (by omega) h0 h63]
      have hl := (digitsText_le b up n (k + 1) hb1 (by omega)).2 h0
      have : k + 1 + 1 - (digitsText b up n).length = (k + 1 - (digitsText b up n).length) + 1 := by omega
      rw [this, List.replicate_succ]
      simp
    · have hd : 0 < n / b ^ (k + 1) := Nat.div_pos (by omega) (Nat.pow_pos (by omega))
      have e1 : (n / b ^ (k + 1) == 0) = false := by simp only [beq_eq_false_iff_ne]; omega
      have e3 : decide (n / b ^ (k + 1) > 0) = true := by simp only [decide_eq_true_eq]; exact hd
      simp only [e1, e3, Bool.or_true, Bool.and_true, Bool.false_and, Bool.false_eq_true, if_false]
      have es : (sign && !sign) = false := by cases sign <;> rfl
      rw [es, pow_div b k hb1, intChars_digits b up hb1 hb k g _ (by omega) hm (by omega)]
      have hfx : fixed b up (k + 1 + 1) n = digitChar up (n / b ^ (k + 1)) :: fixed b up (k + 1) (n % b ^ (k + 1)) := rfl
      have hfe := fixed_eq b up hb1 hb (k + 1) n hn
      have hl : ¬ (digitsText b up n).length ≤ k + 1 := by rw [digitsText_le b up n (k + 1) hb1 (by omega)]; exact h0
      have hz : k + 1 + 1 - (digitsText b up n).length = 0 := by omega
      rw [hz] at hfe ⊢
      simp only [List.replicate_zero, List.nil_append] at hfe ⊢
      rw [← hfe, hfx]
      simp

/-- Where the digits start. -/
theorem lower_pow (b n j : Nat) (hb1 : 1 < b) : ∀ (K f : Nat), K < f → j ≤ K → n < b ^ (K + 1) →
    ∃ k, lower (n : Int) (b ^ j) b f (b ^ K) = b ^ k ∧ j ≤ k ∧ k ≤ K ∧ n < b ^ (k + 1) ∧ (k = j ∨ b ^ k ≤ n)
  | K, 0, hf, _, _ => by omega
  | K, f + 1, hf, hj, hn => by
    rw [lower]
    by_cases h : (n : Int) < ((b ^ K : Nat) : Int) ∧ b ^ K > b ^ j
    · rw [if_pos h]
      have hjK : j < K := (Nat.pow_lt_pow_iff_right hb1).1 h.2
      obtain ⟨K', rfl⟩ : ∃ K', K = K' + 1 := ⟨K - 1, by omega⟩
      rw [pow_div b K' hb1]
      obtain ⟨k, h1, h2, h3, h4, h5⟩ := lower_pow b n j hb1 K' f (by omega) (by omega) (Int.ofNat_lt.1 h.1)
      exact ⟨k, h1, h2, by omega, h4, h5⟩
    · rw [if_neg h]
      refine ⟨K, rfl, hj, Nat.le_refl _, hn, ?_⟩
      by_cases h1 : b ^ K ≤ n
      · exact Or.inr h1
      · refine Or.inl ?_
        have : ¬ b ^ K > b ^ j := fun h2 => h ⟨Int.ofNat_lt.2 (by omega), h2⟩
        have : ¬ j < K := fun h3 => this (Nat.pow_lt_pow_right hb1 h3)
        omega

/-- The characters of a number in its field. -/
theorem chars_text (b : Nat) (up : Bool) (hb1 : 1 < b) (hb : b ≤ 16) (K : Nat) (hK : K < 64) (n w : Nat) (sign zero : Bool)
    (hw : w - 1 ≤ K) (hn : n < b ^ (K + 1)) (h63 : n < 2 ^ 63) :
    intChars b up 64 (n : Int) (lower (n : Int) (b ^ (w - 1)) b 64 (b ^ K)) sign zero =
      numText zero (w + (if sign then 1 else 0)) sign (digitsText b up n) := by
  obtain ⟨k, h1, h2, h3, h4, h5⟩ := lower_pow b n (w - 1) hb1 K 64 hK hw hn
  rw [h1]
  have hpad : k + 1 - (digitsText b up n).length =
      w + (if sign then 1 else 0) - ((if sign then [0x2D] else [] : List Nat).length + (digitsText b up n).length) := by
    have hp := digitsText_pos b up n
    have hs : (if sign then [0x2D] else [] : List Nat).length = if sign then 1 else 0 := by cases sign <;> rfl
    rw [hs]
    rcases h5 with h5 | h5
    · omega
    · have : ¬ (digitsText b up n).length ≤ k := by
        by_cases hk : k = 0
        · omega
        · rw [digitsText_le b up n k hb1 (by omega)]; omega
      omega
  unfold numText
  cases zero with
  | true =>
    rw [intChars_fill b up hb1 hb k 64 n sign (by omega) h4 h63, fixed_eq b up hb1 hb k n h4, hpad]
    simp
  | false =>
    rw [intChars_blank b up hb1 hb sign k 64 n (by omega) h4 h63, hpad]
    simp

theorem w0of_eq (q : Nat) (width : Int) (h : q ^ (width - 1).toNat < 2 ^ 32) : w0of q width = q ^ (width - 1).toNat := by
  unfold w0of; exact Nat.mod_eq_of_lt h

theorem numText_add (zero sign : Bool) (w1 w2 : Nat) (ds : List Nat)
    (h : w1 - ((if sign then 1 else 0) + ds.length) = w2 - ((if sign then 1 else 0) + ds.length)) :
    numText zero w1 sign ds = numText zero w2 sign ds := by
  simp only [numText]
  have hs : (if sign then [0x2D] else [] : List Nat).length = if sign then 1 else 0 := by cases sign <;> rfl
  rw [hs, h]

theorem digitsText_byte (b : Nat) (up : Bool) (hb1 : 1 < b) (hb : b ≤ 16) (n : Nat) : ∀ c ∈ digitsText b up n, c < 256 := by
  have : ∀ k n, n < b ^ (k + 1) → ∀ c ∈ digitsText b up n, c < 256 := by
    intro k
    induction k with
    | zero =>
      intro n hn c hc
      rw [digitsText_small b up n (by simpa using hn) hb] at hc
      have h := digitChar_small n (by rw [Nat.zero_add, Nat.pow_one] at hn; omega)
      simp at hc; subst hc
      cases up
      · exact h.2.2.2
      · exact h.2.2.1
    | succ k ih =>
      intro n hn c hc
      by_cases hs : n < b
      · have h := digitChar_small n (by omega)
        rw [digitsText_small b up n hs hb] at hc
        simp at hc; subst hc
        cases up
        · exact h.2.2.2
        · exact h.2.2.1
      · rw [digitsText_big b up n hb1 (by omega) hb] at hc
        rcases List.mem_append.1 hc with hc | hc
        · exact ih (n / b) (by rw [Nat.div_lt_iff_lt_mul (by omega)]; rwa [Nat.pow_succ] at hn) c hc
        · have hm : n % b < b := Nat.mod_lt _ (by omega)
          have h := digitChar_small (n % b) (by omega)
          simp at hc; subst hc
          cases up
          · exact h.2.2.2
          · exact h.2.2.1
  refine this n n ?_
  calc n < 2 ^ n := Nat.lt_two_pow_self
    _ ≤ b ^ n := Nat.pow_le_pow_left hb1 n
    _ ≤ b ^ (n + 1) := Nat.pow_le_pow_right (by omega) (by omega)

theorem numText_byte (zero sign : Bool) (w : Nat) (ds : List Nat) (h : ∀ c ∈ ds, c < 256) :
    (numText zero w sign ds).map (· % 256) = numText zero w sign ds := by
  have : ∀ c ∈ numText zero w sign ds, c < 256 := by
    intro c hc
    unfold numText at hc
    cases zero <;> cases sign <;> simp at hc <;> rcases hc with hc | hc <;>
      first | exact h c hc | omega | (rcases hc with hc | hc <;> first | exact h c hc | omega)
  have e : (numText zero w sign ds).map (· % 256) = (numText zero w sign ds).map id :=
    List.map_congr_left fun c hc => Nat.mod_eq_of_lt (this c hc)
  simpa using e

theorem wInt_pred (f : Spec) : (f.wInt - 1).toNat = f.width - 1 := wInt_toNat f 1
theorem wInt_pred2 (f : Spec) : (f.wInt - 1 - 1).toNat = f.width - 2 := by
  rw [show f.wInt - 1 - 1 = f.wInt - (2 : Nat) by omega]; exact wInt_toNat f 2

theorem dec_text (f : Spec) (v : Int) (hv : v.natAbs < 10 ^ 12) (hw : f.width ≤ 10) (hu : f.uns = true → 0 ≤ v) :
    number false false f.uns f.zero f.wInt v =
      numText f.zero f.width (decide (v < 0)) (digitsText 10 false v.natAbs) := by
  have h63 : v.natAbs < 2 ^ 63 := by simp only [Nat.reducePow] at *; omega
  by_cases hn : v < 0
  · have hu' : f.uns = false := by
      cases h : f.uns with
      | false => rfl
      | true => exact absurd (hu h) (by omega)
    have hneg : wrap64 (-v) = ((v.natAbs : Nat) : Int) := by
      rw [wrap64_id _ (by omega) (by simp only [Int.reducePow]; simp only [Nat.reducePow] at hv; omega)]; omega
    have hp : 10 ^ (f.width - 2) < 2 ^ 32 :=
      Nat.lt_of_le_of_lt (Nat.pow_le_pow_right (by decide) (show f.width - 2 ≤ 8 by omega)) (by decide)
    simp only [number, hn, decide_true, hu', Bool.or_self, Bool.not_false, Bool.and_self, if_true, Bool.false_eq_true, if_false, hneg]
    rw [w0of_eq _ _ (by rw [wInt_pred2]; exact hp), wInt_pred2]
    have := chars_text 10 false (by decide) (by decide) 11 (by decide) v.natAbs (f.width - 1) true f.zero (by omega) hv h63
    simp only [Nat.reducePow] at this
    rw [show f.width - 2 = f.width - 1 - 1 by omega, this]
    apply numText_add
    have := digitsText_pos 10 false v.natAbs
    simp only [if_true]; omega
  · have hp : 10 ^ (f.width - 1) < 2 ^ 32 :=
      Nat.lt_of_le_of_lt (Nat.pow_le_pow_right (by decide) (show f.width - 1 ≤ 9 by omega)) (by decide)
    simp only [number, hn, decide_false, Bool.false_and, Bool.false_eq_true, if_false]
    rw [w0of_eq _ _ (by rw [wInt_pred]; exact hp), wInt_pred]
    have := chars_text 10 false (by decide) (by decide) 11 (by decide) v.natAbs f.width false f.zero (by omega) hv h63
    simp only [Nat.reducePow] at this
    rw [show ((v.natAbs : Nat) : Int) = v by omega] at this
    rw [this]
    simp

theorem hex_text (f : Spec) (up : Bool) (v : Int) (h0 : 0 ≤ v) (hv : v < 2 ^ 32) (hw : f.width ≤ 8) :
    number true up f.uns f.zero f.wInt v = numText f.zero f.width false (digitsText 16 up v.natAbs) := by
  have hp : 16 ^ (f.width - 1) < 2 ^ 32 :=
    Nat.lt_of_le_of_lt (Nat.pow_le_pow_right (by decide) (show f.width - 1 ≤ 7 by omega)) (by decide)
  simp only [Int.reducePow] at hv
  have hn : ¬ v < 0 := by omega
  simp only [number, hn, decide_false, Bool.false_and, Bool.false_eq_true, if_true, if_false]
  rw [w0of_eq _ _ (by rw [wInt_pred]; exact hp), wInt_pred]
  have := chars_text 16 up (by decide) (by decide) 7 (by decide) v.natAbs f.width false f.zero (by omega)
    (show v.natAbs < 4294967296 by omega) (by simp only [Nat.reducePow]; omega)
  simp only [Nat.reducePow] at this
  rw [show ((v.natAbs : Nat) : Int) = v by omega] at this
  rw [this]
  simp

theorem atext_eq (p : Piece) (h : p.InRange) : p.atext = p.text := by
  cases p with
  | lit c => rfl
  | pct => rfl
  | dir f k =>
    cases k with
    | dec v =>
      obtain ⟨_, h1, h2, h3⟩ := h
      simp only [Piece.atext, Conv.atext, Piece.text, Conv.text]
      rw [dec_text f v h1 h2 h3]
      exact numText_byte _ _ _ _ (digitsText_byte 10 false (by decide) (by decide) _)
    | hex up v =>
      obtain ⟨_, h1, h2, h3⟩ := h
      simp only [Piece.atext, Conv.atext, Piece.text, Conv.text]
      rw [hex_text f up v h1 h2 h3]
      exact numText_byte _ _ _ _ (digitsText_byte 16 up (by decide) (by decide) _)
    | _ => rfl

theorem atext_all (ps : List Piece) (h : ∀ p ∈ ps, p.InRange) : atext ps = text ps := by
  unfold atext text
  induction ps with
  | nil => rfl
  | cons p ps ih =>
    rw [List.flatMap_cons, List.flatMap_cons, atext_eq p (h p List.mem_cons_self), ih fun q hq => h q (List.mem_cons_of_mem _ hq)]

end Verif.Printf
