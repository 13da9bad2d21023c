import Verif.Ebml.Vint
/-! Helper lemmas about size fields. -/
namespace Verif.Ebml

theorem forall_u8 {p : UInt8 → Prop} (h : ∀ n : Fin 256, p (UInt8.ofNat n.val)) (b : UInt8) : p b := by
  have := h ⟨b.toNat, b.toNat_lt⟩
  simpa using this

/-- The marker bit `i` of the first byte. -/
abbrev mbit (b0 : UInt8) (i : Nat) : Prop := b0 &&& (0x80 >>> UInt8.ofNat i) ≠ 0

theorem findMarker_some (b0 : UInt8) (avail n i : Nat) (hn : n ≤ 8) :
    findMarker b0 avail n = some i ↔
      8 - n ≤ i ∧ i < 8 ∧ i < avail ∧ mbit b0 i ∧ ∀ j, 8 - n ≤ j → j < i → ¬ mbit b0 j := by
  induction n with
  | zero => simp [findMarker]; omega
  | succ n ih =>
    have ih := ih (by omega)
    simp only [findMarker]
    split
    · split
      · rename_i h1 h2
        constructor
        · intro h
          simp only [Option.some.injEq] at h
          subst h
          exact ⟨by omega, by omega, h1, h2, by omega⟩
        · rintro ⟨a, b, c, d, e⟩
          by_cases hi : i = 8 - (n+1)
          · simp [hi]
          · exact absurd h2 (e _ (Nat.le_refl _) (by omega))
      · rename_i h1 h2
        rw [ih]
        constructor
        · rintro ⟨a, b, c, d, e⟩
          refine ⟨by omega, b, c, d, ?_⟩
          intro j hj hji
          by_cases hj' : j = 8 - (n+1)
          · subst hj'; exact h2
          · exact e j (by omega) hji
        · rintro ⟨a, b, c, d, e⟩
          by_cases hi : i = 8 - (n+1)
          · subst hi; exact absurd d h2
          · exact ⟨by omega, b, c, d, fun j hj hji => e j (by omega) hji⟩
    · constructor
      · intro h; cases h
      · rintro ⟨a, b, c, d, e⟩; omega

/-- What the marker bits mean for the numeric value of the first byte. -/
theorem mbit_iff (b0 : UInt8) (i : Nat) (hi : i < 8) :
    (mbit b0 i ∧ ∀ j, j < i → ¬ mbit b0 j) ↔ 2 ^ (7 - i) ≤ b0.toNat ∧ b0.toNat < 2 ^ (8 - i) := by
  have key : ∀ b : Fin 256, ∀ i : Fin 8,
      (mbit (UInt8.ofNat b.val) i.val ∧ ∀ j, j < i.val → ¬ mbit (UInt8.ofNat b.val) j) ↔
        2 ^ (7 - i.val) ≤ (UInt8.ofNat b.val).toNat ∧ (UInt8.ofNat b.val).toNat < 2 ^ (8 - i.val) := by
    decide +kernel
  exact forall_u8 (p := fun b => (mbit b i ∧ ∀ j, j < i → ¬ mbit b j) ↔
    2 ^ (7 - i) ≤ b.toNat ∧ b.toNat < 2 ^ (8 - i)) (fun n => key n ⟨i, hi⟩) b0

theorem findMarker_iff (b0 : UInt8) (avail i : Nat) :
    findMarker b0 avail 8 = some i ↔
      i < 8 ∧ i < avail ∧ 2 ^ (7 - i) ≤ b0.toNat ∧ b0.toNat < 2 ^ (8 - i) := by
  rw [findMarker_some b0 avail 8 i (by omega)]
  constructor
  · rintro ⟨_, h1, h2, h3, h4⟩
    have := (mbit_iff b0 i h1).1 ⟨h3, fun j hj => h4 j (by omega) hj⟩
    exact ⟨h1, h2, this.1, this.2⟩
  · rintro ⟨h1, h2, h3, h4⟩
    have := (mbit_iff b0 i h1).2 ⟨h3, h4⟩
    exact ⟨by omega, h1, h2, this.1, fun j _ hj => this.2 j hj⟩

/-- Removing the marker subtracts its value. -/
theorem clear_marker (b0 : UInt8) (i : Nat) (hi : i < 8)
    (h1 : 2 ^ (7 - i) ≤ b0.toNat) (h2 : b0.toNat < 2 ^ (8 - i)) :
    (b0 &&& ~~~(0x80 >>> UInt8.ofNat i)).toNat = b0.toNat - 2 ^ (7 - i) := by
  have key : ∀ b : Fin 256, ∀ i : Fin 8,
      2 ^ (7 - i.val) ≤ (UInt8.ofNat b.val).toNat → (UInt8.ofNat b.val).toNat < 2 ^ (8 - i.val) →
      (UInt8.ofNat b.val &&& ~~~(0x80 >>> UInt8.ofNat i.val)).toNat
        = (UInt8.ofNat b.val).toNat - 2 ^ (7 - i.val) := by decide +kernel
  exact forall_u8 (p := fun b => 2 ^ (7 - i) ≤ b.toNat → b.toNat < 2 ^ (8 - i) →
    (b &&& ~~~(0x80 >>> UInt8.ofNat i)).toNat = b.toNat - 2 ^ (7 - i))
    (fun n => key n ⟨i, hi⟩) b0 h1 h2

/-- The first byte written: marker plus the top bits. -/
theorem codedFirst_toNat (L : Int) (n : Nat) (h1 : 1 ≤ n) (h8 : n ≤ 8) :
    ((codedFirst L n).toNat : Int) = 2 ^ (8 - n) + (L / (256 ^ (n - 1) : Nat)) % 2 ^ (8 - n) := by
  unfold codedFirst
  generalize L / ((256 ^ (n - 1) : Nat) : Int) = q
  have key : ∀ b : Fin 256, ∀ n : Fin 9, 1 ≤ n.val →
      (UInt8.ofNat (1 <<< (8 - n.val)) ||| (UInt8.ofNat b.val &&& (0xFF >>> UInt8.ofNat (n.val - 1)))).toNat
        = 2 ^ (8 - n.val) + b.val % 2 ^ (8 - n.val) := by decide +kernel
  have hq0 := Int.emod_nonneg q (b := 256) (by decide)
  have hq1 := Int.emod_lt_of_pos q (b := 256) (by decide)
  have hk := key ⟨(q % 256).toNat, by omega⟩ ⟨n, by omega⟩ h1
  simp only at hk
  unfold lowByte
  rw [hk]
  have hn : n = 1 ∨ n = 2 ∨ n = 3 ∨ n = 4 ∨ n = 5 ∨ n = 6 ∨ n = 7 ∨ n = 8 := by omega
  rcases hn with h | h | h | h | h | h | h | h <;> subst h <;> simp only [Nat.reduceSub, Nat.reducePow, Int.reducePow] <;> omega

/-- A finite size field of length `n` decodes to the value modulo `2^(7n)`. -/
theorem readCodedSize_codedValue (L : Int) (n : Nat) (h1 : 1 ≤ n) (h8 : n ≤ 8) (rest : Bytes) :
    readCodedSize (codedValue L n true ++ rest) = ⟨(L % 2 ^ (7 * n)).toNat, n, unknownMark (n - 1)⟩ := by
  simp only [codedValue, if_true, List.cons_append, readCodedSize]
  have hb := codedFirst_toNat L n h1 h8
  generalize hb0 : codedFirst L n = b0 at hb
  have hm0 := Int.emod_nonneg (L / (256 ^ (n - 1) : Nat)) (b := 2 ^ (8 - n)) (by
    have : (0 : Int) < 2 ^ (8 - n) := Int.pow_pos (by decide)
    omega)
  have hm1 := Int.emod_lt_of_pos (L / (256 ^ (n - 1) : Nat)) (b := 2 ^ (8 - n)) (Int.pow_pos (by decide))
  have hlo : 2 ^ (7 - (n - 1)) ≤ b0.toNat := by
    have e : 7 - (n - 1) = 8 - n := by omega
    rw [e]
    have : ((2 ^ (8 - n) : Nat) : Int) = 2 ^ (8 - n) := by norm_cast
    omega
  have hhi : b0.toNat < 2 ^ (8 - (n - 1)) := by
    have e : 8 - (n - 1) = (8 - n) + 1 := by omega
    rw [e, Nat.pow_succ]
    have : ((2 ^ (8 - n) : Nat) : Int) = 2 ^ (8 - n) := by norm_cast
    omega
  have hf : findMarker b0 (b0 :: (beBytes (n - 1) L ++ rest)).length 8 = some (n - 1) := by
    rw [findMarker_iff]
    exact ⟨by omega, by simp; omega, hlo, hhi⟩
  rw [hf]
  simp only []
  have htake : (beBytes (n - 1) L ++ rest).take (n - 1) = beBytes (n - 1) L := by
    rw [List.take_append_of_le_length (by simp), List.take_of_length_le (by simp)]
  rw [htake, beNat_cons, clear_marker b0 (n-1) (by omega) hlo hhi]
  simp only [beBytes_length]
  have hn : n - 1 + 1 = n := by omega
  rw [hn]
  congr 1
  have hbe := beNat_beBytes (n - 1) L
  have hcast : ((2 ^ (7 - (n-1)) : Nat) : Int) = 2 ^ (8 - n) := by
    have e : 7 - (n - 1) = 8 - n := by omega
    rw [e]; norm_cast
  have hsub : ((b0.toNat - 2 ^ (7 - (n-1)) : Nat) : Int) = L / (256 ^ (n - 1) : Nat) % 2 ^ (8 - n) := by
    omega
  have hgoal : (((b0.toNat - 2 ^ (7 - (n-1))) * 256 ^ (n - 1) + beNat (beBytes (n - 1) L) : Nat) : Int)
      = L % 2 ^ (7 * n) := by
    rw [Int.natCast_add, Int.natCast_mul, hsub, hbe]
    clear hbe hsub hcast htake hf hhi hlo hb hm0 hm1 hb0
    have hn : n = 1 ∨ n = 2 ∨ n = 3 ∨ n = 4 ∨ n = 5 ∨ n = 6 ∨ n = 7 ∨ n = 8 := by omega
    rcases hn with h | h | h | h | h | h | h | h <;> subst h <;>
      simp only [Nat.reduceSub, Nat.reduceMul, Nat.reducePow, Int.reducePow, Int.cast_ofNat_Int] <;> omega
  omega

end Verif.Ebml
namespace Verif.Ebml

theorem unknownMark_eq (n : Nat) (h1 : 1 ≤ n) (h8 : n ≤ 8) : unknownMark (n - 1) = 2 ^ (7 * n) - 1 := by
  have hn : n = 1 ∨ n = 2 ∨ n = 3 ∨ n = 4 ∨ n = 5 ∨ n = 6 ∨ n = 7 ∨ n = 8 := by omega
  rcases hn with h | h | h | h | h | h | h | h <;> subst h <;> decide

theorem codedSizeLength_range (L : Int) (k : Nat) (hk : k ≤ 8) (f : Bool) :
    1 ≤ codedSizeLength L k f ∧ codedSizeLength L k f ≤ 8 := by
  simp only [codedSizeLength]
  (repeat' split) <;> omega

theorem codedSizeLengthSigned_range (L : Int) (k : Nat) (hk : k ≤ 8) :
    1 ≤ codedSizeLengthSigned L k ∧ codedSizeLengthSigned L k ≤ 8 := by
  simp only [codedSizeLengthSigned]
  (repeat' split) <;> omega

@[simp] theorem codedValue_length (L : Int) (n : Nat) (f : Bool) (h1 : 1 ≤ n) :
    (codedValue L n f).length = n := by
  simp [codedValue]; omega

theorem codedValue_infinite (L : Int) (n : Nat) : codedValue L n false = codedValue maxFilepos n true := by
  simp [codedValue]

/-- Shape of a successful decode. -/
theorem readCodedSize_shape (b0 : UInt8) (rest : Bytes) (i : Nat)
    (h : findMarker b0 (rest.length + 1) 8 = some i) :
    readCodedSize (b0 :: rest) =
      ⟨(b0.toNat - 2 ^ (7 - i)) * 256 ^ i + beNat (rest.take i), i + 1, unknownMark i⟩ := by
  have hm := (findMarker_iff _ _ _).1 h
  obtain ⟨h1, h2, h3, h4⟩ := hm
  simp only [readCodedSize, List.length_cons, h, beNat_cons, clear_marker b0 i h1 h3 h4]
  have : (rest.take i).length = i := by simp; omega
  rw [this]

theorem findMarker_none (b0 : UInt8) (avail : Nat) (h : findMarker b0 avail 8 = none) (i : Nat) :
    ¬ (i < 8 ∧ i < avail ∧ 2 ^ (7 - i) ≤ b0.toNat ∧ b0.toNat < 2 ^ (8 - i)) := by
  intro hi
  rw [← findMarker_iff, h] at hi
  cases hi

/-- The encoder inverts the decoder. -/
theorem codedValue_readCodedSize (buf : Bytes) (h : (readCodedSize buf).len ≠ 0) :
    codedValue (readCodedSize buf).value (readCodedSize buf).len true = buf.take (readCodedSize buf).len := by
  cases buf with
  | nil => simp [readCodedSize] at h
  | cons b0 rest =>
    cases hf : findMarker b0 (rest.length + 1) 8 with
    | none => simp [readCodedSize, hf] at h
    | some i =>
      have hm := (findMarker_iff _ _ _).1 hf
      obtain ⟨h1, h2, h3, h4⟩ := hm
      rw [readCodedSize_shape _ _ _ hf]
      simp only [codedValue, if_true, List.take_succ_cons, Nat.add_sub_cancel]
      have hlt : (rest.take i).length = i := by simp; omega
      have hbl := beNat_lt (rest.take i)
      rw [hlt] at hbl
      have hcast : ∀ x y : Nat, (((x * 256 ^ i + y : Nat)) : Int) = (x : Int) * (256 ^ i : Nat) + y := by
        intro x y; rw [Int.natCast_add, Int.natCast_mul]
      congr 1
      · apply UInt8.toNat_inj.mp
        have hcf := codedFirst_toNat (((b0.toNat - 2 ^ (7 - i)) * 256 ^ i + beNat (List.take i rest) : Nat) : Int) (i+1) (by omega) (by omega)
        have e : 8 - (i + 1) = 7 - i := by omega
        rw [e, Nat.add_sub_cancel] at hcf
        have hq : (((b0.toNat - 2 ^ (7 - i)) * 256 ^ i + beNat (List.take i rest) : Nat) : Int) / (256 ^ i : Nat)
            = ((b0.toNat - 2 ^ (7 - i) : Nat) : Int) := by
          have : ((b0.toNat - 2 ^ (7 - i)) * 256 ^ i + beNat (List.take i rest)) / 256 ^ i = b0.toNat - 2 ^ (7 - i) := by
            rw [Nat.mul_comm, Nat.mul_add_div (Nat.pow_pos (by decide)), Nat.div_eq_of_lt hbl]; rfl
          exact_mod_cast this
        rw [hq] at hcf
        have hsmall : b0.toNat - 2 ^ (7 - i) < 2 ^ (7 - i) := by
          have e2 : 8 - i = (7 - i) + 1 := by omega
          rw [e2, Nat.pow_succ] at h4
          omega
        have hmod : ((b0.toNat - 2 ^ (7 - i) : Nat) : Int) % 2 ^ (7 - i) = ((b0.toNat - 2 ^ (7 - i) : Nat) : Int) := by
          have : (b0.toNat - 2 ^ (7 - i)) % 2 ^ (7 - i) = (b0.toNat - 2 ^ (7 - i)) := Nat.mod_eq_of_lt hsmall
          exact_mod_cast this
        rw [hmod] at hcf
        have hc2 : ((2 ^ (7 - i) : Nat) : Int) = 2 ^ (7 - i) := by norm_cast
        omega
      · have := beBytes_beNat (rest.take i)
        rw [hlt] at this
        rw [← this]
        apply beBytes_congr
        rw [this, hcast]
        rw [Int.add_comm, Int.add_mul_emod_self_right]

theorem and_mask_eq_zero (id k : Nat) (hk : k = 8 ∨ k = 16 ∨ k = 24) (h : id < 2 ^ 32) :
    id &&& (2 ^ 32 - 2 ^ k) = 0 ↔ id < 2 ^ k := by
  have hmask : ∀ i : Fin 32, (2 ^ 32 - 2 ^ k).testBit i.val = decide (k ≤ i.val) := by
    rcases hk with h | h | h <;> subst h <;> decide
  constructor
  · intro h0
    apply Nat.lt_of_not_le
    intro hge
    obtain ⟨i, hi, hb⟩ := Nat.exists_ge_and_testBit_of_ge_two_pow hge
    have hi32 : i < 32 := by
      apply Nat.lt_of_not_le
      intro hle
      have := Nat.testBit_lt_two_pow (Nat.lt_of_lt_of_le h (Nat.pow_le_pow_right (by decide) hle))
      rw [this] at hb; cases hb
    have h1 : (id &&& (2 ^ 32 - 2 ^ k)).testBit i = true := by
      rw [Nat.testBit_and, hb, hmask ⟨i, hi32⟩]; simp [hi]
    rw [h0] at h1; simp at h1
  · intro hlt
    apply Nat.eq_of_testBit_eq
    intro i
    rw [Nat.testBit_and, Nat.zero_testBit]
    by_cases hi : k ≤ i
    · rw [Nat.testBit_lt_two_pow (Nat.lt_of_lt_of_le hlt (Nat.pow_le_pow_right (by decide) hi))]; rfl
    · have : i < 32 := by omega
      rw [hmask ⟨i, this⟩]; simp [hi]

theorem idLength_eq (id : Nat) (h : id < 2 ^ 32) :
    idLength id = if id < 2 ^ 8 then 1 else if id < 2 ^ 16 then 2 else if id < 2 ^ 24 then 3 else 4 := by
  have h1 := and_mask_eq_zero id 8 (by simp) h
  have h2 := and_mask_eq_zero id 16 (by simp) h
  have h3 := and_mask_eq_zero id 24 (by simp) h
  simp only [Nat.reducePow, Nat.reduceSub] at h1 h2 h3
  simp only [idLength, h1, h2, h3, Nat.reducePow]

end Verif.Ebml
