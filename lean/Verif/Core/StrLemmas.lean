import Verif.Core.Str
set_option linter.unusedSimpArgs false
/-! Lemmas about strings. -/
namespace Verif.Core
open Verif

/-- Every statement about all bytes can be checked byte by byte. -/
theorem all_u8 {P : UInt8 → Prop} [DecidablePred P] (h : ∀ n : Fin 256, P (UInt8.ofNat n.val)) : ∀ b, P b := by
  intro b
  have := h ⟨b.toNat, b.toNat_lt⟩
  simpa using this

theorem mask_bit : ∀ x : UInt8, x &&& ~~~(0x20 : UInt8) = 0 → x = 0 ∨ x = 0x20 := by
  apply all_u8; decide +kernel

theorem letter_flip : ∀ a : UInt8, (a &&& ~~~(0x20 : UInt8)) ≥ 65 → (a &&& ~~~(0x20 : UInt8)) ≤ 90 →
    asciiUpper (chr a) = asciiUpper (chr (a ^^^ 0x20)) := by
  apply all_u8; decide +kernel

theorem letter_pair : ∀ a : UInt8, 97 ≤ a.toNat → a.toNat ≤ 122 →
    sameLetter a (UInt8.ofNat (a.toNat - 32)) = true ∧ sameLetter (UInt8.ofNat (a.toNat - 32)) a = true := by
  apply all_u8; decide +kernel

theorem chr_inj (a b : UInt8) (h : chr a = chr b) : a = b := by
  have h1 := a.toNat_lt
  have h2 := b.toNat_lt
  apply UInt8.toNat_inj.1
  unfold chr at h
  split at h <;> split at h <;> omega

/-- The test of the macros is equality after `ascii_upper`. -/
theorem sameLetter_iff (a b : UInt8) : (a = b ∨ sameLetter a b = true) ↔ asciiUpper (chr a) = asciiUpper (chr b) := by
  constructor
  · intro h
    rcases h with rfl | h
    · rfl
    · unfold sameLetter at h
      simp only [Bool.and_eq_true, beq_iff_eq, decide_eq_true_eq] at h
      rcases mask_bit _ h.1.1 with hx | hx
      · have : b = a := UInt8.xor_eq_zero_iff.1 hx
        rw [this]
      · have : b = a ^^^ 0x20 := by
          rw [← hx, UInt8.xor_comm b a, ← UInt8.xor_assoc, UInt8.xor_self, UInt8.zero_xor]
        rw [this]
        exact letter_flip a h.1.2 h.2
  · intro h
    have h1 := a.toNat_lt
    have h2 := b.toNat_lt
    have key : ∀ x y : UInt8, 97 ≤ chr x → chr x ≤ 122 → chr y = chr x - 32 → y = UInt8.ofNat (x.toNat - 32) ∧ 97 ≤ x.toNat ∧ x.toNat ≤ 122 := by
      intro x y c1 c2 c3
      have g1 := x.toNat_lt
      have g2 := y.toNat_lt
      have ex : chr x = x.toNat := by
        unfold chr at c1 ⊢
        by_cases hx : x.toNat < 128
        · rw [if_pos hx]
        · rw [if_neg hx] at c1; omega
      have ey : y.toNat = x.toNat - 32 := by
        rw [ex] at c1 c2 c3
        unfold chr at c3
        by_cases hy : y.toNat < 128
        · rw [if_pos hy] at c3; omega
        · rw [if_neg hy] at c3; omega
      refine ⟨?_, by omega, by omega⟩
      rw [← ey, UInt8.ofNat_toNat]
    unfold asciiUpper at h
    by_cases ha : 97 ≤ chr a ∧ chr a ≤ 122
    · by_cases hb : 97 ≤ chr b ∧ chr b ≤ 122
      · rw [if_pos ha, if_pos hb] at h
        exact Or.inl (chr_inj a b (by omega))
      · rw [if_pos ha, if_neg hb] at h
        obtain ⟨e, e1, e2⟩ := key a b ha.1 ha.2 h.symm
        right
        rw [e]
        exact (letter_pair a e1 e2).1
    · by_cases hb : 97 ≤ chr b ∧ chr b ≤ 122
      · rw [if_neg ha, if_pos hb] at h
        obtain ⟨e, e1, e2⟩ := key b a hb.1 hb.2 h
        right
        rw [e]
        exact (letter_pair b e1 e2).2
      · rw [if_neg ha, if_neg hb] at h
        exact Or.inl (chr_inj a b h)

theorem upper_ne_zero : ∀ a : UInt8, a ≠ 0 → asciiUpper (chr a) ≠ 0 := by
  apply all_u8; decide +kernel

/-- The upper-cased characters as integers. -/
def uppers (s : Bytes) : List Int := s.map fun c => asciiUpper (chr c)

theorem icmp_eq (a : Bytes) : ∀ b, icmp a b = cmpInts (uppers a) (uppers b) := by
  induction a with
  | nil =>
    intro b
    cases b with
    | nil => rfl
    | cons c b => simp [icmp, cmpInts, uppers, asciiUpper]
  | cons c a ih =>
    intro b
    cases b with
    | nil => simp [icmp, cmpInts, uppers, asciiUpper]
    | cons d b =>
      simp only [icmp, cmpInts, uppers, List.map_cons]
      by_cases h : c = d ∨ sameLetter c d = true
      · rw [if_pos h, if_pos ((sameLetter_iff c d).1 h)]; exact ih b
      · rw [if_neg h, if_neg (fun x => h ((sameLetter_iff c d).2 x))]

theorem nicmp_eq (n : Nat) : ∀ a b, nicmp n a b = cmpInts (uppers (a.take n)) (uppers (b.take n)) := by
  induction n with
  | zero => intro a b; simp [nicmp, uppers, cmpInts]
  | succ n ih =>
    intro a b
    cases a with
    | nil =>
      cases b with
      | nil => rfl
      | cons c b => simp [nicmp, cmpInts, uppers, asciiUpper]
    | cons c a =>
      cases b with
      | nil => simp [nicmp, cmpInts, uppers, asciiUpper]
      | cons d b =>
        simp only [nicmp, cmpInts, uppers, List.map_cons, List.take_succ_cons]
        by_cases h : c = d ∨ sameLetter c d = true
        · rw [if_pos h, if_pos ((sameLetter_iff c d).1 h)]; exact ih a b
        · rw [if_neg h, if_neg (fun x => h ((sameLetter_iff c d).2 x))]

theorem isame_eq (a : Bytes) : ∀ b, isame a b = true ↔ uppers a = uppers b := by
  induction a with
  | nil =>
    intro b
    cases b <;> simp [isame, uppers]
  | cons c a ih =>
    intro b
    cases b with
    | nil => simp [isame, uppers]
    | cons d b =>
      simp only [isame, uppers, List.map_cons, List.cons.injEq]
      by_cases h : c = d ∨ sameLetter c d = true
      · rw [if_pos h]
        have := (sameLetter_iff c d).1 h
        simp only [this, true_and]; exact ih b
      · rw [if_neg h]
        have : ¬ asciiUpper (chr c) = asciiUpper (chr d) := fun x => h ((sameLetter_iff c d).2 x)
        simp [this]

theorem cmpInts_self (a : List Int) : cmpInts a a = 0 := by
  induction a with
  | nil => rfl
  | cons c a ih => simp [cmpInts, ih]

theorem cmpInts_anti (a : List Int) : ∀ b, cmpInts b a = - cmpInts a b := by
  induction a with
  | nil => intro b; cases b <;> simp [cmpInts]
  | cons c a ih =>
    intro b
    cases b with
    | nil => simp [cmpInts]
    | cons d b =>
      simp only [cmpInts]
      by_cases h : c = d
      · rw [if_pos h, if_pos h.symm]; exact ih b
      · rw [if_neg h, if_neg (fun x => h x.symm)]; omega

theorem cmpInts_zero (a : List Int) : ∀ b, (∀ x ∈ a, x ≠ 0) → (∀ x ∈ b, x ≠ 0) → (cmpInts a b = 0 ↔ a = b) := by
  induction a with
  | nil =>
    intro b _ hb
    cases b with
    | nil => simp [cmpInts]
    | cons d b =>
      have := hb d (by simp)
      simp only [cmpInts]
      constructor
      · intro h; omega
      · intro h; simp at h
  | cons c a ih =>
    intro b ha hb
    cases b with
    | nil =>
      have := ha c (by simp)
      simp only [cmpInts]
      constructor
      · intro h; omega
      · intro h; simp at h
    | cons d b =>
      simp only [cmpInts]
      by_cases h : c = d
      · rw [if_pos h, ih b (fun x hx => ha x (by simp [hx])) (fun x hx => hb x (by simp [hx]))]
        simp [h]
      · rw [if_neg h]
        constructor
        · intro h2; omega
        · intro h2
          simp only [List.cons.injEq] at h2
          exact absurd h2.1 h

/-- `≤` of the comparison is transitive (the end counts as the character 0). -/
theorem cmpInts_trans (a : List Int) : ∀ b c, (∀ x ∈ a, x ≠ 0) → (∀ x ∈ b, x ≠ 0) → (∀ x ∈ c, x ≠ 0) →
    cmpInts a b ≤ 0 → cmpInts b c ≤ 0 → cmpInts a c ≤ 0 := by
  induction a with
  | nil =>
    intro b c _ hb hc h1 h2
    match b, c with
    | [], [] => simp [cmpInts]
    | [], z :: c => exact h2
    | y :: b, [] => simp [cmpInts]
    | y :: b, z :: c =>
      have hz := hc z (by simp)
      have hy := hb y (by simp)
      simp only [cmpInts] at *
      by_cases h : y = z
      · subst h; omega
      · rw [if_neg h] at h2; omega
  | cons x a ih =>
    intro b c ha hb hc h1 h2
    have hx := ha x (by simp)
    match b, c with
    | [], [] => exact h1
    | [], z :: c =>
      simp only [cmpInts] at *
      by_cases h : x = z
      · subst h; omega
      · rw [if_neg h]; omega
    | y :: b, [] =>
      have hy := hb y (by simp)
      simp only [cmpInts] at *
      by_cases h : x = y
      · subst h; omega
      · rw [if_neg h] at h1; omega
    | y :: b, z :: c =>
      simp only [cmpInts] at *
      by_cases hxy : x = y
      · subst hxy
        rw [if_pos rfl] at h1
        by_cases hxz : x = z
        · subst hxz
          rw [if_pos rfl] at h2 ⊢
          exact ih b c (fun w hw => ha w (by simp [hw])) (fun w hw => hb w (by simp [hw])) (fun w hw => hc w (by simp [hw])) h1 h2
        · rw [if_neg hxz] at h2 ⊢
          exact h2
      · rw [if_neg hxy] at h1
        by_cases hyz : y = z
        · subst hyz
          rw [if_neg hxy]; omega
        · rw [if_neg hyz] at h2
          rw [if_neg (by omega)]; omega

theorem uppers_ne (s : Bytes) (h : (0 : UInt8) ∉ s) : ∀ x ∈ uppers s, x ≠ 0 := by
  intro x hx
  obtain ⟨c, hc, rfl⟩ := List.mem_map.1 hx
  exact upper_ne_zero c (fun e => h (e ▸ hc))

/-! Memory -/

theorem store_two (mem : Bytes) (i : Nat) (bs : Bytes) (c : UInt8) (h : i + bs.length < mem.length) :
    ((store mem i bs).bind fun m => store m (i + bs.length) [c])
      = some (mem.take i ++ (bs ++ [c]) ++ mem.drop (i + bs.length + 1)) := by
  unfold store
  rw [if_pos (by omega)]
  simp only [Option.bind_some]
  have e : (mem.take i ++ bs ++ mem.drop (i + bs.length)).length = mem.length := by simp; omega
  rw [if_pos (by rw [e]; simp; omega)]
  have hl : (mem.take i ++ bs).length = i + bs.length := by simp; omega
  rw [List.take_append_of_le_length (by omega), List.take_of_length_le (by omega),
    List.drop_append, List.drop_of_length_le (by simp; omega)]
  simp only [List.drop_drop, hl, List.length_singleton, List.nil_append, List.append_assoc]
  have e2 : i + bs.length + (i + bs.length + 1 - (i + bs.length)) = i + bs.length + 1 := by omega
  rw [e2]

theorem takeWhile_stop (p : UInt8 → Bool) (a : Bytes) (c : UInt8) (b : Bytes) (ha : ∀ x ∈ a, p x = true) (hc : p c = false) :
    (a ++ c :: b).takeWhile p = a := by
  induction a with
  | nil => simp [hc]
  | cons x a ih =>
    simp [ha x (by simp), ih (fun y hy => ha y (by simp [hy]))]

theorem strlen_split (mem : Bytes) (n : Nat) (h : strlen mem = some n) :
    n < mem.length ∧ n = (cstr mem).length ∧ mem.take n = cstr mem := by
  unfold strlen at h
  simp only at h
  by_cases hl : (mem.takeWhile (· != 0)).length < mem.length
  · rw [if_pos hl] at h
    have := Option.some.inj h
    refine ⟨by omega, by rw [← this]; rfl, ?_⟩
    rw [← this]
    unfold cstr
    generalize (fun x : UInt8 => x != 0) = p
    clear h hl this n
    induction mem with
    | nil => rfl
    | cons x m ih =>
      by_cases hx : p x = true
      · simp [hx, ih]
      · simp [hx]
  · rw [if_neg hl] at h; simp at h

theorem cstr_all (mem : Bytes) : ∀ x ∈ cstr mem, (x != 0) = true := by
  unfold cstr
  intro x hx
  exact List.all_eq_true.1 (List.all_takeWhile (l := mem)) x hx

end Verif.Core
