import Verif.Vorbis.Spec
import Verif.Props.Bitwise

/-! Lemmas: reading what was written, and what a step of reading can end in. -/

namespace Verif.Vorbis

open Verif

theorem bind_apply {α β : Type} (p : P α) (f : α → P β) (s : St) : (p >>= f) s = (p s).bind fun x => f x.1 x.2 := rfl

theorem pure_apply {α : Type} (a : α) (s : St) : (pure a : P α) s = .ok (a, s) := rfl

/-! ## Reading what was written -/

/-- The step reads `a` from the bits, whatever follows. -/
def Reads {α : Type} (p : P α) (bits : List Bool) (a : α) : Prop := ∀ rest, p (some (bits ++ rest)) = .ok (a, some rest)

theorem Reads.bind {α β : Type} {p : P α} {f : α → P β} {b1 b2 : List Bool} {a : α} {c : β}
    (h1 : Reads p b1 a) (h2 : Reads (f a) b2 c) : Reads (p >>= f) (b1 ++ b2) c := by
  intro rest
  rw [bind_apply, List.append_assoc, h1]
  exact h2 rest

theorem Reads.bindNil {α β : Type} {p : P α} {f : α → P β} {b2 : List Bool} {a : α} {c : β}
    (h1 : Reads p [] a) (h2 : Reads (f a) b2 c) : Reads (p >>= f) b2 c := by
  simpa using Reads.bind h1 h2

theorem Reads.bindPure {α β : Type} {p : P α} {f : α → P β} {b1 : List Bool} {a : α} {c : β}
    (h1 : Reads p b1 a) (h2 : Reads (f a) [] c) : Reads (p >>= f) b1 c := by
  simpa using Reads.bind h1 h2

theorem Reads.pure {α : Type} (a : α) : Reads (pure a : P α) [] a := fun _ => rfl

theorem Reads.need {b : Bool} (h : b = true) : Reads (need b) [] () := by
  intro rest
  simp [Vorbis.need, h]

theorem Reads.chk {b : Bool} (c : Crash) (h : b = true) : Reads (chk b c) [] () := by
  intro rest
  simp [Vorbis.chk, h]

theorem Reads.goodType {b : Bool} (old i : Nat) (h : b = true) : Reads (goodType b old i) [] () := by
  intro rest
  simp [Vorbis.goodType, h]

theorem value_append (a b : List Bool) : value (a ++ b) = value a + 2 ^ a.length * value b := by
  induction a with
  | nil => simp [value]
  | cons x xs ih => simp only [List.cons_append, value, ih, List.length_cons, Nat.pow_succ]; grind

theorem value_lt (a : List Bool) : value a < 2 ^ a.length := by
  induction a with
  | nil => simp [value]
  | cons x xs ih => simp only [value, List.length_cons, Nat.pow_succ]; cases x <;> simp <;> omega

theorem enc_length (n : Nat) (v : Int) : (enc n v).length = n := by simp [enc]

theorem value_bits (n v : Nat) : value ((List.range n).map fun i => v.testBit i) = v % 2 ^ n := by
  induction n with
  | zero => simp [value, Nat.mod_one]
  | succ n ih =>
    rw [List.range_succ, List.map_append, value_append, ih]
    simp only [List.length_map, List.length_range, List.map_cons, List.map_nil, value, Nat.mul_zero, Nat.add_zero]
    rw [Nat.mod_pow_succ, Nat.toNat_testBit]

theorem enc_value (n : Nat) (v : Int) (h : In v 0 (2 ^ n)) : (value (enc n v) : Int) = v := by
  obtain ⟨h0, h1⟩ := h
  unfold enc
  rw [value_bits]
  have : v.toNat < 2 ^ n := by
    have := Int.toNat_of_nonneg h0
    have h2 : (v.toNat : Int) < ((2 ^ n : Nat) : Int) := by rw [this]; simpa using h1
    omega
  rw [Nat.mod_eq_of_lt this]
  omega

theorem Reads.rd {n : Nat} {v : Int} (h : In v 0 (2 ^ n)) : Reads (rd n) (enc n v) v := by
  intro rest
  have hl : n ≤ (enc n v ++ rest).length := by simp [enc_length]
  simp only [Vorbis.rd]
  rw [if_pos hl, List.take_left' (enc_length n v), List.drop_left' (enc_length n v), enc_value n v h]

theorem Reads.rdI {n v : Int} (hn : 0 ≤ n) (h : In v 0 (2 ^ n.toNat)) : Reads (rdI n) (enc n.toNat v) v :=
  Reads.bindNil (Reads.chk _ (by simpa using hn)) (Reads.rd h)

theorem Reads.many {α : Type} {p : P α} (bits : α → List Bool) (l : List α) (h : ∀ a ∈ l, Reads p (bits a) a) :
    Reads (many p l.length) (l.flatMap bits) l := by
  induction l with
  | nil => exact Reads.pure _
  | cons a l ih =>
    rw [List.flatMap_cons]
    exact Reads.bind (h a (by simp)) (Reads.bindPure (ih fun b hb => h b (by simp [hb])) (Reads.pure _))

theorem Reads.each {α : Type} {p : Nat → P α} (bits : α → List Bool) (l : List α) (i : Nat)
    (h : ∀ k a, l[k]? = some a → Reads (p (i + k)) (bits a) a) : Reads (each p l.length i) (l.flatMap bits) l := by
  induction l generalizing i with
  | nil => exact Reads.pure _
  | cons a l ih =>
    rw [List.flatMap_cons]
    refine Reads.bind (h 0 a rfl) (Reads.bindPure (ih (i + 1) fun k b hb => ?_) (Reads.pure _))
    have := h (k + 1) b (by simpa using hb)
    rwa [show i + (k + 1) = i + 1 + k by omega] at this

/-! ## What a step can end in -/

/-- Undefined behaviour is only of a kind in `C`, a step ends, its value has `Q`, and also `R` if nothing was read beyond the end. -/
def Sat {α : Type} (C : Crash → Prop) (p : P α) (Q R : α → Prop) : Prop :=
  ∀ s, match p s with
    | .ok (a, s') => Q a ∧ (s'.isSome = true → s.isSome = true ∧ R a)
    | .err => True
    | .crash c => C c
    | .hang => False

theorem Sat.bind {α β : Type} {C : Crash → Prop} {p : P α} {f : α → P β} {Q R : α → Prop} {Q' R' : β → Prop}
    (h1 : Sat C p Q R) (h2 : ∀ a, Q a → Sat C (f a) Q' fun b => R a → R' b) : Sat C (p >>= f) Q' R' := by
  intro s
  have a1 := h1 s
  rw [bind_apply]
  cases hp : p s with
  | ok x =>
    obtain ⟨a, s1⟩ := x
    rw [hp] at a1
    simp only at a1
    have a2 := h2 a a1.1 s1
    simp only [Res.bind]
    cases hf : f a s1 with
    | ok y =>
      obtain ⟨b, s2⟩ := y
      rw [hf] at a2
      simp only at a2 ⊢
      refine ⟨a2.1, fun h => ?_⟩
      obtain ⟨e1, e2⟩ := a2.2 h
      obtain ⟨e3, e4⟩ := a1.2 e1
      exact ⟨e3, e2 e4⟩
    | err => trivial
    | crash c => rw [hf] at a2; exact a2
    | hang => rw [hf] at a2; exact a2
  | err => trivial
  | crash c => rw [hp] at a1; exact a1
  | hang => rw [hp] at a1; exact a1

theorem Sat.pure {α : Type} {C : Crash → Prop} {a : α} {Q R : α → Prop} (h1 : Q a) (h2 : R a) : Sat C (pure a : P α) Q R :=
  fun _ => ⟨h1, fun h => ⟨h, h2⟩⟩

theorem Sat.mono {α : Type} {C C' : Crash → Prop} {p : P α} {Q R Q' R' : α → Prop} (h : Sat C p Q R) (hc : ∀ c, C c → C' c)
    (hq : ∀ a, Q a → Q' a) (hr : ∀ a, Q a → R a → R' a) : Sat C' p Q' R' := by
  intro s
  have a1 := h s
  cases hp : p s with
  | ok x =>
    obtain ⟨a, s1⟩ := x
    rw [hp] at a1
    exact ⟨hq a a1.1, fun e => ⟨(a1.2 e).1, hr a a1.1 (a1.2 e).2⟩⟩
  | err => trivial
  | crash c => rw [hp] at a1; exact hc c a1
  | hang => rw [hp] at a1; exact a1

theorem Sat.need (C : Crash → Prop) (b : Bool) : Sat C (need b) (fun _ => b = true) fun _ => True := by
  intro s
  unfold Vorbis.need
  cases b with
  | true => exact ⟨rfl, fun h => ⟨h, trivial⟩⟩
  | false => trivial

theorem Sat.chk {C : Crash → Prop} {b : Bool} {c : Crash} (h : b = true ∨ C c) : Sat C (chk b c) (fun _ => b = true) fun _ => True := by
  intro s
  unfold Vorbis.chk
  cases b with
  | true => exact ⟨rfl, fun h => ⟨h, trivial⟩⟩
  | false => simpa using h

theorem Sat.goodType {C : Crash → Prop} {b : Bool} {old i : Nat} (h : C .freeType) :
    Sat C (goodType b old i) (fun _ => b = true) fun _ => True := by
  intro s
  unfold Vorbis.goodType
  cases b with
  | true => exact ⟨rfl, fun h => ⟨h, trivial⟩⟩
  | false =>
    simp only [Bool.false_eq_true, if_false]
    by_cases hi : i < old
    · rw [if_pos hi]; exact h
    · rw [if_neg hi]; trivial

theorem Sat.rd (C : Crash → Prop) (n : Nat) : Sat C (rd n) (fun v => -1 ≤ v ∧ v < 2 ^ n) fun v => 0 ≤ v := by
  intro s
  have hp : (0 : Int) < 2 ^ n := Int.pow_pos (by decide)
  cases s with
  | none => exact ⟨⟨by decide, by omega⟩, fun h => by simp at h⟩
  | some bs =>
    simp only [Vorbis.rd]
    by_cases h : n ≤ bs.length
    · rw [if_pos h]
      have := value_lt (bs.take n)
      rw [List.length_take, Nat.min_eq_left h] at this
      have h2 : ((value (bs.take n) : Nat) : Int) < ((2 ^ n : Nat) : Int) := by omega
      refine ⟨⟨by omega, by simpa using h2⟩, fun _ => ⟨rfl, by omega⟩⟩
    · rw [if_neg h]
      exact ⟨⟨by decide, by omega⟩, fun h => by simp at h⟩

theorem Sat.rdI {C : Crash → Prop} {n : Int} (h : C .maskIndex) :
    Sat C (rdI n) (fun v => 0 ≤ n ∧ -1 ≤ v ∧ v < 2 ^ n.toNat) fun v => 0 ≤ v :=
  Sat.bind (Sat.chk (Or.inr h)) fun _ hn =>
    Sat.mono (Sat.rd C n.toNat) (fun _ h => h) (fun a h => ⟨by simpa using hn, h⟩) (fun a _ h _ => h)

theorem Sat.many {α : Type} {C : Crash → Prop} {p : P α} {Q R : α → Prop} (h : Sat C p Q R) (n : Nat) :
    Sat C (many p n) (fun l => l.length = n ∧ ∀ a ∈ l, Q a) fun l => ∀ a ∈ l, R a := by
  induction n with
  | zero => exact Sat.pure (by simp) (by simp)
  | succ n ih =>
    refine Sat.bind h fun a ha => Sat.bind ih fun l hl => Sat.pure ⟨by simp [hl.1], ?_⟩ ?_
    · simpa using ⟨ha, hl.2⟩
    · intro h1 h2; simpa using ⟨h2, h1⟩

theorem Sat.each {α : Type} {C : Crash → Prop} {p : Nat → P α} {Q R : α → Prop} (n i : Nat)
    (h : ∀ k, i ≤ k → k < i + n → Sat C (p k) Q R) :
    Sat C (each p n i) (fun l => l.length = n ∧ ∀ a ∈ l, Q a) fun l => ∀ a ∈ l, R a := by
  induction n generalizing i with
  | zero => exact Sat.pure (by simp) (by simp)
  | succ n ih =>
    refine Sat.bind (h i (by omega) (by omega)) fun a ha =>
      Sat.bind (ih (i + 1) fun k h1 h2 => h k (by omega) (by omega)) fun l hl => Sat.pure ⟨by simp [hl.1], ?_⟩ ?_
    · simpa using ⟨ha, hl.2⟩
    · intro h1 h2; simpa using ⟨h2, h1⟩

/-- A choice between two steps. -/
theorem Sat.ite {α : Type} {C : Crash → Prop} {c : Prop} [Decidable c] {p q : P α} {Q R : α → Prop}
    (h1 : c → Sat C p Q R) (h2 : ¬c → Sat C q Q R) : Sat C (if c then p else q) Q R := by
  by_cases h : c
  · rw [if_pos h]; exact h1 h
  · rw [if_neg h]; exact h2 h

/-! ## The reader is the one of C124 -/

theorem bitsOf_cons (b : UInt8) (bs : Bytes) : bitsOf (b :: bs) = ((List.range 8).map fun i => b.toNat.testBit i) ++ bitsOf bs := by
  simp [bitsOf]

theorem bitsOf_length (data : Bytes) : (bitsOf data).length = 8 * data.length := by
  induction data with
  | nil => rfl
  | cons b bs ih => rw [bitsOf_cons, List.length_append, ih]; simp; omega

theorem value_bitsOf (data : Bytes) : value (bitsOf data) = Tremor.le (data.map UInt8.toNat) := by
  induction data with
  | nil => rfl
  | cons b bs ih =>
    rw [bitsOf_cons, value_append, value_bits, ih, List.map_cons, Tremor.le]
    have := b.toNat_lt
    rw [Nat.mod_eq_of_lt (by omega)]
    simp

theorem value_window (bs : List Bool) (p n : Nat) (h : p + n ≤ bs.length) : value ((bs.drop p).take n) = value bs / 2 ^ p % 2 ^ n := by
  have e : bs = bs.take p ++ ((bs.drop p).take n ++ (bs.drop p).drop n) := by rw [List.take_append_drop, List.take_append_drop]
  have hp : (bs.take p).length = p := by rw [List.length_take]; omega
  have hn : ((bs.drop p).take n).length = n := by rw [List.length_take, List.length_drop]; omega
  have h1 := value_lt (bs.take p)
  have h2 := value_lt ((bs.drop p).take n)
  rw [hp] at h1
  rw [hn] at h2
  conv => rhs; rw [e]
  rw [value_append, hp, Nat.add_mul_div_left _ _ (Nat.two_pow_pos p), Nat.div_eq_of_lt h1, Nat.zero_add, value_append, hn,
    Nat.add_mul_mod_self_left, Nat.mod_eq_of_lt h2]

/-- A read of at most 32 bits is the call `oggpack_read` of C124: bits left are the bits of the data behind its position. -/
theorem rd_is_read (data : Bytes) (n : Nat) (st : Option Nat) (hs : ∀ p, st = some p → p ≤ 8 * data.length) :
    rd n (st.map (bitsOf data).drop) =
      match Tremor.expect (data.map UInt8.toNat) st (.read n) with
      | (.ok v, st') => .ok ((v : Int), st'.map (bitsOf data).drop)
      | (_, st') => .ok (-1, st'.map (bitsOf data).drop) := by
  cases st with
  | none => rfl
  | some p =>
    have hp := hs p rfl
    rw [Tremor.expect_read]
    simp only [Option.map_some, List.length_map, rd, List.length_drop, bitsOf_length]
    by_cases h : p + n ≤ 8 * data.length
    · rw [if_pos (by omega), if_pos h]
      simp only [Option.map_some, List.drop_drop]
      rw [value_window _ _ _ (by rw [bitsOf_length]; omega), value_bitsOf]
    · rw [if_neg (by omega), if_neg h]
      rfl

end Verif.Vorbis
