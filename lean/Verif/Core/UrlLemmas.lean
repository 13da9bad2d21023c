import Verif.Core.Url
set_option linter.unusedSimpArgs false
namespace Verif.Url
open Verif Verif.Mkv

theorem lastIdx_none (p : Nat → Bool) (s : Str) : lastIdx p s = none ↔ ∀ c ∈ s, p c = false := by
  induction s with
  | nil => simp [lastIdx]
  | cons c s ih =>
    simp only [lastIdx]
    cases h : lastIdx p s with
    | some i =>
      simp only [reduceCtorEq, false_iff]
      intro hc
      rw [h] at ih
      exact absurd (ih.2 fun x hx => hc x (List.mem_cons_of_mem _ hx)) (by simp)
    | none =>
      rw [h] at ih
      have := ih.1 rfl
      by_cases hp : p c = true
      · simp [hp]
      · rw [Bool.not_eq_true] at hp
        simp only [hp, Bool.false_eq_true, if_false, true_iff]
        intro x hx
        rcases List.mem_cons.1 hx with rfl | hx
        · exact hp
        · exact this x hx

theorem lastIdx_at (p : Nat → Bool) (a : Str) (c : Nat) (b : Str) (hc : p c = true) (hb : ∀ x ∈ b, p x = false) :
    lastIdx p (a ++ c :: b) = some a.length := by
  induction a with
  | nil => simp [lastIdx, (lastIdx_none p b).2 hb, hc]
  | cons d a ih => simp [lastIdx, ih]

theorem lastIdx_some (p : Nat → Bool) (s : Str) (i : Nat) (h : lastIdx p s = some i) :
    ∃ a c b, s = a ++ c :: b ∧ a.length = i ∧ p c = true ∧ ∀ x ∈ b, p x = false := by
  induction s generalizing i with
  | nil => simp [lastIdx] at h
  | cons d s ih =>
    simp only [lastIdx] at h
    cases hs : lastIdx p s with
    | some j =>
      rw [hs] at h
      simp only [Option.some.injEq] at h
      obtain ⟨a, c, b, e, hl, hc, hb⟩ := ih j hs
      exact ⟨d :: a, c, b, by rw [e]; rfl, by simp [hl, ← h], hc, hb⟩
    | none =>
      rw [hs] at h
      by_cases hp : p d = true
      · simp only [hp, if_true, Option.some.injEq] at h
        exact ⟨[], d, s, rfl, h, hp, (lastIdx_none p s).1 hs⟩
      · simp [hp] at h

theorem takeWhile_colon (b r : Str) (hb : 0x3A ∉ b) : (b ++ 0x3A :: r).takeWhile (· != 0x3A) = b := by
  induction b with
  | nil => simp
  | cons c b ih =>
    simp only [List.mem_cons, not_or] at hb
    rw [List.cons_append, List.takeWhile_cons, ih hb.2]
    have : (c != 0x3A) = true := by simpa using fun h => hb.1 h.symm
    simp [this]

theorem scheme_some (u b : Str) : scheme u = some b ↔ ∃ r, u = b ++ lit "://" ++ r ∧ 0x3A ∉ b := by
  have hl : lit "://" = [0x3A, 0x2F, 0x2F] := rfl
  rw [hl]
  constructor
  · intro h
    simp only [scheme] at h
    by_cases hp : [0x3A, 0x2F, 0x2F].isPrefixOf (u.drop (u.takeWhile (· != 0x3A)).length) = true
    · rw [if_pos hp] at h
      simp only [Option.some.injEq] at h
      rw [h] at hp
      rw [List.isPrefixOf_iff_prefix] at hp
      obtain ⟨r, hr⟩ := hp
      refine ⟨r, ?_, ?_⟩
      · have ht : u.take b.length = b := by
          rw [← h]
          exact (List.prefix_iff_eq_take.1 (List.takeWhile_prefix _)).symm
        rw [List.append_assoc, hr]
        conv => lhs; rw [← List.take_append_drop b.length u, ht]
      · intro hm
        rw [← h] at hm
        have := List.all_eq_true.1 (List.all_takeWhile (l := u) (p := (· != 0x3A))) _ hm
        simp at this
    · rw [if_neg hp] at h; cases h
  · rintro ⟨r, rfl, hb⟩
    simp only [scheme, List.append_assoc, List.cons_append, List.nil_append]
    rw [takeWhile_colon b _ hb]
    simp

theorem scheme_none (u : Str) (h : 0x3A ∉ u) : scheme u = none := by
  cases hs : scheme u with
  | none => rfl
  | some b =>
    obtain ⟨r, e, _⟩ := (scheme_some u b).1 hs
    exact absurd (by rw [e]; simp [lit]) h

theorem protoEnd_zero (u : Str) : protoEnd u = 0 ↔ scheme u = none := by
  unfold protoEnd
  cases scheme u <;> simp

theorem protoEnd_le (u : Str) : protoEnd u ≤ u.length := by
  unfold protoEnd
  cases h : scheme u with
  | none => simp
  | some b =>
    obtain ⟨r, e, _⟩ := (scheme_some u b).1 h
    have hl : (lit "://").length = 3 := rfl
    have := congrArg List.length e
    simp only [List.length_append, hl] at this
    simp only; omega

/-- The part in front of the rest: empty or a scheme. -/
theorem take_protoEnd (u : Str) : u.take (protoEnd u) = [] ∨ ∃ b, u.take (protoEnd u) = b ++ lit "://" ∧ scheme u = some b := by
  unfold protoEnd
  cases h : scheme u with
  | none => simp
  | some b =>
    obtain ⟨r, e, _⟩ := (scheme_some u b).1 h
    refine .inr ⟨b, ?_, rfl⟩
    have hl : (b ++ lit "://").length = b.length + 3 := by simp [lit]
    conv => lhs; rw [e]
    simp only
    rw [← hl, List.take_left]

/-- Only the text up to the first `://` decides. -/
theorem scheme_append (u v b : Str) (h : scheme u = some b) : scheme (u ++ v) = some b := by
  obtain ⟨r, e, hb⟩ := (scheme_some u b).1 h
  exact (scheme_some _ b).2 ⟨r ++ v, by rw [e]; simp [List.append_assoc], hb⟩

end Verif.Url
