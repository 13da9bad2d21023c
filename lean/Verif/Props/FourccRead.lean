import Verif.Core.FourccRead
import Verif.Props.Str
/-!
Property C254: four-character codes in expressions.
-/
namespace Verif.FourccRead
open Verif Verif.Core

/-- The code that a text of up to four characters stands for: filled with underscores; nothing stands for 0. -/
def codeOf : Bytes → Bytes
  | [] => [0, 0, 0, 0]
  | [a] => [a, 0x5F, 0x5F, 0x5F]
  | [a, b] => [a, b, 0x5F, 0x5F]
  | [a, b, c] => [a, b, c, 0x5F]
  | a :: b :: c :: d :: _ => [a, b, c, d]

/-- A text that begins with a code between `@'` and `'`. -/
def Quoted (s code rest : Bytes) : Prop := s = [0x40, 0x27] ++ code ++ [0x27] ++ rest ∧ (0x27 : UInt8) ∉ code ∧ code.length ≤ 4

/-! ### Helpers -/

theorem skip_found (ch : UInt8) (a r : Bytes) (h : ch ∉ a) : skipAfter ch (a ++ ch :: r) = some r := by
  induction a with
  | nil => simp [skipAfter]
  | cons c a ih =>
    rw [List.mem_cons, not_or] at h
    rw [List.cons_append, skipAfter, if_neg (fun e => h.1 e.symm), ih h.2]

theorem skip_some (ch : UInt8) (s r : Bytes) (h : skipAfter ch s = some r) : ∃ a, s = a ++ ch :: r ∧ ch ∉ a := by
  induction s with
  | nil => cases h
  | cons c s ih =>
    rw [skipAfter] at h
    by_cases hc : c = ch
    · rw [if_pos hc] at h
      cases h
      exact ⟨[], by rw [hc]; rfl, by simp⟩
    · rw [if_neg hc] at h
      obtain ⟨a, e, hn⟩ := ih h
      refine ⟨c :: a, by rw [e]; rfl, ?_⟩
      rw [List.mem_cons, not_or]
      exact ⟨fun e => hc e.symm, hn⟩

theorem code_eq (c : Bytes) : stringToFourcc c false = codeOf c := by
  match c with
  | [] => rfl
  | [_] => rfl
  | [_, _] => rfl
  | [_, _, _] => rfl
  | _ :: _ :: _ :: _ :: _ => simp [stringToFourcc, codeOf]

/-! ### The property -/

/-- A code in quotes is read, whatever stands behind it. -/
theorem C254_reads (s code rest : Bytes) (h : Quoted s code rest) : exprFourcc s = some (codeOf code, rest) := by
  obtain ⟨rfl, hn, hl⟩ := h
  have e : [0x40, 0x27] ++ code ++ [0x27] ++ rest = 0x40 :: 0x27 :: (code ++ 0x27 :: rest) := by simp
  rw [e, exprFourcc, skip_found 0x27 code rest hn]
  have hlen : (0x40 :: 0x27 :: (code ++ 0x27 :: rest) : Bytes).length - rest.length = code.length + 3 := by
    simp only [List.length_cons, List.length_append]; omega
  simp only [hlen]
  rw [if_pos (by omega), code_eq]
  have : (List.drop 2 (0x40 :: 0x27 :: (code ++ 0x27 :: rest) : Bytes)).take (min (code.length + 3 - 3) 15) = code := by
    rw [show min (code.length + 3 - 3) 15 = code.length by omega]
    simp
  rw [this]

/-- Nothing else is taken as a code. -/
theorem C254_only (s c rest : Bytes) (h : exprFourcc s = some (c, rest)) : ∃ code, Quoted s code rest ∧ c = codeOf code := by
  have h' := h
  unfold exprFourcc at h
  split at h
  · rename_i t
    cases hs : skipAfter 0x27 t with
    | none => rw [hs] at h; cases h
    | some u =>
      rw [hs] at h
      simp only at h
      split at h
      · rename_i hlen
        obtain ⟨code, e, hn⟩ := skip_some 0x27 t u hs
        have hu : u = rest := by cases h; rfl
        subst hu
        have hq : Quoted (0x40 :: 0x27 :: t) code u := by
          refine ⟨by rw [e]; simp, hn, ?_⟩
          rw [e] at hlen
          simp only [List.length_cons, List.length_append] at hlen
          omega
        refine ⟨code, hq, ?_⟩
        rw [C254_reads _ _ _ hq] at h'
        cases h'; rfl
      · cases h
  · cases h

/-- A code without NUL and quotes, other than `____`, that is written as text and put between quotes is read as the same code. -/
theorem C254_round_trip (code : Bytes) (n : Nat) (hl : code.length = 4) (hn : 5 ≤ n) (h0 : (0 : UInt8) ∉ code) (hq : (0x27 : UInt8) ∉ code)
    (hu : code ≠ [0x5F, 0x5F, 0x5F, 0x5F]) (rest : Bytes) :
    exprFourcc ([0x40, 0x27] ++ cstr (fourccToString code n) ++ [0x27] ++ rest) = some (code, rest) := by
  have hr := (C60_fourcc_round_trip code n hl hn).2 (Or.inl ⟨h0, hu⟩)
  rw [code_eq] at hr
  have hsub : List.Sublist (cstr (fourccToString code n)) code := by
    unfold cstr fourccToString
    refine (List.takeWhile_sublist _).trans ?_
    have : List.Sublist (dropUnderscores (code.take (min 4 (n - 1)))) (code.take (min 4 (n - 1))) := by
      unfold dropUnderscores
      have := (List.dropWhile_sublist (l := (code.take (min 4 (n - 1))).reverse) fun c => c == 0x5F).reverse
      simpa using this
    exact this.trans (List.take_sublist _ _)
  rw [C254_reads _ _ rest ⟨rfl, fun h => hq (hsub.subset h), by have := hsub.length_le; omega⟩, hr]

example : exprFourcc [0x40, 0x27, 0x61, 0x62, 0x27, 0x2B] = some ([0x61, 0x62, 0x5F, 0x5F], [0x2B]) ∧
    exprFourcc [0x40, 0x27, 0x61, 0x62, 0x63, 0x64, 0x65, 0x27] = none ∧ exprFourcc [0x40, 0x27, 0x61] = none := by decide

example : Quoted [0x40, 0x27, 0x61, 0x62, 0x27, 0x2B] [0x61, 0x62] [0x2B] := ⟨rfl, by decide, by decide⟩

end Verif.FourccRead
