import Verif.Core.ColorRead
import Verif.Props.ColorText
/-!
Property C253: colours that were written are read back.
-/
namespace Verif.Color
open Verif Verif.Mkv Verif.Scanf

/-! ### Helpers -/

/-- The digits of a number. -/
def digs : Nat → Nat → List Nat
  | 0, _ => []
  | k + 1, v => digs k (v / 16) ++ [v % 16]

theorem hex_char (up : Bool) (d : Nat) (h : d < 16) : hex (hexChar up d) = some d := by
  have : ∀ up d, d < 16 → hex (hexChar up d) = some d := by decide +kernel
  exact this up d h

theorem hx_spells (up : Bool) (k v : Nat) : SpellsHex (hx up k v) (digs k v) := by
  unfold SpellsHex
  induction k generalizing v with
  | zero => rfl
  | succ k ih => simp [hx, digs, ih, hex_char up _ (Nat.mod_lt v (by decide))]

theorem digs_value (k v : Nat) (h : v < 16 ^ k) : value 16 (digs k v) = v := by
  induction k generalizing v with
  | zero => simp at h; subst h; rfl
  | succ k ih =>
    rw [Nat.pow_succ] at h
    have := ih (v / 16) (by rw [Nat.div_lt_iff_lt_mul (by decide)]; exact h)
    unfold value at this ⊢
    rw [digs, List.foldl_append, this]
    show v / 16 * 16 + v % 16 = v
    omega

theorem rgba_sum (r g b a : Nat) : rgba r g b a = r + g * 256 + b * 65536 + a * 16777216 := by
  simp only [rgba, Nat.reducePow]

theorem rgba_turned (r g b a : Nat) : ((r * 256 + g) * 256 + b) * 256 + a = rgba a b g r := by
  rw [rgba_sum]; omega

theorem swap_twice (r g b a : Nat) (hr : r < 256) (hg : g < 256) (hb : b < 256) (ha : a < 256) :
    swap32 (((r * 256 + g) * 256 + b) * 256 + a) = rgba r g b a :=
  (congrArg swap32 (rgba_turned r g b a)).trans ((swap_rgba a b g r ha hb hg hr).trans (rgba_turned a b g r))

/-! ### The property -/

/-- Which colour a text stands for: `#`, hexadecimal digits in either case and anything behind them that is no such digit. Up to
six digits are red, green and blue, more have alpha behind them; of more than eight digits the last eight count. More than fifteen
may overflow. -/
theorem C253_reads (cs ds rest : Str) (h0 : ds ≠ []) (hs : SpellsHex cs ds) (hr : ∀ c, rest.head? = some c → hex c = none) :
    exprRGB (lit "#" ++ cs ++ rest) = if value 16 ds < 2 ^ 63 then
      .ok (some (swap32 ((if ds.length ≤ 6 then value 16 ds * 256 else value 16 ds) % 2 ^ 32), rest)) else .bad := by
  have ec : lit "#" ++ cs ++ rest = 0x23 :: (cs ++ rest) := by simp [lit]
  have key : number 16 hex (cs ++ rest) (-1) 0 = if value 16 ds < 2 ^ 63 then .ok ((value 16 ds : Nat), rest) else .bad :=
    number_digits 16 (by decide) hex rest cs ds (-1) 0 hs (Or.inl (by omega)) (fun c hc => Or.inl (hr c hc)) (by decide)
  have hne : ((cs ++ rest).head?.bind hex) ≠ none := by
    cases ds with
    | nil => exact absurd rfl h0
    | cons d ds =>
      cases cs with
      | nil => simp [SpellsHex] at hs
      | cons c cs =>
        simp only [SpellsHex, List.map_cons, List.cons.injEq] at hs
        simp [hs.1]
  rw [ec, exprRGB, if_neg (by decide), if_neg hne, key]
  by_cases hv : value 16 ds < 2 ^ 63
  · rw [if_pos hv, if_pos hv, bind_ok]
    have hl : (cs ++ rest).length - rest.length = ds.length := by rw [List.length_append, spells_length hs]; omega
    simp only [hl]
    congr 4
    generalize value 16 ds = v
    by_cases h6 : ds.length ≤ 6
    · simp only [if_pos h6, Int.reducePow, Nat.reducePow]; omega
    · simp only [if_neg h6, Int.reducePow, Nat.reducePow]; omega
  · rw [if_neg hv, if_neg hv]
    rfl

/-- Exactly the texts that begin with `#` and a hexadecimal digit are taken as colours. -/
theorem C253_refuses (s : Str) : exprRGB s = .ok none ↔ ¬ ∃ c d t, s = 0x23 :: c :: t ∧ hex c = some d := by
  match s with
  | [] => simp [exprRGB]
  | [c] => simp [exprRGB]
  | c :: c' :: t =>
    rw [exprRGB]
    by_cases h : c = 0x23
    · rw [if_neg (by simpa using h)]
      cases hd : hex c' with
      | none =>
        rw [if_pos (by simpa using hd)]
        simp [hd]
      | some d =>
        rw [if_neg (by simp [hd])]
        constructor
        · intro hn
          exfalso
          cases hk : number 16 hex (c' :: t) (-1) 0 <;> rw [hk] at hn <;> cases hn
        · intro hn
          exact absurd ⟨c', d, t, by rw [h], hd⟩ hn
    · rw [if_pos (by simpa using h)]
      simp [h]

/-- The usual text of every colour is read as this colour. -/
theorem C253_text (r g b a : Nat) (hr : r < 256) (hg : g < 256) (hb : b < 256) (ha : a < 256) (rest : Str)
    (h : ∀ c, rest.head? = some c → hex c = none) : exprRGB (rgbText r g b a ++ rest) = .ok (some (rgba r g b a, rest)) := by
  unfold rgbText
  by_cases h0 : a = 0
  · subst h0
    have e : lit "#" ++ hx true 2 r ++ hx true 2 g ++ hx true 2 b ++ (if 0 = 0 then [] else hx true 2 0) ++ rest =
        lit "#" ++ hx true 6 ((r * 256 + g) * 256 + b) ++ rest := by
      rw [hx_split true 4 _ b hb, hx_split true 2 _ g hg, if_pos rfl]
      simp only [List.append_assoc, List.nil_append]
    have hv := digs_value 6 ((r * 256 + g) * 256 + b) (by simp only [Nat.reducePow]; omega)
    have hl : (digs 6 ((r * 256 + g) * 256 + b)).length = 6 := rfl
    rw [e, C253_reads _ _ _ (by intro hn; rw [hn] at hl; cases hl) (hx_spells true 6 _) h, hv, hl, if_pos (by simp only [Nat.reducePow]; omega),
      if_pos (by decide), Nat.mod_eq_of_lt (by simp only [Nat.reducePow]; omega)]
    have := swap_twice r g b 0 hr hg hb (by decide)
    rw [Nat.add_zero] at this
    rw [this]
  · have e : lit "#" ++ hx true 2 r ++ hx true 2 g ++ hx true 2 b ++ (if a = 0 then [] else hx true 2 a) ++ rest =
        lit "#" ++ hx true 8 (((r * 256 + g) * 256 + b) * 256 + a) ++ rest := by
      rw [hx_split true 6 _ a ha, hx_split true 4 _ b hb, hx_split true 2 _ g hg, if_neg h0]
      simp only [List.append_assoc]
    have hv := digs_value 8 (((r * 256 + g) * 256 + b) * 256 + a) (by simp only [Nat.reducePow]; omega)
    have hl : (digs 8 (((r * 256 + g) * 256 + b) * 256 + a)).length = 8 := rfl
    rw [e, C253_reads _ _ _ (by intro hn; rw [hn] at hl; cases hl) (hx_spells true 8 _) h, hv, hl, if_pos (by simp only [Nat.reducePow]; omega),
      if_neg (by decide), Nat.mod_eq_of_lt (by simp only [Nat.reducePow]; omega), swap_twice r g b a hr hg hb ha]

/-- Writing and reading a colour, partial: with red below 128. Missing (wrong): the other half is not written as usual. -/
theorem C253_round_trip_partial (n : Nat) (h1 : 10 ≤ n) (hn : n < 2 ^ 64) (r g b a : Nat) (hr : r < 128) (hg : g < 256) (hb : b < 256)
    (ha : a < 256) : ∃ t, rgbToString n (rgba r g b a) = .done (t ++ [0]) ∧ exprRGB t = .ok (some (rgba r g b a, [])) := by
  refine ⟨_, C252_rgb_partial n h1 hn r g b a hr hg hb ha, ?_⟩
  have := C253_text r g b a (by omega) hg hb ha [] (by intro c hc; cases hc)
  rwa [List.append_nil] at this

/-- What is written for white, `#000006`, is read as another colour, and sixteen digits overflow. -/
theorem C253_counterexample : rgbToString 20 (rgba 255 255 255 0) = .done (lit "#000006" ++ [0]) ∧ (∀ t, rgbToString 20 (rgba 255 255 255 0) = .done (t ++ [0]) →
    exprRGB t ≠ .ok (some (rgba 255 255 255 0, []))) ∧ exprRGB (lit "#FFFFFFFFFFFFFFFF") = .bad := by
  have hu : rgbToString 20 (rgba 255 255 255 0) = .done (lit "#000006" ++ [0]) := by decide +kernel
  refine ⟨hu, fun t ht => ?_, by decide +kernel⟩
  rw [hu] at ht
  simp only [Printf.O.done.injEq] at ht
  have e := List.append_cancel_right ht
  subst e
  decide +kernel

example : exprRGB (lit "#12ab34;") = .ok (some (rgba 0x12 0xAB 0x34 0, lit ";")) ∧
    exprRGB (lit "#f00") = .ok (some (rgba 0 0x0F 0 0, [])) ∧ exprRGB (lit "#x") = .ok none := by decide +kernel

end Verif.Color
