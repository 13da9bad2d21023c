import Verif.Core.ColorText
import Verif.Props.Scanf
/-!
Property C252: GUIDs and colours as text.
-/
namespace Verif.Color
open Verif Verif.Mkv Verif.Scanf

/-- A hexadecimal digit. -/
def hexChar (upper : Bool) (d : Nat) : Nat := if d < 10 then 0x30 + d else if upper then 0x37 + d else 0x57 + d

/-- The lowest `k` hexadecimal digits, the highest first. -/
def hx (upper : Bool) : Nat → Nat → List Nat
  | 0, _ => []
  | k + 1, v => hx upper k (v / 16) ++ [hexChar upper (v % 16)]

/-- The usual text of a GUID. -/
def guidText (g : Guid) : List Nat :=
  hx false 8 g.v1 ++ lit "-" ++ hx false 4 g.v2 ++ lit "-" ++ hx false 4 g.v3 ++ lit "-" ++ hx false 2 g.b0 ++ hx false 2 g.b1 ++
    lit "-" ++ hx false 2 g.b2 ++ hx false 2 g.b3 ++ hx false 2 g.b4 ++ hx false 2 g.b5 ++ hx false 2 g.b6 ++ hx false 2 g.b7

/-- The fields hold what their types hold. -/
def Guid.Ok (g : Guid) : Prop :=
  g.v1 < 2 ^ 32 ∧ g.v2 < 2 ^ 16 ∧ g.v3 < 2 ^ 16 ∧ g.b0 < 256 ∧ g.b1 < 256 ∧ g.b2 < 256 ∧ g.b3 < 256 ∧ g.b4 < 256 ∧ g.b5 < 256 ∧
    g.b6 < 256 ∧ g.b7 < 256

/-- A colour of four bytes: red is the lowest. -/
def rgba (r g b a : Nat) : Nat := r + g * 2 ^ 8 + b * 2 ^ 16 + a * 2 ^ 24

/-- The text of a colour; alpha is left out when it is 0. -/
def rgbText (r g b a : Nat) : List Nat := lit "#" ++ hx true 2 r ++ hx true 2 g ++ hx true 2 b ++ if a = 0 then [] else hx true 2 a

/-! ### Helpers -/

theorem hx_length (up : Bool) (k v : Nat) : (hx up k v).length = k := by
  induction k generalizing v with
  | zero => rfl
  | succ k ih => simp [hx, ih]

theorem char_eq (up : Bool) (d : Nat) (h : d < 16) : Printf.digitChar up d = hexChar up d := by
  have : ∀ up d, d < 16 → Printf.digitChar up d = hexChar up d := by decide +kernel
  exact this up d h

theorem char_inj (up : Bool) (d e : Nat) (hd : d < 16) (he : e < 16) (h : hexChar up d = hexChar up e) : d = e := by
  unfold hexChar at h
  cases up <;> grind

theorem hx_fixed (up : Bool) (k v : Nat) (h : v < 16 ^ k) : Printf.fixed 16 up k v = hx up k v := by
  induction k generalizing v with
  | zero => rfl
  | succ k ih =>
    rw [Printf.fixed_snoc 16 up (by decide), hx, ih (v / 16) (by rw [Nat.div_lt_iff_lt_mul (by decide)]; rwa [Nat.pow_succ] at h)]
    by_cases hk : k = 0
    · subst hk
      have hv : v < 16 := by simpa using h
      rw [if_pos rfl, Nat.mod_eq_of_lt hv, char_eq up v hv]
    · rw [if_neg hk, char_eq up _ (Nat.mod_lt _ (by decide))]

theorem hx_inj (up : Bool) (k v w : Nat) (hv : v < 16 ^ k) (hw : w < 16 ^ k) (h : hx up k v = hx up k w) : v = w := by
  induction k generalizing v w with
  | zero => simp at hv hw; omega
  | succ k ih =>
    obtain ⟨h1, h2⟩ := List.append_inj h (by rw [hx_length, hx_length])
    rw [Nat.pow_succ] at hv hw
    have a := ih (v / 16) (w / 16) (by rw [Nat.div_lt_iff_lt_mul (by decide)]; exact hv)
      (by rw [Nat.div_lt_iff_lt_mul (by decide)]; exact hw) h1
    have b := char_inj up _ _ (Nat.mod_lt v (by decide)) (Nat.mod_lt w (by decide)) (by simpa using h2)
    omega

/-- A directive `%0kx`. -/
def pc (up : Bool) (k : Nat) (v : Nat) : Printf.Piece := .dir { zero := true, ws := [k] } (.hex up v)

theorem pc_text (up : Bool) (k v : Nat) (h : v < 16 ^ (k + 1)) : (pc up (k + 1) v).text = hx up (k + 1) v := by
  rw [← hx_fixed up _ v h, Printf.fixed_eq 16 up (by decide) (by decide) k v h]
  simp [pc, Printf.Piece.text, Printf.Conv.text, Printf.numText, Printf.Spec.width]

theorem pc_wf (up : Bool) (k v : Nat) (h : k < 10) : (pc up k v).WF := by
  refine ⟨by simpa using h, by simp, ?_⟩
  intro t ht
  rcases ht with ht | ht <;> cases ht

theorem pc_range (up : Bool) (k v : Nat) (h : k ≤ 8) (hv : v < 2 ^ 32) : (pc up k v).InRange := by
  refine ⟨rfl, by omega, ?_, by simpa [Printf.Spec.width] using h⟩
  simp only [Int.reducePow, Nat.reducePow] at *; omega

theorem pc_right (up : Bool) (k v : Nat) : ¬ (pc up k v).RightAligned := fun h => h

/-- The pieces of the text of a GUID. -/
def pieces (g : Guid) : List Printf.Piece :=
  [pc false 8 g.v1, .lit 0x2D, pc false 4 g.v2, .lit 0x2D, pc false 4 g.v3, .lit 0x2D, pc false 2 g.b0, pc false 2 g.b1, .lit 0x2D,
   pc false 2 g.b2, pc false 2 g.b3, pc false 2 g.b4, pc false 2 g.b5, pc false 2 g.b6, pc false 2 g.b7]

theorem guid_mask (g : Guid) : Printf.mask (pieces g) = lit "%08x-%04x-%04x-%02x%02x-%02x%02x%02x%02x%02x%02x" := rfl

theorem guid_text (g : Guid) (h : g.Ok) : Printf.text (pieces g) = guidText g := by
  obtain ⟨h1, h2, h3, k0, k1, k2, k3, k4, k5, k6, k7⟩ := h
  simp only [Nat.reducePow] at h1 h2 h3
  have e1 := pc_text false 7 g.v1 (by simpa using h1)
  have e2 := pc_text false 3 g.v2 (by simpa using h2)
  have e3 := pc_text false 3 g.v3 (by simpa using h3)
  have f := fun v (hv : v < 256) => pc_text false 1 v (by simpa using hv)
  simp only [Nat.reduceAdd] at e1 e2 e3 f
  simp only [pieces, Printf.text, List.flatMap_cons, List.flatMap_nil, e1, e2, e3, f _ k0, f _ k1, f _ k2, f _ k3, f _ k4, f _ k5,
    f _ k6, f _ k7, guidText, List.append_nil, List.append_assoc]
  rfl

theorem guid_wf (g : Guid) : ∀ p ∈ pieces g, p.WF := by
  intro p hp
  simp only [pieces, List.mem_cons, List.not_mem_nil, or_false] at hp
  rcases hp with rfl | rfl | rfl | rfl | rfl | rfl | rfl | rfl | rfl | rfl | rfl | rfl | rfl | rfl | rfl <;>
    first | exact pc_wf _ _ _ (by decide) | exact ⟨by decide, by decide, by decide⟩

theorem guid_range (g : Guid) (h : g.Ok) : ∀ p ∈ pieces g, p.InRange := by
  obtain ⟨h1, h2, h3, k0, k1, k2, k3, k4, k5, k6, k7⟩ := h
  intro p hp
  simp only [Nat.reducePow] at h1 h2 h3
  simp only [pieces, List.mem_cons, List.not_mem_nil, or_false] at hp
  rcases hp with rfl | rfl | rfl | rfl | rfl | rfl | rfl | rfl | rfl | rfl | rfl | rfl | rfl | rfl | rfl <;>
    first | exact pc_range _ _ _ (by decide) (by simp only [Nat.reducePow]; omega) | trivial

theorem guid_right (g : Guid) : ∀ p ∈ pieces g, ¬ p.RightAligned := by
  intro p hp
  simp only [pieces, List.mem_cons, List.not_mem_nil, or_false] at hp
  rcases hp with rfl | rfl | rfl | rfl | rfl | rfl | rfl | rfl | rfl | rfl | rfl | rfl | rfl | rfl | rfl <;> exact fun h => h

theorem swap_rgba (r g b a : Nat) (hr : r < 256) (hg : g < 256) (hb : b < 256) (ha : a < 256) :
    swap32 (rgba r g b a) = ((r * 256 + g) * 256 + b) * 256 + a := by
  have e1 : rgba r g b a / 2 ^ 24 % 256 = a := by unfold rgba; simp only [Nat.reducePow]; omega
  have e2 : rgba r g b a / 2 ^ 16 % 256 = b := by unfold rgba; simp only [Nat.reducePow]; omega
  have e3 : rgba r g b a / 2 ^ 8 % 256 = g := by unfold rgba; simp only [Nat.reducePow]; omega
  have e4 : rgba r g b a % 256 = r := by unfold rgba; simp only [Nat.reducePow]; omega
  unfold swap32
  rw [e1, e2, e3, e4]
  simp only [Nat.reducePow]
  omega

theorem hx_split (up : Bool) (k x d : Nat) (hd : d < 256) : hx up (k + 2) (x * 256 + d) = hx up k x ++ hx up 2 d := by
  have e1 : (x * 256 + d) / 16 / 16 = x := by omega
  have e2 : (x * 256 + d) / 16 % 16 = d / 16 % 16 := by omega
  have e3 : (x * 256 + d) % 16 = d % 16 := by omega
  simp only [hx, e1, e2, e3, List.append_assoc, List.nil_append]

theorem two_zero (a : Nat) (ha : a < 256) : hx true 2 a = [0x30, 0x30] ↔ a = 0 := by
  have : ∀ a, a < 256 → (hx true 2 a = [0x30, 0x30] ↔ a = 0) := by decide +kernel
  exact this a ha

theorem cut {a b : List Nat} (k : Nat) {v w : Nat} (hv : v < 16 ^ k) (hw : w < 16 ^ k) (e : a ++ hx false k v = b ++ hx false k w) :
    a = b ∧ v = w := by
  obtain ⟨x, y⟩ := List.append_inj' e (by rw [hx_length, hx_length])
  exact ⟨x, hx_inj false k v w hv hw y⟩

/-! ### The property -/

/-- C252, partial: a GUID whose first field is below 2^31 is written as usual, in a small buffer the beginning. Missing (and
wrong, see below): the other half. -/
theorem C252_guid_partial (n : Nat) (h1 : 1 ≤ n) (hn : n < 2 ^ 64) (g : Guid) (h : g.Ok) (hv : g.v1 < 2 ^ 31) :
    guidToString n g = .done ((guidText g).take (n - 1) ++ [0]) := by
  have hp := Printf.C93_documented_text n h1 hn (pieces g) (guid_wf g) (guid_range g h) (fits_plain _ _ (guid_right g))
  rw [guid_text g h, guid_mask] at hp
  rw [← hp]
  unfold guidToString
  rw [low32_id (g.v1 : Int) (by simp only [Int.reducePow]; omega) (by simp only [Int.reducePow, Nat.reducePow] at *; omega)]
  rfl

/-- Texts of different GUIDs differ, and have 36 characters. -/
theorem C252_guid_distinct (g g' : Guid) (h : g.Ok) (h' : g'.Ok) (e : guidText g = guidText g') : g = g' ∧ (guidText g).length = 36 := by
  obtain ⟨a1, a2, a3, k0, k1, k2, k3, k4, k5, k6, k7⟩ := h
  obtain ⟨b1, b2, b3, l0, l1, l2, l3, l4, l5, l6, l7⟩ := h'
  simp only [Nat.reducePow] at a1 a2 a3 b1 b2 b3
  refine ⟨?_, by simp only [guidText, List.length_append, hx_length, lit]; simp⟩
  unfold guidText at e
  obtain ⟨e, q7⟩ := cut 2 k7 l7 e
  obtain ⟨e, q6⟩ := cut 2 k6 l6 e
  obtain ⟨e, q5⟩ := cut 2 k5 l5 e
  obtain ⟨e, q4⟩ := cut 2 k4 l4 e
  obtain ⟨e, q3⟩ := cut 2 k3 l3 e
  obtain ⟨e, q2⟩ := cut 2 k2 l2 e
  have e := List.append_cancel_right e
  obtain ⟨e, q1⟩ := cut 2 k1 l1 e
  obtain ⟨e, q0⟩ := cut 2 k0 l0 e
  have e := List.append_cancel_right e
  obtain ⟨e, p3⟩ := cut 4 a3 b3 e
  have e := List.append_cancel_right e
  obtain ⟨e, p2⟩ := cut 4 a2 b2 e
  have e := List.append_cancel_right e
  have p1 := hx_inj false 8 _ _ a1 b1 e
  cases g; cases g'
  simp only [Guid.mk.injEq]
  exact ⟨p1, p2, p3, q0, q1, q2, q3, q4, q5, q6, q7⟩

/-- C252, partial: a colour with red below 128 is written as `#RRGGBB`, or `#RRGGBBAA` when alpha is not 0. Missing (and wrong,
see below): the other half. -/
theorem C252_rgb_partial (n : Nat) (h1 : 10 ≤ n) (hn : n < 2 ^ 64) (r g b a : Nat) (hr : r < 128) (hg : g < 256) (hb : b < 256)
    (ha : a < 256) : rgbToString n (rgba r g b a) = .done (rgbText r g b a ++ [0]) := by
  unfold rgbToString
  rw [swap_rgba r g b a (by omega) hg hb ha]
  have hv : ((r * 256 + g) * 256 + b) * 256 + a < 2 ^ 31 := by simp only [Nat.reducePow]; omega
  rw [low32_id _ (by simp only [Int.reducePow]; omega) (by simp only [Int.reducePow, Nat.reducePow] at *; omega)]
  have hp := Printf.C93_documented_text n (by omega) hn [.lit 0x23, pc true 8 (((r * 256 + g) * 256 + b) * 256 + a)] (by
      intro p hp
      simp only [List.mem_cons, List.not_mem_nil, or_false] at hp
      rcases hp with rfl | rfl
      · exact ⟨by decide, by decide, by decide⟩
      · exact pc_wf _ _ _ (by decide)) (by
      intro p hp
      simp only [List.mem_cons, List.not_mem_nil, or_false] at hp
      rcases hp with rfl | rfl
      · trivial
      · exact pc_range _ _ _ (by decide) (by simp only [Nat.reducePow] at *; omega))
    (fits_plain _ _ (by
      intro p hp
      simp only [List.mem_cons, List.not_mem_nil, or_false] at hp
      rcases hp with rfl | rfl <;> exact fun h => h))
  have ht : Printf.text [.lit 0x23, pc true 8 (((r * 256 + g) * 256 + b) * 256 + a)] =
      lit "#" ++ hx true 2 r ++ hx true 2 g ++ hx true 2 b ++ hx true 2 a := by
    have e1 := pc_text true 7 (((r * 256 + g) * 256 + b) * 256 + a) (by simp only [Nat.reducePow, Nat.reduceAdd] at *; omega)
    simp only [Nat.reduceAdd] at e1
    simp only [Printf.text, List.flatMap_cons, List.flatMap_nil, e1, List.append_nil]
    rw [hx_split true 6 _ a ha, hx_split true 4 _ b hb, hx_split true 2 _ g hg]
    simp only [List.append_assoc]
    rfl
  rw [ht, List.take_of_length_le (by simp only [List.length_append, hx_length, lit]; simp; omega)] at hp
  have hm : Printf.mask [.lit 0x23, pc true 8 (((r * 256 + g) * 256 + b) * 256 + a)] = lit "#%08X" := rfl
  rw [hm] at hp
  have hq : Printf.printf n (lit "#%08X") [.int ((((r * 256 + g) * 256 + b) * 256 + a : Nat) : Int)] =
    .done (lit "#" ++ hx true 2 r ++ hx true 2 g ++ hx true 2 b ++ hx true 2 a ++ [0]) := hp
  rw [hq]
  show Printf.O.done (cutAlpha _) = _
  congr 1
  unfold cutAlpha rgbText
  have hz := two_zero a ha
  rw [List.dropLast_concat]
  simp only [hx, lit] at hz ⊢
  simp at hz ⊢
  by_cases h0 : a = 0
  · rw [if_pos (hz.2 h0), if_pos h0]; simp
  · rw [if_neg (fun h => h0 (hz.1 h)), if_neg h0]; simp

/-- GUIDs and colours of the other half are not written: white without alpha, and a GUID beginning with `80000000`. -/
theorem C252_counterexample : rgbToString 20 (rgba 255 255 255 0) ≠ .done (rgbText 255 255 255 0 ++ [0]) ∧
    guidToString 40 ⟨2 ^ 31, 0, 0, 0, 0, 0, 0, 0, 0, 0, 0⟩ ≠ .done (guidText ⟨2 ^ 31, 0, 0, 0, 0, 0, 0, 0, 0, 0, 0⟩ ++ [0]) := by
  decide +kernel

example : rgbToString 20 (rgba 0x12 0xAB 0x34 0) = .done (lit "#12AB34" ++ [0]) ∧
    rgbToString 20 (rgba 0x12 0xAB 0x34 0x80) = .done (lit "#12AB3480" ++ [0]) ∧
    guidToString 40 ⟨0x12345678, 0x9abc, 0xdef0, 1, 2, 3, 4, 5, 6, 7, 255⟩ = .done (lit "12345678-9abc-def0-0102-0304050607ff" ++ [0]) := by
  decide +kernel

end Verif.Color
