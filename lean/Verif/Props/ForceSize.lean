import Verif.Ebml.ForceSize
import Verif.Ebml.ParseLemmas
/-!
Property theorems C229 (giving an element of unknown size its size) and C230 (IDs as text).
-/
set_option linter.unusedSimpArgs false
namespace Verif.Ebml
open EbmlDoc

/-- C229 as the name promises: an element of unknown size gets the size, if it fits in the room of its size field, and is from
then on written with it. -/
def ForcesSize : Prop :=
  ∀ (b : Base) (size : Nat), b.finite = false → b.id < 2 ^ 32 → 1 ≤ b.sizeLength → b.sizeLength ≤ 8 →
    size < 2 ^ (7 * b.sizeLength) - 1 → (infiniteForceSize b size).2 = true →
    renderHead (infiniteForceSize b size).1 = idField b.id ++ sizeField b.sizeLength size

/-- C229 fails: the flag is set again instead of cleared (ebmlelement.c:199), so a Cluster of unknown size keeps it. -/
theorem C229_counterexample : ¬ ForcesSize := by
  intro h
  have := h ⟨0x1F43B675, 0, 1, true, true, false⟩ 5 rfl (by decide) (by decide) (by decide) (by decide) (by decide +kernel)
  revert this
  decide +kernel

/-- C229, what holds: the function says it succeeded for every size, also for those that do not fit, and the head written is
that of an element of unknown size, as before; a known size is refused and kept. -/
theorem C229_still_unknown_partial (b : Base) (size : Int) (hid : b.id < 2 ^ 32) (hsl : b.sizeLength ≤ 8) :
    (b.finite = false → (infiniteForceSize b size).2 = true ∧ (infiniteForceSize b size).1.dataSize = size ∧
      renderHead (infiniteForceSize b size).1 = renderHead b ∧
      renderHead b = idField b.id ++ unknownField (if b.sizeLength = 0 then 1 else b.sizeLength)) ∧
    (b.finite = true → infiniteForceSize b size = (b, false)) := by
  constructor
  · intro h
    have hc : ∀ x : Int, codedSizeLength x b.sizeLength false = if b.sizeLength = 0 then 1 else b.sizeLength := by
      intro x
      simp only [codedSizeLength, Bool.not_false, if_true]
      split <;> split <;> omega
    have hi : infiniteForceSize b size = ({ b with dataSize := size, finite := false }, true) := by
      simp only [infiniteForceSize, h, Bool.false_eq_true, if_false, hc, if_true]
    rw [hi]
    refine ⟨rfl, rfl, ?_, ?_⟩
    · simp only [renderHead, h, hc, codedValue, Bool.false_eq_true, if_false]
    · have := renderHead_eq { b with dataSize := (0 : Nat) } 0 hid hsl rfl
      rw [show renderHead b = renderHead { b with dataSize := (0 : Nat) } by
        simp only [renderHead, h, hc, codedValue, Bool.false_eq_true, if_false], this]
      simp only [h, hc, Bool.false_eq_true, if_false]
  · intro h
    simp only [infiniteForceSize, h, if_true]

/-- What works instead: clearing the flag and setting the size gives a head of the same length that holds the size, so that it
can be written over the old one; as long as the size is below the number with all bits set. -/
theorem C229_by_hand (b : Base) (size : Nat) (hid : b.id < 2 ^ 32) (h1 : 1 ≤ b.sizeLength) (h8 : b.sizeLength ≤ 8)
    (hs : size < 2 ^ (7 * b.sizeLength) - 1) :
    renderHead { b with dataSize := size, finite := true } = idField b.id ++ sizeField b.sizeLength size ∧
    (renderHead { b with dataSize := size, finite := true }).length = (renderHead { b with finite := false }).length := by
  have e1 := renderHead_eq { b with dataSize := size, finite := true } size hid h8 rfl
  simp only [if_true, Scan.codedSizeLength_len size b.sizeLength h1 h8 hs] at e1
  have e2 := ((C229_still_unknown_partial { b with finite := false } 0 hid h8).1 rfl).2.2.2
  simp only [if_neg (show ¬ b.sizeLength = 0 by omega)] at e2
  refine ⟨e1, ?_⟩
  rw [e1, e2]
  simp only [List.length_append, sizeField_length, unknownField_length]

/-- And above it, with up to four bytes reserved, the head becomes longer and would be written over the content. -/
theorem C229_too_large (b : Base) (size : Nat) (hid : b.id < 2 ^ 32) (h1 : 1 ≤ b.sizeLength) (h4 : b.sizeLength ≤ 4)
    (hs : 2 ^ (7 * b.sizeLength) - 1 ≤ size) :
    (renderHead { b with finite := false }).length < (renderHead { b with dataSize := size, finite := true }).length := by
  have e1 := renderHead_eq { b with dataSize := size, finite := true } size hid (by simp only; omega) rfl
  simp only [if_true] at e1
  have e2 := ((C229_still_unknown_partial { b with finite := false } 0 hid (by simp only; omega)).1 rfl).2.2.2
  simp only [if_neg (show ¬ b.sizeLength = 0 by omega)] at e2
  rw [e1, e2]
  simp only [List.length_append, sizeField_length, unknownField_length]
  have hlt : b.sizeLength < codedSizeLength size b.sizeLength true := by
    have hsl : b.sizeLength = 1 ∨ b.sizeLength = 2 ∨ b.sizeLength = 3 ∨ b.sizeLength = 4 := by omega
    rcases hsl with h | h | h | h <;> rw [h] at hs ⊢ <;> simp only [Nat.reduceMul, Nat.reducePow, Nat.reduceSub] at hs <;>
      simp only [codedSizeLength, Bool.not_true, Bool.false_eq_true, if_false] <;> (repeat' split) <;> omega
  omega

example : renderHead ⟨0x1F43B675, 5, 8, true, true, true⟩ = [0x1F, 0x43, 0xB6, 0x75, 1, 0, 0, 0, 0, 0, 0, 5] ∧
    renderHead (infiniteForceSize ⟨0x1F43B675, 0, 8, true, true, false⟩ 5).1 =
      [0x1F, 0x43, 0xB6, 0x75, 1, 255, 255, 255, 255, 255, 255, 255] := by decide +kernel

/-- The value of a hexadecimal digit. -/
def hexValue (c : Char) : Option Nat :=
  if '0' ≤ c ∧ c ≤ '9' then some (c.toNat - 48) else if 'A' ≤ c ∧ c ≤ 'F' then some (c.toNat - 55) else none

/-- Reading a text of bytes in brackets, two digits each. -/
def readBrackets : List Char → Option (List Nat)
  | [] => some []
  | '[' :: a :: b :: ']' :: rest =>
    match hexValue a, hexValue b, readBrackets rest with
    | some x, some y, some l => some ((16 * x + y) :: l)
    | _, _, _ => none
  | _ => none

theorem hexValue_hexUpper (n : Nat) (h : n < 16) : hexValue (hexUpper n) = some n := by
  have : ∀ n : Fin 16, hexValue (hexUpper n.val) = some n.val := by decide
  exact this ⟨n, h⟩

theorem readBrackets_bracket (n : Nat) (h : n < 256) (rest : List Char) (l : List Nat) (hr : readBrackets rest = some l) :
    readBrackets (bracket n ++ rest) = some (n :: l) := by
  simp only [bracket, List.cons_append, List.append_assoc, List.nil_append, readBrackets, hexValue_hexUpper (n / 16) (by omega),
    hexValue_hexUpper (n % 16) (by omega), hr]
  congr 2
  omega

theorem readBrackets_flatMap (l : List UInt8) : readBrackets (l.flatMap fun b => bracket b.toNat) = some (l.map (·.toNat)) := by
  induction l with
  | nil => rfl
  | cons b l ih =>
    rw [List.flatMap_cons, readBrackets_bracket _ b.toNat_lt _ _ ih]
    rfl

theorem lowByte_nat (x : Nat) : (lowByte (x : Int)).toNat = x % 256 := by
  have h2 : ((x : Int) % 256).toNat = x % 256 := by omega
  rw [lowByte, h2]
  simp

theorem int_div_nat (x : Nat) : (x : Int) / 256 = ((x / 256 : Nat) : Int) := by omega

theorem idText (id : Nat) (h : id < 2 ^ 32) (h0 : id ≠ 0) :
    idToStringLoop id 4 [] = (idField id).flatMap (fun b => bracket b.toNat) := by
  have hand : ∀ x : Nat, x &&& 255 = x % 256 := fun x => Nat.and_two_pow_sub_one_eq_mod x 8
  have hne : ∀ (a : List Char) (n : Nat), (a ++ bracket n = []) = False := fun a n => by simp [bracket]
  have hn2 : ∀ (a : List Char) (n : Nat), (bracket n ++ a = []) = False := fun a n => by simp [bracket]
  have hn1 : ∀ n : Nat, (bracket n = []) = False := fun n => by simp [bracket]
  simp only [Nat.reducePow] at h
  simp only [idToStringLoop, hand, Nat.shiftRight_eq_div_pow, Nat.reduceMul, Nat.reducePow, Nat.div_one, ne_eq, not_true_eq_false,
    false_or]
  rw [idField]
  simp only [Nat.reducePow]
  by_cases c1 : id < 256
  · have e3 : id / 16777216 % 256 = 0 := by omega
    have e2 : id / 65536 % 256 = 0 := by omega
    have e1 : id / 256 % 256 = 0 := by omega
    have e0 : ¬ id % 256 = 0 := by omega
    simp only [e3, e2, e1, e0, not_true_eq_false, not_false_eq_true, or_false, or_true, false_or, if_false, if_true, if_pos c1,
      beBytes, int_div_nat, lowByte_nat, List.nil_append, List.flatMap_cons, List.flatMap_nil, List.cons_append, List.append_assoc, List.append_nil]
  · by_cases c2 : id < 65536
    · have e3 : id / 16777216 % 256 = 0 := by omega
      have e2 : id / 65536 % 256 = 0 := by omega
      have e1 : ¬ id / 256 % 256 = 0 := by omega
      simp only [e3, e2, e1, hne, hn1, hn2, not_true_eq_false, not_false_eq_true, or_false, or_true, true_or, false_or, if_false, if_true,
        if_neg c1, if_pos c2, beBytes, int_div_nat, lowByte_nat, List.nil_append, List.flatMap_cons, List.flatMap_nil, List.cons_append, List.append_assoc, List.append_nil,
        List.flatMap_append]
    · by_cases c3 : id < 16777216
      · have e3 : id / 16777216 % 256 = 0 := by omega
        have e2 : ¬ id / 65536 % 256 = 0 := by omega
        have d2 : id / 256 / 256 = id / 65536 := by omega
        simp only [e3, e2, hne, hn1, hn2, not_true_eq_false, not_false_eq_true, or_false, or_true, true_or, false_or, if_false, if_true,
          if_neg c1, if_neg c2, if_pos c3, beBytes, int_div_nat, lowByte_nat, List.nil_append, List.flatMap_cons, List.flatMap_nil, List.cons_append, List.append_assoc, d2,
          List.append_nil, List.flatMap_append]
      · have e3 : ¬ id / 16777216 % 256 = 0 := by omega
        have d2 : id / 256 / 256 = id / 65536 := by omega
        have d3 : id / 65536 / 256 = id / 16777216 := by omega
        simp only [e3, hne, hn1, hn2, not_true_eq_false, not_false_eq_true, or_false, or_true, true_or, false_or, if_false, if_true,
          if_neg c1, if_neg c2, if_neg c3, beBytes, int_div_nat, lowByte_nat, List.nil_append, List.flatMap_cons, List.flatMap_nil, List.cons_append, List.append_assoc, d2, d3,
          List.append_nil, List.flatMap_append]

theorem flatMap_bracket_length (l : List UInt8) : (l.flatMap fun b => bracket b.toNat).length = 4 * l.length := by
  induction l with
  | nil => rfl
  | cons b l ih => rw [List.flatMap_cons, List.length_append, ih]; simp [bracket]; omega

/-- C230: the text of every ID but 0 reads as the bytes of the ID in a file, in order; its length is the result and it fits with
its end mark in the room given. With less room there is no text. -/
theorem C230_text_partial (room id : Nat) (h : id < 2 ^ 32) (h0 : id ≠ 0) :
    (4 * (idField id).length < room → ∃ text, idToString room id = some (text, text.length) ∧
      text.length = 4 * (idField id).length ∧ readBrackets text = some ((idField id).map (·.toNat))) ∧
    (room ≤ 4 * (idField id).length → idToString room id = none) := by
  have hl := idField_length id h
  constructor
  · intro hr
    refine ⟨(idField id).flatMap (fun b => bracket b.toNat), ?_, flatMap_bracket_length _, readBrackets_flatMap _⟩
    rw [idToString, if_neg (by omega), idText id h h0, flatMap_bracket_length, hl, Nat.mul_comm]
  · intro hr
    rw [idToString, if_pos (by omega)]

/-- So different IDs have different texts. -/
theorem C230_distinct (room id id' : Nat) (h : id < 2 ^ 32) (h0 : id ≠ 0) (h' : id' < 2 ^ 32) (h0' : id' ≠ 0)
    (hr : 4 * (idField id).length < room) (he : idToString room id = idToString room id') : id = id' := by
  obtain ⟨t, e1, _, e3⟩ := (C230_text_partial room id h h0).1 hr
  have hr' : 4 * (idField id').length < room := by
    rcases Nat.lt_or_ge (4 * (idField id').length) room with h2 | h2
    · exact h2
    · rw [(C230_text_partial room id' h' h0').2 h2, e1] at he
      cases he
  obtain ⟨t', e1', _, e3'⟩ := (C230_text_partial room id' h' h0').1 hr'
  rw [e1, e1'] at he
  have ht : t = t' := by
    have := Option.some.inj he
    exact congrArg Prod.fst this
  rw [ht, e3'] at e3
  have hmap := Option.some.inj e3
  have hfield : idField id' = idField id := by
    have hinj : Function.Injective (fun b : UInt8 => b.toNat) := fun a b hab => UInt8.toNat_inj.mp hab
    exact (List.map_inj_right (fun a b hab => hinj hab)).mp hmap
  have hv : ∀ x : Nat, x < 2 ^ 32 → beNat (idField x) = x := by
    intro x hx
    simp only [Nat.reducePow] at hx
    rw [idField]
    simp only [Nat.reducePow]
    (repeat' split) <;>
      simp only [beBytes, int_div_nat, lowByte_nat, List.nil_append, List.cons_append, List.append_assoc, beNat, List.foldl_cons, List.foldl_nil, lowByte_nat, int_div_nat] <;> omega
  rw [← hv id h, ← hv id' h', hfield]

/-- C230 fails for the ID 0, which the function does not refuse: four characters are announced and none is there. -/
theorem C230_counterexample : idToString 32 0 = some ([], 4) := by decide

example : idToString 32 0x1A45DFA3 = some ("[1A][45][DF][A3]".toList, 16) ∧ idToString 4 0xEC = none ∧
    idToString 5 0xEC = some ("[EC]".toList, 4) := by decide +kernel

end Verif.Ebml
