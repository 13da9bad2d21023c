import Verif.Core.AttrNames
import Verif.Props.Scanf
import Verif.Props.Str
/-!
Property C242: the name of an attribute finds the attribute.
-/
namespace Verif.Names
open Verif Verif.Core Verif.Scanf Verif.Mkv

/-- In the tables of the class and its ancestors, read in this order, the first name of the attribute is `s`. -/
def Named (chain : List (List Entry)) (id : Nat) (s : Bytes) : Prop :=
  ∃ pre post, chain.flatten = pre ++ ⟨id, .name s⟩ :: post ∧ ∀ t, (⟨id, .name t⟩ : Entry) ∉ pre

/-- The attribute has no name in the tables. -/
def Unnamed (chain : List (List Entry)) (id : Nat) : Prop := ∀ t, (⟨id, .name t⟩ : Entry) ∉ chain.flatten

/-- The first type of the attribute in the tables is `f`. -/
def Typed (chain : List (List Entry)) (id f : Nat) : Prop :=
  ∃ pre post, chain.flatten = pre ++ ⟨id, .type f⟩ :: post ∧ ∀ g, (⟨id, .type g⟩ : Entry) ∉ pre

/-- `_` and then only hexadecimal digits. -/
def LooksLikeNumber (s : Bytes) : Prop :=
  ∃ t, s = 0x5F :: t ∧ ∀ c ∈ t, (0x30 ≤ c ∧ c ≤ 0x39) ∨ (0x61 ≤ c ∧ c ≤ 0x66) ∨ (0x41 ≤ c ∧ c ≤ 0x46)

/-! ### Helpers -/

theorem nameIn_append (id : Nat) (a b : List Entry) : nameIn id (a ++ b) = (nameIn id a).or (nameIn id b) := by
  induction a with
  | nil => rfl
  | cons e a ih =>
    obtain ⟨i, info⟩ := e
    cases info with
    | name s =>
      simp only [List.cons_append, nameIn]
      by_cases h : i = id
      · simp only [if_pos h]; rfl
      · simp only [if_neg h, ih]
    | type f => exact ih
    | other => exact ih

theorem paramName_flatten (id : Nat) (chain : List (List Entry)) : paramName id chain = nameIn id chain.flatten := by
  induction chain with
  | nil => rfl
  | cons t r ih =>
    rw [List.flatten_cons, nameIn_append, paramName, ← ih]
    cases nameIn id t <;> rfl

theorem typeIn_append (id : Nat) (a b : List Entry) : typeIn id (a ++ b) = (typeIn id a).or (typeIn id b) := by
  induction a with
  | nil => rfl
  | cons e a ih =>
    obtain ⟨i, info⟩ := e
    cases info with
    | type s =>
      simp only [List.cons_append, typeIn]
      by_cases h : i = id
      · simp only [if_pos h]; rfl
      · simp only [if_neg h, ih]
    | name f => exact ih
    | other => exact ih

theorem paramType_flatten (id : Nat) (chain : List (List Entry)) : paramType id chain = typeIn id chain.flatten := by
  induction chain with
  | nil => rfl
  | cons t r ih =>
    rw [List.flatten_cons, typeIn_append, paramType, ← ih]
    cases typeIn id t <;> rfl

theorem nameIn_none (id : Nat) (l : List Entry) (h : ∀ t, (⟨id, .name t⟩ : Entry) ∉ l) : nameIn id l = none := by
  induction l with
  | nil => rfl
  | cons e l ih =>
    have ih := ih fun t hm => h t (List.mem_cons_of_mem _ hm)
    obtain ⟨i, info⟩ := e
    cases info with
    | name s =>
      rw [nameIn, if_neg (by rintro rfl; exact h s List.mem_cons_self), ih]
    | type f => exact ih
    | other => exact ih

theorem typeIn_none (id : Nat) (l : List Entry) (h : ∀ t, (⟨id, .type t⟩ : Entry) ∉ l) : typeIn id l = none := by
  induction l with
  | nil => rfl
  | cons e l ih =>
    have ih := ih fun t hm => h t (List.mem_cons_of_mem _ hm)
    obtain ⟨i, info⟩ := e
    cases info with
    | type s =>
      rw [typeIn, if_neg (by rintro rfl; exact h s List.mem_cons_self), ih]
    | name f => exact ih
    | other => exact ih

theorem paramName_named {chain : List (List Entry)} {id : Nat} {s : Bytes} (h : Named chain id s) : paramName id chain = some s := by
  obtain ⟨pre, post, e, hp⟩ := h
  rw [paramName_flatten, e, nameIn_append, nameIn_none id pre hp, nameIn, if_pos rfl]; rfl

theorem dataDef_typed {chain : List (List Entry)} {id f : Nat} (h : Typed chain id f) (hf : f ≠ 0) : dataDef chain id = some (id, f) := by
  obtain ⟨pre, post, e, hp⟩ := h
  unfold dataDef
  rw [paramType_flatten, e, typeIn_append, typeIn_none id pre hp, typeIn, if_pos rfl]
  show (if f = 0 then none else some (id, f)) = _
  rw [if_neg hf]

theorem paramIn_append (token : Bytes) (a b : List Entry) : paramIn token (a ++ b) = (paramIn token a).or (paramIn token b) := by
  induction a with
  | nil => rfl
  | cons e a ih =>
    obtain ⟨i, info⟩ := e
    cases info with
    | name s =>
      simp only [List.cons_append, paramIn]
      by_cases h : isame token s = true
      · simp only [if_pos h]; rfl
      · simp only [if_neg h, ih]
    | type f => exact ih
    | other => exact ih

theorem findParam_flatten (token : Bytes) (chain : List (List Entry)) :
    findParam token chain = (paramIn token chain.flatten).getD 0 := by
  induction chain with
  | nil => rfl
  | cons t r ih =>
    rw [List.flatten_cons, paramIn_append, findParam]
    cases paramIn token t with
    | none => rw [ih]; rfl
    | some i => rfl

theorem paramIn_none (token : Bytes) (l : List Entry) (h : ∀ i t, (⟨i, .name t⟩ : Entry) ∈ l → uppers t ≠ uppers token) :
    paramIn token l = none := by
  induction l with
  | nil => rfl
  | cons e l ih =>
    have ih := ih fun i t hm => h i t (List.mem_cons_of_mem _ hm)
    obtain ⟨i, info⟩ := e
    cases info with
    | name s =>
      rw [paramIn, if_neg, ih]
      intro hs
      exact h i s List.mem_cons_self ((isame_eq token s).1 hs).symm
    | type f => exact ih
    | other => exact ih

theorem paramIn_unique (token : Bytes) (id : Nat) (l : List Entry) (hm : (⟨id, .name token⟩ : Entry) ∈ l)
    (h : ∀ i t, (⟨i, .name t⟩ : Entry) ∈ l → uppers t = uppers token → i = id) : paramIn token l = some id := by
  induction l with
  | nil => cases hm
  | cons e l ih =>
    have ih := fun hm => ih hm fun i t hm => h i t (List.mem_cons_of_mem _ hm)
    obtain ⟨i, info⟩ := e
    cases info with
    | name s =>
      rw [paramIn]
      by_cases hs : isame token s = true
      · rw [if_pos hs, h i s List.mem_cons_self ((isame_eq token s).1 hs).symm]
      · rw [if_neg hs]
        rcases List.mem_cons.1 hm with he | hm
        · cases he
          exact absurd ((isame_eq token token).2 rfl) hs
        · exact ih hm
    | type f =>
      rcases List.mem_cons.1 hm with he | hm
      · cases he
      · exact ih hm
    | other =>
      rcases List.mem_cons.1 hm with he | hm
      · cases he
      · exact ih hm

theorem hex_digits (c : UInt8) : (hex c.toNat).isSome = true ↔
    (0x30 ≤ c ∧ c ≤ 0x39) ∨ (0x61 ≤ c ∧ c ≤ 0x66) ∨ (0x41 ≤ c ∧ c ≤ 0x46) := by
  simp only [UInt8.le_iff_toNat_le, hex, UInt8.reduceToNat]
  split
  · simp_all
  · split
    · simp_all
    · split
      · simp_all
      · simp_all

theorem idOf_name (chain : List (List Entry)) (token : Bytes) (h : ¬ LooksLikeNumber token) :
    idOf chain token = .ok (idByName chain token) := by
  unfold idOf
  split
  · rename_i t
    rw [if_neg]
    intro hc
    unfold checkHex at hc
    rw [List.all_eq_true] at hc
    exact h ⟨t, rfl, fun c hm => (hex_digits c).1 (hc c hm)⟩
  · rfl

theorem codeOf_codeBytes (id : Nat) (h : id < 2 ^ 32) : codeOf (codeBytes id) = id := by
  unfold codeOf codeBytes
  simp only [UInt8.toNat_ofNat', Nat.reducePow] at *
  omega

/-! ### C242 -/

/-- C242 for attributes with a name: when no other attribute has this name in other letters, the name fits the buffer and
does not look like a number, the attribute is found by it. -/
theorem C242_named_partial (chain : List (List Entry)) (dyn : Option Bytes) (id f n : Nat) (s : Bytes) (hid : id ≠ 0)
    (hs : Named chain id s) (hf : Typed chain id f) (hf0 : f ≠ 0) (hn : s.length < n)
    (hu : ∀ i t, (⟨i, .name t⟩ : Entry) ∈ chain.flatten → uppers t = uppers s → i = id) (hl : ¬ LooksLikeNumber s) :
    nodeParamName chain dyn id n = some s ∧ nodeFindDef chain s = .ok (some (id, f)) := by
  constructor
  · unfold nodeParamName
    rw [paramName_named hs]
    show some (s.take (n - 1)) = _
    rw [List.take_of_length_le (by omega)]
  · unfold nodeFindDef
    have hp : findParam s chain = id := by
      obtain ⟨pre, post, e, _⟩ := hs
      rw [findParam_flatten, paramIn_unique s id _ (by rw [e]; simp) hu]; rfl
    rw [idOf_name chain s hl, bind_ok]
    unfold idByName
    rw [hp, if_neg hid, dataDef_typed hf hf0]

/-- C242 for attributes with a four-character code and no name. -/
theorem C242_code_partial (chain : List (List Entry)) (dyn : Option Bytes) (id f n : Nat) (hid : 2 ^ 24 < id) (hid2 : id < 2 ^ 32)
    (hs : Unnamed chain id) (hf : Typed chain id f) (hf0 : f ≠ 0) (hn : 5 ≤ n)
    (h0 : (0 : UInt8) ∉ codeBytes id) (h5 : codeBytes id ≠ [0x5F, 0x5F, 0x5F, 0x5F]) :
    ∃ s, nodeParamName chain dyn id n = some s ∧
      (¬ LooksLikeNumber s → (∀ i t, (⟨i, .name t⟩ : Entry) ∈ chain.flatten → uppers t ≠ uppers s) →
        nodeFindDef chain s = .ok (some (id, f))) := by
  refine ⟨cstr (fourccToString (codeBytes id) n), ?_, fun hl hu => ?_⟩
  · unfold nodeParamName
    rw [paramName_flatten, nameIn_none id _ hs]
    show (if id > 2 ^ 24 then _ else _) = _
    rw [if_pos hid]
  · unfold nodeFindDef
    rw [idOf_name chain _ hl, bind_ok]
    unfold idByName
    rw [findParam_flatten, paramIn_none _ _ hu]
    simp only [Option.getD_none, if_true]
    rw [(C60_fourcc_round_trip (codeBytes id) n rfl hn).2 (.inl ⟨h0, h5⟩), codeOf_codeBytes id hid2, dataDef_typed hf hf0]

theorem hex_digitChar_low : ∀ d, d < 16 → hex (Printf.digitChar false d) = some d := by decide +kernel

theorem printed_hex_low : ∀ n : Nat, ∃ ds, SpellsHex (Printf.digitsText 16 false n) ds ∧ value 16 ds = n := by
  intro n
  induction n using Nat.strongRecOn with
  | ind n ih =>
    by_cases h : n < 16
    · refine ⟨[n], ?_, by simp [value]⟩
      rw [Printf.digitsText_small 16 false n h (by decide)]
      simp [SpellsHex, hex_digitChar_low n h]
    · obtain ⟨ds, e, h2⟩ := ih (n / 16) (by omega)
      refine ⟨ds ++ [n % 16], ?_, ?_⟩
      · rw [Printf.digitsText_big 16 false n (by decide) (by omega) (by decide)]
        unfold SpellsHex at e ⊢
        rw [List.map_append, e]
        simp [hex_digitChar_low (n % 16) (by omega)]
      · have : value 16 (ds ++ [n % 16]) = value 16 ds * 16 + n % 16 := by simp [value]
        rw [this, h2]
        omega

theorem hex_lt (c d : Nat) (h : hex c = some d) : c < 256 := by
  unfold hex at h
  split at h
  · omega
  · split at h
    · omega
    · split at h
      · omega
      · cases h

/-- Reading hexadecimal digits. -/
theorem stringToInt_hex (g ds : Str) (e : SpellsHex g ds) (hne : g ≠ []) (hv : value 16 ds < 2 ^ 31) :
    stringToInt g 1 = .ok (value 16 ds : Int) := by
  have key := slot_text 16 (by decide) hex true [] g ds [] false (by simp) e (by simp) hex_plain
  simp only [sign, Bool.false_eq_true, if_false, List.nil_append, List.append_nil] at key
  obtain ⟨c, g', rfl⟩ : ∃ c g', g = c :: g' := by cases g with | nil => exact absurd rfl hne | cons c g' => exact ⟨c, g', rfl⟩
  have hX := scanf_X c g'
  simp only [show lit "%X" = [0x25, 0x58] from rfl] at hX
  rw [if_pos (by simp only [Nat.reducePow] at *; omega)] at key
  have hsv : low32 (signed false (value 16 ds)) = (value 16 ds : Int) := by
    simp only [signed, Bool.false_eq_true, if_false]
    exact low32_id _ (by simp only [Int.reducePow]; omega) (by simp only [Int.reducePow, Nat.reducePow] at *; omega)
  rw [hsv] at key
  rw [← key, ← hX]
  simp [stringToInt, lit]

/-- C242 for all other attributes, which get a number as name: they are found by it. -/
theorem C242_number (chain : List (List Entry)) (id f n : Nat) (hid : id ≤ 2 ^ 24) (hs : Unnamed chain id) (hf : Typed chain id f)
    (hf0 : f ≠ 0) (hn : 9 ≤ n) (hn2 : n < 2 ^ 64) :
    ∃ s, nodeParamName chain none id n = some s ∧ nodeFindDef chain s = .ok (some (id, f)) := by
  obtain ⟨ds, e, d2⟩ := printed_hex_low id
  have hl : (Printf.digitsText 16 false id).length ≤ 7 := (Printf.digitsText_le 16 false id 7 (by decide) (by decide)).2 (by
    simp only [Nat.reducePow] at *; omega)
  have hp := Printf.C93_documented_text n (by omega) hn2 [.lit 0x5F, .dir { zero := true, ws := [4] } (.hex false id)] (by
      intro p hp; simp at hp; rcases hp with rfl | rfl <;> simp [Printf.Piece.WF])
    (by
      intro p hp; simp at hp; rcases hp with rfl | rfl
      · trivial
      simp only [Printf.Piece.InRange]
      refine ⟨trivial, by omega, ?_, by decide⟩
      simp only [Int.reducePow, Nat.reducePow] at *; omega)
    (fits_plain _ _ (by intro p hp; simp at hp; rcases hp with rfl | rfl <;> simp [Printf.Piece.RightAligned]))
  have ht : Printf.text [.lit 0x5F, .dir { zero := true, ws := [4] } (.hex false id)] =
      0x5F :: (List.replicate (4 - (Printf.digitsText 16 false id).length) 0x30 ++ Printf.digitsText 16 false id) := by
    simp [Printf.text, Printf.Piece.text, Printf.Conv.text, Printf.Spec.width, Printf.numText]
  rw [ht] at hp
  have hsp : SpellsHex (List.replicate (4 - (Printf.digitsText 16 false id).length) 0x30 ++ Printf.digitsText 16 false id)
      (List.replicate (4 - (Printf.digitsText 16 false id).length) 0 ++ ds) := by
    unfold SpellsHex at e ⊢
    rw [List.map_append, List.map_append, e, List.map_replicate, List.map_replicate]
    rfl
  have hne : List.replicate (4 - (Printf.digitsText 16 false id).length) 0x30 ++ Printf.digitsText 16 false id ≠ [] := by
    intro h
    have := congrArg List.length h
    rw [List.length_append, List.length_replicate, List.length_nil] at this
    omega
  have hlen : (List.replicate (4 - (Printf.digitsText 16 false id).length) 0x30 ++ Printf.digitsText 16 false id).length ≤ 7 := by
    rw [List.length_append, List.length_replicate]; omega
  generalize List.replicate (4 - (Printf.digitsText 16 false id).length) 0x30 ++ Printf.digitsText 16 false id = g at *
  have hv : value 16 (List.replicate (4 - (Printf.digitsText 16 false id).length) 0 ++ ds) = id := by rw [value_zeros, d2]
  generalize List.replicate (4 - (Printf.digitsText 16 false id).length) 0 ++ ds = es at *
  have hmem : ∀ c ∈ g, (hex c).isSome = true := by
    intro c hc
    have : hex c ∈ g.map hex := List.mem_map_of_mem hc
    rw [hsp] at this
    obtain ⟨d, _, hd⟩ := List.mem_map.1 this
    rw [← hd]; rfl
  have hback : (g.map UInt8.ofNat).map UInt8.toNat = g := by
    rw [List.map_map]
    conv => rhs; rw [← List.map_id g]
    apply List.map_congr_left
    intro c hc
    obtain ⟨d, hd⟩ := Option.isSome_iff_exists.1 (hmem c hc)
    have := hex_lt c d hd
    simp only [Function.comp, UInt8.toNat_ofNat', id_eq, Nat.reducePow]
    omega
  refine ⟨0x5F :: g.map UInt8.ofNat, ?_, ?_⟩
  · unfold nodeParamName
    rw [paramName_flatten, nameIn_none id _ hs]
    show (if id > 2 ^ 24 then _ else _) = _
    rw [if_neg (by omega)]
    show (match Printf.printf n (lit "_%04x") [.int id] with | .done t => some (t.dropLast.map UInt8.ofNat) | _ => none) = _
    have hm : Printf.printf n (lit "_%04x") [.int id] = .done ((0x5F :: g).take (n - 1) ++ [0]) := hp
    rw [hm, List.take_of_length_le (by rw [List.length_cons]; omega)]
    show some (((0x5F :: g) ++ [0]).dropLast.map UInt8.ofNat) = _
    rw [List.dropLast_concat]
    rfl
  · unfold nodeFindDef idOf
    have hc : checkHex (g.map UInt8.ofNat) = true := by
      unfold checkHex
      rw [List.all_eq_true]
      intro c hc
      refine hmem _ ?_
      have := List.mem_map_of_mem (f := UInt8.toNat) hc
      rw [hback] at this
      exact this
    simp only
    have hw : ((id : Int) % 2 ^ 64).toNat = id := by simp only [Int.reducePow, Nat.reducePow] at *; omega
    rw [if_pos hc, hback, stringToInt_hex g es hsp hne (by rw [hv]; simp only [Nat.reducePow] at *; omega), bind_ok, bind_ok, hv]
    rw [hw, dataDef_typed hf hf0]

/-- A class with an attribute `Size` (5), an ancestor with the attributes `size` (7, another case), 16 without name, `TEMP`
(a code), `_BAD` (a code) and `_AB` (9). -/
def someChain : List (List Entry) :=
  [[⟨5, .type 3⟩, ⟨5, .name [0x53, 0x69, 0x7A, 0x65]⟩],
   [⟨7, .name [0x73, 0x69, 0x7A, 0x65]⟩, ⟨7, .type 3⟩, ⟨16, .type 4⟩, ⟨0x504D4554, .type 6⟩, ⟨0x4441425F, .type 6⟩,
    ⟨9, .type 2⟩, ⟨9, .name [0x5F, 0x41, 0x42]⟩]]

/-- C242 fails for a name that differs from another only in case (the wrong attribute is found), for codes and names that
look like numbers, for names that do not fit, and for names a node reports itself. -/
theorem C242_counterexample :
    (nodeParamName someChain none 7 32 = some [0x73, 0x69, 0x7A, 0x65] ∧
      nodeFindDef someChain [0x73, 0x69, 0x7A, 0x65] = .ok (some (5, 3))) ∧
    (nodeParamName someChain none 0x4441425F 32 = some [0x5F, 0x42, 0x41, 0x44] ∧
      nodeFindDef someChain [0x5F, 0x42, 0x41, 0x44] = .ok none) ∧
    (nodeParamName someChain none 9 32 = some [0x5F, 0x41, 0x42] ∧ nodeFindDef someChain [0x5F, 0x41, 0x42] = .ok none) ∧
    (nodeParamName someChain none 5 4 = some [0x53, 0x69, 0x7A] ∧ nodeFindDef someChain [0x53, 0x69, 0x7A] = .ok none) ∧
    (nodeParamName someChain (some [0x58]) 16 32 = some [0x58] ∧ nodeFindDef someChain [0x58] = .ok none) := by decide +kernel

example : nodeParamName someChain none 16 32 = some [0x5F, 0x30, 0x30, 0x31, 0x30] ∧
    nodeFindDef someChain [0x5F, 0x30, 0x30, 0x31, 0x30] = .ok (some (16, 4)) ∧
    nodeParamName someChain none 0x504D4554 32 = some [0x54, 0x45, 0x4D, 0x50] ∧
    nodeFindDef someChain [0x54, 0x45, 0x4D, 0x50] = .ok (some (0x504D4554, 6)) ∧
    nodeFindDef someChain [0x53, 0x69, 0x7A, 0x65] = .ok (some (5, 3)) := by decide +kernel

end Verif.Names
