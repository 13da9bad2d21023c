import Verif.Core.StrLemmas
/-!
Properties C58-C60 and C75: bounded copies, case-insensitive comparison, four-character codes,
position in a comma-separated list.
-/
namespace Verif.Core
open Verif

/-! ### C58 -/

theorem strncpyS_spec (mem : Bytes) (i len : Nat) (s : Bytes) (n : Nat) (h0 : 0 < len)
    (hl : i + len ≤ mem.length) :
    ∃ m, strncpyS mem i len s n = some (mem.take i ++ ((s.take n).take (len - 1) ++ [0]) ++ mem.drop (i + m + 1)) ∧
      m = ((s.take n).take (len - 1)).length := by
  have e : s.take (min (min s.length n) (len - 1)) = (s.take n).take (len - 1) := by
    rw [List.take_take]
    by_cases h1 : min s.length n ≤ len - 1
    · by_cases h2 : s.length ≤ n
      · rw [List.take_of_length_le (by omega), List.take_of_length_le (by omega)]
      · rw [show min (min s.length n) (len - 1) = min (len - 1) n by omega]
    · rw [show min (min s.length n) (len - 1) = min (len - 1) n by omega]
  have e2 : min (min s.length n) (len - 1) = ((s.take n).take (len - 1)).length := by
    rw [List.length_take, List.length_take]; omega
  refine ⟨_, ?_, rfl⟩
  unfold strncpyS
  rw [if_pos h0]
  simp only
  rw [e, e2]
  exact store_two mem i _ 0 (by rw [← e2]; omega)

/-- C58, copying at most `n` characters: nothing is written outside the first `len` bytes, the
rest of the memory is unchanged, and the text there is the longest prefix that fits. -/
theorem C58_bounded_copy (mem : Bytes) (len : Nat) (s : Bytes) (n : Nat) (hs : (0 : UInt8) ∉ s) (h0 : 0 < len)
    (hl : len ≤ mem.length) :
    (∃ out, strncpyS mem 0 len s n = some out ∧ out.length = mem.length ∧
      cstr out = (s.take n).take (len - 1) ∧ (cstr out).length < len ∧ out.drop len = mem.drop len) ∧
    strcpyS mem 0 len s = strncpyS mem 0 len s s.length := by
  obtain ⟨m, e, hm⟩ := strncpyS_spec mem 0 len s n h0 (by omega)
  have hml : m ≤ len - 1 := by rw [hm, List.length_take]; omega
  refine ⟨⟨_, e, ?_, ?_, ?_, ?_⟩, ?_⟩
  · simp only [List.take_zero, List.nil_append, List.length_append, List.length_drop, List.length_singleton]
    omega
  · unfold cstr
    simp only [List.take_zero, List.nil_append, List.append_assoc, List.singleton_append]
    apply takeWhile_stop
    · intro x hx
      have hx := List.mem_of_mem_take (List.mem_of_mem_take hx)
      have : x ≠ 0 := fun e => hs (e ▸ hx)
      simp [this]
    · simp
  · unfold cstr
    simp only [List.take_zero, List.nil_append, List.append_assoc, List.singleton_append]
    rw [takeWhile_stop]
    · omega
    · intro x hx
      have hx := List.mem_of_mem_take (List.mem_of_mem_take hx)
      have : x ≠ 0 := fun e => hs (e ▸ hx)
      simp [this]
    · simp
  · simp only [List.take_zero, List.nil_append]
    rw [List.drop_append, List.drop_of_length_le (by simp only [List.length_append, List.length_singleton]; omega)]
    simp only [List.nil_append, List.drop_drop, List.length_append, List.length_singleton]
    congr 1
    omega
  · unfold strcpyS strncpyS
    simp only [Nat.min_self]

/-- C58, appending: if the destination holds a text inside its size, the result is the longest
prefix of both texts together that fits; otherwise nothing changes. -/
theorem C58_bounded_append (mem : Bytes) (len : Nat) (s : Bytes) (k : Nat) (hs : (0 : UInt8) ∉ s) (h0 : 0 < len)
    (hl : len ≤ mem.length) (hterm : (cstr mem).length < mem.length) :
    (∃ out, strncatS mem len s k = some out ∧ out.length = mem.length ∧ out.drop len = mem.drop len ∧
      ((cstr mem).length < len → cstr out = (cstr mem ++ s.take k).take (len - 1)) ∧
      (len ≤ (cstr mem).length → out = mem)) ∧
    strcatS mem len s = strncatS mem len s s.length := by
  have hsl : strlen mem = some (cstr mem).length := by
    unfold strlen
    exact if_pos hterm
  obtain ⟨_, _, htake⟩ := strlen_split mem _ hsl
  refine ⟨?_, ?_⟩
  · by_cases hin : (cstr mem).length < len
    · obtain ⟨m, e, hm⟩ := strncpyS_spec mem (cstr mem).length (len - (cstr mem).length) s k (by omega) (by omega)
      have hml : m ≤ len - (cstr mem).length - 1 := by rw [hm, List.length_take]; omega
      refine ⟨mem.take (cstr mem).length ++ ((s.take k).take (len - (cstr mem).length - 1) ++ [0]) ++
        mem.drop ((cstr mem).length + m + 1), ?_, ?_, ?_, ?_, ?_⟩
      · unfold strncatS
        rw [if_pos h0, hsl]
        simp only [Option.bind_some]
        rw [if_pos hin, e]
      · simp only [List.length_append, List.length_drop, List.length_singleton, List.length_take] at *
        omega
      · rw [List.drop_append, List.drop_of_length_le (by
          simp only [List.length_append, List.length_singleton, List.length_take] at *; omega)]
        simp only [List.nil_append, List.drop_drop, List.length_append, List.length_singleton]
        rw [← hm, htake]
        congr 1
        omega
      · intro _
        rw [htake]
        unfold cstr
        simp only [List.append_assoc, List.singleton_append]
        rw [← List.append_assoc, takeWhile_stop]
        · rw [List.take_append]
          have : (mem.takeWhile (· != 0)).take (len - 1) = mem.takeWhile (· != 0) := by
            apply List.take_of_length_le
            show (cstr mem).length ≤ len - 1
            omega
          rw [this]
          congr 2
          show len - (cstr mem).length - 1 = len - 1 - (cstr mem).length
          omega
        · intro x hx
          rcases List.mem_append.1 hx with hx | hx
          · exact cstr_all mem x hx
          · have hx := List.mem_of_mem_take (List.mem_of_mem_take hx)
            have : x ≠ 0 := fun e => hs (e ▸ hx)
            simp [this]
        · simp
      · intro h; omega
    · refine ⟨mem, ?_, rfl, rfl, fun h => absurd h hin, fun _ => rfl⟩
      unfold strncatS
      rw [if_pos h0, hsl]
      simp only [Option.bind_some]
      rw [if_neg (by omega)]
  · unfold strcatS strncatS
    rw [if_pos h0, if_pos h0, hsl]
    simp only [Option.bind_some]
    by_cases hin : len > (cstr mem).length
    · rw [if_pos hin, if_pos hin]
      unfold strcpyS strncpyS
      simp only [Nat.min_self]
    · rw [if_neg hin, if_neg hin]

/-- "ab" plus "cde" in a buffer of five bytes. -/
example : strcatS [0x61, 0x62, 0, 7, 7, 7] 5 [0x63, 0x64, 0x65] = some [0x61, 0x62, 0x63, 0x64, 0, 7] := by decide

/-! ### C59 -/

/-- C59. The comparison ignoring case depends on the upper-cased characters only: it says equal
exactly when those agree, otherwise it is the difference at the first place where they differ
(the end counting as 0); it is antisymmetric and transitive, and the length-limited
comparison is the comparison of the cut strings. -/
theorem C59_compare_ignoring_case (a b c : Bytes) (ha : (0 : UInt8) ∉ a) (hb : (0 : UInt8) ∉ b) (hc : (0 : UInt8) ∉ c) :
    (isame a b = true ↔ uppers a = uppers b) ∧
    (icmp a b = 0 ↔ uppers a = uppers b) ∧
    icmp b a = - icmp a b ∧
    (icmp a b ≤ 0 → icmp b c ≤ 0 → icmp a c ≤ 0) ∧
    (∀ n, nicmp n a b = icmp (a.take n) (b.take n)) := by
  refine ⟨isame_eq a b, ?_, ?_, ?_, ?_⟩
  · rw [icmp_eq, cmpInts_zero _ _ (uppers_ne a ha) (uppers_ne b hb)]
  · rw [icmp_eq, icmp_eq, cmpInts_anti]
  · rw [icmp_eq, icmp_eq, icmp_eq]
    exact cmpInts_trans _ _ _ (uppers_ne a ha) (uppers_ne b hb) (uppers_ne c hc)
  · intro n
    rw [nicmp_eq, icmp_eq]

/-- C59, the value: the difference of the first upper-cased characters that differ. -/
theorem C59_compare_value (p q a b : Bytes) (x y : UInt8) (hpq : uppers p = uppers q)
    (hxy : asciiUpper (chr x) ≠ asciiUpper (chr y)) :
    icmp (p ++ x :: a) (q ++ y :: b) = asciiUpper (chr x) - asciiUpper (chr y) ∧
    icmp p (q ++ y :: b) = - asciiUpper (chr y) := by
  have key : ∀ (p q : List Int) (r s : List Int), p = q → cmpInts (p ++ r) (q ++ s) = cmpInts r s := by
    intro p q r s h
    subst h
    induction p with
    | nil => rfl
    | cons d p ih => simp only [List.cons_append, cmpInts, if_true]; exact ih
  constructor
  · rw [icmp_eq]
    unfold uppers at *
    rw [List.map_append, List.map_append, key _ _ _ _ hpq]
    simp only [List.map_cons, cmpInts, if_neg hxy]
  · rw [icmp_eq]
    unfold uppers at *
    rw [List.map_append]
    have := key (p.map fun c => asciiUpper (chr c)) _ [] (List.map (fun c => asciiUpper (chr c)) (y :: b)) hpq
    rw [List.append_nil] at this
    rw [this]
    simp [cmpInts]

/-- "Cover.JPG" and "cover.jpg". -/
example : isame [0x43, 0x6F, 0x76] [0x63, 0x4F, 0x56] = true ∧ icmp [0x61, 0x40] [0x41, 0x60] = -32 := by decide

/-! ### C60 -/

theorem dropUnderscores_pad (s : Bytes) :
    ∃ k, s = dropUnderscores s ++ List.replicate k 0x5F := by
  unfold dropUnderscores
  have : ∀ l : Bytes, ∃ k, l = List.replicate k 0x5F ++ l.dropWhile (· == 0x5F) := by
    intro l
    induction l with
    | nil => exact ⟨0, rfl⟩
    | cons c l ih =>
      by_cases hc : c = 0x5F
      · obtain ⟨k, hk⟩ := ih
        refine ⟨k + 1, ?_⟩
        subst hc
        simp only [List.dropWhile, beq_self_eq_true, List.replicate_succ, List.cons_append]
        rw [← hk]
      · refine ⟨0, ?_⟩
        have : (c == 0x5F) = false := by simp [hc]
        simp [List.dropWhile, this]
  obtain ⟨k, hk⟩ := this s.reverse
  refine ⟨k, ?_⟩
  have := congrArg List.reverse hk
  simpa using this

/-- C60. A four-character code is restored from its text exactly when it contains no NUL and is
not "____", or is 0. -/
theorem C60_fourcc_round_trip (code : Bytes) (n : Nat) (hlen : code.length = 4) (hn : 5 ≤ n) :
    stringToFourcc (cstr (fourccToString code n)) false = code ↔
      ((0 : UInt8) ∉ code ∧ code ≠ [0x5F, 0x5F, 0x5F, 0x5F]) ∨ code = [0, 0, 0, 0] := by
  have ht : code.take (min 4 (n - 1)) = code := by
    apply List.take_of_length_le; omega
  unfold fourccToString
  rw [ht]
  constructor
  · intro h
    by_cases h0 : (0 : UInt8) ∈ code
    · right
      unfold stringToFourcc at h
      by_cases he : cstr (dropUnderscores code) = []
      · rw [if_pos he] at h
        exact h.symm
      · rw [if_neg he] at h
        exfalso
        simp only [Bool.false_eq_true, if_false] at h
        rw [← h] at h0
        rcases List.mem_append.1 h0 with h0 | h0
        · have h1 := List.mem_of_mem_take h0
          have := cstr_all _ _ h1
          simp at this
        · have := List.eq_of_mem_replicate h0
          exact absurd this (by decide)
    · left
      refine ⟨h0, ?_⟩
      intro he
      subst he
      exact absurd h (by decide)
  · intro h
    rcases h with ⟨h0, hne⟩ | rfl
    · obtain ⟨k, hk⟩ := dropUnderscores_pad code
      have hs : cstr (dropUnderscores code) = dropUnderscores code := by
        unfold cstr
        have hall : ∀ l : Bytes, (∀ x ∈ l, (x != 0) = true) → l.takeWhile (· != 0) = l := by
          intro l
          induction l with
          | nil => intro _; rfl
          | cons c l ih => intro h; simp only [List.takeWhile, h c (by simp)]; rw [ih (fun x hx => h x (by simp [hx]))]
        apply hall
        intro x hx
        have : x ∈ code := by rw [hk]; exact List.mem_append_left _ hx
        have : x ≠ 0 := fun e => h0 (e ▸ this)
        simp [this]
      rw [hs]
      unfold stringToFourcc
      have hnn : dropUnderscores code ≠ [] := by
        intro he
        rw [he] at hk
        simp only [List.nil_append] at hk
        have : k = 4 := by
          have := congrArg List.length hk
          simp at this
          omega
        subst this
        exact hne hk
      have hkl : (dropUnderscores code).length + k = 4 := by
        have := congrArg List.length hk
        simp at this
        omega
      rw [if_neg hnn]
      simp only [Bool.false_eq_true, if_false]
      rw [List.take_of_length_le (by omega), show 4 - (dropUnderscores code).length = k by omega]
      exact hk.symm
    · decide

example : stringToFourcc (cstr (fourccToString [0x4D, 0x50, 0x34, 0x5F] 5)) false = [0x4D, 0x50, 0x34, 0x5F] := by decide

/-- The upper-case letter of a character, as Lean knows it; bytes that are not ASCII stay. -/
def upperChar (c : UInt8) : UInt8 := if c < 128 then UInt8.ofNat ((Char.ofNat c.toNat).toUpper).toNat else c

theorem toUpper_eq (c : UInt8) : toUpper c = upperChar c := by
  have h : ∀ n : Fin 256, toUpper (UInt8.ofNat n.val) = upperChar (UInt8.ofNat n.val) := by decide +kernel
  have := h ⟨c.toNat, c.toNat_lt⟩
  simpa using this

/-- C60, with upper-casing: the code has the upper-case letters of the one made without, so that the case
of the text does not matter. -/
theorem C60_fourcc_upper (s : Bytes) :
    stringToFourcc s true = (stringToFourcc s false).map upperChar ∧
    ∀ t, t.map upperChar = s.map upperChar → stringToFourcc t true = stringToFourcc s true := by
  have key : ∀ s, stringToFourcc s true = (stringToFourcc s false).map upperChar := by
    intro s
    unfold stringToFourcc
    by_cases h : s = []
    · rw [if_pos h, if_pos h]; decide
    · rw [if_neg h, if_neg h]
      simp only [if_true, Bool.false_eq_true, if_false, List.map_append, List.length_map, List.map_replicate]
      have e : upperChar 0x5F = 0x5F := by decide
      rw [e, List.map_congr_left (fun c _ => toUpper_eq c)]
  refine ⟨key s, ?_⟩
  intro t h
  rw [key, key]
  have hl : t.length = s.length := by simpa using congrArg List.length h
  unfold stringToFourcc
  by_cases hs : s = []
  · have : t = [] := List.length_eq_zero_iff.1 (by rw [hl, hs]; rfl)
    rw [hs, this]
  · have ht : t ≠ [] := fun e => hs (List.length_eq_zero_iff.1 (by rw [← hl, e]; rfl))
    rw [if_neg hs, if_neg ht]
    simp only [Bool.false_eq_true, if_false, List.map_append, List.map_take, h, List.length_take, hl]

example : stringToFourcc [0x7A, 0x6C, 0x69, 0x62] true = [0x5A, 0x4C, 0x49, 0x42] := by decide

/-! ### C75 -/

/-- The items of a comma-separated list. -/
def splitComma : Bytes → List Bytes
  | [] => [[]]
  | c :: l =>
    if c = 0x2C then [] :: splitComma l
    else
      match splitComma l with
      | [] => [[c]]
      | i :: is => (c :: i) :: is

/-- An item is the word, in any case, possibly followed by a space and more. -/
def isItem (s item : Bytes) : Bool :=
  uppers (item.take s.length) == uppers s && (item.drop s.length == [] || (item.drop s.length).head? == some 0x20)

theorem splitComma_eq (l : Bytes) :
    splitComma l = match l.dropWhile (· != 0x2C) with
      | [] => [l]
      | _ :: rest => l.takeWhile (· != 0x2C) :: splitComma rest := by
  induction l with
  | nil => rfl
  | cons c l ih =>
    by_cases hc : c = 0x2C
    · subst hc
      simp [splitComma, List.dropWhile, List.takeWhile]
    · simp only [splitComma, if_neg hc, List.dropWhile, List.takeWhile]
      have : (c != 0x2C) = true := by simp [hc]
      simp only [this]
      rw [ih]
      cases l.dropWhile (· != 0x2C) <;> rfl

theorem upper_comma : ∀ c : UInt8, asciiUpper (chr c) = 44 → c = 0x2C := by
  apply all_u8; decide +kernel

/-- The comparison at the start of an item looks at that item only. -/
theorem item_test (s l : Bytes) (hs : (0x2C : UInt8) ∉ s) (hs0 : (0 : UInt8) ∉ s) (hl0 : (0 : UInt8) ∉ l) :
    (nicmp s.length l s = 0 ∧ itemEnds (l.drop s.length) = true) ↔ isItem s (l.takeWhile (· != 0x2C)) = true := by
  have hz : nicmp s.length l s = 0 ↔ uppers (l.take s.length) = uppers s := by
    rw [nicmp_eq, List.take_length, cmpInts_zero]
    · exact uppers_ne _ (fun h => hl0 (List.mem_of_mem_take h))
    · exact uppers_ne _ hs0
  rw [hz]
  unfold isItem
  obtain ⟨tl, hsplit, htl⟩ : ∃ tl, l = l.takeWhile (· != 0x2C) ++ tl ∧ (tl = [] ∨ ∃ r, tl = 0x2C :: r) := by
    refine ⟨l.dropWhile (· != 0x2C), (List.takeWhile_append_dropWhile).symm, ?_⟩
    cases hd : l.dropWhile (· != 0x2C) with
    | nil => exact Or.inl rfl
    | cons c r =>
      right
      have := List.head?_dropWhile_not (· != 0x2C) l
      rw [hd] at this
      simp at this
      exact ⟨r, by rw [this]⟩
  generalize hi : l.takeWhile (· != 0x2C) = item at *
  subst hsplit
  simp only [Bool.and_eq_true, beq_iff_eq, Bool.or_eq_true]
  by_cases hlen : s.length ≤ item.length
  · rw [List.take_append_of_le_length hlen, List.drop_append_of_le_length hlen]
    apply and_congr_right
    intro _
    cases hd : item.drop s.length with
    | nil =>
      rcases htl with rfl | ⟨r, rfl⟩ <;> simp [itemEnds]
    | cons c r =>
      have hc : c ≠ 0x2C := by
        intro e
        have : c ∈ item := List.mem_of_mem_drop (by rw [hd]; simp)
        rw [← hi] at this
        have := List.all_eq_true.1 (List.all_takeWhile (l := item ++ tl) (p := (· != 0x2C))) c this
        simp [e] at this
      simp [itemEnds, hc]
  · constructor
    · intro ⟨h, _⟩
      exfalso
      have hl := congrArg List.length h
      rcases htl with rfl | ⟨r, rfl⟩
      · simp [uppers] at hl; omega
      · have : (uppers s)[item.length]? = some 44 := by
          rw [← h]
          unfold uppers
          rw [List.getElem?_map, List.getElem?_take_of_lt (by omega)]
          simp
          decide
        unfold uppers at this
        rw [List.getElem?_map] at this
        cases hsi : s[item.length]? with
        | none => rw [hsi] at this; simp at this
        | some c =>
          rw [hsi] at this
          simp only [Option.map_some, Option.some.injEq] at this
          have := upper_comma c this
          exact hs (this ▸ List.mem_of_getElem? hsi)
    · intro ⟨h, _⟩
      exfalso
      have hl := congrArg List.length h
      simp [uppers] at hl
      omega

theorem listLoop_eq (s : Bytes) (hs : (0x2C : UInt8) ∉ s) (hs0 : (0 : UInt8) ∉ s) : ∀ (fuel : Nat) (l : Bytes) (i : Nat),
    l.length ≤ fuel → (0 : UInt8) ∉ l →
    listLoop s fuel l i =
      match (splitComma l).findIdx? (isItem s) with
      | some k => ((i + k : Nat) : Int)
      | none => -1 := by
  intro fuel
  induction fuel with
  | zero =>
    intro l i hl h0
    have : l = [] := List.eq_nil_of_length_eq_zero (by omega)
    subst this
    unfold listLoop
    by_cases h : isItem s [] = true
    · rw [if_pos ((item_test s [] hs hs0 (by simp)).2 h)]
      simp [splitComma, List.findIdx?_cons, h]
    · rw [if_neg (fun x => h ((item_test s [] hs hs0 (by simp)).1 x))]
      simp [splitComma, List.findIdx?_cons, h]
  | succ fuel ih =>
    intro l i hl h0
    unfold listLoop
    rw [splitComma_eq]
    by_cases h : isItem s (l.takeWhile (· != 0x2C)) = true
    · rw [if_pos ((item_test s l hs hs0 h0).2 h)]
      cases hd : l.dropWhile (· != 0x2C) with
      | nil =>
        have : l.takeWhile (· != 0x2C) = l := by
          have := List.takeWhile_append_dropWhile (p := (· != 0x2C)) (l := l)
          rw [hd, List.append_nil] at this
          exact this
        rw [this] at h
        simp [List.findIdx?_cons, h]
      | cons c rest => simp [List.findIdx?_cons, h]
    · rw [if_neg (fun x => h ((item_test s l hs hs0 h0).1 x))]
      cases hd : l.dropWhile (· != 0x2C) with
      | nil =>
        have : l.takeWhile (· != 0x2C) = l := by
          have := List.takeWhile_append_dropWhile (p := (· != 0x2C)) (l := l)
          rw [hd, List.append_nil] at this
          exact this
        rw [this] at h
        simp [List.findIdx?_cons, h]
      | cons c rest =>
        have hsuf : ∀ x ∈ c :: rest, x ∈ l := by
          rw [← hd]; exact fun x hx => (List.dropWhile_suffix _).subset hx
        have hlen : (c :: rest).length ≤ l.length := by
          rw [← hd]; exact (List.dropWhile_suffix _).length_le
        simp only
        rw [ih rest (i + 1) (by simp at hlen; omega) (fun hx => h0 (hsuf 0 (by simp [hx])))]
        simp only [List.findIdx?_cons, h]
        cases (splitComma rest).findIdx? (isItem s) with
        | none => simp
        | some k =>
          simp only [Option.map_some, Bool.false_eq_true, if_false]
          rw [show i + 1 + k = i + (k + 1) by omega]

/-- C75. Looking up a word in a comma-separated list gives the position of the first item that
is the word ignoring case, alone or followed by a space, and -1 when there is none. -/
theorem C75_list_index (s l : Bytes) (hs : (0x2C : UInt8) ∉ s) (hs0 : (0 : UInt8) ∉ s) (hl0 : (0 : UInt8) ∉ l)
    (hne : s ≠ []) :
    listIndex s l =
      match (splitComma l).findIdx? (isItem s) with
      | some k => (k : Int)
      | none => -1 := by
  unfold listIndex
  by_cases hl : l = []
  · subst hl
    rw [if_pos (Or.inl rfl)]
    have : isItem s [] = false := by
      unfold isItem
      cases s with
      | nil => exact absurd rfl hne
      | cons c s => simp [uppers]
    simp [splitComma, List.findIdx?_cons, this]
  · rw [if_neg (by simp [hl, hne]), listLoop_eq s hs hs0 _ l 0 (Nat.le_refl _) hl0]
    simp

/-- "b" in "a,bc,B x,b". -/
example : listIndex [0x62] [0x61, 0x2C, 0x62, 0x63, 0x2C, 0x42, 0x20, 0x78, 0x2C, 0x62] = 2 := by decide

end Verif.Core
