import Verif.Core.Params
/-!
C238: taking parameters from a text.
-/
namespace Verif.Params
open Verif Verif.Scanf

/-! ### Specification -/

/-- Space, tab, carriage return or line feed. -/
def Blank (c : Nat) : Prop := c ∈ [9, 10, 13, 32]

instance (c : Nat) : Decidable (Blank c) := by unfold Blank; infer_instance

/-- A piece of text without blanks and without the delimiters. -/
def Word (delim w : Str) : Prop := ∀ c ∈ w, ¬ Blank c ∧ c ∉ delim

/-- What follows a word: nothing, a blank or a delimiter. -/
def Stops (delim : Str) : Str → Prop
  | [] => True
  | c :: _ => Blank c ∨ c ∈ delim

/-- No blank at the front. -/
def Fresh : Str → Prop
  | [] => True
  | c :: _ => ¬ Blank c

/-- A list of words written out, with blanks before and behind each: separated by commas and ended by a parenthesis. -/
def listing : List (Str × Str × Str) → Str → Str
  | [], tail => tail
  | [(b, w, a)], tail => b ++ w ++ a ++ 41 :: tail
  | (b, w, a) :: r, tail => b ++ w ++ a ++ 44 :: listing r tail

/-! ### Lemmas -/

theorem isSpace_iff (c : Nat) : isSpace c = true ↔ Blank c := by
  unfold isSpace Blank
  simp
  omega

theorem skipSpace_spec (s : Str) : ∃ b, s = b ++ skipSpace s ∧ (∀ c ∈ b, Blank c) ∧ Fresh (skipSpace s) := by
  induction s with
  | nil => exact ⟨[], rfl, by simp, trivial⟩
  | cons c s ih =>
    unfold skipSpace
    by_cases h : isSpace c = true
    · rw [if_pos h]
      obtain ⟨b, h1, h2, h3⟩ := ih
      refine ⟨c :: b, by rw [List.cons_append, ← h1], ?_, h3⟩
      intro x hx
      rcases List.mem_cons.1 hx with rfl | hx
      · exact (isSpace_iff _).1 h
      · exact h2 x hx
    · rw [if_neg h]
      exact ⟨[], rfl, by simp, fun hb => h ((isSpace_iff _).2 hb)⟩

theorem skipSpace_blanks (b s : Str) (hb : ∀ c ∈ b, Blank c) (hs : Fresh s) : skipSpace (b ++ s) = s := by
  induction b with
  | nil =>
    cases s with
    | nil => rfl
    | cons c s =>
      simp only [List.nil_append]
      unfold skipSpace
      rw [if_neg (fun h => hs ((isSpace_iff _).1 h))]
  | cons c b ih =>
    rw [List.cons_append]
    unfold skipSpace
    rw [if_pos ((isSpace_iff _).2 (hb c (by simp)))]
    exact ih fun x hx => hb x (by simp [hx])

theorem nameLoop_word (delim w r : Str) (hw : Word delim w) (hr : Stops delim r) (room : Nat) :
    nameLoop delim (w ++ r) room = (w.take (room - 1), r) := by
  induction w generalizing room with
  | nil =>
    cases r with
    | nil => simp [nameLoop]
    | cons c r =>
      simp only [List.nil_append, List.take_nil]
      unfold nameLoop
      rw [if_pos]
      rcases hr with h | h
      · exact .inl ((isSpace_iff _).2 h)
      · exact .inr h
  | cons c w ih =>
    have hc := hw c (by simp)
    have ih' := ih (fun x hx => hw x (by simp [hx]))
    rw [List.cons_append]
    unfold nameLoop
    rw [if_neg (by
      rintro (h | h)
      · exact hc.1 ((isSpace_iff _).1 h)
      · exact hc.2 h)]
    by_cases h : room > 1
    · rw [if_pos h, ih' (room - 1)]
      obtain ⟨k, rfl⟩ : ∃ k, room = k + 2 := ⟨room - 2, by omega⟩
      simp
    · rw [if_neg h, ih' room]
      have : room - 1 = 0 := by omega
      rw [this]
      simp

theorem word_split (delim s : Str) : ∃ w r, s = w ++ r ∧ Word delim w ∧ Stops delim r := by
  induction s with
  | nil => exact ⟨[], [], rfl, by intro c hc; simp at hc, trivial⟩
  | cons c s ih =>
    by_cases h : Blank c ∨ c ∈ delim
    · exact ⟨[], c :: s, rfl, by intro c hc; simp at hc, h⟩
    · obtain ⟨w, r, h1, h2, h3⟩ := ih
      refine ⟨c :: w, r, by rw [h1]; rfl, ?_, h3⟩
      intro x hx
      rcases List.mem_cons.1 hx with rfl | hx
      · exact ⟨fun hb => h (.inl hb), fun hb => h (.inr hb)⟩
      · exact h2 x hx

theorem word_fresh (delim w r : Str) (hw : Word delim w) (hr : Fresh r) : Fresh (w ++ r) := by
  cases w with
  | nil => exact hr
  | cons c w => exact (hw c (by simp)).1

theorem isSymbol_hit (ch : Nat) (hch : ¬ Blank ch) (b r : Str) (hb : ∀ c ∈ b, Blank c) :
    isSymbol ch (b ++ ch :: r) = some (true, r) := by
  unfold isSymbol
  rw [if_neg (by simp), skipSpace_blanks b (ch :: r) hb hch]
  simp

theorem isSymbol_miss (ch c : Nat) (hc : ¬ Blank c) (hne : c ≠ ch) (b r : Str) (hb : ∀ c ∈ b, Blank c) :
    isSymbol ch (b ++ c :: r) = some (false, c :: r) := by
  unfold isSymbol
  rw [if_neg (by simp), skipSpace_blanks b (c :: r) hb hc]
  simp [hne]

/-! ### The theorems -/

/-- **C238** (names). A name is taken up to the next blank or delimiter, cut to the room there is, and the text stands
behind the whole name. -/
theorem C238_name (delim s : Str) (room : Nat) :
    ∃ b w r, s = b ++ w ++ r ∧ (∀ c ∈ b, Blank c) ∧ Word delim w ∧ Stops delim r ∧ Fresh (w ++ r) ∧
      isName delim s room = (decide (w.take (room - 1) ≠ []), w.take (room - 1), r) := by
  obtain ⟨b, h1, h2, h3⟩ := skipSpace_spec s
  obtain ⟨w, r, h4, h5, h6⟩ := word_split delim (skipSpace s)
  refine ⟨b, w, r, by rw [List.append_assoc, ← h4, ← h1], h2, h5, h6, h4 ▸ h3, ?_⟩
  unfold isName
  rw [h4, nameLoop_word delim w r h5 h6]
  cases List.take (room - 1) w <;> rfl

example : isName [44] [32, 97, 98, 44, 99] 8 = (true, [97, 98], [44, 99]) ∧ isName [44] [97, 98, 99] 3 = (true, [97, 98], []) := by decide

/-- **C238** (trimming). What is cut from the end is blank, and nothing blank is left there. -/
theorem C238_trim (s : Str) : ∃ b, s = trimEnd s ++ b ∧ (∀ c ∈ b, Blank c) ∧ ∀ c, (trimEnd s).getLast? = some c → ¬ Blank c := by
  induction s with
  | nil => exact ⟨[], rfl, by simp, by simp [trimEnd]⟩
  | cons c s ih =>
    obtain ⟨b, h1, h2, h3⟩ := ih
    unfold trimEnd
    by_cases h : isSpace c = true ∧ trimEnd s = []
    · rw [if_pos h]
      refine ⟨c :: b, ?_, ?_, by simp⟩
      · rw [h.2] at h1
        rw [← show s = b from h1]
        rfl
      · intro x hx
        rcases List.mem_cons.1 hx with rfl | hx
        · exact (isSpace_iff _).1 h.1
        · exact h2 x hx
    · rw [if_neg h]
      refine ⟨b, by rw [List.cons_append, ← h1], h2, ?_⟩
      intro x hx
      cases ht : trimEnd s with
      | nil =>
        rw [ht] at hx
        simp at hx
        rw [← hx]
        exact fun hb => h ⟨(isSpace_iff _).2 hb, ht⟩
      | cons y t =>
        rw [ht, List.getLast?_cons_cons] at hx
        exact h3 x (by rw [ht]; exact hx)

example : trimEnd [32, 97, 32, 98, 9, 32] = [32, 97, 32, 98] ∧ trimEnd [32, 32] = [] := by decide

/-- **C238** (skipping behind a character). The character is found when it is there, and the text then stands behind its
first occurrence, otherwise at the end. -/
theorem C238_skip_after (ch : Nat) (hch : ch ≠ 0) (s : Str) :
    (∀ r, skipAfter ch s = (true, r) ↔ ∃ a, s = a ++ ch :: r ∧ ch ∉ a) ∧ (ch ∉ s ↔ skipAfter ch s = (false, [])) := by
  induction s with
  | nil => simp [skipAfter]
  | cons c s ih =>
    unfold skipAfter
    by_cases h : c = ch
    · rw [if_pos (.inl ⟨hch, h⟩), if_neg hch]
      constructor
      · intro r
        constructor
        · intro he
          cases he
          exact ⟨[], by rw [h]; rfl, by simp⟩
        · rintro ⟨a, he, hn⟩
          cases a with
          | nil => simp at he; rw [he.2]
          | cons x a =>
            simp at he
            exact absurd (by rw [← he.1, h]; simp) hn
      · simp [h]
    · rw [if_neg (by simp [h, hch])]
      constructor
      · intro r
        rw [ih.1]
        constructor
        · rintro ⟨a, he, hn⟩
          exact ⟨c :: a, by rw [he]; rfl, by simp [hn]; exact fun hc => h hc.symm⟩
        · rintro ⟨a, he, hn⟩
          cases a with
          | nil => simp at he; exact absurd he.1 h
          | cons x a =>
            simp at he hn
            exact ⟨a, he.2, hn.2⟩
      · rw [← ih.2]
        simp
        exact fun _ hc => h hc.symm

/-- **C238** (skipping behind blanks). -/
theorem C238_skip_blanks (s : Str) :
    (∀ r, skipAfter 0 s = (true, r) → ∃ a b, s = a ++ b ++ r ∧ (∀ c ∈ a, ¬ Blank c) ∧ b ≠ [] ∧ (∀ c ∈ b, Blank c) ∧ Fresh r) ∧
    ((∀ c ∈ s, ¬ Blank c) ↔ skipAfter 0 s = (false, [])) := by
  induction s with
  | nil => simp [skipAfter]
  | cons c s ih =>
    unfold skipAfter
    by_cases h : isSpace c = true
    · rw [if_pos (.inr ⟨rfl, h⟩), if_pos rfl]
      have hb := (isSpace_iff c).1 h
      constructor
      · intro r he
        cases he
        obtain ⟨b, h1, h2, h3⟩ := skipSpace_spec s
        refine ⟨[], c :: b, by rw [List.nil_append, List.cons_append, ← h1], by simp, by simp, ?_, h3⟩
        intro x hx
        rcases List.mem_cons.1 hx with rfl | hx
        · exact hb
        · exact h2 x hx
      · simp [hb]
    · have hb : ¬ Blank c := fun hb => h ((isSpace_iff c).2 hb)
      rw [if_neg (by simp [h])]
      constructor
      · intro r he
        obtain ⟨a, b, h1, h2, h3⟩ := ih.1 r he
        refine ⟨c :: a, b, by rw [h1]; rfl, ?_, h3⟩
        intro x hx
        rcases List.mem_cons.1 hx with rfl | hx
        · exact hb
        · exact h2 x hx
      · rw [← ih.2]
        simp [hb]

example : skipAfter 58 [97, 58, 98, 58] = (true, [98, 58]) ∧ skipAfter 0 [97, 32, 9, 98] = (true, [98]) := by decide

/-- **C238** (symbols). A symbol is taken when it is the next character that is not blank, otherwise the text stands at
that character. -/
theorem C238_symbol_partial (ch : Nat) (hch : ch ≠ 0) (hb : ¬ Blank ch) (s : Str) :
    ∃ b t, s = b ++ t ∧ (∀ c ∈ b, Blank c) ∧ Fresh t ∧
      ((∃ r, t = ch :: r ∧ isSymbol ch s = some (true, r)) ∨ (t.head? ≠ some ch ∧ isSymbol ch s = some (false, t))) := by
  obtain ⟨b, h1, h2, h3⟩ := skipSpace_spec s
  refine ⟨b, skipSpace s, h1, h2, h3, ?_⟩
  unfold isSymbol
  by_cases hs : s = []
  · rw [if_pos hs, hs]
    exact .inr ⟨by simp [skipSpace], rfl⟩
  · rw [if_neg hs]
    cases ht : skipSpace s with
    | nil => exact .inr ⟨by simp, by simp [hch]⟩
    | cons c r =>
      by_cases hc : c = ch
      · exact .inl ⟨r, by rw [hc], by simp [hc]⟩
      · exact .inr ⟨by simpa using hc, by simp [hc]⟩

/-- **C238** (pairs of symbols). -/
theorem C238_symbol_pair_partial (ch ch2 : Nat) (hch : ch ≠ 0) (hch2 : ch2 ≠ 0) (s : Str) :
    ∃ b t, s = b ++ t ∧ (∀ c ∈ b, Blank c) ∧ Fresh t ∧
      ((∃ r, t = ch :: ch2 :: r ∧ isSymbol2 ch ch2 s = some (true, r)) ∨
       (t.take 2 ≠ [ch, ch2] ∧ isSymbol2 ch ch2 s = some (false, t))) := by
  obtain ⟨b, h1, h2, h3⟩ := skipSpace_spec s
  refine ⟨b, skipSpace s, h1, h2, h3, ?_⟩
  unfold isSymbol2
  match ht : skipSpace s with
  | [] => exact .inr ⟨by simp, by simp [hch]⟩
  | [c] => exact .inr ⟨by simp, by simp [hch2]⟩
  | c :: d :: r =>
    by_cases hc : c = ch ∧ d = ch2
    · exact .inl ⟨r, by rw [hc.1, hc.2], by simp [hc.1, hc.2]⟩
    · exact .inr ⟨by simpa using hc, by simp only [if_neg hc]⟩

example : isSymbol2 61 61 [32, 61, 61, 97] = some (true, [97]) ∧ isSymbol2 61 61 [61, 97] = some (false, [61, 97]) ∧
    isSymbol 40 [32, 40, 97] = some (true, [97]) := by decide

/-- **C238** (lists). A list of parameters of any length, with any blanks, is read as it was written, and the text then
stands behind the parenthesis. -/
theorem C238_list (delim : Str) (hc : 44 ∈ delim) (hp : 41 ∈ delim) (room : Nat) (l : List (Str × Str × Str)) (hl : l ≠ [])
    (hw : ∀ x ∈ l, (∀ c ∈ x.1, Blank c) ∧ Word delim x.2.1 ∧ x.2.1.length < room ∧ (∀ c ∈ x.2.2, Blank c)) (tail : Str) (fuel : Nat)
    (hf : l.length ≤ fuel) : readList delim room fuel (listing l tail) = some (l.map (·.2.1), tail) := by
  have step : ∀ (b w a : Str) (ch : Nat) (t : Str), (∀ c ∈ b, Blank c) → Word delim w → w.length < room → (∀ c ∈ a, Blank c) →
      ch ∈ delim → ¬ Blank ch → ∃ f a', isName delim (b ++ w ++ a ++ ch :: t) room = (f, w, a' ++ ch :: t) ∧ ∀ c ∈ a', Blank c := by
    intro b w a ch t hb hwd hwl ha hd hnb
    unfold isName
    cases hwc : w with
    | nil =>
      -- an empty word: the blanks before it and behind it are skipped
      have h1 : skipSpace (b ++ [] ++ a ++ ch :: t) = ch :: t := by
        rw [List.append_nil]
        exact skipSpace_blanks (b ++ a) (ch :: t) (fun c hc => (List.mem_append.1 hc).elim (hb c) (ha c)) hnb
      have h2 : nameLoop delim (ch :: t) room = ([], ch :: t) := by
        unfold nameLoop
        rw [if_pos (.inr hd)]
      exact ⟨false, [], by simp only [h1, h2]; rfl, by simp⟩
    | cons x xs =>
      rw [hwc] at hwd hwl
      have hst : Stops delim (a ++ ch :: t) := by
        cases a with
        | nil => exact .inr hd
        | cons y a => exact .inl (ha y (by simp))
      have h1 : skipSpace (b ++ x :: xs ++ a ++ ch :: t) = x :: xs ++ (a ++ ch :: t) := by
        rw [List.append_assoc, List.append_assoc]
        exact skipSpace_blanks b _ hb (hwd x (by simp)).1
      refine ⟨true, a, ?_, ha⟩
      rw [h1, nameLoop_word delim (x :: xs) (a ++ ch :: t) hwd hst, List.take_of_length_le (by omega)]
      rfl
  induction l generalizing fuel with
  | nil => exact absurd rfl hl
  | cons y r ih =>
    obtain ⟨b, w, a⟩ := y
    obtain ⟨h1, h2, h3, h4⟩ := hw (b, w, a) (by simp)
    simp only at h1 h2 h3 h4
    cases fuel with
    | zero => simp at hf
    | succ fuel =>
    cases r with
    | nil =>
      obtain ⟨f, a', k1, k2⟩ := step b w a 41 tail h1 h2 h3 h4 hp (by decide)
      have hn : paramNext (a' ++ 41 :: tail) = some (false, tail) := by
        unfold paramNext paramEnd
        rw [isSymbol_miss 44 41 (by decide) (by decide) a' tail k2]
        simp only [Option.bind_some, Bool.false_eq_true, if_false]
        rw [show (41 :: tail : Str) = [] ++ 41 :: tail from rfl, isSymbol_hit 41 (by decide) [] tail (by simp)]
        rfl
      unfold listing readList
      simp only [k1, hn, Option.bind_some, Bool.false_eq_true, if_false, List.map_cons, List.map_nil]
    | cons z r =>
      obtain ⟨f, a', k1, k2⟩ := step b w a 44 (listing (z :: r) tail) h1 h2 h3 h4 hc (by decide)
      have hn : paramNext (a' ++ 44 :: listing (z :: r) tail) = some (true, listing (z :: r) tail) := by
        unfold paramNext
        rw [isSymbol_hit 44 (by decide) a' _ k2]
        rfl
      have hrec := ih (by simp) (fun x hx => hw x (by simp [hx])) fuel (by simp at hf ⊢; omega)
      have hlist : listing ((b, w, a) :: z :: r) tail = b ++ w ++ a ++ 44 :: listing (z :: r) tail := rfl
      rw [hlist]
      unfold readList
      simp only [k1, hn, Option.bind_some, if_true, hrec, Option.map_some, List.map_cons]

/-- `a , bc ,d )x`, and a list with an empty word. -/
example : listing [([], [97], [32]), ([32], [98, 99], [32]), ([], [100], [32])] [120] =
      [97, 32, 44, 32, 98, 99, 32, 44, 100, 32, 41, 120] ∧
    readList [44, 41] 8 3 [97, 32, 44, 32, 98, 99, 32, 44, 100, 32, 41, 120] = some ([[97], [98, 99], [100]], [120]) ∧
    readList [44, 41] 8 3 [32, 44, 97, 41] = some ([[], [97]], []) := by decide

/-- Asked for the character 0, as a test for the end, `ExprIsSymbol` leaves the text when only blanks are left, and
`ExprIsSymbol2` also when nothing is left. -/
theorem C238_end_counterexample : isSymbol 0 [32] = none ∧ isSymbol2 0 0 [] = none ∧ isSymbol2 41 0 [41] = none := by decide

end Verif.Params
