import Verif.Core.TickText
import Verif.Props.Scanf
/-!
Property C244: times as text.
-/
namespace Verif.Tick
open Verif Verif.Mkv Verif.Scanf

/-- The decimal digits of a number. -/
def dec (n : Nat) : List Nat := (Nat.toDigits 10 n).map Char.toNat

/-- Two and three digits. -/
def two (n : Nat) : List Nat := [0x30 + n / 10, 0x30 + n % 10]
def three (n : Nat) : List Nat := [0x30 + n / 100, 0x30 + n / 10 % 10, 0x30 + n % 10]

/-- The text of a time in milliseconds: seconds, `minutes:seconds` or `hours:minutes:seconds`, then the milliseconds. -/
def clock (ms : Nat) : List Nat :=
  (if 3600000 ≤ ms then dec (ms / 3600000) ++ 0x3A :: two (ms / 60000 % 60) ++ 0x3A :: two (ms / 1000 % 60)
   else if 60000 ≤ ms then dec (ms / 60000) ++ 0x3A :: two (ms / 1000 % 60)
   else dec (ms / 1000)) ++ 0x2E :: three (ms % 1000)

/-- Reading a clock: the time so far and the number so far. A `:` makes sixtieths, a `.` thousandths. -/
def readClock : List Nat → Nat → Nat → Nat
  | [], total, cur => total + cur
  | c :: r, total, cur =>
    if c = 0x3A then readClock r ((total + cur) * 60) 0
    else if c = 0x2E then readClock r ((total + cur) * 1000) 0
    else readClock r total (cur * 10 + (c - 0x30))

/-- Reading a time: a `-` in front makes it negative. -/
def readTime : List Nat → Int
  | 0x2D :: r => -(readClock r 0 0 : Int)
  | s => readClock s 0 0

/-! ### Helpers -/

theorem digitsText_dec (n : Nat) : Printf.digitsText 10 false n = dec n := rfl

theorem two_eq (v : Nat) (h : v < 100) : Printf.numText true 2 false (Printf.digitsText 10 false v) = two v := by
  have : ∀ v, v < 100 → Printf.numText true 2 false (Printf.digitsText 10 false v) = two v := by decide +kernel
  exact this v h

theorem three_eq (v : Nat) (h : v < 1000) : Printf.numText true 3 false (Printf.digitsText 10 false v) = three v := by
  have : ∀ v, v < 1000 → Printf.numText true 3 false (Printf.digitsText 10 false v) = three v := by decide +kernel
  exact this v h

theorem take_cut (n : Nat) (a b : List Nat) : ((a.take (n - 1)) ++ b).take (n - 1) = (a ++ b).take (n - 1) := by
  rw [List.take_append, List.take_append, List.take_take, Nat.min_self, List.length_take]
  by_cases h : a.length ≤ n - 1
  · rw [Nat.min_eq_right h]
  · rw [show n - 1 - min (n - 1) a.length = 0 by omega, show n - 1 - a.length = 0 by omega]

/-- Printing behind what is there. -/
theorem cat_text (n : Nat) (h1 : 1 ≤ n) (hn : n < 2 ^ 64) (old : List Nat) (ps : List Printf.Piece) (hwf : ∀ p ∈ ps, p.WF)
    (hr : ∀ p ∈ ps, p.InRange) (hf : ∀ p ∈ ps, ¬ p.RightAligned) :
    cat n (Printf.mask ps) (Printf.args ps) (.done (old.take (n - 1) ++ [0])) =
      .done ((old ++ Printf.text ps).take (n - 1) ++ [0]) := by
  show Printf.catprintf n (old.take (n - 1) ++ [0]).dropLast _ _ = _
  rw [List.dropLast_concat, Printf.C94_append n hn _ (by rw [List.length_take]; omega) ps hwf hr (fits_plain _ _ hf), take_cut]

theorem print_text (n : Nat) (h1 : 1 ≤ n) (hn : n < 2 ^ 64) (ps : List Printf.Piece) (hwf : ∀ p ∈ ps, p.WF)
    (hr : ∀ p ∈ ps, p.InRange) (hf : ∀ p ∈ ps, ¬ p.RightAligned) :
    Printf.printf n (Printf.mask ps) (Printf.args ps) = .done ((Printf.text ps).take (n - 1) ++ [0]) :=
  Printf.C93_documented_text n h1 hn ps hwf hr (fits_plain _ _ hf)

theorem text_dec (v : Nat) : Printf.text [.dir {} (.dec v)] = dec v := by
  simp only [Printf.text, List.flatMap_cons, List.flatMap_nil, Printf.Piece.text, Printf.Conv.text, Printf.numText,
    Printf.Spec.width, List.foldl_nil, Int.natAbs_natCast, show decide ((v : Int) < 0) = false by simp, Nat.zero_sub,
    Bool.false_eq_true, if_false, List.replicate_zero, List.nil_append, List.append_nil]
  rfl

/-- The pieces of the formats. -/
def signed (s : Str) (v : Nat) : List Printf.Piece := [.dir {} (.str s), .dir {} (.dec v)]
def colon2 (v : Nat) : List Printf.Piece := [.lit 0x3A, .dir { zero := true, ws := [2] } (.dec v)]
def dot3 (v : Nat) : List Printf.Piece := [.lit 0x2E, .dir { zero := true, ws := [3] } (.dec v)]

theorem signed_ok (s : Str) (v : Nat) (hs : ∀ c ∈ s, c < 256) (hv : v < 2 ^ 31) : ∀ p ∈ signed s v, p.WF ∧ p.InRange ∧ ¬ p.RightAligned := by
  intro p hp
  simp only [Nat.reducePow] at *
  simp only [signed, List.mem_cons, List.not_mem_nil, or_false] at hp
  rcases hp with rfl | rfl
  · refine ⟨⟨by simp, by simp, ?_⟩, trivial, by simp [Printf.Piece.RightAligned, Printf.Spec.width]⟩
    intro t ht
    rcases ht with ht | ht
    · cases ht; exact hs
    · cases ht
  · refine ⟨⟨by simp, by simp, ?_⟩, ⟨rfl, ?_, by decide, by simp⟩, by simp [Printf.Piece.RightAligned]⟩
    · intro t ht
      rcases ht with ht | ht <;> cases ht
    · rw [Int.natAbs_natCast]; simp only [Nat.reducePow]; omega

theorem colon2_ok (v : Nat) (hv : v < 100) : ∀ p ∈ colon2 v, p.WF ∧ p.InRange ∧ ¬ p.RightAligned := by
  intro p hp
  simp only [colon2, List.mem_cons, List.not_mem_nil, or_false] at hp
  rcases hp with rfl | rfl
  · exact ⟨by simp [Printf.Piece.WF], trivial, by simp [Printf.Piece.RightAligned]⟩
  · refine ⟨⟨by simp, by simp, ?_⟩, ⟨rfl, ?_, by decide, by simp⟩, by simp [Printf.Piece.RightAligned]⟩
    · intro t ht
      rcases ht with ht | ht <;> cases ht
    · rw [Int.natAbs_natCast]; simp only [Nat.reducePow]; omega

theorem dot3_ok (v : Nat) (hv : v < 1000) : ∀ p ∈ dot3 v, p.WF ∧ p.InRange ∧ ¬ p.RightAligned := by
  intro p hp
  simp only [dot3, List.mem_cons, List.not_mem_nil, or_false] at hp
  rcases hp with rfl | rfl
  · exact ⟨by simp [Printf.Piece.WF], trivial, by simp [Printf.Piece.RightAligned]⟩
  · refine ⟨⟨by simp, by simp, ?_⟩, ⟨rfl, ?_, by decide, by simp⟩, by simp [Printf.Piece.RightAligned]⟩
    · intro t ht
      rcases ht with ht | ht <;> cases ht
    · rw [Int.natAbs_natCast]; simp only [Nat.reducePow]; omega

theorem text_append (a b : List Printf.Piece) : Printf.text (a ++ b) = Printf.text a ++ Printf.text b := by
  simp [Printf.text]

theorem signed_text (s : Str) (v : Nat) : Printf.text (signed s v) = s ++ dec v := by
  have := text_dec v
  simp only [Printf.text, List.flatMap_cons, List.flatMap_nil, List.append_nil] at this
  simp only [signed, Printf.text, List.flatMap_cons, List.flatMap_nil, List.append_nil, this]
  simp [Printf.Piece.text, Printf.Conv.text, Printf.field, Printf.Spec.width]

theorem colon2_text (v : Nat) (hv : v < 100) : Printf.text (colon2 v) = 0x3A :: two v := by
  have := two_eq v hv
  simp only [colon2, Printf.text, List.flatMap_cons, List.flatMap_nil, List.append_nil, Printf.Piece.text, Printf.Conv.text,
    Int.natAbs_natCast, show decide ((v : Int) < 0) = false by simp, List.cons_append, List.nil_append]
  rw [← this]; rfl

theorem dot3_text (v : Nat) (hv : v < 1000) : Printf.text (dot3 v) = 0x2E :: three v := by
  have := three_eq v hv
  simp only [dot3, Printf.text, List.flatMap_cons, List.flatMap_nil, List.append_nil, Printf.Piece.text, Printf.Conv.text,
    Int.natAbs_natCast, show decide ((v : Int) < 0) = false by simp, List.cons_append, List.nil_append]
  rw [← this]; rfl

theorem print_signed (n : Nat) (h1 : 1 ≤ n) (hn : n < 2 ^ 64) (s : Str) (v : Nat) (hs : ∀ c ∈ s, c < 256) (hv : v < 2 ^ 31) :
    Printf.printf n (lit "%s%d") [.str (some s), .int v] = .done ((s ++ dec v).take (n - 1) ++ [0]) := by
  have h := signed_ok s v hs hv
  rw [← signed_text]
  exact print_text n h1 hn (signed s v) (fun p hp => (h p hp).1) (fun p hp => (h p hp).2.1) (fun p hp => (h p hp).2.2)

theorem print_hours (n : Nat) (h1 : 1 ≤ n) (hn : n < 2 ^ 64) (s : Str) (v m : Nat) (hs : ∀ c ∈ s, c < 256) (hv : v < 2 ^ 31) (hm : m < 100) :
    Printf.printf n (lit "%s%d:%02d") [.str (some s), .int v, .int m] = .done ((s ++ dec v ++ 0x3A :: two m).take (n - 1) ++ [0]) := by
  have h := signed_ok s v hs hv
  have h' := colon2_ok m hm
  have hh : ∀ p ∈ signed s v ++ colon2 m, p.WF ∧ p.InRange ∧ ¬ p.RightAligned := fun p hp => (List.mem_append.1 hp).elim (h p) (h' p)
  rw [← signed_text, ← colon2_text m hm, ← text_append]
  exact print_text n h1 hn (signed s v ++ colon2 m) (fun p hp => (hh p hp).1) (fun p hp => (hh p hp).2.1) (fun p hp => (hh p hp).2.2)

theorem cat_colon (n : Nat) (h1 : 1 ≤ n) (hn : n < 2 ^ 64) (old : List Nat) (v : Nat) (hv : v < 100) :
    cat n (lit ":%02d") [.int v] (.done (old.take (n - 1) ++ [0])) = .done ((old ++ 0x3A :: two v).take (n - 1) ++ [0]) := by
  have h := colon2_ok v hv
  rw [← colon2_text v hv]
  exact cat_text n h1 hn old (colon2 v) (fun p hp => (h p hp).1) (fun p hp => (h p hp).2.1) (fun p hp => (h p hp).2.2)

theorem cat_dot (n : Nat) (h1 : 1 ≤ n) (hn : n < 2 ^ 64) (old : List Nat) (v : Nat) (hv : v < 1000) :
    cat n (lit ".%03d") [.int v] (.done (old.take (n - 1) ++ [0])) = .done ((old ++ 0x2E :: three v).take (n - 1) ++ [0]) := by
  have h := dot3_ok v hv
  rw [← dot3_text v hv]
  exact cat_text n h1 hn old (dot3 v) (fun p hp => (h p hp).1) (fun p hp => (h p hp).2.1) (fun p hp => (h p hp).2.2)

theorem read_dec (n : Nat) : ∀ (r : List Nat) (total : Nat), readClock (dec n ++ r) total 0 = readClock r total n := by
  induction n using Nat.strongRecOn with
  | ind n ih =>
    intro r total
    by_cases h : n < 10
    · rw [← digitsText_dec, Printf.digitsText_small 10 false n h (by decide)]
      unfold Printf.digitChar
      rw [if_neg (by omega), List.cons_append, List.nil_append, readClock, if_neg (by omega), if_neg (by omega)]
      congr 1; omega
    · rw [← digitsText_dec, Printf.digitsText_big 10 false n (by decide) (by omega) (by decide), digitsText_dec,
        List.append_assoc, ih (n / 10) (by omega)]
      unfold Printf.digitChar
      rw [if_neg (by omega), List.cons_append, List.nil_append, readClock, if_neg (by omega), if_neg (by omega)]
      congr 1; omega

theorem read_two (v : Nat) (hv : v < 100) (r : List Nat) (total : Nat) : readClock (two v ++ r) total 0 = readClock r total v := by
  simp only [two, List.cons_append, List.nil_append, readClock]
  rw [if_neg (by omega), if_neg (by omega), if_neg (by omega), if_neg (by omega)]
  congr 1; omega

theorem read_three (v : Nat) (hv : v < 1000) (total : Nat) : readClock (three v) total 0 = total + v := by
  simp only [three, readClock]
  rw [if_neg (by omega), if_neg (by omega), if_neg (by omega), if_neg (by omega), if_neg (by omega), if_neg (by omega)]
  omega

theorem read_colon (r : List Nat) (total cur : Nat) : readClock (0x3A :: r) total cur = readClock r ((total + cur) * 60) 0 := by
  rw [readClock, if_pos rfl]

theorem read_dot (r : List Nat) (total cur : Nat) : readClock (0x2E :: r) total cur = readClock r ((total + cur) * 1000) 0 := by
  rw [readClock, if_neg (by decide), if_pos rfl]

theorem dec_head (n : Nat) : ∃ c r, dec n = c :: r ∧ 0x30 ≤ c := by
  induction n using Nat.strongRecOn with
  | ind n ih =>
    by_cases h : n < 10
    · refine ⟨n + 48, [], ?_, by omega⟩
      rw [← digitsText_dec, Printf.digitsText_small 10 false n h (by decide)]
      unfold Printf.digitChar
      rw [if_neg (by omega)]
    · obtain ⟨c, r, e, hc⟩ := ih (n / 10) (by omega)
      refine ⟨c, r ++ [Printf.digitChar false (n % 10)], ?_, hc⟩
      rw [← digitsText_dec, Printf.digitsText_big 10 false n (by decide) (by omega) (by decide), digitsText_dec, e]
      rfl

theorem clock_head (ms : Nat) : ∃ c r, clock ms = c :: r ∧ 0x30 ≤ c := by
  unfold clock
  split
  · obtain ⟨c, r, e, h⟩ := dec_head (ms / 3600000)
    rw [e]; exact ⟨c, _, rfl, h⟩
  · split
    · obtain ⟨c, r, e, h⟩ := dec_head (ms / 60000)
      rw [e]; exact ⟨c, _, rfl, h⟩
    · obtain ⟨c, r, e, h⟩ := dec_head (ms / 1000)
      rw [e]; exact ⟨c, _, rfl, h⟩

theorem read_clock (ms : Nat) : readClock (clock ms) 0 0 = ms := by
  unfold clock
  split
  · rw [List.append_assoc, List.append_assoc, read_dec, List.cons_append, read_colon, read_two _ (by omega), List.cons_append,
      read_colon, read_two _ (by omega), read_dot, read_three _ (by omega)]
    omega
  · split
    · rw [List.append_assoc, read_dec, List.cons_append, read_colon, read_two _ (by omega), read_dot, read_three _ (by omega)]
      omega
    · rw [read_dec, read_dot, read_three _ (by omega)]
      omega

/-! ### C244 -/

/-- C244: the text is the time in hours, minutes and seconds with milliseconds, those in front left out while they are 0,
with `-` for negative times, cut to the buffer. -/
theorem C244_text_partial (n : Nat) (h1 : 1 ≤ n) (hn : n < 2 ^ 64) (tick : Int) (hlo : -2 ^ 31 < tick) (hhi : tick < 2 ^ 31) :
    sysTickToString n tick = .ok (.done (((if tick < 0 then [0x2D] else []) ++ clock tick.natAbs).take (n - 1) ++ [0])) := by
  unfold sysTickToString
  rw [if_neg (by omega)]
  have hs : (if tick < 0 then lit "-" else []) = (if tick < 0 then [0x2D] else [] : Str) := rfl
  simp only [hs]
  have hsb : ∀ c ∈ (if tick < 0 then [0x2D] else [] : Str), c < 256 := by
    intro c hc
    split at hc
    · simp at hc; omega
    · cases hc
  generalize (if tick < 0 then [0x2D] else [] : Str) = s at *
  have ht : (if tick < 0 then -tick else tick) = (tick.natAbs : Int) := by split <;> omega
  rw [ht]
  have hms : tick.natAbs < 2 ^ 31 := by simp only [Nat.reducePow, Int.reducePow] at *; omega
  generalize tick.natAbs = ms at *
  clear hlo hhi ht hs
  simp only [Nat.reducePow] at hms
  have e1 : ((ms : Int).tdiv 3600).tdiv 1000 = ((ms / 3600000 : Nat) : Int) := by
    rw [Int.tdiv_eq_ediv_of_nonneg (a := (ms : Int)) (by omega), Int.tdiv_eq_ediv_of_nonneg (by omega)]; omega
  have e2 : (((ms : Int) - ((ms / 3600000 : Nat) : Int) * 3600 * 1000).tdiv 60).tdiv 1000 = ((ms / 60000 % 60 : Nat) : Int) := by
    rw [Int.tdiv_eq_ediv_of_nonneg (a := (ms : Int) - _) (by omega), Int.tdiv_eq_ediv_of_nonneg (by omega)]; omega
  have e3 : ((ms : Int) - ((ms / 3600000 : Nat) : Int) * 3600 * 1000 - ((ms / 60000 % 60 : Nat) : Int) * 60 * 1000).tdiv 1000 =
      ((ms / 1000 % 60 : Nat) : Int) := by
    rw [Int.tdiv_eq_ediv_of_nonneg (by omega)]; omega
  have e4 : (((ms : Int) - ((ms / 3600000 : Nat) : Int) * 3600 * 1000 - ((ms / 60000 % 60 : Nat) : Int) * 60 * 1000 -
      ((ms / 1000 % 60 : Nat) : Int) * 1000) * 1000).tdiv 1000 = ((ms % 1000 : Nat) : Int) := by
    rw [Int.tdiv_eq_ediv_of_nonneg (by omega)]; omega
  simp only [e1, e2, e3, e4]
  unfold clock
  by_cases hh : 3600000 ≤ ms
  · simp only [if_pos hh]
    rw [if_neg (by omega), if_pos (by omega), print_hours n h1 hn s _ _ hsb (by omega) (by omega), cat_colon n h1 hn _ _ (by omega),
      cat_dot n h1 hn _ _ (by omega)]
    simp only [List.append_assoc]
  · simp only [if_neg hh]
    by_cases hm : 60000 ≤ ms
    · simp only [if_pos hm]
      rw [if_neg (by omega), if_neg (by omega), print_signed n h1 hn s _ hsb (by omega), cat_colon n h1 hn _ _ (by omega),
        cat_dot n h1 hn _ _ (by omega), show ms / 60000 % 60 = ms / 60000 by omega]
      simp only [List.append_assoc]
    · simp only [if_neg hm]
      rw [if_pos (by omega), print_signed n h1 hn s _ hsb (by omega), cat_dot n h1 hn _ _ (by omega),
        show ms / 1000 % 60 = ms / 1000 by omega]
      simp only [List.append_assoc]

/-- C244: read as a clock the text gives the time, so different times have different texts. -/
theorem C244_read_back (tick : Int) : readTime ((if tick < 0 then [0x2D] else []) ++ clock tick.natAbs) = tick := by
  by_cases h : tick < 0
  · rw [if_pos h, List.cons_append, List.nil_append, readTime, read_clock]
    omega
  · rw [if_neg h, List.nil_append]
    have : readTime (clock tick.natAbs) = (readClock (clock tick.natAbs) 0 0 : Int) := by
      obtain ⟨c, r, e, hc⟩ := clock_head tick.natAbs
      rw [e]
      unfold readTime
      split
      · rename_i h; cases h; omega
      · rfl
    rw [this, read_clock]
    omega

/-- C244 fails for the lowest number, whose negation overflows. -/
theorem C244_lowest_counterexample : sysTickToString 32 (-2 ^ 31) = .bad := by decide +kernel

-- 1:01:05.007 and -0.250
example : sysTickToString 32 3665007 = .ok (.done (lit "1:01:05.007" ++ [0])) ∧
    sysTickToString 32 (-250) = .ok (.done (lit "-0.250" ++ [0])) ∧ sysTickToString 8 754321 = .ok (.done (lit "12:34.3" ++ [0])) ∧
    readTime (lit "1:01:05.007") = 3665007 := by decide +kernel

end Verif.Tick
