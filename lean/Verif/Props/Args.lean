import Verif.Mkvalidator.Args
/-! Property C233: what mkvalidator and mkparts make of their command lines. -/
set_option linter.unusedSimpArgs false
namespace Verif.Args
open Verif

/-- One of the arguments is this word, in upper or lower case. -/
def Given (args : List Str) (w : String) : Prop := ∃ a ∈ args, Url.ieq a (Url.lit w) = true

instance (args : List Str) (w : String) : Decidable (Given args w) := by unfold Given; infer_instance

/-- The arguments that are none of these words. -/
def others (words : List String) (args : List Str) : List Str :=
  args.filter fun a => words.all fun w => !Url.ieq a (Url.lit w)

/-- The options of the usage text, mkvalidator.c:923-930. -/
def valWords : List String := ["--no-warn", "--live", "--details", "--divx", "--quick", "--quiet", "--version", "--help"]

/-- What a command line of mkvalidator asks for. -/
structure ValAsks (args : List Str) (s : Val) : Prop where
  warnings : s.warnings = decide (¬ Given args "--no-warn")
  live : s.live = decide (Given args "--live")
  details : s.details = decide (Given args "--details")
  divx : s.divx = decide (Given args "--divx")
  quiet : s.quiet = decide (Given args "--quiet")
  quick : s.quick = decide (Given args "--quick")

/-- The options of mkparts, mkparts.c:191-194. -/
def partsWords : List String := ["--split", "--quiet", "--version", "--help"]

/-! ### Proofs -/

theorem ieq_word {a : Str} {b : String} (h : same a b = true) (c : String) : Url.ieq a (Url.lit c) = Url.ieq (Url.lit b) (Url.lit c) := by
  unfold same Url.ieq at *
  rw [beq_iff_eq] at h
  rw [h]

theorem given_cons (a : Str) (args : List Str) (w : String) :
    decide (Given (a :: args) w) = (Url.ieq a (Url.lit w) || decide (Given args w)) := by
  unfold Given
  simp

theorem others_cons (ws : List String) (a : Str) (args : List Str) :
    others ws (a :: args) = (if ws.all (fun w => !Url.ieq a (Url.lit w)) then [a] else []) ++ others ws args := by
  unfold others
  rw [List.filter_cons]
  split <;> rfl

/-- The settings behind the loop. -/
def valOf (args : List Str) (s : Val) : Val :=
  ⟨s.warnings && !decide (Given args "--no-warn"), s.live || decide (Given args "--live"),
    s.details || decide (Given args "--details"), s.divx || decide (Given args "--divx"), s.quiet || decide (Given args "--quiet"),
    s.quick || decide (Given args "--quick"), s.showVersion || decide (Given args "--version") || decide (Given args "--help"),
    s.showUsage || decide (Given args "--help")⟩

/-- The settings behind the loop. -/
def partsOf (args : List Str) (s : Parts) : Parts :=
  ⟨s.split || decide (Given args "--split"), s.quiet || decide (Given args "--quiet"),
    s.showVersion || decide (Given args "--version") || decide (Given args "--help"), s.showUsage || decide (Given args "--help")⟩

theorem words_eq : ∀ w ∈ "--split" :: valWords, ∀ c ∈ "--split" :: valWords, Url.ieq (Url.lit w) (Url.lit c) = decide (w = c) := by
  decide +kernel

theorem val_loop (args : List Str) : ∀ (s : Val) (u : List Str),
    (loop valFlag args s u).1 = valOf args s ∧
    (loop valFlag args s u).2 = u ++ others valWords args.dropLast := by
  induction args with
  | nil => intro s u; cases s; simp [loop, valOf, partsOf, Given, others]
  | cons a args ih =>
    intro s u
    have key : ∀ (w : String) (s' : Val), same a w = true → w ∈ valWords → valFlag a s = some s' →
        (s'.warnings = (s.warnings && !decide (w = "--no-warn")) ∧ s'.live = (s.live || decide (w = "--live")) ∧
        s'.details = (s.details || decide (w = "--details")) ∧ s'.divx = (s.divx || decide (w = "--divx")) ∧
        s'.quiet = (s.quiet || decide (w = "--quiet")) ∧ s'.quick = (s.quick || decide (w = "--quick")) ∧
        s'.showVersion = (s.showVersion || decide (w = "--version") || decide (w = "--help")) ∧
        s'.showUsage = (s.showUsage || decide (w = "--help"))) →
        (loop valFlag (a :: args) s u).1 = valOf (a :: args) s ∧ (loop valFlag (a :: args) s u).2 = u ++ others valWords (a :: args).dropLast := by
      intro w s' hw hm hf ⟨e1, e2, e3, e4, e5, e6, e7, e8⟩
      have k : ∀ c ∈ "--split" :: valWords, Url.ieq a (Url.lit c) = decide (w = c) := fun c hc => by
        rw [ieq_word hw, words_eq w (List.mem_cons_of_mem _ hm) c hc]
      rw [loop, hf]
      simp only []
      obtain ⟨i1, i2⟩ := ih s' u
      rw [i1, i2]
      constructor
      · simp only [valOf, given_cons, k "--no-warn" (by decide), k "--live" (by decide), k "--details" (by decide), k "--divx" (by decide), k "--quiet" (by decide), k "--quick" (by decide),
          k "--version" (by decide), k "--help" (by decide), e1, e2, e3, e4, e5, e6, e7, e8, Bool.not_or, Bool.and_assoc, Bool.or_assoc]
        congr 1
        simp only [Bool.or_left_comm]
      · have hz : valWords.all (fun w => !Url.ieq a (Url.lit w)) = false := by
          rw [Bool.eq_false_iff]
          intro h
          have := List.all_eq_true.1 h w hm
          rw [show Url.ieq a (Url.lit w) = true from hw] at this
          simp at this
        cases args with
        | nil => simp [others]
        | cons b args =>
          show _ = u ++ others valWords (a :: (b :: args).dropLast)
          rw [others_cons valWords a, hz]; rfl
    by_cases h1 : same a "--no-warn" = true
    · exact key "--no-warn" { s with warnings := false } h1 (by decide) (by unfold valFlag; rw [if_pos h1]) (by simp)
    by_cases h2 : same a "--live" = true
    · exact key "--live" { s with live := true } h2 (by decide) (by unfold valFlag; rw [if_neg h1, if_pos h2]) (by simp)
    by_cases h3 : same a "--details" = true
    · exact key "--details" { s with details := true } h3 (by decide) (by unfold valFlag; rw [if_neg h1, if_neg h2, if_pos h3]) (by simp)
    by_cases h4 : same a "--divx" = true
    · exact key "--divx" { s with divx := true } h4 (by decide) (by unfold valFlag; rw [if_neg h1, if_neg h2, if_neg h3, if_pos h4]) (by simp)
    by_cases h5 : same a "--version" = true
    · exact key "--version" { s with showVersion := true } h5 (by decide)
        (by unfold valFlag; rw [if_neg h1, if_neg h2, if_neg h3, if_neg h4, if_pos h5]) (by simp)
    by_cases h6 : same a "--quiet" = true
    · exact key "--quiet" { s with quiet := true } h6 (by decide)
        (by unfold valFlag; rw [if_neg h1, if_neg h2, if_neg h3, if_neg h4, if_neg h5, if_pos h6]) (by simp)
    by_cases h7 : same a "--quick" = true
    · exact key "--quick" { s with quick := true } h7 (by decide)
        (by unfold valFlag; rw [if_neg h1, if_neg h2, if_neg h3, if_neg h4, if_neg h5, if_neg h6, if_pos h7]) (by simp)
    by_cases h8 : same a "--help" = true
    · exact key "--help" { s with showVersion := true, showUsage := true } h8 (by decide)
        (by unfold valFlag; rw [if_neg h1, if_neg h2, if_neg h3, if_neg h4, if_neg h5, if_neg h6, if_neg h7, if_pos h8]) (by simp)
    have hf : valFlag a s = none := by
      unfold valFlag
      rw [if_neg h1, if_neg h2, if_neg h3, if_neg h4, if_neg h5, if_neg h6, if_neg h7, if_neg h8]
    rw [loop, hf]
    simp only []
    obtain ⟨i1, i2⟩ := ih s (if args = [] then u else u ++ [a])
    rw [i1, i2]
    simp only [same, Bool.not_eq_true] at h1 h2 h3 h4 h5 h6 h7 h8
    constructor
    · simp only [valOf, given_cons, h1, h2, h3, h4, h5, h6, h7, h8, Bool.false_or]
    · cases args with
      | nil => simp
      | cons b args =>
        show _ = u ++ others valWords (a :: (b :: args).dropLast)
        rw [if_neg (by simp), others_cons valWords a]
        simp [valWords, h1, h2, h3, h4, h5, h6, h7, h8]

theorem parts_loop (args : List Str) : ∀ (s : Parts) (u : List Str),
    (loop partsFlag args s u).1 = partsOf args s ∧
    (loop partsFlag args s u).2 = u ++ others partsWords args.dropLast := by
  induction args with
  | nil => intro s u; cases s; simp [loop, valOf, partsOf, Given, others]
  | cons a args ih =>
    intro s u
    have key : ∀ (w : String) (s' : Parts), same a w = true → w ∈ partsWords → partsFlag a s = some s' →
        (s'.split = (s.split || decide (w = "--split")) ∧
        s'.quiet = (s.quiet || decide (w = "--quiet")) ∧
        s'.showVersion = (s.showVersion || decide (w = "--version") || decide (w = "--help")) ∧
        s'.showUsage = (s.showUsage || decide (w = "--help"))) →
        (loop partsFlag (a :: args) s u).1 = partsOf (a :: args) s ∧ (loop partsFlag (a :: args) s u).2 = u ++ others partsWords (a :: args).dropLast := by
      intro w s' hw hm hf ⟨e1, e5, e7, e8⟩
      have k : ∀ c ∈ "--split" :: valWords, Url.ieq a (Url.lit c) = decide (w = c) := fun c hc => by
        rw [ieq_word hw, words_eq w ((show ∀ w ∈ partsWords, w ∈ "--split" :: valWords by decide) w hm) c hc]
      rw [loop, hf]
      simp only []
      obtain ⟨i1, i2⟩ := ih s' u
      rw [i1, i2]
      constructor
      · simp only [partsOf, given_cons, k "--split" (by decide), k "--quiet" (by decide), k "--version" (by decide), k "--help" (by decide), e1, e5, e7, e8, Bool.or_assoc]
        congr 1
        simp only [Bool.or_left_comm]
      · have hz : partsWords.all (fun w => !Url.ieq a (Url.lit w)) = false := by
          rw [Bool.eq_false_iff]
          intro h
          have := List.all_eq_true.1 h w hm
          rw [show Url.ieq a (Url.lit w) = true from hw] at this
          simp at this
        cases args with
        | nil => simp [others]
        | cons b args =>
          show _ = u ++ others partsWords (a :: (b :: args).dropLast)
          rw [others_cons partsWords a, hz]; rfl
    by_cases h1 : same a "--split" = true
    · exact key "--split" { s with split := true } h1 (by decide) (by unfold partsFlag; rw [if_pos h1]) (by simp)
    by_cases h5 : same a "--version" = true
    · exact key "--version" { s with showVersion := true } h5 (by decide)
        (by unfold partsFlag; rw [if_neg h1, if_pos h5]) (by simp)
    by_cases h6 : same a "--quiet" = true
    · exact key "--quiet" { s with quiet := true } h6 (by decide)
        (by unfold partsFlag; rw [if_neg h1, if_neg h5, if_pos h6]) (by simp)
    by_cases h8 : same a "--help" = true
    · exact key "--help" { s with showVersion := true, showUsage := true } h8 (by decide)
        (by unfold partsFlag; rw [if_neg h1, if_neg h5, if_neg h6, if_pos h8]) (by simp)
    have hf : partsFlag a s = none := by
      unfold partsFlag
      rw [if_neg h1, if_neg h5, if_neg h6, if_neg h8]
    rw [loop, hf]
    simp only []
    obtain ⟨i1, i2⟩ := ih s (if args = [] then u else u ++ [a])
    rw [i1, i2]
    simp only [same, Bool.not_eq_true] at h1 h5 h6 h8
    constructor
    · simp only [partsOf, given_cons, h1, h5, h6, h8, Bool.false_or]
    · cases args with
      | nil => simp
      | cons b args =>
        show _ = u ++ others partsWords (a :: (b :: args).dropLast)
        rw [if_neg (by simp), others_cons partsWords a]
        simp [partsWords, h1, h5, h6, h8]

/-! ## C233 -/

/-- C233 for mkvalidator: unless a text is asked for, the last argument is read with the options given anywhere before it, in
any order and case, and every other argument is reported. Without arguments and with `--help` the usage is shown with the exit
code -1, with `--version` the version with 0. -/
theorem C233_mkvalidator_partial (args : List Str) (src : Str) :
    (¬ Given (args ++ [src]) "--help" → ¬ Given (args ++ [src]) "--version" →
      ∃ s, ValAsks (args ++ [src]) s ∧ valStart (args ++ [src]) = (.run s src, others valWords args)) ∧
    (Given (args ++ [src]) "--help" →
      valStart (args ++ [src]) = (.text true (decide (¬ Given (args ++ [src]) "--quick")) (-1), others valWords args)) ∧
    (¬ Given (args ++ [src]) "--help" → Given (args ++ [src]) "--version" →
      valStart (args ++ [src]) = (.text false false 0, others valWords args)) ∧
    valStart [] = (.text true true (-1), []) := by
  obtain ⟨e1, e2⟩ := val_loop (args ++ [src]) {} []
  refine ⟨fun h1 h2 => ?_, fun h1 => ?_, fun h1 h2 => ?_, rfl⟩
  · refine ⟨valOf (args ++ [src]) {}, by constructor <;> simp [valOf], ?_⟩
    unfold valStart
    simp only [e1, e2, List.getLast?_append, List.getLast?_singleton, Option.some_or, List.dropLast_concat, List.nil_append]
    simp [valOf, h1, h2]
  · unfold valStart
    simp only [e1, e2, List.getLast?_append, List.getLast?_singleton, Option.some_or, List.dropLast_concat, List.nil_append]
    simp [valOf, partsOf, h1]
  · unfold valStart
    simp only [e1, e2, List.getLast?_append, List.getLast?_singleton, Option.some_or, List.dropLast_concat, List.nil_append]
    simp [valOf, partsOf, h1, h2]

example : valStart [Url.lit "--Quiet", Url.lit "-x", Url.lit "--no-warn", Url.lit "a.mkv"] =
    (.run { quiet := true, warnings := false } (Url.lit "a.mkv"), [Url.lit "-x"]) := by decide +kernel

/-- C233 for mkparts; the file is always split. -/
theorem C233_mkparts_partial (args : List Str) (src : Str) :
    (¬ Given (args ++ [src]) "--help" → ¬ Given (args ++ [src]) "--version" →
      ∃ s, s.quiet = decide (Given (args ++ [src]) "--quiet") ∧ s.split = true ∧
        partsStart (args ++ [src]) = (.run s src, others partsWords args)) ∧
    (Given (args ++ [src]) "--help" → partsStart (args ++ [src]) = (.text true true (-1), others partsWords args)) ∧
    (¬ Given (args ++ [src]) "--help" → Given (args ++ [src]) "--version" →
      partsStart (args ++ [src]) = (.text false false 0, others partsWords args)) ∧
    partsStart [] = (.text true true (-1), []) := by
  obtain ⟨e1, e2⟩ := parts_loop (args ++ [src]) {} []
  refine ⟨fun h1 h2 => ?_, fun h1 => ?_, fun h1 h2 => ?_, rfl⟩
  · refine ⟨⟨true, decide (Given (args ++ [src]) "--quiet"), false, false⟩, rfl, rfl, ?_⟩
    unfold partsStart
    simp only [e1, e2, List.getLast?_append, List.getLast?_singleton, Option.some_or, List.dropLast_concat, List.nil_append]
    simp [valOf, partsOf, h1, h2]
  · unfold partsStart
    simp only [e1, e2, List.getLast?_append, List.getLast?_singleton, Option.some_or, List.dropLast_concat, List.nil_append]
    simp [valOf, partsOf, h1]
  · unfold partsStart
    simp only [e1, e2, List.getLast?_append, List.getLast?_singleton, Option.some_or, List.dropLast_concat, List.nil_append]
    simp [valOf, partsOf, h1, h2]

example : partsStart [Url.lit "--quiet", Url.lit "--SPLIT", Url.lit "a.mkv"] = (.run { quiet := true } (Url.lit "a.mkv"), []) := by
  decide +kernel

/-- C233 as a whole: the only argument that is no option is the file that is read, wherever it stands. -/
def FileFound : Prop :=
  ∀ (args : List Str) (src : Str), ¬ Given args "--help" → ¬ Given args "--version" → others valWords args = [src] →
    ∃ s, valStart args = (.run s src, [])

/-- C233 fails with an option behind the file: the option is opened, the file is an unknown parameter. And `--quick` hides the
options `--help` should list. -/
theorem C233_counterexample : ¬ FileFound ∧
    valStart [Url.lit "a.mkv", Url.lit "--quiet"] = (.run { quiet := true } (Url.lit "--quiet"), [Url.lit "a.mkv"]) ∧
    valStart [Url.lit "--help", Url.lit "--quick"] = (.text true false (-1), []) := by
  have h1 : valStart [Url.lit "a.mkv", Url.lit "--quiet"] = (.run { quiet := true } (Url.lit "--quiet"), [Url.lit "a.mkv"]) := by
    decide +kernel
  refine ⟨fun h => ?_, h1, by decide +kernel⟩
  obtain ⟨s, hs⟩ := h [Url.lit "a.mkv", Url.lit "--quiet"] (Url.lit "a.mkv") (by decide +kernel) (by decide +kernel) (by decide +kernel)
  rw [h1] at hs
  simp at hs

end Verif.Args
