import Verif.Mkvalidator.VideoLemmas
/-!
Theorems about mkvalidator: C125 (exit status and verdict), C126 (video sizes).
-/
namespace Verif.Mkvalidator
open Verif Verif.Core Verif.Mkv

/-! ### C125 -/

/-- Specification: an error line with this code was printed. -/
def Printed (o : Opts) (r : Run) (code : Nat) : Prop := Line.ERR code ∈ r.lines o

theorem printed_iff {o : Opts} (hq : o.quick = false) (r : Run) (c : Nat) :
    Printed o r c ↔ .err c ∈ r.evs ∨ .lost c ∈ r.evs ∨ .fatal c ∈ r.evs := by
  unfold Printed Run.lines lines
  rw [hq]
  simp only [Bool.false_eq_true, if_false, List.mem_filterMap]
  constructor
  · rintro ⟨e, he, hl⟩
    cases e with
    | err x => simp only [Ev.line, Option.some.injEq, Line.ERR.injEq] at hl; subst hl; exact .inl he
    | lost x => simp only [Ev.line, Option.some.injEq, Line.ERR.injEq] at hl; subst hl; exact .inr (.inl he)
    | fatal x => simp only [Ev.line, Option.some.injEq, Line.ERR.injEq] at hl; subst hl; exact .inr (.inr he)
    | warn x =>
      simp only [Ev.line] at hl
      split at hl <;> cases hl
  · rintro (h | h | h)
    · exact ⟨_, h, rfl⟩
    · exact ⟨_, h, rfl⟩
    · exact ⟨_, h, rfl⟩

/-- C125, what holds: for every file and without `--quick`, if mkvalidator exits, its exit status is 0 exactly if all the
errors it printed have the codes 5, 6, 7, 9, 10 or 0xC3, whose result is dropped, or a multiple of 256, which an exit status
cannot show - or if it gave up with ERR100; and it calls the file valid exactly if the former is true of all errors. With
`--quick` the exit status is 0 exactly if the code of the first line is a multiple of 256.

Not true, see the counterexamples: that the exit status is 0, or the file called valid, only if there was no error. -/
theorem C125_verdict_partial (o : Opts) (fits : Nat → Bool) (f : File) (s : Nat)
    (hs : (validate o fits f).status o = .exited s) :
    (o.quick = false →
      (s = 0 ↔ (∀ c, Printed o (validate o fits f) c → c ∈ [5, 6, 7, 9, 10, 0xC3] ∨ c % 256 = 0)
        ∨ Printed o (validate o fits f) 0x100)
      ∧ (o.quiet = false →
          ((validate o fits f).saysValid o = true ↔ ∀ c, Printed o (validate o fits f) c → c ∈ [5, 6, 7, 9, 10, 0xC3])))
    ∧ (o.quick = true → ∀ l ∈ (validate o fits f).lines o, l.code < 4096 → (s = 0 ↔ l.code % 256 = 0)) := by
  have hr := runOk_validate o fits f
  generalize validate o fits f = r at hs hr ⊢
  constructor
  · intro hq
    have hst : r.status o = (match r.fin with
        | .next | .exit => .exited (low8 (result r.evs))
        | .crash => .crashed
        | .hang => .running) := by
      unfold Run.status; rw [hq]; cases lines o r.evs <;> rfl
    rw [hst] at hs
    have hp := printed_iff hq r
    rcases hr with ⟨hf, hok⟩ | ⟨hf, pre, c, he, hok, hc⟩
    · have hn : r.fin = .next := by
        cases h : r.fin with
        | next => rfl
        | exit => exact absurd h hf
        | crash => rw [h] at hs; cases hs
        | hang => rw [h] at hs; cases hs
      rw [hn] at hs
      injection hs with hs
      obtain ⟨h1, h2⟩ := result_fold r.evs hok 0#32
      have h100 : ¬ Printed o r 0x100 := by
        rw [hp]
        rintro (h | h | h)
        · exact (hok.ok _ h).2.2.2 (by decide)
        · exact absurd (hok.ok _ h) (by decide)
        · exact hok.ok _ h
      have hmem : ∀ c, .err c ∈ r.evs → c ∉ [5, 6, 7, 9, 10, 0xC3] := fun c h => (hok.ok _ h).2.2.1
      constructor
      · rw [← hs]
        unfold result
        rw [h1]
        constructor
        · rintro ⟨_, h⟩
          left
          intro c hc
          rcases (hp c).mp hc with h' | h' | h'
          · exact .inr (h c h')
          · exact .inl (hok.ok _ h')
          · exact absurd (hok.ok _ h') id
        · rintro (h | h)
          · refine ⟨by decide, fun c hc => ?_⟩
            rcases h c ((hp c).mpr (.inl hc)) with h' | h'
            · exact absurd h' (hmem c hc)
            · exact h'
          · exact absurd h h100
      · intro hz
        have hv : r.saysValid o = true ↔ result r.evs = 0#32 := by
          unfold Run.saysValid
          rw [hz, hn, hq]
          simp
        rw [hv]
        unfold result
        rw [h2]
        constructor
        · rintro ⟨_, h⟩ c hc
          rcases (hp c).mp hc with h' | h' | h'
          · exact absurd h' (h c)
          · exact hok.ok _ h'
          · exact absurd (hok.ok _ h') id
        · intro h
          exact ⟨rfl, fun c hc => hmem c hc (h c ((hp c).mpr (.inl hc)))⟩
    · rw [hf] at hs
      injection hs with hs
      have hres : result r.evs = neg c := by
        unfold result; rw [he, List.foldl_append]; rfl
      rw [hres] at hs
      have hpc : Printed o r c := (hp c).mpr (.inr (.inr (by rw [he]; simp)))
      have hcd : ∀ c ∈ fatalCodes, c < 4096 ∧ c ∉ [5, 6, 7, 9, 10, 0xC3] ∧ (c % 256 = 0 → c = 0x100) := by decide
      obtain ⟨c1, c2, c3⟩ := hcd c hc
      have h100 : Printed o r 0x100 → c = 0x100 := by
        rw [hp, he]
        simp only [List.mem_append, List.mem_singleton, Ev.fatal.injEq, reduceCtorEq, or_false]
        rintro (h | h | h | h)
        · exact absurd (by decide) (hok.ok _ h).2.2.2
        · exact absurd (hok.ok _ h) (by decide)
        · exact absurd (hok.ok _ h) id
        · exact h.symm
      constructor
      · rw [← hs, low8_neg c1]
        constructor
        · intro h; rw [c3 h] at hpc; exact .inr hpc
        · rintro (h | h)
          · rcases h c hpc with h' | h'
            · exact absurd h' c2
            · exact h'
          · rw [h100 h]
      · intro _
        constructor
        · intro h
          unfold Run.saysValid at h
          rw [hf] at h
          simp at h
        · intro h
          exact absurd (h c hpc) c2
  · intro hq l hl hc
    have hst : r.status o = (match lines o r.evs with
        | l :: _ => .exited (low8 (neg l.code))
        | [] => match r.fin with
          | .next | .exit => .exited (low8 (result r.evs))
          | .crash => .crashed
          | .hang => .running) := by
      unfold Run.status; rw [hq]; cases lines o r.evs <;> rfl
    rw [hst] at hs
    unfold Run.lines at hl
    rw [hq] at hl
    cases hls : lines o r.evs with
    | nil => rw [hls] at hl; simp at hl
    | cons a as =>
      rw [hls] at hl hs
      simp only [if_true, List.take_succ_cons, List.take_zero, List.mem_singleton] at hl
      subst hl
      injection hs with hs
      rw [← hs, low8_neg hc]

/-- A Segment whose Info lacks a mandatory element: ERR200 is printed and the exit status is 0. -/
def lacking : File := { elts := [{ body := .info 1000000 false, viol := [.missing] }] }

/-- C125, counterexample: an error is printed and the exit status is 0. -/
theorem C125_status_counterexample :
    ∃ (f : File) (o : Opts), Printed o (validate o (fun _ => true) f) 0x200
      ∧ (validate o (fun _ => true) f).status o = .exited 0 :=
  ⟨lacking, {}, by show Line.ERR 0x200 ∈ _; decide +kernel, by decide +kernel⟩

/-- A file that needs version 2 of EBML to be read, with an Info. -/
def tooNew : File := { head := { readVersion := 2 }, elts := [{ body := .info 1000000 false }] }

/-- C125, counterexample: an error is printed and the file is called valid. -/
theorem C125_valid_counterexample :
    ∃ (f : File) (o : Opts), Printed o (validate o (fun _ => true) f) 5
      ∧ (validate o (fun _ => true) f).saysValid o = true ∧ (validate o (fun _ => true) f).status o = .exited 0 :=
  ⟨tooNew, {}, by show Line.ERR 5 ∈ _; decide +kernel, by decide +kernel, by decide +kernel⟩

/-- A file whose Info carries an invalid element and misses another one. -/
example : (validate {} (fun _ => true) { elts := [{ body := .info 1000000 false, viol := [.invalid, .missing] }] }).status {} = .exited 255 := by
  decide +kernel

/-! ### C126 -/

/-- Specification: the width or height shown. Without one of its own a picture is shown in its size in pixels. -/
def shown (display : Option Int) (unit : Int) (pixels : Int) : Int := display.getD (if unit = 0 then pixels else 0)

theorem displayOf_fst (d : Option Int) (u : Int) (p : Int) : (displayOf d u p).1 = shown d u p := by
  cases d with
  | some d => rfl
  | none =>
    unfold displayOf shown
    by_cases h : u = 0
    · rw [if_neg (by omega), Option.getD_none, if_pos h]
    · rw [if_pos h, Option.getD_none, if_neg h]

theorem displayOf_snd (d : Option Int) (u p : Int) (e : Ev) : e ∈ (displayOf d u p).2 ↔ e = .err 0xE2 ∧ u ≠ 0 ∧ d = none := by
  cases d with
  | some d => simp [displayOf]
  | none =>
    unfold displayOf
    by_cases h : u = 0
    · simp [h]
    · simp [h]

theorem shuffle {a d1 d2 u g w0 h0 r : Prop} :
    ((((a ∧ u ∧ d1 ∨ a ∧ u ∧ d2) ∨ h0 ∧ g) ∨ w0 ∧ g) ∨ r) ↔ a ∧ u ∧ (d1 ∨ d2) ∨ g ∧ (w0 ∨ h0) ∨ r := by
  constructor
  · rintro ((((⟨x, y, z⟩ | ⟨x, y, z⟩) | ⟨x, y⟩) | ⟨x, y⟩) | x)
    · exact .inl ⟨x, y, .inl z⟩
    · exact .inl ⟨x, y, .inr z⟩
    · exact .inr (.inl ⟨y, .inr x⟩)
    · exact .inr (.inl ⟨y, .inl x⟩)
    · exact .inr (.inr x)
  · rintro (⟨x, y, z | z⟩ | ⟨x, y | y⟩ | x)
    · exact .inl (.inl (.inl (.inl ⟨x, y, z⟩)))
    · exact .inl (.inl (.inl (.inr ⟨x, y, z⟩)))
    · exact .inl (.inr ⟨y, x⟩)
    · exact .inl (.inl (.inr ⟨y, x⟩))
    · exact .inr x

theorem mem_serious (e : Ev) (n k : Nat) :
    e ∈ (if 2 < (n : Int) - (k : Int) then [Ev.err 0xE3] else if (n : Int) - (k : Int) ≠ 0 then [Ev.warn 0xE3] else [])
      ↔ (e = .err 0xE3 ∧ k + 3 ≤ n) ∨ (e = .warn 0xE3 ∧ n < k + 3 ∧ n ≠ k) := by
  by_cases h : k + 3 ≤ n
  · rw [if_pos (by omega), List.mem_singleton]
    constructor
    · exact fun he => .inl ⟨he, h⟩
    · rintro (⟨he, _⟩ | ⟨_, h1, _⟩)
      · exact he
      · omega
  · rw [if_neg (by omega)]
    by_cases h1 : n = k
    · rw [if_neg (by omega)]
      constructor
      · intro he; cases he
      · rintro (⟨_, h2⟩ | ⟨_, _, h2⟩)
        · exact absurd h2 h
        · exact absurd h1 h2
    · rw [if_pos (by omega), List.mem_singleton]
      constructor
      · exact fun he => .inr ⟨he, by omega, h1⟩
      · rintro (⟨_, h2⟩ | ⟨he, _, _⟩)
        · exact absurd h2 h
        · exact he

/-- C126, what holds for sizes below 2^31: what mkvalidator reports about a Video element, and when it does not survive
looking at it. -/
theorem C126_video_partial (webm : Bool) (v : Video) (PW PH W H T B L R : Nat)
    (hPW : v.pixelW.getD 0 = PW) (hPH : v.pixelH.getD 0 = PH)
    (hW : shown v.displayW (v.unit.getD 0) PW = W) (hH : shown v.displayH (v.unit.getD 0) PH = H)
    (hT : v.cropTop.getD 0 = T) (hB : v.cropBottom.getD 0 = B) (hL : v.cropLeft.getD 0 = L) (hR : v.cropRight.getD 0 = R)
    (hlt : ∀ x ∈ [PW, PH, W, H, T, B, L, R], x < 2 ^ 31) :
    ((checkVideo webm (some v)).fin = .crash ↔ v.unit.getD 0 = 0 ∧ W < PW ∧ H = 0 ∧ 0 < PH)
    ∧ ((checkVideo webm (some v)).fin ≠ .crash →
        (checkVideo webm (some v)).fin = .next
        ∧ (∀ c, .err c ∈ (checkVideo webm (some v)).evs ↔
            (c = 0xE2 ∧ v.unit.getD 0 ≠ 0 ∧ (v.displayW = none ∨ v.displayH = none))
            ∨ (c = 0xE7 ∧ (W = 0 ∨ H = 0))
            ∨ (c = 0xE3 ∧ v.unit.getD 0 = 0 ∧ W < PW ∧ H < PH ∧ (if webm then 3 else 4) ≤ points W H PW PH)
            ∨ (c = 0xE4 ∧ v.unit.getD 0 = 3 ∧ (v.cropTop ≠ none ∨ v.cropBottom ≠ none ∨ v.cropLeft ≠ none ∨ v.cropRight ≠ none))
            ∨ (c = 0xE5 ∧ v.unit.getD 0 ≠ 3 ∧ H ≤ T + B)
            ∨ (c = 0xE6 ∧ v.unit.getD 0 ≠ 3 ∧ W ≤ L + R))
        ∧ (.warn 0xE3 ∈ (checkVideo webm (some v)).evs ↔ v.unit.getD 0 = 0 ∧ W < PW ∧ H < PH
            ∧ points W H PW PH < (if webm then 3 else 4) ∧ points W H PW PH ≠ (if webm then 0 else 1))) := by
  have l1 := hlt PW (by simp); have l2 := hlt PH (by simp); have l3 := hlt W (by simp); have l4 := hlt H (by simp)
  have l5 := hlt T (by simp); have l6 := hlt B (by simp); have l7 := hlt L (by simp); have l8 := hlt R (by simp)
  have hcrop : ∀ e, e ∈ cropEvs v (v.unit.getD 0) W H PW PH ↔
      (e = .err 0xE4 ∧ v.unit.getD 0 = 3 ∧ (v.cropTop ≠ none ∨ v.cropBottom ≠ none ∨ v.cropLeft ≠ none ∨ v.cropRight ≠ none))
      ∨ (e = .warn 0xE7 ∧ v.unit.getD 0 = 3 ∧ (W = PW ∨ H = PH))
      ∨ (e = .err 0xE5 ∧ v.unit.getD 0 ≠ 3 ∧ H ≤ T + B)
      ∨ (e = .err 0xE6 ∧ v.unit.getD 0 ≠ 3 ∧ W ≤ L + R) := by
    intro e
    unfold cropEvs
    by_cases hu : v.unit.getD 0 = 3
    · rw [if_pos hu]
      have hs : ∀ x : Option Int, e ∈ evIfSome x (.err 0xE4) ↔ e = .err 0xE4 ∧ x ≠ none := by
        intro x; cases x <;> simp [evIfSome]
      simp only [List.mem_append, hs, mem_ite, Int.natCast_inj]
      simp only [hu, ne_eq, not_true_eq_false, true_and, false_and, and_false, or_false]
      generalize (e = Ev.err 0xE4) = a, (e = Ev.warn 0xE7) = b
      grind
    · rw [if_neg hu, hT, hB, hL, hR]
      have hs : ∀ {a b : Nat}, a < 2 ^ 31 → b < 2 ^ 31 → s64 ((a : Int) + b) = a + b := by
        intro a b ha hb
        unfold s64
        simp only [Nat.reducePow, Int.reducePow] at *
        omega
      rw [hs l5 l6, hs l7 l8]
      simp only [List.mem_append, mem_ite, hu, false_and, and_false, false_or, ne_eq, not_false_eq_true, true_and]
      have e1 : ((T : Int) + B ≥ H) ↔ H ≤ T + B := by omega
      have e2 : ((L : Int) + R ≥ W) ↔ W ≤ L + R := by omega
      rw [e1, e2, and_comm, and_comm (a := W ≤ L + R)]
  have hpix : (pixelEvs webm (v.unit.getD 0) W H PW PH).fin ≠ .crash → (pixelEvs webm (v.unit.getD 0) W H PW PH).fin = .next
      ∧ ∀ e, e ∈ (pixelEvs webm (v.unit.getD 0) W H PW PH).evs ↔
        (e = .err 0xE3 ∧ v.unit.getD 0 = 0 ∧ W < PW ∧ H < PH ∧ (if webm then 3 else 4) ≤ points W H PW PH)
        ∨ (e = .warn 0xE3 ∧ v.unit.getD 0 = 0 ∧ W < PW ∧ H < PH
            ∧ points W H PW PH < (if webm then 3 else 4) ∧ points W H PW PH ≠ (if webm then 0 else 1)) := by
    intro hf
    unfold pixelEvs at hf ⊢
    by_cases hc : v.unit.getD 0 = 0 ∧ (W : Int) < PW ∧ (H : Int) < PH
    · rw [if_pos hc] at hf ⊢
      obtain ⟨hu, c1, c2⟩ := hc
      have c1 : W < PW := by omega
      have c2 : H < PH := by omega
      have h0 : 0 < H := by
        rcases Nat.eq_zero_or_pos H with h | h
        · subst h
          exact absurd (by rw [show ((0 : Nat) : Int) = 0 from rfl, gcd_zero]) hf
        · exact h
      rw [gcd_pos ((H : Int).natAbs + 1) W H h0 (by omega)] at hf ⊢
      dsimp only
      rw [serious_eq webm l3 l4 l1 l2]
      refine ⟨rfl, fun e => ?_⟩
      simp only [say, hu, c1, c2, true_and]
      cases webm
      · exact mem_serious e _ 1
      · exact mem_serious e _ 0
    · rw [if_neg hc]
      refine ⟨rfl, fun e => ?_⟩
      simp only [say, List.not_mem_nil, false_iff, not_or, not_and]
      refine ⟨fun _ a b c => absurd ⟨a, by omega, by omega⟩ hc, fun _ a b c => absurd ⟨a, by omega, by omega⟩ hc⟩
  have hcr : (pixelEvs webm (v.unit.getD 0) W H PW PH).fin = .crash ↔ v.unit.getD 0 = 0 ∧ W < PW ∧ H = 0 ∧ 0 < PH := by
    constructor
    · intro h
      unfold pixelEvs at h
      by_cases hc : v.unit.getD 0 = 0 ∧ (W : Int) < PW ∧ (H : Int) < PH
      · rw [if_pos hc] at h
        obtain ⟨hu, c1, c2⟩ := hc
        rcases Nat.eq_zero_or_pos H with h0 | h0
        · exact ⟨hu, by omega, h0, by omega⟩
        · rw [gcd_pos ((H : Int).natAbs + 1) W H h0 (by omega)] at h
          cases h
      · rw [if_neg hc] at h; cases h
    · rintro ⟨a, b, rfl, d⟩
      unfold pixelEvs
      rw [if_pos ⟨a, by omega, by omega⟩, show ((0 : Nat) : Int) = 0 from rfl, gcd_zero]
  have hrun : checkVideo webm (some v) =
      (say ((displayOf v.displayW (v.unit.getD 0) PW).2 ++ (displayOf v.displayH (v.unit.getD 0) PH).2
        ++ (if (H : Int) = 0 then [.err 0xE7] else []) ++ (if (W : Int) = 0 then [.err 0xE7] else []))).andThen
      ((pixelEvs webm (v.unit.getD 0) W H PW PH).andThen (say (cropEvs v (v.unit.getD 0) W H PW PH))) := by
    unfold checkVideo
    dsimp only
    rw [hPW, hPH, displayOf_fst, displayOf_fst, hW, hH]
  rw [hrun]
  clear hrun
  have hand : ∀ (a : List Ev) (p : Run) (c : List Ev),
      ((say a).andThen (p.andThen (say c))).fin = (if p.fin = .next then .next else p.fin)
      ∧ (p.fin = .next → ((say a).andThen (p.andThen (say c))).evs = a ++ (p.evs ++ c)) := by
    intro a p c
    unfold Run.andThen say
    by_cases h : p.fin = .next
    · simp [h]
    · simp [h]
  obtain ⟨h1, h2⟩ := hand ((displayOf v.displayW (v.unit.getD 0) PW).2 ++ (displayOf v.displayH (v.unit.getD 0) PH).2
        ++ (if (H : Int) = 0 then [.err 0xE7] else []) ++ (if (W : Int) = 0 then [.err 0xE7] else []))
      (pixelEvs webm (v.unit.getD 0) W H PW PH) (cropEvs v (v.unit.getD 0) W H PW PH)
  rw [h1]
  constructor
  · rw [← hcr]
    by_cases h : (pixelEvs webm (v.unit.getD 0) W H PW PH).fin = .next
    · rw [if_pos h, h]
    · rw [if_neg h]
  · intro hf
    have hp : (pixelEvs webm (v.unit.getD 0) W H PW PH).fin ≠ .crash := by
      intro h; rw [h] at hf; exact hf rfl
    obtain ⟨p1, p2⟩ := hpix hp
    rw [if_pos p1]
    refine ⟨rfl, fun c => ?_, ?_⟩
    · rw [h2 p1]
      simp only [List.mem_append, displayOf_snd, mem_ite, p2, hcrop, Ev.err.injEq, reduceCtorEq, false_and, or_false, false_or,
        Int.natCast_eq_zero]
      rw [shuffle]
    · rw [h2 p1]
      simp only [List.mem_append, displayOf_snd, mem_ite, p2, hcrop, Ev.warn.injEq, reduceCtorEq, false_and, or_false, false_or,
        and_false, true_and]
      simp

/-- A picture of 640x480 shown in 320x0. -/
def flat : Video := { pixelW := some 640, pixelH := some 480, displayW := some 320, displayH := some 0 }

/-- C126, counterexample: a DisplayHeight of 0 kills mkvalidator with a division by zero. -/
theorem C126_video_counterexample :
    ∃ v : Video, (checkVideo false (some v)).fin = .crash
      ∧ (validate {} (fun _ => true) { elts := [{ body := .tracks [{ num := some 1, type := some 1, video := some v }] }] }).status {} = .crashed :=
  ⟨flat, by decide +kernel, by decide +kernel⟩

/-- C126, counterexample: in a Matroska file a display size with nothing against it draws a warning (640x360 from 1920x800),
one with the proportions of the picture does not (640x360 from 1920x1080). -/
theorem C126_warning_counterexample :
    points 640 360 1920 800 = 0 ∧ points 640 360 1920 1080 = 1
    ∧ .warn 0xE3 ∈ (checkVideo false (some { pixelW := some 1920, pixelH := some 800, displayW := some 640, displayH := some 360 })).evs
    ∧ .warn 0xE3 ∉ (checkVideo false (some { pixelW := some 1920, pixelH := some 1080, displayW := some 640, displayH := some 360 })).evs := by
  decide +kernel

/-- A WebM picture of 1280x720 shown in 16x9: an error. -/
example : checkVideo true (some { pixelW := some 1280, pixelH := some 720, displayW := some 16, displayH := some 9 })
    = say [.err 0xE3] := by decide +kernel

end Verif.Mkvalidator
