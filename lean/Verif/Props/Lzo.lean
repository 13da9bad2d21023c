import Verif.Mkv.LzoSpec
/-!
Properties of LZO decompression: C64 to C66, C91 and C92.
-/
set_option linter.unusedSimpArgs false
namespace Verif.Lzo

/-- C64. Whatever the input, the memory behind it and the size of the output buffer: nothing is
stored outside of the buffer, nothing is copied from before its start or from a place not stored yet,
the call ends, and the size it reports is within the buffer. -/
theorem C64_writes_in_bounds (g src : List Nat) (cap : Nat) :
    decompress g src cap ≠ .wild ∧ decompress g src cap ≠ .stuck ∧
    ∀ code out, decompress g src cap = .ret code out → out.length ≤ cap := by
  have h := decompress_spec g src cap
  refine ⟨fun e => ?_, fun e => ?_, fun code out e => ?_⟩
  · rw [e] at h; exact h
  · rw [e] at h; exact h
  · rw [e] at h; exact h

/-- Four literals and a copy of three from two back in a buffer of seven and of six. -/
example : decompress [] [21, 1, 2, 3, 4, 0x44, 0, 0x11, 0, 0] 7 = .ret 0 [1, 2, 3, 4, 3, 4, 3] ∧
    decompress [] [21, 1, 2, 3, 4, 0x44, 0, 0x11, 0, 0] 6 = .ret (-3) [1, 2, 3, 4] ∧
    decompress [] [21, 1, 2, 3, 4, 0x44, 1, 0x11, 0, 0] 7 = .ret (-4) [1, 2, 3, 4] := by decide +kernel

/-- C65 is false: three zeros are read past their end. -/
theorem C65_reads_in_bounds_counterexample : decompress [] [0, 0, 0] 100 = .over ∧ decompress [0, 0, 0] [0, 0, 0] 100 = .over ∧
    decompress [] [18, 7, 0x20] 100 = .over := by decide +kernel

/-- C65, what holds: when the byte right behind the input can be read and is not 0, no byte behind
that one is read. Missing: without that byte the scan for the end of a length runs on. -/
theorem C65_reads_in_bounds_partial (x : Nat) (g src : List Nat) (cap : Nat) (hx : x ≠ 0) :
    decompress (x :: g) src cap ≠ .over := by
  have h := decompress_spec (x :: g) src cap
  intro e
  rw [e] at h
  have : guarded (x :: g) = true := by simp [guarded, hx]
  rw [this] at h
  cases h

example : decompress [9] [0, 0, 0] 100 = .ret (-2) [] := by decide +kernel

theorem zeros_append (g : List Nat) : ∀ (m : List Nat) (n : Nat) (m' : List Nat), zeros m = some (n, m') →
    zeros (m ++ g) = some (n, m' ++ g) ∧ m' ≠ []
  | [], _, _, h => by cases h
  | b :: bs, n, m', h => by
    rw [zeros] at h
    rw [List.cons_append, zeros]
    by_cases hb : b = 0
    · rw [if_pos hb] at h ⊢
      cases hz : zeros bs with
      | none => rw [hz] at h; cases h
      | some r =>
        rw [hz, Option.map_some, Option.some.injEq, Prod.mk.injEq] at h
        obtain ⟨e1, e2⟩ := zeros_append g bs r.1 r.2 hz
        rw [e1, Option.map_some, h.1, h.2]
        exact ⟨rfl, h.2 ▸ e2⟩
    · rw [if_neg hb, Option.some.injEq, Prod.mk.injEq] at h
      rw [if_neg hb, ← h.1, ← h.2]
      exact ⟨rfl, by simp⟩

theorem extLen_nil (g rest : List Nat) (base add : Nat) (h : extLen [] rest base add ≠ .over) :
    extLen g rest base add = extLen [] rest base add := by
  unfold extLen at *
  rw [List.append_nil] at *
  cases hz : zeros rest with
  | none => rw [hz] at h; exact absurd rfl h
  | some r =>
    obtain ⟨e1, e2⟩ := zeros_append g rest r.1 r.2 hz
    rw [e1]
    simp only
    by_cases c : r.1 > max255
    · rw [if_pos c, if_pos c]
    · have := List.length_pos_iff.2 e2
      rw [if_neg c, if_neg c, if_neg (by rw [List.length_append]; omega), if_neg (by rw [List.length_nil]; omega)]
      cases hr : r.2 with
      | nil => exact absurd hr e2
      | cons b bs => rfl

theorem withLen_nil (g rest : List Nat) (base len add : Nat) (k : Nat → List Nat → P) (h : withLen [] rest base len add k ≠ .over) :
    withLen g rest base len add k = withLen [] rest base len add k := by
  unfold withLen at *
  by_cases c : len = base
  · rw [if_pos c] at *
    rw [if_pos c, extLen_nil]
    intro he
    rw [he] at h
    exact h rfl
  · rw [if_neg c, if_neg c]

theorem parse_nil (g : List Nat) (state inst : Nat) (rest : List Nat) (h : parse [] state inst rest ≠ .over) :
    parse g state inst rest = parse [] state inst rest := by
  unfold parse at *
  by_cases c1 : inst &&& 0xC0 ≠ 0
  · rw [if_pos c1, if_pos c1]
  · rw [if_neg c1] at *
    rw [if_neg c1]
    by_cases c2 : inst &&& 0x20 ≠ 0
    · rw [if_pos c2] at *
      rw [if_pos c2, withLen_nil _ _ _ _ _ _ h]
    · rw [if_neg c2] at *
      rw [if_neg c2]
      by_cases c3 : inst &&& 0x10 ≠ 0
      · rw [if_pos c3] at *
        rw [if_pos c3, withLen_nil _ _ _ _ _ _ h]
      · rw [if_neg c3] at *
        rw [if_neg c3]
        unfold parseM1 at *
        by_cases c : state = 0
        · rw [if_pos c] at *
          rw [if_pos c, withLen_nil _ _ _ _ _ _ h]
        · rw [if_neg c, if_neg c]

theorem run_nil (g : List Nat) (cap : Nat) : ∀ (fuel : Nat) (rest out : List Nat) (state : Nat),
    run [] cap fuel rest out state ≠ .over → run g cap fuel rest out state = run [] cap fuel rest out state
  | 0, _, _, _, _ => rfl
  | _ + 1, [], _, _, _ => rfl
  | fuel + 1, inst :: rest, out, state, h => by
    rw [run] at h
    rw [run, run]
    have hp : parse [] state inst rest ≠ .over := fun e => by rw [e] at h; exact h rfl
    rw [parse_nil g state inst rest hp]
    cases hc : parse [] state inst rest with
    | over => rfl
    | fail c => rfl
    | ok i rest' =>
      rw [hc] at h
      cases i with
      | eos lblen => rfl
      | lits len =>
        simp only at h ⊢
        cases hl : copyLits cap out rest' len with
        | inl r => rfl
        | inr p =>
          rw [hl] at h
          exact run_nil g cap fuel p.2 p.1 4 h
      | copy d l n =>
        simp only at h ⊢
        cases hl : doCopy cap out rest' d l n with
        | inl r => rfl
        | inr p =>
          rw [hl] at h
          exact run_nil g cap fuel p.2 p.1 n h

/-- C65: unless the call leaves its input, what is in memory behind it makes no difference. -/
theorem C65_memory_behind_irrelevant (g src : List Nat) (cap : Nat) (h : decompress [] src cap ≠ .over) :
    decompress g src cap = decompress [] src cap := by
  have hfrom : ∀ st x, runFrom [] cap st x ≠ .over → runFrom g cap st x = runFrom [] cap st x := fun st x hx => by
    cases x with
    | inl r => rfl
    | inr p => exact run_nil g cap _ _ _ _ hx
  unfold decompress at *
  by_cases c : src.length < 3
  · rw [if_pos c, if_pos c]
  · rw [if_neg c] at *
    rw [if_neg c]
    cases src with
    | nil => rfl
    | cons b rest =>
      simp only at h ⊢
      by_cases c1 : b ≥ 22
      · rw [if_pos c1] at *
        rw [if_pos c1]; exact hfrom _ _ h
      · rw [if_neg c1] at *
        rw [if_neg c1]
        by_cases c2 : b ≥ 18
        · rw [if_pos c2] at *
          rw [if_pos c2]; exact hfrom _ _ h
        · rw [if_neg c2] at *
          rw [if_neg c2]; exact run_nil g cap _ _ _ _ h

example : decompress [] [18, 7, 0x11, 0, 0] 5 ≠ .over := by decide +kernel

/-- The bytes in front of `n` literals at the start of a stream, and of a long run. -/
def litHeader (n : Nat) : List Nat := if n = 0 then [] else if n ≤ 238 then [17 + n] else 0 :: extBytes (n - 18)

/-- C66. A run of literals of any length with the end marker decompresses to exactly the literals in
any buffer that holds them; runs above 18 bytes also in the long form. -/
theorem C66_literals_restored (g bs : List Nat) (cap : Nat) (hcap : cap < 2 ^ 63) (h : bs.length ≤ cap) :
    decompress g (litHeader bs.length ++ bs ++ endMark) cap = .ret eSuccess bs ∧
    (18 < bs.length → decompress g (0 :: extBytes (bs.length - 18) ++ bs ++ endMark) cap = .ret eSuccess bs) := by
  have long : 18 < bs.length → decompress g (0 :: extBytes (bs.length - 18) ++ bs ++ endMark) cap = .ret eSuccess bs := fun hl => by
    have := decompress_enc g .none [.lits bs] cap hcap trivial ⟨⟨rfl, by omega⟩, trivial, trivial⟩ h
    have e : Tok.enc 0 (.lits bs) = 0 :: extBytes (bs.length - 18) ++ bs := by
      rw [Tok.enc, lenBits, lenExt, if_neg (by omega), if_neg (by omega), show bs.length - 3 - 15 = bs.length - 18 by omega]
    rw [Start.enc, List.nil_append, encAll, show Start.none.state = 0 from rfl, e] at this
    exact this
  refine ⟨?_, long⟩
  unfold litHeader
  by_cases c0 : bs.length = 0
  · have hb : bs = [] := List.length_eq_zero_iff.1 c0
    subst hb
    rw [if_pos c0]
    exact decompress_enc g .none [] cap hcap trivial trivial h
  · rw [if_neg c0]
    by_cases c1 : bs.length ≤ 238
    · rw [if_pos c1]
      exact decompress_enc g (.lits bs) [] cap hcap ⟨by omega, c1⟩ trivial h
    · rw [if_neg c1]
      exact long (by omega)

/-- Three literals. -/
example : litHeader 3 ++ [7, 8, 9] ++ endMark = [20, 7, 8, 9, 0x11, 0, 0] ∧
    decompress [] [20, 7, 8, 9, 0x11, 0, 0] 3 = .ret 0 [7, 8, 9] ∧ litHeader 800 = [0, 0, 0, 0, 17] := by decide +kernel

/-- C91. Every stream of the documented format (`Tok`, `Start`: literals, and copies in each of the
four encodings with every length and distance they allow, in any order the format allows) decompresses
to its meaning in any buffer large enough, whatever follows it in memory. -/
theorem C91_format_decoded (g : List Nat) (s : Start) (ts : List Tok) (cap : Nat) (hcap : cap < 2 ^ 63) (hs : s.ok)
    (hv : valid s.state s.out ts) (hc : (applyAll s.out ts).length ≤ cap) :
    decompress g (s.enc ++ encAll s.state ts) cap = .ret eSuccess (applyAll s.out ts) :=
  decompress_enc g s ts cap hcap hs hv hc

/-- Two literals, a short copy and a long one that overlaps itself. -/
def C91_stream : List Tok := [.m1 2 2 [5], .m3 1 40 [], .m2 3 8 [6, 6]]

example : valid 2 [1, 2] C91_stream ∧ (applyAll [1, 2] C91_stream).length = 55 ∧
    (Start.lits [1, 2]).enc ++ encAll 2 C91_stream = [19, 1, 2, 5, 0, 5, 32, 7, 0, 0, 234, 0, 6, 6, 17, 0, 0] := by
  refine ⟨?_, by decide +kernel, by decide +kernel⟩
  simp [valid, C91_stream, Tok.ok, Tok.state, Tok.apply, repeatBack_length]

/-- C92. A frame of the documented format is read when its contents fit in four times its compressed
size or 2048 bytes, whichever is more. Missing: the format allows more, see below. -/
theorem C92_lzo_frame_partial (g : List Nat) (s : Start) (ts : List Tok) (hs : s.ok) (hv : valid s.state s.out ts)
    (hsz : (s.enc ++ encAll s.state ts).length < 2 ^ 61)
    (hc : (applyAll s.out ts).length ≤ max 2048 ((s.enc ++ encAll s.state ts).length * 4)) :
    readFrame g (s.enc ++ encAll s.state ts) = some (applyAll s.out ts) := by
  rw [readFrame, decompress_enc g s ts _ (by simp only [Nat.reducePow] at *; omega) hs hv hc]
  rfl

example : readFrame [] [19, 1, 2, 5, 0, 5, 32, 7, 0, 0, 234, 0, 6, 6, 17, 0, 0] = some (applyAll [1, 2] C91_stream) := by
  decide +kernel

/-- A frame of 2050 equal bytes: one literal and a copy. -/
def C92_frame : List Tok := [.m3 1 2049 []]

theorem C92_frame_ok : (Start.lits [7]).ok := ⟨by decide, by decide⟩
theorem C92_frame_valid : valid (Start.lits [7]).state (Start.lits [7]).out C92_frame := by
  simp [valid, C92_frame, Start.out, Start.state, Tok.ok]
theorem applyAll_one (out : List Nat) (t : Tok) (n : Nat) (h : out.length + t.size = n) : (applyAll out [t]).length = n :=
  (apply_length t out).trans h
theorem C92_frame_length : (applyAll (Start.lits [7]).out C92_frame).length = 2050 :=
  applyAll_one _ _ _ (by decide)

/-- C92 is false: the frame of 2050 equal bytes takes 16 bytes compressed and cannot be read,
although it is of the documented format and decompresses in a larger buffer. -/
theorem C92_lzo_frame_counterexample :
    ((Start.lits [7]).enc ++ encAll (Start.lits [7]).state C92_frame).length = 16 ∧
    (∀ g, decompress g ((Start.lits [7]).enc ++ encAll (Start.lits [7]).state C92_frame) 2050 =
      .ret eSuccess (applyAll (Start.lits [7]).out C92_frame)) ∧
    readFrame [] ((Start.lits [7]).enc ++ encAll (Start.lits [7]).state C92_frame) = none :=
  ⟨by decide +kernel,
    fun g => decompress_enc g (.lits [7]) C92_frame 2050 (by decide) C92_frame_ok C92_frame_valid (Nat.le_of_eq C92_frame_length),
    by decide +kernel⟩

end Verif.Lzo
