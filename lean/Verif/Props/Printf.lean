import Verif.Core.PrintfNum
/-! Formatted output, C68, C93 and C94. -/
namespace Verif.Printf

/-- `p` does not stand in a format `ps` printed to `n` characters without room for it: everything up to
and with a right-aligned string or character is shorter than the buffer. -/
def Fits (n : Nat) (ps : List Piece) : Prop :=
  ∀ pre p post, ps = pre ++ p :: post → p.RightAligned → (text pre).length + p.text.length < n

theorem okAll_none (n : Nat) : ∀ (ps : List Piece) (T : List Nat), (∀ p ∈ ps, ¬ p.RightAligned) → OkAll n T ps
  | [], _, _ => trivial
  | p :: ps, T, h => ⟨fun hr => absurd hr (h p List.mem_cons_self),
      okAll_none n ps _ fun q hq => h q (List.mem_cons_of_mem _ hq)⟩

theorem okAll_fits (n : Nat) (all : List Piece) (hf : Fits n all) (hr : ∀ p ∈ all, p.InRange) : ∀ (ps pre : List Piece),
    all = pre ++ ps → OkAll n (text pre) ps
  | [], _, _ => trivial
  | p :: ps, pre, he => by
    refine ⟨fun h => hf pre p ps he h, ?_⟩
    have h1 : text pre ++ p.atext = text (pre ++ [p]) := by
      rw [atext_eq p (hr p (by rw [he]; simp))]; simp [text]
    rw [h1]
    exact okAll_fits n all hf hr ps (pre ++ [p]) (by rw [he]; simp)

/-- C68 as stated does not hold. A right-aligned string is cut to the room there was before the blanks,
so `"%10s"` with two characters writes behind a buffer of five; `"%5c"` fills a buffer of three without
terminating it; `"%r"` makes the room larger by what it has written; and a format ending in `%` makes
the function read on behind the end of the format. -/
theorem C68_counterexample :
    printf 5 [0x25, 0x31, 0x30, 0x73] [.str (some [0x41, 0x42])] = .overflow ∧
    printf 3 [0x25, 0x35, 0x63] [.int 0x41] = .unterminated [0x20, 0x20, 0x41] ∧
    printf 6 [0x25, 0x72, 0x61, 0x62, 0x63] [.fourcc [0x41, 0x42, 0x43, 0x44]] = .overflow ∧
    printf 6 [0x61, 0x25] [] = .overread := by decide +kernel

/-- C68 (partial). Formats of literal characters, `%%`, `%d`, `%x`, `%X`, `%c`, `%s`, `%S` and `%p` with
any flags and any width, where no `%c`, `%s` or `%S` is right-aligned in a width: whatever the values
and the size, the buffer keeps within its size and is terminated. Missing: `%f`, `%g`, `%e`; false for
right-aligned strings that do not fit, `%r` and a trailing `%` (above). -/
theorem C68_output_within_buffer_partial (n : Nat) (h1 : 1 ≤ n) (hn : n < 2 ^ 64) (ps : List Piece)
    (hwf : ∀ p ∈ ps, p.WF) (hr : ∀ p ∈ ps, ¬ p.RightAligned) :
    ∃ t, printf n (mask ps) (args ps) = .done (t ++ [0]) ∧ t.length + 1 ≤ n := by
  refine ⟨_, printf_atext n h1 hn ps hwf (okAll_none n ps [] hr), ?_⟩
  simp only [List.length_take]; omega

/-- C93. Within the ranges of `InRange`, and if right-aligned strings and characters fit, the buffer
holds the documented text, cut to the size of the buffer, and its terminator. -/
theorem C93_documented_text (n : Nat) (h1 : 1 ≤ n) (hn : n < 2 ^ 64) (ps : List Piece)
    (hwf : ∀ p ∈ ps, p.WF) (hr : ∀ p ∈ ps, p.InRange) (hf : Fits n ps) :
    printf n (mask ps) (args ps) = .done ((text ps).take (n - 1) ++ [0]) := by
  rw [printf_atext n h1 hn ps hwf (okAll_fits n ps hf hr ps [] rfl), atext_all ps hr]

/-- The ranges are needed: twelve digits are the limit of decimals (`%ld` of 10^12 gives
`a00000000000`), `%x` of -1 gives `V`, `%-5d` is not left-aligned, `%u` prints nothing and swallows
the next character, and `%09x` of 0 prints nothing. -/
theorem C93_counterexample :
    printf 20 [0x25, 0x6C, 0x64] [.long 1000000000000] =
      .done ([0x61] ++ List.replicate 11 0x30 ++ [0]) ∧
    printf 20 [0x25, 0x78] [.int (-1)] = .done [0x56, 0] ∧
    printf 20 [0x25, 0x2D, 0x35, 0x64] [.int 7] = .done [0x20, 0x20, 0x20, 0x20, 0x37, 0] ∧
    printf 20 [0x25, 0x75, 0x2C, 0x61] [.int 7] = .done [0x61, 0] ∧
    printf 20 [0x25, 0x30, 0x39, 0x78] [.int 0] = .done [0] := by decide +kernel

/-- C94. Appending formatted output to a string in a buffer gives the string followed by the documented
text, cut to the size of the whole buffer. -/
theorem C94_append (n : Nat) (hn : n < 2 ^ 64) (old : List Nat) (h1 : old.length < n) (ps : List Piece)
    (hwf : ∀ p ∈ ps, p.WF) (hr : ∀ p ∈ ps, p.InRange) (hf : Fits (n - old.length) ps) :
    catprintf n old (mask ps) (args ps) = .done ((old ++ text ps).take (n - 1) ++ [0]) := by
  unfold catprintf
  rw [if_pos h1, C93_documented_text (n - old.length) (by omega) (by omega) ps hwf hr hf, behind, ← List.append_assoc,
    List.take_append, List.take_of_length_le (l := old) (by omega)]
  congr 4; omega

/-- The ranges are needed here too: appending `%x` of -1 gives `V`, appending `%-5d` is not left-aligned,
appending a right-aligned string to a nearly full buffer writes behind it. -/
theorem C94_counterexample :
    catprintf 20 [0x41] [0x25, 0x78] [.int (-1)] = .done [0x41, 0x56, 0] ∧
    catprintf 20 [0x41] [0x25, 0x2D, 0x35, 0x64] [.int 7] = .done [0x41, 0x20, 0x20, 0x20, 0x20, 0x37, 0] ∧
    catprintf 7 [0x41, 0x42] [0x25, 0x31, 0x30, 0x73] [.str (some [0x41, 0x42])] = .overflow := by decide +kernel

/-! ### A case -/

/-- `"a=%d,%05d|%X|%-4s|%p%%"` with 42, -7, 0xBEEF, "xy" and 0x1234. -/
def example1 : List Piece :=
  [.lit 0x61, .lit 0x3D, .dir {} (.dec 42), .lit 0x2C, .dir { zero := true, ws := [5] } (.dec (-7)), .lit 0x7C,
   .dir {} (.hex true 0xBEEF), .lit 0x7C, .dir { left := true, ws := [4] } (.str [0x78, 0x79]), .lit 0x7C,
   .dir {} (.ptr 0x1234), .pct]

example : (∀ p ∈ example1, p.WF) ∧ (∀ p ∈ example1, p.InRange) ∧ (∀ p ∈ example1, ¬ p.RightAligned) := by
  refine ⟨?_, ?_, ?_⟩ <;> simp [example1, Piece.WF, Piece.InRange, Piece.RightAligned, Spec.width]

example : Fits 40 example1 := by
  intro pre p post h hr
  have : p ∈ example1 := by rw [h]; simp
  revert hr
  simp only [example1, List.mem_cons, List.not_mem_nil, or_false] at this
  rcases this with rfl | rfl | rfl | rfl | rfl | rfl | rfl | rfl | rfl | rfl | rfl | rfl <;>
    simp [Piece.RightAligned]

example : (text example1).map Char.ofNat = "a=42,-0007|BEEF|xy  |00001234%".toList := by decide +kernel

example : printf 12 (mask example1) (args example1) = .done ("a=42,-0007|".toList.map Char.toNat ++ [0]) := by decide +kernel

/-- A right-aligned string that fits. -/
example : Fits 10 [.lit 0x61, .dir { ws := [6] } (.str [0x78, 0x79])] := by
  intro pre p post h hr
  match pre, h with
  | [], h => simp at h; rw [← h.1] at hr; exact absurd hr (by simp [Piece.RightAligned])
  | [q], h => simp at h; rw [← h.1, ← h.2.1]; decide +kernel
  | q :: q' :: pre, h => simp at h

example : printf 10 (mask [.lit 0x61, .dir { ws := [6] } (.str [0x78, 0x79])]) [.str (some [0x78, 0x79])] =
    .done ("a    xy".toList.map Char.toNat ++ [0]) := by decide +kernel

end Verif.Printf
