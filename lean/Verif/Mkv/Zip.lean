import Verif.Mkv.BlockRound

/-!
The loops of libmatroska2/matroskamain.c:144-226 around zlib. zlib is not part of the repository: a
call of `deflate` or `inflate` is a parameter, and what zlib.h promises of it is a hypothesis
(`Deflates`, `Inflates`). Allocation does not fail.
-/

namespace Verif.Mkv

/-- `deflate(&stream, Z_FINISH)`: from the state of the stream and `avail_out` to the bytes put, whether `Z_STREAM_END` was
returned, and the next state. -/
abbrev Deflate (σ : Type) := σ → Nat → Bytes × Bool × σ

/-- `CompressFrameZLib`, matroskamain.c:197-209: room for `CursorSize` more bytes in every call, as long as no room is left and the
end is not reached. -/
def zipLoop {σ : Type} (deflate : Deflate σ) (size : Nat) : Nat → σ → Bytes → Out Bytes
  | 0, _, _ => .hang
  | fuel + 1, s, acc =>
    let r := deflate s size
    if r.1.length = size ∧ r.2.1 = false then zipLoop deflate size fuel r.2.2 (acc ++ r.1) else .ok (acc ++ r.1)

/-- `CompressFrameZLib`, matroskamain.c:183-222, from the stream with its input set. With a buffer of `room` bytes: what is copied there,
and the size reported. -/
def zipFrame {σ : Type} (deflate : Deflate σ) (fuel : Nat) (s : σ) (frame : Bytes) (room : Nat) : Out (Bytes × Nat) :=
  (zipLoop deflate frame.length fuel s []).bind fun z => .ok (z.take (min room z.length), z.length)

/-- What zlib.h says of `deflate` with `Z_FINISH` and room: the bytes of the compressed data follow each other as far as there is room,
and the end is reported once there are no more. `todo s p`: in state `s` the bytes `p` are still to come. -/
def Deflates {σ : Type} (deflate : Deflate σ) (todo : σ → Bytes → Prop) : Prop :=
  ∀ s p n, todo s p → 0 < n → (deflate s n).1 = p.take n ∧ ((deflate s n).2.1 = true → p.length ≤ n) ∧
    ((deflate s n).2.1 = false → n ≤ p.length ∧ todo (deflate s n).2.2 (p.drop n))

/-- Without room `deflate` reports an error (`Z_BUF_ERROR`, or `Z_STREAM_ERROR` without a buffer) and changes nothing. -/
def NeedsRoom {σ : Type} (deflate : Deflate σ) : Prop := ∀ s, deflate s 0 = ([], false, s)

/-- What `inflate(&stream, Z_NO_FLUSH)` returns: `Z_OK`, `Z_STREAM_END`, or an error. -/
inductive ZRes where
  | more
  | done
  | fail
deriving DecidableEq, Repr

/-- `inflate`: from the state (with the input) and `avail_out` to the bytes put, the result, `avail_in` and the next state. -/
abbrev Inflate (σ : Type) := σ → Nat → Bytes × ZRes × Nat × σ

/-- `UnCompressFrameZLib`, matroskamain.c:161-173. -/
def unzipLoop {σ : Type} (inflate : Inflate σ) : Nat → σ → Bytes → Out Bytes
  | 0, _, _ => .hang
  | fuel + 1, s, acc =>
    let r := inflate s 1024
    match r.2.1 with
    | .fail => .err
    | .done => .ok (acc ++ r.1)
    | .more => if r.2.2.1 ≠ 0 ∧ r.1.length = 1024 then unzipLoop inflate fuel r.2.2.2 (acc ++ r.1) else .err

/-- What zlib.h says of `inflate` for a complete stream: the bytes of the data follow each other as far as there is room; while some are
to come the checksum behind them is still in the input. -/
def Inflates {σ : Type} (inflate : Inflate σ) (todo : σ → Bytes → Prop) : Prop :=
  ∀ s p n, todo s p → 0 < n → (inflate s n).1 = p.take n ∧ ((inflate s n).2.1 = .done → p.length ≤ n) ∧ (inflate s n).2.1 ≠ .fail ∧
    ((inflate s n).2.1 = .more → n ≤ p.length ∧ (inflate s n).2.2.1 ≠ 0 ∧ todo (inflate s n).2.2.2 (p.drop n))

/-- Whatever the input, `inflate` gives no more than `b s` bytes from state `s` on. -/
def Bounded {σ : Type} (inflate : Inflate σ) (b : σ → Nat) : Prop :=
  ∀ s n, (inflate s n).1.length + b (inflate s n).2.2.2 ≤ b s

theorem zipLoop_gives {σ : Type} (deflate : Deflate σ) (todo : σ → Bytes → Prop) (h : Deflates deflate todo) (size : Nat) (hs : 0 < size) :
    ∀ (fuel : Nat) (s : σ) (p acc : Bytes), todo s p → p.length < fuel → zipLoop deflate size fuel s acc = .ok (acc ++ p)
  | 0, _, _, _, _, hf => by omega
  | fuel + 1, s, p, acc, ht, hf => by
    obtain ⟨h1, h2, h3⟩ := h s p size ht hs
    rw [zipLoop]
    simp only [h1]
    by_cases c : (deflate s size).2.1 = true
    · have := h2 c
      rw [if_neg (by simp [c]), List.take_of_length_le this]
    · have c : (deflate s size).2.1 = false := by simpa using c
      obtain ⟨h4, h5⟩ := h3 c
      rw [if_pos ⟨by rw [List.length_take]; omega, c⟩,
        zipLoop_gives deflate todo h size hs fuel _ (p.drop size) _ h5 (by rw [List.length_drop]; omega),
        List.append_assoc, List.take_append_drop]

theorem zipLoop_empty {σ : Type} (deflate : Deflate σ) (h : NeedsRoom deflate) :
    ∀ (fuel : Nat) (s : σ) (acc : Bytes), zipLoop deflate 0 fuel s acc = .hang
  | 0, _, _ => rfl
  | fuel + 1, s, acc => by
    rw [zipLoop, h s]
    simp only [List.length_nil, and_self, if_true]
    exact zipLoop_empty deflate h fuel s _

theorem unzipLoop_gives {σ : Type} (inflate : Inflate σ) (todo : σ → Bytes → Prop) (h : Inflates inflate todo) :
    ∀ (fuel : Nat) (s : σ) (p acc : Bytes), todo s p → p.length < fuel → unzipLoop inflate fuel s acc = .ok (acc ++ p)
  | 0, _, _, _, _, hf => by omega
  | fuel + 1, s, p, acc, ht, hf => by
    obtain ⟨h1, h2, h3, h4⟩ := h s p 1024 ht (by omega)
    rw [unzipLoop]
    simp only [h1]
    cases c : (inflate s 1024).2.1 with
    | fail => exact absurd c h3
    | done => simp only [List.take_of_length_le (h2 c)]
    | more =>
      obtain ⟨h5, h6, h7⟩ := h4 c
      simp only
      rw [if_pos ⟨h6, by rw [List.length_take]; omega⟩,
        unzipLoop_gives inflate todo h fuel _ (p.drop 1024) _ h7 (by rw [List.length_drop]; omega),
        List.append_assoc, List.take_append_drop]

theorem unzipLoop_ends {σ : Type} (inflate : Inflate σ) (b : σ → Nat) (h : Bounded inflate b) :
    ∀ (fuel : Nat) (s : σ) (acc : Bytes), b s < fuel →
      unzipLoop inflate fuel s acc = .err ∨ ∃ out, unzipLoop inflate fuel s acc = .ok (acc ++ out) ∧ out.length ≤ b s
  | 0, _, _, hf => by omega
  | fuel + 1, s, acc, hf => by
    have hb := h s 1024
    rw [unzipLoop]
    cases c : (inflate s 1024).2.1 with
    | fail => exact Or.inl rfl
    | done => exact Or.inr ⟨(inflate s 1024).1, rfl, by omega⟩
    | more =>
      simp only
      by_cases c2 : (inflate s 1024).2.2.1 ≠ 0 ∧ (inflate s 1024).1.length = 1024
      · rw [if_pos c2]
        rcases unzipLoop_ends inflate b h fuel (inflate s 1024).2.2.2 (acc ++ (inflate s 1024).1) (by omega) with e | ⟨out, e, hl⟩
        · exact Or.inl e
        · exact Or.inr ⟨(inflate s 1024).1 ++ out, by rw [e, List.append_assoc], by rw [List.length_append]; omega⟩
      · rw [if_neg c2]; exact Or.inl rfl

end Verif.Mkv
