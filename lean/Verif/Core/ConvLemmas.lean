import Verif.Core.Conv
/-!
Lemmas on the conversion between character sets.
-/
set_option linter.unusedSimpArgs false
namespace Verif.Conv
open Verif

/-! ### Bytes -/

theorem byte_facts : ∀ b < 256,
    ((b &&& 0x80 = 0) ↔ b < 128) ∧ ((b &&& 0xe0 = 0xc0) ↔ (192 ≤ b ∧ b < 224)) ∧ ((b &&& 0xf0 = 0xe0) ↔ (224 ≤ b ∧ b < 240)) ∧
    ((b &&& 0xf8 = 0xf0) ↔ (240 ≤ b ∧ b < 248)) ∧ ((b &&& 0xc0 = 0x80) ↔ (128 ≤ b ∧ b < 192)) := by decide +kernel

theorem and3f (x : Nat) : x &&& 0x3f = x % 64 := Nat.and_two_pow_sub_one_eq_mod x 6
theorem and1f (x : Nat) : x &&& 0x1f = x % 32 := Nat.and_two_pow_sub_one_eq_mod x 5
theorem and0f (x : Nat) : x &&& 0x0f = x % 16 := Nat.and_two_pow_sub_one_eq_mod x 4
theorem and07 (x : Nat) : x &&& 0x07 = x % 8 := Nat.and_two_pow_sub_one_eq_mod x 3
theorem and3ff (x : Nat) : x &&& 0x3ff = x % 1024 := Nat.and_two_pow_sub_one_eq_mod x 10
theorem or80 (x : Nat) (h : x < 64) : 0x80 ||| x = 128 + x :=
  (Nat.two_pow_add_eq_or_of_lt (i := 7) (b := x) (by omega) 1).symm
theorem orc0 (x : Nat) (h : x < 32) : 0xc0 ||| x = 192 + x :=
  (Nat.two_pow_add_eq_or_of_lt (i := 6) (b := x) (by omega) 3).symm
theorem ore0 (x : Nat) (h : x < 16) : 0xe0 ||| x = 224 + x :=
  (Nat.two_pow_add_eq_or_of_lt (i := 5) (b := x) (by omega) 7).symm
theorem orf0 (x : Nat) (h : x < 8) : 0xf0 ||| x = 240 + x :=
  (Nat.two_pow_add_eq_or_of_lt (i := 4) (b := x) (by omega) 15).symm
theorem ord8 (x : Nat) (h : x < 1024) : x ||| 0xd800 = 0xd800 + x := by
  rw [Nat.or_comm]; exact (Nat.two_pow_add_eq_or_of_lt (i := 10) (b := x) (by omega) 54).symm
theorem ordc (x : Nat) (h : x < 1024) : x ||| 0xdc00 = 0xdc00 + x := by
  rw [Nat.or_comm]; exact (Nat.two_pow_add_eq_or_of_lt (i := 10) (b := x) (by omega) 55).symm
theorem orhi (x y : Nat) (h : y < 1024) : (x <<< 10) ||| y = x * 1024 + y := by
  rw [Nat.shiftLeft_eq, Nat.mul_comm x]
  rw [← Nat.two_pow_add_eq_or_of_lt (i := 10) (b := y) (by omega) x]

/-- Number of bytes of a character in UTF-8. -/
def utf8Len (ch : Nat) : Nat := if ch < 0x80 then 1 else if ch < 0x800 then 2 else if ch < 0x10000 then 3 else 4

/-- The UTF-8 form of a character. -/
def utf8Enc (ch : Nat) : List Nat := utf8Bytes ch (utf8Len ch)

theorem utf8Enc_eq (ch : Nat) : utf8Enc ch =
    if ch < 0x80 then [ch] else if ch < 0x800 then [192 + ch / 64 % 32, 128 + ch % 64]
    else if ch < 0x10000 then [224 + ch / 4096 % 16, 128 + ch / 64 % 64, 128 + ch % 64]
    else [240 + ch / 262144 % 8, 128 + ch / 4096 % 64, 128 + ch / 64 % 64, 128 + ch % 64] := by
  unfold utf8Enc utf8Len
  by_cases h1 : ch < 0x80
  · rw [if_pos h1, if_pos h1, utf8Bytes, Nat.mod_eq_of_lt (by omega)]
  · rw [if_neg h1, if_neg h1]
    by_cases h2 : ch < 0x800
    · rw [if_pos h2, if_pos h2, utf8Bytes, and1f, and3f, orc0 _ (by omega), or80 _ (by omega), Nat.shiftRight_eq_div_pow]
    · rw [if_neg h2, if_neg h2]
      by_cases h3 : ch < 0x10000
      · rw [if_pos h3, if_pos h3, utf8Bytes, and0f, and3f, and3f, ore0 _ (by omega), or80 _ (by omega), or80 _ (by omega),
          Nat.shiftRight_eq_div_pow, Nat.shiftRight_eq_div_pow]
      · rw [if_neg h3, if_neg h3, utf8Bytes, and07, and3f, and3f, and3f, orf0 _ (by omega), or80 _ (by omega),
          or80 _ (by omega), or80 _ (by omega), Nat.shiftRight_eq_div_pow, Nat.shiftRight_eq_div_pow, Nat.shiftRight_eq_div_pow]
        · exact fun h => by cases h
        · exact fun h => by cases h
        · exact fun h => by cases h

theorem utf8Enc_length (ch : Nat) : (utf8Enc ch).length = utf8Len ch := by
  rw [utf8Enc_eq]; unfold utf8Len
  split
  · rfl
  · split
    · rfl
    · split <;> rfl

theorem utf8Len_le (ch : Nat) : 1 ≤ utf8Len ch ∧ utf8Len ch ≤ 4 := by
  unfold utf8Len; split
  · omega
  · split
    · omega
    · split <;> omega

theorem utf8Enc_bytes (ch : Nat) : ∀ b ∈ utf8Enc ch, b < 256 := by
  rw [utf8Enc_eq]
  intro b hb
  split at hb
  · simp only [List.mem_singleton] at hb; omega
  · split at hb
    · simp only [List.mem_cons, List.not_mem_nil, or_false] at hb; omega
    · split at hb
      · simp only [List.mem_cons, List.not_mem_nil, or_false] at hb; omega
      · simp only [List.mem_cons, List.not_mem_nil, or_false] at hb; omega

/-- None of the bytes of a character is 0. -/
theorem utf8Enc_ne_zero (ch : Nat) (h0 : ch ≠ 0) : ∀ b ∈ utf8Enc ch, b ≠ 0 := by
  rw [utf8Enc_eq]
  intro b hb
  split at hb
  · simp only [List.mem_singleton] at hb; omega
  · split at hb
    · simp only [List.mem_cons, List.not_mem_nil, or_false] at hb; omega
    · split at hb
      · simp only [List.mem_cons, List.not_mem_nil, or_false] at hb; omega
      · simp only [List.mem_cons, List.not_mem_nil, or_false] at hb; omega

/-! ### Reading -/

theorem unit_lt (s : List Nat) (i : Nat) (h : i < s.length) : unit s i = some s[i] := by
  rw [unit, if_pos h, List.getElem?_eq_getElem h]

theorem isCont_lt (s : List Nat) (i : Nat) (h : i < s.length) (hb : s[i] < 256) :
    isCont s i = some (decide (128 ≤ s[i] ∧ s[i] < 192)) := by
  rw [isCont, unit_lt s i h, Option.map_some, decide_eq_decide.2 (byte_facts _ hb).2.2.2.2]

/-- The tests for continuation bytes stay within the string. -/
theorem conts_spec (s : List Nat) (hs : ∀ b ∈ s, b < 256) : ∀ (n i : Nat), i ≤ s.length →
    ∃ r, conts s i n = some r ∧ (r = true → i + n ≤ s.length)
  | 0, i, hi => ⟨true, rfl, fun _ => hi⟩
  | n + 1, i, hi => by
    rw [conts]
    by_cases h : i < s.length
    · rw [isCont_lt s i h (hs _ (List.getElem_mem h))]
      cases hd : decide (128 ≤ s[i] ∧ s[i] < 192) with
      | false => exact ⟨false, rfl, fun h => by cases h⟩
      | true =>
        obtain ⟨r, h1, h2⟩ := conts_spec s hs n (i + 1) (by omega)
        exact ⟨r, h1, fun hr => by have := h2 hr; omega⟩
    · have hu : isCont s i = some false := by
        rw [isCont, unit, if_neg h, if_pos (by omega)]; rfl
      rw [hu]
      exact ⟨false, rfl, fun h => by cases h⟩

/-- Reading a character of UTF-8 stays within the string and takes at least a byte. -/
theorem readUtf8_spec (s : List Nat) (hs : ∀ b ∈ s, b < 256) (hne : s ≠ []) :
    ∃ ch k, readUtf8 s = some (ch, s.drop k) ∧ 1 ≤ k ∧ k ≤ s.length ∧ ch < 0x200000 := by
  have hl : 0 < s.length := List.length_pos_iff.2 hne
  have hb : s[0] < 256 := hs _ (List.getElem_mem hl)
  obtain ⟨r1, c1, d1⟩ := conts_spec s hs 1 1 (by omega)
  obtain ⟨r2, c2, d2⟩ := conts_spec s hs 2 1 (by omega)
  obtain ⟨r3, c3, d3⟩ := conts_spec s hs 3 1 (by omega)
  rw [readUtf8, unit_lt s 0 hl]
  simp only
  by_cases h0 : s[0] &&& 0x80 = 0
  · rw [if_pos h0]
    exact ⟨_, 1, rfl, by omega, by omega, by omega⟩
  · rw [if_neg h0, c1, c2, c3]
    have hlow : ∀ i, low6 s i < 64 := fun i => by unfold low6; rw [and3f]; omega
    have l1 := hlow 1
    have l2 := hlow 2
    have l3 := hlow 3
    cases hd1 : decide (s[0] &&& 0xe0 = 0xc0) && r1 with
    | true =>
      rw [Bool.and_eq_true] at hd1
      have := d1 hd1.2
      rw [andThen, if_pos hd1.1, hd1.2]
      refine ⟨_, 2, rfl, by omega, by omega, ?_⟩
      rw [and1f, Nat.shiftLeft_eq]; omega
    | false =>
      have e1 : andThen (decide (s[0] &&& 0xe0 = 0xc0)) (some r1) = some false := by
        rw [Bool.and_eq_false_iff] at hd1
        rw [andThen]
        rcases hd1 with h | h
        · rw [h]; rfl
        · rw [h]; split <;> rfl
      rw [e1]
      simp only
      cases hd2 : decide (s[0] &&& 0xf0 = 0xe0) && r2 with
      | true =>
        rw [Bool.and_eq_true] at hd2
        have := d2 hd2.2
        rw [andThen, if_pos hd2.1, hd2.2]
        refine ⟨_, 3, rfl, by omega, by omega, ?_⟩
        rw [and0f, Nat.shiftLeft_eq, Nat.shiftLeft_eq]; omega
      | false =>
        have e2 : andThen (decide (s[0] &&& 0xf0 = 0xe0)) (some r2) = some false := by
          rw [Bool.and_eq_false_iff] at hd2
          rw [andThen]
          rcases hd2 with h | h
          · rw [h]; rfl
          · rw [h]; split <;> rfl
        rw [e2]
        simp only
        cases hd3 : decide (s[0] &&& 0xf8 = 0xf0) && r3 with
        | true =>
          rw [Bool.and_eq_true] at hd3
          have := d3 hd3.2
          rw [andThen, if_pos hd3.1, hd3.2]
          refine ⟨_, 4, rfl, by omega, by omega, ?_⟩
          rw [and07, Nat.shiftLeft_eq, Nat.shiftLeft_eq, Nat.shiftLeft_eq]; omega
        | false =>
          have e3 : andThen (decide (s[0] &&& 0xf8 = 0xf0)) (some r3) = some false := by
            rw [Bool.and_eq_false_iff] at hd3
            rw [andThen]
            rcases hd3 with h | h
            · rw [h]; rfl
            · rw [h]; split <;> rfl
          rw [e3]
          exact ⟨_, 1, rfl, by omega, by omega, by omega⟩

/-- Writing a character as UTF-8 and reading it gives it back. -/
theorem readUtf8_enc (ch : Nat) (hch : ch < 0x200000) (rest : List Nat) : readUtf8 (utf8Enc ch ++ rest) = some (ch, rest) := by
  rw [utf8Enc_eq]
  by_cases h1 : ch < 0x80
  · rw [if_pos h1, readUtf8, unit_lt _ 0 (by simp)]
    simp only [List.cons_append, List.getElem_cons_zero]
    rw [if_pos ((byte_facts ch (by omega)).1.2 h1)]
    rfl
  · rw [if_neg h1]
    have cont : ∀ x, x < 64 → decide ((128 + x) &&& 0xc0 = 0x80) = true := fun x hx =>
      decide_eq_true ((byte_facts (128 + x) (by omega)).2.2.2.2.2 (by omega))
    by_cases h2 : ch < 0x800
    · rw [if_pos h2, readUtf8, unit_lt _ 0 (by simp)]
      simp only [List.cons_append, List.getElem_cons_zero]
      have hb := byte_facts (192 + ch / 64 % 32) (by omega)
      rw [if_neg (fun h => by have := hb.1.1 h; omega), decide_eq_true (hb.2.1.2 (by omega))]
      simp only [andThen, if_true, conts, isCont, unit, List.length_cons, List.getElem?_cons_succ, List.getElem?_cons_zero,
        Bool.false_eq_true, if_false, List.nil_append]
      rw [if_pos (by omega), Option.map_some, cont _ (by omega)]
      simp only [low6, List.getD_cons_succ, List.getD_cons_zero, List.drop_succ_cons, List.drop_zero, and1f, and3f,
        Nat.shiftLeft_eq]
      congr 2
      omega
    · rw [if_neg h2]
      by_cases h3 : ch < 0x10000
      · rw [if_pos h3, readUtf8, unit_lt _ 0 (by simp)]
        simp only [List.cons_append, List.getElem_cons_zero]
        have hb := byte_facts (224 + ch / 4096 % 16) (by omega)
        rw [if_neg (fun h => by have := hb.1.1 h; omega), decide_eq_false (fun h => by have := hb.2.1.1 h; omega),
          decide_eq_true (hb.2.2.1.2 (by omega))]
        simp only [andThen, if_true, conts, isCont, unit, List.length_cons, List.getElem?_cons_succ, List.getElem?_cons_zero,
          Bool.false_eq_true, if_false, List.nil_append]
        rw [if_pos (by omega), if_pos (by omega), Option.map_some, Option.map_some, cont _ (by omega), cont _ (by omega)]
        simp only [low6, List.getD_cons_succ, List.getD_cons_zero, List.drop_succ_cons, List.drop_zero, and0f, and3f,
          Nat.shiftLeft_eq]
        congr 2
        omega
      · rw [if_neg h3, readUtf8, unit_lt _ 0 (by simp)]
        simp only [List.cons_append, List.getElem_cons_zero]
        have hb := byte_facts (240 + ch / 262144 % 8) (by omega)
        rw [if_neg (fun h => by have := hb.1.1 h; omega), decide_eq_false (fun h => by have := hb.2.1.1 h; omega),
          decide_eq_false (fun h => by have := hb.2.2.1.1 h; omega), decide_eq_true (hb.2.2.2.1.2 (by omega))]
        simp only [andThen, if_true, conts, isCont, unit, List.length_cons, List.getElem?_cons_succ, List.getElem?_cons_zero,
          Bool.false_eq_true, if_false, List.nil_append]
        rw [if_pos (by omega), if_pos (by omega), if_pos (by omega), Option.map_some, Option.map_some, Option.map_some,
          cont _ (by omega), cont _ (by omega), cont _ (by omega)]
        simp only [low6, List.getD_cons_succ, List.getD_cons_zero, List.drop_succ_cons, List.drop_zero, and07, and3f,
          Nat.shiftLeft_eq]
        congr 2
        omega

/-! ### The loops -/

/-- The three loops have this form. -/
def gloop (rd : List Nat → Option (Nat × List Nat)) (wr : Out → Nat → Nat → Option (Out × Nat)) :
    Nat → List Nat → Out → Nat → Option (Out × Nat)
  | 0, _, _, _ => none
  | fuel + 1, s, o, left =>
    if unit s 0 = some 0 then some (o, left)
    else
      match rd s with
      | none => none
      | some (ch, s') =>
        match wr o left ch with
        | none => none
        | some (o', left') => gloop rd wr fuel s' o' left'

theorem convLoop_eq (f t : Page) : ∀ fuel s o left, convLoop f t fuel s o left = gloop f.readCh t.writeCh fuel s o left
  | 0, _, _, _ => rfl
  | fuel + 1, s, o, left => by
    rw [convLoop, gloop]
    simp only [convLoop_eq f t fuel]
    rfl

theorem convULoop_eq (f : Page) : ∀ fuel s o left, convULoop f fuel s o left = gloop f.readCh putU fuel s o left
  | 0, _, _, _ => rfl
  | fuel + 1, s, o, left => by
    rw [convULoop, gloop]
    simp only [convULoop_eq f fuel]
    rfl

theorem convSULoop_eq (t : Page) : ∀ fuel s o left, convSULoop t fuel s o left = gloop readU t.writeCh fuel s o left
  | 0, _, _, _ => rfl
  | fuel + 1, s, o, left => by
    rw [convSULoop, gloop]
    simp only [convSULoop_eq t fuel]
    rfl

/-- A reader that stays within strings of units below `m`, takes at least one unit, and gives
characters with `Q`. -/
def RdOk (m : Nat) (Q : Nat → Prop) (rd : List Nat → Option (Nat × List Nat)) : Prop :=
  ∀ s, (∀ b ∈ s, b < m) → s ≠ [] → ∃ ch k, rd s = some (ch, s.drop k) ∧ 1 ≤ k ∧ k ≤ s.length ∧ Q ch

/-- A writer that stays within its buffer. -/
def WrSafe (Q : Nat → Prop) (wr : Out → Nat → Nat → Option (Out × Nat)) : Prop :=
  ∀ o left ch, Q ch → 1 ≤ left → o.buf.length + left = o.cap →
    ∃ bs, wr o left ch = some (⟨o.cap, o.buf ++ bs⟩, left - bs.length) ∧ bs.length < left

/-- A writer that stores `enc ch` when there is room for it and the terminator. -/
def WrFull (Q : Nat → Prop) (enc : Nat → List Nat) (wr : Out → Nat → Nat → Option (Out × Nat)) : Prop :=
  ∀ o left ch, Q ch → o.buf.length + left = o.cap → (enc ch).length < left →
    wr o left ch = some (⟨o.cap, o.buf ++ enc ch⟩, left - (enc ch).length)

/-- `chs` are the characters of the string. -/
inductive Decodes (rd : List Nat → Option (Nat × List Nat)) : List Nat → List Nat → Prop
  | nil : Decodes rd [] []
  | cons (b : Nat) (s : List Nat) (ch : Nat) (s' : List Nat) (chs : List Nat) (h0 : b ≠ 0) (hr : rd (b :: s) = some (ch, s'))
      (hl : s'.length ≤ s.length) (h : Decodes rd s' chs) : Decodes rd (b :: s) (ch :: chs)

theorem unit_zero_cons (b : Nat) (s : List Nat) : unit (b :: s) 0 = some b := by
  rw [unit_lt _ 0 (by simp)]; rfl

theorem unit_zero_nil : unit [] 0 = some 0 := rfl

theorem gloop_safe {m : Nat} {Q : Nat → Prop} {rd : List Nat → Option (Nat × List Nat)} {wr : Out → Nat → Nat → Option (Out × Nat)}
    (hr : RdOk m Q rd) (hw : WrSafe Q wr) : ∀ (fuel : Nat) (s : List Nat) (o : Out) (left : Nat), s.length < fuel →
    (∀ b ∈ s, b < m) → 1 ≤ left → o.buf.length + left = o.cap →
    ∃ o' left', gloop rd wr fuel s o left = some (o', left') ∧ o'.cap = o.cap ∧ 1 ≤ left' ∧ o'.buf.length + left' = o'.cap ∧
      ∃ w, o'.buf = o.buf ++ w
  | 0, _, _, _, hf, _, _, _ => absurd hf (Nat.not_lt_zero _)
  | fuel + 1, s, o, left, hf, hs, hl, ho => by
    rw [gloop]
    by_cases hz : unit s 0 = some 0
    · rw [if_pos hz]
      exact ⟨o, left, rfl, rfl, hl, ho, [], (List.append_nil _).symm⟩
    · rw [if_neg hz]
      have hne : s ≠ [] := fun h => hz (by rw [h]; rfl)
      obtain ⟨ch, k, e1, k1, k2, hq⟩ := hr s hs hne
      obtain ⟨bs, e2, hb⟩ := hw o left ch hq hl ho
      simp only [e1, e2]
      obtain ⟨o', left', h1, h2, h3, h4, w, h5⟩ := gloop_safe hr hw fuel (s.drop k) ⟨o.cap, o.buf ++ bs⟩ (left - bs.length)
        (by rw [List.length_drop]; omega) (fun b hb' => hs b (List.mem_of_mem_drop hb')) (by omega)
        (by simp only [List.length_append]; omega)
      exact ⟨o', left', h1, h2, h3, h4, bs ++ w, by rw [h5, List.append_assoc]⟩

theorem gloop_full {Q : Nat → Prop} {enc : Nat → List Nat} {rd : List Nat → Option (Nat × List Nat)}
    {wr : Out → Nat → Nat → Option (Out × Nat)} (hw : WrFull Q enc wr) : ∀ (fuel : Nat) (s chs : List Nat) (o : Out) (left : Nat),
    s.length < fuel → Decodes rd s chs → (∀ ch ∈ chs, Q ch) → o.buf.length + left = o.cap → (chs.flatMap enc).length < left →
    gloop rd wr fuel s o left = some (⟨o.cap, o.buf ++ chs.flatMap enc⟩, left - (chs.flatMap enc).length)
  | 0, _, _, _, _, hf, _, _, _, _ => absurd hf (Nat.not_lt_zero _)
  | fuel + 1, s, chs, o, left, hf, hd, hq, ho, hl => by
    rw [gloop]
    cases hd with
    | nil => rw [if_pos unit_zero_nil]; simp only [List.flatMap_nil, List.append_nil, List.length_nil, Nat.sub_zero]
    | cons b s ch s' chs h0 hr hlen h =>
      rw [if_neg (by rw [unit_zero_cons]; intro hh; exact h0 (Option.some.inj hh))]
      rw [List.flatMap_cons, List.length_append] at hl
      simp only [hr, hw o left ch (hq ch (List.mem_cons_self ..)) ho (by omega)]
      rw [List.length_cons] at hf
      rw [gloop_full hw fuel s' chs ⟨o.cap, o.buf ++ enc ch⟩ (left - (enc ch).length) (by omega) h
        (fun c hc => hq c (List.mem_cons_of_mem _ hc)) (by simp only [List.length_append]; omega) (by omega)]
      simp only [List.flatMap_cons, List.append_assoc, List.length_append, Nat.sub_sub]

theorem decodes_exists {m : Nat} {Q : Nat → Prop} {rd : List Nat → Option (Nat × List Nat)} (hr : RdOk m Q rd) :
    ∀ (n : Nat) (s : List Nat), s.length ≤ n → (∀ b ∈ s, b < m) → (∀ b ∈ s, b ≠ 0) →
    ∃ chs, Decodes rd s chs ∧ (∀ ch ∈ chs, Q ch) ∧ chs.length ≤ s.length
  | _, [], _, _, _ => ⟨[], .nil, fun _ h => absurd h (List.not_mem_nil), Nat.le_refl _⟩
  | 0, b :: s, hn, _, _ => absurd hn (by simp)
  | n + 1, b :: s, hn, hs, h0 => by
    obtain ⟨ch, k, e1, k1, k2, hq⟩ := hr (b :: s) hs (by simp)
    rw [List.length_cons] at hn k2
    obtain ⟨chs, d, q, l⟩ := decodes_exists hr n ((b :: s).drop k) (by rw [List.length_drop, List.length_cons]; omega)
      (fun c hc => hs c (List.mem_of_mem_drop hc)) (fun c hc => h0 c (List.mem_of_mem_drop hc))
    rw [List.length_drop, List.length_cons] at l
    refine ⟨ch :: chs, .cons b s ch _ chs (h0 b (List.mem_cons_self ..)) e1 (by rw [List.length_drop, List.length_cons]; omega) d,
      fun c hc => ?_, by rw [List.length_cons, List.length_cons]; omega⟩
    rcases List.mem_cons.1 hc with h | h
    · rw [h]; exact hq
    · exact q c h

/-! ### The pages -/

/-- The pages with functions. -/
def Page.works (p : Page) : Prop := p ≠ .utf16 ∧ p ≠ .utf32

/-- The pages of one byte per character. -/
def Page.simple (p : Page) : Prop := p.works ∧ p ≠ .utf8

theorem simple_tables (p : Page) (h : p.simple) : ∃ t, p.tables = some t ∧
    (∀ s, p.readCh s = readSimple t.1 s) ∧ (∀ o left ch, p.writeCh o left ch = writeSimple t.1 t.2 o left ch) := by
  obtain ⟨⟨h1, h2⟩, h3⟩ := h
  cases p
  case utf8 => exact absurd rfl h3
  case utf16 => exact absurd rfl h1
  case utf32 => exact absurd rfl h2
  all_goals exact ⟨_, rfl, fun _ => rfl, fun _ _ _ => rfl⟩

/-- The character of a byte in a page. -/
def chOf (utf : List Nat) (b : Nat) : Nat := if b < 128 then b else utf.getD (b - 128) 0

/-- What the tables satisfy: checked by evaluating them. -/
def tablesOk (t : List Nat × List Nat) : Bool :=
  decide (t.1.length = 128) && decide (t.2.length = 128) &&
  (List.range 256).all (fun b => decide (byteFor t.1 t.2 (chOf t.1 b) = b) && decide (chOf t.1 b < 0xd800 ∨ (0xe000 ≤ chOf t.1 b ∧ chOf t.1 b < 0x10000))) &&
  (List.range 128).all (fun i => decide (t.2.getD i 0 < 128))

theorem tablesOk_all : ∀ t, (∃ p : Page, p.tables = some t) → tablesOk t = true := by
  intro t ⟨p, hp⟩
  cases p
  case utf8 => cases hp
  case utf16 => cases hp
  case utf32 => cases hp
  all_goals
    have := Option.some.inj hp
    subst this
    decide +kernel

theorem tablesOk_spec (t : List Nat × List Nat) (h : tablesOk t = true) : t.1.length = 128 ∧ t.2.length = 128 ∧
    (∀ b < 256, byteFor t.1 t.2 (chOf t.1 b) = b ∧ (chOf t.1 b < 0xd800 ∨ (0xe000 ≤ chOf t.1 b ∧ chOf t.1 b < 0x10000))) ∧
    (∀ i, t.2.getD i 0 < 128) := by
  unfold tablesOk at h
  simp only [Bool.and_eq_true, decide_eq_true_eq, List.all_eq_true, List.mem_range] at h
  obtain ⟨⟨⟨h1, h2⟩, h3⟩, h4⟩ := h
  refine ⟨h1, h2, h3, fun i => ?_⟩
  by_cases hi : i < 128
  · exact h4 i hi
  · rw [List.getD_eq_getElem?_getD, List.getElem?_eq_none (by omega)]; exact (by decide : (0 : Nat) < 128)

theorem searchIdx_sound (utf idx : List Nat) (ch : Nat) (hx : ∀ i, idx.getD i 0 < 128) : ∀ fuel lo hi i,
    searchIdx utf idx ch fuel lo hi = some i → i < 128 ∧ utf.getD i 0 = ch
  | 0, _, _, _, h => by cases h
  | fuel + 1, lo, hi, i, h => by
    rw [searchIdx] at h
    by_cases hlo : lo < hi
    · rw [if_pos hlo] at h
      simp only at h
      by_cases c1 : utf.getD (idx.getD ((hi - 1 + lo) / 2) 0) 0 > ch
      · rw [if_pos c1] at h
        exact searchIdx_sound utf idx ch hx fuel _ _ i h
      · rw [if_neg c1] at h
        by_cases c2 : utf.getD (idx.getD ((hi - 1 + lo) / 2) 0) 0 < ch
        · rw [if_pos c2] at h
          exact searchIdx_sound utf idx ch hx fuel _ _ i h
        · rw [if_neg c2] at h
          have := Option.some.inj h
          subst this
          exact ⟨hx _, by omega⟩
    · rw [if_neg hlo] at h; cases h

/-- The byte for a character is one that stands for it, or a question mark. -/
theorem byteFor_sound (t : List Nat × List Nat) (h : tablesOk t = true) (ch : Nat) :
    byteFor t.1 t.2 ch < 256 ∧ (chOf t.1 (byteFor t.1 t.2 ch) = ch ∨ byteFor t.1 t.2 ch = 63) := by
  obtain ⟨_, _, _, h4⟩ := tablesOk_spec t h
  unfold byteFor
  by_cases c : ch ≥ 128 ∧ (ch ≥ 256 ∨ t.1.getD (ch - 128) 0 ≠ ch)
  · rw [if_pos c]
    cases hs : searchIdx t.1 t.2 ch 9 0 128 with
    | none => exact ⟨by decide, .inr rfl⟩
    | some i =>
      obtain ⟨i1, i2⟩ := searchIdx_sound _ _ _ h4 _ _ _ _ hs
      refine ⟨by simp only; omega, .inl ?_⟩
      simp only
      rw [chOf, if_neg (by omega), Nat.add_sub_cancel, i2]
  · rw [if_neg c]
    refine ⟨Nat.mod_lt _ (by omega), .inl ?_⟩
    have hlt : ch < 256 := by
      rcases Nat.lt_or_ge ch 256 with h | h
      · exact h
      · exact absurd ⟨by omega, .inl h⟩ c
    rw [Nat.mod_eq_of_lt hlt, chOf]
    by_cases c2 : ch < 128
    · rw [if_pos c2]
    · rw [if_neg c2]
      rcases Nat.decEq (t.1.getD (ch - 128) 0) ch with h | h
      · exact absurd ⟨by omega, .inr h⟩ c
      · exact h

theorem byte_high : ∀ b < 256, (b &&& 0x80 ≠ 0) ↔ 128 ≤ b := fun b hb => by
  rw [ne_eq, (byte_facts b hb).1]; omega

theorem readSimple_cons (utf : List Nat) (hl : utf.length = 128) (b : Nat) (s : List Nat) (hb : b < 256) :
    readSimple utf (b :: s) = some (chOf utf b, s) := by
  rw [readSimple, unit_zero_cons]
  simp only
  by_cases h : b &&& 0x80 ≠ 0
  · have := (byte_high b hb).1 h
    rw [if_pos h, List.getElem?_eq_getElem (by omega), chOf, if_neg (by omega), List.getD_eq_getElem?_getD,
      List.getElem?_eq_getElem (by omega)]
    rfl
  · have : b < 128 := by
      rcases Nat.lt_or_ge b 128 with h' | h'
      · exact h'
      · exact absurd ((byte_high b hb).2 h') h
    rw [if_neg h, chOf, if_pos this]; rfl

/-- What a character becomes in a page. -/
def Page.enc (p : Page) (ch : Nat) : List Nat :=
  match p with
  | .utf8 => utf8Enc ch
  | _ => match p.tables with
    | none => []
    | some t => [byteFor t.1 t.2 ch]

theorem simple_enc (p : Page) (h : p.simple) (t) (ht : p.tables = some t) (ch : Nat) : p.enc ch = [byteFor t.1 t.2 ch] := by
  obtain ⟨⟨h1, h2⟩, h3⟩ := h
  cases p
  case utf8 => exact absurd rfl h3
  case utf16 => exact absurd rfl h1
  case utf32 => exact absurd rfl h2
  all_goals
    have := Option.some.inj ht
    subst this
    rfl

theorem rd_ok (p : Page) (h : p.works) : RdOk 256 (· < 0x200000) p.readCh := by
  intro s hs hne
  by_cases h8 : p = .utf8
  · subst h8
    exact readUtf8_spec s hs hne
  · obtain ⟨t, ht, hr, _⟩ := simple_tables p ⟨h, h8⟩
    obtain ⟨l1, _, l3, _⟩ := tablesOk_spec t (tablesOk_all t ⟨p, ht⟩)
    cases s with
    | nil => exact absurd rfl hne
    | cons b s =>
      have hb := hs b (List.mem_cons_self ..)
      have := (l3 b hb).2
      exact ⟨chOf t.1 b, 1, by rw [hr, readSimple_cons t.1 l1 b s hb]; rfl, by omega, by rw [List.length_cons]; omega,
        by simp only; omega⟩

theorem push_ok (o : Out) (bs : List Nat) (h : o.buf.length + bs.length ≤ o.cap) : o.push bs = some ⟨o.cap, o.buf ++ bs⟩ := by
  rw [Out.push, if_pos h]

/-- What `Write_UTF8` does. -/
theorem writeUtf8_spec (o : Out) (left ch : Nat) (hl : 1 ≤ left) (ho : o.buf.length + left = o.cap) :
    writeUtf8 o left ch = if (utf8Enc ch).length < left then some (⟨o.cap, o.buf ++ utf8Enc ch⟩, left - (utf8Enc ch).length)
      else some (o, left) := by
  have hp : ∀ k, (utf8Bytes ch k).length < left → o.push (utf8Bytes ch k) = some ⟨o.cap, o.buf ++ utf8Bytes ch k⟩ :=
    fun k hk => push_ok o _ (by omega)
  rw [utf8Enc_length]
  unfold writeUtf8 utf8Enc utf8Len
  by_cases h1 : ch < 0x80
  · simp only [if_pos h1]
    by_cases l1 : 1 < left
    · rw [if_pos ⟨h1, l1⟩, if_pos l1, hp 1 (by simp [utf8Bytes]; omega)]; rfl
    · rw [if_neg (by omega), if_neg (by omega), if_neg (by omega), if_neg (by omega), if_neg l1]
  · simp only [if_neg h1]
    rw [if_neg (fun h => h1 h.1)]
    by_cases h2 : ch < 0x800
    · simp only [if_pos h2]
      by_cases l1 : 2 < left
      · rw [if_pos ⟨h2, l1⟩, if_pos l1, hp 2 (by simp [utf8Bytes]; omega)]; rfl
      · rw [if_neg (by omega), if_neg (by omega), if_neg (by omega), if_neg l1]
    · simp only [if_neg h2]
      rw [if_neg (fun h => h2 h.1)]
      by_cases h3 : ch < 0x10000
      · simp only [if_pos h3]
        by_cases l1 : 3 < left
        · rw [if_pos ⟨h3, l1⟩, if_pos l1, hp 3 (by simp [utf8Bytes]; omega)]; rfl
        · rw [if_neg (by omega), if_neg (by omega), if_neg l1]
      · simp only [if_neg h3]
        rw [if_neg (fun h => h3 h.1)]
        by_cases l1 : 4 < left
        · rw [if_pos l1, if_pos l1, hp 4 (by simp [utf8Bytes]; omega)]; rfl
        · rw [if_neg l1, if_neg l1]

/-- What writing a character in a page does: all of it or nothing. -/
theorem writeCh_spec (p : Page) (h : p.works) (o : Out) (left ch : Nat) (hl : 1 ≤ left) (ho : o.buf.length + left = o.cap) :
    p.writeCh o left ch = if (p.enc ch).length < left then some (⟨o.cap, o.buf ++ p.enc ch⟩, left - (p.enc ch).length)
      else some (o, left) := by
  by_cases h8 : p = .utf8
  · subst h8
    exact writeUtf8_spec o left ch hl ho
  · obtain ⟨t, ht, _, hw⟩ := simple_tables p ⟨h, h8⟩
    rw [hw, simple_enc p ⟨h, h8⟩ t ht, writeSimple]
    by_cases c : left > 1
    · rw [if_pos c, if_pos (show [byteFor t.1 t.2 ch].length < left from c),
        push_ok _ _ (by rw [List.length_singleton]; omega)]
      rfl
    · rw [if_neg c, if_neg (show ¬ [byteFor t.1 t.2 ch].length < left from c)]

theorem wr_safe (p : Page) (h : p.works) : WrSafe (fun _ => True) p.writeCh := by
  intro o left ch _ hl ho
  rw [writeCh_spec p h o left ch hl ho]
  by_cases c : (p.enc ch).length < left
  · rw [if_pos c]; exact ⟨_, rfl, c⟩
  · rw [if_neg c]; exact ⟨[], by rw [List.append_nil]; rfl, by rw [List.length_nil]; omega⟩

theorem wr_full (p : Page) (h : p.works) : WrFull (fun _ => True) p.enc p.writeCh := by
  intro o left ch _ ho c
  rw [writeCh_spec p h o left ch (by omega) ho, if_pos c]

/-! ### UTF-16 -/

/-- The UTF-16 form of a character. -/
def utf16Enc (ch : Nat) : List Nat := if ch ≥ 0x10000 then [0xd800 + (ch - 0x10000) / 1024 % 1024, 0xdc00 + ch % 1024] else [ch]

theorem putU_full : WrFull (· < 0x200000) utf16Enc putU := by
  intro o left ch hch ho hl
  unfold putU utf16Enc at *
  by_cases c : ch ≥ 0x10000
  · rw [if_pos c] at *
    simp only [List.length_cons, List.length_nil] at hl
    rw [if_pos ⟨c, by omega⟩, push_ok _ _ (by simp only [List.length_cons, List.length_nil]; omega), Nat.shiftRight_eq_div_pow,
      and3ff, and3ff, ord8 _ (by omega), ordc _ (by omega), show (ch - 65536) % 1024 = ch % 1024 by omega]
    rfl
  · rw [if_neg c] at *
    rw [List.length_singleton] at hl
    rw [if_neg (fun h => c h.1), if_pos hl, push_ok _ _ (by rw [List.length_singleton]; omega), Nat.mod_eq_of_lt (by omega)]
    rfl

theorem putU_safe : WrSafe (fun _ => True) putU := by
  intro o left ch _ hl ho
  unfold putU
  by_cases c : ch ≥ 0x10000 ∧ left > 2
  · rw [if_pos c, push_ok _ _ (by simp only [List.length_cons, List.length_nil]; omega)]
    exact ⟨_, rfl, by simp only [List.length_cons, List.length_nil]; omega⟩
  · rw [if_neg c]
    by_cases d : left > 1
    · rw [if_pos d, push_ok _ _ (by rw [List.length_singleton]; omega)]
      exact ⟨_, rfl, by rw [List.length_singleton]; omega⟩
    · rw [if_neg d]
      exact ⟨[], by rw [List.append_nil]; rfl, by rw [List.length_nil]; omega⟩

theorem inBlock_cons (b : Nat) (s : List Nat) (k : Nat) : inBlock (b :: s) 0 k = some (decide (b / 1024 * 1024 = k)) := by
  rw [inBlock, unit_zero_cons]; rfl

theorem readU_ok : RdOk 0x10000 (fun _ => True) readU := by
  intro s hs hne
  cases s with
  | nil => exact absurd rfl hne
  | cons b s =>
    rw [readU, inBlock_cons]
    simp only
    have h1 : ∃ r, inBlock (b :: s) 1 0xdc00 = some r ∧ (r = true → s ≠ []) := by
      cases s with
      | nil => exact ⟨false, rfl, fun h => by cases h⟩
      | cons c s => exact ⟨_, by rw [inBlock, unit_lt _ 1 (by simp)]; rfl, fun _ => by simp⟩
    obtain ⟨r, e, hr⟩ := h1
    rw [e]
    cases hd : decide (b / 1024 * 1024 = 0xd800) with
    | false => exact ⟨_, 1, rfl, by omega, by rw [List.length_cons]; omega, trivial⟩
    | true =>
      rw [andThen, if_pos rfl]
      cases r with
      | false => exact ⟨_, 1, rfl, by omega, by rw [List.length_cons]; omega, trivial⟩
      | true =>
        have := List.length_pos_iff.2 (hr rfl)
        exact ⟨_, 2, rfl, by omega, by rw [List.length_cons]; omega, trivial⟩

/-- A character that is not half a pair. -/
def scalar (ch : Nat) : Prop := ch < 0xd800 ∨ (0xe000 ≤ ch ∧ ch < 0x110000)

theorem readU_enc (ch : Nat) (hs : scalar ch) (rest : List Nat) : readU (utf16Enc ch ++ rest) = some (ch, rest) := by
  unfold utf16Enc scalar at *
  by_cases c : ch ≥ 0x10000
  · rw [if_pos c, List.cons_append, List.cons_append, List.nil_append, readU, inBlock_cons]
    have e1 : decide ((0xd800 + (ch - 0x10000) / 1024 % 1024) / 1024 * 1024 = 0xd800) = true := decide_eq_true (by omega)
    rw [e1]
    simp only
    rw [andThen, if_pos rfl, inBlock, unit_lt _ 1 (by simp)]
    simp only [List.getElem_cons_succ, List.getElem_cons_zero, Option.map_some]
    have e2 : decide ((0xdc00 + ch % 1024) / 1024 * 1024 = 0xdc00) = true := decide_eq_true (by omega)
    rw [e2]
    simp only [List.getD_cons_zero, List.getD_cons_succ, List.drop_succ_cons, List.drop_zero]
    rw [and3ff, and3ff, orhi _ _ (by omega)]
    congr 2
    omega
  · rw [if_neg c, List.singleton_append, readU, inBlock_cons]
    have e1 : decide (ch / 1024 * 1024 = 0xd800) = false := decide_eq_false (by omega)
    rw [e1]
    rfl

/-! ### Strings made of encoded characters -/

theorem decodes_flatMap {rd : List Nat → Option (Nat × List Nat)} {enc : Nat → List Nat} (Q : Nat → Prop)
    (h : ∀ ch, Q ch → ∀ rest, rd (enc ch ++ rest) = some (ch, rest)) (hn : ∀ ch, Q ch → enc ch ≠ [])
    (h0 : ∀ ch, Q ch → ∀ b ∈ enc ch, b ≠ 0) : ∀ chs : List Nat, (∀ ch ∈ chs, Q ch) → Decodes rd (chs.flatMap enc) chs
  | [], _ => .nil
  | ch :: chs, hq => by
    have q := hq ch (List.mem_cons_self ..)
    rw [List.flatMap_cons]
    cases he : enc ch with
    | nil => exact absurd he (hn ch q)
    | cons b bs =>
      rw [List.cons_append]
      refine .cons b _ ch (chs.flatMap enc) chs (h0 ch q b (by rw [he]; exact List.mem_cons_self ..)) ?_ ?_
        (decodes_flatMap Q h hn h0 chs fun c hc => hq c (List.mem_cons_of_mem _ hc))
      · have := h ch q (chs.flatMap enc)
        rwa [he, List.cons_append] at this
      · rw [List.length_append]; omega

theorem utf8_decodes (chs : List Nat) (h : ∀ ch ∈ chs, ch ≠ 0 ∧ ch < 0x200000) :
    Decodes (Page.readCh .utf8) (chs.flatMap utf8Enc) chs :=
  decodes_flatMap (rd := Page.readCh .utf8) (fun ch => ch ≠ 0 ∧ ch < 0x200000) (fun ch q rest => readUtf8_enc ch q.2 rest)
    (fun ch _ hh => by
      have := utf8Enc_length ch
      have := utf8Len_le ch
      rw [hh] at *
      simp only [List.length_nil] at *
      omega)
    (fun ch q => utf8Enc_ne_zero ch q.1) chs h

theorem utf16_ne_zero (ch : Nat) (h : ch ≠ 0) : ∀ b ∈ utf16Enc ch, b ≠ 0 := by
  unfold utf16Enc
  intro b hb
  split at hb
  · simp only [List.mem_cons, List.not_mem_nil, or_false] at hb; omega
  · rw [List.mem_singleton] at hb; omega

theorem utf16_decodes (chs : List Nat) (h : ∀ ch ∈ chs, ch ≠ 0 ∧ scalar ch) : Decodes readU (chs.flatMap utf16Enc) chs :=
  decodes_flatMap (fun ch => ch ≠ 0 ∧ scalar ch) (fun ch q rest => readU_enc ch q.2 rest)
    (fun ch _ => by unfold utf16Enc; split <;> simp)
    (fun ch q => utf16_ne_zero ch q.1) chs h

/-- The characters of a string in a simple page. -/
theorem simple_decodes (p : Page) (h : p.simple) (t) (ht : p.tables = some t) : ∀ s : List Nat, (∀ b ∈ s, b < 256 ∧ b ≠ 0) →
    Decodes p.readCh s (s.map (chOf t.1))
  | [], _ => .nil
  | b :: s, hs => by
    obtain ⟨t', ht', hr, _⟩ := simple_tables p h
    have : t' = t := Option.some.inj (ht'.symm.trans ht)
    subst this
    obtain ⟨l1, _⟩ := tablesOk_spec t' (tablesOk_all t' ⟨p, ht⟩)
    have hb := hs b (List.mem_cons_self ..)
    rw [List.map_cons]
    exact .cons b s _ s _ hb.2 (by rw [hr, readSimple_cons t'.1 l1 b s hb.1]) (Nat.le_refl _)
      (simple_decodes p h t' ht s fun c hc => hs c (List.mem_cons_of_mem _ hc))

theorem chOf_ne_zero (t : List Nat × List Nat) (h : tablesOk t = true) (b : Nat) (hb : b < 256) (h0 : b ≠ 0) : chOf t.1 b ≠ 0 := by
  intro hz
  have := ((tablesOk_spec t h).2.2.1 b hb).1
  rw [hz] at this
  exact h0 (this.symm.trans rfl)

/-- Encoding the characters of a string of a simple page gives the string. -/
theorem simple_enc_chOf (p : Page) (h : p.simple) (t) (ht : p.tables = some t) (s : List Nat) (hs : ∀ b ∈ s, b < 256) :
    (s.map (chOf t.1)).flatMap p.enc = s := by
  have hl := (tablesOk_spec t (tablesOk_all t ⟨p, ht⟩)).2.2.1
  induction s with
  | nil => rfl
  | cons b s ih =>
    rw [List.map_cons, List.flatMap_cons, ih fun c hc => hs c (List.mem_cons_of_mem _ hc), simple_enc p h t ht,
      (hl b (hs b (List.mem_cons_self ..))).1]
    rfl

/-! ### Whole conversions -/

theorem convSS_full (f t : Page) (hne : f ≠ t) (ht : t.works) (s chs : List Nat) (n : Nat) (hd : Decodes f.readCh s chs)
    (hn : (chs.flatMap t.enc).length < n) : convSS f t n s = some (chs.flatMap t.enc ++ [0]) := by
  rw [convSS, if_pos (by omega), if_neg hne, convLoop_eq,
    gloop_full (wr_full t ht) (s.length + 1) s chs ⟨n, []⟩ n (by omega) hd (fun _ _ => trivial)
      (by simp only [List.length_nil]; omega) hn]
  simp only [List.nil_append]
  rw [push_ok _ _ (by simp only [List.length_singleton]; omega)]
  rfl

theorem convSS_safe (f t : Page) (hf : f.works) (ht : t.works) (s : List Nat) (n : Nat) (hs : ∀ b ∈ s, b < 256) (hn : 0 < n) :
    ∃ w, convSS f t n s = some (w ++ [0]) ∧ w.length < n := by
  rw [convSS, if_pos hn]
  by_cases he : f = t
  · rw [if_pos he, push_ok _ _ (by simp only [List.length_append, List.length_take, List.length_nil, List.length_singleton]; omega)]
    exact ⟨s.take (min s.length (n - 1)), rfl, by rw [List.length_take]; omega⟩
  · rw [if_neg he, convLoop_eq]
    obtain ⟨o, left, e, h1, h2, h3, _⟩ := gloop_safe (rd_ok f hf)
      (fun o left ch _ => wr_safe t ht o left ch trivial) (s.length + 1) s ⟨n, []⟩ n (by omega) hs hn
      (by simp only [List.length_nil]; omega)
    rw [e]
    simp only at h1 ⊢
    rw [push_ok _ _ (by rw [List.length_singleton]; omega)]
    exact ⟨o.buf, rfl, by omega⟩

theorem convUS_full (f : Page) (s chs : List Nat) (n : Nat) (hd : Decodes f.readCh s chs) (hc : ∀ ch ∈ chs, ch < 0x200000)
    (hn : (chs.flatMap utf16Enc).length < n) : convUS f n s = some (chs.flatMap utf16Enc ++ [0]) := by
  rw [convUS, if_pos (by omega), convULoop_eq,
    gloop_full putU_full (s.length + 1) s chs ⟨n, []⟩ n (by omega) hd hc (by simp only [List.length_nil]; omega) hn]
  simp only [List.nil_append]
  rw [push_ok _ _ (by simp only [List.length_singleton]; omega)]
  rfl

theorem convUS_safe (f : Page) (hf : f.works) (s : List Nat) (n : Nat) (hs : ∀ b ∈ s, b < 256) (hn : 0 < n) :
    ∃ w, convUS f n s = some (w ++ [0]) ∧ w.length < n := by
  rw [convUS, if_pos hn, convULoop_eq]
  obtain ⟨o, left, e, h1, h2, h3, _⟩ := gloop_safe (rd_ok f hf) (fun o left ch _ => putU_safe o left ch trivial)
    (s.length + 1) s ⟨n, []⟩ n (by omega) hs hn (by simp only [List.length_nil]; omega)
  rw [e]
  simp only at h1 ⊢
  rw [push_ok _ _ (by rw [List.length_singleton]; omega)]
  exact ⟨o.buf, rfl, by omega⟩

theorem convSU_full (t : Page) (ht : t.works) (s chs : List Nat) (n : Nat) (hd : Decodes readU s chs)
    (hn : (chs.flatMap t.enc).length < n) : convSU t n s = some (chs.flatMap t.enc ++ [0]) := by
  rw [convSU, if_pos (by omega), convSULoop_eq,
    gloop_full (wr_full t ht) (s.length + 1) s chs ⟨n, []⟩ n (by omega) hd (fun _ _ => trivial)
      (by simp only [List.length_nil]; omega) hn]
  simp only [List.nil_append]
  rw [push_ok _ _ (by simp only [List.length_singleton]; omega)]
  rfl

theorem convSU_safe (t : Page) (ht : t.works) (s : List Nat) (n : Nat) (hs : ∀ b ∈ s, b < 0x10000) (hn : 0 < n) :
    ∃ w, convSU t n s = some (w ++ [0]) ∧ w.length < n := by
  rw [convSU, if_pos hn, convSULoop_eq]
  obtain ⟨o, left, e, h1, h2, h3, _⟩ := gloop_safe readU_ok (wr_safe t ht) (s.length + 1) s ⟨n, []⟩ n (by omega) hs hn
    (by simp only [List.length_nil]; omega)
  rw [e]
  simp only at h1 ⊢
  rw [push_ok _ _ (by rw [List.length_singleton]; omega)]
  exact ⟨o.buf, rfl, by omega⟩

/-- Writing to a page of one byte per character keeps the characters that fit. -/
theorem gloop_prefix (p : Page) (hp : p.simple) (rd : List Nat → Option (Nat × List Nat)) : ∀ (fuel : Nat) (s chs : List Nat)
    (o : Out) (left : Nat), s.length < fuel → Decodes rd s chs → 1 ≤ left → o.buf.length + left = o.cap →
    ∃ left', gloop rd p.writeCh fuel s o left = some (⟨o.cap, o.buf ++ (chs.flatMap p.enc).take (left - 1)⟩, left')
  | 0, _, _, _, _, hf, _, _, _ => absurd hf (Nat.not_lt_zero _)
  | fuel + 1, s, chs, o, left, hf, hd, hl, ho => by
    rw [gloop]
    cases hd with
    | nil =>
      rw [if_pos unit_zero_nil, List.flatMap_nil, List.take_nil, List.append_nil]
      exact ⟨left, rfl⟩
    | cons b s ch s' chs h0 hr hlen h =>
      rw [if_neg (by rw [unit_zero_cons]; intro hh; exact h0 (Option.some.inj hh))]
      obtain ⟨t, ht, _, _⟩ := simple_tables p hp
      have he : p.enc ch = [byteFor t.1 t.2 ch] := simple_enc p hp t ht ch
      rw [List.length_cons] at hf
      simp only [hr, writeCh_spec p hp.1 o left ch hl ho, he]
      by_cases c : [byteFor t.1 t.2 ch].length < left
      · simp only [if_pos c]
        rw [List.length_singleton] at c ⊢
        obtain ⟨left', e⟩ := gloop_prefix p hp rd fuel s' chs ⟨o.cap, o.buf ++ [byteFor t.1 t.2 ch]⟩ (left - 1) (by omega) h
          (by omega) (by simp only [List.length_append, List.length_singleton]; omega)
        refine ⟨left', e.trans ?_⟩
        rw [List.flatMap_cons, he, List.append_assoc, List.singleton_append, List.singleton_append,
          show left - 1 = (left - 1 - 1) + 1 by omega, List.take_succ_cons, Nat.add_sub_cancel]
      · simp only [if_neg c]
        rw [List.length_singleton] at c
        obtain ⟨left', e⟩ := gloop_prefix p hp rd fuel s' chs o left (by omega) h hl ho
        refine ⟨left', e.trans ?_⟩
        rw [show left - 1 = 0 by omega, List.take_zero, List.take_zero]

end Verif.Conv
