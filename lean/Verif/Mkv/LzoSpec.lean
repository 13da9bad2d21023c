import Verif.Mkv.LzoLemmas
/-!
The LZO1X stream format, from the comments of lzokay.c (lines 87-237), as an encoder: what a stream
says and the bytes that say it.
-/
set_option linter.unusedSimpArgs false
namespace Verif.Lzo

/-- One step of a stream: a run of literals, or a copy from `dist` back of `len` bytes followed by up
to three literals, in one of the four encodings. -/
inductive Tok where
  | lits (bs : List Nat)
  | m1 (dist len : Nat) (ls : List Nat)
  | m2 (dist len : Nat) (ls : List Nat)
  | m3 (dist len : Nat) (ls : List Nat)
  | m4 (dist len : Nat) (ls : List Nat)

/-- Repeats what stands `dist` back, byte by byte. -/
def repeatBack (dist : Nat) : Nat → List Nat → List Nat
  | 0, out => out
  | n + 1, out => repeatBack dist n (out ++ [out.getD (out.length - dist) 0])

/-- The output after a token. -/
def Tok.apply (out : List Nat) : Tok → List Nat
  | .lits bs => out ++ bs
  | .m1 d l ls | .m2 d l ls | .m3 d l ls | .m4 d l ls => repeatBack d l out ++ ls

/-- The state after a token: the number of literals at its end, 4 for a run. -/
def Tok.state : Tok → Nat
  | .lits _ => 4
  | .m1 _ _ ls | .m2 _ _ ls | .m3 _ _ ls | .m4 _ _ ls => ls.length

/-- Which tokens can be encoded after a state. -/
def Tok.ok (state : Nat) : Tok → Prop
  | .lits bs => state = 0 ∧ 4 ≤ bs.length
  | .m1 d l ls => ls.length ≤ 3 ∧ ((1 ≤ state ∧ state ≤ 3 ∧ l = 2 ∧ 1 ≤ d ∧ d ≤ 1024) ∨
      (state = 4 ∧ l = 3 ∧ 2049 ≤ d ∧ d ≤ 3072))
  | .m2 d l ls => ls.length ≤ 3 ∧ 3 ≤ l ∧ l ≤ 8 ∧ 1 ≤ d ∧ d ≤ 2048
  | .m3 d l ls => ls.length ≤ 3 ∧ 3 ≤ l ∧ 1 ≤ d ∧ d ≤ 16384
  | .m4 d l ls => ls.length ≤ 3 ∧ 3 ≤ l ∧ 16385 ≤ d ∧ d ≤ 49151

/-- The bytes of a length that does not fit in its bits: `n` is what is left beyond the largest. -/
def extBytes (n : Nat) : List Nat := List.replicate ((n - 1) / 255) 0 ++ [(n - 1) % 255 + 1]

/-- A length `n ≥ 1` in bits that hold up to `max`, with its extension. -/
def lenBits (n max : Nat) : Nat := if n ≤ max then n else 0
def lenExt (n max : Nat) : List Nat := if n ≤ max then [] else extBytes (n - max)

/-- A 16-bit number, low byte first. -/
def word (w : Nat) : List Nat := [w % 256, w / 256]

/-- The bytes of a token. -/
def Tok.enc (state : Nat) : Tok → List Nat
  | .lits bs => lenBits (bs.length - 3) 15 :: lenExt (bs.length - 3) 15 ++ bs
  | .m1 d _ ls =>
    let e := if state = 4 then d - 2049 else d - 1
    [e % 4 * 4 + ls.length, e / 4] ++ ls
  | .m2 d l ls => [(l - 1) * 32 + (d - 1) % 8 * 4 + ls.length, (d - 1) / 8] ++ ls
  | .m3 d l ls => (32 + lenBits (l - 2) 31) :: lenExt (l - 2) 31 ++ word ((d - 1) * 4 + ls.length) ++ ls
  | .m4 d l ls => (16 + (d - 16384) / 16384 * 8 + lenBits (l - 2) 7) :: lenExt (l - 2) 7 ++
      word ((d - 16384) % 16384 * 4 + ls.length) ++ ls

/-- The end of a stream. -/
def endMark : List Nat := [0x11, 0, 0]

/-- A sequence of tokens that can be encoded from a state and an output on: distances do not reach
before the start. -/
def valid : Nat → List Nat → List Tok → Prop
  | _, _, [] => True
  | state, out, t :: ts => t.ok state ∧
      (match t with | .lits _ => True | .m1 d _ _ | .m2 d _ _ | .m3 d _ _ | .m4 d _ _ => d ≤ out.length) ∧
      valid t.state (t.apply out) ts

def applyAll (out : List Nat) (ts : List Tok) : List Nat := ts.foldl Tok.apply out

def encAll : Nat → List Tok → List Nat
  | _, [] => endMark
  | state, t :: ts => t.enc state ++ encAll t.state ts

/-! ### Decoding what was encoded -/

theorem inst_facts : ∀ b < 256, ((b &&& 0xC0 ≠ 0) ↔ 64 ≤ b) ∧ (b < 64 → ((b &&& 0x20 ≠ 0) ↔ 32 ≤ b)) ∧
    (b < 32 → ((b &&& 0x10 ≠ 0) ↔ 16 ≤ b)) ∧ b &&& 8 = b / 8 % 2 * 8 := by decide +kernel

theorem and3 (x : Nat) : x &&& 3 = x % 4 := Nat.and_two_pow_sub_one_eq_mod x 2
theorem and7 (x : Nat) : x &&& 7 = x % 8 := Nat.and_two_pow_sub_one_eq_mod x 3
theorem and31 (x : Nat) : x &&& 0x1f = x % 32 := Nat.and_two_pow_sub_one_eq_mod x 5

theorem zeros_replicate (b : Nat) (hb : b ≠ 0) (tl : List Nat) : ∀ k, zeros (List.replicate k 0 ++ b :: tl) = some (k, b :: tl)
  | 0 => by rw [List.replicate_zero, List.nil_append, zeros, if_neg hb]
  | k + 1 => by rw [List.replicate_succ, List.cons_append, zeros, if_pos rfl, zeros_replicate b hb tl k]; rfl

theorem extLen_enc (g tl : List Nat) (n base add : Nat) (hn : 1 ≤ n) (hm : n < 2 ^ 63) :
    extLen g (extBytes n ++ tl) base add = .ok (base + add + n) tl := by
  unfold extLen extBytes
  rw [List.append_assoc, List.append_assoc, List.singleton_append, zeros_replicate _ (by omega)]
  simp only
  have hk : (n - 1) / 255 ≤ max255 := by
    unfold max255
    simp only [Nat.reducePow] at hm ⊢
    omega
  rw [if_neg (by omega), if_neg (by simp only [List.length_cons, List.length_append]; omega)]
  simp only [List.headD_cons]
  congr 1
  · omega
  · rw [List.drop_append_of_le_length (by simp), List.drop_eq_nil_of_le (by simp), List.nil_append]

theorem withLen_enc (g tl : List Nat) (n max base : Nat) (k : Nat → List Nat → P) (hn : 1 ≤ n) (hm : n < 2 ^ 63) :
    withLen g (lenExt n max ++ tl) base (lenBits n max + base) max k = k (n + base) tl := by
  unfold withLen lenBits lenExt
  by_cases c : n ≤ max
  · simp only [if_pos c]
    rw [if_neg (by omega), List.nil_append]
  · simp only [if_neg c]
    rw [if_pos (by omega), extLen_enc g tl (n - max) _ _ (by omega) (by omega)]
    simp only
    congr 1; omega

theorem le16_word (len w : Nat) (f : Nat → Nat → Ins) (tl : List Nat) : le16 len f (word w ++ tl) = .ok (f len w) tl := by
  rw [word, List.cons_append, List.cons_append, List.nil_append, le16]
  congr 2; omega

/-- Bytes of a token after the first. -/
def Tok.body (state : Nat) (t : Tok) : List Nat := (t.enc state).tail

/-- What parsing gives for a token. -/
def Tok.ins : Tok → Ins
  | .lits bs => .lits bs.length
  | .m1 d l ls | .m2 d l ls | .m3 d l ls | .m4 d l ls => .copy d l ls.length

def Tok.tailLits : Tok → List Nat
  | .lits bs => bs
  | .m1 _ _ ls | .m2 _ _ ls | .m3 _ _ ls | .m4 _ _ ls => ls

def Tok.size : Tok → Nat
  | .lits bs => bs.length
  | .m1 _ l ls | .m2 _ l ls | .m3 _ l ls | .m4 _ l ls => l + ls.length

theorem parse_enc (g : List Nat) (state : Nat) (t : Tok) (ht : t.ok state) (hs : t.size < 2 ^ 63) (tl : List Nat) :
    ∃ inst rest, t.enc state ++ tl = inst :: rest ∧ parse g state inst rest = .ok t.ins (t.tailLits ++ tl) := by
  cases t with
  | lits bs =>
    obtain ⟨h1, h2⟩ := ht
    have hs : bs.length < 2 ^ 63 := hs
    subst h1
    refine ⟨lenBits (bs.length - 3) 15, lenExt (bs.length - 3) 15 ++ (bs ++ tl), by simp [Tok.enc], ?_⟩
    have hb : lenBits (bs.length - 3) 15 < 16 := by unfold lenBits; split <;> omega
    have f := inst_facts (lenBits (bs.length - 3) 15) (by omega)
    rw [parse, if_neg (fun h => by have := f.1.1 h; omega), if_neg (fun h => by have := (f.2.1 (by omega)).1 h; omega),
      if_neg (fun h => by have := (f.2.2.1 (by omega)).1 h; omega), parseM1.eq_def, if_pos rfl, withLen_enc _ _ _ _ _ _ (by omega) (by omega)]
    simp only [Tok.ins, Tok.tailLits]
    congr 2; omega
  | m1 d l ls =>
    obtain ⟨h1, h2⟩ := ht
    refine ⟨(if state = 4 then d - 2049 else d - 1) % 4 * 4 + ls.length, (if state = 4 then d - 2049 else d - 1) / 4 :: (ls ++ tl), rfl, ?_⟩
    have hb : (if state = 4 then d - 2049 else d - 1) ≤ 1023 := by split <;> omega
    generalize he : (if state = 4 then d - 2049 else d - 1) = e at hb
    have f := inst_facts (e % 4 * 4 + ls.length) (by omega)
    rw [parse, if_neg (fun h => by have := f.1.1 h; omega), if_neg (fun h => by have := (f.2.1 (by omega)).1 h; omega),
      if_neg (fun h => by have := (f.2.2.1 (by omega)).1 h; omega), parseM1.eq_def, if_neg (by omega)]
    simp only [List.cons_append, List.nil_append, Tok.ins, Tok.tailLits]
    by_cases c : state = 4
    · rw [if_neg (by omega)]
      rw [if_pos c] at he
      rw [and3, Nat.shiftRight_eq_div_pow, Nat.shiftLeft_eq]
      have e1 : (e % 4 * 4 + ls.length) / 2 ^ 2 + e / 4 * 2 ^ 2 + 2049 = d := by omega
      have e2 : (e % 4 * 4 + ls.length) % 4 = ls.length := by omega
      have e3 : l = 3 := by omega
      rw [e1, e2, e3]
    · rw [if_pos c]
      rw [if_neg c] at he
      rw [and3, Nat.shiftRight_eq_div_pow, Nat.shiftLeft_eq]
      congr 2 <;> omega
  | m2 d l ls =>
    obtain ⟨h1, h2, h3, h4, h5⟩ := ht
    refine ⟨(l - 1) * 32 + (d - 1) % 8 * 4 + ls.length, (d - 1) / 8 :: (ls ++ tl), rfl, ?_⟩
    have f := inst_facts ((l - 1) * 32 + (d - 1) % 8 * 4 + ls.length) (by omega)
    rw [parse, if_pos (f.1.2 (by omega))]
    simp only [List.cons_append, List.nil_append, Tok.ins, Tok.tailLits, parseM2]
    rw [and3, and7, Nat.shiftRight_eq_div_pow, Nat.shiftRight_eq_div_pow, Nat.shiftLeft_eq]
    congr 2 <;> omega
  | m3 d l ls =>
    obtain ⟨h1, h2, h3, h4⟩ := ht
    have hs : l + ls.length < 2 ^ 63 := hs
    refine ⟨32 + lenBits (l - 2) 31, lenExt (l - 2) 31 ++ (word ((d - 1) * 4 + ls.length) ++ (ls ++ tl)), by simp [Tok.enc], ?_⟩
    have hb : lenBits (l - 2) 31 < 32 := by unfold lenBits; split <;> omega
    have f := inst_facts (32 + lenBits (l - 2) 31) (by omega)
    rw [parse, if_neg (fun h => by have := f.1.1 h; omega), if_pos ((f.2.1 (by omega)).2 (by omega)), and31,
      show (32 + lenBits (l - 2) 31) % 32 = lenBits (l - 2) 31 by omega, withLen_enc _ _ _ _ _ _ (by omega) (by omega),
      le16_word, insM3, and3, Nat.shiftRight_eq_div_pow]
    simp only [Tok.ins, Tok.tailLits]
    congr 2 <;> omega
  | m4 d l ls =>
    obtain ⟨h1, h2, h3, h4⟩ := ht
    have hs : l + ls.length < 2 ^ 63 := hs
    refine ⟨16 + (d - 16384) / 16384 * 8 + lenBits (l - 2) 7,
      lenExt (l - 2) 7 ++ (word ((d - 16384) % 16384 * 4 + ls.length) ++ (ls ++ tl)), by simp [Tok.enc], ?_⟩
    have hb : lenBits (l - 2) 7 < 8 := by unfold lenBits; split <;> omega
    have f := inst_facts (16 + (d - 16384) / 16384 * 8 + lenBits (l - 2) 7) (by omega)
    rw [parse, if_neg (fun h => by have := f.1.1 h; omega), if_neg (fun h => by have := (f.2.1 (by omega)).1 h; omega),
      if_pos ((f.2.2.1 (by omega)).2 (by omega)), and7,
      show (16 + (d - 16384) / 16384 * 8 + lenBits (l - 2) 7) % 8 = lenBits (l - 2) 7 by omega,
      withLen_enc _ _ _ _ _ _ (by omega) (by omega), le16_word, insM4, f.2.2.2, and3, Nat.shiftRight_eq_div_pow,
      Nat.shiftLeft_eq]
    rw [if_neg (by simp only [Nat.reducePow]; omega)]
    simp only [Tok.ins, Tok.tailLits, Nat.reducePow]
    congr 2 <;> omega

theorem copyBack_eq (cap dist : Nat) (hd : 1 ≤ dist) : ∀ (n : Nat) (out : List Nat), dist ≤ out.length → out.length + n ≤ cap →
    copyBack cap dist n out = some (repeatBack dist n out)
  | 0, _, _, _ => rfl
  | n + 1, out, h1, h2 => by
    rw [copyBack, if_neg (by omega), store, if_pos (by rw [List.length_singleton]; omega)]
    simp only
    rw [copyBack_eq cap dist hd n _ (by rw [List.length_append]; omega) (by rw [List.length_append, List.length_singleton]; omega)]
    rfl

theorem repeatBack_length (dist : Nat) : ∀ (n : Nat) (out : List Nat), (repeatBack dist n out).length = out.length + n
  | 0, _ => rfl
  | n + 1, out => by rw [repeatBack, repeatBack_length dist n, List.length_append, List.length_singleton]; omega

theorem apply_length (t : Tok) (out : List Nat) : (t.apply out).length = out.length + t.size := by
  cases t with
  | lits bs => simp [Tok.apply, Tok.size]
  | m1 d l ls => simp [Tok.apply, Tok.size, repeatBack_length, Nat.add_assoc]
  | m2 d l ls => simp [Tok.apply, Tok.size, repeatBack_length, Nat.add_assoc]
  | m3 d l ls => simp [Tok.apply, Tok.size, repeatBack_length, Nat.add_assoc]
  | m4 d l ls => simp [Tok.apply, Tok.size, repeatBack_length, Nat.add_assoc]

theorem applyAll_length : ∀ (ts : List Tok) (out : List Nat), out.length ≤ (applyAll out ts).length
  | [], _ => Nat.le_refl _
  | t :: ts, out => by
    have := applyAll_length ts (t.apply out)
    rw [apply_length] at this
    exact Nat.le_trans (Nat.le_add_right _ _) this

theorem doCopy_enc (cap : Nat) (out ls tl : List Nat) (d l : Nat) (hd1 : 1 ≤ d) (hd : d ≤ out.length)
    (hc : out.length + (l + ls.length) ≤ cap) : doCopy cap out (ls ++ tl) d l ls.length = .inr (repeatBack d l out ++ ls, tl) := by
  rw [doCopy, if_neg (by omega), if_neg (by rw [List.length_append]; omega), if_neg (by omega), copyBack_eq cap d hd1 l out hd (by omega)]
  simp only
  rw [List.take_left, store, if_pos (by rw [repeatBack_length]; omega), List.drop_left]

theorem run_enc (g : List Nat) (cap : Nat) (hcap : cap < 2 ^ 63) : ∀ (ts : List Tok) (fuel : Nat) (out : List Nat) (state : Nat),
    valid state out ts → (applyAll out ts).length ≤ cap → (encAll state ts).length < fuel →
    run g cap fuel (encAll state ts) out state = .ret eSuccess (applyAll out ts)
  | _, 0, _, _, _, _, h => absurd h (Nat.not_lt_zero _)
  | [], fuel + 1, out, state, _, _, _ => by
    rw [encAll, endMark, run, show parse g state 17 [0, 0] = .ok (.eos 3) [] from rfl]
    rfl
  | t :: ts, fuel + 1, out, state, hv, hc, hf => by
    obtain ⟨v1, v2, v3⟩ := hv
    have hlen : out.length + t.size ≤ cap := by
      have h1 := applyAll_length ts (t.apply out)
      rw [apply_length] at h1
      have h2 : (applyAll (t.apply out) ts).length ≤ cap := hc
      omega
    obtain ⟨inst, rest, e, hp⟩ := parse_enc g state t v1 (by omega) (encAll t.state ts)
    have hstep : run g cap (fuel + 1) (encAll state (t :: ts)) out state = run g cap fuel (encAll t.state ts) (t.apply out) t.state := by
      rw [encAll, e, run, hp]
      cases t with
      | lits bs =>
        have hlen : out.length + bs.length ≤ cap := hlen
        simp only [Tok.ins, Tok.tailLits]
        rw [copyLits, if_neg (by rw [List.length_append]; omega), if_neg (by omega), List.take_left, store, if_pos hlen, List.drop_left]
        rfl
      | m1 d l ls =>
        have h1 : 1 ≤ d := by have := v1.2; omega
        simp only [Tok.ins, Tok.tailLits]; rw [doCopy_enc cap out ls _ d l h1 v2 hlen]; rfl
      | m2 d l ls =>
        have h1 : 1 ≤ d := v1.2.2.2.1
        simp only [Tok.ins, Tok.tailLits]; rw [doCopy_enc cap out ls _ d l h1 v2 hlen]; rfl
      | m3 d l ls =>
        have h1 : 1 ≤ d := v1.2.2.1
        simp only [Tok.ins, Tok.tailLits]; rw [doCopy_enc cap out ls _ d l h1 v2 hlen]; rfl
      | m4 d l ls =>
        have h1 : 1 ≤ d := by have := v1.2.2.1; omega
        simp only [Tok.ins, Tok.tailLits]; rw [doCopy_enc cap out ls _ d l h1 v2 hlen]; rfl
    rw [hstep]
    have hl1 : (encAll t.state ts).length ≤ rest.length := by
      have h3 : (t.enc state ++ encAll t.state ts).length = (inst :: rest).length := congrArg _ e
      rw [List.length_append, List.length_cons] at h3
      have h4 : 1 ≤ (t.enc state).length := by cases t <;> simp [Tok.enc] <;> omega
      omega
    rw [encAll, e, List.length_cons] at hf
    exact run_enc g cap hcap ts fuel (t.apply out) t.state v3 hc (by omega)

/-- How a stream begins: with literals counted in the first byte, or right away. -/
inductive Start where
  | none
  | lits (bs : List Nat)

def Start.ok : Start → Prop
  | .none => True
  | .lits bs => 1 ≤ bs.length ∧ bs.length ≤ 238

def Start.out : Start → List Nat
  | .none => []
  | .lits bs => bs

def Start.state : Start → Nat
  | .none => 0
  | .lits bs => min bs.length 4

def Start.enc : Start → List Nat
  | .none => []
  | .lits bs => (17 + bs.length) :: bs

theorem encAll_length : ∀ (ts : List Tok) (state : Nat), 3 ≤ (encAll state ts).length
  | [], _ => Nat.le_refl _
  | t :: ts, state => by
    have := encAll_length ts t.state
    rw [encAll, List.length_append]; omega

theorem decompress_enc (g : List Nat) (s : Start) (ts : List Tok) (cap : Nat) (hcap : cap < 2 ^ 63) (hs : s.ok)
    (hv : valid s.state s.out ts) (hc : (applyAll s.out ts).length ≤ cap) :
    decompress g (s.enc ++ encAll s.state ts) cap = .ret eSuccess (applyAll s.out ts) := by
  have hl := encAll_length ts s.state
  rw [decompress.eq_def, if_neg (by rw [List.length_append]; omega)]
  cases s with
  | none =>
    simp only [Start.enc, List.nil_append, Start.state] at *
    have key := run_enc g cap hcap ts ((encAll 0 ts).length + 1) [] 0 hv hc (Nat.lt_succ_self _)
    cases ts with
    | nil => exact key
    | cons t ts =>
      cases t with
      | lits bs =>
        obtain ⟨⟨_, v⟩, _⟩ := hv
        have hb : lenBits (bs.length - 3) 15 < 16 := by unfold lenBits; split <;> omega
        obtain ⟨r, hr⟩ : ∃ r, encAll 0 (.lits bs :: ts) = lenBits (bs.length - 3) 15 :: r := ⟨_, rfl⟩
        rw [hr] at key ⊢
        simp only
        rw [if_neg (by omega), if_neg (by omega)]
        exact key
      | m1 d l ls => have := hv.1.2; omega
      | m2 d l ls => have := hv.1.2; have h2 : d ≤ 0 := hv.2.1; omega
      | m3 d l ls => have := hv.1.2; have h2 : d ≤ 0 := hv.2.1; omega
      | m4 d l ls => have := hv.1.2; have h2 : d ≤ 0 := hv.2.1; omega
  | lits bs =>
    obtain ⟨h1, h2⟩ := hs
    simp only [Start.enc, Start.state, Start.out, List.cons_append] at *
    have hb : bs.length ≤ cap := Nat.le_trans (applyAll_length ts bs) hc
    have hcl : copyLits cap [] (bs ++ encAll (min bs.length 4) ts) bs.length = .inr (bs, encAll (min bs.length 4) ts) := by
      rw [copyLits, if_neg (by rw [List.length_append]; omega), if_neg (by rw [List.length_nil]; omega), List.take_left, store,
        if_pos (by rw [List.length_nil]; omega), List.drop_left, List.nil_append]
    have key := run_enc g cap hcap ts _ bs (min bs.length 4) hv hc (Nat.lt_succ_self _)
    rw [Nat.add_sub_cancel_left, hcl]
    by_cases c : 17 + bs.length ≥ 22
    · rw [if_pos c, runFrom]
      rw [show min bs.length 4 = 4 by omega] at *
      exact key
    · rw [if_neg c, if_pos (by omega), runFrom]
      have hm : min bs.length 4 = bs.length := by omega
      rw [hm] at key ⊢
      exact key

end Verif.Lzo
