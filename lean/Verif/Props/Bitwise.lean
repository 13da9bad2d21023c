import Verif.Tremor.BitwiseLemmas
/-!
C124: the bit reader of tremor gives the bits of the data in order, however the data is cut into fragments.
-/
namespace Verif.Tremor
open Verif Verif.Mkv

/-! ## C124 -/

/-- A call of `oggpack_read`, `oggpack_look` or `oggpack_adv`. -/
inductive Op where
  | read (n : Nat)
  | look (n : Nat)
  | adv (n : Nat)
deriving DecidableEq, Repr

/-- The number of bits a call is about. -/
def Op.bits : Op → Nat
  | .read n => n
  | .look n => n
  | .adv n => n

/-- A call on the reader: its result (`ok 0` for `oggpack_adv`, which has none) and the reader afterwards. -/
def call (r : Reader) : Op → Out Nat × Reader
  | .read n => read r n
  | .look n => (look r n, r)
  | .adv n => (.ok 0, adv r n)

/-- A sequence of calls. -/
def calls (r : Reader) : List Op → List (Out Nat) × Reader
  | [] => ([], r)
  | o :: os => ((call r o).1 :: (calls (call r o).2 os).1, (calls (call r o).2 os).2)

/-- What is expected: the state is a position in the bits of `data`, least bit of the first byte first, or `none` once a call
went beyond the end. -/
def expect (data : List Nat) (st : Option Nat) (o : Op) : Out Nat × Option Nat :=
  match st with
  | none => (match o with | .adv _ => .ok 0 | _ => .err, none)
  | some p =>
    if p + o.bits ≤ 8 * data.length then
      match o with
      | .read n => (.ok (le data / 2 ^ p % 2 ^ n), some (p + n))
      | .look n => (.ok (le data / 2 ^ p % 2 ^ n), some p)
      | .adv n => (.ok 0, some (p + n))
    else
      match o with
      | .read _ => (.err, none)
      | .look _ => (.err, some p)
      | .adv _ => (.ok 0, none)

def expects (data : List Nat) (st : Option Nat) : List Op → List (Out Nat) × Option Nat
  | [] => ([], st)
  | o :: os => ((expect data st o).1 :: (expects data (expect data st o).2 os).1, (expects data (expect data st o).2 os).2)

/-- A reader and what it stands for. -/
def Stands (r : Reader) (data : List Nat) : Option Nat → Prop
  | none => Off r data
  | some p => Rep r data p

theorem shift_data (pre post : List Nat) (bit n : Nat) (hp : ∀ b ∈ pre, b < 256) :
    le (pre ++ post) / 2 ^ (8 * pre.length + bit) % 2 ^ n = le post / 2 ^ bit % 2 ^ n := by
  have h0 : le pre / 2 ^ (8 * pre.length) = 0 := Nat.div_eq_of_lt (by rw [← pow256]; exact le_lt pre hp)
  rw [Nat.pow_add, ← Nat.div_div_eq_div_mul, le_append, pow256, Nat.add_mul_div_left _ _ (Nat.two_pow_pos _), h0, Nat.zero_add]

theorem expect_read (data : List Nat) (p n : Nat) : expect data (some p) (.read n) =
    if p + n ≤ 8 * data.length then (.ok (le data / 2 ^ p % 2 ^ n), some (p + n)) else (.err, none) := rfl

theorem expect_look (data : List Nat) (p n : Nat) : expect data (some p) (.look n) =
    if p + n ≤ 8 * data.length then (.ok (le data / 2 ^ p % 2 ^ n), some p) else (.err, some p) := rfl

theorem expect_adv (data : List Nat) (p n : Nat) : expect data (some p) (.adv n) =
    if p + n ≤ 8 * data.length then (.ok 0, some (p + n)) else (.ok 0, none) := rfl

theorem off_halt (r : Reader) (data : List Nat) (h : Off r data) : halt r = r := by
  obtain ⟨h1, h2, h3, _⟩ := h
  cases r
  simp only at h1 h2 h3
  simp [halt, h1, h2, h3]

theorem call_spec (data : List Nat) (hd : ∀ b ∈ data, b < 256) (r : Reader) (st : Option Nat) (h : Stands r data st) (o : Op)
    (ho : o.bits ≤ 32) : (call r o).1 = (expect data st o).1 ∧ Stands (call r o).2 data (expect data st o).2 := by
  cases st with
  | none =>
    have hh := off_halt r data h
    have hs := h.stop
    cases o with
    | read n => simp only [call, read, hs, if_true]; exact ⟨rfl, h⟩
    | look n => simp only [call, look, hs, if_true]; exact ⟨rfl, h⟩
    | adv n => simp only [call, adv, hs, if_true]; rw [hh]; exact ⟨rfl, h⟩
  | some p =>
    have hrep : Rep r data p := h
    obtain ⟨run, bit8, off, ⟨pre0, hsp0, hpl0⟩, hpos, here⟩ := hrep
    obtain ⟨pre, hpe⟩ : ∃ pre, pre = pre0 ++ r.frag.take r.off := ⟨_, rfl⟩
    have hsp : data = pre ++ (r.frag.drop r.off ++ r.rest.flatten) := by rw [hpe]; exact split_at _ _ _ _ _ hsp0
    have hpl : pre.length = r.count + r.off := by rw [hpe]; simp [hpl0]; omega
    have hdl : data.length = r.count + r.off + (r.frag.drop r.off ++ r.rest.flatten).length := by rw [hsp, List.length_append, hpl]
    have hpre : ∀ b ∈ pre, b < 256 := fun b hb => hd b (by rw [hsp]; simp [hb])
    have hrem : ∀ b ∈ r.frag.drop r.off ++ r.rest.flatten, b < 256 := fun b hb => hd b (by rw [hsp]; exact List.mem_append_right _ hb)
    have hval (n : Nat) : le data / 2 ^ p % 2 ^ n = le (r.frag.drop r.off ++ r.rest.flatten) / 2 ^ r.bit % 2 ^ n := by
      rw [hpos, ← hpl]
      conv => lhs; rw [hsp]
      exact shift_data pre _ r.bit n hpre
    have hleft : r.left = (r.frag.drop r.off).length := by simp [Reader.left]
    have hcur : (r.frag.drop r.off).length ≤ (r.frag.drop r.off ++ r.rest.flatten).length := by simp
    -- what one fragment gives
    have fast (n : Nat) (hn : n ≤ 32) (hf : ¬ r.left * 8 ≤ n + r.bit) :
        ∃ v, gather r.frag r.off r.bit (n + r.bit) 5 0 0 = some v ∧ v &&& mask n = le data / 2 ^ p % 2 ^ n := by
      obtain ⟨j, g1, g2, g3⟩ := gather_spec r.frag r.off r.bit (n + r.bit) bit8 (by omega)
        (fun b hb => hrem b (List.mem_append_left _ hb)) (by omega) 5 0 (by omega) (by omega)
      refine ⟨_, by simpa [le] using g1, ?_⟩
      rw [hval]
      have e : r.frag.drop r.off ++ r.rest.flatten = (r.frag.drop r.off).take j ++ ((r.frag.drop r.off).drop j ++ r.rest.flatten) := by
        rw [← List.append_assoc, List.take_append_drop]
      rw [e]
      exact bits_enough _ _ _ _ (by rw [List.length_take, Nat.min_eq_left g3]; exact g2)
    cases o with
    | read n =>
      simp only [Op.bits] at ho
      rw [expect_read]
      simp only [call, read, run, Bool.false_eq_true, if_false]
      by_cases hs : r.left * 8 ≤ n + r.bit
      · rw [if_pos hs]
        have hmid : Mid r data (pre.length + 0) := ⟨run, off, ⟨pre0, hsp0, hpl0⟩, by omega, fun hh => (here hh).1⟩
        obtain ⟨s1, s2⟩ := readSlow_spec data pre (n + r.bit) r.bit bit8 (by omega) hd 5 0 r [] (r.frag.drop r.off ++ r.rest.flatten)
          (by omega) hmid rfl (by rw [List.append_nil]; exact hsp) rfl (by omega)
        simp only [le, Nat.zero_shiftRight] at s1 s2
        by_cases hfit : p + n ≤ 8 * data.length
        · rw [if_pos hfit]
          obtain ⟨used, r', post, e1, e2, e3, e4, e5, e6⟩ := s1 (by omega)
          rw [e1]
          simp only
          constructor
          · congr 1
            rw [hval]
            have e : r.frag.drop r.off ++ r.rest.flatten = used ++ post := by
              rw [e2, List.append_assoc] at hsp
              exact (List.append_inj hsp rfl).2.symm
            rw [e]
            exact bits_enough used post r.bit n e3
          · obtain ⟨m1, m2, m3, m4, m5⟩ := e4
            exact ⟨m1, Nat.mod_lt _ (by omega), m2, m3, by show p + n = 8 * (r'.count + r'.off) + (n + r.bit) % 8; omega,
              fun hh => ⟨m5 hh, by
                show (n + r.bit) % 8 = 0
                by_cases hz : (n + r.bit) % 8 = 0
                · exact hz
                · have := e6 hz; have hh' : r'.off = r'.frag.length := hh; omega⟩⟩
        · rw [if_neg hfit]
          obtain ⟨r', e1, e2⟩ := s2 (by omega)
          rw [e1]
          exact ⟨rfl, e2⟩
      · rw [if_neg hs]
        obtain ⟨v, g1, g2⟩ := fast n ho hs
        rw [g1, if_pos (by omega)]
        simp only
        refine ⟨by rw [g2], rfl, Nat.mod_lt _ (by omega), ?_, ⟨pre0, hsp0, hpl0⟩, ?_, ?_⟩
        · show r.off + (n + r.bit) / 8 ≤ r.frag.length
          unfold Reader.left at hs; omega
        · show p + n = 8 * (r.count + (r.off + (n + r.bit) / 8)) + (n + r.bit) % 8
          omega
        · intro hh
          have hh' : r.off + (n + r.bit) / 8 = r.frag.length := hh
          unfold Reader.left at hs; omega
    | look n =>
      simp only [Op.bits] at ho
      rw [expect_look]
      simp only [call, look, run, Bool.false_eq_true, if_false]
      by_cases hs : r.left * 8 ≤ n + r.bit
      · rw [if_pos hs]
        obtain ⟨s1, s2⟩ := lookSlow_spec r.bit (n + r.bit) bit8 (by omega) 5 0 [] (r.frag.drop r.off) r.rest (by omega) rfl
          (by simpa using hrem)
        simp only [le, Nat.zero_shiftRight, List.nil_append] at s1 s2
        by_cases hfit : p + n ≤ 8 * data.length
        · rw [if_pos hfit]
          obtain ⟨used, post, e1, e2, e3⟩ := s1 (by omega)
          rw [e1]
          simp only
          refine ⟨?_, h⟩
          congr 1
          rw [hval, e2]
          exact bits_enough used post r.bit n e3
        · rw [if_neg hfit, s2 (by omega)]
          exact ⟨rfl, h⟩
      · rw [if_neg hs]
        obtain ⟨v, g1, g2⟩ := fast n ho hs
        rw [g1, if_pos (by omega)]
        simp only
        exact ⟨by rw [g2], h⟩
    | adv n =>
      simp only [Op.bits] at ho
      rw [expect_adv]
      simp only [call, adv, run, Bool.false_eq_true, if_false]
      by_cases hs : r.left < (n + r.bit) / 8 + 1
      · rw [if_pos hs]
        obtain ⟨s1, s2⟩ := span_spec r.rest r.count r.frag (r.off + (n + r.bit) / 8) ((n + r.bit) % 8) data pre0
          (Nat.mod_lt _ (by omega)) hsp0 hpl0
        rw [show 8 * (r.count + (r.off + (n + r.bit) / 8)) + (n + r.bit) % 8 = p + n by omega] at s1 s2
        by_cases hfit : p + n ≤ 8 * data.length
        · rw [if_pos hfit]; exact ⟨rfl, s1 hfit⟩
        · rw [if_neg hfit]; exact ⟨rfl, s2 (by omega)⟩
      · rw [if_neg hs, if_pos (by omega)]
        unfold Reader.left at hs
        refine ⟨rfl, rfl, Nat.mod_lt _ (by omega), ?_, ⟨pre0, hsp0, hpl0⟩, ?_, ?_⟩
        · show r.off + (n + r.bit) / 8 ≤ r.frag.length
          omega
        · show p + n = 8 * (r.count + (r.off + (n + r.bit) / 8)) + (n + r.bit) % 8
          omega
        · intro hh
          have hh' : r.off + (n + r.bit) / 8 = r.frag.length := hh
          omega

theorem calls_spec (data : List Nat) (hd : ∀ b ∈ data, b < 256) (os : List Op) : ∀ (r : Reader) (st : Option Nat),
    Stands r data st → (∀ o ∈ os, o.bits ≤ 32) →
    (calls r os).1 = (expects data st os).1 ∧ Stands (calls r os).2 data (expects data st os).2 := by
  induction os with
  | nil => intro r st h _; exact ⟨rfl, h⟩
  | cons o os ih =>
    intro r st h ho
    obtain ⟨a1, a2⟩ := call_spec data hd r st h o (ho o List.mem_cons_self)
    obtain ⟨b1, b2⟩ := ih _ _ a2 fun x hx => ho x (List.mem_cons_of_mem _ hx)
    exact ⟨by simp only [calls, expects, a1, b1], b2⟩

/-- Any sequence of calls for at most 32 bits each gives what is expected of the joined fragments, in particular never reads
outside a fragment; afterwards the end is reported exactly if a call went beyond it, and the position is right. -/
theorem C124_bits_in_order (f : List Nat) (fs : List (List Nat)) (os : List Op) (hb : ∀ b ∈ f ++ fs.flatten, b < 256)
    (ho : ∀ o ∈ os, o.bits ≤ 32) :
    (calls (readInit f fs) os).1 = (expects (f ++ fs.flatten) (some 0) os).1 ∧
    eop (calls (readInit f fs) os).2 = (expects (f ++ fs.flatten) (some 0) os).2.isNone ∧
    bitsRead (calls (readInit f fs) os).2 = (expects (f ++ fs.flatten) (some 0) os).2.getD (8 * (f ++ fs.flatten).length) ∧
    bytesRead (calls (readInit f fs) os).2 = (bitsRead (calls (readInit f fs) os).2 + 7) / 8 := by
  have h0 : Stands (readInit f fs) (f ++ fs.flatten) (some 0) :=
    (span_spec fs 0 f 0 0 (f ++ fs.flatten) [] (by omega) rfl rfl).1 (by omega)
  obtain ⟨h1, h2⟩ := calls_spec _ hb os _ _ h0 ho
  refine ⟨h1, ?_, ?_, ?_⟩
  · cases hx : (expects (f ++ fs.flatten) (some 0) os).2 with
    | none => rw [hx] at h2; exact h2.stop
    | some p => rw [hx] at h2; exact h2.run
  · cases hx : (expects (f ++ fs.flatten) (some 0) os).2 with
    | none =>
      rw [hx] at h2
      have e1 := h2.bit
      have e2 := h2.cnt
      simp only [bitsRead, Option.getD_none]; omega
    | some p =>
      rw [hx] at h2
      have e1 := h2.pos
      simp only [bitsRead, Option.getD_some]; omega
  · simp only [bytesRead, bitsRead]
    omega

/-- A byte and a half, the rest of the second byte over an empty fragment, and beyond the end. -/
example : (calls (readInit [0xA5, 0x3C] [[], [0x01]]) [.read 12, .look 5, .adv 4, .read 8, .read 1, .look 0]).1 =
    [.ok 0xCA5, .ok 0x13, .ok 0, .ok 1, .err, .err] := by decide

end Verif.Tremor
