import Verif.Bzip.Bits
import Verif.Bzip.Huffman
import Verif.Bzip.Spec
/-!
The bit reader of the bzip2 decoder against a list of bits, and the two notions the proofs use: `Reads` (a step reads exactly these bits and
gives this value) and `Safe` (a step never leaves an array, never hangs and uses up at least so many bits).
-/
namespace Verif.Bzip
open Verif Verif.Mkv

@[simp] theorem length_toBits (n v : Nat) : (toBits n v).length = n := by
  induction n with
  | zero => rfl
  | succ n ih => simp [toBits, ih]

theorem toBits_add (a b v : Nat) : toBits (a + b) v = toBits a (v / 2 ^ b) ++ toBits b v := by
  induction a with
  | zero => simp [toBits]
  | succ a ih =>
    rw [show a + 1 + b = (a + b) + 1 from by omega]
    simp only [toBits, ih, List.cons_append]
    rw [Nat.testBit_div_two_pow]

theorem toBits_congr (n v w : Nat) (h : v % 2 ^ n = w % 2 ^ n) : toBits n v = toBits n w := by
  induction n with
  | zero => rfl
  | succ n ih =>
    have e : ∀ x : Nat, (x % 2 ^ (n + 1)).testBit n = x.testBit n := by
      intro x
      rw [Nat.testBit_mod_two_pow]
      simp
    have h2 : v % 2 ^ n = w % 2 ^ n := by
      have : v % 2 ^ (n + 1) % 2 ^ n = w % 2 ^ (n + 1) % 2 ^ n := by rw [h]
      rwa [Nat.mod_mod_of_dvd _ (Nat.pow_dvd_pow 2 (Nat.le_succ n)), Nat.mod_mod_of_dvd _ (Nat.pow_dvd_pow 2 (Nat.le_succ n))] at this
    simp only [toBits]
    rw [ih h2, ← e v, ← e w, h]

theorem ofBits_cons (b : Bool) (l : List Bool) : ofBits (b :: l) = b.toNat * 2 ^ l.length + ofBits l := by
  have key : ∀ (l : List Bool) (a : Nat), l.foldl (fun a b => 2 * a + b.toNat) a = a * 2 ^ l.length + ofBits l := by
    intro l
    induction l with
    | nil => intro a; simp [ofBits]
    | cons c l ih =>
      intro a
      have e : ofBits (c :: l) = c.toNat * 2 ^ l.length + ofBits l := by
        show l.foldl _ (2 * 0 + c.toNat) = _
        rw [ih, Nat.mul_zero, Nat.zero_add]
      rw [List.foldl_cons, ih, e, List.length_cons, Nat.pow_succ, Nat.add_mul, Nat.add_assoc]
      congr 1
      rw [Nat.mul_comm 2 a, Nat.mul_assoc, Nat.mul_comm 2]
  show l.foldl _ (2 * 0 + b.toNat) = _
  rw [key, Nat.mul_zero, Nat.zero_add]

theorem ofBits_toBits (n v : Nat) : ofBits (toBits n v) = v % 2 ^ n := by
  induction n with
  | zero => simp [toBits, ofBits, Nat.mod_one]
  | succ n ih =>
    simp only [toBits]
    rw [ofBits_cons, ih, length_toBits, Nat.pow_succ, Nat.mod_mul, Nat.add_comm]
    congr 1
    rw [Nat.testBit_eq_decide_div_mod_eq, Nat.mul_comm]
    have : v / 2 ^ n % 2 < 2 := Nat.mod_lt _ (by omega)
    by_cases h : v / 2 ^ n % 2 = 1
    · simp [h]
    · rw [show v / 2 ^ n % 2 = 0 from by omega]; simp

theorem ofBits_lt (l : List Bool) : ofBits l < 2 ^ l.length := by
  induction l with
  | nil => simp [ofBits]
  | cons b l ih =>
    rw [ofBits_cons, List.length_cons, Nat.pow_succ]
    have : b.toNat ≤ 1 := Bool.toNat_le b
    have : b.toNat * 2 ^ l.length ≤ 1 * 2 ^ l.length := Nat.mul_le_mul_right _ this
    omega

theorem ofBits_append (a b : List Bool) : ofBits (a ++ b) = ofBits a * 2 ^ b.length + ofBits b := by
  induction a with
  | nil => simp [ofBits]
  | cons x a ih =>
    rw [List.cons_append, ofBits_cons, ofBits_cons, ih, List.length_append, Nat.pow_add, Nat.add_mul, Nat.add_assoc, Nat.mul_assoc]

/-- The bits still to be read. -/
def Rd.bits (r : Rd) : List Bool := toBits r.live r.buff ++ r.inp.flatMap (toBits 8)

/-- At most seven bits are kept, the input has bytes. -/
structure Rd.Good (r : Rd) : Prop where
  live : r.live ≤ 7
  bytes : ∀ b ∈ r.inp, b < 256

theorem Rd.bits_length (r : Rd) : r.bits.length = r.left := by
  simp only [Rd.bits, Rd.left, List.length_append, length_toBits]
  congr 1
  induction r.inp with
  | nil => rfl
  | cons b l ih => simp only [List.flatMap_cons, List.length_append, length_toBits, ih, List.length_cons]; omega

theorem push_byte (buff live b : Nat) (hb : b < 256) (hl : live + 8 ≤ 32) :
    toBits (live + 8) ((buff <<< 8 ||| b) % 2 ^ 32) = toBits live buff ++ toBits 8 b := by
  rw [← Nat.shiftLeft_add_eq_or_of_lt (by simpa using hb), Nat.shiftLeft_eq]
  have e : toBits (live + 8) ((buff * 2 ^ 8 + b) % 2 ^ 32) = toBits (live + 8) (buff * 2 ^ 8 + b) :=
    toBits_congr _ _ _ (by rw [Nat.mod_mod_of_dvd _ (Nat.pow_dvd_pow 2 hl)])
  rw [e, toBits_add]
  congr 1
  · congr 1
    omega
  · exact toBits_congr _ _ _ (by omega)

theorem getLoop_spec (n : Nat) (hn : n ≤ 25) (inp : List Nat) (hb : ∀ b ∈ inp, b < 256) :
    ∀ buff live, live ≤ 7 ∨ live < n + 8 →
      let bits := toBits live buff ++ inp.flatMap (toBits 8)
      if n ≤ bits.length then
        ∃ r' : Rd, getLoop n inp buff live = .ok (ofBits (bits.take n), r') ∧ r'.Good ∧ r'.bits = bits.drop n
      else getLoop n inp buff live = .err := by
  induction inp with
  | nil =>
    intro buff live hl bits
    unfold getLoop
    have hlen : bits.length = live := by simp [bits]
    by_cases h : n ≤ live
    · rw [if_pos (by omega), if_pos h]
      have e : bits = toBits n (buff / 2 ^ (live - n)) ++ toBits (live - n) buff := by
        rw [← toBits_add, show n + (live - n) = live from by omega]; simp [bits]
      refine ⟨⟨buff, live - n, _⟩, ?_, ⟨?_, hb⟩, ?_⟩
      · rw [e, List.take_append_of_le_length (by simp), List.take_of_length_le (by simp), ofBits_toBits, Nat.shiftRight_eq_div_pow]
      · simp only; omega
      · rw [e, List.drop_append_of_le_length (by simp), List.drop_of_length_le (by simp)]
        simp [Rd.bits]
    · rw [if_neg (by omega), if_neg h]
  | cons b inp ih =>
    intro buff live hl bits
    unfold getLoop
    by_cases h : n ≤ live
    · have hlen : live ≤ bits.length := by simp [bits]
      rw [if_pos (by omega), if_pos h]
      have e : bits = toBits n (buff / 2 ^ (live - n)) ++ (toBits (live - n) buff ++ (b :: inp).flatMap (toBits 8)) := by
        rw [← List.append_assoc, ← toBits_add, show n + (live - n) = live from by omega]
      refine ⟨⟨buff, live - n, _⟩, ?_, ⟨?_, hb⟩, ?_⟩
      · rw [e, List.take_append_of_le_length (by simp), List.take_of_length_le (by simp), ofBits_toBits, Nat.shiftRight_eq_div_pow]
      · simp only; omega
      · rw [e, List.drop_append_of_le_length (by simp), List.drop_of_length_le (by simp)]
        simp [Rd.bits]
    · rw [if_neg h]
      have hb0 := hb b (by simp)
      have := ih (fun x hx => hb x (by simp [hx])) ((buff <<< 8 ||| b) % 2 ^ 32) (live + 8) (by omega)
      simp only at this
      rw [push_byte _ _ _ hb0 (by omega), List.append_assoc] at this
      simpa [bits] using this

theorem getBits_ok (n : Nat) (hn : n ≤ 25) (r : Rd) (hr : r.Good) (h : n ≤ r.left) :
    ∃ r', getBits n r = .ok (ofBits (r.bits.take n), r') ∧ r'.Good ∧ r'.bits = r.bits.drop n := by
  have := getLoop_spec n hn r.inp hr.bytes r.buff r.live (Or.inl hr.live)
  simp only at this
  rw [if_pos (by rw [show (toBits r.live r.buff ++ r.inp.flatMap (toBits 8)) = r.bits from rfl, r.bits_length]; exact h)] at this
  exact this

theorem getBits_err (n : Nat) (hn : n ≤ 25) (r : Rd) (hr : r.Good) (h : r.left < n) : getBits n r = .err := by
  have := getLoop_spec n hn r.inp hr.bytes r.buff r.live (Or.inl hr.live)
  simp only at this
  rwa [if_neg (by rw [show (toBits r.live r.buff ++ r.inp.flatMap (toBits 8)) = r.bits from rfl, r.bits_length]; omega)] at this

/-! ### `Reads` -/

/-- `p` reads exactly `bits` and gives `a`. -/
def Reads {α : Type} (p : P α) (bits : List Bool) (a : α) : Prop :=
  ∀ r : Rd, r.Good → ∀ rest, r.bits = bits ++ rest → ∃ r' : Rd, p r = .ok (a, r') ∧ r'.Good ∧ r'.bits = rest

theorem Reads.pure {α : Type} (a : α) : Reads (pure a) [] a := fun r hr rest h => ⟨r, rfl, hr, by simpa using h⟩

theorem Reads.bind {α β : Type} {p : P α} {f : α → P β} {x y : List Bool} {a : α} {b : β} (h1 : Reads p x a) (h2 : Reads (f a) y b) :
    Reads (p >>= f) (x ++ y) b := by
  intro r hr rest h
  rw [List.append_assoc] at h
  obtain ⟨r1, e1, g1, b1⟩ := h1 r hr _ h
  obtain ⟨r2, e2, g2, b2⟩ := h2 r1 g1 _ b1
  refine ⟨r2, ?_, g2, b2⟩
  show (p r).bind _ = _
  rw [e1]
  exact e2

/-- The same with the bits given up to equality. -/
theorem Reads.seq {α β : Type} {p : P α} {f : α → P β} {x y z : List Bool} {a : α} {b : β} (h1 : Reads p x a) (h2 : Reads (f a) y b)
    (hz : z = x ++ y) : Reads (p >>= f) z b := hz ▸ h1.bind h2

theorem Reads.lift {α : Type} {x : Out α} {a : α} (h : x = .ok a) : Reads (lift x) [] a := by
  intro r hr rest hb
  refine ⟨r, ?_, hr, by simpa using hb⟩
  simp [Bzip.lift, h, Out.bind]

theorem Reads.withFuel {α : Type} {p : Nat → P α} {bits : List Bool} {a : α} (h : ∀ n, bits.length < n → Reads (p n) bits a) :
    Reads (withFuel p) bits a := by
  intro r hr rest hb
  refine h (r.left + 1) ?_ r hr rest hb
  rw [← r.bits_length, hb, List.length_append]
  omega

theorem Reads.getBits (n v : Nat) (hn : n ≤ 25) (hv : v < 2 ^ n) : Reads (getBits n) (toBits n v) v := by
  intro r hr rest h
  obtain ⟨r', e, g, b⟩ := getBits_ok n hn r hr (by rw [← r.bits_length, h]; simp)
  refine ⟨r', ?_, g, ?_⟩
  · rw [e, h, List.take_append_of_le_length (by simp), List.take_of_length_le (by simp), ofBits_toBits, Nat.mod_eq_of_lt hv]
  · rw [b, h, List.drop_append_of_le_length (by simp), List.drop_of_length_le (by simp)]; rfl

theorem Reads.getBit (b : Bool) : Reads getBit [b] b.toNat := by
  have := Reads.getBits 1 b.toNat (by omega) (by have := Bool.toNat_le b; omega)
  have e : toBits 1 b.toNat = [b] := by cases b <;> rfl
  rwa [e] at this

theorem Reads.times {α : Type} {p : P α} {l : List (List Bool × α)} (h : ∀ x ∈ l, Reads p x.1 x.2) :
    Reads (times p l.length) (l.flatMap Prod.fst) (l.map Prod.snd) := by
  induction l with
  | nil => exact Reads.pure _
  | cons x l ih =>
    simp only [List.length_cons, Bzip.times, List.flatMap_cons, List.map_cons]
    refine Reads.bind (h x (by simp)) (Reads.seq (ih fun y hy => h y (by simp [hy])) (Reads.pure _) (by simp))

theorem Reads.expect (b : Nat) (hb : b < 256) : Reads (expect b) (toBits 8 b) () := by
  refine Reads.seq (Reads.getBits 8 b (by omega) (by simpa using hb)) ?_ (List.append_nil _).symm
  rw [if_pos rfl]
  exact Reads.pure _

theorem Reads.getWord (n : Nat) : ∀ a v, v < 2 ^ (8 * n) → Reads (getWord n a) (toBits (8 * n) v) (a * 2 ^ (8 * n) + v) := by
  induction n with
  | zero =>
            intro a v hv
            have h0 : v = 0 := by simpa using hv
            subst h0; simpa [toBits, Bzip.getWord] using Reads.pure a
  | succ n ih =>
    intro a v hv
    have hp : (2 : Nat) ^ (8 * (n + 1)) = 256 * 2 ^ (8 * n) := by
      rw [show 8 * (n + 1) = 8 + 8 * n from by omega, Nat.pow_add]
    have hd : v / 2 ^ (8 * n) < 256 := Nat.div_lt_of_lt_mul (by rw [Nat.mul_comm]; omega)
    have hm : v % 2 ^ (8 * n) < 2 ^ (8 * n) := Nat.mod_lt _ (Nat.two_pow_pos _)
    have := ih (a * 256 + v / 2 ^ (8 * n)) (v % 2 ^ (8 * n)) hm
    have h2 := Reads.bind (Reads.getBits 8 (v / 2 ^ (8 * n)) (by omega) (by simpa using hd)) (f := fun uc => Bzip.getWord n (a * 256 + uc)) this
    have e1 : toBits 8 (v / 2 ^ (8 * n)) ++ toBits (8 * n) (v % 2 ^ (8 * n)) = toBits (8 * (n + 1)) v := by
      rw [show 8 * (n + 1) = 8 + 8 * n from by omega, toBits_add]
      congr 1
      exact toBits_congr _ _ _ (Nat.mod_mod _ _)
    have e2 : (a * 256 + v / 2 ^ (8 * n)) * 2 ^ (8 * n) + v % 2 ^ (8 * n) = a * 2 ^ (8 * (n + 1)) + v := by
      rw [hp, Nat.add_mul, Nat.mul_assoc, Nat.add_assoc]
      congr 1
      rw [Nat.mul_comm]
      exact Nat.div_add_mod _ _
    rw [e1, e2] at h2
    exact h2

/-! ### `Safe` -/

/-- A result of reading from `r` on is neither an access outside of an array nor a hang, a value is as `Q` says, and at least `k` bits are gone
then from the front. -/
def OkAt {α : Type} (k : Nat) (x : Out (α × Rd)) (r : Rd) (Q : α → Prop) : Prop :=
  match x with
  | .ok (a, r') => r'.Good ∧ r'.left + k ≤ r.left ∧ Q a ∧ r'.bits <:+ r.bits
  | .err => True
  | .bad => False
  | .hang => False

/-- `p` is so from everywhere. -/
def Safe {α : Type} (k : Nat) (p : P α) (Q : α → Prop) : Prop := ∀ r : Rd, r.Good → OkAt k (p r) r Q

theorem Safe.pure {α : Type} {a : α} {Q : α → Prop} (h : Q a) : Safe 0 (pure a) Q := fun r hr => ⟨hr, Nat.le_refl _, h, List.suffix_refl _⟩

theorem Safe.fail {α : Type} {k : Nat} {Q : α → Prop} : Safe k (fail : P α) Q := fun _ _ => trivial

theorem OkAt.bind {α β : Type} {i j k : Nat} {p : P α} {f : α → P β} {Q : α → Prop} {R : β → Prop} {r : Rd} (h1 : OkAt i (p r) r Q)
    (h2 : ∀ a r', r'.Good → r'.left + i ≤ r.left → Q a → OkAt j (f a r') r' R) (hk : k ≤ i + j) : OkAt k ((p >>= f) r) r R := by
  show OkAt k ((p r).bind fun x => f x.1 x.2) r R
  cases e : p r with
  | ok x =>
    obtain ⟨a, r1⟩ := x
    rw [e] at h1
    have a2 := h2 a r1 h1.1 h1.2.1 h1.2.2.1
    simp only [Out.bind]
    cases e2 : f a r1 with
    | ok y => rw [e2] at a2; exact ⟨a2.1, by have := h1.2.1; have := a2.2.1; omega, a2.2.2.1, a2.2.2.2.trans h1.2.2.2⟩
    | err => trivial
    | bad => rw [e2] at a2; exact a2
    | hang => rw [e2] at a2; exact a2
  | err => trivial
  | bad => rw [e] at h1; exact h1
  | hang => rw [e] at h1; exact h1

theorem OkAt.weaken {α : Type} {j k : Nat} {x : Out (α × Rd)} {r : Rd} {Q R : α → Prop} (h : OkAt j x r Q) (hk : k ≤ j) (hq : ∀ a, Q a → R a) :
    OkAt k x r R := by
  cases x with
  | ok x => exact ⟨h.1, by have := h.2.1; omega, hq _ h.2.2.1, h.2.2.2⟩
  | err => trivial
  | bad => exact h
  | hang => exact h

theorem Safe.bind {α β : Type} {i j k : Nat} {p : P α} {f : α → P β} {Q : α → Prop} {R : β → Prop} (h1 : Safe i p Q)
    (h2 : ∀ a, Q a → Safe j (f a) R) (hk : k ≤ i + j := by omega) : Safe k (p >>= f) R :=
  fun r hr => OkAt.bind (h1 r hr) (fun a r' hr' _ ha => h2 a ha r' hr') hk

theorem Safe.weaken {α : Type} {j k : Nat} {p : P α} {Q R : α → Prop} (h : Safe j p Q) (hk : k ≤ j) (hq : ∀ a, Q a → R a) : Safe k p R :=
  fun r hr => (h r hr).weaken hk hq

theorem Safe.bind0 {α β : Type} {k : Nat} {p : P α} {f : α → P β} {Q : α → Prop} {R : β → Prop} (h1 : Safe k p Q)
    (h2 : ∀ a, Q a → Safe 0 (f a) R) : Safe k (p >>= f) R := Safe.bind h1 h2 (Nat.le_refl k)

/-- Less is used up than claimed. -/
theorem Safe.zero {α : Type} {k : Nat} {p : P α} {Q : α → Prop} (h : Safe k p Q) : Safe 0 p Q := h.weaken (Nat.zero_le _) fun _ h => h

theorem Safe.ite {α : Type} {k : Nat} {c : Prop} [Decidable c] {p q : P α} {Q : α → Prop} (h1 : c → Safe k p Q) (h2 : ¬c → Safe k q Q) :
    Safe k (if c then p else q) Q := by
  by_cases h : c
  · rw [if_pos h]; exact h1 h
  · rw [if_neg h]; exact h2 h

theorem Safe.getBits (n : Nat) (hn : n ≤ 25) : Safe n (getBits n) (· < 2 ^ n) := by
  intro r hr
  by_cases h : n ≤ r.left
  · obtain ⟨r', e, g, b⟩ := getBits_ok n hn r hr h
    rw [e]
    refine ⟨g, ?_, ?_, by rw [b]; exact List.drop_suffix _ _⟩
    · rw [← r'.bits_length, ← r.bits_length, b, List.length_drop, r.bits_length]; omega
    · have := ofBits_lt (r.bits.take n)
      rwa [List.length_take, r.bits_length, Nat.min_eq_left h] at this
  · rw [getBits_err n hn r hr (by omega)]
    trivial

theorem Safe.getBit : Safe 1 getBit (· < 2) := Safe.getBits 1 (by omega)

theorem Safe.times {α : Type} {p : P α} {Q : α → Prop} (h : Safe 0 p Q) (n : Nat) : Safe 0 (times p n) fun l => l.length = n ∧ ∀ x ∈ l, Q x := by
  induction n with
  | zero => exact Safe.pure ⟨rfl, by simp⟩
  | succ n ih =>
    refine Safe.bind0 h fun a ha => Safe.bind0 ih fun l hl => Safe.pure ⟨by simp [hl.1], ?_⟩
    intro x hx
    rcases List.mem_cons.mp hx with rfl | hx
    · exact ha
    · exact hl.2 x hx

theorem Safe.expect (b : Nat) : Safe 8 (expect b) fun _ => True :=
  Safe.bind (i := 8) (j := 0) (Safe.getBits 8 (by omega)) fun _ _ => Safe.ite (fun _ => Safe.pure trivial) fun _ => Safe.fail

theorem Safe.getWord (n : Nat) : ∀ a, Safe 0 (getWord n a) fun v => v < (a + 1) * 2 ^ (8 * n) := by
  induction n with
  | zero => intro a; exact Safe.pure (by omega)
  | succ n ih =>
    intro a
    refine Safe.bind (i := 8) (j := 0) (Safe.getBits 8 (by omega)) fun uc hu => (ih _).weaken (Nat.le_refl 0) fun v hv => ?_
    have hp : (2 : Nat) ^ (8 * (n + 1)) = 256 * 2 ^ (8 * n) := by
      rw [show 8 * (n + 1) = 8 + 8 * n from by omega, Nat.pow_add]
    have : (a * 256 + uc + 1) * 2 ^ (8 * n) ≤ (a + 1) * 256 * 2 ^ (8 * n) := Nat.mul_le_mul_right _ (by omega)
    rw [hp, ← Nat.mul_assoc]
    omega

theorem Safe.lift {α : Type} {x : Out α} {Q : α → Prop} (h : match x with | .ok a => Q a | .err => True | _ => False) : Safe 0 (lift x) Q := by
  intro r hr
  cases x with
  | ok a => exact ⟨hr, Nat.le_refl _, h, List.suffix_refl _⟩
  | err => trivial
  | bad => exact h
  | hang => exact h

/-- A loop bounded by the bits that are left. -/
theorem Safe.withFuel {α : Type} {k : Nat} {p : Nat → P α} {Q : α → Prop} (h : ∀ f, ∀ r : Rd, r.Good → r.left < f → OkAt k (p f r) r Q) :
    Safe k (withFuel p) Q := fun r hr => h (r.left + 1) r hr (by omega)

end Verif.Bzip
