import Verif.Bzip.BlockLemmas
/-!
Whole streams: nothing goes wrong, what is accepted has its checksum, and a stream of the format gives its data.
-/
set_option linter.unusedSimpArgs false
namespace Verif.Bzip
open Verif Verif.Mkv

/-! ### Results -/

/-- Neither an access outside of an array nor a hang, and a value is as `Q` says. -/
def Fine {α : Type} (x : Out α) (Q : α → Prop) : Prop :=
  match x with
  | .ok a => Q a
  | .err => True
  | .bad => False
  | .hang => False

theorem Fine.bind {α β : Type} {x : Out α} {f : α → Out β} {Q : α → Prop} {R : β → Prop} (h1 : Fine x Q) (h2 : ∀ a, Q a → Fine (f a) R) : Fine (x.bind f) R := by
  cases x with
  | ok a => exact h2 a h1
  | err => trivial
  | bad => exact h1
  | hang => exact h1

theorem Fine.weaken {α : Type} {x : Out α} {Q R : α → Prop} (h : Fine x Q) (hq : ∀ a, Q a → R a) : Fine x R := by
  cases x with
  | ok a => exact hq a h
  | err => trivial
  | bad => exact h
  | hang => exact h

theorem OkAt.fine {α : Type} {k : Nat} {x : Out (α × Rd)} {r : Rd} {Q : α → Prop} (h : OkAt k x r Q) :
    Fine x fun y => y.2.Good ∧ y.2.left + k ≤ r.left ∧ Q y.1 ∧ y.2.bits <:+ r.bits := by
  cases x with
  | ok a => exact h
  | err => trivial
  | bad => exact h
  | hang => exact h

/-! ### What was read -/

/-- A value read tells the bits. -/
def Took {α : Type} (p : P α) (g : α → List Bool) (Q : α → Prop) : Prop :=
  ∀ r : Rd, r.Good → ∀ a r', p r = .ok (a, r') → r'.Good ∧ r.bits = g a ++ r'.bits ∧ Q a

theorem toBits_ofBits (l : List Bool) : toBits l.length (ofBits l) = l := by
  induction l with
  | nil => rfl
  | cons b l ih =>
    have hlt := ofBits_lt l
    rw [ofBits_cons, List.length_cons, toBits]
    have e : toBits l.length (b.toNat * 2 ^ l.length + ofBits l) = l := by
      conv => rhs; rw [← ih]
      apply toBits_congr
      rw [Nat.mul_comm, Nat.mul_add_mod]
    rw [e]
    congr 1
    rw [Nat.mul_comm, Nat.testBit_two_pow_mul_add _ hlt, if_neg (by omega), Nat.sub_self]
    cases b <;> rfl

theorem Took.getBits (n : Nat) (hn : n ≤ 25) : Took (getBits n) (toBits n) (· < 2 ^ n) := by
  intro r hr a r' h
  by_cases hl : n ≤ r.left
  · obtain ⟨r1, e, g, b⟩ := getBits_ok n hn r hr hl
    rw [e] at h
    obtain ⟨rfl, rfl⟩ := Prod.mk.inj (Out.ok.inj h)
    have hlen : (r.bits.take n).length = n := by rw [List.length_take, r.bits_length]; omega
    refine ⟨g, ?_, by have := ofBits_lt (r.bits.take n); rwa [hlen] at this⟩
    have := toBits_ofBits (r.bits.take n)
    rw [hlen] at this
    rw [this, b, List.take_append_drop]
  · rw [getBits_err n hn r hr (by omega)] at h
    cases h

theorem Took.seq {β : Type} {p : P Unit} {q : P β} {x : List Bool} {g : β → List Bool} {Q : β → Prop} (h1 : Took p (fun _ => x) fun _ => True)
    (h2 : Took q g Q) : Took (p >>= fun _ => q) (fun b => x ++ g b) Q := by
  intro r hr b r' h
  have h : ((p r).bind fun y => q y.2) = .ok (b, r') := h
  cases e : p r with
  | ok y =>
    rw [e] at h
    obtain ⟨g1, b1, _⟩ := h1 r hr y.1 y.2 e
    obtain ⟨g2, b2, hq⟩ := h2 y.2 g1 b r' h
    exact ⟨g2, by rw [b1, b2, List.append_assoc], hq⟩
  | err => rw [e] at h; cases h
  | bad => rw [e] at h; cases h
  | hang => rw [e] at h; cases h

theorem Took.expect (b : Nat) : Took (expect b) (fun _ => toBits 8 b) fun _ => True := by
  intro r hr a r' h
  have h : ((Bzip.getBits 8 r).bind fun y => (if y.1 = b then pure () else fail : P Unit) y.2) = .ok (a, r') := h
  cases e : Bzip.getBits 8 r with
  | ok y =>
    rw [e] at h
    obtain ⟨g1, b1, _⟩ := Took.getBits 8 (by omega) r hr y.1 y.2 e
    have h : (if y.1 = b then pure () else fail : P Unit) y.2 = .ok (a, r') := h
    by_cases hb : y.1 = b
    · rw [if_pos hb] at h
      obtain ⟨_, rfl⟩ := Prod.mk.inj (Out.ok.inj h)
      exact ⟨g1, by rw [b1, hb], trivial⟩
    · rw [if_neg hb] at h
      cases h
  | err => rw [e] at h; cases h
  | bad => rw [e] at h; cases h
  | hang => rw [e] at h; cases h

theorem Took.getWord (n : Nat) : ∀ v, Took (getWord n v) (fun w => toBits (8 * n) w) fun w => w / 2 ^ (8 * n) = v := by
  induction n with
  | zero =>
    intro v r hr a r' h
    obtain ⟨rfl, rfl⟩ := Prod.mk.inj (Out.ok.inj h)
    exact ⟨hr, rfl, by simp⟩
  | succ n ih =>
    intro v r hr a r' h
    have h : ((Bzip.getBits 8 r).bind fun y => Bzip.getWord n (v * 256 + y.1) y.2) = .ok (a, r') := h
    cases e : Bzip.getBits 8 r with
    | ok y =>
      rw [e] at h
      obtain ⟨g1, b1, hlt⟩ := Took.getBits 8 (by omega) r hr y.1 y.2 e
      obtain ⟨g2, b2, hw⟩ := ih _ y.2 g1 a r' h
      have hp : (2 : Nat) ^ (8 * (n + 1)) = 2 ^ (8 * n) * 256 := by
        rw [show 8 * (n + 1) = 8 * n + 8 from by omega, Nat.pow_add]
      refine ⟨g2, ?_, ?_⟩
      · show r.bits = toBits (8 * (n + 1)) a ++ r'.bits
        rw [show 8 * (n + 1) = 8 + 8 * n from by omega, toBits_add, hw, b1, b2, List.append_assoc]
        congr 1
        apply toBits_congr
        omega
      · show a / 2 ^ (8 * (n + 1)) = v
        rw [hp, ← Nat.div_div_eq_div_mul, hw]; omega
    | err => rw [e] at h; cases h
    | bad => rw [e] at h; cases h
    | hang => rw [e] at h; cases h

theorem Took.getEnd : Took getEnd (fun w => toBits 40 0x7245385090 ++ toBits 32 w) fun _ => True := by
  intro r hr a r' h
  have := Took.seq (Took.expect 0x72) (Took.seq (Took.expect 0x45) (Took.seq (Took.expect 0x38) (Took.seq (Took.expect 0x50) (Took.seq (Took.expect 0x90)
    (Took.getWord 4 0))))) r hr a r' h
  refine ⟨this.1, ?_, trivial⟩
  rw [this.2.1, show toBits 40 0x7245385090 = toBits 8 0x72 ++ (toBits 8 0x45 ++ (toBits 8 0x38 ++ (toBits 8 0x50 ++ toBits 8 0x90))) from by decide +kernel]
  simp only [List.append_assoc, Nat.reduceMul]

theorem Took.getBlockHead : Took getBlockHead (fun w => toBits 40 0x4159265359 ++ toBits 32 w) fun _ => True := by
  intro r hr a r' h
  have := Took.seq (Took.expect 0x41) (Took.seq (Took.expect 0x59) (Took.seq (Took.expect 0x26) (Took.seq (Took.expect 0x53) (Took.seq (Took.expect 0x59)
    (Took.getWord 4 0))))) r hr a r' h
  refine ⟨this.1, ?_, trivial⟩
  rw [this.2.1, show toBits 40 0x4159265359 = toBits 8 0x41 ++ (toBits 8 0x59 ++ (toBits 8 0x26 ++ (toBits 8 0x53 ++ toBits 8 0x59))) from by decide +kernel]
  simp only [List.append_assoc, Nat.reduceMul]

/-! ### Nothing goes wrong -/

/-- The head of a block with this checksum. -/
def heading (stored : Nat) : List Bool := toBits 48 0x314159265359 ++ toBits 32 stored

/-- The end of a stream with these blocks. -/
def trailer (done : List (List Nat)) : List Bool := toBits 48 0x177245385090 ++ toBits 32 ((done.map Spec.crc).foldl Spec.combine 0).toNat

theorem Safe.getEnd : Safe 0 getEnd fun _ => True := by
  unfold Bzip.getEnd
  refine Safe.bind0 (Safe.expect _).zero fun _ _ => ?_
  refine Safe.bind0 (Safe.expect _).zero fun _ _ => ?_
  refine Safe.bind0 (Safe.expect _).zero fun _ _ => ?_
  refine Safe.bind0 (Safe.expect _).zero fun _ _ => ?_
  refine Safe.bind0 (Safe.expect _).zero fun _ _ => ?_
  exact (Safe.getWord 4 0).weaken (Nat.le_refl 0) fun _ _ => trivial

theorem Safe.getBlockHead : Safe 0 getBlockHead fun _ => True := by
  unfold Bzip.getBlockHead
  refine Safe.bind0 (Safe.expect _).zero fun _ _ => ?_
  refine Safe.bind0 (Safe.expect _).zero fun _ _ => ?_
  refine Safe.bind0 (Safe.expect _).zero fun _ _ => ?_
  refine Safe.bind0 (Safe.expect _).zero fun _ _ => ?_
  refine Safe.bind0 (Safe.expect _).zero fun _ _ => ?_
  exact (Safe.getWord 4 0).weaken (Nat.le_refl 0) fun _ _ => trivial

theorem getBlock_fine (size : Nat) (hsize : size ≤ 9) (r : Rd) (hr : r.Good) : Fine (getBlock size r) fun y => y.2.Good ∧ y.2.left ≤ r.left ∧
    BlkOk size y.1.2.1 y.1.2.2 ∧ y.1.2.2.crc = 0xFFFFFFFF ∧ ∃ mid, r.bits = toBits 40 0x4159265359 ++ toBits 32 y.1.1 ++ mid ∧ y.2.bits <:+ mid := by
  show Fine ((getBlockHead r).bind fun y => blockBody size y.1 y.2) _
  have h2 := (Safe.getBlockHead r hr).fine
  cases e2 : Bzip.getBlockHead r with
  | err => trivial
  | bad => rw [e2] at h2; exact h2
  | hang => rw [e2] at h2; exact h2
  | ok z =>
    rw [e2] at h2
    obtain ⟨_, b2, _⟩ := Took.getBlockHead r hr z.1 z.2 e2
    refine (Safe.blockBody size hsize z.1 z.2 h2.1).fine.weaken fun y hy => ?_
    obtain ⟨g, l, ⟨q1, q2, q3⟩, s⟩ := hy
    have := h2.2.1
    exact ⟨g, by omega, q2, q3, z.2.bits, by rw [q1]; exact b2, s⟩

/-- What the head of a block or the end gives. -/
def Parsed (size : Nat) (crc : BitVec 32) (r : Rd) (y : Option DState × Rd) : Prop :=
  y.2.Good ∧ y.2.left + 8 ≤ r.left ∧ y.2.bits <:+ r.bits ∧
  (y.1 = none → r.bits = toBits 48 0x177245385090 ++ toBits 32 crc.toNat ++ y.2.bits) ∧
  (∀ s, y.1 = some s → ∃ stored b p, s = .output size crc stored b p ∧ BlkOk size b p ∧ p.crc = 0xFFFFFFFF ∧ ∃ mid, r.bits = heading stored ++ mid)

theorem parse_fine (size : Nat) (hsize : size ≤ 9) (crc : BitVec 32) (r : Rd) (hr : r.Good) : Fine (decompress.parse size crc r) (Parsed size crc r) := by
  show Fine ((getUchar r).bind fun y => _) _
  have h1 := (Safe.getBits 8 (by omega) r hr).fine
  cases e : getUchar r with
  | err => trivial
  | bad => rw [show getBits 8 r = getUchar r from rfl, e] at h1; exact h1
  | hang => rw [show getBits 8 r = getUchar r from rfl, e] at h1; exact h1
  | ok y =>
    rw [show getBits 8 r = getUchar r from rfl, e] at h1
    obtain ⟨uc, r1⟩ := y
    obtain ⟨g1, l1, _, s1⟩ := h1
    obtain ⟨_, b1, _⟩ := Took.getBits 8 (by omega) r hr uc r1 e
    simp only [Out.bind] at g1 l1 s1 ⊢
    by_cases h17 : uc = 0x17
    · rw [if_pos h17]
      show Fine ((Bzip.getEnd r1).bind fun y => _) _
      have h2 := (Safe.getEnd r1 g1).fine
      cases e2 : Bzip.getEnd r1 with
      | err => trivial
      | bad => rw [e2] at h2; exact h2
      | hang => rw [e2] at h2; exact h2
      | ok z =>
        rw [e2] at h2
        obtain ⟨stored, r2⟩ := z
        obtain ⟨_, b2, _⟩ := Took.getEnd r1 g1 stored r2 e2
        simp only [Out.bind] at h2 ⊢
        by_cases hc : crc.toNat = stored
        · rw [if_pos hc]
          refine ⟨h2.1, by have := h2.2.1; simp only at this ⊢; omega, h2.2.2.2.trans s1, fun _ => ?_, fun s hs => by cases hs⟩
          rw [b1, b2, h17, hc, show toBits 48 0x177245385090 = toBits 8 0x17 ++ toBits 40 0x7245385090 from by decide +kernel]
          simp only [List.append_assoc]
        · rw [if_neg hc]; trivial
    · rw [if_neg h17]
      by_cases h31 : uc = 0x31
      · rw [if_pos h31]
        show Fine ((getBlock size r1).bind fun y => _) _
        refine (getBlock_fine size hsize r1 g1).bind fun z hz => ?_
        obtain ⟨⟨stored, b, p⟩, r2⟩ := z
        obtain ⟨g2, l2, hq1, hq2, mid, hm, s2⟩ := hz
        have s3 : r2.bits <:+ r1.bits := by rw [hm]; exact s2.trans (List.suffix_append _ _)
        refine ⟨g2, by simp only at l2 ⊢; omega, s3.trans s1, (fun h => by cases h), fun s hs => ⟨stored, b, p, (Option.some.inj hs).symm, hq1, hq2, mid, ?_⟩⟩
        rw [b1, hm, h31, heading, show toBits 48 0x314159265359 = toBits 8 0x31 ++ toBits 40 0x4159265359 from by decide +kernel]
        simp only [List.append_assoc]
      · rw [if_neg h31]; trivial

theorem Safe.getHead : Safe 0 getHead fun s => s ≤ 9 := by
  unfold Bzip.getHead
  refine Safe.bind0 (Safe.expect _).zero fun _ _ => ?_
  refine Safe.bind0 (Safe.expect _).zero fun _ _ => ?_
  refine Safe.bind0 (Safe.expect _).zero fun _ _ => ?_
  exact Safe.bind0 (Safe.getBits 8 (by omega)).zero fun s _ => Safe.ite (fun _ => Safe.fail) fun h => Safe.pure (by omega)

/-- Somewhere in the input is the head of a block with this checksum. -/
def Holds (inp : List Bool) (stored : Nat) : Prop := ∃ pre mid, inp = pre ++ heading stored ++ mid

/-- How a state came about: blocks that are done, and what was put out of this one. -/
def Hist (inp : List Bool) (s : DState) (done : List (List Nat)) (cur : List Nat) : Prop :=
  match s with
  | .start => done = [] ∧ cur = []
  | .head size crc => size ≤ 9 ∧ cur = [] ∧ crc = (done.map Spec.crc).foldl Spec.combine 0 ∧ ∀ d ∈ done, Holds inp (Spec.crc d).toNat
  | .output size crc stored b p => size ≤ 9 ∧ BlkOk size b p ∧ (∀ d ∈ done, Holds inp (Spec.crc d).toNat) ∧ Holds inp stored ∧ crc = (done.map Spec.crc).foldl Spec.combine 0 ∧ p.crc = cur.foldl crcByte 0xFFFFFFFF ∧
      ∀ x ∈ cur, x < 256
  | .idle => False

/-- What a state may still put out. -/
def pend : DState → Nat
  | .output _ _ _ b p => pending b p
  | _ => 0

theorem blkOk_pending {size : Nat} (hsize : size ≤ 9) {b : Blk} {p : Pos} (h : BlkOk size b p) : pending b p < 300000000 := by
  obtain ⟨_, h2, h3, _, _, _, _, k, _, hA, hk⟩ := h
  have := hA.used
  rw [pending]; omega

theorem decompress_fine (inp : List Bool) (s : DState) (done : List (List Nat)) (cur : List Nat) (hH : Hist inp s done cur) (hs : ∀ a b c d e, s ≠ .output a b c d e) (r : Rd) (hr : r.Good) (hin : r.bits <:+ inp) :
    Fine (decompress s r) fun y => cur = [] ∧ (∀ d ∈ done, Holds inp (Spec.crc d).toNat) ∧ y.2.Good ∧ y.2.left + 8 ≤ r.left ∧ y.2.bits <:+ r.bits ∧
      (y.1 = none → ∃ pre, r.bits = pre ++ trailer done ++ y.2.bits) ∧
      (∀ s', y.1 = some s' → Hist inp s' done [] ∧ ∃ a b c d e, s' = .output a b c d e) := by
  have hparse : ∀ size crc r1, size ≤ 9 → crc = (done.map Spec.crc).foldl Spec.combine 0 → (∀ d ∈ done, Holds inp (Spec.crc d).toNat) → r1.Good → r1.left ≤ r.left → r1.bits <:+ r.bits → cur = [] →
      Fine (decompress.parse size crc r1) fun y => cur = [] ∧ (∀ d ∈ done, Holds inp (Spec.crc d).toNat) ∧ y.2.Good ∧ y.2.left + 8 ≤ r.left ∧ y.2.bits <:+ r.bits ∧
        (y.1 = none → ∃ pre, r.bits = pre ++ trailer done ++ y.2.bits) ∧
        (∀ s', y.1 = some s' → Hist inp s' done [] ∧ ∃ a b c d e, s' = .output a b c d e) := by
    intro size crc r1 hsize hcrc hdone g1 l1 s1 hcur
    refine (parse_fine size hsize crc r1 g1).weaken fun y hy => ?_
    obtain ⟨p1, p2, p3, p4, p5⟩ := hy
    refine ⟨hcur, hdone, p1, by omega, p3.trans s1, fun hn => ?_, fun s' hs' => ?_⟩
    · obtain ⟨pre, hpre⟩ := s1
      refine ⟨pre, ?_⟩
      rw [← hpre, p4 hn, trailer, ← hcrc]
      simp only [List.append_assoc]
    · obtain ⟨stored, b, p, rfl, hb, hc, mid, hmid⟩ := p5 s' hs'
      obtain ⟨pre, hpre⟩ := s1.trans hin
      exact ⟨⟨hsize, hb, hdone, ⟨pre, mid, by rw [← hpre, hmid, List.append_assoc]⟩, hcrc, hc, by simp⟩, _, _, _, _, _, rfl⟩
  cases s with
  | start =>
    obtain ⟨rfl, rfl⟩ := hH
    show Fine ((getHead r).bind fun y => decompress.parse y.1 0 y.2) _
    refine (Safe.getHead r hr).fine.bind fun y hy => ?_
    obtain ⟨g1, l1, h9, s1⟩ := hy
    exact hparse y.1 0 y.2 h9 rfl (by simp) g1 (by omega) s1 rfl
  | head size crc =>
    obtain ⟨hsize, hcur, hcrc, hdone⟩ := hH
    exact hparse size crc r hsize hcrc hdone hr (Nat.le_refl _) (List.suffix_refl _) hcur
  | output a b c d e => exact absurd rfl (hs a b c d e)
  | idle => exact hH.elim

theorem rotate_eq (c : BitVec 32) : (c <<< 1 ||| c >>> 31) = c.rotateLeft 1 := rfl

theorem crc_of (cur : List Nat) (h : ∀ x ∈ cur, x < 256) : ~~~(cur.foldl crcByte 0xFFFFFFFF) = Spec.crc cur := by rw [Spec.crc, crc_fold cur h]

theorem bound_block (m a b c p q s o : Nat) (h : a * m + p + o ≤ b * m + q) (h1 : b + 8 ≤ c) (h2 : q < m) : a * m + p + o ≤ c * m + s := by
  have := Nat.mul_le_mul_right m h1
  rw [Nat.add_mul] at this
  generalize a * m = A, b * m = B, c * m = C at *
  omega

theorem bound_call (m a b p q o f : Nat) (h : a * m + p + o ≤ b * m + q) (h1 : o = 1024) (h2 : b * m + q < f + 1) : a * m + p < f := by
  generalize a * m = A, b * m = B at *
  omega

theorem bzDecompress_fine (inp : List Bool) (f : Nat) : ∀ (avail : Nat) (s : DState) (done : List (List Nat)) (cur : List Nat) (r : Rd), r.Good → r.bits <:+ inp → Hist inp s done cur →
    r.left + 1 ≤ f → ((∃ a b c d e, s = .output a b c d e) → r.left + 2 ≤ f) →
    Fine (bzDecompress f avail s r) fun y => y.2.Good ∧ y.2.bits <:+ r.bits ∧ y.1.1.length ≤ avail ∧
      y.2.left * 300000000 + pend y.1.2 + y.1.1.length ≤ r.left * 300000000 + pend s ∧
      ∃ done' cur', done.flatten ++ cur ++ y.1.1 = done'.flatten ++ cur' ∧
        (Hist inp y.1.2 done' cur' ∨ (y.1.2 = .idle ∧ cur' = [] ∧ (∀ d ∈ done', Holds inp (Spec.crc d).toNat) ∧ ∃ pre, r.bits = pre ++ trailer done' ++ y.2.bits)) := by
  induction f with
  | zero => intro avail s done cur r _ _ _ h; omega
  | succ f ih =>
    intro avail s done cur r hr hin hH hf hf2
    by_cases hout : ∃ a b c d e, s = .output a b c d e
    · have hf2 := hf2 hout
      obtain ⟨size, crc, stored, b, p, rfl⟩ := hout
      obtain ⟨hsize, hB, hdone, hstored, hcrc, hpcrc, hcur⟩ := hH
      have hB' := hB
      obtain ⟨hbs, hbn, hol, hk0, hch, pos, c, k, hw, hA, hk⟩ := hB
      rw [bzDecompress]
      obtain ⟨out, q, e1, hlen, hob, hq⟩ := unRle_safe hw (by rw [hbs]; exact hbn) (b.nblock + 3) avail k p hA hol hk0 hch (by omega) (by omega)
      show Fine ((lift (unRle b (b.nblock + 3) avail p) r).bind fun y => _) _
      rw [show lift (unRle b (b.nblock + 3) avail p) r = .ok ((out, q), r) from by simp [lift, e1, Out.bind]]
      simp only [Out.bind]
      cases q with
      | none => trivial
      | some p' =>
        obtain ⟨k', hA', hkk, hol', hpd, hk0', hch', hcrc'⟩ := hq p' rfl
        simp only
        have hall : ∀ x ∈ cur ++ out, x < 256 := fun x hx => (List.mem_append.mp hx).elim (hcur x) (hob x)
        have hp' : p'.crc = (cur ++ out).foldl crcByte 0xFFFFFFFF := by rw [hcrc', hpcrc, List.foldl_append]
        by_cases hd : p'.used = b.nblock + 1 ∧ p'.outLen = 0
        · rw [if_pos hd]
          by_cases hst : (~~~p'.crc).toNat = stored
          · rw [if_pos hst]
            have hh : Hist inp (.head size ((crc <<< 1 ||| crc >>> 31) ^^^ ~~~p'.crc)) (done ++ [cur ++ out]) [] := by
              refine ⟨hsize, rfl, ?_, fun d hd => ?_⟩
              rotate_left
              · rcases List.mem_append.mp hd with hd | hd
                · exact hdone d hd
                · rw [List.mem_singleton.mp hd, ← crc_of _ hall, ← hp', hst]; exact hstored
              rw [List.map_append, List.foldl_append, ← hcrc, hp', crc_of _ hall, rotate_eq]; rfl
            show Fine ((bzDecompress f (avail - out.length) (.head size ((crc <<< 1 ||| crc >>> 31) ^^^ ~~~p'.crc)) r).bind fun y => _) _
            refine (ih (avail - out.length) _ _ _ r hr hin hh (by omega) (fun h => by obtain ⟨_, _, _, _, _, h⟩ := h; cases h)).bind fun y hy => ?_
            obtain ⟨y1, y2, y3, y4, done', cur', y5, y6⟩ := hy
            refine ⟨y1, y2, by simp only [List.length_append]; omega, ?_, done', cur', ?_, y6⟩
            · simp only [List.length_append]
              have : pend (.head size ((crc <<< 1 ||| crc >>> 31) ^^^ ~~~p'.crc)) = 0 := rfl
              have h2 : pend (.output size crc stored b p) = pending b p := rfl
              omega
            · rw [← y5]
              simp only [List.flatten_append, List.flatten_cons, List.flatten_nil, List.append_nil, List.append_assoc]
          · rw [if_neg hst]; trivial
        · rw [if_neg hd]
          refine ⟨hr, List.suffix_refl _, hlen, ?_, done, cur ++ out, by simp only [List.append_assoc], Or.inl ⟨hsize, ?_, hdone, hstored, hcrc, hp', hall⟩⟩
          · have h2 : pend (.output size crc stored b p) = pending b p := rfl
            have h3 : pend (.output size crc stored b p') = pending b p' := rfl
            simp only
            omega
          · exact ⟨hbs, hbn, hol', hk0', hch', pos, c, k', hw, hA', by omega⟩
    · have hno : ∀ a b c d e, s ≠ .output a b c d e := fun a b c d e h => hout ⟨a, b, c, d, e, h⟩
      have hstep : bzDecompress (f + 1) avail s r = (decompress s r).bind fun y => (match y.1 with
          | none => (pure ([], .idle) : P (List Nat × DState))
          | some s => bzDecompress f avail s) y.2 := by
        cases s with
        | output a b c d e => exact absurd rfl (hno a b c d e)
        | start => rfl
        | head _ _ => rfl
        | idle => rfl
      have hps : pend s = 0 := by
        cases s with
        | output a b c d e => exact absurd rfl (hno a b c d e)
        | start => rfl
        | head _ _ => rfl
        | idle => rfl
      rw [hstep]
      refine (decompress_fine inp s done cur hH hno r hr hin).bind fun y hy => ?_
      obtain ⟨o, r1⟩ := y
      obtain ⟨hcur, hdone, g1, l1, s1, hn, hsm⟩ := hy
      subst hcur
      simp only at g1 l1 s1 hn hsm
      cases o with
      | none =>
        simp only
        refine ⟨g1, s1, by simp, ?_, done, [], by simp, Or.inr ⟨rfl, rfl, hdone, hn rfl⟩⟩
        simp only [pend, List.length_nil]
        omega
      | some s' =>
        simp only
        obtain ⟨hH', a, b, c, d, e, hs'⟩ := hsm s' rfl
        refine (ih avail s' done [] r1 g1 (s1.trans hin) hH' (by omega) (fun _ => by omega)).weaken fun y hy => ?_
        obtain ⟨y1, y2, y3, y4, done', cur', y5, y6⟩ := hy
        have hp : pend s' < 300000000 := by
          rw [hs'] at hH' ⊢
          exact blkOk_pending hH'.1 hH'.2.1
        refine ⟨y1, y2.trans s1, y3, bound_block _ _ _ _ _ _ _ _ y4 l1 hp, done', cur', y5, ?_⟩
        rcases y6 with y6 | ⟨y6, y7, y9, pre, y8⟩
        · exact Or.inl y6
        · obtain ⟨pre1, hpre⟩ := s1
          refine Or.inr ⟨y6, y7, y9, pre1 ++ pre, ?_⟩
          rw [← hpre, y8]
          simp only [List.append_assoc]

theorem bzLoop_fine (inp : List Bool) (f : Nat) : ∀ (s : DState) (done : List (List Nat)) (cur : List Nat) (r : Rd), r.Good → r.bits <:+ inp → Hist inp s done cur →
    r.left * 300000000 + pend s < f → Fine (bzLoop f s r) fun y => ∃ done' pre, done.flatten ++ cur ++ y.1 = done'.flatten ∧ (∀ d ∈ done', Holds inp (Spec.crc d).toNat) ∧ r.bits = pre ++ trailer done' ++ y.2.bits := by
  induction f with
  | zero => intro s done cur r _ _ _ h; omega
  | succ f ih =>
    intro s done cur r hr hin hH hf
    rw [bzLoop]
    refine (show Fine (withFuel (fun f => bzDecompress (f + 1) 1024 s) r) _ from
      bzDecompress_fine inp (r.left + 1 + 1) 1024 s done cur r hr hin hH (by omega) (fun _ => by omega)).bind fun y hy => ?_
    obtain ⟨⟨out, s'⟩, r1⟩ := y
    obtain ⟨y1, y2, y3, y4, done', cur', y5, y6⟩ := hy
    simp only at y1 y2 y3 y4 y5 y6
    have hgo : ∀ s', Hist inp s' done' cur' → r1.left * 300000000 + pend s' + out.length ≤ r.left * 300000000 + pend s →
        Fine (if r1.inp ≠ [] ∧ out.length = 1024 then (bzLoop f s' r1).bind fun y => .ok (out ++ y.1, y.2) else .err)
          fun y => ∃ done' pre, done.flatten ++ cur ++ y.1 = done'.flatten ∧ (∀ d ∈ done', Holds inp (Spec.crc d).toNat) ∧ r.bits = pre ++ trailer done' ++ y.2.bits := by
      intro s' hH' hle
      by_cases hc : r1.inp ≠ [] ∧ out.length = 1024
      · rw [if_pos hc]
        refine (ih s' done' cur' r1 y1 (y2.trans hin) hH' (bound_call _ _ _ _ _ _ _ hle hc.2 hf)).bind fun z hz => ?_
        obtain ⟨done2, pre, z1, z3, z2⟩ := hz
        obtain ⟨pre1, hpre⟩ := y2
        refine ⟨done2, pre1 ++ pre, ?_, z3, ?_⟩
        · simp only
          rw [← z1, ← List.append_assoc, y5]
        · rw [← hpre, z2]; simp only [List.append_assoc]
      · rw [if_neg hc]; trivial
    cases s' with
    | idle =>
      rcases y6 with y6 | ⟨_, rfl, y9, pre, y8⟩
      · exact y6.elim
      · exact ⟨done', pre, by simpa using y5, y9, y8⟩
    | start =>
      rcases y6 with y6 | ⟨h, _⟩
      · exact hgo _ y6 y4
      · cases h
    | head a b =>
      rcases y6 with y6 | ⟨h, _⟩
      · exact hgo _ y6 y4
      · cases h
    | output a b c d e =>
      rcases y6 with y6 | ⟨h, _⟩
      · exact hgo _ y6 y4
      · cases h

theorem bunzip_fine (inp : List Nat) (h : ∀ b ∈ inp, b < 256) :
    Fine (bunzip inp) fun out => ∃ blocks pre rest, out = blocks.flatten ∧ (∀ d ∈ blocks, Holds (inp.flatMap (toBits 8)) (Spec.crc d).toNat) ∧ inp.flatMap (toBits 8) = pre ++ trailer blocks ++ rest := by
  rw [bunzip]
  have hr : (⟨0, 0, inp⟩ : Rd).Good := ⟨by simp, h⟩
  refine (bzLoop_fine (inp.flatMap (toBits 8)) _ .start [] [] ⟨0, 0, inp⟩ hr (List.suffix_refl _) ⟨rfl, rfl⟩ ?_).bind fun y hy => ?_
  · show (0 + 8 * inp.length) * 300000000 + 0 < _
    omega
  · obtain ⟨blocks, pre, e1, e3, e2⟩ := hy
    exact ⟨blocks, pre, y.2.bits, by simpa using e1, e3, e2⟩

end Verif.Bzip
