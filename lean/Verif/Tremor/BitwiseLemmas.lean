import Verif.Tremor.Bitwise
set_option linter.unusedSimpArgs false
namespace Verif.Tremor
open Verif Verif.Mkv

/-- Bytes as one number, the first byte lowest. -/
def le : List Nat → Nat
  | [] => 0
  | b :: bs => b + 256 * le bs

theorem le_append (a b : List Nat) : le (a ++ b) = le a + 256 ^ a.length * le b := by
  induction a with
  | nil => simp [le]
  | cons x a ih => simp only [List.cons_append, le, ih, List.length_cons, Nat.pow_succ]; rw [Nat.mul_add, Nat.add_assoc, ← Nat.mul_assoc, Nat.mul_comm 256 (256 ^ a.length)]

theorem le_lt (a : List Nat) (h : ∀ b ∈ a, b < 256) : le a < 256 ^ a.length := by
  induction a with
  | nil => simp [le]
  | cons x a ih =>
    have h1 := h x List.mem_cons_self
    have h2 := ih fun b hb => h b (List.mem_cons_of_mem _ hb)
    simp only [le, List.length_cons, Nat.pow_succ]
    omega

theorem pow256 (i : Nat) : 256 ^ i = 2 ^ (8 * i) := by rw [Nat.pow_mul]

/-- Or-ing the next byte in its place. -/
theorem place_step (pre : List Nat) (b bit : Nat) (hb : bit < 8) (hp : ∀ x ∈ pre, x < 256) :
    (le pre >>> bit) ||| place pre.length bit b = le (pre ++ [b]) >>> bit := by
  cases pre with
  | nil => simp [place, le]
  | cons x pre =>
    generalize hq : x :: pre = q at *
    have hl : 1 ≤ q.length := by subst hq; simp
    have h1 := le_lt q hp
    rw [pow256] at h1
    simp only [place, if_neg (show ¬ q.length = 0 by omega), le_append, le, Nat.mul_zero, Nat.add_zero, pow256]
    have e : 2 ^ (8 * q.length) = 2 ^ bit * 2 ^ (8 * q.length - bit) := by rw [← Nat.pow_add]; congr 1; omega
    have h2 : le q >>> bit < 2 ^ (8 * q.length - bit) := by
      rw [Nat.shiftRight_eq_div_pow]
      apply Nat.div_lt_of_lt_mul
      rw [← e]; exact h1
    rw [Nat.or_comm, ← Nat.shiftLeft_add_eq_or_of_lt h2, Nat.shiftLeft_eq, Nat.shiftRight_eq_div_pow, Nat.shiftRight_eq_div_pow, e,
      Nat.mul_assoc, Nat.add_mul_div_left _ _ (Nat.two_pow_pos bit), Nat.mul_comm b, Nat.add_comm]

/-- The bytes that hold `n` bits from `bit` on determine them. -/
theorem bits_enough (pre post : List Nat) (bit n : Nat) (h : n + bit ≤ 8 * pre.length) :
    (le pre >>> bit) &&& mask n = le (pre ++ post) / 2 ^ bit % 2 ^ n := by
  rw [mask, Nat.and_two_pow_sub_one_eq_mod, Nat.shiftRight_eq_div_pow, le_append, pow256]
  have e : 2 ^ (8 * pre.length) = 2 ^ bit * (2 ^ n * 2 ^ (8 * pre.length - bit - n)) := by
    rw [← Nat.pow_add, ← Nat.pow_add]; congr 1; omega
  rw [e, Nat.mul_assoc, Nat.add_mul_div_left _ _ (Nat.two_pow_pos bit), Nat.mul_assoc, Nat.add_mul_mod_self_left]

/-- What the reader stands for: `data` and a position in bits. -/
structure Rep (r : Reader) (data : List Nat) (pos : Nat) : Prop where
  run : r.halted = false
  bit8 : r.bit < 8
  off : r.off ≤ r.frag.length
  split : ∃ pre, data = pre ++ (r.frag ++ r.rest.flatten) ∧ pre.length = r.count
  pos : pos = 8 * (r.count + r.off) + r.bit
  here : r.off = r.frag.length → r.rest = [] ∧ r.bit = 0

/-- The same without the last part: between two bytes of one reading. -/
structure Mid (r : Reader) (data : List Nat) (k : Nat) : Prop where
  run : r.halted = false
  off : r.off ≤ r.frag.length
  split : ∃ pre, data = pre ++ (r.frag ++ r.rest.flatten) ∧ pre.length = r.count
  cnt : k = r.count + r.off
  here : r.off = r.frag.length → r.rest = []

theorem spanOne_mid (rest : List (List Nat)) : ∀ (count : Nat) (frag : List Nat) (off bit : Nat) (data pre : List Nat),
    off ≤ frag.length → data = pre ++ (frag ++ rest.flatten) → pre.length = count →
    Mid (spanOne count frag off bit rest) data (count + off) ∧ (spanOne count frag off bit rest).bit = bit := by
  induction rest with
  | nil =>
    intro count frag off bit data pre h1 h2 h3
    exact ⟨⟨rfl, h1, ⟨pre, h2, h3⟩, rfl, fun _ => rfl⟩, rfl⟩
  | cons f fs ih =>
    intro count frag off bit data pre h1 h2 h3
    simp only [spanOne]
    by_cases hc : frag.length ≤ off
    · rw [if_pos hc]
      obtain rfl : off = frag.length := by omega
      have := ih (count + frag.length) f 0 bit data (pre ++ frag) (by omega) (by simpa using h2) (by simp [h3])
      simpa using this
    · rw [if_neg hc]
      exact ⟨⟨rfl, h1, ⟨pre, h2, h3⟩, rfl, fun h => by simp only at h; omega⟩, rfl⟩

/-- What is before and behind the reader. -/
theorem split_at (data pre frag post : List Nat) (off : Nat) (h : data = pre ++ (frag ++ post)) :
    data = (pre ++ frag.take off) ++ (frag.drop off ++ post) := by
  rw [h, List.append_assoc, ← List.append_assoc (frag.take off), List.take_append_drop]

/-- A reader that ran off the end. -/
structure Off (r : Reader) (data : List Nat) : Prop where
  stop : r.halted = true
  bit : r.bit = 0
  off : r.off = r.frag.length
  cnt : r.count + r.off = data.length

theorem readSlow_spec (data pre0 : List Nat) (bits bit : Nat) (h8 : bit < 8) (h39 : bits < 40) (hd : ∀ b ∈ data, b < 256) :
    ∀ (fuel i : Nat) (r : Reader) (got rem : List Nat), i + fuel = 5 → Mid r data (pre0.length + i) → r.bit = bit →
      data = pre0 ++ got ++ rem → got.length = i → 8 * i ≤ bits →
      (bits ≤ 8 * (data.length - pre0.length) →
        ∃ used r' post, readSlow bits fuel i (le got >>> bit) r = (.ok (le used >>> bit), r') ∧ data = pre0 ++ used ++ post ∧
          bits ≤ 8 * used.length ∧ Mid r' data (pre0.length + bits / 8) ∧ r'.bit = bit ∧
          (bits % 8 ≠ 0 → r'.off < r'.frag.length)) ∧
      (8 * (data.length - pre0.length) < bits →
        ∃ r', readSlow bits fuel i (le got >>> bit) r = (.err, r') ∧ Off r' data) := by
  intro fuel
  induction fuel with
  | zero => intro i r got rem h1 _ _ _ _ h6; omega
  | succ fuel ih =>
    intro i r got rem h1 hm hb hdata hg hi
    obtain ⟨run, off, ⟨pre, hs, hp⟩, cnt, here⟩ := hm
    have hdl : data.length = pre0.length + i + rem.length := by rw [hdata]; simp only [List.length_append, hg]
    have hrem : rem = r.frag.drop r.off ++ r.rest.flatten := by
      have hs' := split_at _ _ _ _ r.off hs
      rw [hdata] at hs'
      exact (List.append_inj hs' (by simp [hg, hp]; omega)).2
    simp only [readSlow]
    by_cases hlt : 8 * i < bits
    · rw [if_pos hlt]
      by_cases hleft : r.left < 1
      · rw [if_pos hleft]
        unfold Reader.left at hleft
        have ho : r.off = r.frag.length := by omega
        have hr := here ho
        have h0 : rem = [] := by rw [hrem, ho, hr]; simp
        rw [h0] at hdl
        simp only [List.length_nil, Nat.add_zero] at hdl
        refine ⟨fun h => by omega, fun _ => ⟨_, rfl, rfl, rfl, rfl, ?_⟩⟩
        show r.count + r.frag.length = data.length
        omega
      · rw [if_neg hleft]
        unfold Reader.left at hleft
        have hol : r.off < r.frag.length := by omega
        have hb0 : r.frag[r.off]? = some r.frag[r.off] := List.getElem?_eq_getElem hol
        have hdr : r.frag.drop r.off = r.frag[r.off] :: r.frag.drop (r.off + 1) := List.drop_eq_getElem_cons hol
        generalize hbv : r.frag[r.off] = b at *
        rw [hb0]
        simp only
        have hrem2 : rem = b :: (r.frag.drop (r.off + 1) ++ r.rest.flatten) := by rw [hrem, hdr]; rfl
        have hgot : ∀ x ∈ got, x < 256 := fun x hx => hd x (by rw [hdata]; simp [hx])
        have hstep := place_step got b bit h8 hgot
        rw [hg] at hstep
        rw [hb, hstep]
        have hdata2 : data = pre0 ++ (got ++ [b]) ++ (r.frag.drop (r.off + 1) ++ r.rest.flatten) := by
          rw [hdata, hrem2]; simp
        by_cases hn : 8 * (i + 1) ≤ bits
        · rw [if_pos hn]
          have hsp := spanOne_mid r.rest r.count r.frag (r.off + 1) bit data pre (by omega) hs hp
          rw [show r.count + (r.off + 1) = pre0.length + (i + 1) by omega] at hsp
          exact ih (i + 1) _ (got ++ [b]) _ (by omega) hsp.1 hsp.2 hdata2 (by simp [hg]) hn
        · rw [if_neg hn]
          have hq : bits / 8 = i := by omega
          refine ⟨fun _ => ⟨got ++ [b], r, _, rfl, hdata2, by simp [hg]; omega, ?_, hb, fun _ => hol⟩, fun h => ?_⟩
          · rw [hq]; exact ⟨run, off, ⟨pre, hs, hp⟩, cnt, here⟩
          · rw [hrem2] at hdl; simp only [List.length_cons] at hdl; omega
    · rw [if_neg hlt]
      have hq : bits / 8 = i := by omega
      refine ⟨fun _ => ⟨got, r, rem, rfl, hdata, by omega, ?_, hb, fun h => by omega⟩, fun h => by omega⟩
      rw [hq]; exact ⟨run, off, ⟨pre, hs, hp⟩, cnt, here⟩

theorem gather_spec (frag : List Nat) (off bit bits : Nat) (h8 : bit < 8) (h39 : bits < 40) (hf : ∀ b ∈ frag.drop off, b < 256)
    (hl : bits < 8 * (frag.drop off).length) :
    ∀ (fuel i : Nat), i + fuel = 5 → i ≤ (frag.drop off).length →
      ∃ j, gather frag off bit bits fuel i (le ((frag.drop off).take i) >>> bit) = some (le ((frag.drop off).take j) >>> bit) ∧
        bits ≤ 8 * j ∧ j ≤ (frag.drop off).length := by
  intro fuel
  induction fuel with
  | zero => intro i h1 h3; exact ⟨i, rfl, by omega, h3⟩
  | succ fuel ih =>
    intro i h1 h3
    simp only [gather]
    by_cases hc : i = 0 ∨ 8 * i < bits
    · rw [if_pos hc]
      have hil : i < (frag.drop off).length := by omega
      have hb : frag[off + i]? = some (frag.drop off)[i] := by rw [← List.getElem?_drop]; exact List.getElem?_eq_getElem hil
      rw [hb]
      simp only
      have hs := place_step ((frag.drop off).take i) (frag.drop off)[i] bit h8 fun x hx => hf x (List.mem_of_mem_take hx)
      rw [List.length_take, Nat.min_eq_left (by omega), List.take_append_getElem hil] at hs
      rw [hs]
      exact ih (i + 1) (by omega) (by omega)
    · rw [if_neg hc]
      exact ⟨i, rfl, by omega, h3⟩

theorem lookSpan_spec (rest : List (List Nat)) : ∀ cur,
    (lookSpan cur rest = none ∧ cur ++ rest.flatten = []) ∨
    ∃ b bs rest', lookSpan cur rest = some (b :: bs, rest') ∧ cur ++ rest.flatten = b :: (bs ++ rest'.flatten) := by
  induction rest with
  | nil =>
    intro cur
    cases cur with
    | nil => exact Or.inl ⟨rfl, rfl⟩
    | cons b bs => exact Or.inr ⟨b, bs, [], rfl, rfl⟩
  | cons f fs ih =>
    intro cur
    cases cur with
    | nil => simpa [lookSpan] using ih f
    | cons b bs => exact Or.inr ⟨b, bs, f :: fs, rfl, rfl⟩

theorem lookSlow_spec (bit bits : Nat) (h8 : bit < 8) (h39 : bits < 40) :
    ∀ (fuel i : Nat) (got cur : List Nat) (rest : List (List Nat)), i + fuel = 5 → got.length = i →
      (∀ b ∈ got ++ (cur ++ rest.flatten), b < 256) →
      (bits ≤ 8 * (i + (cur ++ rest.flatten).length) → ∃ used post,
        lookSlow bit bits fuel i (le got >>> bit) cur rest = some (le used >>> bit) ∧
        got ++ (cur ++ rest.flatten) = used ++ post ∧ bits ≤ 8 * used.length) ∧
      (8 * (i + (cur ++ rest.flatten).length) < bits → lookSlow bit bits fuel i (le got >>> bit) cur rest = none) := by
  intro fuel
  induction fuel with
  | zero =>
    intro i got cur rest h1 h2 _
    exact ⟨fun _ => ⟨got, _, rfl, rfl, by omega⟩, fun h => by omega⟩
  | succ fuel ih =>
    intro i got cur rest h1 h2 h3
    simp only [lookSlow]
    by_cases hc : 8 * i < bits
    · rw [if_pos hc]
      rcases lookSpan_spec rest cur with ⟨e1, e2⟩ | ⟨b, bs, rest', e1, e2⟩
      · rw [e1, e2]
        exact ⟨fun h => by simp at h; omega, fun _ => rfl⟩
      · rw [e1, e2]
        rw [e2] at h3
        simp only
        have hs := place_step got b bit h8 fun x hx => h3 x (by simp [hx])
        rw [h2] at hs
        rw [hs]
        have := ih (i + 1) (got ++ [b]) bs rest' (by omega) (by simp [h2]) (by simpa using h3)
        simp only [List.append_assoc, List.singleton_append] at this
        rw [List.length_cons, show i + ((bs ++ rest'.flatten).length + 1) = i + 1 + (bs ++ rest'.flatten).length by omega]
        exact this
    · rw [if_neg hc]
      exact ⟨fun _ => ⟨got, _, rfl, rfl, by omega⟩, fun h => by omega⟩

theorem span_spec (rest : List (List Nat)) : ∀ (count : Nat) (frag : List Nat) (skip bit : Nat) (data pre : List Nat),
    bit < 8 → data = pre ++ (frag ++ rest.flatten) → pre.length = count →
    (8 * (count + skip) + bit ≤ 8 * data.length → Rep (span count frag skip bit rest) data (8 * (count + skip) + bit)) ∧
    (8 * data.length < 8 * (count + skip) + bit → Off (span count frag skip bit rest) data) := by
  induction rest with
  | nil =>
    intro count frag skip bit data pre h8 hd hp
    have hl : data.length = count + frag.length := by rw [hd]; simp [hp]
    simp only [span]
    by_cases hc : frag.length < skip ∨ (frag.length ≤ skip ∧ bit ≠ 0)
    · rw [if_pos hc]
      exact ⟨fun h => by omega, fun _ => ⟨rfl, rfl, rfl, by show count + frag.length = _; omega⟩⟩
    · rw [if_neg hc]
      refine ⟨fun _ => ⟨rfl, h8, by show skip ≤ frag.length; omega, ⟨pre, hd, hp⟩, rfl, ?_⟩, fun h => by omega⟩
      · intro h; simp only at h; exact ⟨rfl, by show bit = 0; omega⟩
  | cons f fs ih =>
    intro count frag skip bit data pre h8 hd hp
    simp only [span]
    by_cases hc : frag.length ≤ skip
    · rw [if_pos hc]
      have := ih (count + frag.length) f (skip - frag.length) bit data (pre ++ frag) h8 (by rw [hd]; simp) (by simp [hp])
      rw [show count + frag.length + (skip - frag.length) = count + skip by omega] at this
      exact this
    · rw [if_neg hc]
      have hl : count + frag.length ≤ data.length := by rw [hd]; simp [hp]
      refine ⟨fun _ => ⟨rfl, h8, by show skip ≤ frag.length; omega, ⟨pre, hd, hp⟩, rfl, ?_⟩, fun h => by omega⟩
      · intro h; simp only at h; omega

end Verif.Tremor
