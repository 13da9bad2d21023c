import Verif.Mkv.Block
import Verif.Ebml.VintLemmas
import Verif.Props.Vint
/-! Helper lemmas about the block model. -/
set_option linter.unusedSimpArgs false
namespace Verif.Mkv
open Verif Verif.Ebml

theorem bind_ok {α β : Type} (a : α) (f : α → Out β) : (Out.ok a).bind f = f a := rfl

theorem u32_sub (a b : Int) : u32 ((u32 a : Int) - b) = u32 (a - b) := by
  unfold u32
  simp only [Int.reducePow]
  omega

theorem u32_sub2 (a b c : Int) : u32 ((u32 a : Int) - b - c) = u32 (a - b - c) := by
  unfold u32
  simp only [Int.reducePow]
  omega

theorem u32_of_lt (n : Nat) (h : n < 2 ^ 32) : u32 n = n := by
  unfold u32
  simp only [Int.reducePow, Nat.reducePow] at *
  omega

theorem u32_lt (x : Int) : u32 x < 2 ^ 32 := by
  unfold u32
  simp only [Int.reducePow, Nat.reducePow]
  omega

theorem s32_of_lt (n : Nat) (h : n < 2 ^ 31) : s32 n = n := by
  unfold s32; rw [if_pos h]

/-! Header -/

theorem flagByte_fields (lac : Lacing) : ∀ inv key discard : Bool,
    (flagByte inv lac key discard &&& 0x80 != 0) = key ∧
    (flagByte inv lac key discard &&& 0x01 != 0) = discard ∧
    (flagByte inv lac key discard &&& 0x08 != 0) = inv ∧
    Lacing.ofCode ((flagByte inv lac key discard &&& 0x06) >>> 1).toNat = lac := by
  cases lac <;> decide +kernel

theorem flags_roundtrip (simple key discard inv : Bool) (lac : Lacing) (t : Nat) (ti tm : Int) :
    parseFlags simple t ti (headFlags simple ⟨t, tm, key, discard, inv, lac⟩)
      = ⟨t, ti, simple && key, simple && discard, inv, lac⟩ := by
  obtain ⟨h1, h2, h3, h4⟩ := flagByte_fields lac inv (simple && key) (simple && discard)
  simp only [parseFlags, headFlags, h1, h2, h3, h4, Head.mk.injEq, true_and, and_true]
  cases simple <;> simp

theorem load16_beBytes (t : Int) (hlo : -32768 ≤ t) (hhi : t < 32768) :
    ∃ a b, beBytes 2 t = [a, b] ∧ load16 a b = t := by
  refine ⟨lowByte (t / 256), lowByte t, rfl, ?_⟩
  simp only [load16, lowByte_toNat]
  split <;> omega

theorem renderHead_length (simple : Bool) (h : Head) (hd : Bytes) (e : renderHead simple h = some hd) :
    hd.length = headSize h := by
  unfold renderHead at e
  unfold headSize
  split at e
  · rename_i hc
    rw [if_pos hc]
    simp only [Option.some.injEq] at e
    subst e
    simp [beBytes]
  · rename_i hc
    rw [if_neg hc]
    split at e
    · simp only [Option.some.injEq] at e
      subst e
      simp [beBytes]
    · simp at e

theorem byte1 (t : Nat) (h : t < 0x80) :
    ((UInt8.ofNat (0x80 ||| (t &&& 0xFF))) &&& 0x80 ≠ 0) ∧
    ((UInt8.ofNat (0x80 ||| (t &&& 0xFF))) &&& 0x7F).toNat = t := by
  have : ∀ t : Fin 128, ((UInt8.ofNat (0x80 ||| (t.val &&& 0xFF))) &&& 0x80 ≠ 0) ∧
    ((UInt8.ofNat (0x80 ||| (t.val &&& 0xFF))) &&& 0x7F).toNat = t.val := by decide +kernel
  exact this ⟨t, h⟩

theorem byte2 (t : Nat) (h : t < 0x4000) :
    ((UInt8.ofNat (0x40 ||| (t >>> 8))) &&& 0x80 = 0) ∧ ((UInt8.ofNat (0x40 ||| (t >>> 8))) &&& 0x40 ≠ 0) ∧
    ((UInt8.ofNat (0x40 ||| (t >>> 8))) &&& 0x3F).toNat * 256 + (UInt8.ofNat (t &&& 0xFF)).toNat = t := by
  have h1 : ∀ k : Fin 64, ((UInt8.ofNat (0x40 ||| k.val)) &&& 0x80 = 0) ∧
      ((UInt8.ofNat (0x40 ||| k.val)) &&& 0x40 ≠ 0) ∧
      ((UInt8.ofNat (0x40 ||| k.val)) &&& 0x3F).toNat = k.val := by decide +kernel
  have hk : t >>> 8 < 64 := by rw [Nat.shiftRight_eq_div_pow]; omega
  obtain ⟨a, b, c⟩ := h1 ⟨t >>> 8, hk⟩
  refine ⟨a, b, ?_⟩
  simp only at c
  rw [c]
  have e : t &&& 0xFF = t % 256 := Nat.and_two_pow_sub_one_eq_mod t 8
  rw [e, Nat.shiftRight_eq_div_pow]
  simp
  omega

theorem parseHead_renderHead (simple : Bool) (h : Head) (ht : h.track < 0x4000)
    (hlo : -32768 ≤ h.time) (hhi : h.time < 32768) (rest : Bytes) (hne : rest ≠ [] ∨ 0x80 ≤ h.track) :
    ∃ hd, renderHead simple h = some hd ∧ hd.length = headSize h ∧
      parseHead simple (hd ++ rest)
        = some ({ h with key := simple && h.key, discard := simple && h.discard }, headSize h) := by
  obtain ⟨a, b, e16, l16⟩ := load16_beBytes h.time hlo hhi
  by_cases h1 : h.track < 0x80
  · have er : renderHead simple h = some (UInt8.ofNat (0x80 ||| (h.track &&& 0xFF)) :: a :: b :: [headFlags simple h]) := by
      unfold renderHead; rw [if_pos h1, e16]; rfl
    refine ⟨_, er, renderHead_length simple h _ er, ?_⟩
    have hr : rest ≠ [] := by
      rcases hne with hne | hne
      · exact hne
      · omega
    cases rest with
    | nil => exact absurd rfl hr
    | cons r rs =>
      obtain ⟨c1, c2⟩ := byte1 h.track h1
      simp only [List.cons_append, List.nil_append, parseHead]
      rw [if_pos c1, c2, l16]
      have := flags_roundtrip simple h.key h.discard h.invisible h.lacing h.track h.time h.time
      rw [this]
      simp only [headSize, if_pos h1]
  · have er : renderHead simple h = some (UInt8.ofNat (0x40 ||| (h.track >>> 8)) :: UInt8.ofNat (h.track &&& 0xFF) ::
        a :: b :: [headFlags simple h]) := by
      unfold renderHead; rw [if_neg h1, if_pos ht, e16]; rfl
    refine ⟨_, er, renderHead_length simple h _ er, ?_⟩
    obtain ⟨c1, c2, c3⟩ := byte2 h.track ht
    simp only [List.cons_append, List.nil_append, parseHead]
    rw [if_neg (fun hh => hh c1), if_neg c2, c3, l16]
    have := flags_roundtrip simple h.key h.discard h.invisible h.lacing h.track h.time h.time
    rw [this]
    simp only [headSize, if_neg h1]

/-! Xiph lacing -/

theorem xiphOne_length (n : Nat) : (xiphOne n).length = n / 255 + 1 := by
  simp [xiphOne]

theorem xiphRead_replicate (k : Nat) : ∀ (last : UInt8) (rest : Bytes) (acc used : Nat) (b : UInt8), b ≠ 0xFF →
    xiphRead last (List.replicate k 0xFF ++ b :: rest) acc used
      = some (acc + 255 * k + b.toNat, used + k + 1, rest, b) := by
  induction k with
  | zero =>
    intro last rest acc used b hb
    simp only [List.replicate_zero, List.nil_append, xiphRead, if_neg hb]
    simp
  | succ k ih =>
    intro last rest acc used b hb
    simp only [List.replicate_succ, List.cons_append, xiphRead]
    rw [if_pos trivial, ih _ _ _ _ _ hb]
    simp only [Option.some.injEq, Prod.mk.injEq, and_true]
    constructor <;> omega

theorem xiphRead_xiphOne (n : Nat) (last : UInt8) (rest : Bytes) :
    xiphRead last (xiphOne n ++ rest) 0 0 = some (n, n / 255 + 1, rest, UInt8.ofNat (n % 255)) := by
  have hb : UInt8.ofNat (n % 255) ≠ 0xFF := by
    intro h
    have := congrArg UInt8.toNat h
    simp at this
    omega
  unfold xiphOne
  rw [List.append_assoc, List.singleton_append, xiphRead_replicate _ _ _ _ _ _ hb]
  simp
  omega

/-- Bytes taken by a list of Xiph-coded sizes together with the frames themselves. -/
def xiphTotal (ss : List Nat) : Nat := (ss.map fun s => s / 255 + 1 + s).sum

theorem xiphSizes_ok (ss : List Nat) : ∀ (last : UInt8) (rest : Bytes) (t loc : Nat),
    (∀ s ∈ ss, s < 2 ^ 32) → t < 2 ^ 32 →
    xiphSizes ss.length last (ss.flatMap xiphOne ++ rest) (u32 ((xiphTotal ss + t : Nat) : Int)) loc
      = .ok (ss ++ [t], loc + (ss.flatMap xiphOne).length) := by
  induction ss with
  | nil =>
    intro last rest t loc _ ht
    simp [xiphSizes, xiphTotal, u32_of_lt t ht]
  | cons s ss ih =>
    intro last rest t loc hs ht
    simp only [List.length_cons, List.flatMap_cons, List.append_assoc, xiphSizes]
    rw [xiphRead_xiphOne]
    simp only
    have hsub : u32 ((u32 ((xiphTotal (s :: ss) + t : Nat) : Int) : Int) - ((s / 255 + 1 : Nat) : Int) - (s : Int))
        = u32 ((xiphTotal ss + t : Nat) : Int) := by
      rw [u32_sub2]
      congr 1
      simp only [xiphTotal, List.map_cons, List.sum_cons]
      omega
    rw [hsub, ih _ _ _ _ (fun x hx => hs x (List.mem_cons_of_mem _ hx)) ht, bind_ok]
    rw [u32_of_lt s (hs s (by simp))]
    simp only [List.cons_append, List.length_append, xiphOne_length]
    congr 2
    omega

/-! EBML lacing -/

theorem readVintAt_ok (cv rest : Bytes) (avail n : Nat) (hn : n ≠ 0) (hc : (readCodedSize (cv ++ rest)).len = n)
    (hl : n ≤ avail) : readVintAt (cv ++ rest) avail = some (readCodedSize (cv ++ rest)) := by
  generalize cv ++ rest = buf at *
  unfold readVintAt
  rw [if_neg (by omega)]
  cases buf with
  | nil => simp [readCodedSize] at hc; omega
  | cons b0 r =>
    simp only
    cases hf : findMarker b0 (r.length + 1) 8 with
    | none => simp [readCodedSize, hf] at hc; omega
    | some i =>
      have hs := readCodedSize_shape b0 r i hf
      rw [hs] at hc
      simp only at hc
      obtain ⟨g1, g2, g3, g4⟩ := (findMarker_iff _ _ _).1 hf
      have : findMarker b0 avail 8 = some i := (findMarker_iff _ _ _).2 ⟨g1, by omega, g3, g4⟩
      rw [this]
      simp only
      rw [if_neg (by omega)]

/-- Sizes and coded differences of an EBML lace after its first size. -/
def ebmlTotal : (prev : Int) → List Nat → Nat
  | _, [] => 0
  | prev, s :: ss => s + codedSizeLengthSigned ((s : Int) - prev) 0 + ebmlTotal s ss

theorem codedValueSigned_length (v : Int) (n : Nat) (h : 1 ≤ n) : (codedValueSigned v n).length = n := by
  unfold codedValueSigned; exact codedValue_length _ _ _ h

/-- Length of the coded differences. -/
def ebmlLen : (prev : Int) → List Nat → Nat
  | _, [] => 0
  | prev, s :: ss => codedSizeLengthSigned ((s : Int) - prev) 0 + ebmlLen s ss

theorem ebmlCoded_length (ss : List Nat) : ∀ prev : Int,
    (ebmlCoded prev (ss.map fun n : Nat => (n : Int))).length = ebmlLen prev ss := by
  induction ss with
  | nil => intro prev; rfl
  | cons s ss ih =>
    intro prev
    simp only [List.map_cons, ebmlCoded, List.length_append, ebmlLen, ih]
    rw [codedValueSigned_length _ _ (codedSizeLengthSigned_range _ 0 (by omega)).1]

theorem ebmlDeltas_ok (ss : List Nat) : ∀ (prev : Nat) (rest : Bytes) (t loc : Nat),
    prev < 2 ^ 27 → (∀ s ∈ ss, s < 2 ^ 27) → ebmlTotal prev ss + t < 2 ^ 32 →
    ebmlDeltas ss.length (ebmlCoded prev (ss.map fun n : Nat => (n : Int)) ++ rest) (ebmlTotal prev ss + t) prev loc
      = .ok (ss ++ [t], loc + ebmlLen prev ss) := by
  induction ss with
  | nil =>
    intro prev rest t loc hp _ ht
    simp [ebmlDeltas, ebmlTotal, ebmlLen]
  | cons s ss ih =>
    intro prev rest t loc hp hs ht
    have hs0 := hs s (by simp)
    have hrd := C07_signed_roundtrip ((s : Int) - prev) (by omega) (by omega)
      (ebmlCoded s (ss.map fun n : Nat => (n : Int)) ++ rest)
    have hrange := codedSizeLengthSigned_range ((s : Int) - prev) 0 (by omega)
    simp only [List.length_cons, List.map_cons, ebmlCoded, List.append_assoc, ebmlDeltas]
    generalize hcv : codedValueSigned ((s : Int) - prev) (codedSizeLengthSigned ((s : Int) - prev) 0) = cv at *
    have hcl : cv.length = codedSizeLengthSigned ((s : Int) - prev) 0 := by
      rw [← hcv]; exact codedValueSigned_length _ _ hrange.1
    simp only [readCodedSizeSigned, Prod.mk.injEq] at hrd
    obtain ⟨hv, hl⟩ := hrd
    rw [readVintAt_ok cv _ _ _ (by omega) hl (by simp only [ebmlTotal]; omega)]
    simp only
    have e1 : u32 ((prev : Int) + (((readCodedSize (cv ++ (ebmlCoded s (ss.map fun n : Nat => (n : Int)) ++ rest))).value : Int)
        - readBias (readCodedSize (cv ++ (ebmlCoded s (ss.map fun n : Nat => (n : Int)) ++ rest))).len)) = s := by
      rw [hv]
      have : (prev : Int) + ((s : Int) - prev) = s := by omega
      rw [this]
      exact u32_of_lt s (by omega)
    rw [e1, hl, ← hcl, List.drop_left' rfl]
    have e2 : u32 (((ebmlTotal prev (s :: ss) + t : Nat) : Int) - (s : Int) - (cv.length : Int)) = ebmlTotal s ss + t := by
      have : (((ebmlTotal prev (s :: ss) + t : Nat) : Int) - (s : Int) - (cv.length : Int)) = ((ebmlTotal s ss + t : Nat) : Int) := by
        simp only [ebmlTotal, hcl]; omega
      rw [this]
      apply u32_of_lt
      simp only [ebmlTotal] at ht; omega
    rw [e2, ih s rest t _ hs0 (fun x hx => hs x (List.mem_cons_of_mem _ hx))
      (by simp only [ebmlTotal] at ht; omega), bind_ok]
    simp only [List.cons_append, ebmlLen, hcl]
    congr 2
    omega

theorem codedSizeLengthSigned_le4 (v : Int) (hlo : -(2 ^ 27) < v) (hhi : v < 2 ^ 27) :
    codedSizeLengthSigned v 0 ≤ 4 := by
  simp only [Int.reducePow, Int.reduceNeg] at hlo hhi
  simp only [codedSizeLengthSigned]
  (repeat' split) <;> omega

theorem codedSizeLength_le4 (s : Nat) (h : s < 2 ^ 27) : codedSizeLength s 0 true ≤ 4 := by
  simp only [Nat.reducePow] at h
  simp only [codedSizeLength, Bool.not_true, Bool.false_eq_true, if_false]
  (repeat' split) <;> omega

theorem ebmlLen_le (ss : List Nat) : ∀ prev : Nat, prev < 2 ^ 27 → (∀ s ∈ ss, s < 2 ^ 27) →
    ebmlLen prev ss ≤ 4 * ss.length := by
  induction ss with
  | nil => intro prev _ _; simp [ebmlLen]
  | cons s ss ih =>
    intro prev hp hs
    have hs0 := hs s (by simp)
    have := codedSizeLengthSigned_le4 ((s : Int) - prev) (by omega) (by omega)
    have := ih s hs0 (fun x hx => hs x (List.mem_cons_of_mem _ hx))
    simp only [ebmlLen, List.length_cons]
    omega

theorem ebmlTotal_eq (ss : List Nat) : ∀ prev : Int, ebmlTotal prev ss = ss.sum + ebmlLen prev ss := by
  induction ss with
  | nil => intro prev; rfl
  | cons s ss ih =>
    intro prev
    simp only [ebmlTotal, ebmlLen, List.sum_cons, ih]
    omega

/-- Sizes written by EBML lacing are recovered. -/
theorem ebmlSizes_ok (s0 : Nat) (ss : List Nat) (rest : Bytes) (t loc : Nat)
    (h0 : s0 < 2 ^ 27) (hs : ∀ s ∈ ss, s < 2 ^ 27)
    (ht : s0 + codedSizeLength s0 0 true + ebmlTotal s0 ss + t < 2 ^ 32) :
    ebmlSizes (ss.length + 1)
      (codedValue s0 (codedSizeLength s0 0 true) true ++ ebmlCoded s0 (ss.map fun n : Nat => (n : Int)) ++ rest)
      (s0 + codedSizeLength s0 0 true + ebmlTotal s0 ss + t) loc
      = .ok (s0 :: ss ++ [t], loc + (codedSizeLength s0 0 true + ebmlLen s0 ss)) := by
  obtain ⟨n, hn, hcl, hrd, _⟩ := C01_size_roundtrip s0 (by omega) []
  clear hrd
  have hr := codedSizeLength_range (s0 : Int) 0 (by omega) true
  have h4 := codedSizeLength_le4 s0 h0
  have hl4 := ebmlLen_le ss s0 h0 hs
  generalize hn' : codedSizeLength s0 0 true = n' at *
  subst hn
  generalize hcv : codedValue s0 n true = cv at *
  have hlen : (cv ++ ebmlCoded s0 (ss.map fun n : Nat => (n : Int))).length = n + ebmlLen s0 ss := by
    rw [List.length_append, hcl, ebmlCoded_length]
  unfold ebmlSizes
  simp only
  have htake : (cv ++ ebmlCoded s0 (ss.map fun n : Nat => (n : Int)) ++ rest).take ((ss.length + 1) * 4)
      = cv ++ (ebmlCoded s0 (ss.map fun n : Nat => (n : Int)) ++ rest.take ((ss.length + 1) * 4 - (n + ebmlLen s0 ss))) := by
    rw [List.take_append, hlen, List.take_of_length_le (by rw [hlen]; omega), List.append_assoc]
  rw [htake]
  generalize rest.take ((ss.length + 1) * 4 - (n + ebmlLen s0 ss)) = r at *
  obtain ⟨m, hm, _, hrd, _⟩ := C01_size_roundtrip s0 (by omega) (ebmlCoded s0 (ss.map fun n : Nat => (n : Int)) ++ r)
  rw [hn'] at hm
  subst hm
  rw [hcv] at hrd
  rw [readVintAt_ok cv _ _ m (by omega) (by rw [hrd]) (by omega), hrd]
  simp only
  rw [u32_of_lt s0 (by omega)]
  have e2 : u32 (((s0 + m + ebmlTotal s0 ss + t : Nat) : Int) - (s0 : Int) - (m : Int)) = ebmlTotal s0 ss + t := by
    have : (((s0 + m + ebmlTotal s0 ss + t : Nat) : Int) - (s0 : Int) - (m : Int)) = ((ebmlTotal s0 ss + t : Nat) : Int) := by
      omega
    rw [this]
    exact u32_of_lt _ (by omega)
  have e3 : (cv ++ (ebmlCoded s0 (ss.map fun n : Nat => (n : Int)) ++ r)).drop m
      = ebmlCoded s0 (ss.map fun n : Nat => (n : Int)) ++ r := List.drop_left' hcl
  rw [e2, e3, ebmlDeltas_ok ss s0 r t _ h0 hs (by omega), bind_ok]
  simp only [List.cons_append, Out.ok.injEq, Prod.mk.injEq, true_and]
  omega

end Verif.Mkv
