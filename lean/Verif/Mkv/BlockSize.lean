import Verif.Mkv.BlockRound
/-! Lemmas on announced sizes, room in the lace buffer and parsed sizes. -/
set_option linter.unusedSimpArgs false
namespace Verif.Mkv
open Verif Verif.Ebml

theorem bind_eq_ok {α β : Type} {x : Out α} {f : α → Out β} {b : β} (h : x.bind f = .ok b) :
    ∃ a, x = .ok a ∧ f a = .ok b := by
  cases x with
  | ok a => exact ⟨a, rfl, h⟩
  | err => simp [Out.bind] at h
  | bad => simp [Out.bind] at h
  | hang => simp [Out.bind] at h

/-! Lengths of what is written -/

theorem stripFrames_sizes (hdr : Bytes) (ns : List Nat) : ∀ (data r : Bytes), ns.sum ≤ data.length →
    stripFrames hdr data ns = .ok r →
    (∀ n ∈ ns, hdr.length ≤ n) ∧ r.length = (ns.map fun n => n - hdr.length).sum := by
  induction ns with
  | nil =>
    intro data r _ h
    simp only [stripFrames, Out.ok.injEq] at h
    subst h
    simp
  | cons n ns ih =>
    intro data r hl h
    simp only [List.sum_cons] at hl
    simp only [stripFrames] at h
    by_cases h1 : data.length < hdr.length
    · rw [if_pos h1] at h; simp at h
    rw [if_neg h1] at h
    by_cases h2 : data.take hdr.length ≠ hdr
    · rw [if_pos h2] at h; simp at h
    rw [if_neg h2] at h
    by_cases h3 : n < hdr.length
    · rw [if_pos h3] at h; simp at h
    rw [if_neg h3] at h
    obtain ⟨r', hr', he⟩ := bind_eq_ok h
    simp only [Out.ok.injEq] at he
    subst he
    obtain ⟨g1, g2⟩ := ih _ _ (by simp only [List.length_drop]; omega) hr'
    refine ⟨?_, ?_⟩
    · intro m hm
      rcases List.mem_cons.1 hm with rfl | hm
      · omega
      · exact g1 m hm
    · simp only [List.length_append, g2, List.length_drop, List.length_take, List.map_cons, List.sum_cons]
      omega

theorem zlibFrames_sizes (deflate : Bytes → Bytes) (fs : List Bytes) : ∀ r : Bytes,
    zlibFrames deflate fs = .ok r → r.length = (fs.map fun f => (deflate f).length).sum := by
  induction fs with
  | nil =>
    intro r h
    simp only [zlibFrames, Out.ok.injEq] at h
    subst h; rfl
  | cons f fs ih =>
    intro r h
    simp only [zlibFrames] at h
    by_cases h0 : f = []
    · rw [if_pos h0] at h; simp at h
    rw [if_neg h0] at h
    by_cases h1 : f.length + 100 < (deflate f).length
    · rw [if_pos h1] at h; simp at h
    rw [if_neg h1] at h
    obtain ⟨r', hr', he⟩ := bind_eq_ok h
    simp only [Out.ok.injEq] at he
    subst he
    simp only [List.length_append, ih _ hr', List.map_cons, List.sum_cons]

/-- Written payload: every frame size is non-negative and the payload is their sum. -/
theorem writeFrames_sizes (enc : Enc) (fs : List Bytes) (r : Bytes) (h : writeFrames enc fs = .ok r) :
    ∃ ns : List Nat, fs.map (frameSize enc) = ints ns ∧ r.length = ns.sum := by
  have plain : ∀ e : Enc, (∀ f, frameSize e f = f.length) → writeFrames e fs = .ok fs.flatten →
      writeFrames e fs = .ok r → ∃ ns : List Nat, fs.map (frameSize e) = ints ns ∧ r.length = ns.sum := by
    intro e h1 h2 h3
    rw [h2] at h3
    simp only [Out.ok.injEq] at h3
    subst h3
    refine ⟨fs.map List.length, ?_, flatten_length fs⟩
    simp only [ints, List.map_map]
    apply List.map_congr_left
    intro f _
    exact h1 f
  match enc, h with
  | .plain, h => exact plain _ (fun _ => rfl) rfl h
  | .strip hdr false, h => exact plain _ (fun _ => rfl) rfl h
  | .zlib d i false, h => exact plain _ (fun _ => rfl) rfl h
  | .strip hdr true, h =>
    obtain ⟨g1, g2⟩ := stripFrames_sizes hdr _ _ _ (by rw [flatten_length]; omega) h
    refine ⟨(fs.map List.length).map fun n => n - hdr.length, ?_, g2⟩
    simp only [ints, List.map_map]
    apply List.map_congr_left
    intro f hf
    have := g1 f.length (List.mem_map_of_mem hf)
    simp only [frameSize, Function.comp_apply]
    omega
  | .zlib d i true, h =>
    refine ⟨fs.map fun f => (d f).length, ?_, zlibFrames_sizes d fs r h⟩
    simp only [ints, List.map_map]
    rfl

theorem ints_sum (ns : List Nat) : (ints ns).sum = (ns.sum : Nat) := by
  induction ns with
  | nil => rfl
  | cons n ns ih =>
    simp only [ints, List.map_cons, List.sum_cons] at *
    omega

theorem ints_length (ns : List Nat) : (ints ns).length = ns.length := by simp [ints]

theorem sizeEbml_eq (ns : List Nat) : ∀ prev : Int, sizeEbml prev (ints ns) = (ns.sum + ebmlLen prev ns : Nat) := by
  induction ns with
  | nil => intro prev; rfl
  | cons n ns ih =>
    intro prev
    have := ih n
    simp only [ints, List.map_cons, sizeEbml, List.sum_cons, ebmlLen] at *
    omega

/-- Length of the lace head. -/
theorem laceHead_length (lac : Lacing) (ns : List Nat) :
    (laceHead lac (ints ns)).length =
      match lac with
      | .none => 0
      | .fixed => 1
      | .xiph => 1 + (ns.dropLast.map fun s => s / 255 + 1).sum
      | .ebml =>
        match ns with
        | [] => 1
        | s :: rest => 1 + (codedSizeLength s 0 true + ebmlLen s rest.dropLast) := by
  cases lac with
  | none => rfl
  | fixed => rfl
  | xiph =>
    simp only [laceHead, laceSizes, List.length_cons, ints_dropLast, xiph_flat, xiph_flat_length]
    omega
  | ebml =>
    cases ns with
    | nil => rfl
    | cons s rest =>
      have e : (ebmlCoded (s : Int) (List.map (fun n : Nat => (n : Int)) rest).dropLast) = ebmlCoded s (rest.dropLast.map fun n : Nat => (n : Int)) := by
        rw [List.map_dropLast]
      simp only [laceHead, laceSizes, ints, List.map_cons, List.length_cons, List.length_append, e, ebmlCoded_length]
      rw [codedValue_length _ _ _ (codedSizeLength_range (s : Int) 0 (by omega) true).1]
      omega

theorem writeLace_cases (lac : Lacing) (ns : List Nat) (hne : ns ≠ []) :
    ((laceHead lac (ints ns)).length ≤ laceRoom lac ns.length ∧ writeLace lac (ints ns) = .ok (laceHead lac (ints ns))) ∨
    (laceRoom lac ns.length < (laceHead lac (ints ns)).length ∧ writeLace lac (ints ns) = .bad) := by
  have h1 : ¬ (lac ≠ .none ∧ ints ns = []) := by
    rintro ⟨_, h⟩
    apply hne
    simpa [ints] using h
  unfold writeLace
  rw [if_neg h1, ints_length]
  by_cases h : laceRoom lac ns.length < (laceHead lac (ints ns)).length
  · right; rw [if_pos h]; exact ⟨h, rfl⟩
  · left; rw [if_neg h]; exact ⟨by omega, rfl⟩

theorem writeLace_ok (lac : Lacing) (ns : List Nat) (l : Bytes) (h : writeLace lac (ints ns) = .ok l) :
    l = laceHead lac (ints ns) ∧ (lac ≠ .none → ns ≠ []) := by
  unfold writeLace at h
  by_cases h1 : lac ≠ .none ∧ ints ns = []
  · rw [if_pos h1] at h; simp at h
  rw [if_neg h1] at h
  by_cases h2 : laceRoom lac (ints ns).length < (laceHead lac (ints ns)).length
  · rw [if_pos h2] at h; simp at h
  rw [if_neg h2] at h
  simp only [Out.ok.injEq] at h
  refine ⟨h.symm, ?_⟩
  intro hl hn
  apply h1
  exact ⟨hl, by subst hn; rfl⟩

theorem sum_split (ns : List Nat) : ns.sum = ns.dropLast.sum + ns.getLastD 0 := by
  by_cases h : ns = []
  · subst h; rfl
  · have := List.dropLast_concat_getLast h
    conv => lhs; rw [← this]
    simp [List.getLastD_eq_getLast?, List.getLast?_eq_some_getLast h]

theorem ints_getLastD (ns : List Nat) : (ints ns).getLastD 0 = (ns.getLastD 0 : Nat) := by
  simp only [ints, List.getLastD_eq_getLast?, List.getLast?_map]
  cases ns.getLast? <;> rfl

theorem xiph_sum (ns : List Nat) :
    ((ints ns).map fun s : Int => s.tdiv 255 + 1 + s).sum = (((ns.map fun s : Nat => s / 255 + 1).sum + ns.sum : Nat) : Int) := by
  induction ns with
  | nil => rfl
  | cons n ns ih =>
    simp only [ints, List.map_cons, List.sum_cons] at *
    have : (n : Int).tdiv 255 = ((n / 255 : Nat) : Int) := by
      rw [Int.tdiv_eq_ediv_of_nonneg (by omega)]; omega
    rw [this]
    omega

/-- The size announced is the length of what is written. -/
theorem blockSize_eq (simple : Bool) (enc : Enc) (h : Head) (fs : List Bytes) (bytes : Bytes)
    (hw : writeBlock simple enc h fs = .ok bytes) (hn : h.lacing = .none → fs.length ≤ 1) :
    blockSize enc h fs = bytes.length := by
  unfold writeBlock at hw
  cases hr : renderHead simple h with
  | none => rw [hr] at hw; simp at hw
  | some hd =>
    rw [hr] at hw
    simp only at hw
    obtain ⟨l, hl, hw⟩ := bind_eq_ok hw
    obtain ⟨p, hp, hw⟩ := bind_eq_ok hw
    simp only [Out.ok.injEq] at hw
    subst hw
    obtain ⟨ns, e1, e2⟩ := writeFrames_sizes enc fs p hp
    rw [e1] at hl
    obtain ⟨el, hne⟩ := writeLace_ok _ _ _ hl
    have elen := laceHead_length h.lacing ns
    have hcount : fs.length = ns.length := by
      have := congrArg List.length e1
      simpa [ints] using this
    have hhd := renderHead_length simple h hd hr
    simp only [List.length_append, el, e2, hhd, elen]
    unfold blockSize
    simp only [e1]
    cases hlac : h.lacing with
    | none =>
      have hlen := hn hlac
      rw [hcount] at hlen
      match ns, hlen with
      | [], _ => simp [ints]
      | [n], _ => simp [ints]
    | fixed =>
      simp only [ints_sum]
      omega
    | xiph =>
      simp only [ints_dropLast, xiph_sum, ints_getLastD]
      have := sum_split ns
      omega
    | ebml =>
      have hne' := hne (by rw [hlac]; simp)
      match ns, hne' with
      | s :: rest, _ =>
        have g1 : (List.map (fun n : Nat => (n : Int)) rest).dropLast = ints rest.dropLast := ints_dropLast rest
        have g2 : (List.map (fun n : Nat => (n : Int)) rest).getLastD 0 = (rest.getLastD 0 : Nat) := ints_getLastD rest
        have g3 := sizeEbml_eq rest.dropLast s
        have := sum_split rest
        simp only [ints, List.map_cons, List.sum_cons, g2]
        rw [g1, g3]
        omega

/-! Number of sizes parsed -/

theorem xiphSizes_length (n : Nat) : ∀ (last : UInt8) (s : Bytes) (left loc : Nat) (r : List Nat × Nat),
    xiphSizes n last s left loc = .ok r → r.1.length = n + 1 := by
  induction n with
  | zero => intro last s left loc r h; simp only [xiphSizes, Out.ok.injEq] at h; subst h; rfl
  | succ n ih =>
    intro last s left loc r h
    simp only [xiphSizes] at h
    cases hx : xiphRead last s 0 0 with
    | none => rw [hx] at h; simp at h
    | some q =>
      obtain ⟨a, b, c, d⟩ := q
      rw [hx] at h
      obtain ⟨r', h1, h2⟩ := bind_eq_ok h
      simp only [Out.ok.injEq] at h2
      subst h2
      simp [ih _ _ _ _ _ h1]

theorem ebmlDeltas_length (n : Nat) : ∀ (buf : Bytes) (left prev loc : Nat) (r : List Nat × Nat),
    ebmlDeltas n buf left prev loc = .ok r → r.1.length = n + 1 := by
  induction n with
  | zero => intro buf left prev loc r h; simp only [ebmlDeltas, Out.ok.injEq] at h; subst h; rfl
  | succ n ih =>
    intro buf left prev loc r h
    simp only [ebmlDeltas] at h
    cases hx : readVintAt buf left with
    | none => rw [hx] at h; simp at h
    | some c =>
      rw [hx] at h
      obtain ⟨r', h1, h2⟩ := bind_eq_ok h
      simp only [Out.ok.injEq] at h2
      subst h2
      simp [ih _ _ _ _ _ h1]

theorem parseSizes_length (lac : Lacing) (hs : Nat) (data : Bytes) (dataSize : Nat) (r : List Nat × Nat)
    (h : parseSizes lac hs data dataSize = .ok r) :
    r.1.length = if lac = .none then 1 else (countByte data hs).toNat + 1 := by
  cases lac with
  | none => simp only [parseSizes, Out.ok.injEq] at h; subst h; rfl
  | xiph => simp only [parseSizes] at h; simpa using xiphSizes_length _ _ _ _ _ _ h
  | fixed => simp only [parseSizes, Out.ok.injEq] at h; subst h; simp
  | ebml =>
    simp only [parseSizes, ebmlSizes] at h
    cases hc : (countByte data hs).toNat with
    | zero => rw [hc] at h; simp at h
    | succ k =>
      rw [hc] at h
      simp only at h
      cases hx : readVintAt (List.take ((k + 1) * 4) (List.drop (hs + 1) data)) (u32 ((dataSize : Int) - hs - 1)) with
      | none => rw [hx] at h; simp at h
      | some c =>
        rw [hx] at h
        obtain ⟨r', h1, h2⟩ := bind_eq_ok h
        simp only [Out.ok.injEq] at h2
        subst h2
        simp [ebmlDeltas_length _ _ _ _ _ _ h1]

/-! Sums of the sizes parsed, modulo 2^32 -/

theorem u32_mod (x : Int) : ((u32 x : Nat) : Int) % 2 ^ 32 = x % 2 ^ 32 := by
  unfold u32
  simp only [Int.reducePow]
  omega

theorem xiphSizes_sum (n : Nat) : ∀ (last : UInt8) (s : Bytes) (left loc : Nat) (r : List Nat × Nat),
    xiphSizes n last s left loc = .ok r → (((r.1.sum + r.2 : Nat) : Int)) % 2 ^ 32 = ((left + loc : Nat) : Int) % 2 ^ 32 := by
  induction n with
  | zero =>
    intro last s left loc r h
    simp only [xiphSizes, Out.ok.injEq] at h
    subst h
    simp
  | succ n ih =>
    intro last s left loc r h
    simp only [xiphSizes] at h
    cases hx : xiphRead last s 0 0 with
    | none => rw [hx] at h; simp at h
    | some q =>
      obtain ⟨a, b, c, d⟩ := q
      rw [hx] at h
      obtain ⟨r', h1, h2⟩ := bind_eq_ok h
      simp only [Out.ok.injEq] at h2
      subst h2
      have g := ih _ _ _ _ _ h1
      have m1 := u32_mod ((left : Int) - b - a)
      have m2 := u32_mod (a : Int)
      simp only [List.sum_cons, Int.reducePow] at *
      omega

theorem ebmlDeltas_sum (n : Nat) : ∀ (buf : Bytes) (left prev loc : Nat) (r : List Nat × Nat),
    ebmlDeltas n buf left prev loc = .ok r → (((r.1.sum + r.2 : Nat) : Int)) % 2 ^ 32 = ((left + loc : Nat) : Int) % 2 ^ 32 := by
  induction n with
  | zero =>
    intro buf left prev loc r h
    simp only [ebmlDeltas, Out.ok.injEq] at h
    subst h
    simp
  | succ n ih =>
    intro buf left prev loc r h
    simp only [ebmlDeltas] at h
    cases hx : readVintAt buf left with
    | none => rw [hx] at h; simp at h
    | some c =>
      rw [hx] at h
      obtain ⟨r', h1, h2⟩ := bind_eq_ok h
      simp only [Out.ok.injEq] at h2
      subst h2
      have g := ih _ _ _ _ _ h1
      generalize u32 ((prev : Int) + ((c.value : Int) - readBias c.len)) = size at *
      have m1 := u32_mod ((left : Int) - size - c.len)
      simp only [List.sum_cons, Int.reducePow] at *
      omega

theorem parseSizes_sum (lac : Lacing) (hs : Nat) (data : Bytes) (dataSize : Nat) (r : List Nat × Nat)
    (hl : lac ≠ .fixed) (h : parseSizes lac hs data dataSize = .ok r) :
    (((r.1.sum + r.2 : Nat) : Int)) % 2 ^ 32 = (dataSize : Int) % 2 ^ 32 := by
  cases lac with
  | none =>
    simp only [parseSizes, Out.ok.injEq] at h
    subst h
    have m1 := u32_mod ((dataSize : Int) - hs)
    simp only [List.sum_cons, List.sum_nil, Int.reducePow] at *
    omega
  | fixed => exact absurd rfl hl
  | xiph =>
    simp only [parseSizes] at h
    have g := xiphSizes_sum _ _ _ _ _ _ h
    have m1 := u32_mod ((dataSize : Int) - hs - 1)
    simp only [Int.reducePow] at *
    omega
  | ebml =>
    simp only [parseSizes, ebmlSizes] at h
    cases hc : (countByte data hs).toNat with
    | zero => rw [hc] at h; simp at h
    | succ k =>
      rw [hc] at h
      simp only at h
      cases hx : readVintAt (List.take ((k + 1) * 4) (List.drop (hs + 1) data)) (u32 ((dataSize : Int) - hs - 1)) with
      | none => rw [hx] at h; simp at h
      | some c =>
        rw [hx] at h
        obtain ⟨r', h1, h2⟩ := bind_eq_ok h
        simp only [Out.ok.injEq] at h2
        subst h2
        have g := ebmlDeltas_sum _ _ _ _ _ _ h1
        have m1 := u32_mod ((dataSize : Int) - hs - 1)
        generalize u32 ((dataSize : Int) - hs - 1) = left at *
        generalize u32 (c.value : Int) = size at *
        have m2 := u32_mod ((left : Int) - size - c.len)
        simp only [List.sum_cons, Int.reducePow] at *
        omega

theorem bufSize_iff (ns : List Nat) : (bufSize ns = (ns.sum : Nat) ↔ ∀ n ∈ ns, n < 2 ^ 31) ∧ bufSize ns ≤ (ns.sum : Nat) := by
  induction ns with
  | nil => simp [bufSize]
  | cons n ns ih =>
    obtain ⟨ih1, ih2⟩ := ih
    have hb : bufSize (n :: ns) = s32 n + bufSize ns := by simp [bufSize]
    rw [hb]
    by_cases h : n < 2 ^ 31
    · rw [s32_of_lt n h]
      simp only [List.sum_cons, List.forall_mem_cons, h, true_and]
      rw [← ih1]
      constructor
      · constructor <;> intro _ <;> omega
      · omega
    · have : s32 n = (n : Int) - 2 ^ 32 := by unfold s32; rw [if_neg h]
      rw [this]
      simp only [List.sum_cons, List.forall_mem_cons, h, false_and, iff_false]
      constructor
      · simp only [Int.reducePow]; omega
      · simp only [Int.reducePow]; omega

theorem readZlib_length (inflate : Bytes → Option Bytes) (ns : List Nat) : ∀ (s : Bytes) (r : List Nat × Bytes),
    readZlib inflate s ns = .ok r → r.1.length = ns.length := by
  induction ns with
  | nil => intro s r h; simp only [readZlib, Out.ok.injEq] at h; subst h; rfl
  | cons n ns ih =>
    intro s r h
    simp only [readZlib] at h
    by_cases h1 : s32 n < 0 ∨ s.length < n
    · rw [if_pos h1] at h; simp at h
    rw [if_neg h1] at h
    cases hx : inflate (s.take n) with
    | none => rw [hx] at h; simp at h
    | some f =>
      rw [hx] at h
      obtain ⟨r', h1, h2⟩ := bind_eq_ok h
      simp only [Out.ok.injEq] at h2
      subst h2
      simp [ih _ _ h1]

theorem stripFrames_err (hdr : Bytes) (fs : List Bytes) (hlen : ∀ f ∈ fs, hdr.length ≤ f.length)
    (hbad : ∃ f ∈ fs, f.take hdr.length ≠ hdr) :
    stripFrames hdr fs.flatten (fs.map List.length) = .err := by
  induction fs with
  | nil => simp at hbad
  | cons f fs ih =>
    have hl := hlen f (by simp)
    simp only [List.flatten_cons, List.map_cons, stripFrames]
    rw [if_neg (by simp only [List.length_append]; omega), List.take_append_of_le_length hl]
    by_cases h0 : f.take hdr.length ≠ hdr
    · rw [if_pos h0]
    rw [if_neg h0, if_neg (by omega), List.drop_left' rfl]
    obtain ⟨g, hg, hx⟩ := hbad
    rcases List.mem_cons.1 hg with rfl | hg
    · exact absurd hx h0
    · rw [ih (fun x hx => hlen x (List.mem_cons_of_mem _ hx)) ⟨g, hg, hx⟩]
      rfl

/-! Estimates -/

theorem codedSizeLengthSigned_le3 (v : Int) (h : -1048576 < v ∧ v < 1048576) : codedSizeLengthSigned v 0 ≤ 3 := by
  simp only [codedSizeLengthSigned]
  (repeat' split) <;> omega

theorem codedSizeLengthSigned_le5 (v : Int) : codedSizeLengthSigned v 0 ≤ 5 := by
  simp only [codedSizeLengthSigned]
  (repeat' split) <;> omega

theorem ebmlEstimate_le5 (ss : List Int) : ∀ d : Int, ebmlEstimate d ss ≤ 5 * ss.length := by
  induction ss with
  | nil => intro d; simp [ebmlEstimate]
  | cons s ss ih =>
    intro d
    have := codedSizeLengthSigned_le5 (s - d)
    have := ih (s - d)
    simp only [ebmlEstimate, List.length_cons]
    omega

theorem ebmlEstimate_le3 (ns : List Nat) : ∀ d : Int, (d.natAbs + ns.sum < 1048576) →
    ebmlEstimate d (ints ns) ≤ 3 * ns.length := by
  induction ns with
  | nil => intro d _; simp [ebmlEstimate, ints]
  | cons n ns ih =>
    intro d hd
    simp only [List.sum_cons] at hd
    have := codedSizeLengthSigned_le3 ((n : Int) - d) (by omega)
    have := ih ((n : Int) - d) (by omega)
    simp only [ints, List.map_cons, ebmlEstimate, List.length_cons] at *
    omega

theorem sum_le_255 (ns : List Nat) : ns.sum + ns.length ≤ 255 * (ns.map fun s => s / 255 + 1).sum := by
  induction ns with
  | nil => simp
  | cons n ns ih =>
    simp only [List.sum_cons, List.length_cons, List.map_cons]
    omega

end Verif.Mkv
