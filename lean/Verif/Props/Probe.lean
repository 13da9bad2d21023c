import Verif.Ebml.FindId
/-!
Property C246: what the probe for the first element finds is an element head.
-/
namespace Verif.Ebml.Probe
open Verif Verif.Ebml

/-- The first of these bytes says that there are as many of them: its highest bit is the one for this length. -/
def Marked (bs : Bytes) (n : Nat) : Prop := ∃ b r, bs = b :: r ∧ 2 ^ (8 - n) ≤ b.toNat ∧ b.toNat < 2 ^ (9 - n)

/-- A complete ID: one to four bytes, as the first says. -/
def IsId (bs : Bytes) : Prop := 1 ≤ bs.length ∧ bs.length ≤ 4 ∧ Marked bs bs.length

/-- A complete size field: one to eight bytes, as the first says. -/
def IsSize (bs : Bytes) : Prop := 1 ≤ bs.length ∧ bs.length ≤ 8 ∧ Marked bs bs.length

/-! ### Helpers -/

theorem markers (b : UInt8) :
    (b &&& 0x80 ≠ 0 ↔ 2 ^ 7 ≤ b.toNat ∧ b.toNat < 2 ^ 8) ∧
    (b &&& 0x80 = 0 → (b &&& ((0x80 : UInt8) >>> 1) ≠ 0 ↔ 2 ^ 6 ≤ b.toNat ∧ b.toNat < 2 ^ 7)) ∧
    (b &&& 0x80 = 0 → b &&& ((0x80 : UInt8) >>> 1) = 0 → (b &&& ((0x80 : UInt8) >>> 1 >>> 1) ≠ 0 ↔ 2 ^ 5 ≤ b.toNat ∧ b.toNat < 2 ^ 6)) ∧
    (b &&& 0x80 = 0 → b &&& ((0x80 : UInt8) >>> 1) = 0 → b &&& ((0x80 : UInt8) >>> 1 >>> 1) = 0 →
      (b &&& ((0x80 : UInt8) >>> 1 >>> 1 >>> 1) ≠ 0 ↔ 2 ^ 4 ≤ b.toNat ∧ b.toNat < 2 ^ 5)) := by
  revert b
  apply forall_u8
  decide +kernel

theorem marked_of (b : UInt8) (r : Bytes) (n : Nat) (h : 2 ^ (8 - n) ≤ b.toNat ∧ b.toNat < 2 ^ (9 - n)) : Marked (b :: r) n :=
  ⟨b, r, rfl, h.1, h.2⟩

theorem idLoop_first (mask b : UInt8) (rest : Bytes) :
    idLoop mask 0 [] (b :: rest) = if b &&& mask ≠ 0 then .found [b] rest else idLoop (mask >>> 1) 1 [b] rest := by
  rw [idLoop]; rfl

theorem idLoop_more (mask b0 b : UInt8) (r rest : Bytes) (h : r.length < 3) :
    idLoop mask (r.length + 1) (b0 :: r) (b :: rest) =
      if b0 &&& mask ≠ 0 then .found (b0 :: (r ++ [b])) rest else idLoop (mask >>> 1) (r.length + 2) (b0 :: (r ++ [b])) rest := by
  rw [idLoop, if_neg (by rw [List.length_cons]; omega), if_neg (by rw [List.length_cons]; omega), if_neg (by rw [List.length_cons]; omega)]
  rfl

theorem idLoop_nil (mask : UInt8) (rs : Nat) (id : Bytes) : idLoop mask rs id [] = .eof id := by rw [idLoop]

/-- What the loop over the ID finds. -/
theorem idLoop_sound (data id rest : Bytes) (h : idLoop 0x80 0 [] data = .found id rest) : IsId id ∧ data = id ++ rest := by
  match data with
  | [] => rw [idLoop_nil] at h; cases h
  | b0 :: data =>
    obtain ⟨m1, m2, m3, m4⟩ := markers b0
    rw [idLoop_first] at h
    by_cases c1 : b0 &&& 0x80 = 0
    · rw [if_neg (not_not_intro c1)] at h
      match data with
      | [] => rw [idLoop_nil] at h; cases h
      | b1 :: data =>
        have e := idLoop_more ((0x80 : UInt8) >>> 1) b0 b1 [] data (by decide)
        rw [show ([] : Bytes).length + 1 = 1 from rfl] at e
        rw [e] at h
        by_cases c2 : b0 &&& ((0x80 : UInt8) >>> 1) = 0
        · rw [if_neg (not_not_intro c2)] at h
          match data with
          | [] => rw [idLoop_nil] at h; cases h
          | b2 :: data =>
            have e := idLoop_more ((0x80 : UInt8) >>> 1 >>> 1) b0 b2 [b1] data (by simp)
            rw [show (b0 :: ([] ++ [b1]) : Bytes) = b0 :: [b1] from rfl] at h
            rw [show ([] : Bytes).length + 2 = [b1].length + 1 from rfl, e] at h
            by_cases c3 : b0 &&& ((0x80 : UInt8) >>> 1 >>> 1) = 0
            · rw [if_neg (not_not_intro c3)] at h
              match data with
              | [] => rw [idLoop_nil] at h; cases h
              | b3 :: data =>
                have e := idLoop_more ((0x80 : UInt8) >>> 1 >>> 1 >>> 1) b0 b3 [b1, b2] data (by simp)
                rw [show (b0 :: ([b1] ++ [b2]) : Bytes) = b0 :: [b1, b2] from rfl] at h
                rw [show [b1].length + 2 = [b1, b2].length + 1 from rfl, e] at h
                by_cases c4 : b0 &&& ((0x80 : UInt8) >>> 1 >>> 1 >>> 1) = 0
                · rw [if_neg (not_not_intro c4)] at h
                  match data with
                  | [] => rw [idLoop_nil] at h; cases h
                  | b4 :: data =>
                    rw [idLoop, if_pos (by simp)] at h
                    cases h
                · rw [if_pos c4] at h
                  cases h
                  exact ⟨⟨by simp, by simp, marked_of b0 _ 4 ((m4 c1 c2 c3).1 c4)⟩, rfl⟩
            · rw [if_pos c3] at h
              cases h
              exact ⟨⟨by simp, by simp, marked_of b0 _ 3 ((m3 c1 c2).1 c3)⟩, rfl⟩
        · rw [if_pos c2] at h
          cases h
          exact ⟨⟨by simp, by simp, marked_of b0 _ 2 ((m2 c1).1 c2)⟩, rfl⟩
    · rw [if_pos c1] at h
      cases h
      exact ⟨⟨by simp, by simp, marked_of b0 _ 1 (m1.1 c1)⟩, rfl⟩

/-- Complete IDs are found. -/
theorem idLoop_complete (id rest : Bytes) (h : IsId id) : idLoop 0x80 0 [] (id ++ rest) = .found id rest := by
  obtain ⟨h1, h4, b, r, rfl, hlo, hhi⟩ := h
  obtain ⟨m1, m2, m3, m4⟩ := markers b
  simp only [List.length_cons] at h1 h4 hlo hhi
  match r with
  | [] =>
    have c1 := m1.2 ⟨hlo, hhi⟩
    simp [idLoop, c1]
  | [b1] =>
    simp only [List.length_cons, List.length_nil, Nat.zero_add, Nat.reduceAdd, Nat.reduceSub, Nat.reducePow] at hlo hhi m1 m2
    have c1 : b &&& 0x80 = 0 := Classical.byContradiction fun c => by have := m1.1 c; omega
    have c2 := (m2 c1).2 ⟨hlo, hhi⟩
    simp [idLoop, c1, c2]
  | [b1, b2] =>
    simp only [List.length_cons, List.length_nil, Nat.zero_add, Nat.reduceAdd, Nat.reduceSub, Nat.reducePow] at hlo hhi m1 m2 m3
    have c1 : b &&& 0x80 = 0 := Classical.byContradiction fun c => by have := m1.1 c; omega
    have c2 : b &&& ((0x80 : UInt8) >>> 1) = 0 := Classical.byContradiction fun c => by have := (m2 c1).1 c; omega
    have c3 := (m3 c1 c2).2 ⟨hlo, hhi⟩
    simp [idLoop, c1, c2, c3]
  | [b1, b2, b3] =>
    simp only [List.length_cons, List.length_nil, Nat.zero_add, Nat.reduceAdd, Nat.reduceSub, Nat.reducePow] at hlo hhi m1 m2 m3 m4
    have c1 : b &&& 0x80 = 0 := Classical.byContradiction fun c => by have := m1.1 c; omega
    have c2 : b &&& ((0x80 : UInt8) >>> 1) = 0 := Classical.byContradiction fun c => by have := (m2 c1).1 c; omega
    have c3 : b &&& ((0x80 : UInt8) >>> 1 >>> 1) = 0 := Classical.byContradiction fun c => by have := (m3 c1 c2).1 c; omega
    have c4 := (m4 c1 c2 c3).2 ⟨hlo, hhi⟩
    simp [idLoop, c1, c2, c3, c4]
  | b1 :: b2 :: b3 :: b4 :: r => simp at h4

theorem marked_unique {bs : Bytes} {n m : Nat} (h : Marked bs n) (h' : Marked bs m) (hn : n ≤ 8) (hm : m ≤ 8) : n = m := by
  obtain ⟨b, r, rfl, h1, h2⟩ := h
  obtain ⟨b', r', e, h3, h4⟩ := h'
  cases e
  have p1 := Nat.pow_lt_pow_iff_right (a := 2) (n := 8 - n) (m := 9 - m) (by decide)
  have p2 := Nat.pow_lt_pow_iff_right (a := 2) (n := 8 - m) (m := 9 - n) (by decide)
  have := p1.1 (by omega)
  have := p2.1 (by omega)
  omega

/-- The length read is the one marked, when the bytes are there. -/
theorem len_marked (b : UInt8) (r : Bytes) (n : Nat) (h1 : 1 ≤ n) (h8 : n ≤ 8) (hm : Marked (b :: r) n) :
    (readCodedSize (b :: r)).len = if n ≤ (b :: r).length then n else 0 := by
  obtain ⟨b', r', e, hlo, hhi⟩ := hm
  cases e
  split
  · rename_i hl
    have : findMarker b (b :: r).length 8 = some (n - 1) := by
      rw [findMarker_iff]
      refine ⟨by omega, by omega, ?_, ?_⟩
      · rw [show 7 - (n - 1) = 8 - n by omega]; exact hlo
      · rw [show 8 - (n - 1) = 9 - n by omega]; exact hhi
    unfold readCodedSize
    simp only [this]
    omega
  · rename_i hl
    have : findMarker b (b :: r).length 8 = none := by
      cases hf : findMarker b (b :: r).length 8 with
      | none => rfl
      | some i =>
        exfalso
        obtain ⟨i1, i2, i3, i4⟩ := (findMarker_iff b _ i).1 hf
        have := marked_unique (bs := b :: r) (n := n) (m := i + 1) ⟨b, r, rfl, hlo, hhi⟩
          ⟨b, r, rfl, by rw [show 8 - (i + 1) = 7 - i by omega]; exact i3, by rw [show 9 - (i + 1) = 8 - i by omega]; exact i4⟩ h8 (by omega)
        omega
    unfold readCodedSize
    simp only [this]

theorem marked_cons (b : UInt8) (r r' : Bytes) (n : Nat) : Marked (b :: r) n ↔ Marked (b :: r') n := by
  constructor
  · rintro ⟨b', _, e, h⟩; cases e; exact ⟨b, r', rfl, h⟩
  · rintro ⟨b', _, e, h⟩; cases e; exact ⟨b, r, rfl, h⟩

/-- A length read is marked. -/
theorem marked_len (bs : Bytes) (h : (readCodedSize bs).len ≠ 0) :
    1 ≤ (readCodedSize bs).len ∧ (readCodedSize bs).len ≤ 8 ∧ (readCodedSize bs).len ≤ bs.length ∧ Marked bs (readCodedSize bs).len := by
  match bs with
  | [] => exact absurd rfl h
  | b :: r =>
    cases hf : findMarker b (b :: r).length 8 with
    | none => exfalso; apply h; unfold readCodedSize; simp only [hf]
    | some i =>
      obtain ⟨i1, i2, i3, i4⟩ := (findMarker_iff b _ i).1 hf
      have : (readCodedSize (b :: r)).len = i + 1 := by unfold readCodedSize; simp only [hf]
      rw [this]
      exact ⟨by omega, by omega, by omega, b, r, rfl, by rw [show 8 - (i + 1) = 7 - i by omega]; exact i3,
        by rw [show 9 - (i + 1) = 8 - i by omega]; exact i4⟩

/-- Complete size fields are found. -/
theorem sizeLoop_complete (rest : Bytes) : ∀ (more sz : Bytes), IsSize (sz ++ more) → more ≠ [] →
    sizeLoop sz sz.length (more ++ rest) = .done (sz ++ more) (sz ++ more).length (some (readCodedSize (sz ++ more))) rest := by
  intro more
  induction more with
  | nil => intro sz _ h; exact absurd rfl h
  | cons b more ih =>
    intro sz hs _
    obtain ⟨h1, h8, hm⟩ := hs
    have hl : (sz ++ b :: more).length = sz.length + 1 + more.length := by simp; omega
    have happ : sz ++ b :: more = sz ++ [b] ++ more := by simp
    have hpre : Marked (sz ++ [b]) (sz ++ b :: more).length := by
      match sz with
      | [] => exact (marked_cons b _ _ _).1 hm
      | c :: sz => exact (marked_cons c _ _ _).1 hm
    rw [List.cons_append, sizeLoop, if_neg (by omega)]
    have hlen : (readCodedSize (sz ++ [b])).len = if (sz ++ b :: more).length ≤ (sz ++ [b]).length then (sz ++ b :: more).length else 0 := by
      match sz with
      | [] => exact len_marked b [] _ h1 h8 hpre
      | c :: sz => exact len_marked c (sz ++ [b]) _ h1 h8 hpre
    match more with
    | [] =>
      rw [if_pos (by rw [if_pos (by simp)] at hlen; rw [hlen]; omega)]
      simp
    | d :: more =>
      rw [if_neg (by rw [if_neg (by simp)] at hlen; omega)]
      have := ih (sz ++ [b]) (by rw [← happ]; exact ⟨h1, h8, hm⟩) (by simp)
      rw [happ, ← this, List.length_append, List.length_singleton]

/-- What the loop over the size finds. -/
theorem sizeLoop_sound : ∀ (rest sz sz' : Bytes) (psl : Nat) (size : Option CodedSize) (rest' : Bytes),
    (readCodedSize sz).len = 0 → sizeLoop sz sz.length rest = .done sz' psl size rest' →
    (IsSize sz' ∧ sz ++ rest = sz' ++ rest' ∧ psl = sz'.length ∧ size = some (readCodedSize sz')) ∨
    ((readCodedSize (sz ++ rest)).len = 0 ∧ (sz ++ rest).length < 8 ∧ rest' = [] ∧ psl = (sz ++ rest).length + 1 ∧ size = none) := by
  intro rest
  induction rest with
  | nil =>
    intro sz sz' psl size rest' h0 h
    rw [sizeLoop] at h
    split at h
    · cases h
    · cases h
      rw [List.append_nil]
      exact .inr ⟨h0, by omega, rfl, rfl, rfl⟩
  | cons b rest ih =>
    intro sz sz' psl size rest' h0 h
    have happ : sz ++ b :: rest = sz ++ [b] ++ rest := by simp
    rw [sizeLoop] at h
    split at h
    · cases h
    · split at h
      · rename_i hlt hl
        cases h
        obtain ⟨a1, a2, a3, a4⟩ := marked_len _ hl
        refine .inl ⟨⟨by simp, by simp; omega, ?_⟩, happ, by simp, rfl⟩
        have : (readCodedSize (sz ++ [b])).len = (sz ++ [b]).length := by
          refine Nat.le_antisymm a3 (Nat.le_of_not_lt fun hlt => ?_)
          rw [List.length_append, List.length_singleton] at hlt
          match sz, h0 with
          | [], _ => exact absurd hlt (by rw [List.length_nil]; omega)
          | c :: sz, h0 =>
            have hm := (marked_cons c (sz ++ [b]) sz _).1 a4
            rw [len_marked c sz _ a1 a2 hm, if_pos (by omega)] at h0
            omega
        rw [this] at a4
        exact a4
      · rename_i hlt hl
        have := ih (sz ++ [b]) sz' psl size rest' (by omega) (by rw [List.length_append]; exact h)
        rw [happ]
        exact this

/-! ### C246 -/

/-- C246: a stream that starts with a complete ID and a complete size field is read as that. -/
theorem C246_heads_found (id sz rest : Bytes) (hid : IsId id) (hsz : IsSize sz) :
    probe (id ++ sz ++ rest) = .found id sz.length (some (readCodedSize sz)) rest := by
  unfold probe
  rw [outer, List.append_assoc, idLoop_complete id _ hid]
  have hne : sz ≠ [] := by rintro rfl; exact absurd hsz.1 (by simp)
  have := sizeLoop_complete rest sz [] hsz hne
  rw [List.nil_append, List.length_nil] at this
  simp only [this]

/-- C246: what is found is a complete ID at the start of the stream with a complete size field, or the stream ends within
the size field. -/
theorem C246_only_heads_partial (data id rest : Bytes) (psl : Nat) (size : Option CodedSize)
    (h : probe data = .found id psl size rest) :
    IsId id ∧ ((∃ sz, IsSize sz ∧ data = id ++ sz ++ rest ∧ psl = sz.length ∧ size = some (readCodedSize sz)) ∨
      (∃ sz, data = id ++ sz ∧ sz.length < 8 ∧ (∀ n, 1 ≤ n → n ≤ sz.length → ¬ Marked sz n) ∧ rest = [] ∧ psl = sz.length + 1 ∧
        size = none)) := by
  unfold probe at h
  rw [outer] at h
  split at h
  · cases h
  · cases h
  · rename_i id' rest' hi
    obtain ⟨hid, rfl⟩ := idLoop_sound data id' rest' hi
    split at h
    · cases h
    · cases h
    · rename_i sz' psl' size' rest2 hs
      cases h
      refine ⟨hid, ?_⟩
      rcases sizeLoop_sound rest' [] sz' psl size rest rfl hs with ⟨h1, h2, h3, h4⟩ | ⟨h1, h2, h3, h4, h5⟩
      · rw [List.nil_append] at h2
        exact .inl ⟨sz', h1, by rw [h2, List.append_assoc], h3, h4⟩
      · rw [List.nil_append] at h1 h2 h4
        refine .inr ⟨rest', rfl, h2, ?_, h3, h4, h5⟩
        intro n hn1 hn2 hm
        match rest', hm, hn2 with
        | [], ⟨_, _, e, _⟩, _ => cases e
        | b :: r, hm, hn2 =>
          have := len_marked b r n hn1 (by omega) hm
          rw [if_pos hn2] at this
          omega
  · rename_i id' hi
    exfalso
    rw [sizeLoop, if_neg (by decide)] at h
    simp only at h
    rw [(outer_eof 9 id' [] 1 (by decide)).2 (by decide)] at h
    cases h

/-- C246 with "complete" fails: a head that is cut off within its size field is found, with size 0. -/
theorem C246_cut_counterexample : probe [0x42, 0x82, 0x40] = .found [0x42, 0x82] 2 none [] := by decide +kernel

example : IsId [0x1A, 0x45, 0xDF, 0xA3] ∧ IsSize [0x40, 0x20] ∧
    probe ([0x1A, 0x45, 0xDF, 0xA3] ++ [0x40, 0x20] ++ [7]) = .found [0x1A, 0x45, 0xDF, 0xA3] 2 (some (readCodedSize [0x40, 0x20])) [7] :=
  ⟨⟨by decide, by decide, 0x1A, _, rfl, by decide, by decide⟩, ⟨by decide, by decide, 0x40, _, rfl, by decide, by decide⟩, by decide +kernel⟩

end Verif.Ebml.Probe
