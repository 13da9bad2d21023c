import Verif.Bzip.HeadLemmas
/-!
The windows of `mtfa` against a plain list in which entries are moved to the front.
-/
namespace Verif.Bzip
open Verif Verif.Mkv

theorem upd_same (m : Mem) (i v : Nat) : upd m i v i = v := by simp [upd]

theorem upd_ne (m : Mem) (i v j : Nat) (h : j ≠ i) : upd m i v j = m j := by simp [upd, h]

theorem upd_get (m : Mem) (i v j : Nat) : upd m i v j = if j = i then v else m j := rfl

/-- The table entry that is kept at window `k / 16`. -/
def view (m : Mtf) (k : Nat) : Nat := m.a (m.base (k / 16) + k % 16)

/-- The windows do not overlap, and there is room in front. -/
structure Windows (m : Mtf) : Prop where
  sep : ∀ i j, i < j → j < 16 → m.base i + 16 ≤ m.base j
  room : m.base 15 + 16 ≤ 4096
  front : 0 < m.base 0

/-- The windows show `t`. -/
structure Rep (m : Mtf) (t : List Nat) : Prop where
  win : Windows m
  length : t.length ≤ 256
  view : ∀ k, k < t.length → view m k = t.getD k 0

theorem toFront_getD (t : List Nat) (v k : Nat) : (toFront t v).getD k 0 = if k = 0 then t.getD v 0 else if k ≤ v then t.getD (k - 1) 0 else t.getD k 0 := by
  cases k with
  | zero => rfl
  | succ k =>
    rw [toFront, List.getD_cons_succ, if_neg (by omega)]
    simp only [List.getD_eq_getElem?_getD, List.getElem?_eraseIdx, Nat.add_sub_cancel]
    by_cases h : k < v
    · rw [if_pos h, if_pos (by omega)]
    · rw [if_neg h, if_neg (by omega)]

theorem slide_get (p nn : Nat) : ∀ (a : Mem) x, slide p nn a x = if p < x ∧ x ≤ p + nn then a (x - 1) else a x := by
  induction nn with
  | zero => intro a x; rw [if_neg (by omega)]; rfl
  | succ nn ih =>
    intro a x
    rw [slide, ih, upd_get, upd_get]
    by_cases h1 : p < x ∧ x ≤ p + nn
    · rw [if_pos h1, if_neg (by omega), if_pos (by omega)]
    · rw [if_neg h1]
      by_cases h2 : x = p + nn + 1
      · rw [if_pos h2, if_pos (by omega)]
        congr 1; omega
      · rw [if_neg h2, if_neg (by omega)]

theorem carry_spec (l0 : Nat) : ∀ m : Mtf, (∀ i j, i < j → j ≤ l0 → m.base i + 16 ≤ m.base j) →
    (∀ i, (carry l0 m).base i = if 1 ≤ i ∧ i ≤ l0 then m.base i - 1 else m.base i) ∧
    (∀ i, 1 ≤ i → i ≤ l0 → (carry l0 m).a (m.base i - 1) = m.a (m.base (i - 1) + 15)) ∧
    (∀ x, (∀ i, 1 ≤ i → i ≤ l0 → x ≠ m.base i - 1) → (carry l0 m).a x = m.a x) := by
  induction l0 with
  | zero => intro m _; exact ⟨fun i => by rw [if_neg (by omega)]; rfl, fun i h1 h2 => by omega, fun x _ => rfl⟩
  | succ l ih =>
    intro m hs
    have hb : ∀ i, i ≠ l + 1 → (upd m.base (l + 1) (m.base (l + 1) - 1)) i = m.base i := fun i hi => upd_ne _ _ _ _ hi
    obtain ⟨h1, h2, h3⟩ := ih ⟨upd m.a (m.base (l + 1) - 1) (m.a (m.base l + 15)), upd m.base (l + 1) (m.base (l + 1) - 1)⟩ (by
      intro i j hij hj
      simp only
      rw [hb i (by omega), hb j (by omega)]
      exact hs i j hij (by omega))
    have hc : carry (l + 1) m = carry l ⟨upd m.a (m.base (l + 1) - 1) (m.a (m.base l + 15)), upd m.base (l + 1) (m.base (l + 1) - 1)⟩ := by
      rw [carry]
      simp only [upd_same]
      rw [hb l (by omega)]
    have hl := hs l (l + 1) (by omega) (by omega)
    rw [hc]
    refine ⟨?_, ?_, ?_⟩
    · intro i
      rw [h1]
      simp only
      by_cases hi : i = l + 1
      · subst hi; rw [if_neg (by omega), if_pos (by omega), upd_same]
      · rw [hb i hi]
        by_cases h : 1 ≤ i ∧ i ≤ l
        · rw [if_pos h, if_pos (by omega)]
        · rw [if_neg h, if_neg (by omega)]
    · intro i hi1 hi2
      by_cases hi : i = l + 1
      · subst hi
        rw [h3]
        · simp only [upd_same, Nat.add_sub_cancel]
        · intro j hj1 hj2
          simp only
          rw [hb j (by omega)]
          have := hs j (l + 1) (by omega) (by omega)
          omega
      · have e := h2 i hi1 (by omega)
        simp only at e
        rw [hb i (by omega), hb (i - 1) (by omega)] at e
        rw [e, upd_ne]
        have := hs (i - 1) l (by omega) (by omega)
        omega
    · intro x hx
      rw [h3]
      · simp only
        rw [upd_ne]
        exact hx (l + 1) (by omega) (by omega)
      · intro i hi1 hi2
        simp only
        rw [hb i (by omega)]
        exact hx i hi1 (by omega)

theorem refillRow_get (src k : Nat) (h : src ≤ k) (n : Nat) : ∀ (a : Mem) x, refillRow src k n a x = if k ≤ x ∧ x < k + n then a (src + (x - k)) else a x := by
  induction n with
  | zero => intro a x; rw [if_neg (by omega)]; rfl
  | succ n ih =>
    intro a x
    rw [refillRow, ih, upd_get, upd_get]
    by_cases h1 : k ≤ x ∧ x < k + n
    · rw [if_pos h1, if_neg (by omega), if_pos (by omega)]
    · rw [if_neg h1]
      by_cases h2 : x = k + n
      · rw [if_pos h2, if_pos (by omega)]
        congr 1; omega
      · rw [if_neg h2, if_neg (by omega)]

theorem refill_spec (n : Nat) : ∀ m : Mtf, (∀ i j, i < j → j < n → m.base i + 16 ≤ m.base j) → (∀ i, i < n → m.base i ≤ 3840 + 16 * i) →
    (∀ i, (refill n m).base i = if i < n then 3840 + 16 * i else m.base i) ∧
    (∀ i j, i < n → j < 16 → (refill n m).a (3840 + 16 * i + j) = m.a (m.base i + j)) ∧
    (∀ x, 3840 + 16 * n ≤ x → (refill n m).a x = m.a x) := by
  induction n with
  | zero => intro m _ _; exact ⟨fun i => by rw [if_neg (by omega)]; rfl, fun i j h => by omega, fun x _ => rfl⟩
  | succ n ih =>
    intro m hs hle
    have hb : ∀ i, i ≠ n → (upd m.base n (3840 + 16 * n)) i = m.base i := fun i hi => upd_ne _ _ _ _ hi
    have hn := hle n (by omega)
    obtain ⟨h1, h2, h3⟩ := ih ⟨refillRow (m.base n) (3840 + 16 * n) 16 m.a, upd m.base n (3840 + 16 * n)⟩ (by
      intro i j hij hj
      simp only
      rw [hb i (by omega), hb j (by omega)]
      exact hs i j hij (by omega)) (by
      intro i hi
      simp only
      rw [hb i (by omega)]
      exact hle i (by omega))
    rw [refill]
    refine ⟨?_, ?_, ?_⟩
    · intro i
      rw [h1]
      simp only
      by_cases hi : i = n
      · subst hi; rw [if_neg (by omega), if_pos (by omega), upd_same]
      · rw [hb i hi]
        by_cases h : i < n
        · rw [if_pos h, if_pos (by omega)]
        · rw [if_neg h, if_neg (by omega)]
    · intro i j hi hj
      by_cases hin : i = n
      · subst hin
        rw [h3 _ (by omega)]
        simp only
        rw [refillRow_get _ _ hn, if_pos (by omega)]
        congr 1; omega
      · rw [h2 i j (by omega) hj]
        simp only
        rw [hb i hin, refillRow_get _ _ hn, if_neg]
        have := hs i n (by omega) (by omega)
        omega
    · intro x hx
      rw [h3 _ (by omega)]
      simp only
      rw [refillRow_get _ _ hn, if_neg (by omega)]

theorem rep_init (t : List Nat) (n : Nat) (h : n ≤ 256) (ht : t = List.range n) : Rep mtfInit t := by
  subst ht
  refine ⟨⟨?_, ?_, ?_⟩, by simpa using h, ?_⟩
  · intro i j hij hj
    show 3840 + 16 * i + 16 ≤ 3840 + 16 * j
    omega
  · show 3840 + 16 * 15 + 16 ≤ 4096
    omega
  · show 0 < 3840 + 16 * 0
    omega
  · intro k hk
    rw [List.length_range] at hk
    rw [List.getD_eq_getElem?_getD, List.getElem?_range hk]
    show 3840 + 16 * (k / 16) + k % 16 - 3840 = k
    omega

/-- Moving window entries to the front is moving list entries to the front. -/
theorem mtfStep_spec (m : Mtf) (t : List Nat) (h : Rep m t) (nn : Nat) (hn : nn < t.length) :
    ∃ m', mtfStep m nn = .ok (t.getD nn 0, m') ∧ Rep m' (toFront t nn) := by
  obtain ⟨⟨sep, room, front⟩, hlen, hview⟩ := h
  have hlt := toFront_length t nn hn
  have hb : ∀ i, i < 16 → m.base i + 16 * (15 - i) ≤ 4080 := by
    intro i hi
    have key : ∀ d i, i + d = 15 → m.base i + 16 * d ≤ 4080 := by
      intro d
      induction d with
      | zero => intro i hi; have : i = 15 := by omega
                subst this; omega
      | succ d ih => intro i hi; have := ih (i + 1) (by omega); have := sep i (i + 1) (by omega) (by omega); omega
    exact key (15 - i) i (by omega)
  have hsize : mtfaSize = 4096 := rfl
  unfold mtfStep
  by_cases h16 : nn < 16
  · have h0 := hb 0 (by omega)
    rw [if_pos h16]
    simp only
    rw [if_pos (by rw [hsize]; omega)]
    have huc : m.a (m.base 0 + nn) = t.getD nn 0 := by
      rw [← hview nn hn, view, Nat.div_eq_of_lt h16, Nat.mod_eq_of_lt h16]
    refine ⟨⟨upd (slide (m.base 0) nn m.a) (m.base 0) (t.getD nn 0), m.base⟩, by rw [huc], ⟨sep, room, front⟩, by omega, ?_⟩
    intro k hk
    rw [hlt] at hk
    rw [toFront_getD]
    simp only [view]
    rw [upd_get]
    by_cases hk16 : k < 16
    · rw [Nat.div_eq_of_lt hk16, Nat.mod_eq_of_lt hk16]
      by_cases hk0 : k = 0
      · rw [if_pos (by omega), if_pos hk0]
      · rw [if_neg (by omega), if_neg hk0, slide_get]
        by_cases hkn : k ≤ nn
        · rw [if_pos (by omega), if_pos hkn, ← hview _ (by omega), view, Nat.div_eq_of_lt (by omega), Nat.mod_eq_of_lt (by omega)]
          congr 1; omega
        · rw [if_neg (by omega), if_neg hkn, ← hview _ hk, view, Nat.div_eq_of_lt hk16, Nat.mod_eq_of_lt hk16]
    · have := sep 0 (k / 16) (by omega) (by omega)
      rw [if_neg (by omega), slide_get, if_neg (by omega), if_neg (by omega), if_neg (by omega), ← hview k hk, view]
  · rw [if_neg h16]
    simp only
    have hl1 : 1 ≤ nn / 16 := by omega
    have hl2 : nn / 16 < 16 := by omega
    have hbl := hb _ hl2
    rw [if_pos ⟨hl2, by rw [hsize]; omega, fun l hl => by rw [hsize]; have := hb l (by omega); omega, front⟩]
    have huc : m.a (m.base (nn / 16) + nn % 16) = t.getD nn 0 := by rw [← hview nn hn, view]
    generalize hL : nn / 16 = L at *
    have hoff : nn % 16 < 16 := Nat.mod_lt _ (by omega)
    have hnn : nn = 16 * L + nn % 16 := by omega
    generalize nn % 16 = off at *
    -- the windows after the first step
    generalize hm1 : (⟨slide (m.base L) off m.a, upd m.base L (m.base L + 1)⟩ : Mtf) = m1
    have b1 : ∀ i, m1.base i = if i = L then m.base L + 1 else m.base i := by intro i; rw [← hm1]; rfl
    have a1 : ∀ x, m1.a x = if m.base L < x ∧ x ≤ m.base L + off then m.a (x - 1) else m.a x := by
      intro x; rw [← hm1]; exact slide_get _ _ _ _
    obtain ⟨c1, c2, c3⟩ := carry_spec L m1 (by
      intro i j hij hj
      rw [b1, b1, if_neg (by omega)]
      have := sep i j hij (by omega)
      split
      · subst j; omega
      · omega)
    have hb0 : (carry L m1).base 0 = m.base 0 := by rw [c1, if_neg (by omega), b1, if_neg (by omega)]
    rw [hb0, huc]
    generalize hm3 : (⟨upd (carry L m1).a (m.base 0 - 1) (t.getD nn 0), upd (carry L m1).base 0 (m.base 0 - 1)⟩ : Mtf) = m3
    have b3 : ∀ i, m3.base i = if i < L then m.base i - 1 else m.base i := by
      intro i
      rw [← hm3]
      simp only
      rw [upd_get]
      by_cases hi : i = 0
      · subst hi; rw [if_pos rfl, if_pos (by omega)]
      · rw [if_neg hi, c1]
        by_cases h : i < L
        · rw [if_pos (by omega), if_pos h, b1, if_neg (by omega)]
        · rw [if_neg h]
          by_cases h2 : i = L
          · rw [if_pos (by omega), b1, if_pos h2, h2]; omega
          · rw [if_neg (by omega), b1, if_neg h2]
    -- what is found where
    have a3 : ∀ x, x ≠ m.base 0 - 1 → (∀ i, 1 ≤ i → i < L → x ≠ m.base i - 1) → x ≠ m.base L → m3.a x = m1.a x := by
      intro x hx0 hxi hxL
      rw [← hm3]
      simp only
      rw [upd_ne _ _ _ _ hx0, c3]
      intro i hi1 hi2
      rw [b1]
      by_cases h : i = L
      · rw [if_pos h]; omega
      · rw [if_neg h]; exact hxi i hi1 (by omega)
    have v3 : ∀ k, k < t.length → m3.a (m3.base (k / 16) + k % 16) = (toFront t nn).getD k 0 := by
      intro k hk
      rw [toFront_getD, b3]
      have hk16 : k / 16 < 16 := by omega
      have hkj : k % 16 < 16 := Nat.mod_lt _ (by omega)
      have hkk : k = 16 * (k / 16) + k % 16 := by omega
      generalize k / 16 = i at *
      generalize k % 16 = j at *
      have hbi := hb i hk16
      have hpos : ∀ q, 1 ≤ q → q < 16 → 16 < m.base q := by
        intro q h1 h2; have := sep 0 q (by omega) h2; omega
      by_cases hiL : i < L
      · rw [if_pos hiL]
        by_cases hj0 : j = 0
        · by_cases hi0 : i = 0
          · rw [if_pos (by omega), hi0, hj0, ← hm3]
            simp only [Nat.add_zero, upd_same]
          · rw [if_neg (by omega), if_pos (by omega), hj0, Nat.add_zero, ← hm3]
            simp only
            rw [upd_ne _ _ _ _ (by have := sep 0 i (by omega) hk16; omega)]
            have e := c2 i (by omega) (by omega)
            rw [b1, if_neg (by omega), b1, if_neg (by omega), a1, if_neg (by have := sep (i - 1) L (by omega) hl2; omega)] at e
            rw [e, ← hview (k - 1) (by omega), view]
            congr 1
            rw [show (k - 1) / 16 = i - 1 from by omega, show (k - 1) % 16 = 15 from by omega]
        · rw [if_neg (by omega), if_pos (by omega)]
          have hpi : 0 < m.base i := by
            rcases Nat.eq_zero_or_pos i with h | h
            · subst h; exact front
            · have := hpos i h hk16; omega
          have hfar : ∀ q, i < q → q < 16 → m.base i - 1 + j < m.base q - 1 := by
            intro q h1 h2; have := sep i q h1 h2; omega
          have hbig : ∀ q, q < i → m.base q - 1 < m.base i - 1 + j := by
            intro q h1; have := sep q i h1 hk16; omega
          have hself : m.base i - 1 + j ≠ m.base i - 1 := by omega
          have hnot : ∀ q, q < L → m.base i - 1 + j ≠ m.base q - 1 := by
            intro q hq
            rcases Nat.lt_trichotomy q i with h | h | h
            · have := hbig q h; omega
            · subst h; exact hself
            · have := hfar q h (by omega); omega
          have hL' := hfar L hiL hl2
          rw [a3 _ (hnot 0 (by omega)) (fun q _ hq => hnot q hq) (by omega), a1, if_neg (by omega), ← hview (k - 1) (by omega), view]
          congr 1
          rw [show (k - 1) / 16 = i from by omega, show (k - 1) % 16 = j - 1 from by omega]
          omega
      · rw [if_neg hiL]
        have hsmall : ∀ q, q < L → m.base q - 1 < m.base i + j := by
          intro q hq
          have := sep q L hq hl2
          rcases Nat.lt_or_ge L i with h | h
          · have := sep L i h hk16; omega
          · have : i = L := by omega
            subst this; omega
        by_cases hi : i = L
        · subst hi
          by_cases hj0 : j = 0
          · subst hj0
            have e := c2 i (by omega) (by omega)
            rw [b1, if_pos rfl, Nat.add_sub_cancel, b1, if_neg (by omega), a1, if_neg (by have := sep (i - 1) i (by omega) hl2; omega)] at e
            rw [if_neg (by omega), if_pos (by omega), Nat.add_zero, ← hm3]
            simp only
            rw [upd_ne _ _ _ _ (by have := sep 0 i (by omega) hk16; omega), e, ← hview (k - 1) (by omega), view]
            congr 1
            rw [show (k - 1) / 16 = i - 1 from by omega, show (k - 1) % 16 = 15 from by omega]
          · rw [a3 _ (by have := hsmall 0 (by omega); omega) (fun q _ hq => by have := hsmall q hq; omega) (by omega), a1]
            by_cases hjo : j ≤ off
            · rw [if_pos (by omega), if_neg (by omega), if_pos (by omega), ← hview (k - 1) (by omega), view]
              congr 1
              rw [show (k - 1) / 16 = i from by omega, show (k - 1) % 16 = j - 1 from by omega]
              omega
            · rw [if_neg (by omega), if_neg (by omega), if_neg (by omega), ← hview k hk, view]
              congr 1
              rw [show k / 16 = i from by omega, show k % 16 = j from by omega]
        · have := sep L i (by omega) hk16
          rw [a3 _ (by have := hsmall 0 (by omega); omega) (fun q _ hq => by have := hsmall q hq; omega) (by omega), a1, if_neg (by omega),
            if_neg (by omega), if_neg (by omega), ← hview k hk, view]
          congr 1
          rw [show k / 16 = i from by omega, show k % 16 = j from by omega]
    have s3 : ∀ i j, i < j → j < 16 → m3.base i + 16 ≤ m3.base j := by
      intro i j hij hj
      have := sep i j hij hj
      have hij0 : 0 < m.base i := by
        rcases Nat.eq_zero_or_pos i with h | h
        · subst h; exact front
        · have := sep 0 i h (by omega); omega
      rw [b3, b3]
      split <;> split <;> omega
    have r3 : m3.base 15 + 16 ≤ 4096 := by rw [b3]; split <;> omega
    have f3 : m3.base 0 = m.base 0 - 1 := by rw [b3, if_pos (by omega)]
    by_cases hz : m.base 0 - 1 = 0
    · refine ⟨_, by rw [if_pos hz], ?_, by omega, ?_⟩
      · have hle : ∀ i, i < 16 → m3.base i ≤ 3840 + 16 * i := by
          intro i hi; have := hb i hi; rw [b3]; split <;> omega
        obtain ⟨g1, g2, g3⟩ := refill_spec 16 m3 s3 hle
        refine ⟨?_, ?_, ?_⟩
        · intro i j hij hj; rw [g1, g1, if_pos (by omega), if_pos hj]; omega
        · rw [g1, if_pos (by omega)]; omega
        · rw [g1, if_pos (by omega)]; omega
      · intro k hk
        rw [hlt] at hk
        have hle : ∀ i, i < 16 → m3.base i ≤ 3840 + 16 * i := by
          intro i hi; have := hb i hi; rw [b3]; split <;> omega
        obtain ⟨g1, g2, g3⟩ := refill_spec 16 m3 s3 hle
        rw [view, g1, if_pos (by omega), g2 _ _ (by omega) (Nat.mod_lt _ (by omega))]
        exact v3 k hk
    · refine ⟨_, by rw [if_neg hz], ⟨s3, r3, by omega⟩, by omega, ?_⟩
      intro k hk
      rw [hlt] at hk
      exact v3 k hk

end Verif.Bzip
