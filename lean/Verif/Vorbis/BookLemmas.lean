import Verif.Vorbis.ReaderLemmas

/-! Lemmas on codebooks. -/

namespace Verif.Vorbis

open Verif

theorem ilog_lt (n : Nat) : n < 2 ^ ilog n := by
  unfold ilog
  by_cases h : n = 0
  · simp [h]
  · rw [if_neg h]; exact Nat.lt_log2_self

theorem ilog_pos (n : Nat) (h : n ≠ 0) : 1 ≤ ilog n := by
  unfold ilog
  rw [if_neg h]
  omega

theorem le_ilog (n : Nat) (h : n ≠ 0) : 2 ^ (ilog n - 1) ≤ n := by
  unfold ilog
  rw [if_neg h]
  exact Nat.log2_self_le h

/-! ## The number of values -/

/-- The root is not above the first guess. -/
theorem root_le_start (dim e r : Nat) (hd : dim ≠ 0) (hr : r ^ dim ≤ e) : r ≤ quantStart dim e := by
  unfold quantStart
  rw [Nat.shiftRight_eq_div_pow, Nat.le_div_iff_mul_le (Nat.two_pow_pos _)]
  by_cases he : e = 0
  · subst he
    have : r = 0 := by
      by_cases h : r = 0
      · exact h
      · have := Nat.pow_pos (n := dim) (Nat.pos_of_ne_zero h); omega
    simp [this]
  · obtain ⟨k, rfl⟩ : ∃ k, dim = k + 1 := ⟨dim - 1, by omega⟩
    generalize hs : (ilog e - 1) * (k + 1 - 1) / (k + 1) = s
    have h1 : s * (k + 1) ≤ (ilog e - 1) * k := by
      rw [← hs, Nat.add_sub_cancel]
      exact Nat.div_mul_le_self _ _
    have h2 : (2 ^ s) ^ (k + 1) ≤ e ^ k := by
      rw [← Nat.pow_mul]
      calc 2 ^ (s * (k + 1)) ≤ 2 ^ ((ilog e - 1) * k) := Nat.pow_le_pow_right (by decide) h1
        _ = (2 ^ (ilog e - 1)) ^ k := by rw [Nat.pow_mul]
        _ ≤ e ^ k := Nat.pow_le_pow_left (le_ilog e he) k
    have h3 : (r * 2 ^ s) ^ (k + 1) ≤ e ^ (k + 1) := by
      rw [Nat.mul_pow, Nat.pow_succ e, Nat.mul_comm (e ^ k)]
      exact Nat.mul_le_mul hr h2
    exact (Nat.pow_le_pow_iff_left (by omega)).1 h3

theorem start_le (dim e : Nat) : quantStart dim e ≤ e := by
  unfold quantStart
  rw [Nat.shiftRight_eq_div_pow]
  exact Nat.div_le_self _ _

/-- Every number has a root. -/
theorem root_exists (dim e : Nat) (hd : dim ≠ 0) : ∃ r, r ^ dim ≤ e ∧ e < (r + 1) ^ dim := by
  have h : ∀ n, e < (n + 1) ^ dim → ∃ r, r ^ dim ≤ e ∧ e < (r + 1) ^ dim := by
    intro n
    induction n with
    | zero => intro h; exact ⟨0, by rw [Nat.zero_pow (by omega)]; omega, h⟩
    | succ n ih =>
      intro h
      by_cases hn : e < (n + 1) ^ dim
      · exact ih hn
      · exact ⟨n + 1, by omega, h⟩
  refine h e ?_
  calc e < e + 1 := by omega
    _ = (e + 1) ^ 1 := by simp
    _ ≤ (e + 1) ^ dim := Nat.pow_le_pow_right (by omega) (by omega)

theorem root_unique (dim e r q : Nat) (h1 : r ^ dim ≤ e) (h2 : e < (q + 1) ^ dim) : r ≤ q := by
  by_cases h : r ≤ q
  · exact h
  · have := Nat.pow_le_pow_left (show q + 1 ≤ r by omega) dim
    omega

/-- From above, the search goes down to the root. -/
theorem quantSearch_down (dim e r : Nat) (hr : r ^ dim ≤ e ∧ e < (r + 1) ^ dim) : ∀ (fuel vals : Nat), r ≤ vals → vals < r + fuel →
    (vals + 1) ^ dim < 2 ^ 63 → quantSearch dim e fuel vals = .ok r := by
  intro fuel
  induction fuel with
  | zero => intro vals h1 h2; omega
  | succ fuel ih =>
    intro vals h1 h2 h3
    rw [quantSearch, if_neg (by omega)]
    by_cases h : vals = r
    · subst h
      rw [if_pos hr]
    · have hlt : e < vals ^ dim := by
        have := Nat.pow_le_pow_left (show r + 1 ≤ vals by omega) dim
        omega
      rw [if_neg (by omega), if_pos hlt]
      refine ih (vals - 1) (by omega) (by omega) ?_
      have := Nat.pow_le_pow_left (show vals - 1 + 1 ≤ vals + 1 by omega) dim
      omega

/-- What the number of values of type 1 is, and when the code computes it. -/
theorem quantVals_eq (dim e r : Nat) (hr : r ^ dim ≤ e ∧ e < (r + 1) ^ dim) :
    quantVals dim e = if dim = 0 then .crash .zeroDim else if 2 ^ 63 ≤ (quantStart dim e + 1) ^ dim then .crash .power else .ok r := by
  unfold quantVals
  by_cases hd : dim = 0
  · rw [if_pos hd, if_pos hd]
  · rw [if_neg hd, if_neg hd]
    by_cases hp : 2 ^ 63 ≤ (quantStart dim e + 1) ^ dim
    · rw [if_pos hp, quantSearch, if_pos hp]
    · rw [if_neg hp]
      have h1 := root_le_start dim e r hd hr.1
      have h2 := start_le dim e
      exact quantSearch_down dim e r hr _ _ h1 (by omega) (by omega)

/-! ## Safety -/

/-- The ways a codebook is not read. -/
def BookCrash (c : Crash) : Prop := c = .zeroDim ∨ c = .power ∨ c = .values

theorem orderedLengths_sat (C : Crash → Prop) : ∀ (fuel left : Nat) (length : Int) (s : St), (s.getD []).length + 1 < fuel → 0 ≤ length →
    match orderedLengths fuel left length s with
    | .ok (l, s') => (l.length = left ∧ ∀ a ∈ l, 0 ≤ a) ∧ (s'.isSome = true → s.isSome = true)
    | .err => True
    | .crash c => C c
    | .hang => False := by
  intro fuel
  induction fuel with
  | zero => intro left length s h; omega
  | succ fuel ih =>
    intro left length s hf hl
    cases left with
    | zero => rw [orderedLengths, if_pos rfl, pure_apply]; exact ⟨by simp, id⟩
    | succ left =>
      rw [orderedLengths, if_neg (by omega), bind_apply]
      cases s with
      | none =>
        simp only [rd, Res.bind]
        rw [bind_apply, need, if_neg (by simp)]
        trivial
      | some bs =>
        simp only [Option.getD_some] at hf
        simp only [rd]
        by_cases h : ilog (left + 1) ≤ bs.length
        · rw [if_pos h]
          simp only [Res.bind]
          rw [bind_apply, need]
          generalize hv : value (bs.take (ilog (left + 1))) = v
          rw [if_pos (by simp)]
          simp only [Res.bind]
          rw [bind_apply]
          have hp := ilog_pos (left + 1) (by omega)
          have hi := ih (left + 1 - min v (left + 1)) (length + 1) (some (bs.drop (ilog (left + 1)))) (by
            simp only [Option.getD_some, List.length_drop]; omega) (by omega)
          simp only [Int.toNat_natCast]
          cases hx : orderedLengths fuel (left + 1 - min v (left + 1)) (length + 1) (some (bs.drop (ilog (left + 1)))) with
          | ok y =>
            obtain ⟨l, s'⟩ := y
            rw [hx] at hi
            simp only [Res.bind, pure_apply] at hi ⊢
            refine ⟨⟨?_, ?_⟩, fun _ => rfl⟩
            · rw [List.length_append, List.length_replicate, hi.1.1]; omega
            · intro a ha
              rw [List.mem_append, List.mem_replicate] at ha
              rcases ha with ha | ha
              · omega
              · exact hi.1.2 a ha
          | err => trivial
          | crash c => rw [hx] at hi; exact hi
          | hang => rw [hx] at hi; exact hi
        · rw [if_neg h]
          simp only [Res.bind]
          rw [bind_apply, need, if_neg (by simp)]
          trivial

theorem ordered_sat (C : Crash → Prop) (left : Nat) (length : Int) (h : 0 ≤ length) :
    Sat C (ordered left length) (fun l => l.length = left ∧ ∀ a ∈ l, 0 ≤ a) fun _ => True := by
  intro s
  have := orderedLengths_sat C ((s.getD []).length + 2) left length s (by omega) h
  unfold ordered
  cases hx : orderedLengths ((s.getD []).length + 2) left length s with
  | ok y =>
    obtain ⟨l, s'⟩ := y
    rw [hx] at this
    exact ⟨this.1, fun h => ⟨this.2 h, trivial⟩⟩
  | err => trivial
  | crash c => rw [hx] at this; exact this
  | hang => rw [hx] at this; exact this

theorem taggedLength_sat (C : Crash → Prop) : Sat C taggedLength (fun l => 0 ≤ l) fun _ => True := by
  refine Sat.bind (Sat.rd C 1) fun tag _ => Sat.ite (fun _ => ?_) fun _ => Sat.pure (by omega) (fun _ => trivial)
  refine Sat.bind (Sat.rd C 5) fun num hn => Sat.bind (Sat.need C _) fun _ _ => Sat.pure (by omega) (fun _ _ _ => trivial)

theorem plainLength_sat (C : Crash → Prop) : Sat C plainLength (fun l => 0 ≤ l) fun _ => True :=
  Sat.bind (Sat.rd C 5) fun num hn => Sat.bind (Sat.need C _) fun _ _ => Sat.pure (by omega) (fun _ _ => trivial)

theorem unpackLengths_sat (C : Crash → Prop) (order : Int) (n : Nat) :
    Sat C (unpackLengths order n) (fun l => l.length = n ∧ ∀ a ∈ l, 0 ≤ a) fun _ => True := by
  refine Sat.ite (fun _ => ?_) fun _ => ?_
  · refine Sat.bind (Sat.rd C 1) fun u _ => Sat.ite (fun _ => ?_) fun _ => ?_
    · exact Sat.mono (Sat.many (taggedLength_sat C) n) (fun _ h => h) (fun _ h => h) fun _ _ _ _ => trivial
    · exact Sat.mono (Sat.many (plainLength_sat C) n) (fun _ h => h) (fun _ h => h) fun _ _ _ _ => trivial
  · refine Sat.bind (Sat.rd C 5) fun length hl => ?_
    exact Sat.mono (ordered_sat C n (length + 1) (by omega)) (fun _ h => h) (fun _ h => h) fun _ _ _ _ => trivial

/-- How many values are read. -/
def CountRead (maptype dim entries n : Int) : Prop :=
  if maptype = 1 then 0 ≤ n ∧ n.toNat ^ dim.toNat ≤ entries.toNat ∧ entries.toNat < (n.toNat + 1) ^ dim.toNat
  else n = toInt32 (entries.toNat * dim.toNat)

theorem valueCount_sat (maptype dim entries : Int) :
    Sat BookCrash (valueCount maptype dim entries) (CountRead maptype dim entries) fun _ => True := by
  intro s
  unfold valueCount CountRead
  by_cases h : maptype = 1
  · rw [if_pos h]
    by_cases hd : dim.toNat = 0
    · rw [hd]
      exact Or.inl rfl
    · obtain ⟨r, hr⟩ := root_exists dim.toNat entries.toNat hd
      rw [quantVals_eq _ _ r hr, if_neg hd]
      by_cases hp : 2 ^ 63 ≤ (quantStart dim.toNat entries.toNat + 1) ^ dim.toNat
      · rw [if_pos hp]; exact Or.inr (Or.inl rfl)
      · rw [if_neg hp]
        simp only [Res.bind, if_pos h]
        exact ⟨⟨by omega, by simpa using hr⟩, fun h => ⟨h, trivial⟩⟩
  · rw [if_neg h]
    simp only [if_neg h]
    exact ⟨trivial, fun h => ⟨h, trivial⟩⟩

theorem readValues_sat (count quant : Int) :
    Sat BookCrash (readValues count quant) (fun l => (l.length : Int) = count) fun l => ∀ v ∈ l, In v 0 (2 ^ quant.toNat) := by
  refine Sat.bind (Sat.chk (Or.inr (Or.inr (Or.inr rfl)))) fun _ hc => Sat.bind (Sat.many (Sat.rd _ _) _) fun l hl =>
    Sat.bind (Sat.need _ _) fun _ _ => Sat.pure ?_ ?_
  · have := of_decide_eq_true hc
    omega
  · intro _ h2 _ v hv
    exact ⟨h2 v hv, (hl.2 v hv).2⟩

theorem unpackQuant_sat (maptype dim entries : Int) :
    Sat BookCrash (unpackQuant maptype dim entries) (fun q => CountRead maptype dim entries q.list.length) fun q => q.Ok := by
  refine Sat.bind (Sat.rd _ 32) fun min h1 => Sat.bind (Sat.rd _ 32) fun delta h2 => Sat.bind (Sat.rd _ 4) fun quant h3 =>
    Sat.bind (Sat.rd _ 1) fun seq h4 => Sat.bind (valueCount_sat _ _ _) fun count h5 =>
    Sat.bind (readValues_sat _ _) fun l h6 => Sat.pure (by rw [h6]; exact h5) ?_
  intro g6 _ g4 g3 g2 g1
  exact ⟨⟨g1, h1.2⟩, ⟨g2, h2.2⟩, ⟨by simp only; omega, by simp only; omega⟩, ⟨g4, by have := h4.2; simpa using this⟩, g6⟩

/-- What an accepted codebook is. -/
structure Book.Read (b : Book) : Prop extends Book.Sound b where
  count : ∀ q, b.quant = some q → CountRead b.maptype b.dim b.entries q.list.length

theorem unpackBook_sat : Sat BookCrash unpackBook (fun _ => True) fun b => b.Read := by
  refine Sat.bind (Sat.rd _ 24) fun magic _ => Sat.bind (Sat.need _ _) fun _ _ => Sat.bind (Sat.rd _ 16) fun dim h1 =>
    Sat.bind (Sat.rd _ 24) fun entries h2 => Sat.bind (Sat.need _ _) fun _ _ => Sat.bind (Sat.rd _ 1) fun order _ =>
    Sat.bind (Sat.need _ _) fun _ _ => Sat.bind (unpackLengths_sat _ _ _) fun lengths h3 =>
    Sat.bind (Sat.rd _ 4) fun maptype h4 => Sat.bind (Sat.need _ _) fun _ h5 =>
    Sat.bind (Q := fun q => (maptype = 0 ↔ q = none) ∧ ∀ x, q = some x → CountRead maptype dim entries x.list.length)
      (R := fun q => ∀ x, q = some x → x.Ok) (Sat.ite (fun h => Sat.pure ⟨by simp [h], by simp⟩ (by simp)) fun h =>
        Sat.bind (unpackQuant_sat _ _ _) fun q hq => Sat.pure ⟨by simp [h], by simpa using hq⟩ (by simp)) fun q h6 =>
    Sat.pure trivial ?_
  have h5 := of_decide_eq_true h5
  intro g6 _ _ _ _ _ _ g2 g1 _ _
  exact ⟨⟨⟨g1, h1.2⟩, ⟨g2, h2.2⟩, h3.1, h3.2, ⟨h5.1, by simp only; omega⟩, h6.1, g6⟩, h6.2⟩

end Verif.Vorbis
