import Verif.Mkvalidator.EndLemmas
/-!
Lemmas about `CheckVideoStart`.
-/
set_option linter.unusedSimpArgs false
namespace Verif.Mkvalidator
open Verif Verif.Core Verif.Mkv

theorem flatMap_mem {α : Type} {e : Ev} {l : List α} {f : α → List Ev} : e ∈ l.flatMap f ↔ ∃ a ∈ l, e ∈ f a := by
  rw [List.mem_flatMap]

/-- The first entry for a number, found by `trackFor`. -/
theorem trackFor_some {ts : List Track} {n : Int} {t : Track} :
    trackFor ts n = some t ↔ ∃ l r, ts = l ++ t :: r ∧ (∀ x ∈ l, x.num.getD 0 ≠ n) ∧ t.num.getD 0 = n := by
  unfold trackFor
  rw [List.find?_eq_some_iff_append]
  constructor
  · rintro ⟨h1, l, r, h2, h3⟩
    exact ⟨l, r, h2, fun x hx => by simpa using h3 x hx, by simpa using h1⟩
  · rintro ⟨l, r, h2, h3, h1⟩
    exact ⟨by simpa using h1, l, r, h2, fun x hx => by simpa using h3 x hx⟩

theorem trackFor_none {ts : List Track} {n : Int} : trackFor ts n = none ↔ ∀ t ∈ ts, t.num.getD 0 ≠ n := by
  unfold trackFor
  rw [List.find?_eq_none]
  constructor
  · intro h t ht; simpa using h t ht
  · intro h t ht; simpa using h t ht

/-- What the state says of a track after more blocks. -/
def after (pos : Int) (i : Nat) (key : Bool) (first : Int) (bs : List Blk) : Bool × Int :=
  (key || bs.any (fun b => b.track == i && b.key),
   if key || first != 0 then first
   else match bs.find? (fun b => b.track == i) with
     | some b => if b.key then 0 else pos
     | none => 0)

theorem after_nil (pos : Int) (i : Nat) (key : Bool) (first : Int) : after pos i key first [] = (key, first) := by
  unfold after
  by_cases h : (key || first != 0) = true
  · rw [if_pos h]; simp
  · rw [if_neg h]
    simp only [Bool.or_eq_true, bne_iff_ne, ne_eq, not_or, Decidable.not_not, Bool.not_eq_true] at h
    simp [h.2]

theorem keyLoop_after {ts : List Track} (n : Nat) (pos : Int) (hpos : pos ≠ 0) (i : Nat) : ∀ (bs : List Blk) (st : KeyState) (x : KeyState × List Ev),
    keyLoop n ts pos st bs = .ok x →
    (x.1.key i, x.1.first i) = (if isVideo ts (s16 i) && decide (i < n) then after pos i (st.key i) (st.first i) bs else (st.key i, st.first i))
    ∧ (∀ e, e ∈ x.2 ↔ e = .lost 0xC3 ∧ ∃ b ∈ bs, b.track > n)
  | [], st, x, h => by
    rw [keyLoop] at h
    cases h
    rw [after_nil, ite_self]
    exact ⟨rfl, fun e => by simp⟩
  | b :: bs, st, x, h => by
    rw [keyLoop] at h
    cases hs : keyStep n ts pos st b with
    | ok p =>
      obtain ⟨st1, e1⟩ := p
      rw [hs] at h
      dsimp only at h
      cases hl : keyLoop n ts pos st1 bs with
      | ok q =>
        obtain ⟨st2, es⟩ := q
        rw [hl] at h
        cases h
        obtain ⟨ih1, ih2⟩ := keyLoop_after n pos hpos i bs st1 _ hl
        dsimp only at ih1 ih2 ⊢
        rw [ih1]
        unfold keyStep at hs
        by_cases hb : b.track > n
        · rw [if_pos hb] at hs
          cases hs
          constructor
          · by_cases hv : (isVideo ts (s16 i) && decide (i < n)) = true
            · rw [if_pos hv, if_pos hv]
              have hi : b.track ≠ i := by
                simp only [Bool.and_eq_true, decide_eq_true_eq] at hv
                omega
              unfold after
              rw [List.any_cons, List.find?_cons_of_neg (by simpa using hi), beq_eq_false_iff_ne.mpr hi]
              rfl
            · rw [if_neg hv, if_neg hv]
          · intro e
            rw [List.mem_append, ih2]
            constructor
            · rintro (h | ⟨h, y, hy, hyn⟩)
              · exact ⟨by simpa using h, b, List.mem_cons_self, hb⟩
              · exact ⟨h, y, List.mem_cons_of_mem _ hy, hyn⟩
            · rintro ⟨h, _⟩; left; simpa using h
        · rw [if_neg hb] at hs
          have hev : e1 = [] := by
            by_cases hv : isVideo ts (s16 b.track) = true
            · rw [if_pos hv] at hs
              by_cases hn : b.track ≥ n
              · rw [if_pos hn] at hs; cases hs
              · rw [if_neg hn] at hs
                injection hs with hs
                injection hs with _ hs
                exact hs.symm
            · rw [if_neg hv] at hs
              injection hs with hs
              injection hs with _ hs
              exact hs.symm
          constructor
          · by_cases hv : isVideo ts (s16 b.track) = true
            · rw [if_pos hv] at hs
              by_cases hn : b.track ≥ n
              · rw [if_pos hn] at hs; cases hs
              · rw [if_neg hn] at hs
                injection hs with hs
                injection hs with hs _
                by_cases hi : b.track = i
                · subst hi
                  rw [hv, decide_eq_true (by omega : b.track < n)]
                  simp only [Bool.and_self, if_true]
                  unfold after
                  rw [List.any_cons, List.find?_cons_of_pos (by simp)]
                  rw [← hs]
                  cases hk : st.key b.track <;> cases hbk : b.key <;> simp [hk, hbk, hpos]
                  · by_cases hf : st.first b.track = 0
                    · simp [hf, hpos, hk]
                    · simp [hf, hk]
                · have h1 : st1.key i = st.key i ∧ st1.first i = st.first i := by
                    rw [← hs]
                    have hi' : i ≠ b.track := fun h => hi h.symm
                    constructor
                    · by_cases hf : st.first b.track = 0 <;> cases hk : st.key b.track <;> cases hbk : b.key <;> simp [hi', hf, hk, hbk]
                    · by_cases hf : st.first b.track = 0 <;> cases hk : st.key b.track <;> cases hbk : b.key <;> simp [hi', hf, hk, hbk]
                  rw [h1.1, h1.2]
                  unfold after
                  rw [List.any_cons, List.find?_cons_of_neg (by simpa using hi), beq_eq_false_iff_ne.mpr hi]
                  rfl
            · rw [if_neg hv] at hs
              injection hs with hs
              injection hs with hs _
              subst hs
              by_cases hi : b.track = i
              · subst hi
                rw [Bool.not_eq_true] at hv
                rw [hv]; rfl
              · unfold after
                rw [List.any_cons, List.find?_cons_of_neg (by simpa using hi), beq_eq_false_iff_ne.mpr hi]
                rfl
          · intro e
            rw [hev, List.nil_append, ih2]
            constructor
            · rintro ⟨h, y, hy, hyn⟩
              exact ⟨h, y, List.mem_cons_of_mem _ hy, hyn⟩
            · rintro ⟨h, y, hy, hyn⟩
              rcases List.mem_cons.mp hy with rfl | hy
              · exact absurd hyn hb
              · exact ⟨h, y, hy, hyn⟩
      | bad => rw [hl] at h; cases h
      | err => rw [hl] at h; cases h
      | hang => rw [hl] at h; cases h
    | bad => rw [hs] at h; cases h
    | err => rw [hs] at h; cases h
    | hang => rw [hs] at h; cases h

end Verif.Mkvalidator
