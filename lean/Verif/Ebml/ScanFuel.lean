import Verif.Ebml.ScanSound
import Verif.Ebml.ScanHead
/-! The element finder: extra fuel changes nothing, and the stream stays inside the data. -/
set_option linter.unusedSimpArgs false
namespace Verif.Ebml.Scan

theorem loop_fuel (S : Schema) (a : Bool) (orig : List PCtx) (lv0 : Int) (fuel : Nat) :
    ∀ ctx lv idLen w pos rest, loop S a orig lv0 fuel ctx lv idLen w pos rest ≠ .fuelOut →
      loop S a orig lv0 (fuel + 1) ctx lv idLen w pos rest = loop S a orig lv0 fuel ctx lv idLen w pos rest := by
  induction fuel with
  | zero => intro ctx lv idLen w pos rest h; exact absurd rfl h
  | succ fuel ih =>
    intro ctx lv idLen w pos rest h
    rw [loop] at h ⊢
    conv => rhs; rw [loop]
    cases hid : idLoop (limit ctx) idLen w pos rest with
    | bad => rfl
    | eof p => rfl
    | done w1 pos1 rest1 n =>
      rw [hid] at h
      simp only at h ⊢
      by_cases hn : w1.length < n
      · rw [if_pos hn, if_pos hn]
      · rw [if_neg hn] at h
        rw [if_neg hn, if_neg hn]
        cases hsz : sizeLoop (limit ctx) n w1 (w1.length - n) pos1 rest1 with
        | bad => rfl
        | eof p => rfl
        | done w2 pos2 rest2 size =>
          rw [hsz] at h
          simp only at h ⊢
          generalize fit a ctx lv w2 pos2 size = c at *
          by_cases hb : n = 0 ∧ size.isSome = true ∧ c.2.2 = true
          · rw [if_pos hb, if_pos hb]
          · rw [if_neg hb] at h
            rw [if_neg hb, if_neg hb]
            cases ha : attempt S a c w2 n pos2 size with
            | some f => rfl
            | none =>
              rw [ha] at h
              simp only at h ⊢
              split
              · rfl
              · rename_i hl
                rw [if_neg hl] at h
                split
                · rename_i ho
                  rw [if_pos ho] at h
                  exact ih _ _ _ _ _ _ h
                · rfl

theorem loop_pos (S : Schema) (a : Bool) (orig : List PCtx) (lv0 : Int) (fuel : Nat) :
    ∀ (ctx : List PCtx) (lv : Int) (idLen : Nat) (w : Bytes) (pos : Nat) (rest : Bytes),
      idLen ≤ w.length → w.length ≤ 11 → idLen ≤ 4 →
      ∀ l p, loop S a orig lv0 fuel ctx lv idLen w pos rest = .none l p → pos ≤ p ∧ p ≤ pos + rest.length := by
  induction fuel with
  | zero => intro ctx lv idLen w pos rest _ _ _ l p h; simp [loop] at h
  | succ fuel ih =>
    intro ctx lv idLen w pos rest h1 h2 h3 l p h
    rw [loop] at h
    obtain ⟨a1, a2, a3⟩ := idLoop_inv (limit ctx) idLen rest w pos h1 h2 h3
    cases hid : idLoop (limit ctx) idLen w pos rest with
    | bad => rw [hid] at h; cases h
    | eof q =>
      rw [hid] at h; injection h with _ h
      have := a2 q hid
      omega
    | done w1 pos1 rest1 n =>
      obtain ⟨b1, b2, b3, b4, b5, b6, b7, b8, b8', b9⟩ := a3 w1 pos1 rest1 n hid
      rw [hid] at h
      simp only at h
      rw [if_neg (by omega)] at h
      obtain ⟨c1, c2, c3⟩ := sizeLoop_inv (limit ctx) n rest1 w1 (w1.length - n) pos1 (by omega) (by omega) b2
      cases hsz : sizeLoop (limit ctx) n w1 (w1.length - n) pos1 rest1 with
      | bad => rw [hsz] at h; cases h
      | eof q =>
        rw [hsz] at h; injection h with _ h
        have := c2 q hsz
        omega
      | done w2 pos2 rest2 size =>
        obtain ⟨d1, d2, d3, d4, d5, d6, d7, d8, d9, d10⟩ := c3 w2 pos2 rest2 size hsz
        rw [hsz] at h
        simp only at h
        have hc : size = none → fit a ctx lv w2 pos2 size = (ctx, lv, false) := by rintro rfl; rfl
        generalize fit a ctx lv w2 pos2 size = c at *
        by_cases hb : n = 0 ∧ size.isSome = true ∧ c.2.2 = true
        · rw [if_pos hb] at h; cases h
        · rw [if_neg hb] at h
          cases ha : attempt S a c w2 n pos2 size with
          | some f => rw [ha] at h; cases h
          | none =>
            rw [ha] at h
            simp only at h
            split at h
            · split at h
              · split at h
                · cases h
                · cases h
              · injection h with _ h; omega
            · rename_i hnl
              split at h
              · by_cases hlt : n ≤ (w2.drop 1).length
                · have := ih _ _ _ _ _ _ hlt (by simp; omega) b2 _ _ h
                  omega
                · exfalso
                  have hw2 : w2.length = n := by simp at hlt; omega
                  cases hs : size with
                  | some r =>
                    have h8 := d8 r hs
                    have : w2.drop n = [] := List.drop_eq_nil_of_le (by omega)
                    rw [h8.1, this] at h8
                    exact h8.2 rfl
                  | none =>
                    have hl := d9 hs
                    rw [hc hs] at hnl
                    simp only at hnl
                    omega
              · injection h with _ h; omega

end Verif.Ebml.Scan
