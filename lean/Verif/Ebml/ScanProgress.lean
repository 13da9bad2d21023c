import Verif.Props.Scan
import Verif.Ebml.Parse
/-! The finder moves forward: where what it finds lies relative to where it started. -/
set_option linter.unusedSimpArgs false
namespace Verif.Ebml.Scan

/-- What is known of the position of a returned element when the search started at `start`. -/
structure Ahead (S : Schema) (a : Bool) (len start : Nat) (f : Found) : Prop where
  lt : start < len
  pos : (start : Int) ≤ f.pos
  head : f.pos < f.sizePos
  stream : (start : Int) < f.streamPos
  fin : f.finite = true → 0 ≤ f.dataSize ∧ f.streamPos ≤ f.endPos
  unk : f.finite = false → 1 ≤ f.sizeLen ∧ f.streamPos = f.sizePos + f.sizeLen ∧ f.kind.cls S = .master
  real : a = false → f.kind.isDummy S = false
  sized : f.finite = true → f.dataSize = 0 ∨ (f.posData : Int) + f.dataSize = f.endPos

theorem readCodedSize_known (buf : Bytes) (h : (readCodedSize buf).len ≠ 0) (hk : (readCodedSize buf).value ≠ (readCodedSize buf).unknown) :
    1 ≤ (readCodedSize buf).len ∧ (readCodedSize buf).len ≤ 8 ∧ (readCodedSize buf).value < 2 ^ (7 * (readCodedSize buf).len) - 1 := by
  cases buf with
  | nil => simp [readCodedSize] at h
  | cons b0 rest =>
    cases hf : findMarker b0 (rest.length + 1) 8 with
    | none => simp [readCodedSize, hf] at h
    | some i =>
      obtain ⟨h1, h2, h3, h4⟩ := (findMarker_iff _ _ _).1 hf
      rw [readCodedSize_shape _ _ _ hf] at hk ⊢
      simp only at hk ⊢
      have hu := unknownMark_eq (i + 1) (by omega) (by omega)
      rw [Nat.add_sub_cancel] at hu
      rw [hu] at hk
      refine ⟨by omega, by omega, ?_⟩
      have hlt : (rest.take i).length = i := by simp; omega
      have hbl := beNat_lt (rest.take i)
      rw [hlt] at hbl
      generalize beNat (rest.take i) = x at *
      have hi : i = 0 ∨ i = 1 ∨ i = 2 ∨ i = 3 ∨ i = 4 ∨ i = 5 ∨ i = 6 ∨ i = 7 := by omega
      rcases hi with hi | hi | hi | hi | hi | hi | hi | hi <;> subst hi <;>
        simp only [Nat.reduceMul, Nat.reducePow, Nat.reduceSub, Nat.reduceAdd] at * <;> omega

theorem codedSizeLength_known (size len : Nat) (h1 : 1 ≤ len) (h8 : len ≤ 8) (hs : size < 2 ^ (7 * len) - 1) :
    codedSizeLength (size : Int) len true = len := by
  have hn : len = 1 ∨ len = 2 ∨ len = 3 ∨ len = 4 ∨ len = 5 ∨ len = 6 ∨ len = 7 ∨ len = 8 := by omega
  rcases hn with h | h | h | h | h | h | h | h <;> subst h <;>
    simp only [Nat.reduceMul, Nat.reducePow, Nat.reduceSub] at hs <;> unfold codedSizeLength <;>
    simp only [Bool.not_true, Bool.false_eq_true, if_false] <;> (repeat' split) <;> omega

theorem codedSizeLength_pos (n : Int) (k : Nat) : 1 ≤ codedSizeLength n k true := by
  unfold codedSizeLength
  simp only [Bool.not_true, Bool.false_eq_true, if_false]
  (repeat' split) <;> omega

/-- The data of what is found lies behind the start. -/
theorem Ahead.posData {S : Schema} {a : Bool} {len start : Nat} {f : Found} (h : Ahead S a len start f) : start + 1 ≤ f.posData := by
  have h1 := h.pos
  have h2 := h.head
  unfold Found.posData
  split
  · have := codedSizeLength_pos f.dataSize (f.sizeLen % 256).toNat
    omega
  · rename_i hf
    have := (h.unk (by simpa using hf)).1
    omega

theorem build_ahead (S : Schema) (a : Bool) (ctx : List PCtx) (lv : Int) (w : Bytes) (n : Nat) (r : CodedSize) (cur start len : Nat)
    (f : Found) (hst : start + w.length ≤ cur) (hcl : cur ≤ len) (hn1 : 1 ≤ n) (hnw : n ≤ w.length) (hr : r = readCodedSize (w.drop n)) (hr0 : r.len ≠ 0)
    (h : build S a ctx lv w n r cur = some f) : Ahead S a len start f := by
  rw [build] at h
  cases hc : createUsing S w n a ctx 0 with
  | none => rw [hc] at h; cases h
  | some q =>
    obtain ⟨kd, ch⟩ := q
    rw [hc] at h
    simp only at h
    by_cases hal : (a || !kd.isDummy S) = true
    · rw [if_pos hal] at h
      by_cases hval : validateSize (r.value != r.unknown) r.value (Kind.cls S (if (a && !validateSize (r.value != r.unknown) r.value (kd.cls S) && !kd.isDummy S) = true
              then Kind.dummy (idFromBuffer w n) else kd)) = true
      · rw [if_pos hval] at h
        injection h with h
        subst h
        refine ⟨by omega, by simp only; omega, by simp only; omega, by simp only; omega, ?_, ?_, ?_, ?_⟩
        · intro hf
          simp only at hf ⊢
          simp only [hf, if_true]
          omega
        · intro hf
          simp only at hf ⊢
          rw [hf] at hval
          refine ⟨by omega, by trivial, ?_⟩
          rw [hf]
          revert hval
          generalize Kind.cls S _ = c
          cases c <;> simp [validateSize]
        · intro ha
          subst ha
          simpa using hal
        · intro hf
          simp only at hf
          have hne : r.value ≠ r.unknown := by simpa using hf
          have hk := readCodedSize_known (w.drop n) (by rw [← hr]; exact hr0) (by rw [← hr]; exact hne)
          rw [← hr] at hk
          right
          simp only [Found.posData, hf, if_true]
          have : ((r.len : Int) % 256).toNat = r.len := by omega
          rw [this, codedSizeLength_known _ _ hk.1 hk.2.1 hk.2.2]
          omega
      · rw [if_neg hval] at h; cases h
    · rw [if_neg hal] at h; cases h

theorem fit_ctx (ctx : List PCtx) (lv : Int) (w : Bytes) (pos : Nat) (size : Option CodedSize) : (fit true ctx lv w pos size).1 = ctx := by
  cases size with
  | none => rfl
  | some r =>
    simp only [fit]
    split
    · cases ctx with
      | nil => rfl
      | cons c up => simp only [contain]; split <;> simp
    · rfl

theorem loop_ahead (S : Schema) (a : Bool) (len start : Nat) (orig : List PCtx) (lv0 : Int) (fuel : Nat) :
    ∀ (ctx : List PCtx) (lv : Int) (idLen : Nat) (w : Bytes) (pos : Nat) (rest : Bytes),
      idLen ≤ w.length → w.length ≤ 11 → idLen ≤ 4 → (idLen = 0 → w = []) →
      start + w.length ≤ pos → pos + rest.length ≤ len → (limit ctx = -1 ∨ (start : Int) < limit ctx) →
      ∀ f, loop S a orig lv0 fuel ctx lv idLen w pos rest = .found f → Ahead S a len start f := by
  induction fuel with
  | zero => intro ctx lv idLen w pos rest _ _ _ _ _ _ _ f h; simp [loop] at h
  | succ fuel ih =>
    intro ctx lv idLen w pos rest h1 h2 h3 h4 h5 h6 h7 f h
    rw [loop] at h
    obtain ⟨a1, a2, a3⟩ := idLoop_inv (limit ctx) idLen rest w pos h1 h2 h3
    generalize hid : idLoop (limit ctx) idLen w pos rest = ir at *
    cases ir with
    | bad => cases h
    | eof p => cases h
    | done w1 pos1 rest1 n =>
      obtain ⟨b1, b2, b3, b4, b5, b6, b7, b8, b8', b9⟩ := a3 w1 pos1 rest1 n rfl
      simp only at h
      rw [if_neg (by omega)] at h
      obtain ⟨c1, c2, c3⟩ := sizeLoop_inv (limit ctx) n rest1 w1 (w1.length - n) pos1 (by omega) (by omega) b2
      generalize hsz : sizeLoop (limit ctx) n w1 (w1.length - n) pos1 rest1 = sr at *
      cases sr with
      | bad => cases h
      | eof p => cases h
      | done w2 pos2 rest2 size =>
        obtain ⟨d1, d2, d3, d4, d5, d6, d7, d8, d9, d10⟩ := c3 w2 pos2 rest2 size rfl
        have hz0 : n = 0 → limit ctx = pos1 := by
          rintro rfl
          rcases b9 with h | ⟨h, h', h''⟩
          · have := idMarker_some _ _ h; omega
          · exact h''
        simp only at h
        obtain ⟨c, hc⟩ : ∃ c : List PCtx × Int × Bool, c = fit a ctx lv w2 pos2 size := ⟨_, rfl⟩
        rw [← hc] at h
        by_cases hbad : n = 0 ∧ size.isSome = true ∧ c.2.2 = true
        · rw [if_pos hbad] at h; cases h
        · rw [if_neg hbad] at h
          obtain ⟨elt, helt⟩ : ∃ elt, elt = attempt S a c w2 n pos2 size := ⟨_, rfl⟩
          rw [← helt] at h
          cases elt with
          | some f' =>
            injection h with h
            subst h
            cases size with
            | none => simp [attempt] at helt
            | some r =>
              cases hc2 : c.2.2 with
              | false => simp [attempt, hc2] at helt
              | true =>
                simp only [attempt, hc2, if_true] at helt
                have h8 := d8 r rfl
                have hn1 : 1 ≤ n := by
                  rw [hc2] at hbad; simp at hbad; omega
                exact build_ahead S a c.1 c.2.1 w2 n r pos2 start len f' (by omega) (by omega) hn1 (by omega) h8.1 h8.2 helt.symm
          | none =>
            simp only at h
            split at h
            · rename_i hlim
              split at h
              · rename_i hal
                split at h
                · cases h
                · injection h with h
                  subst h
                  have hctx : c.1 = ctx := by rw [hc, hal.1]; exact fit_ctx ctx lv w2 pos2 size
                  rw [hctx] at hlim
                  refine ⟨by omega, by simp only; omega, by simp only; omega, ?_, ?_, by simp, by rw [hal.1]; simp, fun _ => Or.inl rfl⟩
                  · simp only; rw [hctx]; omega
                  · intro _; simp
              · cases h
            · rename_i hlim
              split at h
              · rename_i hlim'
                have hnp : n < w2.length ∧ 1 ≤ n := by
                  cases hs : size with
                  | none =>
                    rw [hs] at hc
                    simp only [fit] at hc
                    rw [hc] at hlim
                    simp only at hlim
                    have := d9 hs
                    refine ⟨by omega, ?_⟩
                    by_cases h0 : n = 0
                    · have hl := hz0 h0
                      have := (d10 hl).2
                      omega
                    · omega
                  | some r =>
                    have h8 := d8 r hs
                    have hlt : n < w2.length := by
                      by_cases hlt : n < w2.length
                      · exact hlt
                      · exfalso
                        have : w2.drop n = [] := List.drop_eq_nil_of_le (by omega)
                        rw [h8.1, this] at h8
                        exact h8.2 rfl
                    refine ⟨hlt, ?_⟩
                    by_cases h0 : n = 0
                    · exfalso
                      obtain ⟨hw, hp⟩ := d10 (hz0 h0)
                      subst h0
                      rcases b9 with h | ⟨h, h', h''⟩
                      · have := idMarker_some _ _ h; omega
                      · have := readCodedSize_of_idMarker_none w1 h (by rw [h4 h'.symm] at b3; simp at b3; omega)
                        rw [h8.1, hw, List.drop_zero] at h8
                        exact h8.2 this
                    · omega
                refine ih orig lv0 n (w2.drop 1) pos2 rest2 (by simp; omega) (by simp; omega) b2 (by omega) (by simp; omega)
                  (by omega) ?_ f h
                rcases hlim' with hl | hl
                · exact Or.inl hl
                · right; omega
              · cases h

/-- After climbing, the innermost context is unlimited or ends behind the start, if the outermost is
unlimited. -/
theorem adjust_limit (start : Nat) : ∀ (ctx : List PCtx) (lv : Int), (∀ c, ctx.getLast? = some c → c.endPos = -1) →
    limit (adjust start ctx lv).1 = -1 ∨ (start : Int) < limit (adjust start ctx lv).1
  | [], lv, _ => Or.inl rfl
  | [c], lv, h => Or.inl (h c rfl)
  | c :: c' :: up, lv, h => by
    rw [adjust]
    split
    · exact adjust_limit start (c' :: up) (lv + 1) (fun d hd => h d (by rw [List.getLast?_cons_cons]; exact hd))
    · simp only [limit]; omega

/-- Anything found lies ahead, in contexts the outermost of which is unlimited. -/
theorem findNext_ahead (S : Schema) (a : Bool) (fuel : Nat) (data : Bytes) (start : Nat) (ctx : List PCtx) (lv : Int) (f : Found)
    (hc : ∀ c, ctx.getLast? = some c → c.endPos = -1)
    (h : findNext S a fuel data start ctx lv = .found f) : Ahead S a data.length start f := by
  by_cases hs : start ≤ data.length
  · exact loop_ahead S a data.length start ctx lv fuel _ _ 0 [] start (data.drop start) (by simp) (by simp) (by simp) (by simp)
      (by simp) (by simp; omega) (adjust_limit start ctx lv hc) f h
  · have := loop_ahead S a start start ctx lv fuel _ _ 0 [] start (data.drop start) (by simp) (by simp) (by simp) (by simp)
      (by simp) (by simp; omega) (adjust_limit start ctx lv hc) f h
    exact absurd this.lt (Nat.lt_irrefl _)

theorem findNext_fuel (S : Schema) (a : Bool) (data : Bytes) (start : Nat) (ctx : List PCtx) (lv : Int) :
    findNext S a (data.length + 1) data start ctx lv ≠ .fuelOut :=
  (loop_inv S a ctx lv _ _ _ 0 [] start (data.drop start) (by simp) (by simp) (by simp) (by simp)).2 (by simp; omega)

theorem findNext_none (S : Schema) (a : Bool) (fuel : Nat) (data : Bytes) (start : Nat) (ctx : List PCtx) (lv : Int) (l : Int) (p : Nat)
    (h : findNext S a fuel data start ctx lv = .none l p) : start ≤ p :=
  (loop_pos S a ctx lv _ _ _ 0 [] start (data.drop start) (by simp) (by simp) (by simp) l p h).1

end Verif.Ebml.Scan
