import Verif.Ebml.Scan
import Verif.Ebml.EltLemmas
/-! Lemmas about the element finder. -/
set_option linter.unusedSimpArgs false
namespace Verif.Ebml.Scan

theorem idMarker_some (w : Bytes) (n : Nat) (h : idMarker w = some n) :
    1 ≤ n ∧ n ≤ 4 ∧ n ≤ w.length ∧ ∃ b0, w.head? = some b0 ∧ 2 ^ (8 - n) ≤ b0.toNat ∧ b0.toNat < 2 ^ (9 - n) := by
  cases w with
  | nil => simp [idMarker] at h
  | cons b0 w =>
    simp only [idMarker, Option.map_eq_some_iff] at h
    obtain ⟨i, hi, rfl⟩ := h
    rw [List.find?_eq_some_iff_append] at hi
    obtain ⟨hp, as, bs, hab, hnot⟩ := hi
    have hi4 : i < 4 := by
      have : i ∈ List.range 4 := by rw [hab]; simp
      simpa using this
    simp only [Bool.and_eq_true, decide_eq_true_eq, bne_iff_ne] at hp
    have hlt : ∀ j, j < i → ¬ mbit b0 j := by
      intro j hj hm
      have hjm : j ∈ as := by
        have hj4 : j ∈ List.range 4 := by simp; omega
        have hpw : (as ++ i :: bs).Pairwise (· < ·) := by rw [← hab]; exact List.pairwise_lt_range
        rw [hab] at hj4
        rcases List.mem_append.1 hj4 with h | h
        · exact h
        · rcases List.mem_cons.1 h with h | h
          · omega
          · have := (List.pairwise_cons.1 (List.pairwise_append.1 hpw).2.1).1 j h; omega
      have := hnot j hjm
      simp only [Bool.not_eq_true', Bool.and_eq_false_iff, decide_eq_false_iff_not, bne_eq_false_iff_eq] at this
      rcases this with h | h
      · omega
      · exact hm h
    have := (mbit_iff b0 i (by omega)).1 ⟨hp.2, hlt⟩
    refine ⟨by omega, by omega, by have := hp.1; simp at this ⊢; omega, b0, rfl, ?_⟩
    have e1 : 8 - (i + 1) = 7 - i := by omega
    have e2 : 9 - (i + 1) = 8 - i := by omega
    rw [e1, e2]; exact this

theorem idMarker_eq (b0 : UInt8) (w : Bytes) (n : Nat) (h1 : 1 ≤ n) (h4 : n ≤ 4) (hlo : 2 ^ (8 - n) ≤ b0.toNat)
    (hhi : b0.toNat < 2 ^ (9 - n)) : idMarker (b0 :: w) = if n ≤ w.length + 1 then some n else none := by
  have hm := (mbit_iff b0 (n - 1) (by omega)).2 ⟨by rw [show 7 - (n - 1) = 8 - n by omega]; exact hlo,
    by rw [show 8 - (n - 1) = 9 - n by omega]; exact hhi⟩
  simp only [mbit] at hm
  simp only [idMarker, List.length_cons]
  have hn : n = 1 ∨ n = 2 ∨ n = 3 ∨ n = 4 := by omega
  have hlt : ∀ j, j < n - 1 → b0 &&& (0x80 >>> UInt8.ofNat j) = 0 := by
    intro j hj; have := hm.2 j hj; simpa using this
  have hset : (b0 &&& (0x80 >>> UInt8.ofNat (n - 1)) != 0) = true := by simpa using hm.1
  rw [show List.range 4 = [0, 1, 2, 3] from rfl]
  split
  · rename_i hle
    rcases hn with e | e | e | e <;> subst e
    · simp only [List.find?_cons]
      simp only [Nat.sub_self] at hset
      rw [hset]; simp
    · have h0 := hlt 0 (by omega)
      simp only [List.find?_cons, h0]
      simp only [Nat.reduceSub] at hset
      rw [hset]; simp [show ∀ k, k < 2 → k < w.length + 1 from fun k hk => by omega, show 0 < w.length from by omega]
    · have h0 := hlt 0 (by omega)
      have h1 := hlt 1 (by omega)
      simp only [List.find?_cons, h0, h1]
      simp only [Nat.reduceSub] at hset
      rw [hset]; simp [show ∀ k, k < 3 → k < w.length + 1 from fun k hk => by omega, show 0 < w.length from by omega]
    · have h0 := hlt 0 (by omega)
      have h1 := hlt 1 (by omega)
      have h2 := hlt 2 (by omega)
      simp only [List.find?_cons, h0, h1, h2]
      simp only [Nat.reduceSub] at hset
      rw [hset]; simp [show ∀ k, k < 4 → k < w.length + 1 from fun k hk => by omega, show 0 < w.length from by omega]
  · rename_i hle
    simp only [Option.map_eq_none_iff, List.find?_eq_none, Bool.not_eq_true, Bool.and_eq_false_iff,
      decide_eq_false_iff_not, bne_eq_false_iff_eq]
    intro x hx
    by_cases hxn : x < n - 1
    · exact Or.inr (hlt x hxn)
    · exact Or.inl (by omega)

theorem readCodedSize_of_idMarker_none (w : Bytes) (h : idMarker w = none) (h4 : w.length ≤ 4) :
    (readCodedSize w).len = 0 := by
  cases w with
  | nil => rfl
  | cons b0 w =>
    cases hf : findMarker b0 (w.length + 1) 8 with
    | none => simp [readCodedSize, hf]
    | some i =>
      exfalso
      have hm := (findMarker_iff _ _ _).1 hf
      simp at h4
      have := idMarker_eq b0 w (i + 1) (by omega) (by omega) (by rw [show 8 - (i + 1) = 7 - i by omega]; exact hm.2.2.1)
        (by rw [show 9 - (i + 1) = 8 - i by omega]; exact hm.2.2.2)
      rw [h, if_pos (by omega)] at this
      cases this

/-- Invariant of the ID loop. -/
theorem idLoop_inv (lim : Int) (idLen : Nat) (rest : Bytes) : ∀ (w : Bytes) (pos : Nat), idLen ≤ w.length → w.length ≤ 11 →
    idLen ≤ 4 →
    idLoop lim idLen w pos rest ≠ .bad ∧
    (∀ p, idLoop lim idLen w pos rest = .eof p → p = pos + rest.length) ∧
    ∀ w' pos' rest' n, idLoop lim idLen w pos rest = .done w' pos' rest' n →
      n ≤ w'.length ∧ n ≤ 4 ∧ w'.length ≤ max w.length 4 ∧ w'.length + rest'.length ≤ w.length + rest.length ∧
      pos ≤ pos' ∧ pos' + rest'.length = pos + rest.length ∧ w.length ≤ w'.length ∧
      (pos ≤ lim → pos' ≤ lim) ∧ pos + w'.length ≤ pos' + w.length ∧
      ((idMarker w' = some n) ∨ (idMarker w' = none ∧ n = idLen ∧ lim = pos')) := by
  induction rest with
  | nil =>
    intro w pos h1 h2 h3
    rw [idLoop]
    split
    · rename_i n hn
      refine ⟨by simp, by simp, ?_⟩
      intro w' pos' rest' m h
      injection h with e1 e2 e3 e4
      subst e1 e2 e3 e4
      have := idMarker_some _ _ hn
      refine ⟨by omega, by omega, by omega, by omega, by omega, by omega, by omega, fun h => h, by omega, Or.inl hn⟩
    · rename_i hn
      split
      · rename_i hl
        refine ⟨by simp, by simp, ?_⟩
        intro w' pos' rest' m h
        injection h with e1 e2 e3 e4
        subst e1 e2 e3 e4
        refine ⟨by omega, by omega, by omega, by omega, by omega, by omega, by omega, fun h => h, by omega, Or.inr ⟨hn, rfl, hl⟩⟩
      · refine ⟨by simp, ?_, by simp⟩
        intro p h; injection h with h; simp [h]
  | cons b rest ih =>
    intro w pos h1 h2 h3
    rw [idLoop]
    split
    · rename_i n hn
      refine ⟨by simp, by simp, ?_⟩
      intro w' pos' rest' m h
      injection h with e1 e2 e3 e4
      subst e1 e2 e3 e4
      have := idMarker_some _ _ hn
      refine ⟨by omega, by omega, by omega, by omega, by omega, by omega, by omega, fun h => h, by omega, Or.inl hn⟩
    · rename_i hn
      split
      · rename_i hl
        refine ⟨by simp, by simp, ?_⟩
        intro w' pos' rest' m h
        injection h with e1 e2 e3 e4
        subst e1 e2 e3 e4
        refine ⟨by omega, by omega, by omega, by omega, by omega, by omega, by omega, fun h => h, by omega, Or.inr ⟨hn, rfl, hl⟩⟩
      · rename_i hl
        have hlen : (if w.length ≥ 4 then w.drop 1 else w).length = if w.length ≥ 4 then w.length - 1 else w.length := by
          split <;> simp
        rw [if_neg (by rw [hlen]; split <;> omega)]
        obtain ⟨i1, i2, i3⟩ := ih ((if w.length ≥ 4 then w.drop 1 else w) ++ [b]) (pos + 1)
          (by rw [List.length_append, hlen]; simp only [List.length_singleton]; split <;> omega)
          (by rw [List.length_append, hlen]; simp only [List.length_singleton]; split <;> omega) h3
        refine ⟨i1, ?_, ?_⟩
        · intro p h; rw [i2 p h]; simp; omega
        · intro w' pos' rest' m h
          obtain ⟨j1, j2, j3, j4, j5, j6, j7, j8, j9, j10⟩ := i3 w' pos' rest' m h
          rw [List.length_append, hlen] at j3 j4 j7 j9
          simp only [List.length_singleton, List.length_cons, List.length_nil] at *
          refine ⟨j1, j2, ?_, ?_, by omega, by omega, ?_, ?_, ?_, j10⟩
          · split at j3 <;> omega
          · split at j4 <;> omega
          · split at j7 <;> omega
          · intro h; exact j8 (by omega)
          · split at j9 <;> omega

/-- Invariant of the size loop. -/
theorem sizeLoop_inv (lim : Int) (idLen : Nat) (rest : Bytes) : ∀ (w : Bytes) (psl pos : Nat), idLen + psl = w.length →
    w.length ≤ 12 → idLen ≤ 4 →
    sizeLoop lim idLen w psl pos rest ≠ .bad ∧
    (∀ p, sizeLoop lim idLen w psl pos rest = .eof p → p = pos + rest.length) ∧
    ∀ w' pos' rest' r, sizeLoop lim idLen w psl pos rest = .done w' pos' rest' r →
      w'.length ≤ 12 ∧ w'.length + rest'.length = w.length + rest.length ∧
      pos ≤ pos' ∧ pos' + rest'.length = pos + rest.length ∧ w.length ≤ w'.length ∧ w <+: w' ∧
      (pos ≤ lim → pos' ≤ lim) ∧
      (∀ r', r = some r' → r' = readCodedSize (w'.drop idLen) ∧ r'.len ≠ 0) ∧
      (r = none → idLen < w'.length ∨ lim = pos') ∧ (lim = pos → w' = w ∧ pos' = pos) := by
  induction rest with
  | nil =>
    intro w psl pos h1 h2 h3
    have htake : (w.drop idLen).take psl = w.drop idLen := List.take_of_length_le (by simp; omega)
    rw [sizeLoop, if_neg (by omega), htake]
    simp only
    split
    · rename_i hr
      refine ⟨by simp, by simp, ?_⟩
      intro w' pos' rest' r h
      injection h with e1 e2 e3 e4
      subst e1 e2 e3 e4
      refine ⟨by omega, by omega, by omega, by omega, by omega, List.prefix_refl _, fun h => h, ?_, by simp, fun _ => ⟨rfl, rfl⟩⟩
      intro r' h; injection h with h; subst h; exact ⟨rfl, hr⟩
    · split
      · refine ⟨by simp, by simp, ?_⟩
        intro w' pos' rest' r h
        injection h with e1 e2 e3 e4
        subst e1 e2 e3 e4
        exact ⟨by omega, by omega, by omega, by omega, by omega, List.prefix_refl _, fun h => h, by simp, fun _ => Or.inl (by omega), fun _ => ⟨rfl, rfl⟩⟩
      · split
        · refine ⟨by simp, by simp, ?_⟩
          intro w' pos' rest' r h
          injection h with e1 e2 e3 e4
          subst e1 e2 e3 e4
          exact ⟨by omega, by omega, by omega, by omega, by omega, List.prefix_refl _, fun h => h, by simp, fun _ => Or.inl (by omega), fun _ => ⟨rfl, rfl⟩⟩
        · split
          · rename_i hl
            refine ⟨by simp, by simp, ?_⟩
            intro w' pos' rest' r h
            injection h with e1 e2 e3 e4
            subst e1 e2 e3 e4
            exact ⟨by omega, by omega, by omega, by omega, by omega, List.prefix_refl _, fun h => h, by simp, fun _ => Or.inr hl, fun _ => ⟨rfl, rfl⟩⟩
          · refine ⟨by simp, ?_, by simp⟩
            intro p h; injection h with h; simp [h]
  | cons b rest ih =>
    intro w psl pos h1 h2 h3
    have htake : (w.drop idLen).take psl = w.drop idLen := List.take_of_length_le (by simp; omega)
    rw [sizeLoop, if_neg (by omega), htake]
    simp only
    split
    · rename_i hr
      refine ⟨by simp, by simp, ?_⟩
      intro w' pos' rest' r h
      injection h with e1 e2 e3 e4
      subst e1 e2 e3 e4
      refine ⟨by omega, by omega, by omega, by omega, by omega, List.prefix_refl _, fun h => h, ?_, by simp, fun _ => ⟨rfl, rfl⟩⟩
      intro r' h; injection h with h; subst h; exact ⟨rfl, hr⟩
    · split
      · refine ⟨by simp, by simp, ?_⟩
        intro w' pos' rest' r h
        injection h with e1 e2 e3 e4
        subst e1 e2 e3 e4
        exact ⟨by omega, by omega, by omega, by omega, by omega, List.prefix_refl _, fun h => h, by simp, fun _ => Or.inl (by omega), fun _ => ⟨rfl, rfl⟩⟩
      · split
        · refine ⟨by simp, by simp, ?_⟩
          intro w' pos' rest' r h
          injection h with e1 e2 e3 e4
          subst e1 e2 e3 e4
          exact ⟨by omega, by omega, by omega, by omega, by omega, List.prefix_refl _, fun h => h, by simp, fun _ => Or.inl (by omega), fun _ => ⟨rfl, rfl⟩⟩
        · split
          · rename_i hl
            refine ⟨by simp, by simp, ?_⟩
            intro w' pos' rest' r h
            injection h with e1 e2 e3 e4
            subst e1 e2 e3 e4
            exact ⟨by omega, by omega, by omega, by omega, by omega, List.prefix_refl _, fun h => h, by simp, fun _ => Or.inr hl, fun _ => ⟨rfl, rfl⟩⟩
          · rename_i hl
            rw [if_neg (by omega)]
            obtain ⟨i1, i2, i3⟩ := ih (w ++ [b]) (psl + 1) (pos + 1) (by simp; omega) (by simp; omega) h3
            refine ⟨i1, ?_, ?_⟩
            · intro p h; rw [i2 p h]; simp; omega
            · intro w' pos' rest' r h
              obtain ⟨j1, j2, j3, j4, j5, j6, j7, j8, j9, j10⟩ := i3 w' pos' rest' r h
              simp only [List.length_append, List.length_singleton, List.length_cons, List.length_nil] at *
              exact ⟨j1, by omega, by omega, by omega, by omega, List.IsPrefix.trans (List.prefix_append _ _) j6,
                fun h => j7 (by omega), j8, j9, fun h => absurd h hl⟩

theorem contain_false_limit (a : Bool) (e : Int) (ctx : List PCtx) (lv : Int) : (contain a e ctx lv).1 = [] → ctx = [] := by
  induction ctx generalizing lv with
  | nil => simp
  | cons c up ih =>
    simp only [contain]
    split
    · split
      · simp
      · rename_i h; intro h'; have := ih _ h'; simp [this] at h
    · simp

/-- One iteration of the main loop, with the invariant. -/
theorem loop_inv (S : Schema) (a : Bool) (orig : List PCtx) (lv0 : Int) (fuel : Nat) :
    ∀ (ctx : List PCtx) (lv : Int) (idLen : Nat) (w : Bytes) (pos : Nat) (rest : Bytes),
      idLen ≤ w.length → w.length ≤ 11 → idLen ≤ 4 → (idLen = 0 → w = []) →
      loop S a orig lv0 fuel ctx lv idLen w pos rest ≠ .bad ∧
      (w.length + rest.length < fuel → loop S a orig lv0 fuel ctx lv idLen w pos rest ≠ .fuelOut) := by
  induction fuel with
  | zero => intros; exact ⟨by simp [loop], by omega⟩
  | succ fuel ih =>
    intro ctx lv idLen w pos rest h1 h2 h3 h4
    rw [loop]
    obtain ⟨a1, a2, a3⟩ := idLoop_inv (limit ctx) idLen rest w pos h1 h2 h3
    generalize hid : idLoop (limit ctx) idLen w pos rest = ir at *
    cases ir with
    | bad => exact absurd rfl a1
    | eof p => exact ⟨by simp, by simp⟩
    | done w1 pos1 rest1 n =>
      obtain ⟨b1, b2, b3, b4, b5, b6, b7, b8, b8', b9⟩ := a3 w1 pos1 rest1 n rfl
      simp only
      rw [if_neg (by omega)]
      obtain ⟨c1, c2, c3⟩ := sizeLoop_inv (limit ctx) n rest1 w1 (w1.length - n) pos1 (by omega) (by omega) b2
      have hz : n = 0 → (readCodedSize (w1.drop n)).len = 0 := by
        rintro rfl
        rcases b9 with h | ⟨h, h', _⟩
        · have := idMarker_some _ _ h; omega
        · rw [List.drop_zero]
          apply readCodedSize_of_idMarker_none _ h
          rw [h4 (by omega)] at b3
          simp at b3; omega
      have hz0 : n = 0 → limit ctx = pos1 := by
        rintro rfl
        rcases b9 with h | ⟨h, h', h''⟩
        · have := idMarker_some _ _ h; omega
        · exact h''
      generalize hsz : sizeLoop (limit ctx) n w1 (w1.length - n) pos1 rest1 = sr at *
      cases sr with
      | bad => exact absurd rfl c1
      | eof p => exact ⟨by simp, by simp⟩
      | done w2 pos2 rest2 size =>
        obtain ⟨d1, d2, d3, d4, d5, d6, d7, d8, d9, d10⟩ := c3 w2 pos2 rest2 size rfl
        simp only
        have hzs : n = 0 → size = none ∧ limit ctx = pos2 := by
          intro hn
          obtain ⟨hw, hp⟩ := d10 (hz0 hn)
          refine ⟨?_, by rw [hp]; exact hz0 hn⟩
          cases size with
          | none => rfl
          | some r =>
            have := d8 r rfl
            rw [this.1, hw] at this
            exact absurd (hz hn) this.2
        have key : ∀ c : List PCtx × Int × Bool, (size = none → c = (ctx, lv, false)) → ∀ elt : Option Found,
            (size = none → elt = none) →
            (if n = 0 ∧ size.isSome = true ∧ c.2.2 = true then Out.bad else
              match elt with
              | some f => Out.found f
              | none =>
                if limit c.1 ≠ -1 ∧ limit c.1 ≤ pos2 then
                  if a = true ∧ limit c.1 ≠ pos2 then
                    if n = 0 then Out.bad
                    else
                      Out.found
                        { kind := Kind.dummy (idFromBuffer w2 n), pos := (pos2 : Int) - w2.length + n - n,
                          sizePos := (pos2 : Int) - w2.length + n, sizeLen := limit c.1 - ((pos2 : Int) - w2.length + n),
                          dataSize := 0, endPos := limit c.1, finite := true, levels := c.2.1, streamPos := limit c.1 }
                  else Out.none c.2.1 pos2
                else
                  if limit orig = -1 ∨ limit orig > (pos2 : Int) - w2.length + n then
                    loop S a orig lv0 fuel orig lv0 n (List.drop 1 w2) pos2 rest2
                  else Out.none lv0 pos2) = Out.bad ∨
            (w.length + rest.length < fuel + 1 ∧ (if n = 0 ∧ size.isSome = true ∧ c.2.2 = true then Out.bad else
              match elt with
              | some f => Out.found f
              | none =>
                if limit c.1 ≠ -1 ∧ limit c.1 ≤ pos2 then
                  if a = true ∧ limit c.1 ≠ pos2 then
                    if n = 0 then Out.bad
                    else
                      Out.found
                        { kind := Kind.dummy (idFromBuffer w2 n), pos := (pos2 : Int) - w2.length + n - n,
                          sizePos := (pos2 : Int) - w2.length + n, sizeLen := limit c.1 - ((pos2 : Int) - w2.length + n),
                          dataSize := 0, endPos := limit c.1, finite := true, levels := c.2.1, streamPos := limit c.1 }
                  else Out.none c.2.1 pos2
                else
                  if limit orig = -1 ∨ limit orig > (pos2 : Int) - w2.length + n then
                    loop S a orig lv0 fuel orig lv0 n (List.drop 1 w2) pos2 rest2
                  else Out.none lv0 pos2) = Out.fuelOut) → False := by
          intro c hc elt he
          have hloop : limit c.1 = -1 ∨ (pos2 : Int) < limit c.1 →
              loop S a orig lv0 fuel orig lv0 n (List.drop 1 w2) pos2 rest2 ≠ Out.bad ∧
              (w.length + rest.length < fuel + 1 → loop S a orig lv0 fuel orig lv0 n (List.drop 1 w2) pos2 rest2 ≠ Out.fuelOut) := by
            intro hlim
            have hnp : 1 ≤ n ∧ n < w2.length := by
              cases hs : size with
              | none =>
                rw [hc hs] at hlim
                simp only at hlim
                have := d9 hs
                refine ⟨?_, by omega⟩
                by_cases h0 : n = 0
                · have := hzs h0; omega
                · omega
              | some r =>
                have h8 := d8 r hs
                refine ⟨?_, ?_⟩
                · by_cases h0 : n = 0
                  · have := (hzs h0).1; rw [hs] at this; cases this
                  · omega
                · by_cases hlt : n < w2.length
                  · exact hlt
                  · exfalso
                    have : w2.drop n = [] := List.drop_eq_nil_of_le (by omega)
                    rw [h8.1, this] at h8
                    exact h8.2 rfl
            obtain ⟨i1, i2⟩ := ih orig lv0 n (w2.drop 1) pos2 rest2 (by simp; omega) (by simp; omega) b2 (by omega)
            refine ⟨i1, fun hf => i2 ?_⟩
            simp only [List.length_drop]
            omega
          intro hbad
          by_cases hc1 : n = 0 ∧ size.isSome = true ∧ c.2.2 = true
          · have := (hzs hc1.1).1
            rw [this] at hc1
            simp at hc1
          · rw [if_neg hc1] at hbad
            cases elt with
            | some f => rcases hbad with h | ⟨_, h⟩ <;> cases h
            | none =>
              simp only at hbad
              by_cases hc2 : limit c.1 ≠ -1 ∧ limit c.1 ≤ pos2
              · rw [if_pos hc2] at hbad
                by_cases hc3 : a = true ∧ limit c.1 ≠ pos2
                · rw [if_pos hc3] at hbad
                  by_cases h0 : n = 0
                  · have := hzs h0
                    rw [hc this.1] at hc3
                    exact hc3.2 this.2
                  · rw [if_neg h0] at hbad
                    rcases hbad with h | ⟨_, h⟩ <;> cases h
                · rw [if_neg hc3] at hbad
                  rcases hbad with h | ⟨_, h⟩ <;> cases h
              · rw [if_neg hc2] at hbad
                have hl := hloop (by omega)
                split at hbad
                · rcases hbad with h | ⟨h1, h⟩
                  · exact hl.1 h
                  · exact hl.2 h1 h
                · rcases hbad with h | ⟨_, h⟩ <;> cases h
        constructor
        · intro hb
          refine key _ ?_ _ ?_ (Or.inl hb)
          · intro h; subst h; rfl
          · intro h; subst h; rfl
        · intro hf hb
          refine key _ ?_ _ ?_ (Or.inr ⟨hf, hb⟩)
          · intro h; subst h; rfl
          · intro h; subst h; rfl

end Verif.Ebml.Scan
