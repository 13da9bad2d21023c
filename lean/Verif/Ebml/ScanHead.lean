import Verif.Ebml.ScanLemmas
/-! The element finder on a well-formed element head. -/
set_option linter.unusedSimpArgs false
namespace Verif.Ebml.Scan

theorem idLoop_id (lim : Int) (il : Nat) (b0 : UInt8) (tl : Bytes) (rest : Bytes) (n : Nat) (hn : n = tl.length + 1)
    (h4 : n ≤ 4) (hlo : 2 ^ (8 - n) ≤ b0.toNat) (hhi : b0.toNat < 2 ^ (9 - n)) (m : Nat) :
    ∀ (k pos : Nat), k + m = n → (lim = -1 ∨ ((pos : Int) + m ≤ lim)) →
      idLoop lim il ((b0 :: tl).take k) pos ((b0 :: tl).drop k ++ rest) = .done (b0 :: tl) (pos + m) rest n := by
  induction m with
  | zero =>
    intro k pos hk hlim
    have : k = (b0 :: tl).length := by simp; omega
    rw [this, List.take_length, List.drop_length, List.nil_append]
    have hm := idMarker_eq b0 tl n (by omega) h4 hlo hhi
    rw [if_pos (by omega)] at hm
    cases rest with
    | nil => rw [idLoop, hm]; rfl
    | cons b rest => rw [idLoop, hm]; rfl
  | succ m ih =>
    intro k pos hk hlim
    have hkl : k < (b0 :: tl).length := by simp; omega
    have hnone : idMarker ((b0 :: tl).take k) = none := by
      cases k with
      | zero => rfl
      | succ k =>
        rw [List.take_succ_cons, idMarker_eq b0 _ n (by omega) h4 hlo hhi, if_neg]
        simp; omega
    rw [List.drop_eq_getElem_cons hkl, List.cons_append, idLoop, hnone]
    simp only
    rw [if_neg (by omega)]
    have hlen : ((b0 :: tl).take k).length = k := by simp; omega
    rw [hlen, if_neg (show ¬ k ≥ 4 by omega), hlen, if_neg (by omega)]
    have ht : (b0 :: tl).take k ++ [(b0 :: tl)[k]] = (b0 :: tl).take (k + 1) := by
      rw [List.take_add_one, List.getElem?_eq_getElem hkl]; rfl
    rw [ht, ih (k + 1) (pos + 1) (by omega) (by omega), show pos + 1 + m = pos + (m + 1) by omega]

theorem readCodedSize_take (sz : Bytes) (hs : (readCodedSize sz).len = sz.length) (k : Nat) (hk : k < sz.length) :
    (readCodedSize (sz.take k)).len = 0 ∧ ∃ b0, sz.head? = some b0 ∧ b0 ≠ 0 := by
  have hb := C05_decode_bounded sz
  obtain ⟨h1, h2, b0, h3, h4, h5⟩ := (hb.2.2.2 sz.length (by omega)).1 hs
  refine ⟨?_, b0, h3, ?_⟩
  · apply Classical.byContradiction
    intro h0
    have hb' := C05_decode_bounded (sz.take k)
    obtain ⟨g1, g2, b1, g3, g4, g5⟩ := (hb'.2.2.2 _ (by omega : 0 < (readCodedSize (sz.take k)).len)).1 rfl
    cases k with
    | zero => simp at g3
    | succ k =>
      cases sz with
      | nil => simp at hk
      | cons x sz =>
        simp only [List.take_succ_cons, List.head?_cons, Option.some.injEq] at g3 h3
        subst g3
        subst h3
        simp only [List.take_succ_cons] at g1 g2 g4 g5
        generalize (readCodedSize (x :: sz.take k)).len = n at *
        simp only [List.length_cons, List.length_take] at *
        have : n < sz.length + 1 := by omega
        have hpow : 2 ^ (9 - (sz.length + 1)) ≤ 2 ^ (8 - n) := Nat.pow_le_pow_right (by decide) (by omega)
        omega
  · intro h
    have : 1 ≤ 2 ^ (8 - sz.length) := Nat.one_le_two_pow
    rw [h] at h4; simp at h4

theorem sizeLoop_field (lim : Int) (n : Nat) (idb sz rest : Bytes) (hn : idb.length = n) (h4 : n ≤ 4)
    (hs : (readCodedSize sz).len = sz.length) (hs0 : sz.length ≠ 0) (m : Nat) :
    ∀ (k pos : Nat), k + m = sz.length → (lim = -1 ∨ ((pos : Int) + m ≤ lim)) →
      sizeLoop lim n (idb ++ sz.take k) k pos (sz.drop k ++ rest) = .done (idb ++ sz) (pos + m) rest (some (readCodedSize sz)) := by
  have h8 : sz.length ≤ 8 := by have := (C05_decode_bounded sz).2.1; omega
  have hdrop : ∀ k, (idb ++ sz.take k).drop n = sz.take k := by
    intro k; rw [← hn]; simp
  induction m with
  | zero =>
    intro k pos hk hlim
    have e : k = sz.length := by omega
    have ht : sz.take k = sz := List.take_of_length_le (by omega)
    rw [sizeLoop.eq_def, if_neg (by simp; omega)]
    simp only
    rw [hdrop, ht, ht, if_pos (by omega), e, List.drop_length]
    rfl
  | succ m ih =>
    intro k pos hk hlim
    have hkl : k < sz.length := by omega
    obtain ⟨hz, b0, hb0, hne⟩ := readCodedSize_take sz hs k hkl
    have hlen : (idb ++ sz.take k).length = n + k := by simp; omega
    rw [sizeLoop.eq_def, if_neg (by omega)]
    simp only
    rw [hdrop, List.take_of_length_le (by simp; omega), if_neg (by omega), if_neg (by omega), if_neg ?_, if_neg (by omega)]
    · rw [List.drop_eq_getElem_cons hkl, List.cons_append]
      simp only
      rw [if_neg (by omega)]
      have ht : idb ++ sz.take k ++ [sz[k]] = idb ++ sz.take (k + 1) := by
        rw [List.append_assoc, List.take_add_one (i := k), List.getElem?_eq_getElem hkl]; rfl
      rw [ht, ih (k + 1) (pos + 1) (by omega) (by omega), show pos + 1 + m = pos + (m + 1) by omega]
    · rintro ⟨h1, h2⟩
      cases sz with
      | nil => simp at hkl
      | cons x sz =>
        cases k with
        | zero => omega
        | succ k =>
          simp only [List.take_succ_cons] at h2
          rw [List.getElem?_append_right (by omega), hn, Nat.sub_self] at h2
          simp at h2 hb0
          exact hne (hb0 ▸ h2)

/-- The first byte of a well-formed ID. -/
theorem idField_head (id n : Nat) (h : WellFormedId id n) : ∃ b0 tl, EbmlDoc.idField id = b0 :: tl ∧ n = tl.length + 1 ∧
    2 ^ (8 - n) ≤ b0.toNat ∧ b0.toNat < 2 ^ (9 - n) ∧ ∀ rest, idFromBuffer (EbmlDoc.idField id ++ rest) n = id := by
  have hwf := h
  obtain ⟨h1, h4, hlo, hhi⟩ := h
  have h32 : id < 2 ^ 32 := Nat.lt_of_lt_of_le hhi (Nat.pow_le_pow_right (by decide) (by omega))
  obtain ⟨bytes, e1, e2, e3, e4, e5⟩ := C10_id_roundtrip id n hwf 12 (by decide) []
  have hidf : EbmlDoc.idField id = bytes := by
    rw [← idField_eq id h32, e1]; rfl
  have hfrom : ∀ rest, idFromBuffer (EbmlDoc.idField id ++ rest) n = id := by
    intro rest
    obtain ⟨bytes', f1, f2, f3, f4, f5⟩ := C10_id_roundtrip id n hwf 12 (by decide) rest
    rw [e1] at f1
    injection f1 with f1
    rw [hidf, f1]; exact f5
  have hbb : bytes = beBytes n id := by
    have : fillBufferID 12 id = some (beBytes n id) := by simp [fillBufferID, e3]; omega
    rw [e1] at this; exact Option.some.inj this
  rw [hidf] at hfrom ⊢
  subst hbb
  have hn : n = 1 ∨ n = 2 ∨ n = 3 ∨ n = 4 := by omega
  rcases hn with e | e | e | e <;> subst e <;> simp only [Nat.reduceMul, Nat.reduceAdd, Nat.reducePow] at hlo hhi
  all_goals
    refine ⟨_, _, rfl, by simp [beBytes], ?_, ?_, hfrom⟩
    · simp only [lowByte_toNat, Nat.reduceSub, Nat.reducePow]; omega
    · simp only [lowByte_toNat, Nat.reduceSub, Nat.reducePow]; omega

/-- The finder at a well-formed head: it depends on what the contexts make of the ID. -/
theorem findNext_kind (S : Schema) (a : Bool) (fuel : Nat) (data : Bytes) (start : Nat) (c : PCtx) (up : List PCtx)
    (lv : Int) (id n : Nat) (sz rest : Bytes) (h : WellFormedId id n)
    (hs : (readCodedSize sz).len = sz.length) (hs0 : sz.length ≠ 0)
    (hdata : data.drop start = EbmlDoc.idField id ++ sz ++ rest)
    (hend : c.endPos = -1 ∨ (start : Int) + n + sz.length ≤ c.endPos)
    (hfit : (readCodedSize sz).value ≠ (readCodedSize sz).unknown →
      c.endPos = -1 ∨ (start : Int) + (readCodedSize sz).value ≤ c.endPos)
    (kd : Kind) (ch : Int) (hcr : createUsing S (EbmlDoc.idField id ++ sz) n a (c :: up) 0 = some (kd, ch))
    (hd : a = true ∨ kd.isDummy S = false)
    (hval : validateSize ((readCodedSize sz).value != (readCodedSize sz).unknown) (readCodedSize sz).value (kd.cls S) = true) :
    findNext S a (fuel + 1) data start (c :: up) lv = .found
      ⟨kd, start, start + n, sz.length,
        if (readCodedSize sz).value != (readCodedSize sz).unknown then (readCodedSize sz).value else -1,
        if (readCodedSize sz).value != (readCodedSize sz).unknown then start + n + sz.length + (readCodedSize sz).value
          else c.endPos,
        (readCodedSize sz).value != (readCodedSize sz).unknown, if ch > 0 then lv + ch else lv, start + n + sz.length⟩ := by
  obtain ⟨b0, tl, g1, g2, g3, g4, g5⟩ := idField_head id n h
  have hadj : adjust start (c :: up) lv = (c :: up, lv) := by
    cases up with
    | nil => rfl
    | cons c' up => rw [adjust, if_neg (by omega)]
  rw [findNext, hadj, hdata, List.append_assoc]
  simp only
  rw [loop]
  simp only [limit]
  rw [g1]
  have hl := idLoop_id c.endPos 0 b0 tl (sz ++ rest) n g2 h.2.1 g3 g4 n 0 start (by omega) (by omega)
  simp only [List.take_zero, List.drop_zero] at hl
  rw [hl]
  simp only
  have hlen : (b0 :: tl).length = n := by simp; omega
  rw [hlen, if_neg (by omega), Nat.sub_self]
  have hl2 := sizeLoop_field c.endPos n (b0 :: tl) sz rest hlen h.2.1 hs hs0 sz.length 0 (start + n) (by omega) (by omega)
  simp only [List.take_zero, List.drop_zero, List.append_nil] at hl2
  rw [hl2]
  simp only
  rw [← g1]
  have hwl : (EbmlDoc.idField id ++ sz).length = n + sz.length := by rw [g1]; simp; omega
  have hfitc : fit a (c :: up) lv (EbmlDoc.idField id ++ sz) (start + n + sz.length) (some (readCodedSize sz)) = (c :: up, lv, true) := by
    simp only [fit]
    split
    · rename_i hne
      rw [contain, if_neg]
      rw [hwl]
      have := hfit hne
      push_cast
      omega
    · rfl
  rw [hfitc]
  have hk : (a || !kd.isDummy S) = true := by rcases hd with h | h <;> simp [h]
  have hbuild : build S a (c :: up) lv (EbmlDoc.idField id ++ sz) n (readCodedSize sz) (start + n + sz.length) = some
      ⟨kd, start, start + n, sz.length,
        if (readCodedSize sz).value != (readCodedSize sz).unknown then (readCodedSize sz).value else -1,
        if (readCodedSize sz).value != (readCodedSize sz).unknown then start + n + sz.length + (readCodedSize sz).value
          else c.endPos,
        (readCodedSize sz).value != (readCodedSize sz).unknown, if ch > 0 then lv + ch else lv, start + n + sz.length⟩ := by
    rw [build, hcr]
    simp only [hk, Bool.not_false, Bool.or_true, if_true, hval, Bool.not_true, Bool.and_false, Bool.false_and,
      Bool.false_eq_true, if_false, limit, hwl, hs]
    have e1 : ((start + n + sz.length : Nat) : Int) - ((n + sz.length : Nat) : Int) + (n : Int) = (start : Int) + n := by
      push_cast; omega
    rw [e1, Int.add_sub_cancel]
  rw [if_neg (by have := h.1; omega)]
  simp only [attempt, if_true, hbuild]

/-- The same for an ID that is known. -/
theorem findNext_head (S : Schema) (a : Bool) (fuel : Nat) (data : Bytes) (start : Nat) (c : PCtx) (up : List PCtx)
    (lv : Int) (id n : Nat) (sz rest : Bytes) (h : WellFormedId id n)
    (hs : (readCodedSize sz).len = sz.length) (hs0 : sz.length ≠ 0)
    (hdata : data.drop start = EbmlDoc.idField id ++ sz ++ rest)
    (hend : c.endPos = -1 ∨ (start : Int) + n + sz.length ≤ c.endPos)
    (hfit : (readCodedSize sz).value ≠ (readCodedSize sz).unknown →
      c.endPos = -1 ∨ (start : Int) + (readCodedSize sz).value ≤ c.endPos)
    (r : Nat) (ch : Int) (hcr : createUsing S (EbmlDoc.idField id ++ sz) n a (c :: up) 0 = some (.known r, ch))
    (hcls : (S.ctx r).cls ≠ .dummy)
    (hval : validateSize ((readCodedSize sz).value != (readCodedSize sz).unknown) (readCodedSize sz).value (S.ctx r).cls = true) :
    findNext S a (fuel + 1) data start (c :: up) lv = .found
      ⟨.known r, start, start + n, sz.length,
        if (readCodedSize sz).value != (readCodedSize sz).unknown then (readCodedSize sz).value else -1,
        if (readCodedSize sz).value != (readCodedSize sz).unknown then start + n + sz.length + (readCodedSize sz).value
          else c.endPos,
        (readCodedSize sz).value != (readCodedSize sz).unknown, if ch > 0 then lv + ch else lv, start + n + sz.length⟩ :=
  findNext_kind S a fuel data start c up lv id n sz rest h hs hs0 hdata hend hfit (.known r) ch hcr
    (Or.inr (by simp [Kind.isDummy, Kind.cls, hcls])) hval

end Verif.Ebml.Scan
