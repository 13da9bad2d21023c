import Verif.Ebml.ScanProgress
/-! The finder without limits and dummies takes the first head in the stream. -/
set_option linter.unusedSimpArgs false
namespace Verif.Ebml.Scan

/-- The bytes at `p` are the head of the element `f` of context `c`: an ID of 1 to 4 bytes, its length given by its first byte,
that the table of `c` or else the table of the global elements has, and a size field with a size the class of the element
allows. -/
def HeadAt (S : Schema) (c : Nat) (levels : Int) (data : Bytes) (p : Nat) (f : Found) : Prop :=
  ∃ (n r : Nat) (b0 : UInt8) (sem : List Nat),
    1 ≤ n ∧ n ≤ 4 ∧ p + n ≤ data.length ∧ data[p]? = some b0 ∧ 2 ^ (8 - n) ≤ b0.toNat ∧ b0.toNat < 2 ^ (9 - n) ∧
    (S.ctx c).sem = some sem ∧
    (sem ++ S.globals).find? (fun x => (S.ctx x).id == beNat ((data.drop p).take n)) = some r ∧ (S.ctx r).cls ≠ .dummy ∧
    (readCodedSize (data.drop (p + n))).len ≠ 0 ∧
    validateSize f.finite (readCodedSize (data.drop (p + n))).value (S.ctx r).cls = true ∧
    f.kind = .known r ∧ f.pos = p ∧ f.sizePos = p + n ∧ f.sizeLen = (readCodedSize (data.drop (p + n))).len ∧
    f.streamPos = f.sizePos + f.sizeLen ∧ f.levels = levels ∧
    (f.finite = false ↔ (readCodedSize (data.drop (p + n))).value = (readCodedSize (data.drop (p + n))).unknown) ∧
    (f.finite = true → f.dataSize = (readCodedSize (data.drop (p + n))).value ∧ f.endPos = f.streamPos + f.dataSize) ∧
    (f.finite = false → f.dataSize = -1 ∧ f.endPos = -1)

theorem marker_unique (b n m : Nat) (h1 : 1 ≤ n) (h4 : n ≤ 4) (g1 : 1 ≤ m) (g4 : m ≤ 4) (hl : 2 ^ (8 - n) ≤ b) (hh : b < 2 ^ (9 - n))
    (gl : 2 ^ (8 - m) ≤ b) (gh : b < 2 ^ (9 - m)) : n = m := by
  have e1 : n = 1 ∨ n = 2 ∨ n = 3 ∨ n = 4 := by omega
  have e2 : m = 1 ∨ m = 2 ∨ m = 3 ∨ m = 4 := by omega
  rcases e1 with e | e | e | e <;> rcases e2 with e' | e' | e' | e' <;> subst e <;> subst e' <;>
    simp only [Nat.reduceSub, Nat.reducePow] at * <;> omega

/-- A position holds at most one head. -/
theorem HeadAt.unique {S : Schema} {c : Nat} {lv : Int} {data : Bytes} {p : Nat} {f g : Found} (hf : HeadAt S c lv data p f)
    (hg : HeadAt S c lv data p g) : f = g := by
  obtain ⟨n, r, b0, sem, a1, a2, a3, a4, a5, a6, a7, a8, a9, a10, a11, a12, a13, a14, a15, a16, a17, a18, a19, a20⟩ := hf
  obtain ⟨m, r', b1, sem', b1', b2, b3, b4, b5, b6, b7, b8, b9, b10, b11, b12, b13, b14, b15, b16, b17, b18, b19, b20⟩ := hg
  rw [a4] at b4
  injection b4 with b4
  subst b4
  have := marker_unique _ _ _ a1 a2 b1' b2 a5 a6 b5 b6
  subst this
  rw [a7] at b7
  injection b7 with b7
  subst b7
  rw [a8] at b8
  injection b8 with b8
  subst b8
  cases f with
  | mk k1 k2 k3 k4 k5 k6 k7 k8 k9 =>
    cases g with
    | mk l1 l2 l3 l4 l5 l6 l7 l8 l9 =>
      simp only at *
      have hfin : k7 = l7 := by
        cases k7 <;> cases l7 <;> simp_all
      subst hfin
      subst a12 b12 a13 b13 a14 b14 a15 b15 a16 b16 a17 b17
      cases k7 with
      | true => obtain ⟨x1, x2⟩ := a19 rfl; obtain ⟨y1, y2⟩ := b19 rfl; subst x1 y1 x2 y2; rfl
      | false => obtain ⟨x1, x2⟩ := a20 rfl; obtain ⟨y1, y2⟩ := b20 rfl; subst x1 y1 x2 y2; rfl

/-- A byte below 16 begins no head. -/
theorem headAt_low {S : Schema} {c : Nat} {lv : Int} {data : Bytes} {p : Nat} {f : Found} (h : HeadAt S c lv data p f) :
    ∃ b : UInt8, data[p]? = some b ∧ 16 ≤ b.toNat := by
  obtain ⟨n, r, b0, sem, a1, a2, a3, a4, a5, a6, _⟩ := h
  refine ⟨b0, a4, ?_⟩
  have e1 : n = 1 ∨ n = 2 ∨ n = 3 ∨ n = 4 := by omega
  rcases e1 with e | e | e | e <;> subst e <;> simp only [Nat.reduceSub, Nat.reducePow] at * <;> omega

theorem idMarker_low (b0 : UInt8) (w : Bytes) (h : idMarker (b0 :: w) = none) (hl : 4 ≤ (b0 :: w).length) : b0.toNat < 16 := by
  apply Classical.byContradiction
  intro hb
  have hlt := b0.toNat_lt
  have : ∃ n, 1 ≤ n ∧ n ≤ 4 ∧ 2 ^ (8 - n) ≤ b0.toNat ∧ b0.toNat < 2 ^ (9 - n) := by
    by_cases h1 : 128 ≤ b0.toNat
    · exact ⟨1, by omega, by omega, by simp only [Nat.reduceSub, Nat.reducePow]; omega, by simp only [Nat.reduceSub, Nat.reducePow]; omega⟩
    · by_cases h2 : 64 ≤ b0.toNat
      · exact ⟨2, by omega, by omega, by simp only [Nat.reduceSub, Nat.reducePow]; omega, by simp only [Nat.reduceSub, Nat.reducePow]; omega⟩
      · by_cases h3 : 32 ≤ b0.toNat
        · exact ⟨3, by omega, by omega, by simp only [Nat.reduceSub, Nat.reducePow]; omega, by simp only [Nat.reduceSub, Nat.reducePow]; omega⟩
        · exact ⟨4, by omega, by omega, by simp only [Nat.reduceSub, Nat.reducePow]; omega, by simp only [Nat.reduceSub, Nat.reducePow]; omega⟩
  obtain ⟨n, h1, h4, h5, h6⟩ := this
  rw [idMarker_eq b0 w n h1 h4 h5 h6, if_pos (by simp at hl; omega)] at h
  cases h

/-- The ID loop without limit passes over bytes below 16 only; when the stream ends it has at most 11 bytes left to look at. -/
theorem idLoop_skips (idLen : Nat) (data rest : Bytes) : ∀ (w : Bytes) (pos : Nat), w.length ≤ pos → w.length ≤ 11 →
    w ++ rest = data.drop (pos - w.length) →
    (∀ w' pos' rest' n, idLoop (-1) idLen w pos rest = .done w' pos' rest' n →
      ∀ q, pos - w.length ≤ q → q < pos' - w'.length → ∃ b : UInt8, data[q]? = some b ∧ b.toNat < 16) ∧
    (∀ p, idLoop (-1) idLen w pos rest = .eof p →
      ∀ q, pos - w.length ≤ q → q + 12 ≤ data.length → ∃ b : UInt8, data[q]? = some b ∧ b.toNat < 16) := by
  induction rest with
  | nil =>
    intro w pos h1 h2 h3
    have hlen : data.length ≤ pos := by
      have := congrArg List.length h3
      simp at this
      omega
    refine ⟨?_, ?_⟩
    · intro w' pos' rest' n h q hq1 hq2
      rw [idLoop] at h
      split at h
      · injection h with e1 e2 e3 e4; subst e1 e2; omega
      · rw [if_neg (by omega)] at h
        cases h
    · intro p h q hq1 hq2
      omega
  | cons b rest ih =>
    intro w pos h1 h2 h3
    rw [idLoop]
    cases hm : idMarker w with
    | some n =>
      refine ⟨?_, by simp⟩
      intro w' pos' rest' n h q hq1 hq2
      simp only at h
      injection h with e1 e2 e3 e4; subst e1 e2; omega
    | none =>
      simp only
      rw [if_neg (by omega)]
      have hlen : (if w.length ≥ 4 then w.drop 1 else w).length = if w.length ≥ 4 then w.length - 1 else w.length := by
        split <;> simp
      rw [if_neg (by rw [hlen]; split <;> omega)]
      have hbase : pos + 1 - ((if w.length ≥ 4 then w.drop 1 else w) ++ [b]).length = pos - w.length + if w.length ≥ 4 then 1 else 0 := by
        rw [List.length_append, hlen, List.length_singleton]
        split <;> omega
      obtain ⟨i1, i2⟩ := ih ((if w.length ≥ 4 then w.drop 1 else w) ++ [b]) (pos + 1)
        (by rw [List.length_append, hlen]; simp only [List.length_singleton]; split <;> omega)
        (by rw [List.length_append, hlen]; simp only [List.length_singleton]; split <;> omega)
        (by
          rw [hbase]
          split
          · rename_i hge
            rw [← List.drop_drop, ← h3, List.drop_append_of_le_length (by omega)]
            simp
          · rw [Nat.add_zero, ← h3]; simp)
      rw [hbase] at i1 i2
      have hfirst : w.length ≥ 4 → ∃ b : UInt8, data[pos - w.length]? = some b ∧ b.toNat < 16 := by
        intro hge
        cases w with
        | nil => simp at hge
        | cons b0 w =>
          refine ⟨b0, ?_, idMarker_low b0 w hm hge⟩
          have := congrArg (fun l => l[0]?) h3
          simp only [List.cons_append, List.getElem?_cons_zero, List.getElem?_drop, Nat.add_zero] at this
          exact this.symm
      refine ⟨?_, ?_⟩
      · intro w' pos' rest' n h q hq1 hq2
        by_cases hge : w.length ≥ 4
        · by_cases hqe : q = pos - w.length
          · rw [hqe]; exact hfirst hge
          · exact i1 w' pos' rest' n h q (by rw [if_pos hge]; omega) hq2
        · exact i1 w' pos' rest' n h q (by rw [if_neg hge]; omega) hq2
      · intro p h q hq1 hq2
        by_cases hge : w.length ≥ 4
        · by_cases hqe : q = pos - w.length
          · rw [hqe]; exact hfirst hge
          · exact i2 p h q (by rw [if_pos hge]; omega) hq2
        · exact i2 p h q (by rw [if_neg hge]; omega) hq2

/-- A size field that does not decode from a prefix with a zero or with eight bytes never does. -/
theorem readCodedSize_zero (w t : Bytes) (h : (readCodedSize w).len = 0) (hw : w[0]? = some 0 ∨ 8 ≤ w.length) :
    (readCodedSize (w ++ t)).len = 0 := by
  cases w with
  | nil => simp at hw
  | cons b0 w =>
    cases hf : findMarker b0 ((w ++ t).length + 1) 8 with
    | none =>
      rw [List.cons_append, readCodedSize, List.length_cons, hf]
    | some i =>
      exfalso
      obtain ⟨h1, h2, h3, h4⟩ := (findMarker_iff _ _ _).1 hf
      rcases hw with hw | hw
      · simp at hw
        subst hw
        have : 0 < 2 ^ (7 - i) := Nat.pow_pos (by omega)
        simp at h3
      · have : findMarker b0 (w.length + 1) 8 = some i := (findMarker_iff _ _ _).2 ⟨h1, by simp at hw; omega, h3, h4⟩
        rw [readCodedSize_shape _ _ _ this] at h
        simp at h

/-- The size loop without limit: what it leaves undecoded cannot be decoded; when the stream ends it holds at most 11 bytes. -/
theorem sizeLoop_fails (idLen : Nat) (data rest : Bytes) : ∀ (w : Bytes) (psl pos : Nat), idLen + psl = w.length → w.length ≤ 12 →
    idLen ≤ 4 → w.length ≤ pos → w ++ rest = data.drop (pos - w.length) →
    (∀ w' pos' rest', sizeLoop (-1) idLen w psl pos rest = .done w' pos' rest' none →
      (readCodedSize (data.drop (pos - w.length + idLen))).len = 0) ∧
    (∀ w' pos' rest' r, sizeLoop (-1) idLen w psl pos rest = .done w' pos' rest' r → pos' - w'.length = pos - w.length) ∧
    (∀ p, sizeLoop (-1) idLen w psl pos rest = .eof p → data.length < pos - w.length + 12) := by
  induction rest with
  | nil =>
    intro w psl pos h1 h2 h3 h4 h5
    have hd : data.drop (pos - w.length + idLen) = w.drop idLen ++ [] := by
      rw [← List.drop_drop, ← h5]; simp
    have htake : (w.drop idLen).take psl = w.drop idLen := List.take_of_length_le (by simp; omega)
    have hlen : w.length = data.length - (pos - w.length) := by
      have := congrArg List.length h5
      simpa using this
    rw [sizeLoop, if_neg (by omega), htake]
    simp only
    split
    · refine ⟨by simp, ?_, by simp⟩
      intro w' pos' rest' r h; injection h with e1 e2; subst e1 e2; rfl
    · rename_i hr0
      have hr0 : (readCodedSize (w.drop idLen)).len = 0 := Classical.not_not.1 hr0
      split
      · refine ⟨?_, ?_, by simp⟩
        · intro _ _ _ _
          rw [hd]
          exact readCodedSize_zero _ _ hr0 (Or.inr (by simp; omega))
        · intro w' pos' rest' r h; injection h with e1 e2; subst e1 e2; rfl
      · rename_i h8
        split
        · rename_i hz
          refine ⟨?_, ?_, by simp⟩
          · intro _ _ _ _
            rw [hd]
            exact readCodedSize_zero _ _ hr0 (Or.inl (by rw [List.getElem?_drop]; exact hz.2))
          · intro w' pos' rest' r h; injection h with e1 e2; subst e1 e2; rfl
        · rw [if_neg (by omega)]
          refine ⟨by simp, by simp, ?_⟩
          intro p _
          omega
  | cons b rest ih =>
    intro w psl pos h1 h2 h3 h4 h5
    have hd : data.drop (pos - w.length + idLen) = w.drop idLen ++ (b :: rest) := by
      rw [← List.drop_drop, ← h5, List.drop_append_of_le_length (by omega)]
    have htake : (w.drop idLen).take psl = w.drop idLen := List.take_of_length_le (by simp; omega)
    rw [sizeLoop, if_neg (by omega), htake]
    simp only
    split
    · refine ⟨by simp, ?_, by simp⟩
      intro w' pos' rest' r h; injection h with e1 e2; subst e1 e2; rfl
    · rename_i hr0
      have hr0 : (readCodedSize (w.drop idLen)).len = 0 := Classical.not_not.1 hr0
      split
      · refine ⟨?_, ?_, by simp⟩
        · intro _ _ _ _
          rw [hd]
          exact readCodedSize_zero _ _ hr0 (Or.inr (by simp; omega))
        · intro w' pos' rest' r h; injection h with e1 e2; subst e1 e2; rfl
      · rename_i h8
        split
        · rename_i hz
          refine ⟨?_, ?_, by simp⟩
          · intro _ _ _ _
            rw [hd]
            exact readCodedSize_zero _ _ hr0 (Or.inl (by rw [List.getElem?_drop]; exact hz.2))
          · intro w' pos' rest' r h; injection h with e1 e2; subst e1 e2; rfl
        · rw [if_neg (by omega), if_neg (by omega)]
          have hb : pos + 1 - (w ++ [b]).length = pos - w.length := by simp
          obtain ⟨i1, i2, i3⟩ := ih (w ++ [b]) (psl + 1) (pos + 1) (by simp; omega) (by simp; omega) h3 (by simp; omega)
            (by rw [hb, ← h5]; simp)
          rw [hb] at i1 i2 i3
          exact ⟨i1, i2, i3⟩

theorem createUsing_single (S : Schema) (w : Bytes) (n : Nat) (c : PCtx) (kd : Kind) (ch : Int)
    (h : createUsing S w n false [c] 0 = some (kd, ch)) : ∃ sem r, (S.ctx c.ref).sem = some sem ∧ kd = .known r ∧ ch ≤ 0 ∧
      (sem ++ S.globals).find? (fun x => (S.ctx x).id == idFromBuffer w n) = some r := by
  rw [createUsing] at h
  cases hs : (S.ctx c.ref).sem with
  | none => rw [hs] at h; cases h
  | some sem =>
    rw [hs] at h
    simp only at h
    cases hf : sem.find? (fun r => (S.ctx r).id == idFromBuffer w n) with
    | some r =>
      rw [hf] at h
      injection h with h
      injection h with e1 e2
      exact ⟨sem, r, rfl, e1.symm, by omega, by rw [List.find?_append, hf]; rfl⟩
    | none =>
      rw [hf] at h
      simp only at h
      cases hg : S.globals.find? (fun r => (S.ctx r).id == idFromBuffer w n) with
      | some r =>
        rw [hg] at h
        injection h with h
        injection h with e1 e2
        exact ⟨sem, r, rfl, e1.symm, by omega, by rw [List.find?_append, hf]; exact hg⟩
      | none =>
        rw [hg] at h
        simp at h

theorem createUsing_known (S : Schema) (w : Bytes) (n : Nat) (c : PCtx) (sem : List Nat) (r : Nat) (hs : (S.ctx c.ref).sem = some sem)
    (h : (sem ++ S.globals).find? (fun x => (S.ctx x).id == idFromBuffer w n) = some r) :
    ∃ ch : Int, createUsing S w n false [c] 0 = some (.known r, ch) := by
  rw [createUsing, hs]
  simp only
  rw [List.find?_append] at h
  cases hf : sem.find? (fun r => (S.ctx r).id == idFromBuffer w n) with
  | some r' => rw [hf] at h; simp at h; subst h; exact ⟨_, rfl⟩
  | none =>
    rw [hf] at h
    simp only [Option.none_or] at h
    simp only
    rw [h]
    exact ⟨_, rfl⟩

/-- What the finder makes of a candidate is the head at its place, and it makes something if there is one. -/
theorem attempt_head (S : Schema) (c : Nat) (lv : Int) (data w rest : Bytes) (n pos : Nat) (r : CodedSize)
    (hw : w ++ rest = data.drop (pos - w.length)) (hp : w.length ≤ pos) (hpd : pos ≤ data.length)
    (hm : idMarker w = some n) (hr : r = readCodedSize (w.drop n)) (hr0 : r.len ≠ 0) :
    (∀ f, build S false [⟨c, -1⟩] lv w n r pos = some f → HeadAt S c lv data (pos - w.length) f) ∧
    (∀ f, HeadAt S c lv data (pos - w.length) f → build S false [⟨c, -1⟩] lv w n r pos ≠ none) := by
  obtain ⟨m1, m4, mw, b0, hb0, hlo, hhi⟩ := idMarker_some w n hm
  have hb := C05_decode_bounded (w.drop n)
  rw [← hr] at hb
  have hread : readCodedSize (data.drop (pos - w.length + n)) = r := by
    have h2 := (hb.2.2.1 hr0).2 ((w.drop n).drop r.len ++ rest)
    rw [← List.append_assoc, List.take_append_drop] at h2
    rw [hr, ← List.drop_drop, ← hw, List.drop_append_of_le_length mw, h2, ← hr]
  have hid : idFromBuffer w n = beNat ((data.drop (pos - w.length)).take n) := by
    rw [idFromBuffer_take _ _ m1 m4, ← hw, List.take_append_of_le_length mw]
  have hat : data[pos - w.length]? = some b0 := by
    have := congrArg (fun l => l[0]?) hw
    simp only [List.getElem?_drop, Nat.add_zero] at this
    rw [← this]
    cases w with
    | nil => simp at hb0
    | cons x w => simpa using hb0
  refine ⟨?_, ?_⟩
  · intro f h
    rw [build] at h
    cases hc : createUsing S w n false [⟨c, -1⟩] 0 with
    | none => rw [hc] at h; cases h
    | some q =>
      obtain ⟨kd, ch⟩ := q
      obtain ⟨sem, x, hs, hk, hch, hfind⟩ := createUsing_single S w n ⟨c, -1⟩ kd ch hc
      subst hk
      rw [hc] at h
      simp only [Bool.false_or, Bool.false_and, Bool.false_eq_true, if_false] at h
      split at h
      · rename_i hd
        split at h
        · rename_i hv
          injection h with h
          have hc0 : ¬ ch > 0 := by omega
          rw [if_neg hc0] at h
          refine ⟨n, x, b0, sem, m1, m4, by omega, hat, hlo, hhi, hs, by rw [← hid]; exact hfind, ?_, by rw [hread]; exact hr0, ?_⟩
          · intro e
            simp [Kind.isDummy, Kind.cls, e] at hd
          · rw [hread]
            subst h
            simp only [Kind.cls] at hv
            refine ⟨hv, rfl, by simp only; omega, by simp only; omega, rfl, by simp only, rfl, by simp, ?_, ?_⟩
            · intro hf
              simp only at hf
              simp only [hf, if_true, true_and]
            · intro hf
              simp only at hf
              simp [hf, limit]
        · cases h
      · cases h
  · intro f hf
    obtain ⟨m, x, b1, sem, a1, a2, a3, a4, a5, a6, a7, a8, a9, a10, a11, a12, a13, a14, a15, a16, a17, a18, a19, a20⟩ := hf
    rw [hat] at a4
    injection a4 with a4
    subst a4
    have := marker_unique _ _ _ m1 m4 a1 a2 hlo hhi a5 a6
    subst this
    rw [← hid] at a8
    obtain ⟨ch, hc⟩ := createUsing_known S w n ⟨c, -1⟩ sem x a7 a8
    rw [hread] at a11 a18
    have hfin : f.finite = (r.value != r.unknown) := by
      cases hff : f.finite with
      | false => have := a18.1 hff; simp [this]
      | true =>
        have : r.value ≠ r.unknown := by intro e; rw [a18.2 e] at hff; cases hff
        symm; simpa using this
    rw [hfin] at a11
    rw [build, hc]
    simp only [Bool.false_or, Bool.false_and, Bool.false_eq_true, if_false, Kind.cls, Kind.isDummy, a11, if_true]
    rw [if_pos (by simpa using a9)]
    simp

theorem loop_first (S : Schema) (c : Nat) (lv : Int) (data : Bytes) (start : Nat) (fuel : Nat) :
    ∀ (idLen : Nat) (w : Bytes) (pos : Nat) (rest : Bytes),
      idLen ≤ w.length → w.length ≤ 11 → idLen ≤ 4 → w.length ≤ pos → w ++ rest = data.drop (pos - w.length) → pos ≤ data.length →
      start ≤ pos - w.length → (∀ q, start ≤ q → q < pos - w.length → ∀ g, ¬ HeadAt S c lv data q g) →
      (∀ f, loop S false [⟨c, -1⟩] lv fuel [⟨c, -1⟩] lv idLen w pos rest = .found f →
        ∃ p : Nat, f.pos = p ∧ start ≤ p ∧ HeadAt S c lv data p f ∧ ∀ q, start ≤ q → q < p → ∀ g, ¬ HeadAt S c lv data q g) ∧
      (∀ l p, loop S false [⟨c, -1⟩] lv fuel [⟨c, -1⟩] lv idLen w pos rest = .none l p →
        ∀ q, start ≤ q → q + 12 ≤ data.length → ∀ g, ¬ HeadAt S c lv data q g) := by
  induction fuel with
  | zero => intro idLen w pos rest _ _ _ _ _ _ _ _; simp [loop]
  | succ fuel ih =>
    intro idLen w pos rest h1 h2 h3 h4 h5 h6 h7 h8
    have hlim : limit [⟨c, -1⟩] = -1 := rfl
    rw [loop, hlim]
    obtain ⟨a1, a2, a3⟩ := idLoop_inv (-1) idLen rest w pos h1 h2 h3
    have abytes := idLoop_bytes (-1) idLen data rest w pos h4 h5
    obtain ⟨s1, s2⟩ := idLoop_skips idLen data rest w pos h4 h2 h5
    have hlow : ∀ q, (∃ b : UInt8, data[q]? = some b ∧ b.toNat < 16) → ∀ g, ¬ HeadAt S c lv data q g := by
      rintro q ⟨b, e1, e2⟩ g hg
      obtain ⟨b', e3, e4⟩ := headAt_low hg
      rw [e1] at e3; injection e3 with e3; subst e3; omega
    generalize hid : idLoop (-1) idLen w pos rest = ir at *
    cases ir with
    | bad => simp
    | eof p =>
      refine ⟨by simp, ?_⟩
      intro l p' _ q hq1 hq2
      by_cases hq : q < pos - w.length
      · exact h8 q hq1 hq
      · exact hlow q (s2 p rfl q (by omega) hq2)
    | done w1 pos1 rest1 n =>
      obtain ⟨b1, b2, b3, b4, b5, b6, b7, b8, b8', b9⟩ := a3 w1 pos1 rest1 n rfl
      obtain ⟨e1, e2⟩ := abytes w1 pos1 rest1 n rfl
      have hmk : idMarker w1 = some n := by
        rcases b9 with h | ⟨_, _, h⟩
        · exact h
        · omega
      have hlenrest : rest.length + pos = data.length := by
        have := congrArg List.length h5
        simp at this; omega
      obtain ⟨mk1, mk4, mkw, _⟩ := idMarker_some _ _ hmk
      have hno1 : ∀ q, start ≤ q → q < pos1 - w1.length → ∀ g, ¬ HeadAt S c lv data q g := by
        intro q hq1 hq2
        by_cases hq : q < pos - w.length
        · exact h8 q hq1 hq
        · exact hlow q (s1 w1 pos1 rest1 n rfl q (by omega) hq2)
      simp only
      rw [if_neg (by omega)]
      obtain ⟨c1, c2, c3⟩ := sizeLoop_inv (-1) n rest1 w1 (w1.length - n) pos1 (by omega) (by omega) b2
      have cbytes := sizeLoop_bytes (-1) n data rest1 w1 (w1.length - n) pos1 e1 e2
      obtain ⟨z1, z2, z3⟩ := sizeLoop_fails n data rest1 w1 (w1.length - n) pos1 (by omega) (by omega) b2 e1 e2
      generalize hsz : sizeLoop (-1) n w1 (w1.length - n) pos1 rest1 = sr at *
      cases sr with
      | bad => simp
      | eof p =>
        refine ⟨by simp, ?_⟩
        intro l p' _ q hq1 hq2
        have := z3 p rfl
        exact hno1 q hq1 (by omega)
      | done w2 pos2 rest2 size =>
        obtain ⟨d1, d2, d3, d4, d5, d6, d7, d8, d9, d10⟩ := c3 w2 pos2 rest2 size rfl
        obtain ⟨g1, g2⟩ := cbytes w2 pos2 rest2 size rfl
        have hsame := z2 w2 pos2 rest2 size rfl
        have hpd : pos2 ≤ data.length := by omega
        have hmk2 : idMarker w2 = some n := by
          obtain ⟨b0, hb0, hlo, hhi⟩ := (idMarker_some _ _ hmk).2.2.2
          obtain ⟨t, ht⟩ := d6
          cases w1 with
          | nil => simp at hb0
          | cons x w1 =>
            simp at hb0
            subst hb0
            rw [← ht, List.cons_append, idMarker_eq x _ n mk1 mk4 hlo hhi, if_pos (by simp at mkw ⊢; omega)]
        have hfit : fit false [⟨c, -1⟩] lv w2 pos2 size = ([⟨c, -1⟩], lv, size.isSome) := by
          cases size with
          | none => rfl
          | some r => simp [fit, contain]
        simp only [hfit]
        rw [if_neg (by omega)]
        -- no head here and the search goes on
        have hgo : (∀ g, ¬ HeadAt S c lv data (pos2 - w2.length) g) →
            (∀ f, loop S false [⟨c, -1⟩] lv fuel [⟨c, -1⟩] lv n (w2.drop 1) pos2 rest2 = .found f →
              ∃ p : Nat, f.pos = p ∧ start ≤ p ∧ HeadAt S c lv data p f ∧ ∀ q, start ≤ q → q < p → ∀ g, ¬ HeadAt S c lv data q g) ∧
            (∀ l p, loop S false [⟨c, -1⟩] lv fuel [⟨c, -1⟩] lv n (w2.drop 1) pos2 rest2 = .none l p →
              ∀ q, start ≤ q → q + 12 ≤ data.length → ∀ g, ¬ HeadAt S c lv data q g) := by
          intro hno
          have hlt : n < w2.length := by
            cases hs : size with
            | none => have := d9 hs; omega
            | some r =>
              have h8 := d8 r hs
              by_cases hlt : n < w2.length
              · exact hlt
              · exfalso
                have : w2.drop n = [] := List.drop_eq_nil_of_le (by omega)
                rw [h8.1, this] at h8
                exact h8.2 rfl
          have hb : pos2 - (w2.drop 1).length = pos2 - w2.length + 1 := by simp; omega
          have := ih n (w2.drop 1) pos2 rest2 (by simp; omega) (by simp; omega) b2 (by simp; omega)
            (by rw [hb, ← List.drop_drop, ← g2, List.drop_append_of_le_length (by omega)]) hpd (by rw [hb]; omega)
            (by
              rw [hb]
              intro q hq1 hq2
              by_cases hq : q = pos2 - w2.length
              · rw [hq]; exact hno
              · exact hno1 q hq1 (by omega))
          exact this
        cases size with
        | none =>
          simp only [attempt, hlim]
          rw [if_neg (by simp), if_pos (by simp)]
          apply hgo
          intro g hg
          have hz := z1 w2 pos2 rest2 rfl
          obtain ⟨m, x, b1, sem, t1, t2, t3, t4, t5, t6, t7, t8, t9, t10, _⟩ := hg
          have hmn : m = n := by
            obtain ⟨_, _, _, b0, hb0, hlo, hhi⟩ := idMarker_some _ _ hmk2
            have hat : data[pos2 - w2.length]? = some b0 := by
              have := congrArg (fun l => l[0]?) g2
              simp only [List.getElem?_drop, Nat.add_zero] at this
              rw [← this]
              cases w2 with
              | nil => simp at hb0
              | cons x w => simpa using hb0
            rw [hat] at t4
            injection t4 with t4
            subst t4
            exact marker_unique _ _ _ t1 t2 mk1 mk4 t5 t6 hlo hhi
          subst hmn
          rw [hsame] at t10
          exact t10 hz
        | some r =>
          have hr := d8 r rfl
          obtain ⟨u1, u2⟩ := attempt_head S c lv data w2 rest2 n pos2 r g2 g1 hpd hmk2 hr.1 hr.2
          simp only [attempt, Option.isSome_some, if_true, hlim]
          cases hb : build S false [⟨c, -1⟩] lv w2 n r pos2 with
          | some f' =>
            refine ⟨?_, by simp⟩
            intro f h
            simp only at h
            injection h with h
            subst h
            have := u1 f' hb
            refine ⟨pos2 - w2.length, ?_, by omega, this, fun q hq1 hq2 => hno1 q hq1 (by omega)⟩
            obtain ⟨_, _, _, _, _, _, _, _, _, _, _, _, _, _, _, _, hp, _⟩ := this
            exact hp
          | none =>
            simp only
            rw [if_neg (by simp), if_pos (by simp)]
            exact hgo (fun g hg => u2 g hg hb)

end Verif.Ebml.Scan
