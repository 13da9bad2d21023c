import Verif.Core.PrintfSpec
set_option linter.unusedSimpArgs false
set_option linter.unusedVariables false
namespace Verif.Printf

/-- The buffer of size `cap` after the text `T` has been printed to it. -/
def st (cap : Nat) (T : List Nat) : S := ⟨cap, T.take (cap - 1), cap - min T.length (cap - 1)⟩

theorem st_nil (cap : Nat) : st cap [] = ⟨cap, [], cap⟩ := by simp [st]

theorem st_left (cap : Nat) (T : List Nat) (hc : 1 ≤ cap) : (st cap T).left > 1 ↔ T.length < cap - 1 := by
  simp only [st]; omega

theorem st_full (cap : Nat) (T t : List Nat) (h : ¬ T.length < cap - 1) : st cap (T ++ t) = st cap T := by
  simp only [st, List.length_append]
  rw [List.take_append_of_le_length (by omega)]
  congr 1; omega

theorem put_st (cap : Nat) (T : List Nat) (c : Nat) (hcap : cap < 2 ^ 64) (h : T.length < cap - 1) :
    put (st cap T) c = some (st cap (T ++ [c % 256])) := by
  simp only [Nat.reducePow] at hcap
  simp only [put, st, List.length_take, List.length_append, List.length_cons, List.length_nil]
  rw [if_pos (by omega)]
  simp only [Nat.reducePow, Nat.reduceSub, Option.some.injEq, S.mk.injEq, true_and]
  refine ⟨?_, by omega⟩
  rw [List.take_of_length_le (by omega), List.take_of_length_le (by simp; omega)]

theorem emitAll_st (cap : Nat) (hc : 1 ≤ cap) (hcap : cap < 2 ^ 64) : ∀ (t T : List Nat),
    emitAll t (st cap T) = some (st cap (T ++ t.map (· % 256)))
  | [], T => by simp [emitAll]
  | c :: t, T => by
    rw [emitAll]
    by_cases h : T.length < cap - 1
    · rw [if_pos ((st_left cap T hc).2 h), put_st cap T c hcap h]
      simp only
      rw [emitAll_st cap hc hcap t]
      simp
    · rw [if_neg (by rw [st_left cap T hc]; exact h), st_full cap T _ h]

theorem emitAll_st' (cap : Nat) (hc : 1 ≤ cap) (hcap : cap < 2 ^ 64) (t T : List Nat) (ht : ∀ c ∈ t, c < 256) :
    emitAll t (st cap T) = some (st cap (T ++ t)) := by
  rw [emitAll_st cap hc hcap]
  congr 3
  have : t.map (· % 256) = t.map id := List.map_congr_left fun c hc => Nat.mod_eq_of_lt (ht c hc)
  simpa using this

theorem putAll_st (cap : Nat) (hcap : cap < 2 ^ 64) : ∀ (t T : List Nat), (∀ c ∈ t, c < 256) →
    T.length + t.length ≤ cap - 1 → putAll t (st cap T) = some (st cap (T ++ t))
  | [], T, _, _ => by simp [putAll]
  | c :: t, T, h, hl => by
    simp only [List.length_cons] at hl
    rw [putAll, put_st cap T c hcap (by omega)]
    simp only
    rw [putAll_st cap hcap t _ (fun d hd => h d (List.mem_cons_of_mem _ hd)) (by simp; omega),
      Nat.mod_eq_of_lt (h c List.mem_cons_self)]
    simp

theorem padLoop_full (cap : Nat) (hc : 1 ≤ cap) (w : Nat) (T : List Nat) (h : ¬ T.length < cap - 1) :
    (padLoop w (st cap T)).map (·.2) = some (st cap T) := by
  cases w with
  | zero => simp [padLoop]
  | succ w => rw [padLoop, if_neg (by rw [st_left cap T hc]; exact h)]; simp

theorem padLoop_st (cap : Nat) (hc : 1 ≤ cap) (hcap : cap < 2 ^ 64) : ∀ (w : Nat) (T : List Nat),
    ∃ w', padLoop w (st cap T) = some (w', st cap (T ++ List.replicate w 0x20)) ∧
      (w' = 0 ∨ ¬ (T ++ List.replicate w 0x20).length < cap - 1)
  | 0, T => ⟨0, by simp [padLoop], Or.inl rfl⟩
  | w + 1, T => by
    by_cases h : T.length < cap - 1
    · obtain ⟨w', h1, h2⟩ := padLoop_st cap hc hcap w (T ++ [0x20])
      have e : T ++ List.replicate (w + 1) 0x20 = T ++ [0x20] ++ List.replicate w 0x20 := by
        simp [List.replicate_succ]
      refine ⟨w', ?_, ?_⟩
      · rw [padLoop, if_pos ((st_left cap T hc).2 h), put_st cap T _ hcap h]
        simp only [Nat.reduceMod]
        rw [h1, e]
      · rw [e]; exact h2
    · refine ⟨w, ?_, Or.inr (by simp; omega)⟩
      rw [padLoop, if_neg (by rw [st_left cap T hc]; exact h), st_full cap T _ h]

theorem padLoop_snd (cap : Nat) (hc : 1 ≤ cap) (hcap : cap < 2 ^ 64) (w : Nat) (T : List Nat) :
    (padLoop w (st cap T)).map (·.2) = some (st cap (T ++ List.replicate w 0x20)) := by
  obtain ⟨w', h, _⟩ := padLoop_st cap hc hcap w T
  rw [h]; rfl

theorem padLoop_fit (cap : Nat) (hc : 1 ≤ cap) (hcap : cap < 2 ^ 64) (w : Nat) (T : List Nat)
    (h : T.length + w < cap - 1) : padLoop w (st cap T) = some (0, st cap (T ++ List.replicate w 0x20)) := by
  obtain ⟨w', h1, h2⟩ := padLoop_st cap hc hcap w T
  rw [h1]
  rcases h2 with rfl | h2
  · rfl
  · simp at h2; omega

/-! ## The conversions -/

/-- The width the code works with: `-1` without digits. -/
def Spec.wInt (f : Spec) : Int := if f.ws = [] then -1 else (f.width : Int)

theorem wInt_toNat (f : Spec) (k : Nat) : (f.wInt - k).toNat = f.width - k := by
  unfold Spec.wInt
  by_cases h : f.ws = []
  · rw [if_pos h]; simp only [Spec.width, h, List.foldl_nil]; omega
  · rw [if_neg h]; omega

theorem charConv_left (cap : Nat) (hc : 1 ≤ cap) (hcap : cap < 2 ^ 64) (f : Spec) (v : Int) (T : List Nat)
    (h : T.length < cap - 1) (hl : f.left = true) :
    charConv f.left f.wInt v (st cap T) = some (st cap (T ++ field f.left f.width [(v % 256).toNat])) := by
  have e : (f.wInt - 1).toNat = f.width - 1 := wInt_toNat f 1
  simp only [charConv, hl, if_true, field]
  rw [put_st cap T _ hcap h]
  simp only
  rw [padLoop_snd cap hc hcap, e, Nat.mod_eq_of_lt (by omega)]
  simp

theorem charConv_none (cap : Nat) (hc : 1 ≤ cap) (hcap : cap < 2 ^ 64) (f : Spec) (v : Int) (T : List Nat)
    (h : T.length < cap - 1) (hl : f.left = false) (hw : f.width ≤ 1 ∨ T.length + f.width < cap) :
    charConv f.left f.wInt v (st cap T) = some (st cap (T ++ field f.left f.width [(v % 256).toNat])) := by
  have e : (f.wInt - 1).toNat = f.width - 1 := wInt_toNat f 1
  simp only [charConv, hl, field, Bool.false_eq_true, if_false]
  rw [e, padLoop_fit cap hc hcap _ T (by omega)]
  simp only
  rw [put_st cap _ _ hcap (by simp; omega)]
  simp only
  rw [padLoop_snd cap hc hcap, Nat.mod_eq_of_lt (by omega)]
  simp

theorem strConv_left (cap : Nat) (hc : 1 ≤ cap) (hcap : cap < 2 ^ 64) (f : Spec) (t T : List Nat)
    (ht : ∀ c ∈ t, c < 256) (h : T.length < cap - 1) (hl : f.left = true) :
    strConv f.left f.wInt t (st cap T) = some (st cap (T ++ field f.left f.width t)) := by
  have hleft : (st cap T).left - 1 = cap - 1 - T.length := by simp only [st]; omega
  simp only [strConv, hl, if_true, field]
  rw [hleft, wInt_toNat, putAll_st cap hcap _ T (fun c hc => ht c (List.mem_of_mem_take hc)) (by simp; omega)]
  simp only
  rw [padLoop_snd cap hc hcap]
  by_cases hfit : t.length ≤ cap - 1 - T.length
  · rw [Nat.min_eq_left hfit, List.take_length]; simp
  · rw [Nat.min_eq_right (by omega), st_full cap (T ++ t.take (cap - 1 - T.length)) _ (by simp; omega)]
    have e : T ++ (t ++ List.replicate (f.width - t.length) 0x20) =
        (T ++ t.take (cap - 1 - T.length)) ++ (t.drop (cap - 1 - T.length) ++ List.replicate (f.width - t.length) 0x20) := by
      rw [List.append_assoc, ← List.append_assoc (t.take _), List.take_append_drop]
    rw [e, st_full cap (T ++ t.take (cap - 1 - T.length)) _ (by simp; omega)]

theorem strConv_none (cap : Nat) (hc : 1 ≤ cap) (hcap : cap < 2 ^ 64) (f : Spec) (t T : List Nat)
    (ht : ∀ c ∈ t, c < 256) (h : T.length < cap - 1) (hl : f.left = false)
    (hw : f.width = 0 ∨ T.length + (field f.left f.width t).length < cap) :
    strConv f.left f.wInt t (st cap T) = some (st cap (T ++ field f.left f.width t)) := by
  have hleft : (st cap T).left - 1 = cap - 1 - T.length := by simp only [st]; omega
  simp only [strConv, hl, Bool.false_eq_true, if_false, field] at hw ⊢
  simp only [List.length_append, List.length_replicate] at hw
  rw [hleft, wInt_toNat]
  by_cases hfit : t.length ≤ cap - 1 - T.length
  · rw [Nat.min_eq_left hfit, List.take_length]
    obtain ⟨w', h1, h2⟩ := padLoop_st cap hc hcap (f.width - t.length) T
    rw [h1]; simp only
    rw [putAll_st cap hcap t _ ht (by simp; omega)]
    simp only
    rcases h2 with rfl | h2
    · simp [padLoop]
    · rw [padLoop_full cap hc _ _ (by simp at h2 ⊢; omega)]
      simp
  · have hw0 : f.width = 0 := by omega
    rw [hw0, Nat.min_eq_right (by omega)]
    simp only [Nat.zero_sub, padLoop, List.replicate_zero, List.nil_append]
    rw [putAll_st cap hcap _ T (fun c hc => ht c (List.mem_of_mem_take hc)) (by simp; omega)]
    simp only [Option.map_some]
    have e : T ++ t = (T ++ t.take (cap - 1 - T.length)) ++ t.drop (cap - 1 - T.length) := by
      rw [List.append_assoc, List.take_append_drop]
    rw [e, st_full cap (T ++ t.take (cap - 1 - T.length)) _ (by simp; omega)]

theorem strAConv_left (cap : Nat) (hc : 1 ≤ cap) (hcap : cap < 2 ^ 64) (f : Spec) (t T : List Nat)
    (ht : ∀ c ∈ t, c < 256) (h : T.length < cap - 1) (hl : f.left = true) :
    strAConv f.left f.wInt t (st cap T) = some (st cap (T ++ field f.left f.width t)) := by
  have hleft : (st cap T).left - 1 = cap - 1 - T.length := by simp only [st]; omega
  have := strConv_left cap hc hcap f t T ht h hl
  rw [← this]
  simp only [strAConv, strConv, hl, if_true]
  rw [hleft, putAll_st cap hcap _ T (fun c hc => ht c (List.mem_of_mem_take hc)) (by simp; omega),
    emitAll_st' cap hc hcap _ T (fun c hc => ht c (List.mem_of_mem_take hc))]

theorem strAConv_none (cap : Nat) (hc : 1 ≤ cap) (hcap : cap < 2 ^ 64) (f : Spec) (t T : List Nat)
    (ht : ∀ c ∈ t, c < 256) (h : T.length < cap - 1) (hl : f.left = false)
    (hw : f.width = 0 ∨ T.length + (field f.left f.width t).length < cap) :
    strAConv f.left f.wInt t (st cap T) = some (st cap (T ++ field f.left f.width t)) := by
  have hleft : (st cap T).left - 1 = cap - 1 - T.length := by simp only [st]; omega
  rw [← strConv_none cap hc hcap f t T ht h hl hw]
  simp only [strAConv, strConv, hl, Bool.false_eq_true, if_false, field] at hw ⊢
  simp only [List.length_append, List.length_replicate] at hw
  rw [hleft, wInt_toNat]
  obtain ⟨w', h1, h2⟩ := padLoop_st cap hc hcap (f.width - min t.length (cap - 1 - T.length)) T
  rw [h1]; simp only
  rw [putAll_st cap hcap _ _ (fun c hc => ht c (List.mem_of_mem_take hc)) (by simp; omega),
    emitAll_st' cap hc hcap _ _ (fun c hc => ht c (List.mem_of_mem_take hc))]

theorem digitChar_small : ∀ d, d < 16 → digitChar true d = ((Nat.digitChar d).toUpper).toNat ∧
    digitChar false d = (Nat.digitChar d).toNat ∧ digitChar true d < 256 ∧ digitChar false d < 256 := by decide

theorem ptrConv_st (cap : Nat) (hc : 1 ≤ cap) (hcap : cap < 2 ^ 64) (f : Spec) (v : Nat) (T : List Nat) :
    ptrConv f.left f.wInt v (st cap T) = some (st cap (T ++ (Conv.ptr v).text f)) := by
  have e : ((List.range 8).map fun k => digitChar true (v / 16 ^ (7 - k) % 16)) =
      ((List.range 8).map fun k => ((Nat.digitChar (v / 16 ^ (7 - k) % 16)).toUpper).toNat) :=
    List.map_congr_left fun k _ => (digitChar_small _ (Nat.mod_lt _ (by decide))).1
  have hlt : ∀ c ∈ ((List.range 8).map fun k => digitChar true (v / 16 ^ (7 - k) % 16)), c < 256 := by
    intro c hc
    obtain ⟨k, _, rfl⟩ := List.mem_map.1 hc
    exact (digitChar_small _ (Nat.mod_lt _ (by decide))).2.2.1
  have hw : (f.wInt - 8).toNat = f.width - 8 := wInt_toNat f 8
  simp only [Conv.text, ← e]
  generalize hg : ((List.range 8).map fun k => digitChar true (v / 16 ^ (7 - k) % 16)) = ds at hlt
  have hlen : ds.length = 8 := by rw [← hg]; simp
  unfold ptrConv
  rw [hg, hw]
  cases f.left with
  | true =>
    simp only [if_true, field]
    rw [emitAll_st' cap hc hcap ds T hlt]
    simp only
    rw [padLoop_snd cap hc hcap, hlen]
    simp
  | false =>
    simp only [Bool.false_eq_true, if_false, field]
    obtain ⟨w', h1, h2⟩ := padLoop_st cap hc hcap (f.width - 8) T
    rw [h1]; simp only
    rw [emitAll_st' cap hc hcap ds _ hlt]
    simp only
    rcases h2 with rfl | h2
    · simp [padLoop, hlen]
    · rw [padLoop_full cap hc _ _ (by simp at h2 ⊢; omega), hlen]
      simp

/-! ## The format -/

theorem takeNum_digits (c : Nat) (rest : List Nat) (hc : isDigit c = false) : ∀ (ws : List Nat) (acc : Nat),
    (∀ d ∈ ws, d < 10) →
    takeNum acc (ws.map (· + 0x30) ++ c :: rest) = (ws.foldl (fun a d => a * 10 + d) acc, c :: rest)
  | [], acc, _ => by simp [takeNum, hc]
  | d :: ws, acc, h => by
    have hd : d < 10 := h d List.mem_cons_self
    have h1 : isDigit (d + 0x30) = true := by simp only [isDigit]; simp; omega
    simp only [List.map_cons, List.cons_append, takeNum, h1, if_true, List.foldl_cons]
    rw [takeNum_digits c rest hc ws _ (fun x hx => h x (List.mem_cons_of_mem _ hx))]
    congr 2

theorem parseWidth_digits (c : Nat) (rest : List Nat) (hc : isDigit c = false) (f : Spec)
    (h : ∀ d ∈ f.ws, d < 10) :
    parseWidth (f.ws.map (· + 0x30) ++ c :: rest) = (f.wInt, c :: rest) := by
  unfold Spec.wInt Spec.width
  cases hw : f.ws with
  | nil => simp [parseWidth, hc]
  | cons d ws =>
    rw [hw] at h
    have hd : d < 10 := h d List.mem_cons_self
    have h1 : isDigit (d + 0x30) = true := by simp only [isDigit]; simp; omega
    have := takeNum_digits c rest hc (d :: ws) 0 h
    simp only [List.map_cons, List.cons_append] at this ⊢
    simp only [parseWidth, h1, if_true]
    rw [this]
    simp

theorem flag_ne (c d : Nat) (m : List Nat) (h : d ≠ c) : flag c (d :: m) = (false, d :: m) := by
  simp [flag, h]

theorem flag_eq (c : Nat) (m : List Nat) : flag c (c :: m) = (true, m) := by simp [flag]

/-- What follows the width: `l`, `u`, the letter. -/
def tailMask (f : Spec) (k : Conv) : List Nat :=
  (if f.long then [0x6C] else []) ++ (if f.uns then [0x75] else []) ++ [k.letter]

theorem letter_cases (k : Conv) : k.letter = 0x64 ∨ k.letter = 0x78 ∨ k.letter = 0x58 ∨ k.letter = 0x63 ∨
    k.letter = 0x73 ∨ k.letter = 0x53 ∨ k.letter = 0x70 := by
  cases k with
  | hex u v => cases u <;> simp [Conv.letter]
  | _ => simp [Conv.letter]

theorem tail_head (f : Spec) (k : Conv) : ∃ c m, tailMask f k = c :: m ∧ isDigit c = false ∧ c ≠ 0x2D ∧ c ≠ 0x30 ∧
    c ≠ 0x2E ∧ c ≠ 0x2A ∧ c ≠ 0x25 := by
  unfold tailMask
  cases f.long <;> cases f.uns <;> simp only [if_true, Bool.false_eq_true, if_false, List.nil_append, List.cons_append]
  · rcases letter_cases k with h | h | h | h | h | h | h <;> rw [h] <;> exact ⟨_, _, rfl, by decide⟩
  all_goals exact ⟨_, _, rfl, by decide⟩

theorem parse_tail (f : Spec) (k : Conv) (rest : List Nat) :
    flag 0x75 (parseI64 (dropLs (tailMask f k ++ rest)).2).2 = (f.uns, k.letter :: rest) ∧
      ((dropLs (tailMask f k ++ rest)).1 || (parseI64 (dropLs (tailMask f k ++ rest)).2).1) = f.long := by
  unfold tailMask
  rcases letter_cases k with h | h | h | h | h | h | h <;> rw [h] <;>
    cases f.long <;> cases f.uns <;> simp [dropLs, parseI64, flag]

theorem parse_dir (f : Spec) (k : Conv) (rest : List Nat) (h : (Piece.dir f k).WF) :
    parseD ((Piece.dir f k).mask.drop 1 ++ rest) = ⟨f.left, f.zero, f.wInt, false, f.long, f.uns, k.letter :: rest⟩ := by
  obtain ⟨hd, hz, _⟩ := h
  obtain ⟨c, m, hm, hc, c1, c2, c3, c4, c5⟩ := tail_head f k
  have hmask : (Piece.dir f k).mask.drop 1 ++ rest =
      (if f.left then [0x2D] else []) ++ ((if f.zero then [0x30] else []) ++ (f.ws.map (· + 0x30) ++ c :: (m ++ rest))) := by
    have e : tailMask f k ++ rest = c :: (m ++ rest) := by rw [hm]; rfl
    rw [← e]; simp [Piece.mask, tailMask]
  have hw := parseWidth_digits c (m ++ rest) hc f hd
  have e : c :: (m ++ rest) = tailMask f k ++ rest := by rw [hm]; rfl
  -- the flag `0`
  have hzero : flag 0x30 ((if f.zero then [0x30] else []) ++ (f.ws.map (· + 0x30) ++ c :: (m ++ rest))) =
      (f.zero, f.ws.map (· + 0x30) ++ c :: (m ++ rest)) := by
    cases hfz : f.zero with
    | true => simp only [if_true, List.singleton_append]; exact flag_eq _ _
    | false =>
      simp only [Bool.false_eq_true, if_false, List.nil_append]
      cases hws : f.ws with
      | nil => exact flag_ne _ _ _ c2
      | cons d ws =>
        refine flag_ne _ _ _ ?_
        show d + 0x30 ≠ 0x30
        have := hz hfz
        rw [hws] at this
        simp at this
        omega
  have hleft : flag 0x2D ((if f.left then [0x2D] else []) ++ ((if f.zero then [0x30] else []) ++
        (f.ws.map (· + 0x30) ++ c :: (m ++ rest)))) =
      (f.left, (if f.zero then [0x30] else []) ++ (f.ws.map (· + 0x30) ++ c :: (m ++ rest))) := by
    cases f.left with
    | true => simp only [if_true, List.singleton_append]; exact flag_eq _ _
    | false =>
      simp only [Bool.false_eq_true, if_false, List.nil_append]
      cases f.zero with
      | true => simp only [if_true, List.singleton_append]; exact flag_ne _ _ _ (by decide)
      | false =>
        simp only [Bool.false_eq_true, if_false, List.nil_append]
        cases hws : f.ws with
        | nil => exact flag_ne _ _ _ c1
        | cons d ws => refine flag_ne _ _ _ ?_; show d + 0x30 ≠ 0x2D; omega
  have hprec : parsePrec (c :: (m ++ rest)) = c :: (m ++ rest) := by
    simp only [parsePrec, flag_ne _ _ _ c3]
  have hstar : flag 0x2A (c :: (m ++ rest)) = (false, c :: (m ++ rest)) := flag_ne _ _ _ c4
  have ht := parse_tail f k rest
  rw [← e] at ht
  rw [hmask]
  simp only [parseD, hleft, hzero, hw, hprec, hstar]
  rw [ht.2, ht.1]

theorem mask_head (f : Spec) (k : Conv) (rest : List Nat) (h : (Piece.dir f k).WF) :
    ((Piece.dir f k).mask.drop 1 ++ rest).head? ≠ some 0x25 := by
  obtain ⟨hd, hz, _⟩ := h
  obtain ⟨c, m, hm, hc, c1, c2, c3, c4, c5⟩ := tail_head f k
  have hmask : (Piece.dir f k).mask.drop 1 ++ rest =
      (if f.left then [0x2D] else []) ++ ((if f.zero then [0x30] else []) ++ (f.ws.map (· + 0x30) ++ c :: (m ++ rest))) := by
    have e : tailMask f k ++ rest = c :: (m ++ rest) := by rw [hm]; rfl
    rw [← e]; simp [Piece.mask, tailMask]
  rw [hmask]
  cases f.left <;> cases f.zero <;> cases f.ws <;> simp <;> omega

/-! ## The loop -/

/-- The text this implementation prints, numbers as the code makes them. -/
def Conv.atext (f : Spec) : Conv → List Nat
  | .dec v => (number false false f.uns f.zero f.wInt v).map (· % 256)
  | .hex up v => (number true up f.uns f.zero f.wInt v).map (· % 256)
  | k => k.text f

def Piece.atext : Piece → List Nat
  | .dir f k => k.atext f
  | p => p.text

def atext (ps : List Piece) : List Nat := ps.flatMap Piece.atext

/-- Either not right-aligned or there is room. -/
def Piece.Ok (cap : Nat) (T : List Nat) (p : Piece) : Prop := p.RightAligned → T.length + p.text.length < cap

theorem mask_cons (f : Spec) (k : Conv) (rest : List Nat) :
    (Piece.dir f k).mask ++ rest = 0x25 :: ((Piece.dir f k).mask.drop 1 ++ rest) := by
  simp [Piece.mask]

theorem convert_st (cap : Nat) (hc : 1 ≤ cap) (hcap : cap < 2 ^ 64) (f : Spec) (k : Conv) (rest : List Nat)
    (as : List Arg) (T : List Nat) (h : T.length < cap - 1) (hwf : (Piece.dir f k).WF) (hok : (Piece.dir f k).Ok cap T) :
    convert ⟨f.left, f.zero, f.wInt, false, f.long, f.uns, k.letter :: rest⟩ k.letter ((Piece.dir f k).args ++ as) (st cap T) =
      .inr (st cap (T ++ k.atext f), as) := by
  have hb := hwf.2.2
  cases k with
  | dec v =>
    simp only [convert, Conv.letter, Nat.reduceEqDiff, true_or, or_true, if_true, convNum, Piece.args, Conv.atext]
    cases hl : f.long <;> simp only [Bool.false_eq_true, if_true, if_false, List.singleton_append] <;>
      rw [emitAll_st cap hc hcap] <;> simp [lift]
  | hex up v =>
    cases up
    all_goals
      simp only [convert, Conv.letter, Nat.reduceEqDiff, true_or, or_true, or_false, false_or, if_true, convNum, Piece.args, Conv.atext]
      cases hl : f.long <;> simp only [Bool.false_eq_true, if_true, if_false, List.singleton_append] <;>
        rw [emitAll_st cap hc hcap] <;> simp [lift]
  | chr v =>
    simp only [convert, Conv.letter, Nat.reduceEqDiff, or_self, if_true, if_false, Piece.args, List.singleton_append, Conv.atext]
    cases hl : f.left with
    | true =>
      have := charConv_left cap hc hcap f v T h hl
      rw [hl] at this; rw [this]; simp [lift, Conv.text, hl]
    | false =>
      have hw : f.width ≤ 1 ∨ T.length + f.width < cap := by
        by_cases hw : 1 < f.width
        · have := hok ⟨hl, hw⟩
          simp [Piece.text, Conv.text, field, hl] at this
          omega
        · omega
      have := charConv_none cap hc hcap f v T h hl hw
      rw [hl] at this; rw [this]; simp [lift, Conv.text, hl]
  | str t =>
    simp only [convert, Conv.letter, Nat.reduceEqDiff, or_self, if_true, if_false, Piece.args, List.singleton_append, Conv.atext]
    have ht := hb t (Or.inl rfl)
    cases hl : f.left with
    | true =>
      have := strConv_left cap hc hcap f t T ht h hl
      rw [hl] at this; rw [this]; simp [lift, Conv.text, hl]
    | false =>
      have hw : f.width = 0 ∨ T.length + (field f.left f.width t).length < cap := by
        by_cases hw : 0 < f.width
        · exact Or.inr (hok ⟨hl, hw⟩)
        · omega
      have := strConv_none cap hc hcap f t T ht h hl hw
      rw [hl] at this; rw [this]; simp [lift, Conv.text, hl]
  | strA t =>
    simp only [convert, Conv.letter, Nat.reduceEqDiff, or_self, if_true, if_false, Piece.args, List.singleton_append, Conv.atext]
    have ht := hb t (Or.inr rfl)
    cases hl : f.left with
    | true =>
      have := strAConv_left cap hc hcap f t T ht h hl
      rw [hl] at this; rw [this]; simp [lift, Conv.text, hl]
    | false =>
      have hw : f.width = 0 ∨ T.length + (field f.left f.width t).length < cap := by
        by_cases hw : 0 < f.width
        · exact Or.inr (hok ⟨hl, hw⟩)
        · omega
      have := strAConv_none cap hc hcap f t T ht h hl hw
      rw [hl] at this; rw [this]; simp [lift, Conv.text, hl]
  | ptr v =>
    simp only [convert, Conv.letter, Nat.reduceEqDiff, or_self, if_true, if_false, Piece.args, List.singleton_append, Conv.atext]
    rw [ptrConv_st cap hc hcap]; simp [lift]

theorem loop_full (g : Nat) (m : List Nat) (as : List Arg) (s : S) (h : ¬ s.left > 1) :
    loop (g + 1) m as s = finish s := by
  unfold loop; rw [if_neg h]

theorem loop_nil (g : Nat) (as : List Arg) (s : S) : loop (g + 1) [] as s = finish s := by
  unfold loop; simp

theorem finish_st (cap : Nat) (hc : 1 ≤ cap) (T : List Nat) : finish (st cap T) = .done (T.take (cap - 1) ++ [0]) := by
  unfold finish
  rw [if_pos (by simp only [st]; omega), if_pos (by simp only [st, List.length_take]; omega)]
  rfl

/-- Pieces that follow one another each have room. -/
def OkAll (cap : Nat) : List Nat → List Piece → Prop
  | _, [] => True
  | T, p :: ps => p.Ok cap T ∧ OkAll cap (T ++ p.atext) ps

theorem loop_st (cap : Nat) (hc : 1 ≤ cap) (hcap : cap < 2 ^ 64) : ∀ (ps : List Piece) (fuel : Nat) (T : List Nat) (as : List Arg),
    (mask ps).length < fuel → (∀ p ∈ ps, p.WF) → OkAll cap T ps →
    loop fuel (mask ps) (args ps ++ as) (st cap T) = .done ((T ++ atext ps).take (cap - 1) ++ [0])
  | [], fuel, T, as, hf, _, _ => by
    obtain ⟨f, rfl⟩ : ∃ f, fuel = f + 1 := ⟨fuel - 1, by omega⟩
    simp only [mask, atext, List.flatMap_nil, List.append_nil]
    rw [loop_nil, finish_st cap hc]
  | p :: ps, fuel, T, as, hf, hwf, hok => by
    obtain ⟨g, rfl⟩ : ∃ g, fuel = g + 1 := ⟨fuel - 1, by omega⟩
    have hatext : T ++ atext (p :: ps) = (T ++ p.atext) ++ atext ps := by simp [atext]
    by_cases h : T.length < cap - 1
    · have hmask : mask (p :: ps) = p.mask ++ mask ps := by simp [mask]
      have hargs : args (p :: ps) ++ as = p.args ++ (args ps ++ as) := by simp [args]
      have ih := fun (g : Nat) (hg : (mask ps).length < g) => loop_st cap hc hcap ps g (T ++ p.atext) as hg
        (fun q hq => hwf q (List.mem_cons_of_mem _ hq)) hok.2
      rw [hmask, List.length_append] at hf
      rw [hatext, hmask, hargs]
      cases p with
      | lit c =>
        obtain ⟨h1, h2, h3⟩ := hwf (.lit c) List.mem_cons_self
        simp only [Piece.mask, Piece.args, List.singleton_append, List.nil_append, List.length_singleton] at hf ⊢
        rw [loop, if_pos ((st_left cap T hc).2 h)]
        simp only [h1, if_false]
        rw [put_st cap T c hcap h, Nat.mod_eq_of_lt h3]
        exact ih g (by omega)
      | pct =>
        simp only [Piece.mask, Piece.args, List.cons_append, List.nil_append, List.length_cons, List.length_nil] at hf ⊢
        rw [loop, if_pos ((st_left cap T hc).2 h)]
        simp only [if_true, List.head?_cons, List.drop_succ_cons, List.drop_zero]
        rw [put_st cap T _ hcap h]
        exact ih g (by omega)
      | dir f k =>
        have hw := hwf (.dir f k) List.mem_cons_self
        rw [mask_cons, loop, if_pos ((st_left cap T hc).2 h)]
        simp only [if_true]
        rw [if_neg (mask_head f k _ hw)]
        have hd : directive ((Piece.dir f k).mask.drop 1 ++ mask ps) ((Piece.dir f k).args ++ (args ps ++ as)) (st cap T) =
            .inr (mask ps, args ps ++ as, st cap (T ++ k.atext f)) := by
          simp only [directive]
          rw [parse_dir f k _ hw]
          simp only [starArg, Bool.false_eq_true, if_false]
          rw [convert_st cap hc hcap f k _ _ T h hw hok.1]
        rw [hd]
        exact ih g (by
          have : 1 ≤ (Piece.dir f k).mask.length := by simp [Piece.mask]
          omega)
    · rw [loop_full _ _ _ _ (by rw [st_left cap T hc]; exact h), finish_st cap hc]
      congr 2
      rw [List.take_append_of_le_length (by omega)]

theorem printf_atext (n : Nat) (h1 : 1 ≤ n) (hn : n < 2 ^ 64) (ps : List Piece) (hwf : ∀ p ∈ ps, p.WF)
    (hok : OkAll n [] ps) : printf n (mask ps) (args ps) = .done ((atext ps).take (n - 1) ++ [0]) := by
  have := loop_st n h1 hn ps ((mask ps).length + 1) [] [] (by omega) hwf hok
  rw [st_nil] at this
  simpa [printf] using this

end Verif.Printf
