import Verif.Vorbis.HeaderTrip

/-! Lemmas on CodecPrivate and durations. -/

namespace Verif.Vorbis

open Verif

/-! ## What reading CodecPrivate can end in -/

/-- The sizes are within the data. -/
theorem laceSize_ends (data : Bytes) (n : Nat) (hn : n < data.length) : ∀ (fuel j acc : Nat), n < j + fuel → j ≤ n →
    Ends (fun _ => False) (laceSize data n fuel j acc) fun x => j < x.2 := by
  intro fuel
  induction fuel with
  | zero => intro j acc h1 h2; omega
  | succ fuel ih =>
    intro j acc h1 h2
    rw [laceSize, List.getElem?_eq_getElem (by omega)]
    simp only
    split
    · rename_i hc
      have := ih (j + 1) (acc + (data[j]'(by omega)).toNat) (by omega) hc.2
      revert this
      generalize laceSize data n fuel (j + 1) _ = x
      cases x with
      | ok a => intro h; exact Nat.lt_of_succ_lt h
      | err => exact id
      | crash c => exact id
      | hang => exact id
    · exact Nat.lt_succ_self j

/-- Any sizes: only reading behind the data is undefined. -/
theorem laceSize_any (data : Bytes) (n : Nat) : ∀ (fuel j acc : Nat), n < j + fuel → j ≤ n →
    (laceSize data n fuel j acc = .crash .lace ∧ data.length ≤ n ∧ ∀ k, j ≤ k → (h : k < data.length) → data[k] = 255) ∨
    (∃ x, laceSize data n fuel j acc = .ok x) ∧ (data.length ≤ n → ∃ k, j ≤ k ∧ ∃ h : k < data.length, data[k] ≠ 255) := by
  intro fuel
  induction fuel with
  | zero => intro j acc h1 h2; omega
  | succ fuel ih =>
    intro j acc h1 h2
    rw [laceSize]
    by_cases hj : j < data.length
    · rw [List.getElem?_eq_getElem hj]
      simp only
      split
      · rename_i hc
        have h255 : data[j] = 255 := UInt8.toNat_inj.1 (by rw [hc.1]; rfl)
        rcases ih (j + 1) (acc + data[j].toNat) (by omega) hc.2 with ⟨e1, e2, e3⟩ | ⟨e1, e2⟩
        · refine Or.inl ⟨e1, e2, fun k hk h => ?_⟩
          by_cases hkj : k = j
          · subst hkj; exact h255
          · exact e3 k (by omega) h
        · refine Or.inr ⟨e1, fun h => ?_⟩
          obtain ⟨k, hk, h⟩ := e2 h
          exact ⟨k, by omega, h⟩
      · rename_i hc
        refine Or.inr ⟨⟨_, rfl⟩, fun h => ⟨j, Nat.le_refl j, hj, fun e => hc ⟨by rw [e]; rfl, by omega⟩⟩⟩
    · rw [List.getElem?_eq_none (by omega)]
      refine Or.inl ⟨rfl, by omega, fun k hk h => by omega⟩

theorem takePacket_ends (data : Bytes) (i len no : Nat) (h : Hdr) (hs : h.Sound) : Ends HeaderCrash (takePacket data i len no h) Hdr.Sound := by
  unfold takePacket
  refine Ends.bind (headerIn_ends _ _ h hs) fun x hx => ?_
  obtain ⟨good, h'⟩ := x
  simp only
  split
  · trivial
  · exact hx

theorem packets_ends (data : Bytes) (n : Nat) (hn : n < data.length) : ∀ (left no j i : Nat) (h : Hdr), h.Sound → 1 ≤ j →
    Ends HeaderCrash (packets data n left no j i h) Hdr.Sound := by
  intro left
  induction left with
  | zero => intro no j i h hs _; exact hs
  | succ left ih =>
    intro no j i h hs hj
    rw [packets]
    split
    · rename_i hjn
      refine Ends.bind (C := HeaderCrash) (Q := fun x => j < x.2) ?_ fun x hx => ?_
      · have := laceSize_ends data n hn (n + 1) j 0 (by omega) hjn
        revert this
        generalize laceSize data n (n + 1) j 0 = x
        cases x with
        | crash c => exact False.elim
        | ok a => exact id
        | err => exact id
        | hang => exact id
      · obtain ⟨len, j'⟩ := x
        simp only at hx ⊢
        split
        · trivial
        · exact Ends.bind (takePacket_ends data i len no h hs) fun h' hs' => ih _ _ _ _ hs' (by omega)
    · exact takePacket_ends data i _ no h hs

theorem empty_sound : Hdr.Sound {} := ⟨by simp, by simp, by simp, by simp, by simp⟩

/-- The sizes in the lacing are read behind the end of the data. -/
def LaceBeyond : Bytes → Prop
  | [] => True
  | n :: rest => rest.length < n.toNat ∧ ∀ b ∈ rest, b = 255

theorem readPrivate_cases (data : Bytes) :
    (LaceBeyond data ∧ readPrivate data = .crash .lace) ∨ (¬LaceBeyond data ∧ Ends HeaderCrash (readPrivate data) Hdr.Sound) := by
  cases data with
  | nil => exact Or.inl ⟨trivial, rfl⟩
  | cons n rest =>
    have e : readPrivate (n :: rest) = packets (n :: rest) n.toNat 4 0 1 (1 + n.toNat) {} := rfl
    rw [e]
    by_cases hn : n.toNat < (n :: rest).length
    · refine Or.inr ⟨fun h => ?_, packets_ends _ _ hn 4 0 1 _ {} empty_sound (by omega)⟩
      have := h.1
      simp at hn
      omega
    · have hl : (n :: rest).length ≤ n.toNat := by omega
      have h1 : 1 ≤ n.toNat := by simp at hl; omega
      rw [packets, if_pos h1]
      rcases laceSize_any (n :: rest) n.toNat (n.toNat + 1) 1 0 (by omega) h1 with ⟨e1, _, e3⟩ | ⟨⟨x, e1⟩, e2⟩
      · refine Or.inl ⟨⟨by simp at hl; omega, fun b hb => ?_⟩, by rw [e1]; rfl⟩
        obtain ⟨k, hk, rfl⟩ := List.getElem_of_mem hb
        exact e3 (k + 1) (by omega) (by simp; omega)
      · refine Or.inr ⟨fun h => ?_, ?_⟩
        · obtain ⟨k, hk, hk2, hk3⟩ := e2 hl
          obtain ⟨m, rfl⟩ : ∃ m, k = m + 1 := ⟨k - 1, by omega⟩
          exact hk3 (h.2 _ (by rw [List.getElem_cons_succ]; exact List.getElem_mem _))
        · rw [e1]
          obtain ⟨len, j⟩ := x
          simp only [Res.bind]
          rw [if_pos (by omega)]
          trivial

/-! ## Durations -/

/-- The ways durations are not found. -/
def TimeCrash (c : Crash) : Prop := c = .noSetup ∨ c = .noModes ∨ c = .mode ∨ c = .frame

theorem frameTime_ends (h : Hdr) (hs : h.Sound) (data : Bytes) : Ends TimeCrash (frameTime h data) fun _ => True := by
  unfold frameTime
  cases h.info with
  | none => exact Or.inl rfl
  | some i =>
    simp only
    cases h.setup with
    | none => exact Or.inr (Or.inl rfl)
    | some p =>
      simp only
      cases data with
      | nil => exact Or.inr (Or.inr (Or.inr rfl))
      | cons c rest =>
        simp only
        split
        · trivial
        · split
          · exact Or.inr (Or.inr (Or.inl rfl))
          · rename_i m hm
            have := hs.slots m (List.mem_of_getElem? hm)
            have a1 := this.1
            have a2 := this.2
            split
            · trivial
            · split
              · trivial
              · omega

theorem frameTimes_ends (h : Hdr) (hs : h.Sound) (sizes : List Nat) : ∀ data, Ends TimeCrash (frameTimes h data sizes) fun _ => True := by
  induction sizes with
  | nil => intro data; trivial
  | cons n sizes ih =>
    intro data
    rw [frameTimes]
    exact Ends.bind (frameTime_ends h hs data) fun d _ => Ends.bind (ih _) fun ds _ => trivial

/-! ## Headers as the format has them -/

theorem lace_short (n : Nat) (h : n < 255) : lace n = [UInt8.ofNat n] := by
  unfold lace
  rw [Nat.div_eq_of_lt h, Nat.mod_eq_of_lt h]
  rfl

theorem lace_long (n : Nat) (h : 255 ≤ n) : ∃ b bs, lace n = 255 :: b :: bs := by
  unfold lace
  obtain ⟨k, hk⟩ : ∃ k, n / 255 = k + 1 := ⟨n / 255 - 1, by omega⟩
  rw [hk, List.replicate_succ]
  cases k with
  | zero => exact ⟨_, _, rfl⟩
  | succ k => exact ⟨255, List.replicate k 255 ++ [UInt8.ofNat (n % 255)], by rw [List.replicate_succ]; rfl⟩

theorem toNat_short (n : Nat) (h : n < 256) : (UInt8.ofNat n).toNat = n := by
  rw [UInt8.toNat_ofNat', Nat.mod_eq_of_lt (by omega)]

/-- Three packets, the first two short: they are taken apart where they were put together. -/
theorem readPrivate_short (a b c : Bytes) (ha : a.length < 255) (hb : b.length < 255) :
    readPrivate (private3 a b c) = (headerIn true (bitsOf a) {}).bind fun (good, h) =>
      if good = false then .err
      else (headerIn false (bitsOf b) h).bind fun (_, h) => (headerIn false (bitsOf c) h).bind fun (_, h) => .ok h := by
  have e : private3 a b c = 2 :: UInt8.ofNat a.length :: UInt8.ofNat b.length :: (a ++ (b ++ c)) := by
    unfold private3
    rw [lace_short _ ha, lace_short _ hb]
    rfl
  rw [e]
  generalize hd : (2 :: UInt8.ofNat a.length :: UInt8.ofNat b.length :: (a ++ (b ++ c)) : Bytes) = d
  have d1 : d[1]? = some (UInt8.ofNat a.length) := by rw [← hd]; rfl
  have d2 : d[2]? = some (UInt8.ofNat b.length) := by rw [← hd]; rfl
  have dl : d.length = 3 + a.length + b.length + c.length := by rw [← hd]; simp; omega
  have r0 : readPrivate d = packets d 2 4 0 1 3 {} := by rw [← hd]; rfl
  have l1 : laceSize d 2 3 1 0 = .ok (a.length, 2) := by
    rw [laceSize, d1]
    simp only [toNat_short _ (show a.length < 256 by omega)]
    rw [if_neg (by omega), Nat.zero_add]
  have l2 : laceSize d 2 3 2 0 = .ok (b.length, 3) := by
    rw [laceSize, d2]
    simp only [toNat_short _ (show b.length < 256 by omega)]
    rw [if_neg (by omega), Nat.zero_add]
  have t1 : (d.drop 3).take a.length = a := by rw [← hd]; simp
  have t2 : (d.drop (3 + a.length)).take b.length = b := by
    rw [← hd, Nat.add_comm 3, ← List.drop_drop]
    simp
  have t3 : (d.drop (3 + a.length + b.length)).take (d.length - (3 + a.length + b.length)) = c := by
    rw [List.take_of_length_le (by rw [List.length_drop]; omega), ← hd, show 3 + a.length + b.length = b.length + (a.length + 3) by omega]
    rw [Nat.add_comm b.length, Nat.add_comm a.length, ← List.drop_drop, ← List.drop_drop, show (2 :: UInt8.ofNat a.length :: UInt8.ofNat b.length :: (a ++ (b ++ c)) : Bytes).drop 3 = a ++ (b ++ c) from rfl,
      List.drop_left, List.drop_left]
  have k1 (h : Hdr) : takePacket d 3 a.length 0 h = (headerIn true (bitsOf a) h).bind fun (good, h) => if good = false then .err else .ok h := by
    rw [takePacket, t1]
    simp only [and_true]
    rfl
  have k2 (h : Hdr) : takePacket d (3 + a.length) b.length 1 h = (headerIn false (bitsOf b) h).bind fun (_, h) => .ok h := by
    rw [takePacket, t2]
    simp only [Nat.succ_ne_self, and_false, if_false]
    rfl
  have k3 (h : Hdr) : takePacket d (3 + a.length + b.length) (d.length - (3 + a.length + b.length)) 2 h =
      (headerIn false (bitsOf c) h).bind fun (_, h) => .ok h := by
    rw [takePacket, t3]
    simp only [show ((2 : Nat) = 0) = False by simp, and_false, if_false]
    rfl
  have p1 (h : Hdr) : packets d 2 2 2 3 (3 + a.length + b.length) h = (headerIn false (bitsOf c) h).bind fun (_, h) => .ok h := by
    rw [packets, if_neg (by decide), k3]
  have p2 (h : Hdr) : packets d 2 3 1 2 (3 + a.length) h =
      (headerIn false (bitsOf b) h).bind fun (_, h) => (headerIn false (bitsOf c) h).bind fun (_, h) => .ok h := by
    rw [packets, if_pos (by decide), l2, show (Res.ok (b.length, 3)).bind = fun f : Nat × Nat → Res Hdr => f (b.length, 3) from rfl]
    simp only
    rw [if_neg (by omega), k2]
    cases headerIn false (bitsOf b) h with
    | err => rfl
    | crash c => rfl
    | hang => rfl
    | ok y => exact p1 y.2
  rw [r0, packets, if_pos (by decide), l1, show (Res.ok (a.length, 2)).bind = fun f : Nat × Nat → Res Hdr => f (a.length, 2) from rfl]
  simp only
  rw [if_neg (by omega), k1]
  cases headerIn true (bitsOf a) {} with
  | err => rfl
  | crash c => rfl
  | hang => rfl
  | ok x =>
    obtain ⟨good, h⟩ := x
    cases good with
    | false => rfl
    | true => exact p2 h

/-- Any seven bytes and the bits behind them. -/
theorem start7 (b0 b1 b2 b3 b4 b5 b6 : UInt8) (rest : Bytes) :
    ((do
      let type ← rd 8
      let tag ← many (rd 8) 6
      pure (type, tag) : P _) (some (bitsOf (b0 :: b1 :: b2 :: b3 :: b4 :: b5 :: b6 :: rest)))) =
    .ok (((b0.toNat : Int), [(b1.toNat : Int), (b2.toNat : Int), (b3.toNat : Int), (b4.toNat : Int), (b5.toNat : Int), (b6.toNat : Int)]),
      some (bitsOf rest)) := by
  have ht (b : UInt8) : In (b.toNat : Int) 0 (2 ^ 8) := ⟨by omega, by have := b.toNat_lt; omega⟩
  have hr : Reads (do
      let type ← rd 8
      let tag ← many (rd 8) 6
      pure (type, tag) : P _) (enc 8 (b0.toNat : Int) ++ List.flatMap (fun v => enc 8 v)
        [(b1.toNat : Int), (b2.toNat : Int), (b3.toNat : Int), (b4.toNat : Int), (b5.toNat : Int), (b6.toNat : Int)])
      ((b0.toNat : Int), [(b1.toNat : Int), (b2.toNat : Int), (b3.toNat : Int), (b4.toNat : Int), (b5.toNat : Int), (b6.toNat : Int)]) :=
    Reads.bind (Reads.rd (ht b0)) (Reads.bindPure (Reads.many (fun v => enc 8 v)
      [(b1.toNat : Int), (b2.toNat : Int), (b3.toNat : Int), (b4.toNat : Int), (b5.toNat : Int), (b6.toNat : Int)] fun v hv => Reads.rd (by
      simp only [List.mem_cons, List.not_mem_nil, or_false] at hv
      rcases hv with rfl | rfl | rfl | rfl | rfl | rfl <;> exact ht _)) (Reads.pure _))
  have := hr (bitsOf rest)
  rw [← this]
  rw [bitsOf_enc, bitsOf_enc, bitsOf_enc, bitsOf_enc, bitsOf_enc, bitsOf_enc, bitsOf_enc]
  simp only [List.flatMap_cons, List.flatMap_nil, List.append_assoc, List.append_nil]

theorem headerIn_tag (first : Bool) (b0 b1 b2 b3 b4 b5 b6 : UInt8) (rest : Bytes) (h : Hdr) (hb : b1 ≠ 118 ∨ b2 ≠ 111) :
    headerIn first (bitsOf (b0 :: b1 :: b2 :: b3 :: b4 :: b5 :: b6 :: rest)) h = .ok (false, h) := by
  unfold headerIn
  rw [start7]
  simp only [Res.bind]
  rw [if_pos]
  intro e
  simp only [List.cons.injEq] at e
  rcases hb with hb | hb
  · exact hb (UInt8.toNat_inj.1 (by have := e.1; change b1.toNat = 118; omega))
  · exact hb (UInt8.toNat_inj.1 (by have := e.2.1; change b2.toNat = 111; omega))

/-- A second packet of 255 bytes or more: its size takes more than one byte, the first packet is sought too early. -/
theorem readPrivate_long (i : Info) (b c : Bytes) (hb : 255 ≤ b.length) : readPrivate (private3 (packet 1 i.bits) b c) = .err := by
  have hl : (packet 1 i.bits).length = 30 := by
    unfold packet Info.bits
    simp only [List.length_cons, pack_length, List.length_append, enc, List.length_map, List.length_range]
  have e : ∃ x0 x1 x2 x3 x4 x5 x6 rest, private3 (packet 1 i.bits) b c = 2 :: 30 :: 255 :: x0 :: x1 :: x2 :: x3 :: x4 :: x5 :: x6 :: rest ∧
      (x1 ≠ 118 ∨ x2 ≠ 111) ∧ 23 ≤ rest.length := by
    unfold private3
    rw [lace_short _ (by omega), hl, List.singleton_append, show UInt8.ofNat 30 = 30 from rfl]
    have hr : 23 ≤ (pack i.bits).length := by
      unfold packet at hl
      simp only [List.length_cons] at hl
      omega
    unfold lace
    obtain ⟨k, hk⟩ : ∃ k, b.length / 255 = k + 1 := ⟨b.length / 255 - 1, by omega⟩
    rw [hk, List.replicate_succ]
    generalize UInt8.ofNat (b.length % 255) = l
    unfold packet
    match k with
    | 0 => exact ⟨_, _, _, _, _, _, _, _, rfl, Or.inl (by decide), by simp; omega⟩
    | 1 => exact ⟨_, _, _, _, _, _, _, _, rfl, Or.inr (by decide), by simp; omega⟩
    | 2 => exact ⟨_, _, _, _, _, _, _, _, rfl, Or.inl (by decide), by simp; omega⟩
    | 3 => exact ⟨_, _, _, _, _, _, _, _, rfl, Or.inl (by decide), by simp; omega⟩
    | 4 => exact ⟨_, _, _, _, _, _, _, _, rfl, Or.inl (by decide), by simp; omega⟩
    | 5 => exact ⟨_, _, _, _, _, _, _, _, rfl, Or.inl (by decide), by simp; omega⟩
    | 6 => exact ⟨_, _, _, _, _, _, _, _, rfl, Or.inl (by decide), by simp; omega⟩
    | k + 7 =>
      rw [show k + 7 = 7 + k by omega, ← List.replicate_append_replicate]
      exact ⟨_, _, _, _, _, _, _, _, rfl, Or.inl (by decide), by simp; omega⟩
  obtain ⟨x0, x1, x2, x3, x4, x5, x6, rest, e, hx, hr⟩ := e
  rw [e]
  generalize hd : (2 :: 30 :: 255 :: x0 :: x1 :: x2 :: x3 :: x4 :: x5 :: x6 :: rest : Bytes) = d
  have dl : 33 ≤ d.length := by rw [← hd]; simp; omega
  have r0 : readPrivate d = packets d 2 4 0 1 3 {} := by rw [← hd]; rfl
  have l1 : laceSize d 2 3 1 0 = .ok (30, 2) := by rw [← hd]; rfl
  rw [r0, packets, if_pos (by decide), l1, show (Res.ok (30, 2)).bind = fun f : Nat × Nat → Res Hdr => f (30, 2) from rfl]
  simp only
  rw [if_neg (by omega), takePacket]
  have t : (d.drop 3).take 30 = x0 :: x1 :: x2 :: x3 :: x4 :: x5 :: x6 :: rest.take 23 := by rw [← hd]; rfl
  rw [t, headerIn_tag _ _ _ _ _ _ _ _ _ _ hx]
  rfl

theorem readPrivate_three (a b c : Bytes) (ha : a.length < 255) (hb : b.length < 255) (x y z : Hdr) (g k : Bool)
    (h1 : headerIn true (bitsOf a) {} = .ok (true, x)) (h2 : headerIn false (bitsOf b) x = .ok (g, y))
    (h3 : headerIn false (bitsOf c) y = .ok (k, z)) : readPrivate (private3 a b c) = .ok z := by
  rw [readPrivate_short _ _ _ ha hb, h1, show (Res.ok (true, x)).bind = fun f : Bool × Hdr → Res Hdr => f (true, x) from rfl]
  simp only [Bool.true_eq_false, if_false]
  rw [h2, show (Res.ok (g, y)).bind = fun f : Bool × Hdr → Res Hdr => f (g, y) from rfl]
  simp only
  rw [h3]
  rfl

/-- The three headers of a track, the comments in less than 255 bytes. -/
theorem readPrivate_good (i : Info) (hi : i.Ok) (vendor : List Int) (comments : List (List Int)) (hv : StringOk vendor)
    (hc : comments.length < 2 ^ 31 - 1) (hs : ∀ s ∈ comments, StringOk s) (shapes : List Shape) (p : Setup) (hp : p.Ok i.channels.toNat)
    (hb : List.Forall₂ (fun sh b => b.Ok ∧ b.Small ∧ sh.Fits b.lengths) shapes p.books)
    (hl : (packet 3 (commentBits vendor comments)).length < 255) :
    readPrivate (private3 (packet 1 i.bits) (packet 3 (commentBits vendor comments)) (packet 5 (p.bits i.channels.toNat shapes))) =
      .ok ⟨some i, true, some p, p.modes⟩ := by
  have hl1 : (packet 1 i.bits).length = 30 := by
    unfold packet Info.bits
    simp only [List.length_cons, pack_length, List.length_append, enc, List.length_map, List.length_range]
  have h3 := headerIn_setup false ⟨some i, true, none, []⟩ i rfl hi rfl shapes p hp hb
  rw [List.drop_nil, List.append_nil] at h3
  exact readPrivate_three _ _ _ (by omega) hl _ _ _ _ _ (headerIn_info i hi {} rfl)
    (headerIn_comment vendor comments hv hc hs false ⟨some i, false, none, []⟩ i rfl) h3

/-- Codebooks of at most 20 dimensions are small. -/
theorem small_of_dim (b : Book) (hs : b.Sound) (h1 : b.maptype = 1 → 1 ≤ b.dim ∧ b.dim ≤ 20)
    (h2 : b.maptype = 2 → b.entries.toNat * b.dim.toNat < 2 ^ 31) : b.Small := by
  refine ⟨fun hm => ⟨(h1 hm).1, ?_⟩, h2⟩
  obtain ⟨d1, d2⟩ := h1 hm
  have he := hs.entries.2
  have he0 := hs.entries.1
  have hd : 1 ≤ b.dim.toNat ∧ b.dim.toNat ≤ 20 := by omega
  have hee : b.entries.toNat < 2 ^ 24 := by simp only [Int.reducePow] at he; simp only [Nat.reducePow]; omega
  generalize b.dim.toNat = d at *
  generalize b.entries.toNat = e at *
  by_cases e0 : e = 0
  · subst e0
    simp
  · have k1 := le_ilog e e0
    have k2 := ilog_lt e
    have k3 := ilog_pos e e0
    generalize hk : ilog e - 1 = k at *
    rw [show ilog e = k + 1 by omega] at k2
    have k4 : k ≤ 23 := by
      have : 2 ^ k < 2 ^ 24 := by omega
      have := (Nat.pow_lt_pow_iff_right (by decide)).1 this
      omega
    obtain ⟨c, rfl⟩ : ∃ c, d = c + 1 := ⟨d - 1, by omega⟩
    rw [Nat.add_sub_cancel]
    generalize hq : k * c / (c + 1) = q
    have q1 : q ≤ k := by
      rw [← hq]
      exact Nat.div_le_of_le_mul (by rw [Nat.mul_comm]; exact Nat.mul_le_mul_right k (by omega))
    have q2 : k * c ≤ q * (c + 1) + c := by
      have a1 := Nat.div_add_mod (k * c) (c + 1)
      have a2 := Nat.mod_lt (k * c) (show 0 < c + 1 by omega)
      rw [hq, Nat.mul_comm (c + 1)] at a1
      omega
    have q3 : e / 2 ^ q + 1 ≤ 2 ^ (k + 1 - q) := by
      refine Nat.div_lt_of_lt_mul ?_
      rw [← Nat.pow_add, show q + (k + 1 - q) = k + 1 by omega]
      exact k2
    refine Nat.lt_of_le_of_lt (Nat.pow_le_pow_left q3 _) ?_
    rw [← Nat.pow_mul]
    refine Nat.pow_lt_pow_right (by decide) ?_
    rw [Nat.sub_mul]
    have : (k + 1) * (c + 1) = k * c + k + c + 1 := by rw [Nat.succ_mul, Nat.mul_succ]; omega
    omega

end Verif.Vorbis
