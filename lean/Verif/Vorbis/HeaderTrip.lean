import Verif.Vorbis.BookTrip
import Verif.Vorbis.HeaderLemmas
import Mathlib.Data.List.Forall2

/-! Lemmas: headers, packets and CodecPrivate are read as written. -/

namespace Verif.Vorbis

open Verif

theorem Reads.books (shapes : List Shape) : ∀ (books : List Book) (i : Nat), List.Forall₂ (fun sh b => b.Ok ∧ b.Small ∧ sh.Fits b.lengths) shapes books →
    i + books.length ≤ 256 → Reads (Vorbis.each unpackBookAt books.length i) (booksBits shapes books) books := by
  induction shapes with
  | nil =>
    intro books i h _
    cases h
    exact Reads.pure _
  | cons sh shs ih =>
    intro books i h hi
    cases h with
    | cons h1 h2 =>
      rename_i b bs
      rw [booksBits]
      simp only [List.length_cons] at hi
      exact Reads.bind (Reads.bindNil (Reads.chk _ (decide_eq_true (by omega))) (Reads.book sh b h1.1 h1.2.1 h1.2.2))
        (Reads.bindPure (ih bs (i + 1) h2 (by omega)) (Reads.pure _))

theorem Reads.times (n : Nat) : ∀ i, i + n ≤ 64 →
    Reads (Vorbis.each unpackTime n i) (List.replicate n (enc 16 0)).flatten (List.replicate n ()) := by
  induction n with
  | zero => intro i _; exact Reads.pure _
  | succ n ih =>
    intro i hi
    rw [List.replicate_succ, List.flatten_cons]
    refine Reads.bind (a := ()) ?_ (Reads.bindPure (ih (i + 1) (by omega)) (Reads.pure _))
    exact Reads.bindPure (Reads.rd (v := 0) (by decide)) (Reads.bindNil (Reads.chk _ (decide_eq_true (by omega))) (Reads.need (by decide)))

theorem Reads.floor (books : Nat) (hb : books ≤ 256) (f : Floor) (h : f.Ok books) (old i : Nat) (hi : i < 64) :
    Reads (unpackFloor books old i) f.bits f := by
  cases f with
  | zero f =>
    refine Reads.bind (Reads.rd (v := 0) (by decide)) (Reads.bindNil (Reads.chk _ (decide_eq_true hi)) (Reads.bindNil
      (Reads.goodType _ _ (by decide)) ?_))
    rw [if_pos rfl]
    exact Reads.bindPure (Reads.floor0 books hb f h) (Reads.pure _)
  | one f =>
    refine Reads.bind (Reads.rd (v := 1) (by decide)) (Reads.bindNil (Reads.chk _ (decide_eq_true hi)) (Reads.bindNil
      (Reads.goodType _ _ (by decide)) ?_))
    rw [if_neg (by decide)]
    exact Reads.bindPure (Reads.floor1 books hb f h) (Reads.pure _)

theorem Reads.residueAt (books : Nat) (hb : books ≤ 256) (r : Int × Residue) (h : In r.1 0 3 ∧ r.2.Ok books) (old i : Nat) (hi : i < 64) :
    Reads (unpackResidueAt books old i) (enc 16 r.1 ++ r.2.bits) r :=
  Reads.bind (Reads.rd (h.1.mono (by omega) (by decide))) (Reads.bindNil (Reads.chk _ (decide_eq_true hi)) (Reads.bindNil
    (Reads.goodType _ _ (decide_eq_true h.1)) (Reads.bindPure (Reads.residue books hb r.2 h.2) (Reads.pure _))))

theorem Reads.map (channels : Nat) (hc : channels < 256) (times : Int) (ht : 1 ≤ times) (floors residues : Nat) (hf : floors ≤ 64)
    (hr : residues ≤ 64) (m : Mapping) (h : m.Ok channels floors residues) (old i : Nat) (hi : i < 64) :
    Reads (unpackMap channels times floors residues old i) (enc 16 0 ++ m.bits (ilog (channels - 1))) m :=
  Reads.bind (Reads.rd (v := 0) (by decide)) (Reads.bindNil (Reads.chk _ (decide_eq_true hi)) (Reads.bindNil
    (Reads.goodType _ _ (by decide)) (Reads.mapping channels hc times ht floors residues hf hr m h)))

theorem Reads.mode (maps : Nat) (hm : maps ≤ 64) (m : Mode) (h : m.Ok maps) (i : Nat) (hi : i < 64) : Reads (unpackMode maps i) m.bits m := by
  have h1 : In m.windowtype 0 (2 ^ 16) := by rw [h.windowtype]; decide
  have h2 : In m.transformtype 0 (2 ^ 16) := by rw [h.transformtype]; decide
  have h3 : In m.mapping 0 (2 ^ 8) := h.mapping.mono (by omega) (by omega)
  have w := h.windowtype
  have t := h.transformtype
  have g := h.mapping.2
  exact Reads.bindNil (Reads.chk _ (decide_eq_true hi)) (Reads.bind (Reads.rd (h.blockflag.mono (by omega) (by decide)))
    (Reads.bind (Reads.rd h1) (Reads.bind (Reads.rd h2) (Reads.bindPure (Reads.rd h3) (Reads.bindNil (Reads.need (decide_eq_true (by omega)))
    (Reads.pure _))))))

theorem Reads.count {n : Nat} (w : Nat) (h1 : 1 ≤ n) (h2 : n ≤ 2 ^ w) : Reads (Vorbis.rd w) (enc w ((n : Int) - 1)) ((n : Int) - 1) := by
  refine Reads.rd ⟨by omega, ?_⟩
  have : (n : Int) ≤ ((2 ^ w : Nat) : Int) := by omega
  rw [show ((2 ^ w : Nat) : Int) = 2 ^ w by simp] at this
  omega

theorem Reads.setup (channels : Nat) (hc : channels < 256) (shapes : List Shape) (p : Setup) (hp : p.Ok channels)
    (hs : List.Forall₂ (fun sh b => b.Ok ∧ b.Small ∧ sh.Fits b.lengths) shapes p.books) (old : Old) :
    Reads (unpackSetup channels old) (p.bits channels shapes) p := by
  obtain ⟨b1, b2⟩ := hp.numBooks
  obtain ⟨f1, f2⟩ := hp.numFloors
  obtain ⟨r1, r2⟩ := hp.numResidues
  obtain ⟨m1, m2⟩ := hp.numMaps
  obtain ⟨d1, d2⟩ := hp.numModes
  obtain ⟨t1, t2⟩ := hp.times
  have e : ∀ n : Nat, (n : Int) - 1 + 1 = n := fun n => by omega
  unfold Setup.bits
  refine Reads.bind (Reads.count 8 b1 b2) ?_
  rw [e]
  refine Reads.bind (Reads.books shapes p.books 0 hs (by omega)) ?_
  refine Reads.bind (Reads.rd (v := p.times - 1) ⟨by omega, by omega⟩) ?_
  rw [show p.times - 1 + 1 = p.times by omega]
  refine Reads.bind (Reads.times p.times.toNat 0 (by omega)) ?_
  refine Reads.bind (Reads.count 6 f1 f2) ?_
  rw [e, Int.toNat_natCast]
  refine Reads.bind (a := p.floors) ?_ ?_
  · refine Reads.each _ p.floors 0 fun k f hk => ?_
    have hm := hp.floors f (List.mem_of_getElem? hk)
    obtain ⟨hk, _⟩ := List.getElem?_eq_some_iff.1 hk
    exact Reads.floor p.books.length b2 f hm _ _ (by omega)
  refine Reads.bind (Reads.count 6 r1 r2) ?_
  rw [e, Int.toNat_natCast]
  refine Reads.bind (a := p.residues) ?_ ?_
  · refine Reads.each _ p.residues 0 fun k f hk => ?_
    have hm := hp.residues f (List.mem_of_getElem? hk)
    obtain ⟨hk, _⟩ := List.getElem?_eq_some_iff.1 hk
    exact Reads.residueAt p.books.length b2 f hm _ _ (by omega)
  refine Reads.bind (Reads.count 6 m1 m2) ?_
  rw [e, Int.toNat_natCast]
  refine Reads.bind (a := p.maps) ?_ ?_
  · refine Reads.each _ p.maps 0 fun k f hk => ?_
    have hm := hp.maps f (List.mem_of_getElem? hk)
    obtain ⟨hk, _⟩ := List.getElem?_eq_some_iff.1 hk
    exact Reads.map channels hc p.times t1 p.floors.length p.residues.length f2 r2 f hm _ _ (by omega)
  refine Reads.bind (Reads.count 6 d1 d2) ?_
  rw [e, Int.toNat_natCast]
  refine Reads.bind (a := p.modes) ?_ ?_
  · refine Reads.each _ p.modes 0 fun k f hk => ?_
    have hm := hp.modes f (List.mem_of_getElem? hk)
    obtain ⟨hk, _⟩ := List.getElem?_eq_some_iff.1 hk
    exact Reads.mode p.maps.length m2 f hm _ (by omega)
  exact Reads.bindPure (Reads.rd (v := 1) (by decide)) (Reads.bindNil (Reads.need (by decide)) (Reads.pure _))

theorem Reads.size (n e : Nat) (he : e < 16) (hn : n = 2 ^ e) : Reads unpackSize (enc 4 n.log2) n := by
  have hl : n.log2 = e := by rw [hn]; exact Nat.log2_two_pow
  rw [hl]
  refine Reads.bindPure (Reads.rd (v := (e : Int)) ⟨by omega, by omega⟩) (Reads.bindNil (Reads.chk _ (decide_eq_true (by omega))) ?_)
  rw [Int.toNat_natCast, ← hn]
  exact Reads.pure _

theorem Reads.info (i : Info) (h : i.Ok) : Reads unpackInfo i.bits i := by
  obtain ⟨a, a1, a2⟩ := h.short
  obtain ⟨b, b1, b2⟩ := h.long
  have ho := h.order
  have hab : a ≤ b := by
    rw [a2, b2] at ho
    exact (Nat.pow_le_pow_iff_right (by decide)).1 ho
  have g1 := Nat.pow_le_pow_right (show 0 < 2 by decide) a1
  have g2 := Nat.pow_le_pow_right (show 0 < 2 by decide) b1
  have c1 := h.channels.1
  have r1 := h.rate.1
  unfold Info.bits
  refine Reads.bind (Reads.rd (v := 0) (by decide)) (Reads.bindNil (Reads.need (by decide)) ?_)
  refine Reads.bind (Reads.rd (h.channels.mono (by omega) (by decide))) ?_
  refine Reads.bind (Reads.rd (h.rate.mono (by omega) (by decide))) ?_
  refine Reads.bind (Reads.rd h.upper) (Reads.bind (Reads.rd h.nominal) (Reads.bind (Reads.rd h.lower) ?_))
  refine Reads.bind (Reads.size i.short a (by omega) a2) (Reads.bind (Reads.size i.long b (by omega) b2) ?_)
  refine Reads.bindNil (Reads.need (decide_eq_true ⟨r1, c1, by omega, ho, by omega⟩)) ?_
  exact Reads.bindPure (Reads.rd (v := 1) (by decide)) (Reads.bindNil (Reads.need (by decide)) (Reads.pure _))

theorem Reads.string (s : List Int) (h : StringOk s) : Reads unpackString (stringBits s) s := by
  obtain ⟨h1, h2⟩ := h
  simp only [Nat.reducePow] at h1
  refine Reads.bind (Reads.rd (v := (s.length : Int)) ⟨by omega, by simp only [Int.reducePow]; omega⟩) (Reads.bindNil (Reads.need (decide_eq_true
    ⟨by omega, by simp only [Int.reducePow]; omega⟩)) (Reads.bindNil (Reads.chk _ (decide_eq_true (by simp only [Int.reducePow]; omega))) ?_))
  rw [Int.toNat_natCast]
  exact Reads.many _ s fun c hc => Reads.rd ((h2 c hc).mono (by omega) (by decide))

theorem Reads.comment (vendor : List Int) (comments : List (List Int)) (hv : StringOk vendor) (hn : comments.length < 2 ^ 31 - 1)
    (hc : ∀ s ∈ comments, StringOk s) : Reads unpackComment (commentBits vendor comments) (vendor, comments) := by
  simp only [Nat.reducePow] at hn
  unfold commentBits
  refine Reads.bind (Reads.string vendor hv) ?_
  refine Reads.bind (Reads.rd (v := (comments.length : Int)) ⟨by omega, by simp only [Int.reducePow]; omega⟩) (Reads.bindNil (Reads.need
    (decide_eq_true ⟨by omega, by simp only [Int.reducePow]; omega⟩)) (Reads.bindNil (Reads.chk _ (decide_eq_true (by simp only [Int.reducePow]; omega))) ?_))
  rw [Int.toNat_natCast]
  refine Reads.bind (Reads.many _ comments fun s hs => Reads.string s (hc s hs)) ?_
  exact Reads.bindPure (Reads.rd (v := 1) (by decide)) (Reads.bindNil (Reads.need (by decide)) (Reads.pure _))

/-! ## Packets -/

theorem bits_value (l : List Bool) : ∀ n, l.length ≤ n → ((List.range n).map fun i => (value l).testBit i) = l ++ List.replicate (n - l.length) false := by
  induction l with
  | nil =>
    intro n _
    simp only [value, Nat.zero_testBit, List.nil_append, List.length_nil, Nat.sub_zero]
    rw [List.map_const', List.length_range]
  | cons b l ih =>
    intro n h
    obtain ⟨m, rfl⟩ : ∃ m, n = m + 1 := ⟨n - 1, by simp at h; omega⟩
    have hm : l.length ≤ m := by simpa using h
    rw [List.range_succ_eq_map, List.map_cons, List.map_map]
    have e0 : (value (b :: l)).testBit 0 = b := by
      rw [Nat.testBit_zero, value]
      cases b <;> simp <;> omega
    have es : ∀ i, (value (b :: l)).testBit (i + 1) = (value l).testBit i := by
      intro i
      rw [Nat.testBit_succ, value]
      congr 1
      cases b <;> simp <;> omega
    rw [e0, List.cons_append]
    congr 1
    have := ih m hm
    rw [show m + 1 - (b :: l).length = m - l.length by simp]
    rw [← this]
    exact List.map_congr_left fun i _ => es i

theorem bitsOf_pack (bs : List Bool) : ∃ pad, bitsOf (pack bs) = bs ++ pad := by
  induction h : bs.length using Nat.strongRecOn generalizing bs with
  | _ n ih =>
    cases bs with
    | nil => exact ⟨[], by rw [pack]; rfl⟩
    | cons b0 bs =>
      rw [pack, bitsOf_cons]
      have hl : (b0 :: bs.take 7).length ≤ 8 := by simp; omega
      have hv := value_lt (b0 :: bs.take 7)
      have h8 := Nat.pow_le_pow_right (show 0 < 2 by decide) hl
      have e : (UInt8.ofNat (value (b0 :: bs.take 7))).toNat = value (b0 :: bs.take 7) := by
        rw [UInt8.toNat_ofNat', Nat.mod_eq_of_lt (by omega)]
      rw [e, bits_value _ 8 hl]
      obtain ⟨pad, hp⟩ := ih (bs.drop 7).length (by simp at h; simp; omega) (bs.drop 7) rfl
      rw [hp]
      by_cases h7 : 7 ≤ bs.length
      · refine ⟨pad, ?_⟩
        rw [show 8 - (b0 :: bs.take 7).length = 0 by simp; omega]
        simp only [List.replicate_zero, List.append_nil, List.cons_append]
        rw [← List.append_assoc, List.take_append_drop]
      · refine ⟨List.replicate (8 - (b0 :: bs.take 7).length) false ++ pad, ?_⟩
        rw [List.drop_eq_nil_of_le (by omega), List.take_of_length_le (by omega)]
        simp

theorem pack_length (bs : List Bool) : (pack bs).length = (bs.length + 7) / 8 := by
  induction h : bs.length using Nat.strongRecOn generalizing bs with
  | _ n ih =>
    cases bs with
    | nil => rw [pack]; simp at h; subst h; rfl
    | cons b0 bs =>
      rw [pack, List.length_cons, ih (bs.drop 7).length (by simp at h; simp; omega) (bs.drop 7) rfl]
      simp at h ⊢
      omega

theorem bitsOf_enc (b : UInt8) (bs : Bytes) : bitsOf (b :: bs) = enc 8 (b.toNat : Int) ++ bitsOf bs := by
  rw [bitsOf_cons]
  rfl

/-- The start of a packet: its type, `vorbis`, and then its bits. -/
theorem packet_start (type : UInt8) (bits : List Bool) : ∃ pad,
    ((do
      let type ← rd 8
      let tag ← many (rd 8) 6
      pure (type, tag) : P _) (some (bitsOf (packet type bits)))) =
    .ok (((type.toNat : Int), [118, 111, 114, 98, 105, 115]), some (bits ++ pad)) := by
  obtain ⟨pad, hp⟩ := bitsOf_pack bits
  refine ⟨pad, ?_⟩
  have ht : In (type.toNat : Int) 0 (2 ^ 8) := ⟨by omega, by have := type.toNat_lt; omega⟩
  have hr : Reads (do
      let type ← rd 8
      let tag ← many (rd 8) 6
      pure (type, tag) : P _) (enc 8 (type.toNat : Int) ++ List.flatMap (fun v => enc 8 v) [118, 111, 114, 98, 105, 115])
      ((type.toNat : Int), [118, 111, 114, 98, 105, 115]) :=
    Reads.bind (Reads.rd ht) (Reads.bindPure (Reads.many (fun v => enc 8 v) [118, 111, 114, 98, 105, 115] fun v hv => Reads.rd (by
      simp only [List.mem_cons, List.not_mem_nil, or_false] at hv
      rcases hv with rfl | rfl | rfl | rfl | rfl | rfl <;> decide)) (Reads.pure _))
  have := hr (bits ++ pad)
  rw [← this]
  unfold packet
  rw [bitsOf_enc, bitsOf_enc, bitsOf_enc, bitsOf_enc, bitsOf_enc, bitsOf_enc, bitsOf_enc, hp]
  simp only [List.flatMap_cons, List.flatMap_nil, List.append_assoc, List.append_nil]
  rfl

theorem attempt_reads {α : Type} {p : P α} {bits : List Bool} {a : α} (h : Reads p bits a) (pad : List Bool) :
    attempt p (some (bits ++ pad)) = .ok (some a, some pad) := by
  unfold attempt
  rw [h pad]

theorem headerIn_info (i : Info) (hi : i.Ok) (h : Hdr) (hn : h.info = none) :
    headerIn true (bitsOf (packet 1 i.bits)) h = .ok (true, { h with info := some i }) := by
  obtain ⟨pad, hp⟩ := packet_start 1 i.bits
  unfold headerIn
  rw [hp]
  simp only [Res.bind, hn]
  rw [if_neg (by simp), if_pos (by decide), if_neg (by simp), attempt_reads (Reads.info i hi)]

theorem headerIn_comment' (bits : List Bool) (x : List Int × List (List Int)) (hr : Reads unpackComment bits x) (first : Bool) (h : Hdr)
    (i : Info) (hi : h.info = some i) : headerIn first (bitsOf (packet 3 bits)) h = .ok (true, { h with vendor := true }) := by
  obtain ⟨pad, hp⟩ := packet_start 3 bits
  unfold headerIn
  rw [hp]
  simp only [Res.bind, hi]
  rw [if_neg (by simp), if_neg (by decide), if_pos (by decide), attempt_reads hr]
  rfl

theorem headerIn_comment (vendor : List Int) (comments : List (List Int)) (hv : StringOk vendor) (hc : comments.length < 2 ^ 31 - 1)
    (hs : ∀ s ∈ comments, StringOk s) (first : Bool) (h : Hdr) (i : Info) (hi : h.info = some i) :
    headerIn first (bitsOf (packet 3 (commentBits vendor comments))) h = .ok (true, { h with vendor := true }) := by
  exact headerIn_comment' _ _ (Reads.comment vendor comments hv hc hs) first h i hi

theorem headerIn_setup (first : Bool) (h : Hdr) (i : Info) (hi : h.info = some i) (hio : i.Ok) (hv : h.vendor = true) (shapes : List Shape) (p : Setup)
    (hp : p.Ok i.channels.toNat) (hs : List.Forall₂ (fun sh b => b.Ok ∧ b.Small ∧ sh.Fits b.lengths) shapes p.books) :
    headerIn first (bitsOf (packet 5 (p.bits i.channels.toNat shapes))) h =
      .ok (true, { h with setup := some p, slots := p.modes ++ h.slots.drop p.modes.length }) := by
  obtain ⟨pad, hpad⟩ := packet_start 5 (p.bits i.channels.toNat shapes)
  have c1 := hio.channels.1
  have c2 := hio.channels.2
  unfold headerIn
  rw [hpad]
  simp only [Res.bind, hi, hv]
  rw [if_neg (by simp), if_neg (by decide), if_neg (by decide), if_pos (by decide), if_neg (by simp)]
  have hr := fun old => attempt_reads (Reads.setup i.channels.toNat (by omega) shapes p hp hs old) pad
  rw [show ((i.channels.toNat : Nat) : Int) = i.channels by omega] at hr
  rw [hr]

end Verif.Vorbis
