import Verif.Bzip.StreamLemmas
/-!
A stream of the format gives its data.
-/
set_option linter.unusedSimpArgs false
namespace Verif.Bzip
open Verif Verif.Mkv

/-- The checksum once these blocks are done as well. -/
def endCrc (crc : BitVec 32) (bs : List Spec.Block) : BitVec 32 := (bs.map fun b => Spec.crc b.data).foldl Spec.combine crc

/-- The bits behind a state. -/
def restBits (crc : BitVec 32) (bs : List Spec.Block) : List Bool :=
  bs.flatMap Spec.Block.bits ++ (toBits 48 0x177245385090 ++ toBits 32 (endCrc crc bs).toNat)

/-- A state in which `rem` is still to come, with the bits that have to follow. -/
def Todo (size : Nat) (s : DState) (bs : List Spec.Block) (rem : List Nat) (bits : List Bool) : Prop :=
  match s with
  | .head sz crc => sz = size ∧ rem = bs.flatMap Spec.Block.data ∧ bits = restBits crc bs
  | .output sz crc stored b p => sz = size ∧ b.size = size ∧ b.nblock ≤ 100000 * size ∧ ∃ pos c t ps now whole, Walk b pos c ∧ Text b c t ∧ Pend b pos t ps p now ∧
      ps.length ≤ t.length ∧ (∀ x ∈ whole, x < 256) ∧ stored = (Spec.crc whole).toNat ∧ now.foldl crcByte p.crc = whole.foldl crcByte 0xFFFFFFFF ∧
      rem = now ++ bs.flatMap Spec.Block.data ∧ bits = restBits (Spec.combine crc (Spec.crc whole)) bs
  | _ => False

/-- Whether a block is being put out. -/
def outputs : DState → Bool
  | .output .. => true
  | _ => false

theorem runs_data_lt (ps : List (Nat × Nat)) (h : Spec.RunsOk ps) : ∀ x ∈ ps.flatMap Spec.unrun, x < 256 := by
  induction ps with
  | nil => simp
  | cons p ps ih =>
    intro x hx
    rw [List.flatMap_cons] at hx
    rcases List.mem_append.mp hx with hx | hx
    · rw [(List.mem_replicate.mp hx).2]; exact h.1
    · exact ih h.2.2.2.2 x hx

theorem runs_length (ps : List (Nat × Nat)) (h : Spec.RunsOk ps) : ps.length ≤ (ps.flatMap Spec.run).length ∧ (ps.flatMap Spec.unrun).length ≤ 259 * ps.length := by
  induction ps with
  | nil => simp
  | cons p ps ih =>
    obtain ⟨h1, h2⟩ := ih h.2.2.2.2
    rw [List.flatMap_cons, List.flatMap_cons, List.length_append, List.length_append, List.length_cons, run_ne p h.2.1, List.length_cons, Spec.unrun, List.length_replicate]
    have := h.2.2.1
    omega

/-- All put out: nothing is pending exactly if the decoder says so. -/
theorem pend_done {b : Blk} {pos c : Nat → Nat} {t : List Nat} (ht : Text b c t) {ps : List (Nat × Nat)} {p : Pos} {rem : List Nat} (h : Pend b pos t ps p rem) :
    (p.used = b.nblock + 1 ∧ p.outLen = 0) ↔ rem = [] := by
  obtain ⟨⟨K, hA, hK, hd⟩, _, hr, hrem⟩ := h
  have hlen : t.length - K = (ps.flatMap Spec.run).length := by rw [← hd, List.length_drop]
  have hps := (runs_length ps hr).1
  constructor
  · rintro ⟨h1, h2⟩
    rw [hA.used, ht.1] at h1
    have : ps = [] := List.length_eq_zero_iff.mp (by omega)
    rw [hrem, h2, this]; rfl
  · intro h0
    rw [h0] at hrem
    have h1 := congrArg List.length hrem
    rw [List.length_append, List.length_replicate, List.length_nil] at h1
    have hu : (ps.flatMap Spec.unrun).length = 0 := by omega
    have : ps = [] := by
      cases ps with
      | nil => rfl
      | cons q qs =>
        rw [List.flatMap_cons, List.length_append, Spec.unrun, List.length_replicate] at hu
        have := hr.2.1
        omega
    rw [this] at hlen
    simp only [List.flatMap_nil, List.length_nil] at hlen
    exact ⟨by rw [hA.used, ht.1]; omega, by omega⟩

theorem Reads.getEnd (v : Nat) (hv : v < 2 ^ 32) : Reads getEnd (toBits 40 0x7245385090 ++ toBits 32 v) v := by
  unfold Bzip.getEnd
  rw [show toBits 40 0x7245385090 = toBits 8 0x72 ++ (toBits 8 0x45 ++ (toBits 8 0x38 ++ (toBits 8 0x50 ++ toBits 8 0x90))) from by decide +kernel]
  simp only [List.append_assoc]
  refine Reads.bind (Reads.expect 0x72 (by omega)) ?_
  refine Reads.bind (Reads.expect 0x45 (by omega)) ?_
  refine Reads.bind (Reads.expect 0x38 (by omega)) ?_
  refine Reads.bind (Reads.expect 0x50 (by omega)) ?_
  refine Reads.bind (Reads.expect 0x90 (by omega)) ?_
  have := Reads.getWord 4 0 v hv
  rwa [Nat.zero_mul, Nat.zero_add] at this

theorem Reads.getHead (size : Nat) (h1 : 1 ≤ size) (h9 : size ≤ 9) : Reads getHead (toBits 24 0x425A68 ++ toBits 8 (0x30 + size)) size := by
  unfold Bzip.getHead
  rw [show toBits 24 0x425A68 = toBits 8 0x42 ++ (toBits 8 0x5A ++ toBits 8 0x68) from by decide +kernel]
  simp only [List.append_assoc]
  refine Reads.bind (Reads.expect 0x42 (by omega)) ?_
  refine Reads.bind (Reads.expect 0x5A (by omega)) ?_
  refine Reads.bind (Reads.expect 0x68 (by omega)) ?_
  refine Reads.seq (Reads.getBits 8 (0x30 + size) (by omega) (by simp only [Nat.reducePow]; omega)) ?_ (List.append_nil _).symm
  rw [if_neg (by omega), show 0x30 + size - 0x30 = size from by omega]
  exact Reads.pure _

/-- At the end. -/
theorem Reads.parse_end (size : Nat) (crc : BitVec 32) : Reads (decompress.parse size crc) (toBits 48 0x177245385090 ++ toBits 32 crc.toNat) none := by
  rw [show toBits 48 0x177245385090 = toBits 8 0x17 ++ toBits 40 0x7245385090 from by decide +kernel, List.append_assoc]
  refine Reads.bind (Reads.getBits 8 0x17 (by omega) (by simp)) ?_
  rw [if_pos rfl]
  refine Reads.seq (Reads.getEnd crc.toNat (BitVec.isLt _)) ?_ (List.append_nil _).symm
  rw [if_pos rfl]
  exact Reads.pure _

/-- At a block. -/
theorem Reads.parse_block (size : Nat) (hsize : size ≤ 9) (crc : BitVec 32) (blk : Spec.Block) (h : blk.Ok size) :
    ∃ x : Nat × Blk × Pos, Reads (decompress.parse size crc) blk.bits (some (.output size crc x.1 x.2.1 x.2.2)) ∧ Ready blk size x := by
  obtain ⟨x, hx, hR⟩ := Reads.getBlock size hsize blk h
  refine ⟨x, ?_, hR⟩
  rw [bits_eq]
  refine Reads.bind (Reads.getBits 8 0x31 (by omega) (by simp)) ?_
  rw [if_neg (by omega), if_pos rfl]
  exact Reads.seq hx (Reads.pure _) (List.append_nil _).symm

theorem bits_length (b : Spec.Block) : 48 ≤ b.bits.length := by
  rw [Spec.Block.bits]
  simp only [List.length_append, length_toBits]
  omega

theorem bzDecompress_spec (size : Nat) (hsize : size ≤ 9) (f : Nat) : ∀ (avail : Nat) (s : DState) (bs : List Spec.Block) (rem : List Nat) (bits : List Bool) (r : Rd)
    (rest : List Bool), r.Good → (∀ b ∈ bs, b.Ok size) → Todo size s bs rem bits → r.bits = bits ++ rest →
    2 * bs.length + 1 + (outputs s).toNat ≤ f →
    ∃ r' s', bzDecompress f avail s r = .ok ((rem.take avail, s'), r') ∧ r'.Good ∧
      ((s' = .idle ∧ rem.length ≤ avail ∧ r'.bits = rest) ∨
       (avail < rem.length ∧ ∃ bs' bits', Todo size s' bs' (rem.drop avail) bits' ∧ (∀ b ∈ bs', b.Ok size) ∧ r'.bits = bits' ++ rest)) := by
  induction f with
  | zero => intro avail s bs rem bits r rest _ _ _ _ h; omega
  | succ f ih =>
    intro avail s bs rem bits r rest hr hbs hT hb hf
    match s, hT with
    | .head sz crc, hT =>
      obtain ⟨rfl, hrem, hbits⟩ := hT
      subst hbits
      cases bs with
      | nil =>
        obtain ⟨r', e, g, b⟩ := Reads.parse_end sz crc r hr rest hb
        refine ⟨r', .idle, ?_, g, Or.inl ⟨rfl, by rw [hrem]; simp, b⟩⟩
        show ((decompress.parse sz crc r).bind fun y => _) = _
        rw [e, hrem]
        simp [Out.bind]
        rfl
      | cons blk bs =>
        have hok := hbs blk (by simp)
        obtain ⟨x, hx, hR⟩ := Reads.parse_block sz hsize crc blk hok
        obtain ⟨r1, e, g, b⟩ := hx r hr (restBits (Spec.combine crc (Spec.crc blk.data)) bs ++ rest) (by
          rw [hb, restBits, restBits, List.flatMap_cons]
          simp only [List.append_assoc]
          rfl)
        obtain ⟨R1, R2, R3, R4, pos, c, hW, hTx, hP⟩ := hR
        have hT' : Todo sz (.output sz crc x.1 x.2.1 x.2.2) bs rem (restBits (Spec.combine crc (Spec.crc blk.data)) bs) := by
          refine ⟨rfl, R2, R3, pos, c, _, _, blk.data, blk.data, hW, hTx, hP, (runs_length _ hok.runs).1, runs_data_lt _ hok.runs, R1, by rw [R4], ?_, rfl⟩
          rw [hrem, List.flatMap_cons]
        obtain ⟨r2, s', e2, g2, h2⟩ := ih avail _ bs rem _ r1 rest g (fun b hb => hbs b (by simp [hb])) hT' b (by
          simp only [List.length_cons, outputs, Bool.toNat] at hf ⊢
          simp at hf ⊢
          omega)
        refine ⟨r2, s', ?_, g2, h2⟩
        show ((decompress.parse sz crc r).bind fun y => _) = _
        rw [e]
        exact e2
    | .output sz crc stored b p, hT =>
      obtain ⟨rfl, hbsz, hbn, pos, c, t, ps, now, whole, hW, hTx, hP, hpl, hwl, hst, hcrc, hrem, hbits⟩ := hT
      obtain ⟨p', ps', e1, hP', hl', hc'⟩ := unRle_spec hW (by rw [hbsz]; exact hbn) hTx ps (b.nblock + 3) avail p now hP (by rw [hTx.1]; omega)
      have hdone := pend_done hTx hP'
      have hcr : (now.drop avail).foldl crcByte p'.crc = whole.foldl crcByte 0xFFFFFFFF := by
        rw [hc', ← List.foldl_append, List.take_append_drop, hcrc]
      have hstep : bzDecompress (f + 1) avail (.output sz crc stored b p) r =
          (if p'.used = b.nblock + 1 ∧ p'.outLen = 0 then
            if (~~~p'.crc).toNat = stored then do
              let (more, s) ← bzDecompress f (avail - (now.take avail).length) (.head sz ((crc <<< 1 ||| crc >>> 31) ^^^ ~~~p'.crc))
              pure (now.take avail ++ more, s)
            else fail
          else pure (now.take avail, .output sz crc stored b p') : P (List Nat × DState)) r := by
        show ((lift (unRle b (b.nblock + 3) avail p) r).bind fun y => _) = _
        rw [show lift (unRle b (b.nblock + 3) avail p) r = .ok ((now.take avail, some p'), r) from by simp [lift, e1, Out.bind]]
        rfl
      rw [hstep]
      by_cases hd : now.drop avail = []
      · rw [if_pos (hdone.mpr hd)]
        have hle : now.length ≤ avail := List.drop_eq_nil_iff.mp hd
        rw [hd] at hcr
        have hcr : p'.crc = whole.foldl crcByte 0xFFFFFFFF := hcr
        rw [if_pos (by rw [hcr, crc_of whole hwl, hst])]
        rw [List.take_of_length_le hle, hcr, crc_of whole hwl, rotate_eq]
        obtain ⟨r', s', e, g, h⟩ := ih (avail - now.length) (.head sz (Spec.combine crc (Spec.crc whole))) bs (bs.flatMap Spec.Block.data) bits r rest hr hbs
          ⟨rfl, rfl, hbits⟩ hb (by simp [outputs] at hf ⊢; omega)
        refine ⟨r', s', ?_, g, ?_⟩
        · show ((bzDecompress f (avail - now.length) (.head sz (Spec.combine crc (Spec.crc whole))) r).bind fun y => _) = _
          rw [e, hrem, List.take_append, List.take_of_length_le hle]
          rfl
        · rw [hrem]
          rcases h with ⟨h1, h2, h3⟩ | ⟨h1, h2⟩
          · exact Or.inl ⟨h1, by rw [List.length_append]; omega, h3⟩
          · refine Or.inr ⟨by rw [List.length_append]; omega, ?_⟩
            rw [List.drop_append, List.drop_of_length_le hle, List.nil_append]
            exact h2
      · rw [if_neg (fun h => hd (hdone.mp h))]
        have hlt : avail < now.length := by
          rcases Nat.lt_or_ge avail now.length with h | h
          · exact h
          · exact absurd (List.drop_of_length_le h) hd
        refine ⟨r, .output sz crc stored b p', ?_, hr, Or.inr ⟨by rw [hrem, List.length_append]; omega, bs, bits, ?_, hbs, hb⟩⟩
        · rw [hrem, List.take_append_of_le_length (by omega)]; rfl
        · refine ⟨rfl, hbsz, hbn, pos, c, t, ps', now.drop avail, whole, hW, hTx, hP', by omega, hwl, hst, hcr, ?_, hbits⟩
          rw [hrem, List.drop_append_of_le_length (by omega)]

theorem todo_length {size : Nat} {s : DState} {bs : List Spec.Block} {rem : List Nat} {bits : List Bool} (h : Todo size s bs rem bits) :
    48 * bs.length + 80 ≤ bits.length := by
  have key : ∀ crc, 48 * bs.length + 80 ≤ (restBits crc bs).length := by
    intro crc
    rw [restBits]
    simp only [List.length_append, length_toBits]
    have : 48 * bs.length ≤ (bs.flatMap Spec.Block.bits).length := by
      clear h
      induction bs with
      | nil => simp
      | cons b bs ih =>
        rw [List.flatMap_cons, List.length_append, List.length_cons]
        have := bits_length b
        omega
    omega
  match s, h with
  | .head _ crc, h => rw [h.2.2]; exact key _
  | .output _ crc _ _ _, h =>
    obtain ⟨_, _, _, _, _, _, _, _, _, _, _, _, _, _, _, _, _, hb⟩ := h
    rw [hb]; exact key _

theorem todo_call (size : Nat) (hsize : size ≤ 9) (s : DState) (bs : List Spec.Block) (rem : List Nat) (bits : List Bool) (r : Rd) (rest : List Bool)
    (hr : r.Good) (hbs : ∀ b ∈ bs, b.Ok size) (hT : Todo size s bs rem bits) (hb : r.bits = bits ++ rest) (n : Nat) (hn : r.left ≤ n) :
    ∃ r' s', bzDecompress (n + 1 + 1) 1024 s r = .ok ((rem.take 1024, s'), r') ∧ r'.Good ∧
      ((s' = .idle ∧ rem.length ≤ 1024 ∧ r'.bits = rest) ∨
       (1024 < rem.length ∧ r'.inp ≠ [] ∧ s' ≠ .idle ∧
        ∃ bs' bits', Todo size s' bs' (rem.drop 1024) bits' ∧ (∀ b ∈ bs', b.Ok size) ∧ r'.bits = bits' ++ rest)) := by
  have hl := todo_length hT
  have h1 := congrArg List.length hb
  rw [r.bits_length, List.length_append] at h1
  obtain ⟨r', s', e, g, h⟩ := bzDecompress_spec size hsize (n + 1 + 1) 1024 s bs rem bits r rest hr hbs hT hb (by
    have : (outputs s).toNat ≤ 1 := by cases outputs s <;> simp
    omega)
  refine ⟨r', s', e, g, ?_⟩
  rcases h with h | ⟨h2, bs', bits', hT', hbs', hb'⟩
  · exact Or.inl h
  · refine Or.inr ⟨h2, ?_, ?_, bs', bits', hT', hbs', hb'⟩
    · intro hi
      have h3 := congrArg List.length hb'
      rw [r'.bits_length, List.length_append] at h3
      have := todo_length hT'
      have hg := g.1
      simp only [Rd.left, hi, List.length_nil] at h3
      omega
    · intro hi
      rw [hi] at hT'
      exact hT'

theorem bzLoop_spec (size : Nat) (hsize : size ≤ 9) (f : Nat) : ∀ (s : DState) (bs : List Spec.Block) (rem : List Nat) (bits : List Bool) (r : Rd)
    (rest : List Bool), r.Good → (∀ b ∈ bs, b.Ok size) → Todo size s bs rem bits → r.bits = bits ++ rest → rem.length < f →
    ∃ r', bzLoop f s r = .ok (rem, r') ∧ r'.bits = rest := by
  induction f with
  | zero => intro s bs rem bits r rest _ _ _ _ h; omega
  | succ f ih =>
    intro s bs rem bits r rest hr hbs hT hb hf
    obtain ⟨r', s', e, g, h⟩ := todo_call size hsize s bs rem bits r rest hr hbs hT hb r.left (Nat.le_refl _)
    rw [bzLoop]
    beta_reduce
    rw [show withFuel (fun f => bzDecompress (f + 1) 1024 s) r = .ok ((rem.take 1024, s'), r') from e]
    simp only [Out.bind]
    rcases h with ⟨rfl, h1, h4⟩ | ⟨h1, h2, h3, bs', bits', hT', hbs', hb'⟩
    · exact ⟨r', by rw [List.take_of_length_le h1], h4⟩
    · obtain ⟨r2, e2, h5⟩ := ih s' bs' _ bits' r' rest g hbs' hT' hb' (by rw [List.length_drop]; omega)
      refine ⟨r2, ?_, h5⟩
      have hc : r'.inp ≠ [] ∧ (rem.take 1024).length = 1024 := ⟨h2, by rw [List.length_take]; omega⟩
      cases s' with
      | idle => exact absurd rfl h3
      | start => simp only; rw [if_pos hc, e2]; simp only [List.take_append_drop]
      | head _ _ => simp only; rw [if_pos hc, e2]; simp only [List.take_append_drop]
      | output _ _ _ _ _ => simp only; rw [if_pos hc, e2]; simp only [List.take_append_drop]

theorem bzLoop_start (size : Nat) (h1 : 1 ≤ size) (hsize : size ≤ 9) (f : Nat) (bs : List Spec.Block) (r : Rd) (rest : List Bool) (hr : r.Good)
    (hbs : ∀ b ∈ bs, b.Ok size) (hb : r.bits = toBits 24 0x425A68 ++ toBits 8 (0x30 + size) ++ (restBits 0 bs ++ rest))
    (hf : (bs.flatMap Spec.Block.data).length < f) : ∃ r', bzLoop f .start r = .ok (bs.flatMap Spec.Block.data, r') ∧ r'.bits = rest := by
  obtain ⟨f, rfl⟩ : ∃ g, f = g + 1 := ⟨f - 1, by omega⟩
  obtain ⟨r1, e1, g1, b1⟩ := Reads.getHead size h1 hsize r hr _ hb
  have hle : r1.left ≤ r.left := by
    rw [← r.bits_length, hb, ← r1.bits_length, b1]
    simp only [List.length_append]
    omega
  obtain ⟨r', s', e, g, h⟩ := todo_call size hsize (.head size 0) bs _ _ r1 rest g1 hbs ⟨rfl, rfl, rfl⟩ b1 r.left hle
  have e0 : bzDecompress (r.left + 1 + 1) 1024 .start r = bzDecompress (r.left + 1 + 1) 1024 (.head size 0) r1 := by
    show ((((getHead r).bind fun y => decompress.parse y.1 0 y.2)).bind fun y => _) = ((decompress.parse size 0 r1).bind fun y => _)
    rw [e1]
    rfl
  rw [bzLoop]
  beta_reduce
  rw [show withFuel (fun f => bzDecompress (f + 1) 1024 .start) r = .ok (((bs.flatMap Spec.Block.data).take 1024, s'), r') from e0.trans e]
  generalize bs.flatMap Spec.Block.data = rem at *
  simp only [Out.bind]
  rcases h with ⟨rfl, h1, h4⟩ | ⟨h1, h2, h3, bs', bits', hT', hbs', hb'⟩
  · exact ⟨r', by rw [List.take_of_length_le h1], h4⟩
  · obtain ⟨r2, e2, h5⟩ := bzLoop_spec size hsize f s' bs' _ bits' r' rest g hbs' hT' hb' (by rw [List.length_drop]; omega)
    refine ⟨r2, ?_, h5⟩
    have hc : r'.inp ≠ [] ∧ (rem.take 1024).length = 1024 := ⟨h2, by rw [List.length_take]; omega⟩
    cases s' with
    | idle => exact absurd rfl h3
    | start => simp only; rw [if_pos hc, e2]; simp only [List.take_append_drop]
    | head _ _ => simp only; rw [if_pos hc, e2]; simp only [List.take_append_drop]
    | output _ _ _ _ _ => simp only; rw [if_pos hc, e2]; simp only [List.take_append_drop]

theorem pack_last (l : List Bool) (h : l.length < 8) : ∃ pad, (Spec.pack l).flatMap (toBits 8) = l ++ pad ∧ pad.length < 8 ∧ ∀ b ∈ Spec.pack l, b < 256 := by
  match l, h with
  | [], _ => exact ⟨[], rfl, by simp, by simp [Spec.pack]⟩
  | [a], _ => exact ⟨List.replicate 7 false, by cases a <;> decide, by simp, by cases a <;> decide⟩
  | [a, b], _ => exact ⟨List.replicate 6 false, by revert a b; decide, by simp, by revert a b; decide⟩
  | [a, b, c], _ => exact ⟨List.replicate 5 false, by revert a b c; decide, by simp, by revert a b c; decide⟩
  | [a, b, c, d], _ => exact ⟨List.replicate 4 false, by revert a b c d; decide, by simp, by revert a b c d; decide⟩
  | [a, b, c, d, e], _ => exact ⟨List.replicate 3 false, by revert a b c d e; decide +kernel, by simp, by revert a b c d e; decide +kernel⟩
  | [a, b, c, d, e, f], _ => exact ⟨List.replicate 2 false, by revert a b c d e f; decide +kernel, by simp, by revert a b c d e f; decide +kernel⟩
  | [a, b, c, d, e, f, g], _ => exact ⟨List.replicate 1 false, by revert a b c d e f g; decide +kernel, by simp, by revert a b c d e f g; decide +kernel⟩
  | _ :: _ :: _ :: _ :: _ :: _ :: _ :: _ :: _, h => simp at h; omega

/-- The bytes of a stream hold its bits. -/
theorem pack_spec (n : Nat) : ∀ l : List Bool, l.length < n → ∃ pad, (Spec.pack l).flatMap (toBits 8) = l ++ pad ∧ pad.length < 8 ∧ ∀ b ∈ Spec.pack l, b < 256 := by
  induction n with
  | zero => intro l h; omega
  | succ n ih =>
    intro l hl
    by_cases h8 : l.length < 8
    · exact pack_last l h8
    · match l, hl, h8 with
      | a :: b :: c :: d :: e :: f :: g :: h :: l, hl, _ =>
        obtain ⟨pad, h1, h2, h3⟩ := ih l (by simp at hl; omega)
        refine ⟨pad, ?_, h2, ?_⟩
        · rw [Spec.pack, List.flatMap_cons, h1]
          have := toBits_ofBits [a, b, c, d, e, f, g, h]
          rw [show ([a, b, c, d, e, f, g, h] : List Bool).length = 8 from rfl] at this
          rw [this]; rfl
        · intro x hx
          rw [Spec.pack] at hx
          rcases List.mem_cons.mp hx with rfl | hx
          · have h4 := ofBits_lt [a, b, c, d, e, f, g, h]
            rw [show ([a, b, c, d, e, f, g, h] : List Bool).length = 8 from rfl, show 2 ^ 8 = 256 from by decide] at h4
            exact h4
          · exact h3 x hx
      | [], _, h => simp at h
      | [_], _, h => simp at h
      | [_, _], _, h => simp at h
      | [_, _, _], _, h => simp at h
      | [_, _, _, _], _, h => simp at h
      | [_, _, _, _, _], _, h => simp at h
      | [_, _, _, _, _, _], _, h => simp at h
      | [_, _, _, _, _, _, _], _, h => simp at h

theorem bytes_bits_length (l : List Nat) : (l.flatMap (toBits 8)).length = 8 * l.length := by
  induction l with
  | nil => rfl
  | cons x l ih => rw [List.flatMap_cons, List.length_append, ih, length_toBits, List.length_cons]; omega

theorem data_length (size : Nat) (hsize : size ≤ 9) (bs : List Spec.Block) (h : ∀ b ∈ bs, b.Ok size) :
    (bs.flatMap Spec.Block.data).length ≤ 300000000 * bs.length := by
  induction bs with
  | nil => simp
  | cons b bs ih =>
    have hb := h b (by simp)
    have h1 := runs_length b.runs hb.runs
    have h2 := hb.max
    rw [text_length] at h2
    rw [List.flatMap_cons, List.length_append, List.length_cons]
    have := ih fun x hx => h x (by simp [hx])
    have hd : b.data.length ≤ 259 * b.runs.length := h1.2
    have hr : b.runs.length ≤ 900000 := by omega
    have hx : b.data.length ≤ 300000000 := by omega
    rw [Nat.mul_add]
    omega

/-- The whole run. -/
theorem bzLoop_stream (size : Nat) (h1 : 1 ≤ size) (hsize : size ≤ 9) (bs : List Spec.Block) (hbs : ∀ b ∈ bs, b.Ok size) (more : List Nat) (hm : ∀ b ∈ more, b < 256) :
    ∃ r', bzLoop ((8 * (Spec.stream size bs ++ more).length + 1) * 300000000) .start ⟨0, 0, Spec.stream size bs ++ more⟩ = .ok (bs.flatMap Spec.Block.data, r') ∧
      r'.left < 8 * more.length + 8 := by
  obtain ⟨pad, e, hp, hb⟩ := pack_spec _ (Spec.streamBits size bs) (Nat.lt_succ_self _)
  have hr : (⟨0, 0, Spec.stream size bs ++ more⟩ : Rd).Good := ⟨by simp, fun x hx => (List.mem_append.mp hx).elim (hb x) (hm x)⟩
  have hbits : (⟨0, 0, Spec.stream size bs ++ more⟩ : Rd).bits = toBits 24 0x425A68 ++ toBits 8 (0x30 + size) ++ (restBits 0 bs ++ (pad ++ more.flatMap (toBits 8))) := by
    show (Spec.stream size bs ++ more).flatMap (toBits 8) = _
    rw [List.flatMap_append, Spec.stream, e, Spec.streamBits, restBits, endCrc]
    simp only [List.append_assoc]
  have hlen : bs.length ≤ 8 * (Spec.stream size bs ++ more).length := by
    have h2 := congrArg List.length hbits
    rw [Rd.bits_length, List.length_append, List.length_append (as := restBits 0 bs)] at h2
    have h3 := todo_length (size := size) (s := .head size 0) (bs := bs) ⟨rfl, rfl, rfl⟩
    simp only [Rd.left] at h2
    omega
  have hd := data_length size hsize bs hbs
  obtain ⟨r', e', e2⟩ := bzLoop_start size h1 hsize ((8 * (Spec.stream size bs ++ more).length + 1) * 300000000) bs _ _ hr hbs hbits (by
    have := Nat.mul_le_mul_left 300000000 hlen
    rw [Nat.add_mul, Nat.mul_comm (8 * _)]
    generalize 300000000 * (8 * (Spec.stream size bs ++ more).length) = A at *
    generalize 300000000 * bs.length = B at *
    omega)
  refine ⟨r', e', ?_⟩
  rw [← r'.bits_length, e2, List.length_append, bytes_bits_length]
  omega

theorem bunzip_spec (size : Nat) (h1 : 1 ≤ size) (hsize : size ≤ 9) (bs : List Spec.Block) (hbs : ∀ b ∈ bs, b.Ok size) (more : List Nat) (hm : ∀ b ∈ more, b < 256) :
    bunzip (Spec.stream size bs ++ more) = .ok (bs.flatMap Spec.Block.data) := by
  obtain ⟨r', e', _⟩ := bzLoop_stream size h1 hsize bs hbs more hm
  rw [bunzip, e']
  rfl

end Verif.Bzip
