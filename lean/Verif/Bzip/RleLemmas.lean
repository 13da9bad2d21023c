import Verif.Bzip.BwtLemmas
import Verif.Bzip.CrcLemmas
/-!
A decoded block being put out: the randomisation, the runs, the checksum.
-/
set_option linter.unusedSimpArgs false
namespace Verif.Bzip
open Verif Verif.Mkv

/-! ### Randomisation -/

/-- Gaps passed and bytes of the gap left, one byte further on. -/
def gapStep (s : Nat × Nat) : Nat × Nat := if s.2 = 0 then (s.1 + 1, Spec.gap s.1 - 1) else (s.1, s.2 - 1)

/-- Whether the byte is flipped. -/
def gapMask (s : Nat × Nat) : Nat := if s.2 = 0 then (if Spec.gap s.1 = 2 then 1 else 0) else if s.2 = 2 then 1 else 0

theorem flips_eq (len : Nat) : ∀ k n, Spec.flips k n len = (List.range len).map fun i => gapMask (gapStep^[i] (k, n)) := by
  induction len with
  | zero => intro k n; rfl
  | succ len ih =>
    intro k n
    rw [List.range_succ_eq_map, List.map_cons, List.map_map]
    cases n with
    | zero =>
      rw [Spec.flips, ih]
      congr 1
    | succ n =>
      rw [Spec.flips, ih]
      congr 1
      show (if n = 1 then 1 else 0) = gapMask (k, n + 1)
      rw [gapMask]
      simp

/-- `rNToGo` and `rTPos` after `k` bytes. -/
def RandAt (k n t : Nat) : Prop := n = (gapStep^[k] (0, 0)).2 ∧ t = (gapStep^[k] (0, 0)).1 % 512

theorem rNums_length : rNums.length = 512 := by decide +kernel

theorem randStep_spec (k n t : Nat) (h : RandAt k n t) : ∃ n' t', randStep n t = .ok (gapMask (gapStep^[k] (0, 0)), n', t') ∧ RandAt (k + 1) n' t' := by
  obtain ⟨rfl, rfl⟩ := h
  simp only [RandAt, Function.iterate_succ_apply']
  generalize gapStep^[k] (0, 0) = s
  obtain ⟨g, n⟩ := s
  have hlt : g % 512 < rNums.length := by rw [rNums_length]; exact Nat.mod_lt _ (by omega)
  have hgap : Spec.gap g = rNums[g % 512] := by
    rw [Spec.gap, List.getD_eq_getElem?_getD, List.getElem?_eq_getElem hlt]; rfl
  simp only [randStep, gapStep, gapMask]
  by_cases h0 : n = 0
  · rw [if_pos h0, List.getElem?_eq_getElem hlt]
    simp only
    rw [if_pos h0, if_pos h0, hgap]
    refine ⟨_, if g % 512 + 1 = 512 then 0 else g % 512 + 1, ?_, rfl, ?_⟩
    · congr 2
      by_cases h2 : rNums[g % 512] = 2
      · rw [if_pos (by omega), if_pos h2]
      · rw [if_neg (by omega), if_neg h2]
    · simp only
      split <;> omega
  · rw [if_neg h0, if_neg h0, if_neg h0]
    refine ⟨_, _, ?_, rfl, rfl⟩
    congr 2
    by_cases h2 : n = 2
    · rw [if_pos (by omega), if_pos h2]
    · rw [if_neg (by omega), if_neg h2]

theorem gapMask_le (s : Nat × Nat) : gapMask s ≤ 1 := by
  rw [gapMask]; split <;> split <;> omega

/-! ### One character -/

/-- What is read as byte `k`. -/
def unmasked (b : Blk) (c : Nat → Nat) (k : Nat) : Nat := if b.random then c k ^^^ gapMask (gapStep^[k] (0, 0)) else c k

theorem unmasked_lt (b : Blk) (c : Nat → Nat) (k : Nat) (h : c k < 256) : unmasked b c k < 256 := by
  rw [unmasked]
  split
  · have := gapMask_le (gapStep^[k] (0, 0))
    exact Nat.xor_lt_two_pow (n := 8) h (by omega)
  · exact h

/-- A position after `k` characters. -/
structure At (b : Blk) (pos : Nat → Nat) (k : Nat) (p : Pos) : Prop where
  tPos : p.tPos = pos k
  used : p.used = k
  rand : b.random → RandAt k p.rNToGo p.rTPos

/-- `getSmall` changes only these. -/
structure Same (p q : Pos) : Prop where
  k0 : q.k0 = p.k0
  outLen : q.outLen = p.outLen
  outCh : q.outCh = p.outCh
  crc : q.crc = p.crc

theorem getSmall_spec {b : Blk} {pos c : Nat → Nat} (w : Walk b pos c) (hs : b.nblock ≤ 100000 * b.size) {k : Nat} {p : Pos} (h : At b pos k p) :
    ∃ q, getSmall b p = .ok (some (unmasked b c k), q) ∧ At b pos (k + 1) q ∧ Same p q := by
  have h1 := w.lt k
  rw [getSmall, h.tPos, if_neg (by omega), if_neg (by omega), w.byte k]
  simp only [Out.bind]
  rw [w.next k, unmasked]
  by_cases hr : b.random
  · obtain ⟨n', t', e, hn⟩ := randStep_spec k _ _ (h.rand hr)
    rw [if_pos hr, if_pos hr, e]
    simp only [Out.bind]
    exact ⟨_, rfl, ⟨rfl, by simp [h.used], fun _ => hn⟩, ⟨rfl, rfl, rfl, rfl⟩⟩
  · rw [if_neg hr, if_neg hr]
    exact ⟨_, rfl, ⟨rfl, by simp [h.used], fun h => absurd h hr⟩, ⟨rfl, rfl, rfl, rfl⟩⟩

theorem At.setLen {b : Blk} {pos : Nat → Nat} {k : Nat} {p : Pos} (h : At b pos k p) (n : Nat) : At b pos k { p with outLen := n } := ⟨h.tPos, h.used, h.rand⟩
theorem At.setCh {b : Blk} {pos : Nat → Nat} {k : Nat} {p : Pos} (h : At b pos k p) (n : Nat) : At b pos k { p with outCh := n } := ⟨h.tPos, h.used, h.rand⟩
theorem At.setK0 {b : Blk} {pos : Nat → Nat} {k : Nat} {p : Pos} (h : At b pos k p) (n : Nat) : At b pos k { p with k0 := n } := ⟨h.tPos, h.used, h.rand⟩

/-! ### A run -/

/-- One of the three places: what happens with character `k`. -/
theorem runStep_spec {b : Blk} {pos c : Nat → Nat} (w : Walk b pos c) (hs : b.nblock ≤ 100000 * b.size) {k : Nat} {p : Pos} (h : At b pos k p) (len : Nat)
    (next : Pos → Out (Bool × Pos)) :
    ∃ q, At b pos (k + 1) q ∧ q.outLen = len ∧ q.outCh = p.outCh ∧ q.crc = p.crc ∧ q.k0 = p.k0 ∧
      runStep b len p next =
        if k = b.nblock then .ok (false, q)
        else if unmasked b c k ≠ p.k0 then .ok (false, { q with k0 := unmasked b c k })
        else next q := by
  obtain ⟨q, e, hq, hsame⟩ := getSmall_spec w hs (h.setLen len)
  refine ⟨q, hq, hsame.outLen, hsame.outCh, hsame.crc, hsame.k0, ?_⟩
  rw [runStep, e]
  simp only [Out.bind]
  rw [hq.used, hsame.k0]
  by_cases h1 : k = b.nblock
  · rw [if_pos (by omega), if_pos h1]
  · rw [if_neg (by omega), if_neg h1]

/-- A new run always ends well. -/
theorem newRun_safe {b : Blk} {pos c : Nat → Nat} (w : Walk b pos c) (hs : b.nblock ≤ 100000 * b.size) {k : Nat} {p : Pos} (h : At b pos k p)
    (hk0 : p.k0 < 256) :
    ∃ q k', newRun b p = .ok (false, q) ∧ At b pos k' q ∧ k < k' ∧ q.outLen ≤ 259 ∧ q.k0 < 256 ∧ q.outCh = p.k0 ∧ q.crc = p.crc := by
  rw [newRun]
  obtain ⟨q1, a1, l1, o1, c1, k1, e1⟩ := runStep_spec w hs (h.setCh p.k0) 1 (fun p =>
    runStep b 2 p fun p => runStep b 3 p (longRun b))
  simp only at o1 c1 k1
  rw [e1]
  split
  · exact ⟨_, k + 1, rfl, a1, by omega, by omega, by omega, o1, c1⟩
  split
  · exact ⟨_, k + 1, rfl, a1.setK0 _, by omega, by simp only; omega, unmasked_lt b c _ (w.small _), o1, c1⟩
  obtain ⟨q2, a2, l2, o2, c2, k2, e2⟩ := runStep_spec w hs a1 2 (fun p => runStep b 3 p (longRun b))
  rw [o1] at o2
  rw [c1] at c2
  rw [k1] at k2
  rw [e2]
  split
  · exact ⟨_, k + 2, rfl, a2, by omega, by omega, by omega, o2, c2⟩
  split
  · exact ⟨_, k + 2, rfl, a2.setK0 _, by omega, by simp only; omega, unmasked_lt b c _ (w.small _), o2, c2⟩
  obtain ⟨q3, a3, l3, o3, c3, k3, e3⟩ := runStep_spec w hs a2 3 (longRun b)
  rw [o2] at o3
  rw [c2] at c3
  rw [k2] at k3
  rw [e3]
  split
  · exact ⟨_, k + 3, rfl, a3, by omega, by omega, by omega, o3, c3⟩
  split
  · exact ⟨_, k + 3, rfl, a3.setK0 _, by omega, by simp only; omega, unmasked_lt b c _ (w.small _), o3, c3⟩
  obtain ⟨q4, e4, a4, s4⟩ := getSmall_spec w hs a3
  rw [longRun, e4]
  simp only [Out.bind]
  obtain ⟨q5, e5, a5, s5⟩ := getSmall_spec w hs (a4.setLen (unmasked b c (k + 1 + 1 + 1) + 4))
  rw [e5]
  simp only [Out.bind]
  refine ⟨_, k + 5, rfl, a5.setK0 _, by omega, ?_, unmasked_lt b c _ (w.small _), ?_, ?_⟩
  · have := unmasked_lt b c (k + 1 + 1 + 1) (w.small _)
    have h2 := s5.outLen
    simp only at h2 ⊢
    omega
  · have h2 := s5.outCh
    simp only at h2 ⊢
    rw [h2, s4.outCh, o3]
  · have h2 := s5.crc
    simp only at h2 ⊢
    rw [h2, s4.crc, c3]

/-- What is pending, for the time a block takes. -/
def pending (b : Blk) (p : Pos) : Nat := (b.nblock + 1 - p.used) * 300 + p.outLen

theorem flush_fst (avail : Nat) (p : Pos) : (flush avail p).1 = List.replicate (min avail p.outLen) p.outCh := rfl

theorem At.flush {b : Blk} {pos : Nat → Nat} {k : Nat} {p : Pos} (h : At b pos k p) (avail : Nat) : At b pos k (flush avail p).2 := ⟨h.tPos, h.used, h.rand⟩

theorem unRle_safe {b : Blk} {pos c : Nat → Nat} (w : Walk b pos c) (hs : b.nblock ≤ 100000 * b.size) (f : Nat) : ∀ (avail k : Nat) (p : Pos), At b pos k p →
    p.outLen ≤ 259 → p.k0 < 256 → p.outCh < 256 → b.nblock + 2 < f + k → 1 ≤ f → ∃ out q, unRle b f avail p = .ok (out, q) ∧ out.length ≤ avail ∧ (∀ x ∈ out, x < 256) ∧
      ∀ p', q = some p' → ∃ k', At b pos k' p' ∧ k ≤ k' ∧ p'.outLen ≤ 259 ∧ pending b p' + out.length ≤ pending b p ∧ p'.k0 < 256 ∧ p'.outCh < 256 ∧
        p'.crc = out.foldl crcByte p.crc := by
  induction f with
  | zero => intro avail k p _ _ _ _ _ h; omega
  | succ f ih =>
    intro avail k p h hlen hk0 hch hf _
    rw [unRle]
    have hfl : (Bzip.flush avail p).1.length = min avail p.outLen := by rw [flush_fst, List.length_replicate]
    have hlen2 : (Bzip.flush avail p).2.outLen = p.outLen - min avail p.outLen := rfl
    have hused2 : (Bzip.flush avail p).2.used = p.used := rfl
    have hpend : pending b (Bzip.flush avail p).2 + (Bzip.flush avail p).1.length ≤ pending b p := by
      rw [pending, pending, hfl, hlen2, hused2]; omega
    have hA := h.flush avail
    have hfb : ∀ x ∈ (Bzip.flush avail p).1, x < 256 := by
      intro x hx; rw [flush_fst] at hx; rw [List.eq_of_mem_replicate hx]; exact hch
    by_cases h1 : avail = (Bzip.flush avail p).1.length
    · rw [if_pos h1]
      refine ⟨_, _, rfl, by omega, hfb, fun p' e => ?_⟩
      obtain rfl := Option.some.inj e
      exact ⟨k, hA, Nat.le_refl _, by omega, hpend, hk0, hch, rfl⟩
    · rw [if_neg h1]
      by_cases h2 : (Bzip.flush avail p).2.used = b.nblock + 1
      · rw [if_pos h2]
        refine ⟨_, _, rfl, by omega, hfb, fun p' e => ?_⟩
        obtain rfl := Option.some.inj e
        exact ⟨k, hA, Nat.le_refl _, by omega, hpend, hk0, hch, rfl⟩
      · rw [if_neg h2]
        by_cases h3 : (Bzip.flush avail p).2.used > b.nblock + 1
        · rw [if_pos h3]
          exact ⟨_, _, rfl, by omega, hfb, fun p' e => by cases e⟩
        · rw [if_neg h3]
          have hk := hA.used
          obtain ⟨q, k', e, hq, hkk, hql, hqk, hqc, hqcrc⟩ := newRun_safe w hs hA hk0
          rw [e]
          simp only [Out.bind]
          rw [if_neg (by simp)]
          obtain ⟨out, q', e2, ho, hob, hq'⟩ := ih (avail - (Bzip.flush avail p).1.length) k' q hq hql hqk (by rw [hqc]; exact hk0) (by omega) (by omega)
          rw [e2]
          simp only
          refine ⟨_, _, rfl, by rw [List.length_append]; omega, fun x hx => (List.mem_append.mp hx).elim (hfb x) (hob x), fun p' e3 => ?_⟩
          obtain ⟨k2, g1, g2, g3, g4, g5, g6, g7⟩ := hq' p' e3
          refine ⟨k2, g1, by omega, g3, ?_, g5, g6, by rw [g7, List.foldl_append, hqcrc]; rfl⟩
          rw [List.length_append]
          have hqu := hq.used
          have : pending b q ≤ pending b (Bzip.flush avail p).2 := by
            rw [pending, pending, hqu]
            have h5 : (b.nblock + 1 - k') * 300 + 300 ≤ (b.nblock + 1 - (Bzip.flush avail p).2.used) * 300 := by
              rw [hk]; omega
            omega
          omega

/-! ### Putting out a block of the format -/

/-- The bytes of the text, then whatever follows. -/
def Text (b : Blk) (c : Nat → Nat) (t : List Nat) : Prop := b.nblock = t.length ∧ ∀ k, k < t.length → unmasked b c k = t.getD k 0

/-- `rem` is what is still to come out: part of a run, and pieces from byte `K` of the text on. -/
structure Pend (b : Blk) (pos : Nat → Nat) (t : List Nat) (ps : List (Nat × Nat)) (p : Pos) (rem : List Nat) : Prop where
  at_ : ∃ K, At b pos (K + 1) p ∧ K ≤ t.length ∧ t.drop K = ps.flatMap Spec.run
  k0 : ∀ q ∈ ps.head?, p.k0 = q.1
  runs : Spec.RunsOk ps
  rem : rem = List.replicate p.outLen p.outCh ++ ps.flatMap Spec.unrun

theorem run_ne (q : Nat × Nat) (h : 1 ≤ q.2) : Spec.run q = q.1 :: (Spec.run q).drop 1 := by
  rw [Spec.run]
  split
  · obtain ⟨n, hn⟩ : ∃ n, q.2 = n + 1 := ⟨q.2 - 1, by omega⟩
    rw [hn, List.replicate_succ]; rfl
  · rfl

theorem getD_drop (t : List Nat) (K i : Nat) : (t.drop K).getD i 0 = t.getD (K + i) 0 := by
  rw [List.getD_eq_getElem?_getD, List.getElem?_drop, List.getD_eq_getElem?_getD]

theorem newRun_spec {b : Blk} {pos c : Nat → Nat} (w : Walk b pos c) (hs : b.nblock ≤ 100000 * b.size) {t : List Nat} (ht : Text b c t)
    {q : Nat × Nat} {ps : List (Nat × Nat)} {p : Pos} {K : Nat} (h : At b pos (K + 1) p) (hd : t.drop K = (q :: ps).flatMap Spec.run) (hk0 : p.k0 = q.1)
    (hr : Spec.RunsOk (q :: ps)) :
    ∃ p', newRun b p = .ok (false, p') ∧ Pend b pos t ps p' (Spec.unrun q ++ ps.flatMap Spec.unrun) ∧ p'.crc = p.crc := by
  obtain ⟨ch, cnt⟩ := q
  obtain ⟨r1, r2, r3, r4, r5⟩ := hr
  simp only at r1 r2 r3 r4 hk0
  rw [List.flatMap_cons] at hd
  obtain ⟨hn, hu⟩ := ht
  have hlen : (Spec.run (ch, cnt)).length + (ps.flatMap Spec.run).length = t.length - K := by
    have := congrArg List.length hd
    rw [List.length_drop, List.length_append] at this
    omega
  have hnext : ∀ q ∈ ps.head?, (ps.flatMap Spec.run).getD 0 0 = q.1 := by
    intro q hq
    cases ps with
    | nil => simp at hq
    | cons x ps =>
      have : x = q := by simpa using hq
      subst this
      rw [List.flatMap_cons, run_ne x r5.2.1]; rfl
  have hnonempty : ∀ q ∈ ps.head?, 0 < (ps.flatMap Spec.run).length := by
    intro q hq
    cases ps with
    | nil => simp at hq
    | cons x ps => rw [List.flatMap_cons, run_ne x r5.2.1]; simp
  have hget : ∀ i, t.getD (K + i) 0 = (Spec.run (ch, cnt) ++ ps.flatMap Spec.run).getD i 0 := by
    intro i; rw [← hd, getD_drop]
  have hafter : ∀ n, (Spec.run (ch, cnt)).length = n → t.getD (K + n) 0 = (ps.flatMap Spec.run).getD 0 0 := by
    intro n hn'
    rw [hget, List.getD_eq_getElem?_getD, List.getElem?_append_right (by omega), List.getD_eq_getElem?_getD, hn', Nat.sub_self]
  have hdrop : ∀ n, (Spec.run (ch, cnt)).length = n → t.drop (K + n) = ps.flatMap Spec.run := by
    intro n hn'
    rw [← List.drop_drop, hd, List.drop_append, hn', Nat.sub_self, List.drop_of_length_le (by omega)]; rfl
  -- a run of less than four ends here
  have hend : ∀ n (q : Pos), (Spec.run (ch, cnt)).length = n → cnt = n → n < 4 → At b pos (K + 1 + n) q → q.outLen = n → q.outCh = ch → q.crc = p.crc →
      q.k0 = ch → ∀ x, x = (if K + n = b.nblock then Out.ok (false, q) else if unmasked b c (K + n) ≠ q.k0 then .ok (false, { q with k0 := unmasked b c (K + n) }) else x) →
      ∃ p', x = .ok (false, p') ∧ Pend b pos t ps p' (Spec.unrun (ch, cnt) ++ ps.flatMap Spec.unrun) ∧ p'.crc = p.crc := by
    intro n q hn' hcn hn4 hq ho hc hcrc hk x hx
    by_cases hfin : K + n = b.nblock
    · rw [if_pos hfin] at hx
      have hps : ps = [] := by
        cases ps with
        | nil => rfl
        | cons y ps => have := hnonempty y (by simp); omega
      refine ⟨q, hx, ⟨⟨K + n, by rw [show K + n + 1 = K + 1 + n from by omega]; exact hq, by omega, hdrop n hn'⟩, by rw [hps]; simp, r5, ?_⟩, hcrc⟩
      rw [ho, hc, Spec.unrun, hcn]
    · rw [if_neg hfin] at hx
      have hlt : K + n < t.length := by omega
      have hpl : 0 < (ps.flatMap Spec.run).length := by omega
      obtain ⟨y, ps', rfl⟩ : ∃ y ps', ps = y :: ps' := by
        cases ps with
        | nil => simp at hpl
        | cons y ps' => exact ⟨y, ps', rfl⟩
      have hy := r4 (by omega) y (by simp)
      have hval : unmasked b c (K + n) = y.1 := by rw [hu _ hlt, hafter n hn', hnext y (by simp)]
      rw [if_pos (by rw [hval, hk]; exact hy)] at hx
      refine ⟨_, hx, ⟨⟨K + n, by rw [show K + n + 1 = K + 1 + n from by omega]; exact hq.setK0 _, by omega, hdrop n hn'⟩, ?_, r5, ?_⟩, hcrc⟩
      · intro z hz
        have : y = z := by simpa using hz
        subst this
        exact hval
      · simp only
        rw [ho, hc, Spec.unrun, hcn]
  -- a run goes on here
  have hmore : ∀ n, 0 < n → n < cnt → n < 4 → ¬ K + n = b.nblock ∧ unmasked b c (K + n) = ch := by
    intro n hn0 h1 h2
    have hl : n < (Spec.run (ch, cnt)).length := by
      rw [Spec.run]; simp only; split
      · rw [List.length_replicate]; omega
      · simp; omega
    refine ⟨by omega, ?_⟩
    rw [hu _ (by omega), hget, List.getD_eq_getElem?_getD, List.getElem?_append_left hl, Spec.run]
    simp only
    split
    · rw [List.getElem?_replicate, if_pos (by omega)]; rfl
    · rw [List.getElem?_append_left (by simp; omega), List.getElem?_replicate, if_pos h2]; rfl
  have hshort : cnt < 4 → (Spec.run (ch, cnt)).length = cnt := by
    intro h4; rw [Spec.run]; simp only; rw [if_pos h4, List.length_replicate]
  rw [newRun]
  obtain ⟨q1, a1, l1, o1, c1, k1, e1⟩ := runStep_spec w hs (h.setCh p.k0) 1 (fun p =>
    runStep b 2 p fun p => runStep b 3 p (longRun b))
  simp only at o1 c1 k1
  rw [e1]
  simp only
  rw [hk0] at o1 k1 ⊢
  by_cases hc1 : cnt = 1
  · have h4 : cnt < 4 := by omega
    refine hend 1 q1 (by rw [hshort h4, hc1]) hc1 (by omega) a1 l1 o1 c1 k1 _ ?_
    rw [k1]
    have hf : K + 1 = b.nblock ∨ unmasked b c (K + 1) ≠ ch := by
      by_cases hfin : K + 1 = b.nblock
      · exact Or.inl hfin
      · right
        have hs1 := hshort h4
        have hlt : K + 1 < t.length := by omega
        have hpl : 0 < (ps.flatMap Spec.run).length := by omega
        cases ps with
        | nil => simp at hpl
        | cons y ps' =>
          rw [hu _ hlt, hafter 1 (by omega), hnext y (by simp)]
          exact r4 (by omega) y (by simp)
    rcases hf with hf | hf
    · rw [if_pos hf, if_pos hf]
    · by_cases hfin : K + 1 = b.nblock
      · rw [if_pos hfin, if_pos hfin]
      · rw [if_neg hfin, if_neg hfin, if_pos hf, if_pos hf]
  obtain ⟨m1, m2⟩ := hmore 1 (by omega) (by omega) (by omega)
  rw [if_neg m1, if_neg (by rw [m2]; simp)]
  obtain ⟨q2, a2, l2, o2, c2, k2, e2⟩ := runStep_spec w hs a1 2 (fun p => runStep b 3 p (longRun b))
  rw [e2, k1]
  rw [o1] at o2
  rw [c1] at c2
  rw [k1] at k2
  by_cases hc2 : cnt = 2
  · have h4 : cnt < 4 := by omega
    refine hend 2 q2 (by rw [hshort h4, hc2]) hc2 (by omega) a2 l2 o2 c2 k2 _ ?_
    rw [k2]
    have hf : K + 1 + 1 = b.nblock ∨ unmasked b c (K + 1 + 1) ≠ ch := by
      by_cases hfin : K + 1 + 1 = b.nblock
      · exact Or.inl hfin
      · right
        have hs1 := hshort h4
        have hlt : K + 1 + 1 < t.length := by omega
        have hpl : 0 < (ps.flatMap Spec.run).length := by omega
        cases ps with
        | nil => simp at hpl
        | cons y ps' =>
          rw [hu _ hlt, show K + 1 + 1 = K + 2 from rfl, hafter 2 (by omega), hnext y (by simp)]
          exact r4 (by omega) y (by simp)
    rw [show K + 2 = K + 1 + 1 from rfl]
    by_cases hfin : K + 1 + 1 = b.nblock
    · rw [if_pos hfin, if_pos hfin]
    · have hf := hf.resolve_left hfin
      rw [if_neg hfin, if_neg hfin, if_pos hf, if_pos hf]
  obtain ⟨m1, m2⟩ := hmore 2 (by omega) (by omega) (by omega)
  rw [if_neg m1, if_neg (by rw [show K + 1 + 1 = K + 2 from rfl, m2]; simp)]
  obtain ⟨q3, a3, l3, o3, c3, k3, e3⟩ := runStep_spec w hs a2 3 (longRun b)
  rw [e3, k2]
  rw [o2] at o3
  rw [c2] at c3
  rw [k2] at k3
  by_cases hc3 : cnt = 3
  · have h4 : cnt < 4 := by omega
    refine hend 3 q3 (by rw [hshort h4, hc3]) hc3 (by omega) a3 l3 o3 c3 k3 _ ?_
    rw [k3]
    have hf : K + 1 + 1 + 1 = b.nblock ∨ unmasked b c (K + 1 + 1 + 1) ≠ ch := by
      by_cases hfin : K + 1 + 1 + 1 = b.nblock
      · exact Or.inl hfin
      · right
        have hs1 := hshort h4
        have hlt : K + 1 + 1 + 1 < t.length := by omega
        have hpl : 0 < (ps.flatMap Spec.run).length := by omega
        cases ps with
        | nil => simp at hpl
        | cons y ps' =>
          rw [hu _ hlt, show K + 1 + 1 + 1 = K + 3 from rfl, hafter 3 (by omega), hnext y (by simp)]
          exact r4 (by omega) y (by simp)
    rw [show K + 3 = K + 1 + 1 + 1 from rfl]
    by_cases hfin : K + 1 + 1 + 1 = b.nblock
    · rw [if_pos hfin, if_pos hfin]
    · have hf := hf.resolve_left hfin
      rw [if_neg hfin, if_neg hfin, if_pos hf, if_pos hf]
  obtain ⟨m1, m2⟩ := hmore 3 (by omega) (by omega) (by omega)
  rw [if_neg m1, if_neg (by rw [show K + 1 + 1 + 1 = K + 3 from rfl, m2]; simp)]
  have h4 : ¬ cnt < 4 := by omega
  have hrl : (Spec.run (ch, cnt)).length = 5 := by rw [Spec.run]; simp only; rw [if_neg h4]; simp
  obtain ⟨q4, e4, a4, s4⟩ := getSmall_spec w hs a3
  have hcount : unmasked b c (K + 4) = cnt - 4 := by
    rw [hu _ (by omega), hget, List.getD_eq_getElem?_getD, List.getElem?_append_left (by omega), Spec.run]
    simp only
    rw [if_neg h4]; rfl
  rw [longRun, e4]
  simp only [Out.bind]
  rw [show K + 1 + 1 + 1 + 1 = K + 4 from rfl, hcount, show cnt - 4 + 4 = cnt from by omega]
  obtain ⟨q5, e5, a5, s5⟩ := getSmall_spec w hs (a4.setLen cnt)
  rw [e5]
  simp only
  refine ⟨_, rfl, ⟨⟨K + 5, a5.setK0 _, by omega, hdrop 5 hrl⟩, ?_, r5, ?_⟩, ?_⟩
  · intro y hy
    have := hnonempty y hy
    simp only
    rw [show K + 1 + 1 + 1 + 1 + 1 = K + 5 from rfl, hu _ (by omega), hafter 5 hrl]
    exact hnext y hy
  · simp only
    have h1 := s5.outLen
    have h2 := s5.outCh
    simp only at h1 h2
    rw [h1, h2, s4.outCh, o3, Spec.unrun]
  · simp only
    have h1 := s5.crc
    simp only at h1
    rw [h1, s4.crc, c3]

theorem unRle_spec {b : Blk} {pos c : Nat → Nat} (w : Walk b pos c) (hs : b.nblock ≤ 100000 * b.size) {t : List Nat} (ht : Text b c t) (ps : List (Nat × Nat)) :
    ∀ (f avail : Nat) (p : Pos) (rem : List Nat), Pend b pos t ps p rem → ps.length < f →
    ∃ p' ps', unRle b f avail p = .ok (rem.take avail, some p') ∧ Pend b pos t ps' p' (rem.drop avail) ∧ ps'.length ≤ ps.length ∧
      p'.crc = (rem.take avail).foldl crcByte p.crc := by
  induction ps with
  | nil =>
    intro f avail p rem h hf
    obtain ⟨f, rfl⟩ : ∃ g, f = g + 1 := ⟨f - 1, by omega⟩
    obtain ⟨⟨K, hA, hK, hd⟩, _, _, hrem⟩ := h
    have hrem : rem = List.replicate p.outLen p.outCh := by simpa using hrem
    have hKn : K = t.length := by
      have := congrArg List.length hd
      rw [List.length_drop] at this
      simp at this; omega
    have htake : (Bzip.flush avail p).1 = rem.take avail := by rw [flush_fst, hrem, List.take_replicate]
    have hP : Pend b pos t [] (Bzip.flush avail p).2 (rem.drop avail) := by
      refine ⟨⟨K, hA.flush avail, hK, hd⟩, by simp, trivial, ?_⟩
      rw [hrem, List.drop_replicate]
      show _ = List.replicate (p.outLen - min avail p.outLen) p.outCh ++ _
      simp only [List.flatMap_nil, List.append_nil]
      congr 1; omega
    refine ⟨(Bzip.flush avail p).2, [], ?_, hP, Nat.le_refl _, by rw [← htake]; rfl⟩
    rw [unRle]
    by_cases h1 : avail = (Bzip.flush avail p).1.length
    · rw [if_pos h1, htake]
    · rw [if_neg h1, if_pos (by have := (hA.flush avail).used; have := ht.1; omega), htake]
  | cons q ps ih =>
    intro f avail p rem h hf
    obtain ⟨f, rfl⟩ : ∃ g, f = g + 1 := ⟨f - 1, by omega⟩
    obtain ⟨⟨K, hA, hK, hd⟩, hk0, hr, hrem⟩ := h
    rw [List.length_cons] at hf
    have hKn : K < t.length := by
      have := congrArg List.length hd
      rw [List.length_drop, List.flatMap_cons, run_ne q hr.2.1] at this
      simp at this; omega
    rw [unRle]
    have hfl : (Bzip.flush avail p).1.length = min avail p.outLen := by rw [flush_fst, List.length_replicate]
    by_cases h1 : avail = (Bzip.flush avail p).1.length
    · have hle : avail ≤ p.outLen := by omega
      rw [if_pos h1]
      have htake : (Bzip.flush avail p).1 = rem.take avail := by
        rw [flush_fst, hrem, List.take_append, List.take_replicate, List.length_replicate, Nat.sub_eq_zero_of_le hle, List.take_zero, List.append_nil]
      refine ⟨(Bzip.flush avail p).2, q :: ps, by rw [htake], ⟨⟨K, hA.flush avail, hK, hd⟩, hk0, hr, ?_⟩, Nat.le_refl _, by rw [← htake]; rfl⟩
      rw [hrem, List.drop_append, List.drop_replicate, List.length_replicate, Nat.sub_eq_zero_of_le hle, List.drop_zero]
      show _ = List.replicate (p.outLen - min avail p.outLen) p.outCh ++ _
      rw [Nat.min_eq_left hle]
    · have hlt : p.outLen < avail := by omega
      have hmin : min avail p.outLen = p.outLen := by omega
      have hu := (hA.flush avail).used
      have hn := ht.1
      rw [if_neg h1, if_neg (by omega), if_neg (by omega)]
      have hk0' : (Bzip.flush avail p).2.k0 = q.1 := hk0 q (by simp)
      obtain ⟨p1, e1, hP1, hcrc1⟩ := newRun_spec w hs ht (hA.flush avail) hd hk0' hr
      rw [e1]
      simp only [Out.bind]
      rw [if_neg (by simp)]
      obtain ⟨p2, ps2, e2, hP2, hl2, hcrc2⟩ := ih f (avail - (Bzip.flush avail p).1.length) p1 _ hP1 (by omega)
      rw [e2]
      simp only
      have hf1 : (Bzip.flush avail p).1 = List.replicate p.outLen p.outCh := by rw [flush_fst, hmin]
      have hrem2 : rem = List.replicate p.outLen p.outCh ++ (Spec.unrun q ++ ps.flatMap Spec.unrun) := by rw [hrem, List.flatMap_cons]
      have htake : rem.take avail = (Bzip.flush avail p).1 ++ (Spec.unrun q ++ ps.flatMap Spec.unrun).take (avail - (Bzip.flush avail p).1.length) := by
        rw [hrem2, List.take_append, List.take_of_length_le (by simp; omega), hf1, List.length_replicate]
      refine ⟨p2, ps2, by rw [htake], ?_, by rw [List.length_cons]; omega, ?_⟩
      · rw [hrem2, List.drop_append, List.drop_of_length_le (by simp; omega), List.nil_append, List.length_replicate]
        rw [hf1, List.length_replicate] at hP2
        exact hP2
      · rw [htake, List.foldl_append, hcrc2, hcrc1]; rfl

end Verif.Bzip
