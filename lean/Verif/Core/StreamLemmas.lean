import Verif.Core.Stream
/-!
Lemmas about the streams.
-/
set_option linter.unusedSimpArgs false
namespace Verif.Core
open Verif

theorem sizeT_small (x : Int) (h0 : 0 ≤ x) (h : x < 2 ^ 64) : sizeT x = x.toNat := by
  unfold sizeT
  rw [Int.emod_eq_of_lt h0 h]

/-! ### Memory stream -/

/-- A position within the block, and a block that fits in memory. -/
def MS.Wf (s : MS) : Prop := s.pos ≤ s.data.length ∧ s.data.length < 2 ^ 63

theorem memRead_spec (s : MS) (n : Nat) (h : s.Wf) :
    memRead s n = some ((s.data.drop s.pos).take n, decide (s.data.length - s.pos < n),
      { s with pos := s.pos + min n (s.data.length - s.pos) }) := by
  obtain ⟨h1, h2⟩ := h
  simp only [Nat.reducePow] at h2
  unfold memRead
  have e1 : sizeT ((s.data.length : Int) - s.pos) = s.data.length - s.pos := by
    rw [sizeT_small _ (by omega) (by simp only [Int.reducePow]; omega)]; omega
  simp only
  rw [e1]
  by_cases hn : n > s.data.length - s.pos
  · rw [if_pos hn, if_pos (by omega), List.take_of_length_le (i := n) (by rw [List.length_drop]; omega),
      List.take_of_length_le (by rw [List.length_drop]; omega), Nat.min_eq_right (by omega)]
    rw [sizeT_small _ (by omega) (by simp only [Int.reducePow]; omega)]
    simp only [Option.some.injEq, Prod.mk.injEq, true_and]
    congr 1
  · rw [if_neg hn, if_pos (by omega), Nat.min_eq_left (by omega)]
    rw [sizeT_small _ (by omega) (by simp only [Int.reducePow]; omega)]
    simp only [Option.some.injEq, Prod.mk.injEq, true_and]
    congr 1

theorem memWrite_spec (s : MS) (bs : Bytes) (h : s.Wf) (hb : bs.length < 2 ^ 63) :
    memWrite s bs true =
      if s.pos + bs.length ≤ s.data.length then
        some (bs.length, true, { s with data := s.data.take s.pos ++ bs ++ s.data.drop (s.pos + bs.length)
                                        pos := s.pos + bs.length })
      else some (0, false, s) := by
  obtain ⟨h1, h2⟩ := h
  simp only [Nat.reducePow] at h2 hb
  unfold memWrite
  rw [if_neg (by simp)]
  have e1 : sizeT ((bs.length : Int) + s.pos) = bs.length + s.pos := by
    rw [sizeT_small _ (by omega) (by simp only [Int.reducePow]; omega)]; omega
  have e2 : sizeT ((s.pos : Int) + bs.length) = s.pos + bs.length := by
    rw [sizeT_small _ (by omega) (by simp only [Int.reducePow]; omega)]; omega
  rw [e1, e2]
  by_cases hf : s.pos + bs.length ≤ s.data.length
  · rw [if_neg (by omega), if_pos (Or.inr hf), if_pos hf]
  · rw [if_pos (by omega), if_neg hf]

/-- A seek that does not go below the offset given to the stream. -/
def SeekOk (s : MS) (v : Int) (w : Whence) : Prop := s.voff ≤ max 0 (seekTarget s v w)

theorem memSeek_spec (s : MS) (v : Int) (w : Whence) (h : s.Wf) (hs : SeekOk s v w) :
    (memSeek s v w).2.Wf ∧ (memSeek s v w).2.data = s.data ∧ (memSeek s v w).2.voff = s.voff ∧
    ((memSeek s v w).2.pos : Int) + s.voff = (memSeek s v w).1 ∧
    (memSeek s v w).1 = min (max 0 (seekTarget s v w)) (s.data.length + s.voff) := by
  obtain ⟨h1, h2⟩ := h
  simp only [Nat.reducePow] at h2
  unfold SeekOk at hs
  have e3 : (memSeek s v w).1 = min (max 0 (seekTarget s v w)) (s.data.length + s.voff) := by
    unfold memSeek; simp only
    generalize seekTarget s v w = t
    split
    · split <;> omega
    · split <;> omega
  have e4 : (memSeek s v w).2.pos = ((memSeek s v w).1 - s.voff).toNat := by
    show sizeT _ = _
    refine sizeT_small _ ?_ ?_
    · show 0 ≤ (memSeek s v w).1 - s.voff
      rw [e3]; omega
    · show (memSeek s v w).1 - s.voff < 2 ^ 64
      rw [e3]; simp only [Int.reducePow]; omega
  refine ⟨⟨?_, ?_⟩, rfl, rfl, ?_, e3⟩
  · show (memSeek s v w).2.pos ≤ s.data.length
    rw [e4, e3]; omega
  · show s.data.length < 2 ^ 63
    simp only [Nat.reducePow]; omega
  · rw [e4, e3]; omega

/-! ### Skipping -/

theorem skipLoop_spec (fuel n : Nat) (src : Bytes) (h : n < fuel) :
    skipLoop fuel n src = (n - src.length, decide (src.length < n), src.drop n) := by
  induction fuel generalizing n src with
  | zero => omega
  | succ fuel ih =>
    unfold skipLoop
    by_cases hn : n > 0
    · rw [if_pos hn]
      simp only
      by_cases hl : src.length < min n 1024
      · rw [if_pos (show (srcRead src (min n 1024)).2.1 = true from decide_eq_true hl)]
        simp only [srcRead]
        rw [List.take_of_length_le (by omega), List.drop_eq_nil_of_le (by omega),
          List.drop_eq_nil_of_le (by omega), decide_eq_true (show src.length < n by omega)]
      · rw [if_neg (show ¬ (srcRead src (min n 1024)).2.1 = true by
          show ¬ decide (src.length < min n 1024) = true
          rw [decide_eq_true_eq]; exact hl)]
        simp only [srcRead]
        have hl2 : (src.take (min n 1024)).length = min n 1024 := by rw [List.length_take]; omega
        rw [hl2, ih _ _ (by omega), List.length_drop, List.drop_drop]
        have e1 : n - min n 1024 - (src.length - min n 1024) = n - src.length := by omega
        have e2 : min n 1024 + (n - min n 1024) = n := by omega
        have e3 : (src.length - min n 1024 < n - min n 1024) ↔ (src.length < n) := by omega
        rw [e1, e2, decide_eq_decide.2 e3]
    · rw [if_neg hn]
      have : n = 0 := by omega
      subst this
      simp

/-! ### Buffered reading -/

/-- What is still to be read: the rest of the buffer, then the stream underneath. -/
def BS.rem (s : BS) : Bytes := (s.mem.take s.rsize).drop s.rpos ++ s.src

/-- The buffer has `N` bytes and the part read into it lies within. -/
def BS.RWf (N : Nat) (s : BS) : Prop := s.mem.length = N ∧ s.rsize ≤ N

theorem copy_spec (s : BS) (k : Nat) (h1 : s.rsize ≤ s.mem.length) (hk : k ≤ s.rsize - s.rpos) :
    (s.mem.drop s.rpos).take k = s.rem.take k ∧ ({ s with rpos := s.rpos + k } : BS).rem = s.rem.drop k := by
  have hl : ((s.mem.take s.rsize).drop s.rpos).length = s.rsize - s.rpos := by
    rw [List.length_drop, List.length_take]; omega
  unfold BS.rem
  constructor
  · rw [List.take_append_of_le_length (by omega), List.drop_take, List.take_take, Nat.min_eq_left hk]
  · show (s.mem.take s.rsize).drop (s.rpos + k) ++ s.src = _
    rw [List.drop_append_of_le_length (by omega), List.drop_drop]

theorem bufReadLoop_spec (N : Nat) (hN : 0 < N) (fuel : Nat) (s : BS) (left : Nat) (hf : left < fuel) (hw : s.RWf N) :
    (bufReadLoop N fuel s left).1 = s.rem.take left ∧
    (bufReadLoop N fuel s left).2.2.2.rem = s.rem.drop left ∧
    (bufReadLoop N fuel s left).2.2.2.RWf N ∧
    ((bufReadLoop N fuel s left).2.2.1 = true → (bufReadLoop N fuel s left).2.1 = decide (s.rem.length < left)) ∧
    (s.rem.length < left → (bufReadLoop N fuel s left).2.1 = true) := by
  induction fuel generalizing s left with
  | zero => omega
  | succ fuel ih =>
    obtain ⟨w1, w2⟩ := hw
    unfold bufReadLoop
    by_cases hl : left > 0
    · rw [if_pos hl]
      have step : ∀ (s1 : BS) (b : Bool), s1.RWf N → s1.rpos < s1.rsize → s1.rem = s.rem →
          ((s1.mem.drop s1.rpos).take (min left (s1.rsize - s1.rpos)) ++
            (bufReadLoop N fuel { s1 with rpos := s1.rpos + min left (s1.rsize - s1.rpos) }
              (left - min left (s1.rsize - s1.rpos))).1 = s.rem.take left) ∧
          ((bufReadLoop N fuel { s1 with rpos := s1.rpos + min left (s1.rsize - s1.rpos) }
              (left - min left (s1.rsize - s1.rpos))).2.2.2.rem = s.rem.drop left) ∧
          ((bufReadLoop N fuel { s1 with rpos := s1.rpos + min left (s1.rsize - s1.rpos) }
              (left - min left (s1.rsize - s1.rpos))).2.2.2.RWf N) ∧
          ((bufReadLoop N fuel { s1 with rpos := s1.rpos + min left (s1.rsize - s1.rpos) }
              (left - min left (s1.rsize - s1.rpos))).2.2.1 = true →
            (bufReadLoop N fuel { s1 with rpos := s1.rpos + min left (s1.rsize - s1.rpos) }
              (left - min left (s1.rsize - s1.rpos))).2.1 = decide (s.rem.length < left) ∧
            left - min left (s1.rsize - s1.rpos) ≠ 0) ∧
          (s.rem.length < left → (bufReadLoop N fuel { s1 with rpos := s1.rpos + min left (s1.rsize - s1.rpos) }
              (left - min left (s1.rsize - s1.rpos))).2.1 = true ∧ left - min left (s1.rsize - s1.rpos) ≠ 0) := by
        intro s1 _ hw1 hp hr
        have hk : min left (s1.rsize - s1.rpos) ≤ s1.rsize - s1.rpos := Nat.min_le_right _ _
        have hk1 : min left (s1.rsize - s1.rpos) ≤ left := Nat.min_le_left _ _
        have hk0 : 0 < min left (s1.rsize - s1.rpos) := by omega
        obtain ⟨c1, c2⟩ := copy_spec s1 (min left (s1.rsize - s1.rpos)) (by rw [hw1.1]; exact hw1.2) hk
        have hlen : s1.rsize - s1.rpos ≤ s1.rem.length := by
          unfold BS.rem
          rw [List.length_append, List.length_drop, List.length_take, hw1.1]
          have := hw1.2; omega
        generalize hkk : min left (s1.rsize - s1.rpos) = k at *
        obtain ⟨i1, i2, i3, i4, i5⟩ := ih { s1 with rpos := s1.rpos + k } (left - k) (by omega) hw1
        rw [c2] at i1 i2 i4 i5
        have hdl : (s1.rem.drop k).length = s1.rem.length - k := List.length_drop
        refine ⟨?_, ?_, i3, ?_, ?_⟩
        · rw [c1, i1, ← hr]
          have := List.take_add (l := s1.rem) (i := k) (j := left - k)
          rw [show k + (left - k) = left by omega] at this
          rw [this]
        · rw [i2, ← hr, List.drop_drop, show k + (left - k) = left by omega]
        · intro hd
          refine ⟨?_, ?_⟩
          · rw [i4 hd, hdl, ← hr, decide_eq_decide]; omega
          · intro e
            rw [e] at hd
            have hb : (bufReadLoop N fuel { s1 with rpos := s1.rpos + k } 0).2.2.1 = false := by
              cases fuel <;> rfl
            rw [hb] at hd; cases hd
        · intro hlt
          rw [← hr] at hlt
          exact ⟨i5 (by rw [hdl]; omega), by omega⟩
      by_cases hb : s.rsize ≤ s.rpos
      · rw [if_pos hb]
        have hrem : s.rem = s.src := by
          unfold BS.rem
          rw [List.drop_eq_nil_of_le (by rw [List.length_take]; omega), List.nil_append]
        by_cases hN' : left > N
        · rw [if_pos hN']
          simp only [srcRead]
          rw [hrem]
          refine ⟨rfl, ?_, ⟨w1, w2⟩, fun _ => rfl, fun h => decide_eq_true h⟩
          show (s.mem.take s.rsize).drop s.rpos ++ s.src.drop left = _
          rw [List.drop_eq_nil_of_le (by rw [List.length_take]; omega), List.nil_append]
        · rw [if_neg hN']
          have hst : storeAt s.mem 0 (s.src.take N) = s.src.take N ++ s.mem.drop (s.src.take N).length := by
            unfold storeAt; simp
          have hlen : (s.src.take N).length ≤ N := by rw [List.length_take]; omega
          have hw1 : (bufFill N s).RWf N := by
            refine ⟨?_, hlen⟩
            show (storeAt s.mem 0 (s.src.take N)).length = N
            rw [hst, List.length_append, List.length_drop, w1]; omega
          have hr1 : (bufFill N s).rem = s.rem := by
            rw [hrem]
            show ((storeAt s.mem 0 (s.src.take N)).take (s.src.take N).length).drop 0 ++ s.src.drop N = _
            rw [hst, List.take_left' rfl, List.drop_zero, List.take_append_drop]
          by_cases h0 : (bufFill N s).rsize = 0
          · rw [if_pos h0]
            have hnil : s.src = [] := by
              change (s.src.take N).length = 0 at h0
              rw [List.length_take] at h0
              apply List.length_eq_zero_iff.1
              omega
            have hrn : s.rem = [] := hrem.trans hnil
            refine ⟨?_, ?_, hw1, fun h => (by cases h), ?_⟩
            · rw [hrn]; simp
            · rw [hr1, hrn]; simp
            · intro _
              show decide (s.src.length < N) = true
              rw [hnil]; exact decide_eq_true hN
          · rw [if_neg h0]
            simp only
            obtain ⟨t1, t2, t3, t4, t5⟩ := step _ true hw1 (by show 0 < (bufFill N s).rsize; omega) hr1
            refine ⟨t1, t2, t3, ?_, ?_⟩
            · intro hd
              rw [if_neg (t4 hd).2]
              exact (t4 hd).1
            · intro hlt
              rw [if_neg (t5 hlt).2]
              exact (t5 hlt).1
      · rw [if_neg hb]
        obtain ⟨t1, t2, t3, t4, t5⟩ := step s true ⟨w1, w2⟩ (by omega) rfl
        exact ⟨t1, t2, t3, fun h => (t4 h).1, fun h => (t5 h).1⟩
    · rw [if_neg hl]
      have : left = 0 := by omega
      subst this
      exact ⟨by simp, by simp, ⟨w1, w2⟩, by simp, fun h => by omega⟩

theorem bufRead_spec (N : Nat) (hN : 0 < N) (s : BS) (n : Nat) (hw : s.RWf N) :
    (bufRead N s n).1 = s.rem.take n ∧ (bufRead N s n).2.1 = decide (s.rem.length < n) ∧
    (bufRead N s n).2.2.rem = s.rem.drop n ∧ (bufRead N s n).2.2.RWf N := by
  obtain ⟨h1, h2, h3, h4, h5⟩ := bufReadLoop_spec N hN (n + 1) s n (by omega) hw
  refine ⟨h1, ?_, h2, h3⟩
  show (if (bufReadLoop N (n + 1) s n).2.2.1 then _ else _) = _
  by_cases hd : (bufReadLoop N (n + 1) s n).2.2.1 = true
  · rw [if_pos hd]; exact h4 hd
  · rw [if_neg hd, h1]
    by_cases hl : s.rem.length < n
    · rw [if_neg (by rw [List.length_take]; omega), h5 hl, decide_eq_true hl]
    · rw [if_pos (by rw [List.length_take]; omega), decide_eq_false hl]

/-! ### Buffered writing -/

/-- The buffer has `N` bytes and the part to be written lies within. -/
def BS.WWf (N : Nat) (s : BS) : Prop := s.mem.length = N ∧ s.wpos ≤ N

/-- All bytes the stream has taken: those passed on and those in the buffer. -/
def BS.taken (s : BS) : Bytes := s.sink ++ s.mem.take s.wpos

theorem bufFlush_spec (N : Nat) (ok : Bool) (s : BS) (hw : s.WWf N) :
    ∃ f s', bufFlush false ok s = some (f, s') ∧ s'.taken = s.taken ∧ s'.WWf N ∧
      (f = true → s'.wpos = 0 ∧ s'.sink = s.taken) ∧ (f = false → ok = false ∧ s' = s) := by
  unfold bufFlush
  by_cases h : s.wpos > 0
  · rw [if_pos h]
    unfold sinkWrite
    rw [if_neg (by simp)]
    cases ok
    · exact ⟨false, s, rfl, rfl, hw, by simp, fun _ => ⟨rfl, rfl⟩⟩
    · refine ⟨true, _, rfl, ?_, ⟨hw.1, Nat.zero_le _⟩, fun _ => ⟨rfl, rfl⟩, by simp⟩
      show (s.sink ++ s.mem.take s.wpos) ++ s.mem.take 0 = _
      rw [List.take_zero, List.append_nil]; rfl
  · rw [if_neg h]
    have h0 : s.wpos = 0 := by omega
    refine ⟨true, s, rfl, rfl, hw, fun _ => ⟨h0, ?_⟩, by simp⟩
    unfold BS.taken
    rw [h0, List.take_zero, List.append_nil]

theorem bufWriteLoop_spec (N : Nat) (hN : 0 < N) (ok : Nat → Bool) (fuel i : Nat) (s : BS) (bs : Bytes)
    (hf : bs.length < fuel) (hw : s.WWf N) :
    ∃ n f s', bufWriteLoop N false ok fuel i s bs = some (n, f, s') ∧ s'.WWf N ∧ n ≤ bs.length ∧
      s'.taken = s.taken ++ bs.take n ∧ (f = true → n = bs.length) ∧ (f = false → ∃ j, ok j = false) := by
  induction fuel generalizing i s bs with
  | zero => omega
  | succ fuel ih =>
    unfold bufWriteLoop
    by_cases hb : bs.length > 0
    · rw [if_pos hb]
      have hfl : ∃ f s1, (if s.wpos ≥ N then bufFlush false (ok i) s else some (true, s)) = some (f, s1) ∧
          s1.taken = s.taken ∧ s1.WWf N ∧ (f = true → s1.wpos < N) ∧ (f = false → ok i = false) := by
        by_cases hN' : s.wpos ≥ N
        · rw [if_pos hN']
          obtain ⟨f, s1, e1, e2, e3, e4, e5⟩ := bufFlush_spec N (ok i) s hw
          exact ⟨f, s1, e1, e2, e3, fun h => by rw [(e4 h).1]; exact hN, fun h => (e5 h).1⟩
        · rw [if_neg hN']
          exact ⟨true, s, rfl, rfl, hw, fun _ => by omega, by simp⟩
      obtain ⟨f, s1, e1, e2, e3, e4, e5⟩ := hfl
      rw [e1]
      cases f
      · refine ⟨0, false, s1, rfl, e3, Nat.zero_le _, ?_, by simp, fun _ => ⟨i, e5 rfl⟩⟩
        rw [e2, List.take_zero, List.append_nil]
      · have e4' := e4 rfl
        simp only
        by_cases hd : s1.wpos = 0 ∧ bs.length > N
        · rw [if_pos hd]
          unfold sinkWrite
          rw [if_neg (by simp)]
          have ht : s1.taken = s1.sink := by
            unfold BS.taken; rw [hd.1, List.take_zero, List.append_nil]
          cases hok : ok (i + 1)
          · refine ⟨0, false, s1, rfl, e3, Nat.zero_le _, ?_, by simp, fun _ => ⟨_, hok⟩⟩
            rw [e2, List.take_zero, List.append_nil]
          · refine ⟨bs.length, true, _, rfl, e3, Nat.le_refl _, ?_, fun _ => rfl, by simp⟩
            show (s1.sink ++ bs) ++ s1.mem.take s1.wpos = _
            rw [hd.1, List.take_zero, List.append_nil, List.take_length, ← ht, e2]
        · rw [if_neg hd]
          have hk1 : min bs.length (N - s1.wpos) ≤ bs.length := Nat.min_le_left _ _
          have hk2 : min bs.length (N - s1.wpos) ≤ N - s1.wpos := Nat.min_le_right _ _
          have hk0 : 0 < min bs.length (N - s1.wpos) := by omega
          generalize hkk : min bs.length (N - s1.wpos) = k at *
          have hlk : (bs.take k).length = k := by rw [List.length_take]; omega
          have hst : (storeAt s1.mem s1.wpos (bs.take k)).length = N := by
            unfold storeAt
            rw [List.length_append, List.length_append, List.length_take, List.length_drop, hlk, e3.1]; omega
          have hw2 : ({ s1 with mem := storeAt s1.mem s1.wpos (bs.take k), wpos := s1.wpos + k } : BS).WWf N :=
            ⟨hst, by show s1.wpos + k ≤ N; omega⟩
          have ht2 : ({ s1 with mem := storeAt s1.mem s1.wpos (bs.take k), wpos := s1.wpos + k } : BS).taken =
              s.taken ++ bs.take k := by
            show s1.sink ++ (storeAt s1.mem s1.wpos (bs.take k)).take (s1.wpos + k) = _
            rw [← e2]
            unfold BS.taken storeAt
            rw [List.append_assoc s1.sink]
            congr 1
            refine List.take_left' ?_
            rw [List.length_append, List.length_take, hlk, e3.1]; omega
          obtain ⟨n, f, s2, i1, i2, i3, i4, i5, i6⟩ := ih (i + 2)
            { s1 with mem := storeAt s1.mem s1.wpos (bs.take k), wpos := s1.wpos + k } (bs.drop k)
            (by rw [List.length_drop]; omega) hw2
          rw [List.length_drop] at i3 i5
          rw [i1]
          refine ⟨k + n, f, s2, rfl, i2, by omega, ?_, fun h => by rw [i5 h]; omega, i6⟩
          rw [i4, ht2, List.append_assoc, List.take_add]
    · rw [if_neg hb]
      refine ⟨0, true, s, rfl, hw, Nat.zero_le _, ?_, fun _ => by omega, by simp⟩
      rw [List.take_zero, List.append_nil]

end Verif.Core
