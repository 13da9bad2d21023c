import Verif.Core.StreamLemmas
/-!
Properties C52-C55 and C81-C83: memory stream, buffered stream, skipping.
-/
namespace Verif.Core
open Verif

/-! ### C52, C53, C81: memory stream -/

/-- A memory stream just created. -/
def MS.new : MS := ⟨[], 0, 0⟩

/-- The conditions under which a call keeps the position within the block: blocks fit in
memory, writes ask for the number of bytes written, and seeks do not go below the virtual offset
of the stream. -/
def OpOk (s : MS) : MOp → Prop
  | .load bs => bs.length < 2 ^ 63
  | .offset _ => True
  | .rd _ => True
  | .wr bs h => h = true ∧ bs.length < 2 ^ 63
  | .seek v w => SeekOk s v w

/-- A history of calls each of which meets `OpOk`. -/
def HistOk : List MOp → MS → Prop
  | [], _ => True
  | op :: r, s => OpOk s op ∧ ∀ o s', memStep s op = some (o, s') → HistOk r s'

theorem memStep_wf (s : MS) (op : MOp) (hw : s.Wf) (ho : OpOk s op) :
    ∃ o s', memStep s op = some (o, s') ∧ s'.Wf := by
  cases op with
  | load bs => exact ⟨_, _, rfl, Nat.zero_le _, ho⟩
  | offset o => exact ⟨_, _, rfl, hw⟩
  | rd n =>
    rw [memStep, memRead_spec s n hw]
    refine ⟨_, _, rfl, ?_, hw.2⟩
    show s.pos + min n (s.data.length - s.pos) ≤ s.data.length
    have := hw.1; omega
  | wr bs h =>
    obtain ⟨rfl, hb⟩ := ho
    rw [memStep, memWrite_spec s bs hw hb]
    by_cases hf : s.pos + bs.length ≤ s.data.length
    · rw [if_pos hf]
      have hl : (s.data.take s.pos ++ bs ++ s.data.drop (s.pos + bs.length)).length = s.data.length := by
        simp only [List.length_append, List.length_take, List.length_drop]; omega
      refine ⟨_, _, rfl, ?_, ?_⟩
      · show s.pos + bs.length ≤ _
        rw [hl]; exact hf
      · rw [hl]; exact hw.2
    · rw [if_neg hf]; exact ⟨_, _, rfl, hw⟩
  | seek v w => exact ⟨_, _, rfl, (memSeek_spec s v w hw ho).1⟩

theorem memRun_wf (ops : List MOp) (s : MS) (hw : s.Wf) (h : HistOk ops s) :
    ∃ os s', memRun ops s = some (os, s') ∧ s'.Wf := by
  induction ops generalizing s with
  | nil => exact ⟨[], s, rfl, hw⟩
  | cons op r ih =>
    obtain ⟨o, s1, h1, h2⟩ := memStep_wf s op hw h.1
    obtain ⟨os, s2, h3, h4⟩ := ih s1 h2 (h.2 o s1 h1)
    refine ⟨o :: os, s2, ?_, h4⟩
    rw [memRun, h1]
    simp only
    rw [h3]

theorem new_wf : MS.new.Wf := ⟨Nat.le_refl _, by decide⟩

/-- C52 except for seeks below the virtual offset: after every such history no call touches
memory outside of the block, and a read delivers exactly the bytes from the old position on, as
many as asked for or as there are, advances by as many, and reports the end of file exactly when
there are fewer. -/
theorem C52_memory_read_partial (ops : List MOp) (h : HistOk ops MS.new) :
    ∃ os s, memRun ops MS.new = some (os, s) ∧ s.pos ≤ s.data.length ∧
      ∀ n, ∃ s', memRead s n = some ((s.data.drop s.pos).take n, decide (s.data.length - s.pos < n), s') ∧
        s'.pos = s.pos + ((s.data.drop s.pos).take n).length ∧ s'.data = s.data := by
  obtain ⟨os, s, h1, h2⟩ := memRun_wf ops MS.new new_wf h
  refine ⟨os, s, h1, h2.1, fun n => ⟨_, memRead_spec s n h2, ?_, rfl⟩⟩
  show s.pos + min n (s.data.length - s.pos) = _
  rw [List.length_take, List.length_drop]

/-- Without a virtual offset there is no such seek: every history of loading, reading, seeking
and writing (with blocks that fit in memory) is covered. -/
theorem C52_without_offset (ops : List MOp)
    (h : ∀ op ∈ ops, match op with
      | .load bs => bs.length < 2 ^ 63
      | .offset _ => False
      | .wr bs b => b = true ∧ bs.length < 2 ^ 63
      | _ => True) : HistOk ops MS.new := by
  suffices hh : ∀ s : MS, s.voff = 0 → HistOk ops s from hh _ rfl
  intro s hs
  induction ops generalizing s with
  | nil => trivial
  | cons op r ih =>
    have hop := h op List.mem_cons_self
    refine ⟨?_, fun o s' hst => ih (fun o ho => h o (List.mem_cons_of_mem _ ho)) s' ?_⟩
    · cases op with
      | load bs => exact hop
      | offset o => trivial
      | rd n => trivial
      | wr bs b => exact hop
      | seek v w =>
        show s.voff ≤ max 0 _
        rw [hs]; omega
    · cases op with
      | load bs => cases hst; exact hs
      | offset o => exact absurd hop id
      | rd n =>
        rw [memStep] at hst
        cases hr : memRead s n with
        | none => rw [hr] at hst; cases hst
        | some q =>
          rw [hr] at hst
          cases hst
          unfold memRead at hr
          simp only at hr
          generalize (if n > _ then _ else n) = k at hr
          by_cases hk : k = 0 ∨ s.pos + k ≤ s.data.length
          · rw [if_pos hk] at hr; cases hr; exact hs
          · rw [if_neg hk] at hr; cases hr
      | wr bs b =>
        rw [memStep] at hst
        unfold memWrite at hst
        split at hst
        · cases hst
        · split at hst
          · cases hst; exact hs
          · split at hst
            · cases hst; exact hs
            · cases hst
      | seek v w => cases hst; exact hs

/-- C52 is false with a virtual offset: a stream over 8 bytes at offset 100 accepts a seek to
50, and the next read takes bytes from before the block. -/
theorem C52_counterexample :
    memRun [.load [1, 2, 3, 4, 5, 6, 7, 8], .offset 100, .seek 50 .set, .rd 10] MS.new = none ∧
    memRun [.load [1, 2, 3, 4, 5, 6, 7, 8], .offset 100, .seek 50 .set] MS.new =
      some ([.none, .none, .at 50], ⟨[1, 2, 3, 4, 5, 6, 7, 8], 2 ^ 64 - 50, 100⟩) := by decide +kernel

example : memRun [.load [1, 2, 3, 4, 5], .rd 2, .seek (-1) .fin, .rd 4, .seek (-2) .cur, .rd 1] MS.new =
    some ([.none, .got [1, 2] false, .at 4, .got [5] true, .at 3, .got [4] false], ⟨[1, 2, 3, 4, 5], 4, 0⟩) := by
  decide +kernel

/-- C53 with a place for the number of bytes written: after every history as in C52, a write
stores all bytes at the position, leaves the others, advances and reports the number, when they
fit; otherwise it reports an error and changes nothing. -/
theorem C53_memory_write_partial (ops : List MOp) (h : HistOk ops MS.new) (bs : Bytes) (hb : bs.length < 2 ^ 63) :
    ∃ os s, memRun ops MS.new = some (os, s) ∧
      memWrite s bs true =
        if s.pos + bs.length ≤ s.data.length then
          some (bs.length, true, ⟨s.data.take s.pos ++ bs ++ s.data.drop (s.pos + bs.length), s.pos + bs.length, s.voff⟩)
        else some (0, false, s) := by
  obtain ⟨os, s, h1, h2⟩ := memRun_wf ops MS.new new_wf h
  exact ⟨os, s, h1, memWrite_spec s bs h2 hb⟩

/-- C53 is false for a caller that does not want the number: the write crashes. -/
theorem C53_counterexample : memRun [.load [1, 2, 3], .wr [9] false] MS.new = none := by decide +kernel

example : memRun [.load [1, 2, 3], .rd 1, .wr [8, 9, 10] true, .wr [7] true] MS.new =
    some ([.none, .got [1] false, .put 0 false, .put 1 true], ⟨[1, 7, 3], 2, 0⟩) := by decide +kernel

/-- C81. After every history as in C52, a seek that does not go below the virtual offset goes to
the place asked for, limited to the block; it returns that place, which is also what a later
inquiry returns, and reading goes on with the byte at that place of the block. -/
theorem C81_memory_seek (ops : List MOp) (h : HistOk ops MS.new) (v : Int) (w : Whence) :
    ∃ os s, memRun ops MS.new = some (os, s) ∧
      (SeekOk s v w →
        (memSeek s v w).1 = min (max 0 (seekTarget s v w)) (s.data.length + s.voff) ∧
        (memSeek (memSeek s v w).2 0 .cur).1 = (memSeek s v w).1 ∧
        ∀ n, ∃ s', memRead (memSeek s v w).2 n =
          some ((s.data.drop ((memSeek s v w).1 - s.voff).toNat).take n,
            decide (s.data.length - ((memSeek s v w).1 - s.voff).toNat < n), s')) := by
  obtain ⟨os, s, h1, h2⟩ := memRun_wf ops MS.new new_wf h
  refine ⟨os, s, h1, fun hs => ?_⟩
  obtain ⟨g1, g2, g3, g4, g5⟩ := memSeek_spec s v w h2 hs
  have hpos : ((memSeek s v w).1 - s.voff).toNat = (memSeek s v w).2.pos := by omega
  have g6 : (memSeek s v w).1 ≤ s.data.length + s.voff := by rw [g5]; omega
  refine ⟨g5, ?_, fun n => ?_⟩
  · have hs' : SeekOk (memSeek s v w).2 0 .cur := by
      unfold SeekOk seekTarget
      simp only
      omega
    obtain ⟨-, -, -, -, k5⟩ := memSeek_spec (memSeek s v w).2 0 .cur g1 hs'
    rw [k5, g2, g3]
    simp only [seekTarget]
    rw [g3]
    omega
  · rw [hpos]
    have := memRead_spec (memSeek s v w).2 n g1
    rw [g2] at this
    exact ⟨_, this⟩

example : SeekOk ⟨[1, 2, 3, 4, 5], 2, 3⟩ 4 .cur ∧
    memSeek ⟨[1, 2, 3, 4, 5], 2, 3⟩ 1 .cur = (6, ⟨[1, 2, 3, 4, 5], 3, 3⟩) := by
  unfold SeekOk; decide +kernel

/-! ### C82: skipping by reading -/

/-- C82. Skipping any number of bytes on a stream that cannot seek leaves the stream exactly
behind them, and the end of file is reported, with the number of bytes missing, exactly when the
stream has fewer. (`fuel` bounds the rounds of the loop; the theorem says that it ends.) -/
theorem C82_skip (n : Nat) (src : Bytes) : ∀ fuel, n < fuel →
    skipLoop fuel n src = (n - src.length, decide (src.length < n), src.drop n) :=
  fun fuel h => skipLoop_spec fuel n src h

example : skipLoop 7 4 [1, 2, 3, 4, 5, 6] = (0, false, [5, 6]) ∧ skipLoop 7 6 [1, 2, 3] = (3, true, []) := by
  decide +kernel

/-! ### C54, C55, C83: buffered stream -/

/-- Reads of the given lengths through a buffered stream. -/
def bufReads (N : Nat) : List Nat → BS → List (Bytes × Bool)
  | [], _ => []
  | n :: ns, s => ((bufRead N s n).1, (bufRead N s n).2.1) :: bufReads N ns (bufRead N s n).2.2

/-- What a stream with contents `src` delivers: the next bytes, and whether it ended before. -/
def plainReads : List Nat → Bytes → List (Bytes × Bool)
  | [], _ => []
  | n :: ns, src => (src.take n, decide (src.length < n)) :: plainReads ns (src.drop n)

theorem bufReads_eq (N : Nat) (hN : 0 < N) (ns : List Nat) : ∀ s : BS, s.RWf N →
    bufReads N ns s = plainReads ns s.rem := by
  induction ns with
  | nil => intro s _; rfl
  | cons n ns ih =>
    intro s hs
    obtain ⟨h1, h2, h3, h4⟩ := bufRead_spec N hN s n hs
    rw [bufReads, plainReads, ih _ h4, h1, h2, h3]

/-- C54. Every sequence of reads through a buffered stream delivers the same bytes, and reports
the end of file at the same reads, as reading the stream underneath directly. -/
theorem C54_buffered_reads (src : Bytes) (ns : List Nat) :
    bufReads bufSize ns (BS.new bufSize src) = plainReads ns src := by
  rw [bufReads_eq bufSize (by decide) ns _ ⟨by simp only [BS.new, List.length_replicate], by simp only [BS.new]; omega⟩]
  rfl

example : bufReads 4 [3, 3, 9, 2] (BS.new 4 [1, 2, 3, 4, 5, 6, 7, 8, 9, 10]) =
    [([1, 2, 3], false), ([4, 5, 6], false), ([7, 8, 9, 10], true), ([], true)] := by decide +kernel

/-- Writes through a buffered stream; each comes with the outcomes of the writes it makes to the
stream underneath. The result has the number of bytes each reports as written, and its success. -/
def bufWrites (N : Nat) (needs : Bool) : List (Bytes × (Nat → Bool)) → BS → Option (List (Nat × Bool) × BS)
  | [], s => some ([], s)
  | (bs, ok) :: r, s =>
    match bufWrite N needs ok s bs with
    | none => none
    | some (n, f, s') =>
      match bufWrites N needs r s' with
      | none => none
      | some (rs, s'') => some ((n, f) :: rs, s'')

/-- The bytes reported as written, in order. -/
def accepted : List (Bytes × (Nat → Bool)) → List (Nat × Bool) → Bytes
  | (bs, _) :: r, (n, _) :: rs => bs.take n ++ accepted r rs
  | _, _ => []

theorem bufWrites_spec (N : Nat) (hN : 0 < N) (ws : List (Bytes × (Nat → Bool))) : ∀ s : BS, s.WWf N →
    ∃ rs s', bufWrites N false ws s = some (rs, s') ∧ s'.WWf N ∧ s'.taken = s.taken ++ accepted ws rs ∧
      rs.length = ws.length ∧
      ∀ (i : Nat) (w : Bytes × (Nat → Bool)) (r : Nat × Bool), ws[i]? = some w → rs[i]? = some r → r.1 ≤ w.1.length ∧ (r.2 = true → r.1 = w.1.length) ∧
        (r.2 = false → ∃ j, w.2 j = false) := by
  induction ws with
  | nil => intro s h; exact ⟨[], s, rfl, h, (List.append_nil _).symm, rfl, fun i w r hw => by simp at hw⟩
  | cons w ws ih =>
    intro s h
    obtain ⟨bs, ok⟩ := w
    obtain ⟨n, f, s1, h1, h2, h3, h4, h5, h6⟩ := bufWriteLoop_spec N hN ok (bs.length + 1) 0 s bs (by omega) h
    obtain ⟨rs, s2, g1, g2, g3, g4, g5⟩ := ih s1 h2
    refine ⟨(n, f) :: rs, s2, ?_, g2, ?_, by rw [List.length_cons, List.length_cons, g4], ?_⟩
    · rw [bufWrites, bufWrite, h1]; simp only; rw [g1]
    · rw [g3, h4, accepted, List.append_assoc]
    · intro i w r hw hr
      cases i with
      | zero =>
        simp only [List.getElem?_cons_zero, Option.some.injEq] at hw hr
        subst hw; subst hr
        exact ⟨h3, h5, h6⟩
      | succ i =>
        simp only [List.getElem?_cons_succ] at hw hr
        exact g5 i w r hw hr

theorem new_WWf (N : Nat) (src : Bytes) : (BS.new N src).WWf N :=
  ⟨by simp only [BS.new, List.length_replicate], Nat.zero_le _⟩

/-- C55 for a stream underneath that can be written to without asking for the number of bytes
written, and whose last flush succeeds: for every sequence of writes and every pattern of failures
in between, the stream underneath has, after closing, exactly the bytes that were reported as
written, in order; a write that reports success took everything, and it fails only when the stream
underneath failed. -/
theorem C55_buffered_writes_partial (ws : List (Bytes × (Nat → Bool))) (src : Bytes) :
    ∃ rs s, bufWrites bufSize false ws (BS.new bufSize src) = some (rs, s) ∧ rs.length = ws.length ∧
      (∀ (i : Nat) (w : Bytes × (Nat → Bool)) (r : Nat × Bool), ws[i]? = some w → rs[i]? = some r → r.1 ≤ w.1.length ∧ (r.2 = true → r.1 = w.1.length) ∧
        (r.2 = false → ∃ j, w.2 j = false)) ∧
      ∃ s', bufClose false true s = some s' ∧ s'.sink = accepted ws rs := by
  obtain ⟨rs, s, h1, h2, h3, h4, h5⟩ := bufWrites_spec bufSize (by decide) ws _ (new_WWf bufSize src)
  refine ⟨rs, s, h1, h4, h5, ?_⟩
  obtain ⟨f, s', g1, g2, g3, g4, g5⟩ := bufFlush_spec bufSize true s h2
  have hf : f = true := by
    cases f with
    | true => rfl
    | false => exact absurd (g5 rfl).1 (by decide)
  refine ⟨_, by rw [bufClose, g1], ?_⟩
  show s'.sink = _
  rw [(g4 hf).2, h3]
  rfl

/-- In particular, when nothing underneath fails, it has all the bytes written. -/
theorem C55_no_failures (ws : List (Bytes × (Nat → Bool))) (hok : ∀ w ∈ ws, ∀ j, w.2 j = true) (src : Bytes) :
    ∃ rs s s', bufWrites bufSize false ws (BS.new bufSize src) = some (rs, s) ∧ bufClose false true s = some s' ∧
      s'.sink = (ws.map (·.1)).flatten := by
  obtain ⟨rs, s, h1, h2, h3, s', h4, h5⟩ := C55_buffered_writes_partial ws src
  refine ⟨rs, s, s', h1, h4, ?_⟩
  rw [h5]
  clear h1 h4 h5 s s'
  induction ws generalizing rs with
  | nil => rfl
  | cons w ws ih =>
    cases rs with
    | nil => cases h2
    | cons r rs =>
      obtain ⟨bs, ok⟩ := w
      obtain ⟨n, f⟩ := r
      have h0 := h3 0 _ _ rfl rfl
      have hn : n = bs.length := by
        cases f with
        | true => exact h0.2.1 rfl
        | false =>
          obtain ⟨j, hj⟩ := h0.2.2 rfl
          rw [hok _ List.mem_cons_self j] at hj
          cases hj
      rw [accepted, hn, List.take_length, List.map_cons, List.flatten_cons,
        ih (fun w hw => hok w (List.mem_cons_of_mem _ hw)) rs (by simpa using h2)
          (fun i w r hw hr => h3 (i + 1) w r hw hr)]

/-- C55 is false for a memory stream underneath: the flush passes no place for the number of
bytes written, which that stream writes to unconditionally. -/
theorem C55_counterexample_memory_stream :
    ((bufWrites bufSize true [([1], fun _ => true)] (BS.new bufSize [])).bind fun r => bufClose true true r.2) = none := by
  decide +kernel

/-- C55 is false when the flush on closing fails: the write reported one byte written, the byte
never arrives, and the close reports success. -/
theorem C55_counterexample_failing_close :
    ((bufWrites bufSize false [([1], fun _ => true)] (BS.new bufSize [])).bind fun r =>
      (bufClose false false r.2).map fun s => (r.1, s.sink, s.wpos)) = some ([(1, true)], [], 0) := by
  decide +kernel

example : (bufWrites 4 false [([1, 2, 3], fun _ => true), ([4, 5, 6], fun _ => false), ([7], fun _ => true)]
    (BS.new 4 [])).map (fun r => (r.1, r.2.sink, r.2.wpos)) =
      some ([(3, true), (1, false), (1, true)], [1, 2, 3, 4], 1) := by decide +kernel

/-- C83 is false: a buffered stream has one buffer for both directions. Three bytes are written,
then one is read; after closing the stream underneath has received what was read from it, not what
was written. -/
theorem C83_counterexample :
    ((bufWrites bufSize false [([1, 2, 3], fun _ => true)] (BS.new bufSize [7, 8, 9])).bind fun r =>
      (bufClose false true (bufRead bufSize r.2 1).2.2).map fun s => (r.1, s.sink)) =
        some ([(3, true)], [7, 8, 9]) := by decide +kernel

end Verif.Core
