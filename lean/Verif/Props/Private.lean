import Verif.Mkv.Private
/-!
Property theorems C137 and C138: content encoding and CodecPrivate of a track.
-/
set_option linter.unusedSimpArgs false
namespace Verif.Mkv
open Verif

theorem bit2 (s : Nat) : s &&& 2 ≠ 0 ↔ s.testBit 1 = true := by
  have h2 : Nat.testBit 2 1 = true := by decide
  constructor
  · intro h
    cases hs : s.testBit 1 with
    | true => rfl
    | false =>
      exfalso
      apply h
      apply Nat.eq_of_testBit_eq
      intro i
      rw [Nat.testBit_and, Nat.zero_testBit]
      by_cases hi : i = 1
      · subst hi; simp [hs]
      · have : Nat.testBit 2 i = false := by
          match i, hi with
          | 0, _ => rfl
          | i + 2, _ => simp [Nat.testBit_succ]
        simp [this]
  · intro hs h
    have := congrArg (fun n => n.testBit 1) h
    simp only [Nat.testBit_and, hs, h2, Nat.zero_testBit] at this
    exact absurd this (by decide)

/-- The CodecPrivate a player recovers from a track as stored: the encoding that says it covers the private data
(bit 2 of a scope that is there) is undone; an algorithm other than zlib and header stripping is not known. -/
def recover (z : Zlib) (t : PTrack) : Option Bytes :=
  match t.priv with
  | none => none
  | some q =>
    match t.enc with
    | some (some ⟨some s, some c⟩) =>
      if s.testBit 1 then
        match c.algo.getD 0 with
        | 0 => z.inflate q
        | 3 => some (c.settings.getD [] ++ q)
        | _ => none
      else some q
    | _ => some q

/-- C137 as hoped for: whatever compression settings a program makes on a track read from a file, when it is
written, the CodecPrivate recovered from it is still the same. -/
def PrivateKept : Prop :=
  ∀ (z : Zlib) (t : PTrack) (p : Bytes) (ops : List TOp), (∀ f, z.inflate (z.deflate f) = some f) →
    recover z t = some p → ∃ t', trun z (ops ++ [.update]) (readTrack t) = .ok t' ∧ recover z t' = some p

/-- A compressor that makes everything one byte longer. -/
def growing : Zlib := ⟨fun f => 7 :: f, fun q => match q with | 7 :: f => some f | _ => none⟩

/-- C137 fails: if the compressed CodecPrivate is longer than the original, the code reads past the buffer it
compressed into (matroskamain.c:2315-2321). -/
theorem C137_private_kept_counterexample : ¬ PrivateKept := by
  intro h
  obtain ⟨t', h1, _⟩ := h growing ⟨none, some [1], -1⟩ [1] [.algo 2 0] (fun _ => rfl) rfl
  have : trun growing ([TOp.algo 2 0] ++ [TOp.update]) (readTrack ⟨none, some [1], -1⟩) = .bad := by decide
  rw [this] at h1
  cases h1

/-- The same in general: every CodecPrivate that zlib does not shorten or keep is read out of bounds when it is to
be compressed, and compressing an empty one does not end. -/
theorem C137_incompressible_counterexample (z : Zlib) (t : PTrack) (p : Bytes) (scope : Nat)
    (hcur : t.cur = -1) (hp : t.priv = some p) (hs : scope.testBit 1 = true) :
    (p ≠ [] → p.length < (z.deflate p).length → trun z [.algo scope 0, .update] t = .bad) ∧
    (p = [] → trun z [.algo scope 0, .update] t = .hang) := by
  have hs2 : scope &&& 2 ≠ 0 := (bit2 scope).2 hs
  have hs0 : scope ≠ 0 := by intro h; simp [h] at hs
  constructor
  · intro h1 h2
    simp [trun, tstep, setAlgo, updateTrack, privAlgo, hs0, hs2, hcur, hp, h1, h2, Out.bind]
  · intro h1
    simp [trun, tstep, setAlgo, updateTrack, privAlgo, hs0, hs2, hcur, hp, h1, Out.bind]

/-- C137 fails for tracks that were made, not read: the field of a new TrackEntry is 0, which says "already
compressed with zlib". Asked to compress, the library stores the CodecPrivate as it is and announces zlib. -/
theorem C137_new_track_counterexample (z : Zlib) (p : Bytes) :
    ∃ t', trun z [.algo 3 0, .update] { newTrack with priv := some p } = .ok t' ∧
      t'.priv = some p ∧ t'.enc = some (some ⟨some 3, some ⟨some 0, none⟩⟩) ∧ recover z t' = z.inflate p := by
  refine ⟨⟨some (some ⟨some 3, some ⟨some 0, none⟩⟩), some p, 0⟩, ?_, rfl, rfl, rfl⟩
  rfl

/-- C137 fails for the algorithms the library does not write: asked to go from zlib to LZO, it stores the
uncompressed CodecPrivate and announces LZO. -/
theorem C137_other_algorithm_counterexample (z : Zlib) (p q : Bytes) (hq : z.inflate q = some p) :
    ∃ t', trun z [.algo 3 2, .update] (readTrack ⟨some (some ⟨some 3, some ⟨some 0, none⟩⟩), some q, -1⟩) = .ok t' ∧
      t'.priv = some p ∧ t'.enc = some (some ⟨some 3, some ⟨some 2, none⟩⟩) ∧ recover z t' = none := by
  refine ⟨⟨some (some ⟨some 3, some ⟨some 2, none⟩⟩), some p, -1⟩, ?_, rfl, rfl, rfl⟩
  have h1 : (setAlgo 3 2 (readTrack ⟨some (some ⟨some 3, some ⟨some 0, none⟩⟩), some q, -1⟩)).1 =
      ⟨some (some ⟨some 3, some ⟨some 2, none⟩⟩), some q, 0⟩ := rfl
  have h2 : privAlgo ⟨some (some ⟨some 3, some ⟨some 2, none⟩⟩), some q, 0⟩ = 2 := rfl
  simp [trun, tstep, h1, Out.bind, updateTrack, h2, hq, compNone]

/-- What the elements say about the private data: encoded with zlib, or not encoded. -/
def SaysZlib (t : PTrack) : Prop := ∃ s c, t.enc = some (some ⟨some s, some c⟩) ∧ s.testBit 1 = true ∧ c.algo.getD 0 = 0
def SaysPlain (t : PTrack) : Prop := ∀ s c, t.enc = some (some ⟨some s, some c⟩) → s.testBit 1 = false

/-- The stored bytes stand for `p`, as the field says. -/
def Holds (z : Zlib) (t : PTrack) (p : Bytes) : Prop :=
  (t.cur = -1 ∧ t.priv = some p) ∨ (t.cur = 0 ∧ ∃ q, t.priv = some q ∧ z.inflate q = some p)

/-- zlib can be used for `p`: it is not empty and does not get longer. -/
def Fit (z : Zlib) (p : Bytes) : Prop := p ≠ [] ∧ (z.deflate p).length ≤ p.length

/-- The invariant. -/
def Inv (z : Zlib) (t : PTrack) (p : Bytes) : Prop :=
  Holds z t p ∧ (SaysPlain t ∨ (SaysZlib t ∧ (t.cur = 0 ∨ Fit z p)))

theorem says_zlib (t : PTrack) (h : SaysZlib t) : privAlgo t = 0 := by
  obtain ⟨s, c, h1, h2, h3⟩ := h
  simp only [privAlgo, h1, compZlib, if_pos ((bit2 s).2 h2), h3]

theorem says_plain (t : PTrack) (h : SaysPlain t) : privAlgo t = -1 := by
  unfold privAlgo
  split
  · rename_i s c he
    rw [if_neg]
    intro hb
    rw [bit2, h s c he] at hb
    cases hb
  · rfl

theorem recover_zlib (z : Zlib) (t : PTrack) (q : Bytes) (h : SaysZlib t) (hq : t.priv = some q) : recover z t = z.inflate q := by
  obtain ⟨s, c, h1, h2, h3⟩ := h
  simp only [recover, hq, h1, if_pos h2, h3]

theorem recover_plain (z : Zlib) (t : PTrack) (q : Bytes) (h : SaysPlain t) (hq : t.priv = some q) : recover z t = some q := by
  simp only [recover, hq]
  split
  · rename_i s c he
    rw [if_neg (by rw [h s c he]; decide)]
  · rfl

theorem inv_update (z : Zlib) (hz : ∀ f, z.inflate (z.deflate f) = some f) (t : PTrack) (p : Bytes) (h : Inv z t p) :
    ∃ t', updateTrack z t = .ok t' ∧ Inv z t' p ∧ recover z t' = some p := by
  obtain ⟨hh, hp | ⟨hs, hfit⟩⟩ := h
  · have hpa := says_plain t hp
    rcases hh with ⟨hc, hq⟩ | ⟨hc, q, hq, hi⟩
    · refine ⟨t, by rw [updateTrack, if_pos (by rw [hpa, hc])], ⟨.inl ⟨hc, hq⟩, .inl hp⟩, recover_plain z t p hp hq⟩
    · refine ⟨{ t with priv := some p, cur := compNone }, ?_, ⟨.inl ⟨rfl, rfl⟩, .inl hp⟩, recover_plain z _ p hp rfl⟩
      rw [updateTrack, if_neg (by rw [hpa, hc]; decide), if_neg (by rw [hc]; decide)]
      simp [hq, hc, hi]
  · have hpa := says_zlib t hs
    rcases hh with ⟨hc, hq⟩ | ⟨hc, q, hq, hi⟩
    · obtain ⟨f1, f2⟩ : Fit z p := by
        rcases hfit with h0 | h
        · rw [hc] at h0; cases h0
        · exact h
      refine ⟨{ t with priv := some (z.deflate p), cur := compZlib }, ?_, ⟨.inr ⟨rfl, _, rfl, hz p⟩, .inr ⟨hs, .inl rfl⟩⟩, ?_⟩
      · rw [updateTrack, if_neg (by rw [hpa, hc]; decide), if_pos hc]
        simp only [hq, hpa, if_true]
        rw [if_neg f1, if_neg (by omega)]
      · rw [recover_zlib z { t with priv := some (z.deflate p), cur := compZlib } (z.deflate p) hs rfl, hz]
    · refine ⟨t, by rw [updateTrack, if_pos (by rw [hpa, hc])], ⟨.inr ⟨hc, q, hq, hi⟩, .inr ⟨hs, .inl hc⟩⟩, ?_⟩
      rw [recover_zlib z t q hs hq, hi]

theorem inv_run (z : Zlib) (hz : ∀ f, z.inflate (z.deflate f) = some f) (p : Bytes) : ∀ (ops : List TOp) (t : PTrack),
    (∀ s a, TOp.algo s a ∈ ops → s.testBit 1 = true → a = 0 ∧ Fit z p) → Inv z t p →
    ∃ t', trun z ops t = .ok t' ∧ Inv z t' p
  | [], t, _, h => ⟨t, rfl, h⟩
  | o :: os, t, ho, h => by
    have next : ∀ t1, tstep z t o = .ok t1 → Inv z t1 p → ∃ t', trun z (o :: os) t = .ok t' ∧ Inv z t' p := by
      intro t1 h1 h2
      obtain ⟨t', h3, h4⟩ := inv_run z hz p os t1 (fun s a hm => ho s a (List.mem_cons_of_mem _ hm)) h2
      exact ⟨t', by rw [trun, h1]; exact h3, h4⟩
    cases o with
    | update =>
      obtain ⟨t1, h1, h2, _⟩ := inv_update z hz t p h
      exact next t1 h1 h2
    | none => exact next _ rfl ⟨h.1, .inl (fun s c he => by cases he)⟩
    | header hd =>
      refine next _ rfl ⟨h.1, .inl (fun s c he => ?_)⟩
      simp only [setHeader] at he
      split at he <;> cases he
    | algo s a =>
      refine next _ rfl ⟨h.1, ?_⟩
      by_cases hs : s.testBit 1 = true
      · obtain ⟨rfl, hf⟩ := ho s a List.mem_cons_self hs
        have hs0 : s ≠ 0 := by intro h; simp [h] at hs
        exact .inr ⟨⟨s, ⟨some 0, none⟩, by simp [setAlgo, hs0], hs, rfl⟩, .inr hf⟩
      · refine .inl (fun s' c he => ?_)
        simp only [setAlgo] at he
        split at he
        · cases he; simpa using hs
        · cases he

/-- C137, what holds. For every track read from a file whose private data is not encoded or encoded with zlib, and
every sequence of compression settings and size computations, if the calls that cover the private data ask for zlib
and zlib does not lengthen the (non-empty) data, the track as then written gives back the same CodecPrivate. -/
theorem C137_private_kept_partial (z : Zlib) (hz : ∀ f, z.inflate (z.deflate f) = some f) (t : PTrack) (p : Bytes)
    (ops : List TOp) (hp : recover z t = some p)
    (hstart : ∀ s c, t.enc = some (some ⟨some s, some c⟩) → s.testBit 1 = true → c.algo.getD 0 = 0)
    (hops : ∀ s a, TOp.algo s a ∈ ops → s.testBit 1 = true → a = 0 ∧ p ≠ [] ∧ (z.deflate p).length ≤ p.length) :
    ∃ t', trun z (ops ++ [.update]) (readTrack t) = .ok t' ∧ recover z t' = some p := by
  have hinv : Inv z (readTrack t) p := by
    cases hq : t.priv with
    | none => rw [recover, hq] at hp; cases hp
    | some q =>
      by_cases hs : SaysZlib t
      · have hr : (readTrack t).cur = 0 := says_zlib t hs
        rw [recover_zlib z t q hs hq] at hp
        exact ⟨.inr ⟨hr, q, hq, hp⟩, .inr ⟨hs, .inl hr⟩⟩
      · have hpl : SaysPlain t := by
          intro s c he
          cases hb : s.testBit 1 with
          | false => rfl
          | true => exact absurd ⟨s, c, he, hb, hstart s c he hb⟩ hs
        rw [recover_plain z t q hpl hq] at hp
        cases hp
        exact ⟨.inl ⟨says_plain t hpl, hq⟩, .inl hpl⟩
  obtain ⟨t1, h1, h2⟩ := inv_run z hz p ops (readTrack t) hops hinv
  obtain ⟨t2, h3, _, h4⟩ := inv_update z hz t1 p h2
  refine ⟨t2, ?_, h4⟩
  have : ∀ (ops : List TOp) (t t1 : PTrack), trun z ops t = .ok t1 → trun z (ops ++ [.update]) t = updateTrack z t1 := by
    intro ops
    induction ops with
    | nil =>
      intro t t1 h
      cases h
      show (updateTrack z t).bind (trun z []) = _
      cases updateTrack z t <;> rfl
    | cons o os ih =>
      intro t t1 h
      rw [trun] at h
      rw [List.cons_append, trun]
      cases ho : tstep z t o with
      | ok t2 => rw [ho] at h; exact ih t2 t1 h
      | err => rw [ho] at h; cases h
      | bad => rw [ho] at h; cases h
      | hang => rw [ho] at h; cases h
  rw [this _ _ _ h1, h3]

/-- A run-length compressor for the example: two equal bytes in front become one behind a 0. -/
def toyZ : Zlib where
  deflate f := match f with
    | [5, 5, 5] => [0]
    | f => 1 :: f
  inflate q := match q with
    | [0] => some [5, 5, 5]
    | 1 :: f => some f
    | _ => none

example : (∀ f, toyZ.inflate (toyZ.deflate f) = some f) ∧ recover toyZ ⟨none, some [5, 5, 5], -1⟩ = some [5, 5, 5] ∧
    (toyZ.deflate [5, 5, 5]).length ≤ ([5, 5, 5] : Bytes).length ∧
    trun toyZ [.algo 3 0, .update, .header [1], .update, .algo 2 0, .update] (readTrack ⟨none, some [5, 5, 5], -1⟩)
      = .ok ⟨some (some ⟨some 2, some ⟨some 0, none⟩⟩), some [0], 0⟩ := by
  refine ⟨fun f => ?_, rfl, by decide, by decide⟩
  by_cases h : f = [5, 5, 5]
  · subst h; rfl
  · have : toyZ.deflate f = 1 :: f := by
      simp only [toyZ]
    rw [this]; rfl

/-- C137, algorithms the library cannot write: for every track read from a file with private data that is not encoded, and every
sequence of calls that asks for other algorithms than zlib only, the track as then written gives back the same CodecPrivate. (The scope
is changed so that it does not cover the private data; what it says about the blocks stays.) -/
theorem C137_unwritable_kept (z : Zlib) (t : PTrack) (p : Bytes) (ops : List TOp) (hp : t.priv = some p) (hplain : SaysPlain t)
    (hops : ∀ s a, TOp.algo s a ∈ ops → s.testBit 1 = true → a ≠ 0 ∧ a ≠ -1) :
    ∃ t1 t', trun z ops (readTrack t) = .ok t1 ∧ updateTrack z t1 = .ok t' ∧ recover z t' = some p ∧ blockAlgo t' = blockAlgo t1 := by
  have good : ∀ t : PTrack, (SaysPlain t ∨ ∃ s c, t.enc = some (some ⟨some s, some c⟩) ∧ s.testBit 1 = true ∧ c.algo.getD 0 ≠ 0 ∧ c.algo.getD 0 ≠ -1) →
      t.cur = -1 → t.priv = some p → ∃ t', updateTrack z t = .ok t' ∧ SaysPlain t' ∧ t'.cur = -1 ∧ t'.priv = some p ∧ blockAlgo t' = blockAlgo t := by
    intro t h hc hq
    rcases h with h | ⟨s, c, he, hs, h0, h1⟩
    · exact ⟨t, by rw [updateTrack, if_pos (by rw [says_plain t h, hc])], h, hc, hq, rfl⟩
    · have hpa : privAlgo t = c.algo.getD 0 := by simp only [privAlgo, he, if_pos ((bit2 s).2 hs), compZlib]
      refine ⟨flipScope t, ?_, ?_, ?_, ?_, ?_⟩
      · rw [updateTrack, if_neg (by rw [hpa, hc]; exact h1), if_pos hc]
        simp only [hq, hpa, if_neg h0]
      · intro s' c' h'
        simp only [flipScope, he, Option.some.injEq, CEnc.mk.injEq] at h'
        obtain ⟨rfl, _⟩ := h'
        rw [Nat.testBit_xor, hs]
        decide
      · simp only [flipScope, he, hc]
      · simp only [flipScope, he, hq]
      · have : (s ^^^ 2) % 2 = s % 2 := by
          have := Nat.testBit_xor (x := s) (y := 2) (i := 0)
          simp only [Nat.testBit_zero] at this
          have h2 : decide (2 % 2 = 1) = false := by decide
          rw [h2, Bool.xor_false, decide_eq_decide] at this
          omega
        simp only [flipScope, he, blockAlgo, Option.getD_some, Nat.and_one_is_mod, this]
  have run : ∀ (ops : List TOp), (∀ s a, TOp.algo s a ∈ ops → s.testBit 1 = true → a ≠ 0 ∧ a ≠ -1) → ∀ t : PTrack,
      (SaysPlain t ∨ ∃ s c, t.enc = some (some ⟨some s, some c⟩) ∧ s.testBit 1 = true ∧ c.algo.getD 0 ≠ 0 ∧ c.algo.getD 0 ≠ -1) →
      t.cur = -1 → t.priv = some p → ∃ t1 t', trun z ops t = .ok t1 ∧ updateTrack z t1 = .ok t' ∧ SaysPlain t' ∧ t'.priv = some p ∧ blockAlgo t' = blockAlgo t1 := by
    intro ops
    induction ops with
    | nil =>
      intro _ t h hc hq
      obtain ⟨t', h1, h2, _, h4, h5⟩ := good t h hc hq
      exact ⟨t, t', rfl, h1, h2, h4, h5⟩
    | cons o os ih =>
      intro ho t h hc hq
      have ih := ih fun s a hm => ho s a (List.mem_cons_of_mem _ hm)
      cases o with
      | update =>
        obtain ⟨t', h1, h2, h3, h4, _⟩ := good t h hc hq
        obtain ⟨a, b, h5, h6⟩ := ih t' (.inl h2) h3 h4
        exact ⟨a, b, by rw [trun, tstep, h1]; exact h5, h6⟩
      | none =>
        obtain ⟨a, b, h5, h6⟩ := ih (setNone t).1 (.inl (fun s c he => by cases he)) hc hq
        exact ⟨a, b, by rw [trun, tstep]; exact h5, h6⟩
      | header hd =>
        obtain ⟨a, b, h5, h6⟩ := ih (setHeader hd t).1 (.inl (fun s c he => by
          simp only [setHeader] at he
          split at he <;> cases he)) hc hq
        exact ⟨a, b, by rw [trun, tstep]; exact h5, h6⟩
      | algo s al =>
        obtain ⟨a, b, h5, h6⟩ := ih (setAlgo s al t).1 (by
          by_cases hs : s.testBit 1 = true
          · have hs0 : s ≠ 0 := by intro h; simp [h] at hs
            exact .inr ⟨s, ⟨some al, none⟩, by simp [setAlgo, hs0], hs, ho s al List.mem_cons_self hs⟩
          · refine .inl (fun s' c he => ?_)
            simp only [setAlgo] at he
            split at he
            · cases he; simpa using hs
            · cases he) hc hq
        exact ⟨a, b, by rw [trun, tstep]; exact h5, h6⟩
  obtain ⟨t1, t', h1, h2, h3, h4, h5⟩ := run ops hops (readTrack t) (.inl hplain) (says_plain t hplain) hp
  exact ⟨t1, t', h1, h2, recover_plain z t' p h3 h4, h5⟩

example : updateTrack toyZ (setAlgo 3 2 (readTrack ⟨none, some [9], -1⟩)).1 = .ok ⟨some (some ⟨some 1, some ⟨some 2, none⟩⟩), some [9], -1⟩ ∧
    SaysPlain ⟨none, some [9], -1⟩ := ⟨rfl, fun _ _ h => (by cases h)⟩

/-- C137, damaged data: a CodecPrivate that is said to be zlib data but is not is never changed, whatever is set. -/
theorem C137_damaged_kept (z : Zlib) (t : PTrack) (q : Bytes) (ops : List TOp) (hq : t.priv = some q) (hs : SaysZlib t) (hi : z.inflate q = none) :
    ∃ t', trun z ops (readTrack t) = .ok t' ∧ t'.priv = some q := by
  have run : ∀ (ops : List TOp) (t : PTrack), t.cur = 0 → t.priv = some q → ∃ t', trun z ops t = .ok t' ∧ t'.priv = some q := by
    intro ops
    induction ops with
    | nil => intro t _ hq; exact ⟨t, rfl, hq⟩
    | cons o os ih =>
      intro t hc hq
      cases o with
      | update =>
        have : updateTrack z t = .ok t := by
          unfold updateTrack
          by_cases h : privAlgo t = t.cur
          · rw [if_pos h]
          · rw [if_neg h, if_neg (by rw [hc]; decide)]
            simp [hq, hc, hi]
        obtain ⟨t', h1, h2⟩ := ih t hc hq
        exact ⟨t', by rw [trun, tstep, this]; exact h1, h2⟩
      | none => obtain ⟨t', h1, h2⟩ := ih (setNone t).1 hc hq; exact ⟨t', by rw [trun, tstep]; exact h1, h2⟩
      | header hd => obtain ⟨t', h1, h2⟩ := ih (setHeader hd t).1 hc hq; exact ⟨t', by rw [trun, tstep]; exact h1, h2⟩
      | algo s a => obtain ⟨t', h1, h2⟩ := ih (setAlgo s a t).1 hc hq; exact ⟨t', by rw [trun, tstep]; exact h1, h2⟩
  exact run ops (readTrack t) (says_zlib t hs) hq

example : trun toyZ [.none, .update, .algo 3 0, .update] (readTrack ⟨some (some ⟨some 3, some ⟨some 0, none⟩⟩), some [7], 0⟩)
    = .ok ⟨some (some ⟨some 3, some ⟨some 0, none⟩⟩), some [7], 0⟩ := by decide

/-- C138. What is set is what is reported for the blocks, whatever the track had before: the algorithm if the scope
covers blocks, header stripping if there are bytes to strip, and nothing otherwise; and each call tells whether
the track had encodings. -/
theorem C138_block_compression (t : PTrack) :
    (∀ scope algo, blockAlgo (setAlgo scope algo t).1 = (if scope % 2 = 1 then algo else -1)) ∧
    (∀ hdr, blockAlgo (setHeader hdr t).1 = if hdr = [] then -1 else 3) ∧
    blockAlgo (setNone t).1 = -1 ∧
    (∀ scope algo, (setAlgo scope algo t).2 = t.enc.isSome) ∧ (∀ hdr, (setHeader hdr t).2 = t.enc.isSome) ∧
    (setNone t).2 = t.enc.isSome := by
  refine ⟨fun scope algo => ?_, fun hdr => ?_, rfl, fun _ _ => rfl, fun _ => rfl, rfl⟩
  · simp only [setAlgo]
    by_cases h0 : scope = 0
    · subst h0; rfl
    rw [if_pos h0]
    simp only [blockAlgo, Option.getD_some, Nat.and_one_is_mod]
    by_cases h1 : scope % 2 = 1
    · rw [if_neg (by omega), if_pos h1]
    · rw [if_pos (by omega), if_neg h1]
  · simp only [setHeader]
    by_cases h0 : hdr = []
    · subst h0; rfl
    · rw [if_pos h0, if_neg h0]
      simp [blockAlgo]

example : blockAlgo (setAlgo 3 2 newTrack).1 = 2 ∧ blockAlgo (setAlgo 2 2 newTrack).1 = -1 := by decide

end Verif.Mkv
