import Verif.Mkclean.Encoding
import Verif.Props.Private
import Verif.Mkclean.Setup
/-!
Property theorems C183 to C186: the content encodings of the tracks mkclean writes.
-/
set_option linter.unusedSimpArgs false
namespace Verif.Enc
open Verif Verif.Mkv

/-! ### The choice -/

/-- Computing the size does not change what is announced for the blocks. -/
theorem update_block (z : Zlib) {t t' : PTrack} (h : updateTrack z t = .ok t') : blockAlgo t' = blockAlgo t := by
  have hflip : blockAlgo (flipScope t) = blockAlgo t := by
    obtain ⟨enc, priv, cur⟩ := t
    match enc with
    | none => rfl
    | some none => rfl
    | some (some ⟨none, c⟩) => rfl
    | some (some ⟨some s, c⟩) =>
      simp only [flipScope, blockAlgo, Option.getD_some, Nat.and_one_is_mod]
      have : (s ^^^ 2) % 2 = s % 2 := by
        have := Nat.xor_mod_two_pow (a := s) (b := 2) (n := 1)
        simpa using this
      rw [this]
  unfold updateTrack at h
  split at h
  · cases h; rfl
  · split at h
    · split at h
      · split at h
        · split at h
          · cases h
          · split at h
            · cases h
            · cases h; rfl
        · cases h; exact hflip
      · cases h; exact hflip
    · split at h
      · split at h
        · split at h
          · cases h; rfl
          · cases h; rfl
        · cases h; rfl
      · cases h; rfl

theorem or_two (s : Nat) : (s ||| 2) % 2 = s % 2 := by
  have := Nat.or_mod_two_pow (a := s) (b := 2) (n := 1)
  simp only [Nat.pow_one] at this
  rw [this]
  rcases Nat.mod_two_eq_zero_or_one s with h | h <;> rw [h] <;> rfl

/-- The scope of the source's encoding says the blocks are covered (it does unless told otherwise). -/
def CoversBlocks (t : PTrack) : Prop := ∀ e s, t.enc = some (some e) → e.scope = some s → s % 2 = 1

/-- The CodecPrivate gets shorter by more than `n` bytes. -/
def Shrinks (z : Zlib) (t : PTrack) (n : Nat) : Prop := ∃ p, t.priv = some p ∧ (z.deflate p).length + n < p.length

theorem start_priv_none {o : Opts} {k : Trk} : (start o k).priv = if k.t.priv = some [] then none else k.t.priv := by
  unfold start
  cases exempt o k <;> simp <;> split <;> simp_all

theorem start_enc {o : Opts} {k : Trk} : (start o k).enc = if exempt o k then none else k.t.enc := by
  unfold start
  cases exempt o k <;> simp <;> split <;> simp_all

theorem start_cur {o : Opts} {k : Trk} : (start o k).cur = k.t.cur := by
  unfold start
  cases exempt o k <;> simp <;> split <;> simp_all

theorem start_shrinks {z : Zlib} {o : Opts} {k : Trk} {n : Nat} :
    saves z (start o k) n = true ↔ Shrinks z k.t n := by
  unfold saves
  rw [start_priv_none]
  unfold Shrinks
  by_cases h : k.t.priv = some []
  · rw [if_pos h, h]
    simp
  · rw [if_neg h]
    cases k.t.priv with
    | none => simp
    | some p => simp

theorem worth_iff (z : Zlib) (o : Opts) (k : Trk) : worth z o k = true ↔
    (o.optimize = true ∨ first o k ≠ -1) ∧ first o k ≠ 3 ∧ scope o k ≠ 2 ∧ Shrinks z k.t (extra o k) := by
  unfold worth
  rw [Bool.and_eq_true, Bool.and_eq_true, Bool.and_eq_true, start_shrinks]
  simp [compNone, compStrip, and_assoc]

/-! ### C183: the CodecPrivate -/

/-- The scope reaches the private data although nothing is compressed (as it may with encryption). -/
def PrivateEncrypted (t : PTrack) : Prop := ∃ s, t.enc = some (some ⟨some s, none⟩) ∧ s.testBit 1 = true

/-- C183 as hoped for: whatever the options, a player gets the same CodecPrivate from the output as from the source. -/
def PrivateSame : Prop :=
  ∀ (z : Zlib) (o : Opts) (k : Trk) (t : PTrack) (p : Bytes), (∀ f, z.inflate (z.deflate f) = some f) → k.t = readTrack t →
    recover z t = some p → p ≠ [] → ∃ t', written z o k = .ok t' ∧ recover z t' = some p

theorem scope_bit (o : Opts) (k : Trk) (h : (scope o k).testBit 1 = true) :
    ∃ s c, k.t.enc = some (some ⟨some s, c⟩) ∧ s.testBit 1 = true := by
  unfold scope at h
  split at h
  · simp at h
  · rw [start_enc] at h
    by_cases he : exempt o k = true
    · rw [if_pos he] at h; exact absurd h (by decide)
    · rw [if_neg he] at h
      split at h
      · rename_i e hk
        obtain ⟨sc, c⟩ := e
        cases sc with
        | none => exact absurd (show (1 : Nat).testBit 1 = true from h) (by decide)
        | some s => exact ⟨s, c, hk, h⟩
      · exact absurd h (by decide)

/-- C183, what holds. For every setting and every track of the source whose private data is stored plainly or with zlib, and is
not said to be encrypted, the track written gives back the same CodecPrivate. -/
theorem C183_private_same_partial (z : Zlib) (hz : ∀ f, z.inflate (z.deflate f) = some f) (o : Opts) (k : Trk) (t : PTrack) (p : Bytes)
    (hk : k.t = readTrack t) (hr : recover z t = some p) (hne : t.priv ≠ some [])
    (hzlib : ∀ s c, t.enc = some (some ⟨some s, some c⟩) → s.testBit 1 = true → c.algo.getD 0 = 0)
    (henc : ¬ PrivateEncrypted t) :
    ∃ t', written z o k = .ok t' ∧ recover z t' = some p := by
  have hkp : k.t.priv = t.priv := by rw [hk]; rfl
  have hke : k.t.enc = t.enc := by rw [hk]; rfl
  have hkc : k.t.cur = privAlgo t := by rw [hk]; rfl
  have hpriv : (start o k).priv = t.priv := by rw [start_priv_none, hkp, if_neg hne]
  have hcur : (start o k).cur = privAlgo t := by rw [start_cur, hkc]
  have hholds : Holds z (start o k) p ∧ (privAlgo t = 0 ∨ (privAlgo t = -1 ∧ t.priv = some p ∧ SaysPlain t)) := by
    cases hq : t.priv with
    | none => rw [recover, hq] at hr; cases hr
    | some q =>
      by_cases hs : SaysZlib t
      · rw [recover_zlib z t q hs hq] at hr
        have h0 := says_zlib t hs
        exact ⟨.inr ⟨by rw [hcur, h0], q, by rw [hpriv, hq], hr⟩, .inl h0⟩
      · have hpl : SaysPlain t := by
          intro s c he
          cases hb : s.testBit 1 with
          | false => rfl
          | true => exact absurd ⟨s, c, he, hb, hzlib s c he hb⟩ hs
        rw [recover_plain z t q hpl hq] at hr
        cases hr
        have h1 := says_plain t hpl
        exact ⟨.inl ⟨by rw [hcur, h1], by rw [hpriv, hq]⟩, .inr ⟨h1, rfl, hpl⟩⟩
  obtain ⟨hh, hcase⟩ := hholds
  have hinv : Inv z (apply z o k) p := by
    unfold apply
    dsimp only
    split
    · -- zlib
      by_cases hbit : (chosen z o k).2.testBit 1 = true
      · have hne0 : (chosen z o k).2 ≠ 0 := by intro h0; rw [h0] at hbit; exact absurd hbit (by decide)
        refine ⟨hh, .inr ⟨⟨(chosen z o k).2, ⟨some 0, none⟩, ?_, hbit, rfl⟩, ?_⟩⟩
        · simp only [setAlgo, if_pos hne0]
        · rcases hcase with h0 | ⟨h1, hpp, hpl⟩
          · exact .inl (by show (start o k).cur = 0; rw [hcur, h0])
          · right
            unfold chosen at hbit
            split at hbit
            · rename_i hw
              obtain ⟨_, _, _, p', hp', hlen⟩ := (worth_iff z o k).1 hw
              rw [hkp, hpp] at hp'
              cases hp'
              refine ⟨?_, by omega⟩
              intro hp0
              rw [hp0] at hlen
              simp at hlen
            · exfalso
              obtain ⟨s, c, hs, hb⟩ := scope_bit o k hbit
              rw [hke] at hs
              cases c with
              | none => exact henc ⟨s, hs, hb⟩
              | some c => rw [hpl s c hs] at hb; cases hb
      · refine ⟨hh, .inl ?_⟩
        intro s c he
        simp only [setAlgo] at he
        split at he
        · cases he
          simpa using hbit
        · cases he
    · split
      · split
        · refine ⟨hh, .inl ?_⟩
          intro s c he
          simp only [setHeader] at he
          split at he <;> cases he
        · refine ⟨hh, ?_⟩
          rcases hcase with h0 | ⟨h1, hpp, hpl⟩
          · by_cases hx : exempt o k = true
            · left
              intro s c he
              rw [start_enc, if_pos hx] at he
              cases he
            · by_cases hs : SaysZlib t
              · right
                refine ⟨?_, .inl (by rw [hcur, h0])⟩
                obtain ⟨s, c, h1, h2, h3⟩ := hs
                exact ⟨s, c, by rw [start_enc, if_neg hx, hke, h1], h2, h3⟩
              · left
                intro s c he
                rw [start_enc, if_neg hx, hke] at he
                cases hb : s.testBit 1 with
                | false => rfl
                | true => exact absurd ⟨s, c, he, hb, hzlib s c he hb⟩ hs
          · left
            intro s c he
            rw [start_enc] at he
            split at he
            · cases he
            · rw [hke] at he
              exact hpl s c he
      · refine ⟨hh, .inl ?_⟩
        intro s c he
        cases he
  obtain ⟨t2, h3, _, h4⟩ := inv_update z hz _ p hinv
  exact ⟨t2, h3, h4⟩

/-- C183, an empty CodecPrivate is dropped, and one that is not there does not appear. -/
theorem C183_empty_dropped (z : Zlib) (o : Opts) (k : Trk) (h : k.t.priv = some [] ∨ k.t.priv = none) :
    ∃ t', written z o k = .ok t' ∧ t'.priv = none := by
  have hs : (start o k).priv = none := by
    rw [start_priv_none]
    rcases h with h | h <;> simp [h]
  have ha : (apply z o k).priv = none := by
    unfold apply
    dsimp only
    split
    · simpa [setAlgo] using hs
    · split
      · split
        · simpa [setHeader] using hs
        · exact hs
      · simpa [setNone] using hs
  unfold written updateTrack
  rw [ha]
  split
  · exact ⟨_, rfl, ha⟩
  · split
    · refine ⟨_, rfl, ?_⟩
      unfold flipScope
      split
      · exact ha
      · exact ha
    · exact ⟨_, rfl, rfl⟩

/-- C183 fails: a PCM track said to be encrypted with its private data, cleaned with `--optimize`, has its CodecPrivate compressed
even though it gets longer, and the copy reads past the buffer. -/
theorem C183_counterexample : ¬ PrivateSame := by
  intro h
  have hz : ∀ f, growing.inflate (growing.deflate f) = some f := fun _ => rfl
  obtain ⟨t', h1, _⟩ := h growing { optimize := true } ⟨Url.lit "A_PCM/INT/LIT", false, [], readTrack ⟨some (some ⟨some 3, none⟩), some [1, 2], 0⟩⟩
    ⟨some (some ⟨some 3, none⟩), some [1, 2], 0⟩ [1, 2] hz rfl rfl (by decide)
  revert h1
  have : written growing { optimize := true } ⟨Url.lit "A_PCM/INT/LIT", false, [], readTrack ⟨some (some ⟨some 3, none⟩), some [1, 2], 0⟩⟩ = .bad := by
    decide +kernel
  rw [this]
  intro h1
  cases h1

/-- C183 fails too for private data compressed with bzlib: it is announced as zlib without a change (`z` need not know it). -/
theorem C183_bzlib_counterexample (z : Zlib) (codec : Url.Str) (q : Bytes) (hq : q ≠ []) (hlen : q.length ≤ (z.deflate q).length) :
    written z {} ⟨codec, false, [], readTrack ⟨some (some ⟨some 3, some ⟨some 1, none⟩⟩), some q, 0⟩⟩ =
      .ok ⟨some (some ⟨some 3, some ⟨some 0, none⟩⟩), some q, 1⟩ := by
  show written z {} ⟨codec, false, [], ⟨some (some ⟨some 3, some ⟨some 1, none⟩⟩), some q, 1⟩⟩ = _
  have hf : first {} ⟨codec, false, [], ⟨some (some ⟨some 3, some ⟨some 1, none⟩⟩), some q, 1⟩⟩ = 1 := by
    simp [first, start, exempt, searching, readTrack, hq, blockAlgo]
  have hs : scope {} ⟨codec, false, [], ⟨some (some ⟨some 3, some ⟨some 1, none⟩⟩), some q, 1⟩⟩ = 3 := by
    simp [scope, hf, start, exempt, searching, readTrack, hq, compNone]
  have hw : worth z {} ⟨codec, false, [], ⟨some (some ⟨some 3, some ⟨some 1, none⟩⟩), some q, 1⟩⟩ = false := by
    rw [Bool.eq_false_iff]
    intro hw
    obtain ⟨_, _, _, p, hp, hl⟩ := (worth_iff _ _ _).1 hw
    cases hp
    omega
  have ha : apply z {} ⟨codec, false, [], ⟨some (some ⟨some 3, some ⟨some 1, none⟩⟩), some q, 1⟩⟩ =
      ⟨some (some ⟨some 3, some ⟨some 0, none⟩⟩), some q, 1⟩ := by
    simp [apply, chosen, hw, hf, hs, setAlgo, start, exempt, searching, readTrack, hq, privAlgo, compZlib, compNone, compStrip]
  unfold written
  rw [ha]
  simp [updateTrack, privAlgo, compNone, compZlib]

example : recover toyZ ⟨some (some ⟨some 3, some ⟨some 0, none⟩⟩), some [0], 0⟩ = some [5, 5, 5] ∧
    ¬ PrivateEncrypted ⟨some (some ⟨some 3, some ⟨some 0, none⟩⟩), some [0], 0⟩ ∧
    written toyZ { optimize := true } ⟨Url.lit "V_MPEG4/ISO/AVC", true, [0, 0], readTrack ⟨some (some ⟨some 3, some ⟨some 0, none⟩⟩), some [0], 0⟩⟩ =
      .ok ⟨some (some ⟨none, some ⟨some 3, some [0, 0]⟩⟩), some [5, 5, 5], -1⟩ := by
  refine ⟨by decide +kernel, ?_, by decide +kernel⟩
  rintro ⟨s, h, _⟩
  cases h

/-! ### C184: the compression of the blocks without options -/

/-- What is announced for the blocks of the track written, in terms of the choice. -/
theorem written_block (z : Zlib) (o : Opts) (k : Trk) {t' : PTrack} (h : written z o k = .ok t') :
    blockAlgo t' = if (chosen z o k).1 = 0 ∨ (chosen z o k).1 = 1 ∨ (chosen z o k).1 = 2 then (if (chosen z o k).2 % 2 = 1 then 0 else -1)
      else if (chosen z o k).1 = 3 then (if o.optimize then (if kept o k = [] then -1 else 3) else blockAlgo (start o k))
      else -1 := by
  rw [update_block z h]
  unfold apply
  simp only [compZlib, compStrip]
  split
  · rw [(C138_block_compression _).1]
  · split
    · split
      · rw [(C138_block_compression _).2.1]
      · rfl
    · rw [(C138_block_compression _).2.2.1]

theorem block_scope (o : Opts) (k : Trk) (h : blockAlgo (start o k) ≠ -1) : ∀ e, (start o k).enc = some (some e) → e.scope.getD 1 % 2 = 1 := by
  intro e he
  simp only [blockAlgo, he, compNone, Nat.and_one_is_mod] at h
  split at h
  · exact absurd rfl h
  · omega

/-- C184 as hoped for: without `--optimize` and `--no-optimize` the frames keep their kind of compression (1 and 2, bzlib and LZO, become
zlib). -/
def KindKept : Prop :=
  ∀ (z : Zlib) (o : Opts) (k : Trk) (t' : PTrack), o.optimize = false → o.unOptimize = false → written z o k = .ok t' →
    blockAlgo k.t ∈ [-1, 0, 1, 2, 3] → blockAlgo t' = if blockAlgo k.t = 1 ∨ blockAlgo k.t = 2 then 0 else blockAlgo k.t

/-- C184, exactly what holds. Without these options plain frames stay plain and stripped headers stay, but the compression of frames with
zlib, bzlib or LZO is undone if, without `--compalgo`, the CodecPrivate would be more than 4 bytes shorter with zlib. -/
theorem C184_kind_kept_partial (z : Zlib) (o : Opts) (k : Trk) (t' : PTrack) (h1 : o.optimize = false) (h2 : o.unOptimize = false)
    (h : written z o k = .ok t') :
    (blockAlgo k.t = -1 → blockAlgo t' = -1) ∧ (blockAlgo k.t = 3 → blockAlgo t' = 3) ∧
    (blockAlgo k.t ∈ [0, 1, 2] → (o.compalgo = true ∨ ¬ Shrinks z k.t 4) → blockAlgo t' = 0) ∧
    (blockAlgo k.t ∈ [0, 1, 2] → o.compalgo = false → Shrinks z k.t 4 → blockAlgo t' = -1) := by
  have hx : exempt o k = false := by simp [exempt, searching, h1]
  have hb : blockAlgo (start o k) = blockAlgo k.t := by
    have he : (start o k).enc = k.t.enc := by rw [start_enc, hx]; rfl
    unfold blockAlgo
    rw [he]
  have hf : first o k = blockAlgo k.t := by simp [first, h1, h2, hb]
  rw [written_block z o k h]
  have hodd : blockAlgo k.t ≠ -1 → scope o k % 2 = 1 := by
    intro hn
    unfold scope
    rw [hf, if_neg hn]
    split
    · rename_i e he
      exact block_scope o k (by rw [hb]; exact hn) e he
    · rfl
  refine ⟨?_, ?_, ?_, ?_⟩
  · intro hn
    have hw : worth z o k = false := by
      rw [Bool.eq_false_iff]
      intro hw
      have := ((worth_iff z o k).1 hw).1
      rw [h1, hf, hn] at this
      simp at this
    simp [chosen, hw, hf, hn]
  · intro hn
    have hw : worth z o k = false := by
      rw [Bool.eq_false_iff]
      intro hw
      have := ((worth_iff z o k).1 hw).2.1
      rw [hf, hn] at this
      exact this rfl
    simp [chosen, hw, hf, hn, h1, hb]
  · intro hn hs
    have hne : blockAlgo k.t ≠ -1 := by intro h0; rw [h0] at hn; simp at hn
    have hm : blockAlgo k.t = 0 ∨ blockAlgo k.t = 1 ∨ blockAlgo k.t = 2 := by simpa using hn
    by_cases hw : worth z o k = true
    · rcases hs with hs | hs
      · have : (scope o k ||| 2) % 2 = 1 := by rw [or_two, hodd hne]
        simp [chosen, hw, cliAlgo, hs, this]
      · by_cases hc : o.compalgo = true
        · have : (scope o k ||| 2) % 2 = 1 := by rw [or_two, hodd hne]
          simp [chosen, hw, cliAlgo, hc, this]
        · exfalso
          have := ((worth_iff z o k).1 hw).2.2.2
          simp only [extra, hf, compNone, if_neg hne, hc] at this
          exact hs this
    · simp [chosen, hw, hf, hm, hodd hne]
  · intro hn hc hs
    have hne : blockAlgo k.t ≠ -1 := by intro h0; rw [h0] at hn; simp at hn
    have hm : blockAlgo k.t = 0 ∨ blockAlgo k.t = 1 ∨ blockAlgo k.t = 2 := by simpa using hn
    have hw : worth z o k = true := by
      rw [worth_iff, hf]
      refine ⟨.inr hne, by omega, ?_, ?_⟩
      · intro h2
        have := hodd hne
        rw [h2] at this
        simp at this
      · simp only [extra, hf, compNone, if_neg hne, hc]
        exact hs
    simp [chosen, hw, cliAlgo, hc, compNone]

/-- A compressor for examples: runs of 5s of length 9 become one byte. -/
def nine : Zlib where
  deflate f := if f = [5, 5, 5, 5, 5, 5, 5, 5, 5] then [0] else 1 :: f
  inflate q := match q with
    | [0] => some [5, 5, 5, 5, 5, 5, 5, 5, 5]
    | 1 :: f => some f
    | _ => none

/-- C184 fails: frames compressed with zlib are decompressed when the CodecPrivate could have been compressed. -/
theorem C184_counterexample : ¬ KindKept := by
  intro h
  have := h nine {} ⟨Url.lit "S_VOBSUB", false, [], readTrack ⟨some (some ⟨none, some ⟨none, none⟩⟩), some [5, 5, 5, 5, 5, 5, 5, 5, 5], 0⟩⟩
    ⟨none, some [5, 5, 5, 5, 5, 5, 5, 5, 5], -1⟩ rfl rfl (by decide +kernel) (by decide +kernel)
  exact absurd this (by decide +kernel)

example : written nine {} ⟨Url.lit "S_VOBSUB", false, [], readTrack ⟨some (some ⟨none, some ⟨some 1, none⟩⟩), some [5, 5], 0⟩⟩ =
    .ok ⟨some (some ⟨some 1, some ⟨some 0, none⟩⟩), some [5, 5], -1⟩ := by decide +kernel

/-! ### C185: the compression of the blocks with options -/

/-- C185 as hoped for: `--compalgo 0` compresses the frames of all tracks with zlib ("force compression algorithm of all tracks"), unless
`--no-optimize` is given or the output is WebM. -/
def AlgoForced : Prop :=
  ∀ (z : Zlib) (o : Opts) (k : Trk) (t' : PTrack), o.compalgo = true → o.unOptimize = false → written z o k = .ok t' → blockAlgo t' = 0

/-- The codecs whose frames mkclean compresses: these names whatever the case of their letters, and those that begin with `A_PCM`. -/
def Packable (codec : Url.Str) : Prop :=
  (∃ n ∈ ["S_USF", "S_VOBSUB", "S_HDMV/PGS", "B_VOBBTN", "V_UNCOMPRESSED"], codec.map Url.upper = Url.lit n) ∨ ∃ r, codec = Url.lit "A_PCM" ++ r

theorem packable_iff (codec : Url.Str) : packable codec = true ↔ Packable codec := by
  have h1 : (Url.lit "S_USF").map Url.upper = Url.lit "S_USF" := by decide +kernel
  have h2 : (Url.lit "S_VOBSUB").map Url.upper = Url.lit "S_VOBSUB" := by decide +kernel
  have h3 : (Url.lit "S_HDMV/PGS").map Url.upper = Url.lit "S_HDMV/PGS" := by decide +kernel
  have h4 : (Url.lit "B_VOBBTN").map Url.upper = Url.lit "B_VOBBTN" := by decide +kernel
  have h5 : (Url.lit "V_UNCOMPRESSED").map Url.upper = Url.lit "V_UNCOMPRESSED" := by decide +kernel
  unfold packable Packable Url.ieq
  rw [h1, h2, h3, h4, h5]
  simp only [Bool.or_eq_true, beq_iff_eq, List.isPrefixOf_iff_prefix, List.mem_cons, List.not_mem_nil, or_false, exists_eq_or_imp, exists_eq_left]
  constructor
  · rintro (h | ⟨r, h⟩)
    · left
      rcases h with (((h | h) | h) | h) | h <;> simp [h]
    · exact .inr ⟨r, h.symm⟩
  · rintro (h | ⟨r, h⟩)
    · left
      rcases h with h | h | h | h | h <;> simp [h]
    · exact .inr ⟨r, h.symm⟩

/-- A track `--optimize_nv` leaves alone. -/
def Exempt (o : Opts) (k : Trk) : Prop := o.optimizeVideo = false ∧ k.video = true

theorem scope_odd (o : Opts) (k : Trk) (ho : o.optimize = true) (hu : o.unOptimize = false) (hf : first o k ≠ -1) :
    scope o k % 2 = 1 ↔ (Exempt o k ∨ CoversBlocks k.t) := by
  unfold scope
  rw [if_neg hf, start_enc]
  have hx : exempt o k = true ↔ Exempt o k := by
    unfold exempt searching Exempt
    simp [ho, hu]
  by_cases he : exempt o k = true
  · simp [he, hx.1 he]
  · have hn : ¬ Exempt o k := fun h => he (hx.2 h)
    rw [if_neg he]
    simp only [hn, false_or]
    unfold CoversBlocks
    match hk : k.t.enc with
    | none => simp
    | some none => simp
    | some (some ⟨none, c⟩) =>
      simp only [Option.getD_none, true_iff]
      intro e s h1 h2
      cases h1
      cases h2
    | some (some ⟨some v, c⟩) =>
      simp only [Option.getD_some]
      constructor
      · intro hv e s h1 h2
        cases h1
        cases h2
        exact hv
      · intro h
        exact h _ v rfl rfl

/-- C185, exactly what holds with `--optimize` or `--optimize_nv`. With `--compalgo 0` the frames are compressed with zlib, unless the source
has an encoding that does not cover the blocks. Otherwise the frames of a few codecs are, under the same condition and if the CodecPrivate would
not be more than 4 bytes shorter with zlib. Of the other tracks the bytes all frames begin with are stripped. The video tracks with
`--optimize_nv` are as if they had no encoding and no such bytes. -/
theorem C185_optimized_partial (z : Zlib) (o : Opts) (k : Trk) (t' : PTrack) (ho : o.optimize = true) (hu : o.unOptimize = false)
    (h : written z o k = .ok t') :
    (o.compalgo = true → (Exempt o k ∨ CoversBlocks k.t) → blockAlgo t' = 0) ∧
    (o.compalgo = true → ¬ (Exempt o k ∨ CoversBlocks k.t) → blockAlgo t' = -1) ∧
    (o.compalgo = false → Packable k.codec → (Exempt o k ∨ CoversBlocks k.t) ∧ ¬ Shrinks z k.t 4 → blockAlgo t' = 0) ∧
    (o.compalgo = false → Packable k.codec → ¬ ((Exempt o k ∨ CoversBlocks k.t) ∧ ¬ Shrinks z k.t 4) → blockAlgo t' = -1) ∧
    (o.compalgo = false → ¬ Packable k.codec → ¬ Exempt o k → k.header ≠ [] → blockAlgo t' = 3) ∧
    (o.compalgo = false → ¬ Packable k.codec → (Exempt o k ∨ k.header = []) → blockAlgo t' = -1) := by
  have hx : exempt o k = true ↔ Exempt o k := by
    unfold exempt searching Exempt
    simp [ho, hu]
  rw [written_block z o k h]
  have hcomp : o.compalgo = true → first o k = 0 := by intro hc; simp [first, ho, hu, hc]
  have hpack : o.compalgo = false → Packable k.codec → first o k = 0 := by
    intro hc hp; simp [first, ho, hu, hc, (packable_iff _).2 hp]
  have hpf : ¬ Packable k.codec → packable k.codec = false := fun hp => by rw [Bool.eq_false_iff]; exact fun h => hp ((packable_iff _).1 h)
  have hcase : o.compalgo = true → ((chosen z o k).1 = 0 ∧ (chosen z o k).2 % 2 = scope o k % 2) := by
    intro hc
    unfold chosen
    split
    · exact ⟨by simp [cliAlgo, hc], or_two _⟩
    · exact ⟨hcomp hc, rfl⟩
  refine ⟨?_, ?_, ?_, ?_, ?_, ?_⟩
  · intro hc hs
    have := hcase hc
    rw [if_pos (.inl this.1), this.2, if_pos ((scope_odd o k ho hu (by rw [hcomp hc]; decide)).2 hs)]
  · intro hc hs
    have := hcase hc
    rw [if_pos (.inl this.1), this.2, if_neg (fun h => hs ((scope_odd o k ho hu (by rw [hcomp hc]; decide)).1 h))]
  · rintro hc hp ⟨hs, hn⟩
    have hf := hpack hc hp
    have hw : worth z o k = false := by
      rw [Bool.eq_false_iff]
      intro hw
      have := ((worth_iff z o k).1 hw).2.2.2
      simp only [extra, hf, compNone, hc] at this
      exact hn this
    have hodd := (scope_odd o k ho hu (by rw [hf]; decide)).2 hs
    simp [chosen, hw, hf, hodd]
  · intro hc hp hn
    have hf := hpack hc hp
    by_cases hw : worth z o k = true
    · simp [chosen, hw, cliAlgo, hc, compNone]
    · have : ¬ scope o k % 2 = 1 := by
        intro hodd
        have hs := (scope_odd o k ho hu (by rw [hf]; decide)).1 hodd
        apply hw
        rw [worth_iff, hf]
        refine ⟨.inl ho, by decide, by omega, ?_⟩
        refine Classical.byContradiction fun hsh => ?_
        apply hn
        refine ⟨hs, fun h4 => hsh ?_⟩
        have h4' : extra o k = 4 := by simp [extra, hf, compNone, hc]
        rw [h4']
        exact h4
      simp [chosen, hw, hf, this]
  · intro hc hp hnx hh
    have hk : kept o k = k.header := by
      unfold kept
      rw [if_neg (fun h => hnx (hx.1 h))]
    have hf : first o k = 3 := by simp [first, ho, hu, hc, hpf hp, hk, hh]
    have hw : worth z o k = false := by
      rw [Bool.eq_false_iff]
      intro hw
      exact ((worth_iff z o k).1 hw).2.1 hf
    simp [chosen, hw, hf, ho, hk, hh]
  · intro hc hp hh
    have hk : kept o k = [] := by
      unfold kept
      split
      · rfl
      · rename_i hne
        rcases hh with hh | hh
        · exact absurd (hx.2 hh) hne
        · exact hh
    have hf : first o k = -1 := by simp [first, ho, hu, hc, hpf hp, hk]
    have : (chosen z o k).1 = -1 := by
      unfold chosen
      split
      · simp [cliAlgo, hc]
      · exact hf
    simp [this]

/-- C185. With `--no-optimize`, and for WebM, no frames are compressed, whatever the other options and the source. -/
theorem C185_no_optimize (z : Zlib) (o : Opts) (k : Trk) (t' : PTrack) (hu : o.unOptimize = true) (h : written z o k = .ok t') :
    blockAlgo t' = -1 := by
  rw [written_block z o k h]
  have hf : first o k = -1 := by simp [first, hu]
  have hs : scope o k = 0 := by simp [scope, hf]
  unfold chosen
  by_cases hw : worth z o k = true
  · rw [if_pos hw, hs]
    unfold cliAlgo
    split <;> rfl
  · rw [if_neg hw, hf]
    rfl

/-- The options of a command line, as they are when the profile of the output is known. -/
def optsOf (p : Nat) (s : Setup.Settings) : Opts :=
  let s := Setup.webmSettings p s
  { optimize := s.optimize, optimizeVideo := s.optimizeVideo, unOptimize := s.unOptimize, compalgo := s.zlib }

/-- C185. A WebM file (profile 8) gets no ContentEncodings at all, whatever the options and the source. -/
theorem C185_webm (z : Zlib) (s : Setup.Settings) (k : Trk) (t' : PTrack) (h : written z (optsOf 8 s) k = .ok t') : t'.enc = none := by
  have ho : (optsOf 8 s).optimize = false := rfl
  have hf : first (optsOf 8 s) k = -1 := by simp [first, optsOf, Setup.webmSettings]
  have hw : worth z (optsOf 8 s) k = false := by simp [worth, ho, hf, compNone]
  have hc : chosen z (optsOf 8 s) k = (-1, scope (optsOf 8 s) k) := by simp [chosen, hw, hf]
  have ha : (apply z (optsOf 8 s) k).enc = none := by simp [apply, hc, compZlib, compStrip, setNone]
  have hflip : ∀ t : PTrack, t.enc = none → (flipScope t).enc = none := by
    rintro ⟨enc, priv, cur⟩ he
    cases he
    rfl
  unfold written at h
  generalize apply z (optsOf 8 s) k = t at h ha
  unfold updateTrack at h
  repeat' split at h
  all_goals (cases h <;> first | exact ha | exact hflip t ha)

/-- C185 fails: without `--optimize` the option `--compalgo 0` changes nothing for plain tracks. -/
theorem C185_counterexample : ¬ AlgoForced := by
  intro h
  have := h toyZ { compalgo := true } ⟨Url.lit "A_PCM/INT/LIT", false, [], readTrack ⟨none, some [5, 5, 5], 0⟩⟩
    ⟨none, some [5, 5, 5], -1⟩ rfl rfl (by decide +kernel)
  exact absurd this (by decide +kernel)

example : written nine { optimize := true } ⟨Url.lit "s_vobsub", false, [], readTrack ⟨none, some [5, 5, 5], 0⟩⟩ =
      .ok ⟨some (some ⟨some 1, some ⟨some 0, none⟩⟩), some [5, 5, 5], -1⟩ ∧
    written nine { optimize := true } ⟨Url.lit "s_vobsub", false, [], readTrack ⟨none, some [5, 5, 5, 5, 5, 5, 5, 5, 5], 0⟩⟩ =
      .ok ⟨none, some [5, 5, 5, 5, 5, 5, 5, 5, 5], -1⟩ ∧
    written nine { optimize := true, compalgo := true } ⟨Url.lit "s_vobsub", false, [], readTrack ⟨none, some [5, 5, 5, 5, 5, 5, 5, 5, 5], 0⟩⟩ =
      .ok ⟨some (some ⟨some 3, some ⟨some 0, none⟩⟩), some [0], 0⟩ := by decide +kernel

/-! ### C186: encrypted tracks -/

/-- C186 as hoped for: a ContentEncoding that is not a compression (which is an encryption then) is kept. -/
def EncryptionKept : Prop :=
  ∀ (z : Zlib) (o : Opts) (k : Trk) (t' : PTrack) (s : Option Nat), k.t.enc = some (some ⟨s, none⟩) → written z o k = .ok t' → t'.enc = k.t.enc

/-- C186, what happens: whatever the options, the encoding is never kept. -/
theorem C186_encryption_lost_partial (z : Zlib) (o : Opts) (k : Trk) (t' : PTrack) (s : Option Nat)
    (he : k.t.enc = some (some ⟨s, none⟩)) (h : written z o k = .ok t') :
    t'.enc = none ∨ ∃ s' c, t'.enc = some (some ⟨s', some c⟩) := by
  have ha : (apply z o k).enc = none ∨ ∃ s' c, (apply z o k).enc = some (some ⟨s', some c⟩) := by
    unfold apply
    dsimp only
    split
    · simp only [setAlgo]
      split
      · exact .inr ⟨_, _, rfl⟩
      · exact .inl rfl
    · split
      · rename_i h3
        by_cases ho : o.optimize = true
        · rw [if_pos ho]
          simp only [setHeader]
          split
          · exact .inr ⟨_, _, rfl⟩
          · exact .inl rfl
        · exfalso
          have hx : exempt o k = false := by simp [exempt, searching, ho]
          have hb : blockAlgo (start o k) = -1 := by
            have : (start o k).enc = some (some ⟨s, none⟩) := by rw [start_enc, hx, ← he]; rfl
            simp only [blockAlgo, this]
            split <;> rfl
          have hf : first o k = -1 := by
            unfold first
            split
            · rfl
            · simp [ho, hb]
          have hw : worth z o k = false := by
            rw [Bool.eq_false_iff]
            intro hw
            rcases ((worth_iff z o k).1 hw).1 with h | h
            · exact ho h
            · exact h hf
          rw [chosen, hw] at h3
          simp [hf] at h3
      · exact .inl rfl
  have hupd : t'.enc = (apply z o k).enc ∨ t' = flipScope (apply z o k) := by
    unfold written updateTrack at h
    grind
  rcases hupd with h1 | h1
  · rw [h1]; exact ha
  · rw [h1]
    rcases ha with ha | ⟨s', c, ha⟩
    · left
      simp [flipScope, ha]
    · right
      cases s' with
      | none => exact ⟨none, c, by simp [flipScope, ha]⟩
      | some v => exact ⟨some (v ^^^ 2), c, by simp [flipScope, ha]⟩

/-- C186 fails: an encrypted track loses its ContentEncodings. -/
theorem C186_counterexample : ¬ EncryptionKept := by
  intro h
  have := h toyZ {} ⟨Url.lit "V_VP8", true, [], readTrack ⟨some (some ⟨some 1, none⟩), none, 0⟩⟩ ⟨none, none, -1⟩ (some 1) rfl
    (by decide +kernel)
  exact absurd this (by decide +kernel)

example : written toyZ { optimize := true } ⟨Url.lit "A_PCM/INT/BIG", false, [], readTrack ⟨some (some ⟨some 1, none⟩), none, 0⟩⟩ =
    .ok ⟨some (some ⟨some 1, some ⟨some 0, none⟩⟩), none, -1⟩ := by decide +kernel

example : written toyZ (optsOf 8 { optimize := true, zlib := true })
    ⟨Url.lit "S_USF", false, [0, 0], readTrack ⟨some (some ⟨some 3, some ⟨some 0, none⟩⟩), some [0], 0⟩⟩ =
      .ok ⟨none, some [5, 5, 5], -1⟩ := by decide +kernel

end Verif.Enc
