import Verif.Core.AttrLemmas
/-!
C235: an attribute of a node reads as it was set.
-/
set_option linter.unusedSimpArgs false
namespace Verif.Attr
open Verif Verif.Core

/-- The bytes of a value of the type of the attribute: those of the type where it has a size of its own, otherwise as many
as the attribute declares, or the most the platform allows. -/
def bytesOf (P : Plat) (a : Attr) : Nat :=
  if P.psize a.ty ≠ P.maxData then P.psize a.ty else if 0 < a.size then a.size else P.maxData

theorem maxSize_bytesOf (P : Plat) (a : Attr) (h0 : a.ty ≠ 0) (h4 : a.ty ≠ tyString) : maxSize P a = bytesOf P a := by
  unfold maxSize bytesOf
  rw [if_neg h0]
  by_cases h : P.psize a.ty = P.maxData <;> by_cases hs : a.size = 0 <;> simp [h, h4, hs] <;> omega

/-- The bytes an attribute takes in the structure. -/
def width (P : Plat) (a : Attr) : Nat :=
  if a.ty = tyString then a.size else if a.ty = tyBit then 4 else maxSize P a

/-- The attribute lies in the structure. -/
def Inside (P : Plat) (a : Attr) (o : Obj) : Prop := ∀ off, a.place = some off → off + width P a ≤ o.mem.length

/-- A text in the structure ends in its place. -/
def Ends (a : Attr) (o : Obj) : Prop := ∀ off, a.place = some off → a.ty = tyString →
  (cstr (o.mem.drop off)).length < a.size

/-- What is stored among the values of the node for the attribute has the size of its type. -/
def Sized (P : Plat) (a : Attr) (o : Obj) : Prop := a.place = none → a.ty ≠ tyString →
  ∀ v, NodeData.getData P.w a.id a.ty o.dyn = some v → v.length = maxSize P a

/-- The values of a node are stored under different codes (what `C115` keeps). -/
def Distinct (o : Obj) : Prop := (o.dyn.map (·.1)).Nodup

theorem take_zeros (n : Nat) : List.take n (List.replicate n (0 : UInt8)) = List.replicate n 0 := by simp

theorem nonZero_replicate (n : Nat) : NodeData.nonZero (List.replicate n (0 : UInt8)) = false := by
  unfold NodeData.nonZero
  rw [List.any_eq_false]
  intro x hx
  simpa using List.eq_of_mem_replicate hx

/-- **C235** (values of a fixed number of bytes). What an attribute is set to, it reads as, byte by byte: wherever its
value is kept, and also when the node finds that nothing changes. Left out: fractions that are compared
(`C235_fraction_partial`), attributes without a default set to zero (`C235_zero_counterexample`). -/
theorem C235_value_partial (P : Plat) (a : Attr) (o : Obj) (d buf : Bytes) (hty : a.ty ∉ [0, 4, 23, 24, 27, 30, 31, 32])
    (hin : Inside P a o) (hdis : Distinct o) (hfr : a.cmp = true → a.ty ≠ tyFraction) (hd : d.length = bytesOf P a)
    (hno : a.place = none → a.noDefault = true → NodeData.nonZero d = true) (hb : buf.length = d.length) :
    ∃ r o', set P a (some d) d.length o = some (r, o') ∧ r.err = .none ∧ get P a buf o' = some (.none, d) := by
  have h4 : a.ty ≠ tyString := by unfold tyString; simp at hty; omega
  rw [← maxSize_bytesOf P a (by simp at hty; omega) h4] at hd
  have h24 : a.ty ≠ tyBit := by unfold tyBit; simp at hty; omega
  have hdt : d.take (maxSize P a) = d := List.take_of_length_le (by omega)
  cases hp : a.place with
  | none =>
    unfold set
    rw [hp]
    simp only [realSize, kept, if_neg h4]
    rw [if_neg (by omega)]
    -- what `get` gives for a node where the value is `x`
    have hget : ∀ o' : Obj, NodeData.getData P.w a.id a.ty o'.dyn = (if NodeData.nonZero d then some d else none) →
        get P a buf o' = some (.none, d) := by
      intro o' h
      unfold get
      rw [hp]
      simp only [h]
      cases hz : NodeData.nonZero d with
      | true => simp only [if_true]; rw [if_neg h4, if_neg h24, if_neg (by omega), hdt]
      | false =>
        simp only [Bool.false_eq_true, if_false]
        rw [if_neg (by intro hn; rw [hno hp hn] at hz; cases hz), hb, ← NodeData.zeros_of_nonZero d hz]
    have hset : ∀ o' : Obj, o' = { o with dyn := NodeData.setData P.w a.id a.ty (d.take (maxSize P a)) o.dyn } →
        get P a buf o' = some (.none, d) := by
      rintro o' rfl
      apply hget
      simp only
      unfold NodeData.getData
      rw [NodeData.get_set _ _ _ _ _ hdis, if_pos rfl, hdt]
    by_cases hc : a.cmp = true
    · rw [if_pos hc]
      unfold eqData
      rw [if_neg h4]
      cases hg : NodeData.getData P.w a.id a.ty o.dyn with
      | none =>
        simp only [hdt, Option.map_some]
        cases hz : NodeData.nonZero d with
        | true =>
          exact ⟨⟨.none, true⟩, { o with dyn := NodeData.setData P.w a.id a.ty d o.dyn }, by simp, rfl, hset _ (by rw [hdt])⟩
        | false => exact ⟨⟨.none, false⟩, o, by simp, rfl, hget _ (by simp [hg, hz])⟩
      | some v =>
        simp only [if_neg (hfr hc), Option.map_some, hdt]
        by_cases he : d = v.take (maxSize P a)
        · refine ⟨⟨.none, false⟩, o, by rw [if_pos (by simpa using he)], rfl, ?_⟩
          unfold get
          rw [hp]
          simp only [hg]
          rw [if_neg h4, if_neg h24, if_neg (by omega), ← he]
        · exact ⟨⟨.none, true⟩, { o with dyn := NodeData.setData P.w a.id a.ty d o.dyn }, by rw [if_neg (by simpa using he)], rfl,
            hset _ (by rw [hdt])⟩
    · rw [if_neg hc]
      exact ⟨_, _, rfl, rfl, hset _ rfl⟩
  | some off =>
    have hi := hin off hp
    unfold width at hi
    rw [if_neg h4, if_neg h24] at hi
    unfold set
    rw [hp]
    simp only
    rw [if_neg (by simp [hd])]
    have hw : ∃ m, writeAt P a off (some d) o.mem = some m ∧ (m.drop off).take (maxSize P a) = d := by
      unfold writeAt
      rw [if_neg h4, if_neg h24]
      simp only [hdt]
      obtain ⟨m, hm, hl, he⟩ := store_some o.mem off d (by omega)
      refine ⟨m, hm, ?_⟩
      rw [he, ← hd]
      exact piece_same o.mem off d (by omega)
    have hget : ∀ m : Bytes, (m.drop off).take (maxSize P a) = d → get P a buf { o with mem := m } = some (.none, d) := by
      intro m h
      unfold get
      rw [hp]
      simp only
      rw [if_neg h4, if_neg h24, if_neg (by omega), h]
    obtain ⟨m, hm, hmd⟩ := hw
    by_cases hc : a.cmp = true
    · rw [if_pos hc]
      unfold eqData current
      simp only [if_neg h4, if_neg h24, if_neg (hfr hc), Option.bind_some, hm, Option.map_some]
      by_cases he : (o.mem.drop off).take (maxSize P a) = d.take (maxSize P a)
      · refine ⟨⟨.none, false⟩, o, by simp [he], rfl, ?_⟩
        exact hget o.mem (by rw [he, hdt])
      · exact ⟨⟨.none, true⟩, { o with mem := m }, by simp [he], rfl, hget m hmd⟩
    · rw [if_neg hc]
      simp only [Option.bind_some, Bool.false_eq_true, if_false, hm, Option.map_some]
      exact ⟨_, _, rfl, rfl, hget m hmd⟩

/-- The sizes on 64-bit Linux that are used in the examples; `MAXPATH` is 256. -/
def linux : Plat :=
  ⟨fun t => if t = 1 ∨ t = 24 then 8 else if t = 2 then 4 else if t = 3 then 16 else if t = 4 ∨ t = 16 then 256 else 0, 256, 64⟩

/-- A number at 4 in a structure of 12 bytes. -/
example : Inside linux ⟨0x10, 2, some 4, 0, 0, true, false⟩ ⟨List.replicate 12 7, []⟩ ∧
    set linux ⟨0x10, 2, some 4, 0, 0, true, false⟩ (some [1, 2, 3, 4]) 4 ⟨List.replicate 12 7, []⟩ =
      some (⟨.none, true⟩, ⟨[7, 7, 7, 7, 1, 2, 3, 4, 7, 7, 7, 7], []⟩) := by
  refine ⟨?_, by rfl⟩
  intro off h
  cases h
  decide

/-! Texts -/

theorem cstr_zeros (n : Nat) : cstr (List.replicate n 0) = [] := by
  cases n with
  | zero => rfl
  | succ n => simp [cstr, List.replicate_succ]

theorem cstr_text (s r : Bytes) (hs : ∀ x ∈ s, x ≠ 0) : cstr (s ++ 0 :: r) = s := by
  unfold cstr
  exact takeWhile_stop _ _ _ _ (fun x hx => by simpa using hs x hx) (by simp)

theorem nonZero_text (s : Bytes) (hs : ∀ x ∈ s, x ≠ 0) : NodeData.nonZero (s ++ [0]) = true ↔ s ≠ [] := by
  unfold NodeData.nonZero
  constructor
  · rintro h rfl
    simp at h
  · intro h
    cases s with
    | nil => exact absurd rfl h
    | cons x t => simp [hs x (by simp)]

theorem get_text (P : Plat) (a : Attr) (buf : Bytes) (o : Obj) (s : Bytes) (hty : a.ty = tyString) (hb : buf ≠ [])
    (hs : ∀ x ∈ s, x ≠ 0)
    (h : match a.place with
      | none => match NodeData.getData P.w a.id a.ty o.dyn with
        | none => s = [] ∧ a.noDefault = false
        | some v => cstr v = s
      | some off => cstr (o.mem.drop off) = s) :
    ∃ out, get P a buf o = some (.none, out) ∧ out.length = buf.length ∧ cstr out = s.take (buf.length - 1) := by
  have hl : 0 < buf.length := List.length_pos_iff.2 hb
  obtain ⟨m, hm, hml, hmc, _⟩ := strcpyS_text buf 0 buf.length s hl (by omega) hs
  rw [List.drop_zero] at hmc
  unfold get
  cases hp : a.place with
  | none =>
    rw [hp] at h
    simp only at h ⊢
    cases hg : NodeData.getData P.w a.id a.ty o.dyn with
    | none =>
      rw [hg] at h
      simp only at h ⊢
      obtain ⟨rfl, hd⟩ := h
      simp only [hd, Bool.false_eq_true, if_false]
      exact ⟨_, rfl, by simp, by rw [cstr_zeros]; simp⟩
    | some v =>
      rw [hg] at h
      simp only at h ⊢
      rw [if_pos hty, h, hm]
      exact ⟨m, rfl, hml, hmc⟩
  | some off =>
    rw [hp] at h
    simp only at h ⊢
    rw [if_pos hty, h, hm]
    exact ⟨m, rfl, hml, hmc⟩

/-- **C235** (texts). A text reads as it was set, cut where the place it is kept in or the buffer of the reader is full;
in its place it keeps its end. Left out: an attribute without a default set to the empty text
(`C235_zero_counterexample`). -/
theorem C235_text_partial (P : Plat) (a : Attr) (o : Obj) (d buf : Bytes) (n : Nat) (hty : a.ty = tyString)
    (hin : Inside P a o) (hsz : a.place ≠ none → 0 < a.size) (he : Ends a o) (hdis : Distinct o) (hb : buf ≠ [])
    (hno : a.place = none → a.noDefault = true → cstr d ≠ []) :
    ∃ r o' out, set P a (some d) n o = some (r, o') ∧ r.err = .none ∧ Ends a o' ∧
      get P a buf o' = some (.none, out) ∧ out.length = buf.length ∧
      cstr out = ((cstr d).take (if a.place = none then (cstr d).length else a.size - 1)).take (buf.length - 1) := by
  have hs := cstr_no0 d
  cases hp : a.place with
  | none =>
    rw [if_pos rfl, List.take_length]
    unfold set
    rw [hp]
    simp only [realSize, kept, if_pos hty]
    rw [if_neg (by simp [hty])]
    have hends : ∀ o' : Obj, Ends a o' := fun o' off h => by rw [hp] at h; cases h
    have hset : ∃ out, get P a buf { o with dyn := NodeData.setData P.w a.id a.ty (cstr d ++ [0]) o.dyn } = some (.none, out) ∧
        out.length = buf.length ∧ cstr out = (cstr d).take (buf.length - 1) := by
      apply get_text P a buf _ (cstr d) hty hb hs
      rw [hp]
      simp only
      unfold NodeData.getData
      rw [NodeData.get_set _ _ _ _ _ hdis, if_pos rfl]
      by_cases hz : NodeData.nonZero (cstr d ++ [0]) = true
      · simp only [if_pos hz]
        exact cstr_text (cstr d) [] hs
      · simp only [if_neg hz]
        rw [nonZero_text (cstr d) hs] at hz
        have hz' : cstr d = [] := Classical.not_not.1 hz
        exact ⟨hz', by
          cases hd : a.noDefault with
          | false => rfl
          | true => exact absurd hz' (hno hp hd)⟩
    obtain ⟨out, h1, h2, h3⟩ := hset
    by_cases hc : a.cmp = true
    · rw [if_pos hc]
      unfold eqData
      rw [if_pos hty]
      simp only [Option.map_some, Option.getD_some]
      by_cases hq : strcmp (cstr d) (((NodeData.getData P.w a.id a.ty o.dyn).map cstr).getD []) = 0
      · rw [if_pos (by simpa using hq)]
        rw [strcmp_zero _ _ hs (by
          cases NodeData.getData P.w a.id a.ty o.dyn with
          | none => simp
          | some v => simpa using cstr_no0 v)] at hq
        have := get_text P a buf o (cstr d) hty hb hs (by
          rw [hp]
          simp only
          cases hg : NodeData.getData P.w a.id a.ty o.dyn with
          | none =>
            rw [hg] at hq
            simp only [Option.map_none, Option.getD_none] at hq
            exact ⟨hq, by
              cases hd : a.noDefault with
              | false => rfl
              | true => exact absurd hq (hno hp hd)⟩
          | some v =>
            rw [hg] at hq
            simpa using hq.symm)
        obtain ⟨out', h1', h2', h3'⟩ := this
        exact ⟨⟨.none, false⟩, o, out', rfl, rfl, hends o, h1', h2', h3'⟩
      · rw [if_neg (by simpa using hq)]
        exact ⟨⟨.none, true⟩, _, out, rfl, rfl, hends _, h1, h2, h3⟩
    · rw [if_neg hc]
      simp only [Option.map_some, Bool.false_eq_true, if_false]
      exact ⟨⟨.none, true⟩, _, out, rfl, rfl, hends _, h1, h2, h3⟩
  | some off =>
    rw [if_neg (by simp)]
    have hi := hin off hp
    unfold width at hi
    rw [if_pos hty] at hi
    have hsz' := hsz (by rw [hp]; simp)
    have hoff := he off hp hty
    unfold set
    rw [hp]
    simp only
    rw [if_neg (by simp [hty])]
    obtain ⟨m, hm, hml, hmc, _⟩ := strcpyS_text o.mem off a.size (cstr d) hsz' hi hs
    have hw : writeAt P a off (some d) o.mem = some m := by
      unfold writeAt
      rw [if_pos hty]
      exact hm
    have hget := get_text P a buf { o with mem := m } ((cstr d).take (a.size - 1)) hty hb
      (fun x hx => hs x (List.mem_of_mem_take hx)) (by rw [hp]; exact hmc)
    obtain ⟨out, h1, h2, h3⟩ := hget
    have hend : Ends a { o with mem := m } := by
      intro off' h _
      rw [hp] at h
      cases h
      simp only [hmc, List.length_take]
      omega
    by_cases hc : a.cmp = true
    · rw [if_pos hc]
      unfold eqData current
      rw [if_pos hty, if_neg (by rw [hty]; decide)]
      simp only [Option.map_some, Option.getD_some, Option.bind_some]
      by_cases hq : strcmp (cstr (o.mem.drop off)) (cstr d) = 0
      · rw [if_pos (by simpa using hq)]
        rw [strcmp_zero _ _ (cstr_no0 _) hs] at hq
        obtain ⟨out', h1', h2', h3'⟩ := get_text P a buf o (cstr d) hty hb hs (by rw [hp]; exact hq)
        refine ⟨⟨.none, false⟩, o, out', rfl, rfl, he, h1', h2', ?_⟩
        have e : (cstr d).take (a.size - 1) = cstr d := List.take_of_length_le (by rw [← hq]; omega)
        rw [h3', e]
      · rw [if_neg (by simpa using hq), hw]
        exact ⟨⟨.none, true⟩, _, out, rfl, rfl, hend, h1, h2, h3⟩
    · rw [if_neg hc]
      simp only [Option.bind_some, Bool.false_eq_true, if_false, hw, Option.map_some]
      exact ⟨⟨.none, true⟩, _, out, rfl, rfl, hend, h1, h2, h3⟩

/-- "matroska" in a place of six bytes, read into eight. -/
example : (set linux ⟨0x10, 4, some 2, 6, 0, true, false⟩ (some [0x6D, 0x61, 0x74, 0x72, 0x6F, 0x73, 0x6B, 0x61, 0]) 9
      ⟨List.replicate 9 0, []⟩).bind (fun x => get linux ⟨0x10, 4, some 2, 6, 0, true, false⟩ (List.replicate 8 1) x.2) =
    some (.none, [0x6D, 0x61, 0x74, 0x72, 0x6F, 0, 1, 1]) := by rfl

/-! Bits -/

theorem get_bit (P : Plat) (a : Attr) (buf : Bytes) (o : Obj) (off : Nat) (hty : a.ty = tyBit) (hp : a.place = some off)
    (hb : buf.length = P.psize tyBit) :
    get P a buf o = some (.none, boolBytes buf.length (word o.mem off &&& a.bit != 0)) := by
  unfold get
  rw [hp]
  simp only
  rw [if_neg (by rw [hty]; decide), if_pos hty, if_neg (by omega)]
  rfl

theorem or_mask (v b : BitVec 32) (hb : b ≠ 0) : ((v ||| b) &&& b != 0) = true := by
  have : (v ||| b) &&& b = b := by
    ext i hi
    simp only [BitVec.getElem_and, BitVec.getElem_or]
    cases v[i] <;> cases b[i] <;> rfl
  rw [this]
  simpa using hb

theorem not_mask (v b : BitVec 32) : (v &&& ~~~b) &&& b = 0#32 := by
  ext i hi
  simp only [BitVec.getElem_and, BitVec.getElem_not, BitVec.getElem_zero]
  cases v[i] <;> cases b[i] <;> rfl

theorem boolBytes_nonZero (n : Nat) (hn : 0 < n) (v : Bool) : NodeData.nonZero (boolBytes n v) = v := by
  unfold boolBytes NodeData.nonZero
  cases n with
  | zero => omega
  | succ n =>
    have hz : ∀ k, (leBytes k 0).any (· ≠ 0) = false := by
      intro k
      induction k with
      | zero => rfl
      | succ k ih => simp only [leBytes, List.any_cons] ; simpa using ih
    cases v with
    | false => exact hz _
    | true => simp [leBytes]

/-- **C235** (bits of a number in the structure). A flag reads as it was set, `NULL` counting as false: whatever number
other than 0 it was set to, it reads as 1. -/
theorem C235_flag (P : Plat) (a : Attr) (o : Obj) (off : Nat) (data : Option Bytes) (buf : Bytes) (hty : a.ty = tyBit)
    (hp : a.place = some off) (hin : Inside P a o) (hbit : a.bit ≠ 0) (hP : 0 < P.psize tyBit ∧ P.psize tyBit ≠ P.maxData)
    (hd : ∀ d, data = some d → d.length = P.psize tyBit) (hb : buf.length = P.psize tyBit) :
    ∃ r o', set P a data (P.psize tyBit) o = some (r, o') ∧ r.err = .none ∧
      get P a buf o' = some (.none, boolBytes buf.length ((data.map NodeData.nonZero).getD false)) := by
  have h4 : a.ty ≠ tyString := by rw [hty]; decide
  have hmax : maxSize P a = P.psize tyBit := by
    unfold maxSize
    rw [if_neg (by rw [hty]; decide), hty, if_neg (by omega)]
  have hi := hin off hp
  unfold width at hi
  rw [if_neg h4, if_pos hty] at hi
  unfold set
  rw [hp]
  simp only
  rw [if_neg (by simp [hmax])]
  have hw : ∃ m, writeAt P a off data o.mem = some m ∧
      (word m off &&& a.bit != 0) = (data.map NodeData.nonZero).getD false := by
    unfold writeAt
    rw [if_neg h4, if_pos hty]
    simp only
    obtain ⟨m, hm, _, hmw, _⟩ := word_write o.mem off
      (if (data.map fun d => NodeData.nonZero (d.take (P.psize tyBit))).getD false = true
        then word o.mem off ||| a.bit else word o.mem off &&& ~~~a.bit) hi
    refine ⟨m, hm, ?_⟩
    rw [hmw]
    cases data with
    | none => simp only [Option.map_none, Option.getD_none, Bool.false_eq_true, if_false, not_mask]; rfl
    | some d =>
      have : d.take (P.psize tyBit) = d := List.take_of_length_le (by rw [hd d rfl]; omega)
      simp only [this, Option.map_some, Option.getD_some]
      cases NodeData.nonZero d with
      | true => exact or_mask _ _ hbit
      | false => simp only [Bool.false_eq_true, if_false, not_mask]; rfl
  obtain ⟨m, hm, hmv⟩ := hw
  have hres : ∃ (r : Res) (o' : Obj), some ((⟨.none, true⟩ : Res), ({ o with mem := m } : Obj)) = some (r, o') ∧ r.err = Err.none ∧
      get P a buf o' = some (.none, boolBytes buf.length ((data.map NodeData.nonZero).getD false)) :=
    ⟨⟨.none, true⟩, { o with mem := m }, rfl, rfl, by rw [get_bit P a buf _ off hty hp hb, hmv]⟩
  by_cases hc : a.cmp = true
  · rw [if_pos hc]
    have hcur : current P a off o.mem = boolBytes (P.psize tyBit) (word o.mem off &&& a.bit != 0) := by
      unfold current; rw [if_pos hty]
    have hlen : (boolBytes (P.psize tyBit) (word o.mem off &&& a.bit != 0)).length = P.psize tyBit := by
      unfold boolBytes; simp
    rw [hcur, hmax]
    unfold eqData
    rw [if_neg h4]
    cases data with
    | none =>
      simp only [Option.bind_some, List.take_of_length_le (Nat.le_of_eq hlen), boolBytes_nonZero _ hP.1]
      cases hv : (word o.mem off &&& a.bit != 0) with
      | true => simp only [Bool.not_true, Bool.false_eq_true, if_false, hm, Option.map_some]; exact hres
      | false =>
        exact ⟨⟨.none, false⟩, o, rfl, rfl, by rw [get_bit P a buf _ off hty hp hb, hv]; rfl⟩
    | some d =>
      have ht : d.take (P.psize tyBit) = d := List.take_of_length_le (by rw [hd d rfl]; omega)
      simp only [if_neg (show ¬ a.ty = tyFraction by rw [hty]; decide), Option.bind_some,
        List.take_of_length_le (Nat.le_of_eq hlen), ht]
      by_cases hq : boolBytes (P.psize tyBit) (word o.mem off &&& a.bit != 0) = d
      · rw [if_pos (by simpa using hq)]
        refine ⟨⟨.none, false⟩, o, rfl, rfl, ?_⟩
        rw [get_bit P a buf _ off hty hp hb, ← hq]
        simp only [Option.map_some, Option.getD_some, boolBytes_nonZero _ hP.1]
      · rw [if_neg (by simpa using hq), hm]
        exact hres
  · rw [if_neg hc]
    simp only [Option.bind_some, Bool.false_eq_true, if_false, hm, Option.map_some]
    exact hres

/-- Bit 2 of the number at 1, set to 5. -/
example : (set linux ⟨0x10, 24, some 1, 0, 4, true, false⟩ (some [5, 0, 0, 0, 0, 0, 0, 0]) 8 ⟨[9, 3, 0, 0, 0, 9], []⟩) =
    some (⟨.none, true⟩, ⟨[9, 7, 0, 0, 0, 9], []⟩) := by rfl

/-! Resetting -/

/-- **C235** (`NULL`). Setting an attribute to `NULL` makes it read as zero bytes, and a text as the empty text. -/
theorem C235_reset_partial (P : Plat) (a : Attr) (o : Obj) (n : Nat) (buf : Bytes) (hty : a.ty ∉ [0, 23, 24, 27, 30, 31, 32])
    (hin : Inside P a o) (hsz : a.place ≠ none → a.ty = tyString → 0 < a.size) (hdis : Distinct o)
    (hsd : Sized P a o) (hno : a.place = none → a.noDefault = false) (hb : buf ≠ []) (hbl : a.ty ≠ tyString → buf.length = maxSize P a) :
    ∃ r o' out, set P a none n o = some (r, o') ∧ r.err = .none ∧ get P a buf o' = some (.none, out) ∧
      out.length = buf.length ∧ (if a.ty = tyString then cstr out = [] else out = List.replicate buf.length 0) := by
  have h24 : a.ty ≠ tyBit := by unfold tyBit; simp at hty; omega
  cases hp : a.place with
  | none =>
    have hd := hno hp
    -- nothing is stored
    have hget : ∀ o' : Obj, NodeData.getData P.w a.id a.ty o'.dyn = none →
        get P a buf o' = some (.none, List.replicate buf.length 0) := by
      intro o' h
      unfold get
      rw [hp]
      simp only [h, hd, Bool.false_eq_true, if_false]
    have hfin : (if a.ty = tyString then cstr (List.replicate buf.length 0) = []
        else List.replicate buf.length (0 : UInt8) = List.replicate buf.length 0) := by
      by_cases h4 : a.ty = tyString
      · rw [if_pos h4]; exact cstr_zeros _
      · rw [if_neg h4]
    have hset : NodeData.getData P.w a.id a.ty (NodeData.setData P.w a.id a.ty [] o.dyn) = none := by
      unfold NodeData.getData
      rw [NodeData.get_set _ _ _ _ _ hdis, if_pos rfl]
      rfl
    unfold set
    rw [hp]
    simp only
    rw [if_neg (show ¬ (a.ty ≠ tyString ∧ realSize P a none > n) by simp [realSize])]
    simp only [kept]
    by_cases hc : a.cmp = true
    · rw [if_pos hc]
      unfold eqData
      cases hg : NodeData.getData P.w a.id a.ty o.dyn with
      | none =>
        refine ⟨⟨.none, false⟩, o, _, ?_, rfl, hget o hg, by simp, hfin⟩
        by_cases h4 : a.ty = tyString
        · simp [h4, strcmp, cmpInts]
        · simp [h4]
      | some v =>
        by_cases h4 : a.ty = tyString
        · simp only [if_pos h4, Option.map_none, Option.getD_none, Option.map_some, Option.getD_some]
          by_cases hq : strcmp [] (cstr v) = 0
          · rw [if_pos (by simpa using hq)]
            rw [strcmp_zero _ _ (by simp) (cstr_no0 v)] at hq
            obtain ⟨out, h1, h2, h3⟩ := get_text P a buf o [] h4 hb (by simp) (by rw [hp]; simp only [hg]; exact hq.symm)
            exact ⟨⟨.none, false⟩, o, out, rfl, rfl, h1, h2, by rw [h3]; simp⟩
          · rw [if_neg (by simpa using hq)]
            exact ⟨⟨.none, true⟩, _, _, rfl, rfl, hget _ hset, by simp, by simp only [if_pos h4] at hfin ⊢; exact hfin⟩
        · simp only [if_neg h4, Option.map_some]
          cases hz : NodeData.nonZero (v.take (maxSize P a)) with
          | true =>
            exact ⟨⟨.none, true⟩, _, _, rfl, rfl, hget _ hset, by simp, by simp only [if_neg h4]⟩
          | false =>
            refine ⟨⟨.none, false⟩, o, v.take (maxSize P a), rfl, rfl, ?_, ?_, ?_⟩
            · unfold get
              rw [hp]
              simp only [hg]
              rw [if_neg h4, if_neg h24, if_neg (by rw [hbl h4]; simp)]
            · simp [hsd hp h4 v hg, hbl h4]
            · rw [NodeData.zeros_of_nonZero _ hz]
              simp [hsd hp h4 v hg, hbl h4]
    · rw [if_neg hc]
      exact ⟨⟨.none, true⟩, _, _, rfl, rfl, hget _ hset, by simp, hfin⟩
  | some off =>
    have hi := hin off hp
    unfold width at hi
    by_cases h4 : a.ty = tyString
    · rw [if_pos h4] at hi
      have hsz' := hsz (by rw [hp]; simp) h4
      obtain ⟨m, hm, _, hmc, _⟩ := strcpyS_text o.mem off a.size [] hsz' hi (by simp)
      rw [List.take_nil] at hmc
      obtain ⟨out, h1, h2, h3⟩ := get_text P a buf { o with mem := m } [] h4 hb (by simp) (by rw [hp]; exact hmc)
      have hw : writeAt P a off none o.mem = some m := by
        unfold writeAt
        rw [if_pos h4]
        exact hm
      unfold set
      rw [hp]
      simp only
      rw [if_neg (by simp)]
      have hlast : ∃ out', get P a buf { o with mem := m } = some (.none, out') ∧ out'.length = buf.length ∧
          (if a.ty = tyString then cstr out' = [] else out' = List.replicate buf.length 0) :=
        ⟨out, h1, h2, by rw [if_pos h4, h3]; simp⟩
      obtain ⟨out', k1, k2, k3⟩ := hlast
      by_cases hc : a.cmp = true
      · rw [if_pos hc]
        unfold eqData current
        rw [if_pos h4, if_neg h24]
        simp only [Option.map_some, Option.map_none, Option.getD_some, Option.getD_none, Option.bind_some]
        by_cases hq : strcmp (cstr (o.mem.drop off)) [] = 0
        · rw [if_pos (by simpa using hq)]
          rw [strcmp_zero _ _ (cstr_no0 _) (by simp)] at hq
          obtain ⟨out', h1', h2', h3'⟩ := get_text P a buf o [] h4 hb (by simp) (by rw [hp]; exact hq)
          exact ⟨⟨.none, false⟩, o, out', rfl, rfl, h1', h2', by rw [if_pos h4, h3']; simp⟩
        · rw [if_neg (by simpa using hq), hw]
          exact ⟨⟨.none, true⟩, _, out', rfl, rfl, k1, k2, k3⟩
      · rw [if_neg hc]
        simp only [Option.bind_some, Bool.false_eq_true, if_false, hw, Option.map_some]
        exact ⟨⟨.none, true⟩, _, out', rfl, rfl, k1, k2, k3⟩
    · rw [if_neg h4, if_neg h24] at hi
      obtain ⟨m, hm, _, he⟩ := store_some o.mem off (List.replicate (maxSize P a) 0) (by simpa using hi)
      have hw : writeAt P a off none o.mem = some m := by
        unfold writeAt
        rw [if_neg h4, if_neg h24]
        exact hm
      have hmd : (m.drop off).take (maxSize P a) = List.replicate (maxSize P a) 0 := by
        have := piece_same o.mem off (List.replicate (maxSize P a) 0) (by simpa using hi)
        rw [he]
        simpa using this
      have hget : ∀ m' : Bytes, (m'.drop off).take (maxSize P a) = List.replicate (maxSize P a) 0 →
          get P a buf { o with mem := m' } = some (.none, List.replicate buf.length 0) := by
        intro m' h
        unfold get
        rw [hp]
        simp only
        rw [if_neg h4, if_neg h24, if_neg (by rw [hbl h4]; simp), h, hbl h4]
      unfold set
      rw [hp]
      simp only
      rw [if_neg (by simp)]
      have hfin : (if a.ty = tyString then cstr (List.replicate buf.length 0) = []
          else List.replicate buf.length (0 : UInt8) = List.replicate buf.length 0) := by
        rw [if_neg h4]
      by_cases hc : a.cmp = true
      · rw [if_pos hc]
        unfold eqData current
        simp only [if_neg h4, if_neg h24, Option.bind_some]
        cases hz : NodeData.nonZero ((o.mem.drop off).take (maxSize P a)) with
        | true =>
          simp only [Bool.not_true, Bool.false_eq_true, if_false, hw, Option.map_some]
          exact ⟨⟨.none, true⟩, _, _, rfl, rfl, hget m hmd, by simp, rfl⟩
        | false =>
          refine ⟨⟨.none, false⟩, o, _, rfl, rfl, hget o.mem ?_, by simp, rfl⟩
          rw [NodeData.zeros_of_nonZero _ hz]
          congr 1
          simp
          omega
      · rw [if_neg hc]
        simp only [Option.bind_some, Bool.false_eq_true, if_false, hw, Option.map_some]
        exact ⟨⟨.none, true⟩, _, _, rfl, rfl, hget m hmd, by simp, hfin⟩

/-- A number among the values of the node. -/
example : (set linux ⟨0x10, 2, none, 0, 0, true, false⟩ none 0 ⟨[], [(0x1002, [1, 2, 3, 4])]⟩).bind
      (fun x => get linux ⟨0x10, 2, none, 0, 0, true, false⟩ [9, 9, 9, 9] x.2) = some (.none, [0, 0, 0, 0]) := by rfl

/-! Fractions -/

/-- Two fractions are the same number: both denominators are not zero, and the products agree. -/
def SameNumber (an ad bn bd : Int) : Prop := ad ≠ 0 ∧ bd ≠ 0 ∧ an * bd = bn * ad

/-- **C235** (comparison of fractions). Fractions with denominators other than 0 are the same for the node exactly when
they are the same number, as long as numerators and denominators fit 32 bits; so sameness is an equivalence on them. -/
theorem C235_fraction_compare (an ad bn bd : Int) (ha : -2 ^ 31 ≤ an ∧ an < 2 ^ 31) (had : -2 ^ 31 ≤ ad ∧ ad < 2 ^ 31)
    (hb : -2 ^ 31 ≤ bn ∧ bn < 2 ^ 31) (hbd : -2 ^ 31 ≤ bd ∧ bd < 2 ^ 31) (h1 : ad ≠ 0) (h2 : bd ≠ 0) :
    ∃ e, eqFrac an ad bn bd = some e ∧ (e = true ↔ SameNumber an ad bn bd) := by
  have hfit : ∀ x y : Int, -2 ^ 31 ≤ x ∧ x < 2 ^ 31 → -2 ^ 31 ≤ y ∧ y < 2 ^ 31 → fits64 (x * y) = true := by
    intro x y hx hy
    unfold fits64
    simp only [Int.reducePow, Int.reduceNeg, decide_eq_true_eq] at *
    have h : (x * y).natAbs ≤ 2147483648 * 2147483648 := by
      rw [Int.natAbs_mul]
      exact Nat.mul_le_mul (by omega) (by omega)
    omega
  unfold eqFrac SameNumber
  by_cases he : ad = bd ∧ an = bn
  · rw [if_pos he]
    obtain ⟨rfl, rfl⟩ := he
    exact ⟨true, rfl, by simp [h1]⟩
  · rw [if_neg he, if_neg h1, if_neg h2, if_pos ⟨hfit _ _ hbd ha, hfit _ _ had hb⟩]
    refine ⟨_, rfl, ?_⟩
    rw [decide_eq_true_eq, Int.mul_comm bd an, Int.mul_comm ad bn]
    constructor
    · exact fun h => ⟨h1, h2, h⟩
    · exact fun h => h.2.2

example : eqFrac 1 2 2 4 = some true ∧ eqFrac 30000 1001 30 1 = some false ∧ eqFrac (-1) 2 1 (-2) = some true := by decide

theorem eqFrac_same (an ad bn bd : Int) (ha : -2 ^ 31 ≤ an ∧ an < 2 ^ 31) (had : -2 ^ 31 ≤ ad ∧ ad < 2 ^ 31)
    (hb : -2 ^ 31 ≤ bn ∧ bn < 2 ^ 31) (hbd : -2 ^ 31 ≤ bd ∧ bd < 2 ^ 31) (h : ad ≠ 0 ∨ bd ≠ 0) :
    ∃ e, eqFrac an ad bn bd = some e ∧ (e = true → SameNumber an ad bn bd) := by
  by_cases h1 : ad = 0
  · refine ⟨false, ?_, by simp⟩
    unfold eqFrac
    rw [if_neg (by omega), if_pos h1]
    simp
    omega
  · by_cases h2 : bd = 0
    · refine ⟨false, ?_, by simp⟩
      unfold eqFrac
      rw [if_neg (by omega), if_neg h1, if_pos h2]
    · obtain ⟨e, he, hi⟩ := C235_fraction_compare an ad bn bd ha had hb hbd h1 h2
      exact ⟨e, he, hi.1⟩

theorem num_take (n : Nat) (b : Bytes) : num n (b.take n) = num n b := by
  unfold num
  rw [List.take_take, Nat.min_eq_left (by omega)]

theorem den_take (n : Nat) (b : Bytes) : den n (b.take n) = den n b := by
  unfold den
  rw [List.drop_take, List.take_take, Nat.min_eq_left (by omega)]

theorem leNat_zeros (n : Nat) : leNat (List.replicate n 0) = 0 := by
  induction n with
  | zero => rfl
  | succ n ih => simp [List.replicate_succ, leNat, ih]

theorem den_zeros (n k : Nat) : den n (List.replicate k 0) = 0 := by
  unfold den signed
  rw [List.drop_replicate, List.take_replicate, leNat_zeros]
  rw [if_pos (by simp; exact Nat.pos_of_ne_zero (by simp))]
  rfl

/-- **C235** (fractions that are compared). A fraction with a denominator other than 0 reads as the number it was set
to, though maybe with other terms; numerators and denominators of 32 bits. -/
theorem C235_fraction_partial (P : Plat) (a : Attr) (o : Obj) (d buf : Bytes) (hty : a.ty = tyFraction)
    (hin : Inside P a o) (hdis : Distinct o) (hP : P.psize tyFraction ≠ P.maxData) (hd : d.length = bytesOf P a)
    (hno : a.place = none → a.noDefault = true → NodeData.nonZero d = true) (hb : buf.length = d.length)
    (hsmall : ∀ b : Bytes, (b = d ∨ get P a buf o = some (.none, b)) → (-2 ^ 31 ≤ num d.length b ∧ num d.length b < 2 ^ 31) ∧
      (-2 ^ 31 ≤ den d.length b ∧ den d.length b < 2 ^ 31))
    (hden : den d.length d ≠ 0) :
    ∃ r o' out, set P a (some d) d.length o = some (r, o') ∧ r.err = .none ∧ get P a buf o' = some (.none, out) ∧
      SameNumber (num d.length out) (den d.length out) (num d.length d) (den d.length d) := by
  have h4 : a.ty ≠ tyString := by rw [hty]; decide
  have hdb := hd
  rw [← maxSize_bytesOf P a (by rw [hty]; decide) h4] at hd
  have h24 : a.ty ≠ tyBit := by rw [hty]; decide
  have hdt : d.take (maxSize P a) = d := List.take_of_length_le (by omega)
  have hsd : SameNumber (num d.length d) (den d.length d) (num d.length d) (den d.length d) := ⟨hden, hden, rfl⟩
  by_cases hc : a.cmp = true
  case neg =>
    obtain ⟨r, o', h1, h2, h3⟩ := C235_value_partial P a o d buf (by rw [hty]; decide) hin hdis (fun h => absurd h hc) hdb hno hb
    exact ⟨r, o', d, h1, h2, h3, hsd⟩
  case pos =>
  cases hp : a.place with
  | none =>
    have hset : get P a buf { o with dyn := NodeData.setData P.w a.id a.ty d o.dyn } = some (.none, d) := by
      have := C235_value_partial P { a with cmp := false } o d buf (by simp only [hty]; decide) (fun off h => hin off h) hdis
        (fun h => by cases h) hdb hno hb
      obtain ⟨r, o', h1, _, h3⟩ := this
      unfold set at h1
      simp only [hp, realSize, kept, if_neg h4] at h1
      have hmx : maxSize P { a with cmp := false, place := none } = maxSize P a := rfl
      rw [if_neg (by rw [hmx]; omega)] at h1
      simp only [Bool.false_eq_true, if_false, Option.map_some, Option.some.injEq, Prod.mk.injEq] at h1
      rw [hmx, hdt] at h1
      rw [← h1.2] at h3
      exact h3
    unfold set
    rw [hp]
    simp only [realSize, kept, if_neg h4]
    rw [if_neg (by omega), if_pos hc, hdt]
    unfold eqData
    rw [if_neg h4]
    cases hg : NodeData.getData P.w a.id a.ty o.dyn with
    | none =>
      have hnz : NodeData.nonZero d = true := by
        cases hz : NodeData.nonZero d with
        | true => rfl
        | false =>
          exfalso
          apply hden
          rw [NodeData.zeros_of_nonZero d hz]
          exact den_zeros _ _
      simp only [hdt, hnz, Option.map_some]
      exact ⟨⟨.none, true⟩, _, d, rfl, rfl, hset, hsd⟩
    | some v =>
      simp only [if_pos hty]
      have hgv : get P a buf o = some (.none, v.take (maxSize P a)) := by
        unfold get
        rw [hp]
        simp only [hg]
        rw [if_neg h4, if_neg h24, if_neg (by omega)]
      have hs1 := hsmall d (.inl rfl)
      have hs2 := hsmall _ (.inr hgv)
      rw [← hd, num_take, den_take] at hs2
      obtain ⟨e, h1, h2⟩ := eqFrac_same _ _ _ _ hs1.1 hs1.2 hs2.1 hs2.2 (.inl hden)
      rw [← hd, h1]
      simp only [Option.map_some]
      cases e with
      | false => exact ⟨⟨.none, true⟩, _, d, rfl, rfl, hset, hsd⟩
      | true =>
        refine ⟨⟨.none, false⟩, o, _, rfl, rfl, hgv, ?_⟩
        rw [← hd, num_take, den_take]
        obtain ⟨k1, k2, k3⟩ := h2 rfl
        exact ⟨k2, k1, k3.symm⟩
  | some off =>
    have hi := hin off hp
    unfold width at hi
    rw [if_neg h4, if_neg h24] at hi
    have hgv : get P a buf o = some (.none, (o.mem.drop off).take (maxSize P a)) := by
      unfold get
      rw [hp]
      simp only
      rw [if_neg h4, if_neg h24, if_neg (by omega)]
    obtain ⟨m, hm, hl, he⟩ := store_some o.mem off d (by omega)
    have hw : writeAt P a off (some d) o.mem = some m := by
      unfold writeAt
      rw [if_neg h4, if_neg h24]
      simp only [hdt]
      exact hm
    have hset : get P a buf { o with mem := m } = some (.none, d) := by
      unfold get
      rw [hp]
      simp only
      rw [if_neg h4, if_neg h24, if_neg (by omega), he, ← hd, piece_same o.mem off d (by omega)]
    have hs1 := hsmall d (.inl rfl)
    have hs2 := hsmall _ (.inr hgv)
    rw [← hd, num_take, den_take] at hs2
    obtain ⟨e, h1, h2⟩ := eqFrac_same _ _ _ _ hs2.1 hs2.2 hs1.1 hs1.2 (.inr hden)
    unfold set
    rw [hp]
    simp only
    rw [if_neg (by simp [hd]), if_pos hc]
    unfold eqData current
    simp only [if_neg h4, if_neg h24, if_pos hty]
    rw [← hd, h1]
    simp only [Option.bind_some]
    cases e with
    | false =>
      simp only [Bool.false_eq_true, if_false, hw, Option.map_some]
      exact ⟨⟨.none, true⟩, _, d, rfl, rfl, hset, hsd⟩
    | true =>
      refine ⟨⟨.none, false⟩, o, _, rfl, rfl, hgv, ?_⟩
      rw [← hd, num_take, den_take]
      exact h2 rfl

/-- 2/4 set where 1/2 is: it reads as 1/2, and nobody is told. -/
example : set linux ⟨0x10, 3, some 0, 0, 0, true, false⟩ (some [2, 0, 0, 0, 0, 0, 0, 0, 4, 0, 0, 0, 0, 0, 0, 0]) 16
      ⟨[1, 0, 0, 0, 0, 0, 0, 0, 2, 0, 0, 0, 0, 0, 0, 0], []⟩ =
    some (⟨.none, false⟩, ⟨[1, 0, 0, 0, 0, 0, 0, 0, 2, 0, 0, 0, 0, 0, 0, 0], []⟩) := by rfl

/-! Other attributes -/

theorem set_cases (P : Plat) (a : Attr) (data : Option Bytes) (n : Nat) (o o' : Obj) (r : Res)
    (h : set P a data n o = some (r, o')) :
    (o' = o ∧ r.told = false) ∨ (r = ⟨.none, true⟩ ∧
      ((a.place = none ∧ ∃ bytes, o' = { o with dyn := NodeData.setData P.w a.id a.ty bytes o.dyn }) ∨
       ∃ off m, a.place = some off ∧ writeAt P a off data o.mem = some m ∧ o' = { o with mem := m })) := by
  unfold set at h
  cases hp : a.place with
  | none =>
    rw [hp] at h
    simp only at h
    split at h
    · cases h; exact .inl ⟨rfl, rfl⟩
    · generalize hx : (if a.cmp = true then eqData a.ty data (NodeData.getData P.w a.id a.ty o.dyn) (maxSize P a)
        else some false) = x at h
      cases x with
      | none => cases h
      | some same =>
        cases same with
        | true => cases h; exact .inl ⟨rfl, rfl⟩
        | false => cases h; exact .inr ⟨rfl, .inl ⟨rfl, _, rfl⟩⟩
  | some off =>
    rw [hp] at h
    simp only at h
    split at h
    · cases h; exact .inl ⟨rfl, rfl⟩
    · generalize hx : (if a.cmp = true then eqData a.ty (some (current P a off o.mem)) data (maxSize P a)
        else some false) = x at h
      cases x with
      | none => cases h
      | some same =>
        cases same with
        | true => cases h; exact .inl ⟨rfl, rfl⟩
        | false =>
          simp only [Option.bind_some, Bool.false_eq_true, if_false] at h
          cases hw : writeAt P a off data o.mem with
          | none => rw [hw] at h; cases h
          | some m => rw [hw] at h; cases h; exact .inr ⟨rfl, .inr ⟨off, m, rfl, hw, rfl⟩⟩

/-- What is written lies in the place of the attribute, and leaves the other bits of a number. -/
theorem writeAt_local (P : Plat) (a : Attr) (off : Nat) (data : Option Bytes) (mem m : Bytes)
    (h : writeAt P a off data mem = some m) (hi : off + width P a ≤ mem.length) :
    m.length = mem.length ∧
    (∀ j k, (j + k ≤ off ∨ off + width P a ≤ j) → (m.drop j).take k = (mem.drop j).take k) ∧
    (a.ty = tyBit → ∀ b : BitVec 32, a.bit &&& b = 0#32 → word m off &&& b = word mem off &&& b) := by
  unfold writeAt at h
  unfold width at hi ⊢
  by_cases h4 : a.ty = tyString
  · rw [if_pos h4] at h hi
    rw [if_pos h4]
    refine ⟨?_, ?_, fun hb => absurd (h4.symm.trans hb) (by decide)⟩
    all_goals
      by_cases hz : a.size = 0
      · unfold strcpyS at h
        rw [hz, if_neg (by omega)] at h
        cases h
        simp
      · obtain ⟨m', hm', hl, _, ho⟩ := strcpyS_text mem off a.size ((data.map cstr).getD []) (by omega) hi (by
          cases data with
          | none => simp
          | some d => simpa using cstr_no0 d)
        rw [hm'] at h
        cases h
        first | exact hl | exact ho
  · rw [if_neg h4] at h hi
    rw [if_neg h4]
    by_cases h24 : a.ty = tyBit
    · rw [if_pos h24] at h hi
      rw [if_pos h24]
      simp only at h
      obtain ⟨m', hm', hl, hw, ho⟩ := word_write mem off
        (if (data.map fun d => NodeData.nonZero (d.take (P.psize tyBit))).getD false = true
          then word mem off ||| a.bit else word mem off &&& ~~~a.bit) hi
      rw [hm'] at h
      cases h
      refine ⟨hl, ho, fun _ b hb => ?_⟩
      rw [hw]
      have hbits : ∀ i (hi : i < 32), (a.bit[i] && b[i]) = false := by
        intro i hi
        have := congrArg (fun x : BitVec 32 => x[i]) hb
        simpa using this
      split
      · ext i hi
        have := hbits i hi
        simp only [BitVec.getElem_and, BitVec.getElem_or]
        revert this
        cases (word mem off)[i] <;> cases a.bit[i] <;> cases b[i] <;> simp
      · ext i hi
        have := hbits i hi
        simp only [BitVec.getElem_and, BitVec.getElem_not]
        revert this
        cases (word mem off)[i] <;> cases a.bit[i] <;> cases b[i] <;> simp
    · rw [if_neg h24] at h hi
      rw [if_neg h24]
      refine ⟨?_, ?_, fun hb => absurd hb h24⟩
      all_goals
        cases data with
        | none =>
          simp only at h
          obtain ⟨hle, rfl⟩ := store_inv _ _ _ _ h
          first
          | (intro j k hd; exact piece_other mem off _ hle j k (by simpa using hd))
          | (simp; omega)
        | some d =>
          simp only at h
          obtain ⟨hle, rfl⟩ := store_inv _ _ _ _ h
          first
          | (intro j k hd; exact piece_other mem off _ hle j k (by simp at hd ⊢; omega))
          | (simp at hle ⊢; omega)

/-- Two attributes of a node do not share memory: they are in different places of the structure or different bits of
one number there, or are different values, or only one of them is in the structure. -/
def Apart (P : Plat) (a b : Attr) : Prop :=
  match a.place, b.place with
  | none, none => NodeData.Fits P.w a.id a.ty ∧ NodeData.Fits P.w b.id b.ty ∧ (a.id ≠ b.id ∨ a.ty ≠ b.ty)
  | some i, some j => i + width P a ≤ j ∨ j + width P b ≤ i ∨
      (i = j ∧ a.ty = tyBit ∧ b.ty = tyBit ∧ a.bit &&& b.bit = 0#32)
  | _, _ => True

/-- **C235** (other attributes). Setting an attribute to anything leaves what the other attributes read as, into any
buffer. -/
theorem C235_others_kept (P : Plat) (hw : 8 ≤ P.w) (a b : Attr) (data : Option Bytes) (n : Nat) (o o' : Obj) (r : Res) (buf : Bytes)
    (hab : Apart P a b) (ha : Inside P a o) (hb : Inside P b o) (hdis : Distinct o) (he : Ends b o)
    (h : set P a data n o = some (r, o')) : get P b buf o' = get P b buf o := by
  rcases set_cases P a data n o o' r h with ⟨rfl, _⟩ | ⟨_, ⟨hp, bytes, rfl⟩ | ⟨off, m, hp, hm, rfl⟩⟩
  · rfl
  · unfold get
    cases hq : b.place with
    | some j => rfl
    | none =>
      unfold Apart at hab
      rw [hp, hq] at hab
      simp only at hab ⊢
      have : NodeData.getData P.w b.id b.ty (NodeData.setData P.w a.id a.ty bytes o.dyn) = NodeData.getData P.w b.id b.ty o.dyn := by
        unfold NodeData.getData
        rw [NodeData.get_set _ _ _ _ _ hdis, if_neg]
        intro hc
        obtain ⟨h1, h2⟩ := NodeData.code_inj P.w _ _ _ _ hw hab.2.1.1 hab.2.1.2 hab.1.1 hab.1.2 hc
        rcases hab.2.2 with h3 | h3
        · exact h3 h1.symm
        · exact h3 h2.symm
      rw [this]
  · unfold get
    cases hq : b.place with
    | none => rfl
    | some j =>
      obtain ⟨hl, ho, hbit⟩ := writeAt_local P a off data o.mem m hm (ha off hp)
      have hbj := hb j hq
      unfold Apart at hab
      rw [hp, hq] at hab
      simp only at hab ⊢
      by_cases h4 : b.ty = tyString
      · rw [if_pos h4, if_pos h4]
        have hwb : width P b = b.size := by unfold width; rw [if_pos h4]
        have hdisj : off + width P a ≤ j ∨ j + width P b ≤ off := by
          rcases hab with h | h | h
          · exact .inl h
          · exact .inr h
          · exact absurd (h4.symm.trans h.2.2.1) (by decide)
        have hpc := ho j b.size (by omega)
        have := cstr_local (o.mem.drop j) (m.drop j) b.size hpc.symm (he j hq h4) (by simp; omega)
        rw [this]
      · rw [if_neg h4, if_neg h4]
        by_cases h24 : b.ty = tyBit
        · rw [if_pos h24, if_pos h24]
          have hwb : width P b = 4 := by unfold width; rw [if_neg h4, if_pos h24]
          have : BitVec.ofNat 32 (leNat ((m.drop j).take 4)) &&& b.bit = BitVec.ofNat 32 (leNat ((o.mem.drop j).take 4)) &&& b.bit := by
            rcases hab with h | h | ⟨rfl, h1, h2, h3⟩
            · rw [ho j 4 (by omega)]
            · rw [ho j 4 (by omega)]
            · exact hbit h1 b.bit h3
          rw [this]
        · rw [if_neg h24, if_neg h24]
          have hwb : width P b = maxSize P b := by unfold width; rw [if_neg h4, if_neg h24]
          have hdisj : off + width P a ≤ j ∨ j + width P b ≤ off := by
            rcases hab with h | h | h
            · exact .inl h
            · exact .inr h
            · exact absurd h.2.2.1 h24
          rw [ho j (maxSize P b) (by omega)]

/-- Two bits of one number, and a number behind it. -/
example : Apart linux ⟨0x10, 24, some 0, 0, 1, true, false⟩ ⟨0x11, 24, some 0, 0, 2, true, false⟩ ∧
    Apart linux ⟨0x10, 24, some 0, 0, 1, true, false⟩ ⟨0x12, 2, some 4, 0, 0, false, false⟩ := by
  constructor
  · exact .inr (.inr ⟨rfl, rfl, rfl, by decide⟩)
  · exact .inl (by decide)

/-! Announcements -/

/-- **C235** (changes). When nothing is announced, the node is as before. -/
theorem C235_quiet (P : Plat) (a : Attr) (data : Option Bytes) (n : Nat) (o o' : Obj) (r : Res)
    (h : set P a data n o = some (r, o')) (ht : r.told = false) : o' = o := by
  rcases set_cases P a data n o o' r h with ⟨rfl, _⟩ | ⟨rfl, _⟩
  · rfl
  · cases ht

/-- **C235** (changes). An attribute that is compared, other than texts, flags and fractions, is announced only when it
reads differently than before. -/
theorem C235_told_partial (P : Plat) (a : Attr) (o o' : Obj) (r : Res) (d buf : Bytes) (hty : a.ty ∉ [0, 3, 4, 23, 24, 27, 30, 31, 32])
    (hc : a.cmp = true) (hin : Inside P a o) (hdis : Distinct o) (hd : d.length = bytesOf P a)
    (hno : a.noDefault = false) (hb : buf.length = d.length) (h : set P a (some d) d.length o = some (r, o')) :
    r.told = true ↔ get P a buf o ≠ get P a buf o' := by
  constructor
  case mpr =>
    intro hne
    cases ht : r.told with
    | true => rfl
    | false => exact absurd (by rw [C235_quiet P a _ _ o o' r h ht]) hne
  case mp =>
  intro ht he
  have h4 : a.ty ≠ tyString := by unfold tyString; simp at hty; omega
  have hdb := hd
  rw [← maxSize_bytesOf P a (by simp at hty; omega) h4] at hd
  have h24 : a.ty ≠ tyBit := by unfold tyBit; simp at hty; omega
  have h3 : a.ty ≠ tyFraction := by unfold tyFraction; simp at hty; omega
  have hdt : d.take (maxSize P a) = d := List.take_of_length_le (by omega)
  obtain ⟨r2, o2, k1, k2, k3⟩ := C235_value_partial P a o d buf (by simp at hty ⊢; omega) hin hdis (fun _ => h3) hdb
    (fun _ h => by rw [hno] at h; cases h) hb
  rw [h] at k1
  cases k1
  rw [k3] at he
  unfold set at h
  unfold get at he
  cases hp : a.place with
  | none =>
    rw [hp] at h he
    simp only [realSize, kept, if_neg h4] at h he
    rw [if_neg (by omega), if_pos hc] at h
    unfold eqData at h
    rw [if_neg h4] at h
    cases hg : NodeData.getData P.w a.id a.ty o.dyn with
    | none =>
      rw [hg] at h he
      simp only [hno, Bool.false_eq_true, if_false, Option.some.injEq, Prod.mk.injEq, true_and] at he
      have hz : NodeData.nonZero d = false := by rw [← he]; exact nonZero_replicate _
      simp only [hdt, hz, Option.map_some, Bool.not_false, if_true] at h
      cases h
      cases ht
    | some v =>
      rw [hg] at h he
      simp only [if_neg h4, if_neg h24, Option.some.injEq, Prod.mk.injEq, true_and] at he
      rw [if_neg (by omega)] at he
      simp only [Option.some.injEq, Prod.mk.injEq, true_and] at he
      simp only [if_neg h3, hdt, he, decide_true, Option.map_some, if_true] at h
      cases h
      cases ht
  | some off =>
    rw [hp] at h he
    simp only [if_neg h4, if_neg h24] at h he
    rw [if_neg (by omega)] at he
    simp only [Option.some.injEq, Prod.mk.injEq, true_and] at he
    rw [if_neg (by simp [hd]), if_pos hc] at h
    unfold eqData current at h
    simp only [if_neg h4, if_neg h24, if_neg h3, hdt, he, decide_true, Option.bind_some, if_true] at h
    cases h
    cases ht

/-! Where it fails -/

/-- A fraction without a denominator is not set where there is another: 5/0 reads as 0/0. -/
theorem C235_fraction_counterexample : ∃ (a : Attr) (o : Obj) (d buf : Bytes), a.ty = tyFraction ∧ a.cmp = true ∧
    (∃ o', set linux a (some d) 16 o = some (⟨.none, false⟩, o') ∧ get linux a buf o' = some (.none, List.replicate 16 0)) ∧
    d = [5, 0, 0, 0, 0, 0, 0, 0, 0, 0, 0, 0, 0, 0, 0, 0] :=
  ⟨⟨0x10, 3, some 0, 0, 0, true, false⟩, ⟨List.replicate 16 0, []⟩, _, List.replicate 16 1, rfl, rfl, ⟨_, rfl, rfl⟩, rfl⟩

/-- An attribute without a default that is set to zero can not be read, and an empty text as little. -/
theorem C235_zero_counterexample :
    (∃ o', set linux ⟨0x10, 2, none, 0, 0, false, true⟩ (some [0, 0, 0, 0]) 4 ⟨[], []⟩ = some (⟨.none, true⟩, o') ∧
      get linux ⟨0x10, 2, none, 0, 0, false, true⟩ [9, 9, 9, 9] o' = some (.invalidData, [9, 9, 9, 9])) ∧
    (∃ o', set linux ⟨0x11, 4, none, 0, 0, false, true⟩ (some [0]) 1 ⟨[], []⟩ = some (⟨.none, true⟩, o') ∧
      get linux ⟨0x11, 4, none, 0, 0, false, true⟩ [9, 9, 9, 9] o' = some (.invalidData, [9, 9, 9, 9])) :=
  ⟨⟨_, rfl, rfl⟩, ⟨_, rfl, rfl⟩⟩

/-- A text that is too long for its place is announced each time it is set, though the attribute reads as before; so is
a flag set to 2. -/
theorem C235_told_counterexample :
    (set linux ⟨0x10, 4, some 0, 3, 0, true, false⟩ (some [0x61, 0x62, 0x63, 0]) 4 ⟨[0x61, 0x62, 0], []⟩ =
      some (⟨.none, true⟩, ⟨[0x61, 0x62, 0], []⟩)) ∧
    (set linux ⟨0x11, 24, some 0, 0, 1, true, false⟩ (some [2, 0, 0, 0, 0, 0, 0, 0]) 8 ⟨[1, 0, 0, 0], []⟩ =
      some (⟨.none, true⟩, ⟨[1, 0, 0, 0], []⟩)) :=
  ⟨rfl, rfl⟩

/-- Sameness is not transitive: no value is the same as 0/0, 0/0 the same as 5/0, but no value is not the same as
5/0. -/
theorem C235_compare_counterexample : ∃ z f : Bytes,
    eqData tyFraction none (some z) 16 = some true ∧ eqData tyFraction (some z) (some f) 16 = some true ∧
    eqData tyFraction none (some f) 16 = some false :=
  ⟨List.replicate 16 0, 5 :: List.replicate 15 0, rfl, rfl, rfl⟩

end Verif.Attr
