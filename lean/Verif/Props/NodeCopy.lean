import Verif.Core.NodeCopy
import Verif.Props.Attr
/-!
C237: a copy of a node reads as the original.
-/
set_option linter.unusedSimpArgs false
namespace Verif.Attr
open Verif Verif.Core

/-! ### Specification -/

/-- The attribute has no value and no default: it can not be read. -/
def Unset (P : Plat) (a : Attr) (o : Obj) : Prop :=
  a.place = none ∧ a.noDefault = true ∧ NodeData.getData P.w a.id a.ty o.dyn = none

instance (P : Plat) (a : Attr) (o : Obj) : Decidable (Unset P a o) := by unfold Unset; infer_instance

/-- What a pointer becomes: the first entry for it in the table of copies, or itself. -/
def Replaced (dup : List (Bytes × Bytes)) (p p' : Bytes) : Prop :=
  (∃ a b, dup = a ++ (p, p') :: b ∧ ∀ x ∈ a, x.1 ≠ p) ∨ (p' = p ∧ ∀ x ∈ dup, x.1 ≠ p)

/-- What a value becomes: nodes and pins (type 10 and 25) begin with a pointer. -/
def Patched (P : Plat) (dup : List (Bytes × Bytes)) (ty : Nat) (d d' : Bytes) : Prop :=
  if ty = 10 ∨ ty = 25 then
    ∃ p p' rest, p.length = P.psize 10 ∧ d = p ++ rest ∧ d' = p' ++ rest ∧ Replaced dup p p'
  else d' = d

/-- The text an attribute holds. -/
def textOf (P : Plat) (a : Attr) (o : Obj) : Bytes :=
  match a.place with
  | none => ((NodeData.getData P.w a.id a.ty o.dyn).map cstr).getD []
  | some off => cstr (o.mem.drop off)

/-- The attribute of the copy `dst'` against the original, and against the copy as it was before. -/
def Copied (P : Plat) (dup : List (Bytes × Bytes)) (src dst dst' : Obj) (e : Entry) : Prop :=
  if e.saved = false ∨ e.attr.ty = 0 ∨ P.psize e.attr.ty = 0 ∨ Unset P e.attr src then
    ∀ rbuf, get P e.attr rbuf dst' = get P e.attr rbuf dst
  else if e.attr.ty = tyString then
    ∀ rbuf, rbuf ≠ [] → ∃ x y, get P e.attr rbuf src = some (.none, x) ∧ get P e.attr rbuf dst' = some (.none, y) ∧ cstr x = cstr y
  else
    ∀ rbuf, rbuf.length = bytesOf P e.attr → ∃ x y, get P e.attr rbuf src = some (.none, x) ∧
      get P e.attr rbuf dst' = some (.none, y) ∧ Patched P dup e.attr.ty x y

/-- The sizes of the types make sense. -/
structure Sane (P : Plat) : Prop where
  code : 8 ≤ P.w
  data : 0 < P.maxData
  text : P.psize tyString = P.maxData
  bit : 0 < P.psize tyBit ∧ P.psize tyBit ≠ P.maxData
  node : 0 < P.psize 10 ∧ P.psize 10 < P.maxData
  pin : P.psize 10 ≤ P.psize 25 ∧ P.psize 25 < P.maxData

/-- The attributes the theorem is about: no references, arrays or expressions, no fraction that is compared; a flag is a
bit of a number of the structure, a text in the structure has a place, and a value is not larger than the largest one. -/
structure Copyable (P : Plat) (a : Attr) : Prop where
  ty : a.ty ∉ [23, 27, 30, 31, 32]
  frac : a.cmp = true → a.ty ≠ tyFraction
  flag : a.ty = tyBit → a.place ≠ none ∧ a.bit ≠ 0
  text : a.ty = tyString → a.place ≠ none → 0 < a.size
  fits : bytesOf P a ≤ P.maxData ∨ a.ty = tyString

/-- The attribute in the original: in the structure, of its size, a text not longer than what the copy can hold; what has
no default is not zero, nor does it become so. -/
structure Whole (P : Plat) (dup : List (Bytes × Bytes)) (a : Attr) (o : Obj) : Prop where
  inside : Inside P a o
  ends : Ends a o
  sized : Sized P a o
  short : a.ty = tyString → (textOf P a o).length < P.maxData
  value : a.place = none → a.noDefault = true → ∀ v, NodeData.getData P.w a.id a.ty o.dyn = some v →
    if a.ty = tyString then cstr v ≠ [] else ∀ d, Patched P dup a.ty v d → NodeData.nonZero d = true

/-- The copy before: the attributes are in its structure. -/
structure Ready (P : Plat) (es : List Entry) (o : Obj) : Prop where
  inside : ∀ e ∈ es, Inside P e.attr o
  ends : ∀ e ∈ es, Ends e.attr o
  distinct : Distinct o

/-! ### Lemmas -/

theorem replace_spec (dup : List (Bytes × Bytes)) (p : Bytes) : Replaced dup p (replace dup p) := by
  induction dup with
  | nil => exact .inr ⟨rfl, by simp⟩
  | cons x r ih =>
    obtain ⟨o, d⟩ := x
    unfold replace
    by_cases h : o = p
    · rw [if_pos h]
      exact .inl ⟨[], r, by rw [h]; rfl, by simp⟩
    · rw [if_neg h]
      rcases ih with ⟨a, b, he, hn⟩ | ⟨he, hn⟩
      · refine .inl ⟨(o, d) :: a, b, by rw [List.cons_append, ← he], ?_⟩
        intro y hy
        rcases List.mem_cons.1 hy with rfl | hy
        · exact h
        · exact hn y hy
      · refine .inr ⟨he, ?_⟩
        intro y hy
        rcases List.mem_cons.1 hy with rfl | hy
        · exact h
        · exact hn y hy

theorem replace_length (n : Nat) (dup : List (Bytes × Bytes)) (hd : ∀ x ∈ dup, x.2.length = n) (p : Bytes) (hp : p.length = n) :
    (replace dup p).length = n := by
  rcases replace_spec dup p with ⟨a, b, he, _⟩ | ⟨he, _⟩
  · have := hd (p, replace dup p) (by generalize replace dup p = q at he; rw [he]; simp)
    exact this
  · rw [he, hp]

theorem patch_spec (P : Plat) (dup : List (Bytes × Bytes)) (ty : Nat) (d : Bytes) (hl : ty = 10 ∨ ty = 25 → P.psize 10 ≤ d.length) :
    Patched P dup ty d (patch P dup ty d) := by
  unfold Patched patch tyPin tyNode
  by_cases h : ty = 10 ∨ ty = 25
  · rw [if_pos h, if_pos (by omega)]
    exact ⟨_, _, d.drop (P.psize 10), by have := hl h; simp; omega, (List.take_append_drop _ _).symm, rfl, replace_spec _ _⟩
  · rw [if_neg h, if_neg (by omega)]

theorem patch_length (P : Plat) (dup : List (Bytes × Bytes)) (hd : ∀ x ∈ dup, x.2.length = P.psize 10) (ty : Nat) (d : Bytes)
    (hl : ty = 10 ∨ ty = 25 → P.psize 10 ≤ d.length) : (patch P dup ty d).length = d.length := by
  unfold patch tyPin tyNode
  by_cases h : ty = 25 ∨ ty = 10
  · rw [if_pos h, List.length_append, replace_length (P.psize 10) dup hd _ (by have := hl (by omega); simp; omega)]
    have := hl (by omega)
    simp
    omega
  · rw [if_neg h]

theorem apart_symm (P : Plat) (a b : Attr) (h : Apart P a b) : Apart P b a := by
  unfold Apart at *
  cases ha : a.place <;> cases hb : b.place <;> rw [ha, hb] at h <;> simp only at h ⊢
  · exact ⟨h.2.1, h.1, h.2.2.elim (fun h => .inl (Ne.symm h)) (fun h => .inr (Ne.symm h))⟩
  · rcases h with h | h | ⟨h1, h2, h3, h4⟩
    · exact .inr (.inl h)
    · exact .inl h
    · exact .inr (.inr ⟨h1.symm, h3, h2, by rw [BitVec.and_comm]; exact h4⟩)

/-- What setting an attribute leaves. -/
theorem set_keeps (P : Plat) (a : Attr) (data : Option Bytes) (n : Nat) (o o' : Obj) (r : Res) (hin : Inside P a o)
    (hdis : Distinct o) (h : set P a data n o = some (r, o')) :
    o'.mem.length = o.mem.length ∧ Distinct o' ∧
      ∀ b, Apart P a b → Inside P b o → Ends b o → Ends b o' := by
  rcases set_cases P a data n o o' r h with ⟨rfl, _⟩ | ⟨_, ⟨hp, bytes, rfl⟩ | ⟨off, m, hp, hm, rfl⟩⟩
  · exact ⟨rfl, hdis, fun _ _ _ h => h⟩
  · exact ⟨rfl, NodeData.set_nodup _ _ _ _ _ hdis, fun _ _ _ h => h⟩
  · obtain ⟨hl, ho, _⟩ := writeAt_local P a off data o.mem m hm (hin off hp)
    refine ⟨hl, hdis, ?_⟩
    intro b hab hb he j hj h4
    have hbj := hb j hj
    have hwb : width P b = b.size := by unfold width; rw [if_pos h4]
    unfold Apart at hab
    rw [hp, hj] at hab
    simp only at hab
    have hpc := ho j b.size (by
      rcases hab with h | h | h
      · omega
      · omega
      · exact absurd (h4.symm.trans h.2.2.1) (by decide))
    have := cstr_local (o.mem.drop j) (m.drop j) b.size hpc.symm (he j hj h4) (by simp; omega)
    simp only
    rw [← this]
    exact he j hj h4

/-- A value in the original can be read. -/
theorem get_value (P : Plat) (a : Attr) (o : Obj) (h4 : a.ty ≠ tyString) (h24 : a.ty ≠ tyBit)
    (hin : Inside P a o) (hsz : Sized P a o) (hset : ¬ Unset P a o) (rbuf : Bytes) (hb : rbuf.length = maxSize P a) :
    ∃ x, get P a rbuf o = some (.none, x) ∧ x.length = maxSize P a ∧
      ((∀ r2 : Bytes, r2.length = maxSize P a → get P a r2 o = some (.none, x))) ∧
      (a.place = none → a.noDefault = true → NodeData.getData P.w a.id a.ty o.dyn = some x) := by
  unfold get
  cases hp : a.place with
  | none =>
    simp only
    cases hg : NodeData.getData P.w a.id a.ty o.dyn with
    | none =>
      simp only
      have hn : a.noDefault = false := by
        cases hn : a.noDefault with
        | false => rfl
        | true => exact absurd ⟨hp, hn, hg⟩ hset
      simp only [hn, Bool.false_eq_true, if_false]
      exact ⟨_, rfl, by simp [hb], fun r2 h2 => by rw [hb, h2], fun _ h => by cases h⟩
    | some v =>
      have hv := hsz hp h4 v hg
      have ht : v.take (maxSize P a) = v := List.take_of_length_le (by omega)
      simp only
      rw [if_neg h4, if_neg h24, if_neg (by omega), ht]
      exact ⟨v, rfl, hv, fun r2 h2 => by rw [if_neg h4, if_neg h24, if_neg (by omega)], fun _ _ => rfl⟩
  | some off =>
    have hi := hin off hp
    unfold width at hi
    rw [if_neg h4, if_neg h24] at hi
    simp only
    rw [if_neg h4, if_neg h24, if_neg (by omega)]
    exact ⟨_, rfl, by simp; omega, fun r2 h2 => by rw [if_neg h4, if_neg h24, if_neg (by omega)], fun h => by cases h⟩

theorem textOf_spec (P : Plat) (a : Attr) (o : Obj) (hset : ¬ Unset P a o) :
    match a.place with
      | none => match NodeData.getData P.w a.id a.ty o.dyn with
        | none => textOf P a o = [] ∧ a.noDefault = false
        | some v => cstr v = textOf P a o
      | some off => cstr (o.mem.drop off) = textOf P a o := by
  unfold textOf
  cases hp : a.place with
  | some off => rfl
  | none =>
    simp only
    cases hg : NodeData.getData P.w a.id a.ty o.dyn with
    | some v => rfl
    | none =>
      refine ⟨rfl, ?_⟩
      cases hn : a.noDefault with
      | false => rfl
      | true => exact absurd ⟨hp, hn, hg⟩ hset

theorem textOf_no0 (P : Plat) (a : Attr) (o : Obj) : ∀ x ∈ textOf P a o, x ≠ 0 := by
  unfold textOf
  cases a.place with
  | some off => exact cstr_no0 _
  | none =>
    simp only
    cases NodeData.getData P.w a.id a.ty o.dyn with
    | none => simp
    | some v => exact cstr_no0 v

theorem maxSize_zero (P : Plat) (hP : Sane P) (a : Attr) (h0 : a.ty ≠ 0) : maxSize P a = 0 ↔ P.psize a.ty = 0 := by
  have := hP.data
  unfold maxSize
  rw [if_neg h0]
  by_cases h : P.psize a.ty = P.maxData ∧ a.ty ≠ tyString
  · rw [if_pos h]
    by_cases hs : a.size = 0
    · rw [if_pos hs]; omega
    · rw [if_neg hs]; omega
  · rw [if_neg h]

/-- One attribute. -/
theorem step (P : Plat) (hP : Sane P) (dup : List (Bytes × Bytes)) (hdup : ∀ x ∈ dup, x.2.length = P.psize 10) (e : Entry)
    (src dst : Obj) (buf : Bytes) (hbuf : buf.length = P.maxData) (hc : Copyable P e.attr) (hs : Whole P dup e.attr src)
    (hin : Inside P e.attr dst) (he : Ends e.attr dst) (hdis : Distinct dst) :
    ∃ buf' dst', copyOne P dup src e buf dst = some (buf', dst') ∧ buf'.length = buf.length ∧
      Copied P dup src dst dst' e ∧ Ends e.attr dst' ∧
      (dst' = dst ∨ ∃ data n r, set P e.attr data n dst = some (r, dst')) := by
  generalize ha : e.attr = a at *
  unfold copyOne Copied
  rw [ha]
  by_cases hskip : e.saved = false ∨ a.ty = 0 ∨ P.psize a.ty = 0
  · refine ⟨buf, dst, ?_, rfl, ?_, he, .inl rfl⟩
    · rw [if_neg]
      rintro ⟨h1, h2, h3⟩
      rcases hskip with h | h | h
      · rw [h] at h1; cases h1
      · exact h2 h
      · exact h3 ((maxSize_zero P hP a h2).2 h)
    · rw [if_pos (hskip.elim .inl fun h => h.elim (fun h => .inr (.inl h)) fun h => .inr (.inr (.inl h)))]
      exact fun _ => rfl
  have h1 : e.saved = true := by cases h : e.saved with | true => rfl | false => exact absurd (.inl h) hskip
  have h0 : a.ty ≠ 0 := fun h => hskip (.inr (.inl h))
  have hps : P.psize a.ty ≠ 0 := fun h => hskip (.inr (.inr h))
  have hmz : maxSize P a ≠ 0 := fun h => hps ((maxSize_zero P hP a h0).1 h)
  have hmle : maxSize P a ≤ buf.length := by
    rw [hbuf]
    by_cases h4 : a.ty = tyString
    · unfold maxSize
      rw [if_neg h0, if_neg (by simp [h4]), h4, hP.text]
      exact Nat.le_refl _
    · rw [maxSize_bytesOf P a h0 h4]
      rcases hc.fits with h | h
      · exact h
      · exact absurd h h4
  have htl : (buf.take (maxSize P a)).length = maxSize P a := by simp; omega
  rw [if_pos ⟨h1, h0, hmz⟩, if_neg (by omega)]
  by_cases hun : Unset P a src
  · obtain ⟨u1, u2, u3⟩ := hun
    have hg : get P a (buf.take (maxSize P a)) src = some (.invalidData, buf.take (maxSize P a)) := by
      unfold get
      rw [u1]
      simp only [u3, u2, if_true]
    rw [hg]
    refine ⟨buf.take (maxSize P a) ++ buf.drop (maxSize P a), dst, rfl, by rw [List.take_append_drop], ?_, he, .inl rfl⟩
    rw [if_pos (.inr (.inr (.inr ⟨u1, u2, u3⟩)))]
    exact fun _ => rfl
  simp only [if_neg (show ¬ (e.saved = false ∨ a.ty = 0 ∨ P.psize a.ty = 0 ∨ Unset P a src) from
    fun h => h.elim (fun h => hskip (.inl h)) fun h => h.elim h0 fun h => h.elim hps hun)]
  by_cases h4 : a.ty = tyString
  · -- a text
    simp only [if_pos h4]
    have hts := textOf_spec P a src hun
    have hmx : maxSize P a = P.maxData := by
      unfold maxSize
      rw [if_neg h0, if_neg (by simp [h4]), h4, hP.text]
    obtain ⟨d, hd1, hd2, hd3⟩ := get_text P a (buf.take (maxSize P a)) src (textOf P a src) h4
      (by intro h; rw [h] at htl; simp at htl; omega) (textOf_no0 P a src) hts
    have hcd : cstr d = textOf P a src := by
      rw [hd3]
      apply List.take_of_length_le
      have := hs.short h4
      omega
    have hpatch : patch P dup a.ty d = d := by unfold patch; rw [if_neg (by rw [h4]; decide)]
    rw [hd1]
    simp only [hpatch]
    have htext := fun rbuf (hrb : rbuf ≠ []) => C235_text_partial P a dst d rbuf (maxSize P a) h4 hin
      (hc.text h4) he hdis hrb (by
        intro hp hn hcn
        cases hg : NodeData.getData P.w a.id a.ty src.dyn with
        | none => exact hun ⟨hp, hn, hg⟩
        | some v =>
          have hv := hs.value hp hn v hg
          rw [if_pos h4] at hv
          apply hv
          rw [hp, hg] at hts
          simp only at hts
          rw [hts, ← hcd, hcn])
    obtain ⟨r, o', out, k1, k2, k3, k4, k5, k6⟩ := htext [0] (by simp)
    refine ⟨d ++ buf.drop (maxSize P a), o', by rw [k1]; rfl, by simp [hd2]; omega, ?_, k3, .inr ⟨_, _, r, k1⟩⟩
    intro rbuf hrb
    obtain ⟨x, x1, x2, x3⟩ := get_text P a rbuf src (textOf P a src) h4 hrb (textOf_no0 P a src) hts
    obtain ⟨r', o'', y, y1, y2, y3, y4, y5, y6⟩ := htext rbuf hrb
    rw [k1] at y1
    cases y1
    refine ⟨x, y, x1, y4, ?_⟩
    rw [x3, y6, hcd]
    congr 1
    symm
    apply List.take_of_length_le
    cases hp : a.place with
    | none => simp
    | some off =>
      rw [if_neg (by simp)]
      have := hs.ends off hp h4
      rw [hp] at hts
      simp only at hts
      rw [hts] at this
      omega
  · simp only [if_neg h4]
    have hends : ∀ o' : Obj, Ends a o' := fun o' off _ h => absurd h h4
    by_cases h24 : a.ty = tyBit
    · -- a flag
      have hmx : maxSize P a = P.psize tyBit := by
        unfold maxSize
        rw [if_neg h0, h24, if_neg (by have := hP.bit; omega)]
      have hbo : bytesOf P a = P.psize tyBit := by rw [← maxSize_bytesOf P a h0 h4, hmx]
      obtain ⟨hpl, hbit⟩ := hc.flag h24
      cases hp : a.place with
      | none => exact absurd hp hpl
      | some off =>
        rw [get_bit P a _ src off h24 hp (by rw [htl, hmx])]
        have hpatch : ∀ d, patch P dup a.ty d = d := by intro d; unfold patch; rw [if_neg (by rw [h24]; decide)]
        simp only [hpatch]
        rw [htl, hmx]
        have hflag := fun rbuf hrb => C235_flag P a dst off (some (boolBytes (P.psize tyBit) (word src.mem off &&& a.bit != 0))) rbuf h24 hp
          hin hbit hP.bit (by intro d h; cases h; unfold boolBytes; rw [leBytes_length]) hrb
        obtain ⟨r, o', k1, k2, k3⟩ := hflag (List.replicate (P.psize tyBit) 0) (by simp)
        refine ⟨_, o', by rw [k1]; rfl, ?_, ?_, hends _, .inr ⟨_, _, r, k1⟩⟩
        · unfold boolBytes
          rw [List.length_append, leBytes_length]
          simp
          omega
        · intro rbuf hrb
          rw [hbo] at hrb
          obtain ⟨r', o'', y1, y2, y3⟩ := hflag rbuf hrb
          rw [k1] at y1
          cases y1
          refine ⟨_, _, get_bit P a rbuf src off h24 hp hrb, y3, ?_⟩
          unfold Patched
          rw [if_neg (by rw [h24]; decide)]
          simp only [Option.map_some, Option.getD_some]
          rw [boolBytes_nonZero _ hP.bit.1]
    · -- another value
      obtain ⟨x, x1, x2, x3, x4⟩ := get_value P a src h4 h24 hs.inside hs.sized hun (buf.take (maxSize P a)) htl
      have hxl : a.ty = 10 ∨ a.ty = 25 → P.psize 10 ≤ x.length := by
        intro h
        rw [x2]
        unfold maxSize
        rw [if_neg h0]
        have h10 := hP.node
        have h25 := hP.pin
        rcases h with h | h <;> rw [h, if_neg (by omega)] <;> omega
      have hpl := patch_length P dup hdup a.ty x hxl
      have hps' := patch_spec P dup a.ty x hxl
      rw [x1]
      simp only
      have hval := fun rbuf hrb => C235_value_partial P a dst (patch P dup a.ty x) rbuf (by
          have := hc.ty
          unfold tyString at h4
          unfold tyBit at h24
          simp at this ⊢
          omega) hin hdis hc.frac (by rw [hpl, x2, maxSize_bytesOf P a h0 h4]) (by
          intro hp hn
          have := hs.value hp hn x (x4 hp hn)
          rw [if_neg h4] at this
          exact this _ hps') hrb
      obtain ⟨r, o', k1, k2, k3⟩ := hval (List.replicate (maxSize P a) 0) (by rw [hpl, x2]; simp)
      rw [hpl, x2] at k1
      refine ⟨_, o', by rw [k1]; rfl, by rw [List.length_append, hpl, x2]; simp; omega, ?_, hends _, .inr ⟨_, _, r, k1⟩⟩
      intro rbuf hrb
      rw [← maxSize_bytesOf P a h0 h4] at hrb
      obtain ⟨r', o'', y1, y2, y3⟩ := hval rbuf (by rw [hpl, x2, hrb])
      rw [hpl, x2, k1] at y1
      cases y1
      exact ⟨x, _, x3 rbuf hrb, y3, hps'⟩

theorem copied_mono (P : Plat) (dup : List (Bytes × Bytes)) (src dst d1 d2 : Obj) (e : Entry)
    (h : Copied P dup src dst d1 e) (hk : ∀ rbuf, get P e.attr rbuf d2 = get P e.attr rbuf d1) : Copied P dup src dst d2 e := by
  unfold Copied at *
  simp only [hk]
  exact h

theorem copied_from (P : Plat) (dup : List (Bytes × Bytes)) (src dst d1 d2 : Obj) (e : Entry)
    (h : Copied P dup src d1 d2 e) (hk : ∀ rbuf, get P e.attr rbuf d1 = get P e.attr rbuf dst) : Copied P dup src dst d2 e := by
  unfold Copied at *
  simp only [← hk]
  exact h

/-! ### The theorems -/

/-- **C237** (copying). Copying a node never writes out of bounds, and then every attribute of the class that is saved
reads in the copy as in the original, with nodes and pins of the table of copies replaced; the attributes that are not
saved, and those the original has no value for, read as before. The rest of the node is left alone: anything apart from
the attributes of the class reads as before. Left out: what `Copyable` and `Whole` leave out. -/
theorem C237_copied_partial (P : Plat) (hP : Sane P) (dup : List (Bytes × Bytes)) (hdup : ∀ x ∈ dup, x.2.length = P.psize 10)
    (cls : Nat) (es : List Entry) (hap : es.Pairwise fun x y => Apart P x.attr y.attr) (hc : ∀ e ∈ es, Copyable P e.attr)
    (src dst : Obj) (hs : ∀ e ∈ es, Whole P dup e.attr src) (hr : Ready P es dst) (buf : Bytes) (hbuf : buf.length = P.maxData) :
    ∃ dst', copy P dup cls cls es buf src dst = some dst' ∧ Ready P es dst' ∧ (∀ e ∈ es, Copied P dup src dst dst' e) ∧
      ∀ b rbuf, (∀ e ∈ es, Apart P e.attr b) → Inside P b dst → Ends b dst → get P b rbuf dst' = get P b rbuf dst := by
  unfold copy
  rw [if_neg (by simp)]
  -- with the memory of the copy as large as before
  suffices h : ∃ dst', copyData P dup src es buf dst = some dst' ∧ dst'.mem.length = dst.mem.length ∧ Ready P es dst' ∧
      (∀ e ∈ es, Copied P dup src dst dst' e) ∧
      ∀ b rbuf, (∀ e ∈ es, Apart P e.attr b) → Inside P b dst → Ends b dst → Ends b dst' ∧ get P b rbuf dst' = get P b rbuf dst by
    obtain ⟨d, h1, _, h2, h3, h4⟩ := h
    exact ⟨d, h1, h2, h3, fun b rbuf k1 k2 k3 => (h4 b rbuf k1 k2 k3).2⟩
  induction es generalizing dst buf with
  | nil => exact ⟨dst, rfl, rfl, hr, by simp, fun b rbuf _ _ h => ⟨h, rfl⟩⟩
  | cons e es ih =>
    obtain ⟨hae, hap⟩ := List.pairwise_cons.1 hap
    have hie := hr.inside e (by simp)
    have hee := hr.ends e (by simp)
    obtain ⟨buf', d1, s1, s2, s3, s4, s5⟩ := step P hP dup hdup e src dst buf hbuf (hc e (by simp)) (hs e (by simp)) hie hee hr.distinct
    have hkeep : d1.mem.length = dst.mem.length ∧ Distinct d1 ∧ ∀ b, Apart P e.attr b → Inside P b dst → Ends b dst →
        Ends b d1 ∧ ∀ rbuf, get P b rbuf d1 = get P b rbuf dst := by
      rcases s5 with rfl | ⟨data, n, r, hset⟩
      · exact ⟨rfl, hr.distinct, fun _ _ _ h => ⟨h, fun _ => rfl⟩⟩
      · obtain ⟨k1, k2, k3⟩ := set_keeps P e.attr data n dst d1 r hie hr.distinct hset
        exact ⟨k1, k2, fun b hb hi he => ⟨k3 b hb hi he, fun rbuf =>
          C235_others_kept P hP.code e.attr b data n dst d1 r rbuf hb hie hi hr.distinct he hset⟩⟩
    obtain ⟨k1, k2, k3⟩ := hkeep
    have hins : ∀ b, Inside P b dst → Inside P b d1 := fun b hb off h => by rw [k1]; exact hb off h
    have hrd : Ready P es d1 := ⟨fun x hx => hins _ (hr.inside x (by simp [hx])),
      fun x hx => (k3 x.attr (hae x hx) (hr.inside x (by simp [hx])) (hr.ends x (by simp [hx]))).1, k2⟩
    obtain ⟨d2, i1, i2, i3, i4, i5⟩ := ih hap (fun x hx => hc x (by simp [hx])) d1 (fun x hx => hs x (by simp [hx])) hrd buf' (by omega)
    have he2 := fun rbuf => i5 e.attr rbuf (fun x hx => apart_symm P _ _ (hae x hx)) (hins _ hie) s4
    refine ⟨d2, ?_, by omega, ⟨?_, ?_, i3.distinct⟩, ?_, ?_⟩
    · unfold copyData
      rw [s1]
      exact i1
    · intro x hx
      rcases List.mem_cons.1 hx with rfl | hx
      · intro off h
        rw [i2]
        exact hins _ hie off h
      · exact i3.inside x hx
    · intro x hx
      rcases List.mem_cons.1 hx with rfl | hx
      · exact (he2 []).1
      · exact i3.ends x hx
    · intro x hx
      rcases List.mem_cons.1 hx with rfl | hx
      · exact copied_mono P dup src dst d1 d2 _ s3 fun rbuf => (he2 rbuf).2
      · exact copied_from P dup src dst d1 d2 x (i4 x hx)
          (k3 x.attr (hae x hx) (hr.inside x (by simp [hx])) (hr.ends x (by simp [hx]))).2
    · intro b rbuf hb hbi hbe
      obtain ⟨m1, m2⟩ := k3 b (hb e (by simp)) hbi hbe
      obtain ⟨m3, m4⟩ := i5 b rbuf (fun x hx => hb x (by simp [hx])) (hins _ hbi) m1
      exact ⟨m3, by rw [m4, m2]⟩

/-- A node of another class is left as it is. -/
theorem C237_other_class (P : Plat) (dup : List (Bytes × Bytes)) (cls srcCls : Nat) (h : cls ≠ srcCls) (es : List Entry)
    (buf : Bytes) (src dst : Obj) : copy P dup cls srcCls es buf src dst = some dst := by
  unfold copy
  rw [if_pos h]

/-! ### A class with a number, a text, a node, a value and an attribute that is not saved -/

/-- Small sizes: pointers of 2 bytes, values of at most 8. -/
def small : Plat :=
  ⟨fun t => if t = 1 ∨ t = 24 then 4 else if t = 2 then 4 else if t = 10 then 2 else if t = 25 then 4 else if t = 4 ∨ t = 16 then 8 else 0, 8, 64⟩

theorem small_sane : Sane small := ⟨by decide, by decide, by decide, by decide, by decide, by decide⟩

def sampleClass : List Entry :=
  [⟨⟨0x10, 2, some 0, 0, 0, true, false⟩, true⟩, ⟨⟨0x11, 4, some 4, 4, 0, false, false⟩, true⟩,
   ⟨⟨0x12, 10, some 8, 0, 0, true, false⟩, true⟩, ⟨⟨0x13, 2, none, 0, 0, false, false⟩, true⟩,
   ⟨⟨0x14, 2, some 10, 0, 0, false, false⟩, false⟩]

def sampleSrc : Obj := ⟨[1, 2, 3, 4, 0x61, 0x62, 0, 9, 7, 7, 5, 5, 5, 5], [(0x1302, [6, 0, 0, 0])]⟩
def sampleDst : Obj := ⟨[0, 0, 0, 0, 0x7A, 0, 0, 0, 0, 0, 3, 3, 3, 3], []⟩

/-- The node 7, 7 has the copy 8, 8. -/
example : copy small [([7, 7], [8, 8])] 5 5 sampleClass (List.replicate 8 0xEE) sampleSrc sampleDst =
    some ⟨[1, 2, 3, 4, 0x61, 0x62, 0, 0, 8, 8, 3, 3, 3, 3], [(0x1302, [6, 0, 0, 0])]⟩ := by rfl

/-- The hypotheses are met. -/
example : sampleClass.Pairwise (fun x y => Apart small x.attr y.attr) ∧ (∀ e ∈ sampleClass, Copyable small e.attr) ∧
    (∀ e ∈ sampleClass, Whole small [([7, 7], [8, 8])] e.attr sampleSrc) ∧ Ready small sampleClass sampleDst := by
  refine ⟨?_, ?_, ?_, ?_, ?_, ?_⟩
  · simp [sampleClass, Apart, width, maxSize, small, tyString, tyBit]
  · intro e he
    simp only [sampleClass, List.mem_cons, List.not_mem_nil, or_false] at he
    rcases he with rfl | rfl | rfl | rfl | rfl <;>
      exact ⟨by decide, by decide, by decide, by decide, by decide⟩
  · intro e he
    simp only [sampleClass, List.mem_cons, List.not_mem_nil, or_false] at he
    rcases he with rfl | rfl | rfl | rfl | rfl <;>
      refine ⟨?_, ?_, ?_, by decide, fun _ h => by cases h⟩ <;>
      first
      | (intro off h; cases h; done)
      | (intro off h; cases h; decide)
      | (intro off h1 h2; cases h1; revert h2; decide)
      | (intro h; cases h; done)
      | (intro off h1 h2; cases h1; done)
      | (intro _ _ v hv; have : v = [6, 0, 0, 0] := by { have h2 : some [6, 0, 0, 0] = some v := hv; cases h2; rfl }; rw [this]; decide)
  · intro e he
    simp only [sampleClass, List.mem_cons, List.not_mem_nil, or_false] at he
    rcases he with rfl | rfl | rfl | rfl | rfl <;> intro off h <;> cases h <;> decide
  · intro e he
    simp only [sampleClass, List.mem_cons, List.not_mem_nil, or_false] at he
    rcases he with rfl | rfl | rfl | rfl | rfl <;> intro off h1 h2 <;> cases h1 <;> revert h2 <;> decide
  · simp [Distinct, sampleDst]

/-! ### What fails -/

/-- An attribute without a default that the original has no value for keeps the value the copy had: the copy does not read
as the original. -/
theorem C237_unset_counterexample : ∃ (e : Entry) (src dst dst' : Obj), e.saved = true ∧
    copy small [] 5 5 [e] (List.replicate 8 0) src dst = some dst' ∧
    get small e.attr [0, 0, 0, 0] src = some (.invalidData, [0, 0, 0, 0]) ∧
    get small e.attr [0, 0, 0, 0] dst' = some (.none, [6, 0, 0, 0]) :=
  ⟨⟨⟨0x13, 2, none, 0, 0, false, true⟩, true⟩, ⟨[], []⟩, ⟨[], [(0x1302, [6, 0, 0, 0])]⟩, ⟨[], [(0x1302, [6, 0, 0, 0])]⟩, rfl, rfl, rfl, rfl⟩

/-- A text among the values that is longer than the buffer of `Node_Copy` is cut in the copy. -/
theorem C237_long_text_counterexample : ∃ (e : Entry) (src dst' : Obj), e.saved = true ∧ e.attr.ty = tyString ∧
    copy small [] 5 5 [e] (List.replicate 8 0) src ⟨[], []⟩ = some dst' ∧
    get small e.attr (List.replicate 12 0) src = some (.none, List.replicate 9 0x61 ++ [0, 0, 0]) ∧
    get small e.attr (List.replicate 12 0) dst' = some (.none, List.replicate 7 0x61 ++ [0, 0, 0, 0, 0]) :=
  ⟨⟨⟨0x13, 4, none, 0, 0, false, false⟩, true⟩, ⟨[], [(0x1304, List.replicate 9 0x61 ++ [0])]⟩,
    ⟨[], [(0x1304, List.replicate 7 0x61 ++ [0])]⟩, rfl, rfl, by rfl, by rfl, by rfl⟩

/-- Binary data declared larger than `MAXDATA` is read behind the buffer of `Node_Copy`, whatever the nodes hold. -/
theorem C237_buffer_counterexample (P : Plat) (hP : Sane P) (h16 : P.psize 16 = P.maxData) (src dst : Obj) (dup : List (Bytes × Bytes)) (cls : Nat)
    (buf : Bytes) (hb : buf.length = P.maxData) (off n : Nat) (hn : P.maxData < n) :
    copy P dup cls cls [⟨⟨0x13, 16, some off, n, 0, false, false⟩, true⟩] buf src dst = none := by
  have := hP.data
  have hm : maxSize P ⟨0x13, 16, some off, n, 0, false, false⟩ = n := by
    unfold maxSize
    simp only
    rw [if_neg (by decide), if_pos ⟨h16, by decide⟩, if_neg (by omega)]
  unfold copy copyData copyOne
  simp only [hm]
  rw [if_neg (by simp), if_pos ⟨trivial, by decide, by omega⟩, if_pos (by omega)]
  rfl

example : small.psize 16 = small.maxData := rfl

end Verif.Attr
