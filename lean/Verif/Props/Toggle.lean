import Verif.Core.Toggle
import Verif.Props.NodeCopy
/-!
C239: inverting a flag.
-/
set_option linter.unusedSimpArgs false
namespace Verif.Attr
open Verif Verif.Core

/-- The attribute is a flag: a number of its own, in the structure or among the values, or a bit of a number of the
structure. -/
def IsFlag (P : Plat) (a : Attr) : Prop :=
  (a.ty = 1 ∨ (a.ty = 24 ∧ a.place ≠ none ∧ a.bit ≠ 0)) ∧ 0 < P.psize 1 ∧ P.psize 24 = P.psize 1 ∧ P.psize 1 ≠ P.maxData

/-- The flag of the node, as everyone reads it. -/
def ReadsFlag (P : Plat) (a : Attr) (o : Obj) (v : Bool) : Prop :=
  ∀ buf : Bytes, buf.length = P.psize 1 → ∃ d, get P a buf o = some (.none, d) ∧ d.length = P.psize 1 ∧ (v = true ↔ ∃ x ∈ d, x ≠ 0)

theorem nonZero_iff (d : Bytes) : NodeData.nonZero d = true ↔ ∃ x ∈ d, x ≠ 0 := by
  unfold NodeData.nonZero
  simp

theorem flag_sizes (P : Plat) (a : Attr) (h : IsFlag P a) : maxSize P a = P.psize 1 := by
  obtain ⟨h1, h2, h3, h4⟩ := h
  unfold maxSize
  rcases h1 with h1 | ⟨h1, _⟩
  · rw [h1, if_neg (by decide), if_neg (by simp [h4])]
  · rw [h1, if_neg (by decide), if_neg (by rw [h3]; simp [h4]), h3]

/-- A flag can always be read, as a number, and is 0 or not. -/
theorem flag_reads (P : Plat) (a : Attr) (o : Obj) (hf : IsFlag P a) (hin : Inside P a o) (hs : Sized P a o)
    (hno : a.noDefault = false) : ∃ v, ReadsFlag P a o v := by
  have hm := flag_sizes P a hf
  have hf' := hf
  obtain ⟨h1, h2, h3, h4⟩ := hf
  rcases h1 with h1 | ⟨h1, hp, hb⟩
  · obtain ⟨x, _, x2, x3, _⟩ := get_value P a o (by rw [h1]; decide) (by rw [h1]; decide) hin hs
      (by rintro ⟨_, h, _⟩; rw [hno] at h; cases h) (List.replicate (maxSize P a) 0) (by simp)
    exact ⟨NodeData.nonZero x, fun buf hb => ⟨x, x3 buf (by omega), by omega, nonZero_iff x⟩⟩
  · cases hpl : a.place with
    | none => exact absurd hpl hp
    | some off =>
      refine ⟨(word o.mem off &&& a.bit != 0), fun buf hbl => ⟨_, get_bit P a buf o off h1 hpl (by unfold tyBit; omega), ?_, ?_⟩⟩
      · unfold boolBytes
        rw [leBytes_length, hbl]
      · rw [← nonZero_iff, boolBytes_nonZero _ (by omega)]

theorem flag_set (P : Plat) (a : Attr) (o : Obj) (hf : IsFlag P a) (hin : Inside P a o) (hdis : Distinct o)
    (hno : a.noDefault = false) (v : Bool) :
    ∃ r o', set P a (some (boolBytes (P.psize 1) v)) (P.psize 1) o = some (r, o') ∧ r.err = .none ∧
      ∀ buf : Bytes, buf.length = P.psize 1 → get P a buf o' = some (.none, boolBytes (P.psize 1) v) := by
  have hm := flag_sizes P a hf
  obtain ⟨h1, h2, h3, h4⟩ := hf
  have hbl : (boolBytes (P.psize 1) v).length = P.psize 1 := by unfold boolBytes; rw [leBytes_length]
  rcases h1 with h1 | ⟨h1, hp, hb⟩
  · have key := fun buf hbuf => C235_value_partial P a o (boolBytes (P.psize 1) v) buf (by rw [h1]; decide) hin hdis
      (fun _ => by rw [h1]; decide) (by rw [hbl, ← maxSize_bytesOf P a (by rw [h1]; decide) (by rw [h1]; decide), hm])
      (by intro _ h; rw [hno] at h; cases h) hbuf
    obtain ⟨r, o', k1, k2, _⟩ := key (List.replicate (P.psize 1) 0) (by rw [hbl]; simp)
    rw [hbl] at k1
    refine ⟨r, o', k1, k2, fun buf hbuf => ?_⟩
    obtain ⟨r', o'', y1, _, y3⟩ := key buf (by omega)
    rw [hbl, k1] at y1
    cases y1
    exact y3
  · cases hpl : a.place with
    | none => exact absurd hpl hp
    | some off =>
      have e24 : P.psize tyBit = P.psize 1 := h3
      have key := fun buf hbuf => C235_flag P a o off (some (boolBytes (P.psize 1) v)) buf h1 hpl hin hb
        ⟨by omega, by omega⟩ (by intro d h; cases h; omega) hbuf
      obtain ⟨r, o', k1, k2, _⟩ := key (List.replicate (P.psize 1) 0) (by simp [e24])
      rw [e24] at k1
      refine ⟨r, o', k1, k2, fun buf hbuf => ?_⟩
      obtain ⟨r', o'', y1, _, y3⟩ := key buf (by omega)
      rw [e24, k1] at y1
      cases y1
      rw [y3, hbuf]
      simp only [Option.map_some, Option.getD_some]
      rw [boolBytes_nonZero _ h2]

/-- **C239**. A flag always reads as something. Inverting a flag makes it read as its opposite, 1 or 0, whatever number other than 0 it held; every other
attribute reads as before; and inverting it again makes it read as at first. Left out: flags without
a default (`C239_no_default_counterexample`). -/
theorem C239_toggle_partial (P : Plat) (hw : 8 ≤ P.w) (a : Attr) (o : Obj) (hf : IsFlag P a) (hin : Inside P a o) (hdis : Distinct o)
    (hs : Sized P a o) (hno : a.noDefault = false) :
    ∃ v r o', ReadsFlag P a o v ∧ toggle P a o = some (r, o') ∧ r.err = .none ∧ ReadsFlag P a o' (!v) ∧
      (∀ b buf, Apart P a b → Inside P b o → Ends b o → get P b buf o' = get P b buf o) ∧
      ∃ r2 o2, toggle P a o' = some (r2, o2) ∧ r2.err = .none ∧ ReadsFlag P a o2 v := by
  have one : ∀ (q : Obj) (u : Bool), Inside P a q → Distinct q → ReadsFlag P a q u →
      ∃ r o', toggle P a q = some (r, o') ∧ r.err = .none ∧ ReadsFlag P a o' (!u) ∧
        set P a (some (boolBytes (P.psize 1) (!u))) (P.psize 1) q = some (r, o') := by
    intro q u hq hd hu
    obtain ⟨d, g1, g2, g3⟩ := hu (List.replicate (P.psize 1) 0) (by simp)
    have hz : NodeData.nonZero d = u := by
      rw [← nonZero_iff] at g3
      cases u <;> cases h : NodeData.nonZero d <;> simp_all
    obtain ⟨r, o', k1, k2, k3⟩ := flag_set P a q hf hq hd hno (!u)
    refine ⟨r, o', ?_, k2, ?_, k1⟩
    · unfold toggle tyBool
      rw [g1]
      simp only [Option.bind_some, hz]
      exact k1
    · intro buf hb
      refine ⟨_, k3 buf hb, by unfold boolBytes; rw [leBytes_length], ?_⟩
      rw [← nonZero_iff, boolBytes_nonZero _ hf.2.1]
  obtain ⟨v, hv⟩ := flag_reads P a o hf hin hs hno
  obtain ⟨r, o', k1, k2, k3, k4⟩ := one o v hin hdis hv
  obtain ⟨l1, l2, _⟩ := set_keeps P a _ _ o o' r hin hdis k4
  obtain ⟨r2, o2, m1, m2, m3, _⟩ := one o' (!v) (fun off h => by rw [l1]; exact hin off h) l2 k3
  refine ⟨v, r, o', hv, k1, k2, k3, ?_, r2, o2, m1, m2, by simpa using m3⟩
  intro b buf hab hb he
  exact C235_others_kept P hw a b _ _ o o' r buf hab hin hb hdis he k4

/-- A flag held as 5 becomes 0, then 1; bit 4 of a number. -/
example : (toggle small ⟨0x10, 1, some 0, 0, 0, true, false⟩ ⟨[5, 0, 0, 0], []⟩).map (·.2.mem) = some [0, 0, 0, 0] ∧
    (toggle small ⟨0x10, 1, some 0, 0, 0, true, false⟩ ⟨[0, 0, 0, 0], []⟩).map (·.2.mem) = some [1, 0, 0, 0] ∧
    (toggle small ⟨0x10, 24, some 0, 0, 4, true, false⟩ ⟨[3, 0, 0, 0], []⟩).map (·.2.mem) = some [7, 0, 0, 0] := by
  refine ⟨by rfl, by rfl, by rfl⟩

example : IsFlag small ⟨0x10, 24, some 0, 0, 4, true, false⟩ ∧ IsFlag small ⟨0x10, 1, none, 0, 0, true, false⟩ :=
  ⟨⟨.inr ⟨rfl, by simp, by decide⟩, by decide, by decide, by decide⟩, ⟨.inl rfl, by decide, by decide, by decide⟩⟩

/-- A flag without a default that is inverted to 0 can not be read any more. -/
theorem C239_no_default_counterexample : ∃ (a : Attr) (o o' : Obj) (r : Res), IsFlag small a ∧ ReadsFlag small a o true ∧
    toggle small a o = some (r, o') ∧ r.err = .none ∧ ¬ ReadsFlag small a o' false := by
  refine ⟨⟨0x10, 1, none, 0, 0, false, true⟩, ⟨[], [(0x1001, [1, 0, 0, 0])]⟩, ⟨[], []⟩, ⟨.none, true⟩,
    ⟨.inl rfl, by decide, by decide, by decide⟩, ?_, by rfl, rfl, ?_⟩
  · intro buf hb
    refine ⟨[1, 0, 0, 0], ?_, by decide, by simp⟩
    unfold get
    have hb' : buf.length = 4 := hb
    simp only
    rw [show NodeData.getData small.w 0x10 1 [(0x1001, [1, 0, 0, 0])] = some [1, 0, 0, 0] by rfl]
    simp only
    rw [if_neg (by decide), if_neg (by decide), if_neg (by rw [hb']; decide)]
    rfl
  · intro h
    obtain ⟨d, h1, _⟩ := h [0, 0, 0, 0] (by decide)
    have : get small ⟨0x10, 1, none, 0, 0, false, true⟩ [0, 0, 0, 0] ⟨[], []⟩ = some (.invalidData, [0, 0, 0, 0]) := by rfl
    rw [this] at h1
    cases h1

end Verif.Attr
