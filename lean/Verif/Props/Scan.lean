import Verif.Ebml.ScanFuel
import Verif.Ebml.FindId
/-!
C24-C28, C70: the element finder and the probe for the first element.
-/
set_option linter.unusedSimpArgs false
namespace Verif.Ebml.Scan
open EbmlDoc

/-- The schema offers context `r` for an ID inside context `c`: it is the one context of the table
of `c` with that ID, or the one global context with it while the table of `c` has none. -/
def Offers (S : Schema) (c : Nat) (id r : Nat) : Prop :=
  (S.ctx r).id = id ∧ ∃ sem, (S.ctx c).sem = some sem ∧
    ((r ∈ sem ∧ ∀ x ∈ sem, (S.ctx x).id = id → x = r) ∨
     ((∀ x ∈ sem, (S.ctx x).id ≠ id) ∧ r ∈ S.globals ∧ ∀ x ∈ S.globals, (S.ctx x).id = id → x = r))

theorem find_unique (S : Schema) (l : List Nat) (id r : Nat) (hr : (S.ctx r).id = id) (hm : r ∈ l)
    (hu : ∀ x ∈ l, (S.ctx x).id = id → x = r) : l.find? (fun r => (S.ctx r).id == id) = some r := by
  cases h : l.find? (fun r => (S.ctx r).id == id) with
  | none =>
    rw [List.find?_eq_none] at h
    have := h r hm
    simp [hr] at this
  | some x =>
    obtain ⟨h1, h2⟩ := find_mem h
    rw [hu x h1 h2]

theorem createUsing_offers (S : Schema) (w : Bytes) (n : Nat) (a : Bool) (c : PCtx) (up : List PCtx) (id r : Nat)
    (hw : idFromBuffer w n = id) (ho : Offers S c.ref id r) :
    ∃ ch : Int, ch ≤ 0 ∧ createUsing S w n a (c :: up) 0 = some (.known r, ch) := by
  obtain ⟨hid, sem, hs, h | ⟨h1, h2, h3⟩⟩ := ho
  · refine ⟨0, by omega, ?_⟩
    rw [createUsing.eq_def]
    simp only [hs, hw]
    rw [find_unique S sem id r hid h.1 h.2]
  · refine ⟨0 - 1, by omega, ?_⟩
    rw [createUsing.eq_def]
    simp only [hs, hw]
    have hn : sem.find? (fun r => (S.ctx r).id == id) = none := by
      rw [List.find?_eq_none]; intro x hx; simpa using h1 x hx
    rw [hn]
    simp only
    rw [find_unique S _ id r hid h2 h3]

theorem read_sizeField (len v : Nat) (h1 : 1 ≤ len) (h8 : len ≤ 8) (hv : v < 2 ^ (7 * len) - 1) :
    readCodedSize (sizeField len v) = ⟨v, len, 2 ^ (7 * len) - 1⟩ := by
  have := (C02_forced_size_roundtrip len h1 h8 v hv []).2.2
  rwa [List.append_nil, codedValue_eq_sizeField v len h1 h8] at this

theorem read_unknownField (len : Nat) (h1 : 1 ≤ len) (h8 : len ≤ 8) :
    readCodedSize (unknownField len) = ⟨2 ^ (7 * len) - 1, len, 2 ^ (7 * len) - 1⟩ := by
  have := C04_unknown_unambiguous_partial.1 len h1 h8 0 []
  rwa [List.append_nil, codedValue_eq_unknownField 0 len h1 h8] at this

/-- C24. On a well-formed head of an element the context knows, whose size the class of the element
allows and which ends inside the context, the finder returns exactly this element: its position, the
position and length of the size field, the size, the end, and the stream at its data. -/
theorem C24_head_found (S : Schema) (allowDummy : Bool) (fuel : Nat) (pre rest : Bytes) (c : PCtx) (up : List PCtx)
    (levels : Int) (id n : Nat) (hid : WellFormedId id n) (len size : Nat) (h1 : 1 ≤ len) (h8 : len ≤ 8)
    (hsize : size < 2 ^ (7 * len) - 1) (r : Nat) (hr : Offers S c.ref id r) (hcls : (S.ctx r).cls ≠ .dummy)
    (hval : validateSize true size (S.ctx r).cls = true)
    (hend : c.endPos = -1 ∨ (pre.length : Int) + n + len + size ≤ c.endPos) :
    findNext S allowDummy (fuel + 1) (pre ++ idField id ++ sizeField len size ++ rest) pre.length (c :: up) levels =
      .found { kind := .known r, pos := pre.length, sizePos := pre.length + n, sizeLen := len, dataSize := size,
               endPos := pre.length + n + len + size, finite := true, levels := levels,
               streamPos := pre.length + n + len } := by
  have hread := read_sizeField len size h1 h8 hsize
  obtain ⟨_, _, _, _, _, _, hfrom⟩ := idField_head id n hid
  obtain ⟨ch, hch, hcr⟩ := createUsing_offers S (idField id ++ sizeField len size) n allowDummy c up id r (hfrom _) hr
  have hne : ((size : Nat) != 2 ^ (7 * len) - 1) = true := by simp; omega
  have := findNext_head S allowDummy fuel (pre ++ idField id ++ sizeField len size ++ rest) pre.length c up levels id n
    (sizeField len size) rest hid (by rw [hread, sizeField_length]) (by rw [sizeField_length]; omega)
    (by simp) (by rw [sizeField_length]; omega) (by rw [hread]; simp only; omega) r ch hcr hcls
    (by rw [hread]; simp only [hne]; exact hval)
  rw [this, hread, sizeField_length]
  have hc0 : ¬ ch > 0 := by omega
  simp only [hne, if_true, if_neg hc0]

/-- C24, unknown size: a master is found with no size; it reaches to the end of its context. -/
theorem C24_head_found_unknown (S : Schema) (allowDummy : Bool) (fuel : Nat) (pre rest : Bytes) (c : PCtx) (up : List PCtx)
    (levels : Int) (id n : Nat) (hid : WellFormedId id n) (len : Nat) (h1 : 1 ≤ len) (h8 : len ≤ 8)
    (r : Nat) (hr : Offers S c.ref id r) (hcls : (S.ctx r).cls = .master)
    (hend : c.endPos = -1 ∨ (pre.length : Int) + n + len ≤ c.endPos) :
    findNext S allowDummy (fuel + 1) (pre ++ idField id ++ unknownField len ++ rest) pre.length (c :: up) levels =
      .found { kind := .known r, pos := pre.length, sizePos := pre.length + n, sizeLen := len, dataSize := -1,
               endPos := c.endPos, finite := false, levels := levels, streamPos := pre.length + n + len } := by
  have hread := read_unknownField len h1 h8
  obtain ⟨_, _, _, _, _, _, hfrom⟩ := idField_head id n hid
  obtain ⟨ch, hch, hcr⟩ := createUsing_offers S (idField id ++ unknownField len) n allowDummy c up id r (hfrom _) hr
  have := findNext_head S allowDummy fuel (pre ++ idField id ++ unknownField len ++ rest) pre.length c up levels id n
    (unknownField len) rest hid (by rw [hread, unknownField_length]) (by rw [unknownField_length]; omega)
    (by simp) (by rw [unknownField_length]; omega) (by rw [hread]; simp) r ch hcr (by rw [hcls]; decide)
    (by rw [hcls]; rfl)
  rw [this, hread, unknownField_length]
  have hc0 : ¬ ch > 0 := by omega
  simp [if_neg hc0]

/-- A small schema: 0 is the root, 1 an EBML head, 2 and 3 an integer and a string inside it, 4 and
5 the global Void and CRC-32. -/
def demo : Schema where
  ctx := fun
    | 0 => ⟨0xFF, .master, some [1]⟩
    | 1 => ⟨0x1A45DFA3, .master, some [2, 3]⟩
    | 2 => ⟨0x4286, .uint, none⟩
    | 3 => ⟨0x4282, .str, none⟩
    | 4 => ⟨0xEC, .void, none⟩
    | _ => ⟨0xBF, .crc, none⟩
  globals := [4, 5]

example : Offers demo 1 0x4286 2 ∧ Offers demo 1 0xEC 4 ∧ WellFormedId 0x4286 2 ∧
    validateSize true 1 (demo.ctx 2).cls = true := by
  refine ⟨⟨rfl, _, rfl, Or.inl ⟨by decide, by decide⟩⟩, ⟨rfl, _, rfl, Or.inr ⟨by decide, by decide, by decide⟩⟩, by unfold WellFormedId; decide, rfl⟩

example : findNext demo false 1 [1, 2, 3, 0x42, 0x86, 0x81, 7, 9, 9] 3 [⟨1, 9⟩, ⟨0, -1⟩] 0 =
    .found ⟨.known 2, 3, 5, 1, 1, 7, true, 0, 6⟩ := by decide

/-- C25. On any bytes, from any position, in any contexts the finder never touches a byte outside
its window of 16 bytes, nor a byte of the window it has not read. -/
theorem C25_window_safe (S : Schema) (allowDummy : Bool) (fuel : Nat) (data : Bytes) (start : Nat) (ctx : List PCtx)
    (levels : Int) : findNext S allowDummy fuel data start ctx levels ≠ .bad :=
  (loop_inv S allowDummy ctx levels fuel _ _ 0 [] start (data.drop start) (by simp) (by simp) (by simp) (by simp)).1

example : findNext demo true 20 [0x81, 0x00, 0x0F, 0x80, 0x80, 3] 0 [⟨1, 6⟩] 0 ≠ .bad := by decide

/-- C27. On every stream the finder ends after at most one pass per byte left (one more to see the
end), with an outcome that more passes do not change; when it finds nothing the stream stands
between where it started and its end. -/
theorem C27_terminates (S : Schema) (allowDummy : Bool) (data : Bytes) (start : Nat) (hs : start ≤ data.length)
    (ctx : List PCtx) (levels : Int) : ∃ out, out ≠ .fuelOut ∧
      (∀ fuel, data.length - start < fuel → findNext S allowDummy fuel data start ctx levels = out) ∧
      (∀ l p, out = .none l p → start ≤ p ∧ p ≤ data.length) := by
  have hne : ∀ fuel, data.length - start < fuel → findNext S allowDummy fuel data start ctx levels ≠ .fuelOut := by
    intro fuel hf
    exact (loop_inv S allowDummy ctx levels fuel _ _ 0 [] start (data.drop start) (by simp) (by simp) (by simp) (by simp)).2
      (by simp; omega)
  refine ⟨findNext S allowDummy (data.length - start + 1) data start ctx levels, hne _ (by omega), ?_, ?_⟩
  · intro fuel hf
    obtain ⟨k, rfl⟩ : ∃ k, fuel = data.length - start + 1 + k := ⟨fuel - (data.length - start + 1), by omega⟩
    clear hf
    induction k with
    | zero => rfl
    | succ k ih =>
      rw [← ih]
      exact loop_fuel S allowDummy ctx levels (data.length - start + 1 + k) _ _ 0 [] start (data.drop start)
        (hne (data.length - start + 1 + k) (by omega))
  · intro l p h
    have := loop_pos S allowDummy ctx levels _ _ _ 0 [] start (data.drop start) (by simp) (by simp) (by simp) l p h
    simp at this
    omega

example : findNext demo false 7 [1, 2, 3, 4, 5, 6] 0 [⟨0, -1⟩] 0 = .none 0 6 := by decide

/-- C26 as hoped for: an element of known size ends inside all contexts from its own level up. -/
def InsideParent : Prop :=
  ∀ (S : Schema) (allowDummy : Bool) (fuel : Nat) (data : Bytes) (start : Nat) (ctx : List PCtx) (levels : Int) (f : Found),
    start ≤ data.length → Nested ctx → findNext S allowDummy fuel data start ctx levels = .found f → f.finite = true →
    ∀ c ∈ ctx.drop (f.levels - levels).toNat, c.endPos ≠ -1 → f.endPos ≤ c.endPos

/-- C26 fails: the check forgets the head of the element. A parent of 6 bytes, a string of 6 bytes
behind a head of 3 bytes. -/
theorem C26_inside_parent_counterexample : ¬ InsideParent := by
  intro h
  have := h demo false 1 [0x42, 0x82, 0x86, 65, 65, 65, 65, 65, 65] 0 [⟨1, 6⟩, ⟨0, -1⟩] 0
    ⟨.known 3, 0, 2, 1, 6, 9, true, 0, 3⟩ (by decide) (by simp [Nested]) (by decide) rfl ⟨1, 6⟩ (by decide) (by decide)
  revert this
  decide

/-- C26, what holds: the element ends inside, or its size counted from its first byte does; so it
exceeds its parents by less than a head, 12 bytes at most. -/
theorem C26_inside_parent_partial (S : Schema) (allowDummy : Bool) (fuel : Nat) (data : Bytes) (start : Nat)
    (hs : start ≤ data.length) (ctx : List PCtx) (hn : Nested ctx) (levels : Int) (f : Found)
    (h : findNext S allowDummy fuel data start ctx levels = .found f) (hf : f.finite = true) :
    levels ≤ f.levels ∧ ∀ c ∈ ctx.drop (f.levels - levels).toNat, c.endPos ≠ -1 →
      f.endPos ≤ c.endPos ∨ (f.pos + f.dataSize ≤ c.endPos ∧ f.endPos ≤ c.endPos + 12) := by
  obtain ⟨j, hj⟩ := findNext_found S allowDummy fuel data start hs ctx levels f h
  have := hj.levels
  refine ⟨by omega, ?_⟩
  rw [show (f.levels - levels).toNat = j by omega]
  exact hj.inside hn hf

example : findNext demo false 1 [0x42, 0x82, 0x83, 65, 65, 65] 0 [⟨1, 6⟩, ⟨0, -1⟩] 0 =
    .found ⟨.known 3, 0, 2, 1, 3, 6, true, 0, 3⟩ ∧ Nested [⟨1, 6⟩, ⟨0, -1⟩] := ⟨by decide, by simp [Nested]⟩

/-- C70. Whatever the bytes, an element of a known context that the finder returns is in the stream:
at the reported position are the bytes of its ID, directly followed by a size field that decodes to
the reported size, length and end; the size is one its class allows; and the context is offered at
the level reported (or it is a global one, or, when dummies are allowed, a context of the chain
itself). -/
theorem C70_found_is_there (S : Schema) (allowDummy : Bool) (fuel : Nat) (data : Bytes) (start : Nat)
    (hs : start ≤ data.length) (ctx : List PCtx) (levels : Int) (f : Found)
    (h : findNext S allowDummy fuel data start ctx levels = .found f) (r : Nat) (hr : f.kind = .known r) :
    (∃ (before idBytes after : Bytes), data = before ++ idBytes ++ after ∧ f.pos = before.length ∧
      f.sizePos = before.length + idBytes.length ∧ 1 ≤ idBytes.length ∧ idBytes.length ≤ 4 ∧
      beNat idBytes = (S.ctx r).id ∧
      (readCodedSize after).len ≠ 0 ∧ f.sizeLen = (readCodedSize after).len ∧
      f.streamPos = f.sizePos + f.sizeLen ∧
      (f.finite = false ↔ (readCodedSize after).value = (readCodedSize after).unknown) ∧
      (f.finite = true → f.dataSize = (readCodedSize after).value ∧ f.endPos = f.streamPos + f.dataSize) ∧
      validateSize f.finite (readCodedSize after).value (S.ctx r).cls = true) ∧
    levels ≤ f.levels ∧
    ((∃ (c : PCtx) (sem : List Nat), ctx[(f.levels - levels).toNat]? = some c ∧ (S.ctx c.ref).sem = some sem ∧ r ∈ sem) ∨
      r ∈ S.globals ∨ (allowDummy = true ∧ ∃ c ∈ ctx, c.ref = r)) := by
  obtain ⟨j, hj⟩ := findNext_found S allowDummy fuel data start hs ctx levels f h
  have hl := hj.levels
  refine ⟨?_, by omega, ?_⟩
  · obtain ⟨p, n, e1, e2, e3, e4, e5, e6, v, rfl, e8, e9, e10, e11, e12, e13, e14⟩ := hj.backed r hr
    refine ⟨data.take p, (data.drop p).take n, data.drop (p + n), ?_, ?_, ?_, ?_, ?_, e6.symm, e8, e9, ?_, e10, ?_, e14⟩
    · rw [List.append_assoc, ← List.drop_drop, List.take_append_drop, List.take_append_drop]
    · simp [e1]; omega
    · simp [e2]; omega
    · simp; omega
    · simp; omega
    · omega
    · intro hf
      have := e11 hf
      have := e12 hf
      omega
  · rw [show (f.levels - levels).toNat = j by omega]
    exact hj.level r hr

example : findNext demo false 3 [0, 0x42, 0x86, 0x81, 7] 0 [⟨1, 5⟩, ⟨0, -1⟩] 0 =
    .found ⟨.known 2, 1, 3, 1, 1, 5, true, 0, 4⟩ := by decide

end Verif.Ebml.Scan

namespace Verif.Ebml.Probe

/-- C28 as hoped for: the probe never writes outside its buffers. -/
def ProbeSafe : Prop := ∀ data : Bytes, probe data ≠ .oob

/-- C28 fails: five bytes, the first without a length marker in its upper half, make the probe
store a fifth byte in its ID buffer of four. -/
theorem C28_probe_safe_counterexample : ¬ ProbeSafe := by
  intro h
  exact h [0x01, 0, 0, 0, 0] (by decide)

/-- C28, exactly: the probe writes outside its buffers if and only if at least five bytes are there
and the first is below 16. It always ends. -/
theorem C28_probe_safe_partial (data : Bytes) :
    (probe data = .oob ↔ 5 ≤ data.length ∧ ∃ b0, data.head? = some b0 ∧ b0.toNat < 16) ∧ probe data ≠ .fuelOut := by
  have h := outer_first 10 data (by omega)
  refine ⟨?_, h.1⟩
  rw [probe, h.2]
  constructor
  · rintro ⟨b0, b1, b2, b3, b4, rest, rfl, hb⟩
    exact ⟨by simp, b0, rfl, hb⟩
  · rintro ⟨hl, b0, hb, hlt⟩
    match data, hl, hb with
    | c0 :: c1 :: c2 :: c3 :: c4 :: rest, _, hb =>
      simp at hb
      subst hb
      exact ⟨_, _, _, _, _, _, rfl, hlt⟩

example : probe [0x1A, 0x45, 0xDF, 0xA3, 0x84, 1] = .found [0x1A, 0x45, 0xDF, 0xA3] 1 (some ⟨4, 1, 127⟩) [1] := by decide +kernel

end Verif.Ebml.Probe
