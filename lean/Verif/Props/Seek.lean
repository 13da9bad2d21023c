import Verif.Mkv.Seek
import Verif.Props.Vint
/-!
C113: entries of a SeekHead name the element they are linked to.
-/
set_option linter.unusedSimpArgs false
namespace Verif.Mkv
open Verif.Ebml

/-- Children as the library creates and reads them: SeekID is a binary, SeekPosition an unsigned
integer. -/
def SeekTyped (kids : List Elt) : Prop :=
  ∀ e ∈ kids, (e.base.id = idSeekID → ∃ b d v, e = .leaf b d (.bin v)) ∧
    (e.base.id = idSeekPosition → ∃ b d v, e = .leaf b d (.uint v))

theorem findChild_onFirst_same (id : Nat) (fresh : Elt) (f : Elt → Elt) (hf : ∀ e, (f e).base.id = e.base.id)
    (hfr : fresh.base.id = id) : ∀ kids, ∃ e, (e = fresh ∨ e ∈ kids) ∧ e.base.id = id ∧
      findChild id (onFirst id fresh f kids) = some (f e) := by
  intro kids
  induction kids with
  | nil => exact ⟨fresh, Or.inl rfl, hfr, by simp [onFirst, findChild, hf, hfr]⟩
  | cons k ks ih =>
    rw [onFirst]
    by_cases h : k.base.id = id
    · rw [if_pos h]
      exact ⟨k, Or.inr (by simp), h, by rw [findChild, if_pos (by rw [hf]; exact h)]⟩
    · rw [if_neg h]
      obtain ⟨e, h1, h2, h3⟩ := ih
      refine ⟨e, h1.imp_right (fun h => by simp [h]), h2, ?_⟩
      rw [findChild, if_neg h]; exact h3

theorem findChild_onFirst_other (id id' : Nat) (fresh : Elt) (f : Elt → Elt) (hf : ∀ e, (f e).base.id = e.base.id)
    (hfr : fresh.base.id = id) (hne : id' ≠ id) : ∀ kids,
      findChild id' (onFirst id fresh f kids) = findChild id' kids := by
  intro kids
  induction kids with
  | nil => simp only [onFirst, findChild]; rw [if_neg (by rw [hf, hfr]; exact fun h => hne h.symm)]
  | cons k ks ih =>
    rw [onFirst]
    by_cases h : k.base.id = id
    · rw [if_pos h]
      simp only [findChild]
      rw [if_neg (by rw [hf, h]; exact fun h => hne h.symm), if_neg (by rw [h]; exact fun h => hne h.symm)]
    · rw [if_neg h]
      simp only [findChild, ih]

theorem onFirst_others (id : Nat) (fresh : Elt) (f : Elt → Elt) (hf : ∀ e, (f e).base.id = e.base.id)
    (hfr : fresh.base.id = id) (q : Elt → Bool) (hq : ∀ e, e.base.id = id → q e = false) : ∀ kids,
      (onFirst id fresh f kids).filter q = kids.filter q := by
  intro kids
  induction kids with
  | nil => simp [onFirst, hq (f fresh) (by rw [hf, hfr])]
  | cons k ks ih =>
    rw [onFirst]
    by_cases h : k.base.id = id
    · rw [if_pos h, List.filter_cons_of_neg (by rw [hq _ (by rw [hf]; exact h)]; simp),
        List.filter_cons_of_neg (by rw [hq _ h]; simp)]
    · rw [if_neg h, List.filter_cons, List.filter_cons, ih]

theorem setNumber_id (v : Leaf) (e : Elt) : (setNumber v e).base.id = e.base.id := by cases e <;> rfl
theorem setBinary_id (v : Bytes) (e : Elt) : (setBinary v e).base.id = e.base.id := by cases e <;> rfl

/-- **C113.** After an entry of a SeekHead is updated, whatever children it has, it gives the ID and the position of
the element it is linked to, and its other children are as they were. -/
theorem C113_seek_entry (segData : Int) (linkId n : Nat) (linkPos : Int) (kids : List Elt)
    (hid : WellFormedId linkId n) (htyped : SeekTyped kids)
    (hseg : 0 ≤ segData) (hpos : segData ≤ linkPos) (hfile : linkPos < 2 ^ 63) :
    metaSeekID (metaSeekUpdate segData linkId linkPos kids) = some linkId ∧
    metaSeekPosInSegment (metaSeekUpdate segData linkId linkPos kids) = some (linkPos - segData) ∧
    metaSeekAbsolutePos segData (metaSeekUpdate segData linkId linkPos kids) = some linkPos ∧
    ∀ q : Elt → Bool, (∀ e, e.base.id = idSeekID ∨ e.base.id = idSeekPosition → q e = false) →
      (metaSeekUpdate segData linkId linkPos kids).filter q = kids.filter q := by
  obtain ⟨bytes, hb1, hb2, _, hb3, _⟩ := C10_id_roundtrip linkId n hid 4 (by decide) []
  rw [List.append_nil] at hb3
  have hbne : bytes ≠ [] := by
    intro h; rw [h] at hb2; have := hid.1; simp at hb2; omega
  have hne : idSeekID ≠ idSeekPosition := by decide
  have hP : metaSeekPosInSegment (metaSeekUpdate segData linkId linkPos kids) = some (linkPos - segData) := by
    unfold metaSeekPosInSegment metaSeekUpdate
    obtain ⟨e, h1, h2, h3⟩ := findChild_onFirst_same idSeekPosition newSeekPosition
      (setNumber (.uint (BitVec.ofInt 64 (linkPos - segData)))) (setNumber_id _) rfl
      (onFirst idSeekID newSeekID (setBinary ((fillBufferID 4 linkId).getD [])) kids)
    rw [h3]
    have hleaf : ∃ b d v, e = .leaf b d v := by
      rcases h1 with rfl | h1
      · exact ⟨_, _, _, rfl⟩
      · have hin : e ∈ kids := by
          have h4 : e ∈ (onFirst idSeekID newSeekID (setBinary ((fillBufferID 4 linkId).getD [])) kids).filter
              (fun x => x.base.id = idSeekPosition) := List.mem_filter.2 ⟨h1, by simp [h2]⟩
          rw [onFirst_others idSeekID newSeekID _ (setBinary_id _) rfl _ (by intro x hx; simp [hx]; exact hne)] at h4
          exact (List.mem_filter.1 h4).1
        obtain ⟨b, d, v, rfl⟩ := (htyped e hin).2 h2
        exact ⟨b, d, _, rfl⟩
    obtain ⟨b, d, v, rfl⟩ := hleaf
    simp only [setNumber]
    rw [BitVec.toInt_ofInt, Int.bmod_eq_of_le (by simp; omega) (by simp; omega)]
  refine ⟨?_, hP, ?_, ?_⟩
  · unfold metaSeekID metaSeekUpdate
    rw [findChild_onFirst_other idSeekPosition idSeekID newSeekPosition _ (setNumber_id _) rfl hne]
    obtain ⟨e, h1, h2, h3⟩ := findChild_onFirst_same idSeekID newSeekID
      (setBinary ((fillBufferID 4 linkId).getD [])) (setBinary_id _) rfl kids
    rw [h3]
    have hleaf : ∃ b d v, e = .leaf b d v := by
      rcases h1 with rfl | h1
      · exact ⟨_, _, _, rfl⟩
      · obtain ⟨b, d, v, rfl⟩ := (htyped e h1).1 h2
        exact ⟨b, d, _, rfl⟩
    obtain ⟨b, d, v, rfl⟩ := hleaf
    simp only [setBinary, hb1, Option.getD_some, hbne, if_false]
    exact hb3
  · unfold metaSeekAbsolutePos
    rw [hP]
    simp only
    rw [if_neg (by omega), Option.some.injEq]
    unfold s64
    simp only [Int.reducePow] at *
    omega
  · intro q hq
    unfold metaSeekUpdate
    rw [onFirst_others idSeekPosition newSeekPosition _ (setNumber_id _) rfl q (fun e h => hq e (Or.inr h)),
      onFirst_others idSeekID newSeekID _ (setBinary_id _) rfl q (fun e h => hq e (Or.inl h))]

/-- An entry with an old SeekID of another length, a Void and no position yet. -/
example : metaSeekID (metaSeekUpdate 52 0x1C53BB6B 1000 [.leaf ⟨0xEC, 3, 0, true, false, true⟩ none .void,
      .leaf ⟨idSeekID, 1, 0, true, false, true⟩ none (.bin [0xBF])]) = some 0x1C53BB6B ∧
    metaSeekAbsolutePos 52 (metaSeekUpdate 52 0x1C53BB6B 1000 [.leaf ⟨0xEC, 3, 0, true, false, true⟩ none .void,
      .leaf ⟨idSeekID, 1, 0, true, false, true⟩ none (.bin [0xBF])]) = some 1000 := by decide +kernel

/-- The ID in a file is not trusted by length: which SeekID are read beyond their data. A lead byte announces up to
four bytes. -/
theorem C113_seek_id_bounds (b : Base) (d : Option Leaf) (data : Bytes) (rest : List Elt) (hid : b.id = idSeekID) :
    metaSeekID (.leaf b d (.bin data) :: rest) = none ↔
      ∃ b0 tail, data = b0 :: tail ∧ b0.toNat < 128 ∧ 16 ≤ b0.toNat ∧
        data.length < (if 64 ≤ b0.toNat then 2 else if 32 ≤ b0.toNat then 3 else 4) := by
  have hmask : ∀ b : UInt8, ((b &&& 0x80 ≠ 0) ↔ 128 ≤ b.toNat) ∧
        (b.toNat < 128 → ((b &&& 0x40 ≠ 0) ↔ 64 ≤ b.toNat)) ∧
        (b.toNat < 64 → ((b &&& 0x20 ≠ 0) ↔ 32 ≤ b.toNat)) ∧
        (b.toNat < 32 → ((b &&& 0x10 ≠ 0) ↔ 16 ≤ b.toNat)) := by
      apply forall_u8; decide +kernel
  unfold metaSeekID
  simp only [findChild, Elt.base, hid, if_true]
  cases data with
  | nil => simp
  | cons b0 tail =>
    simp only [reduceCtorEq, if_false, bufferToID]
    obtain ⟨m1, m2, m3, m4⟩ := hmask b0
    by_cases h1 : 128 ≤ b0.toNat
    · rw [if_pos (m1.2 h1)]
      simp only [reduceCtorEq, false_iff]
      rintro ⟨_, _, h, h2, _⟩
      simp only [List.cons.injEq] at h
      rw [← h.1] at h2; omega
    rw [if_neg (fun h => h1 (m1.1 h))]
    have key : ∀ P : Nat → Prop, (∃ c t, b0 :: tail = c :: t ∧ c.toNat < 128 ∧ 16 ≤ c.toNat ∧
        (b0 :: tail).length < (if 64 ≤ c.toNat then 2 else if 32 ≤ c.toNat then 3 else 4)) ↔
        (16 ≤ b0.toNat ∧ (b0 :: tail).length < (if 64 ≤ b0.toNat then 2 else if 32 ≤ b0.toNat then 3 else 4)) := by
      intro _
      constructor
      · rintro ⟨c, t, h, h2, h3, h4⟩
        simp only [List.cons.injEq] at h
        obtain ⟨rfl, rfl⟩ := h
        exact ⟨h3, h4⟩
      · intro ⟨h3, h4⟩
        exact ⟨b0, tail, rfl, by omega, h3, h4⟩
    rw [key (fun _ => True)]
    simp only [List.length_cons]
    by_cases h2 : 64 ≤ b0.toNat
    · rw [if_pos ((m2 (by omega)).2 h2), if_pos h2]
      cases tail with
      | nil => simp; omega
      | cons => simp
    rw [if_neg (fun h => h2 ((m2 (by omega)).1 h)), if_neg h2]
    by_cases h3 : 32 ≤ b0.toNat
    · rw [if_pos ((m3 (by omega)).2 h3), if_pos h3]
      rcases tail with _ | ⟨_, _ | ⟨_, _⟩⟩ <;> simp <;> omega
    rw [if_neg (fun h => h3 ((m3 (by omega)).1 h)), if_neg h3]
    by_cases h4 : 16 ≤ b0.toNat
    · rw [if_pos ((m4 (by omega)).2 h4)]
      rcases tail with _ | ⟨_, _ | ⟨_, _ | ⟨_, _⟩⟩⟩ <;> simp <;> omega
    · rw [if_neg (fun h => h4 ((m4 (by omega)).1 h))]
      simp; omega

/-- A file with a SeekID of two bytes starting like an ID of four: memory behind the data is read. -/
theorem C113_seek_id_counterexample : ∃ kids, SeekTyped kids ∧ metaSeekID kids = none :=
  ⟨[.leaf ⟨idSeekID, 2, 0, true, false, true⟩ none (.bin [0x1F, 0x43])], by
    intro e he
    simp only [List.mem_singleton] at he
    subst he
    exact ⟨fun _ => ⟨_, _, _, rfl⟩, fun h => absurd h (by decide)⟩, by decide⟩

/-- A new entry takes at most the 21 bytes that mkclean's reserve of 22 per entry (`EXTRA_SEEK_SPACE`) allows for. -/
theorem C113_entry_size (env : Ebml.Env) (segData : Int) (linkId n : Nat) (linkPos : Int) (hid : WellFormedId linkId n) :
    fullSizeBase (update env false (.master ⟨0x4DBB, -1, 0, true, true, true⟩ 0 (metaSeekUpdate segData linkId linkPos []))).base ≤ 21 := by
  obtain ⟨bytes, hb1, hb2, _, hb3, _⟩ := C10_id_roundtrip linkId n hid 4 (by decide) []
  have hn := hid.2.1
  have hu : ∀ v : BitVec 64, naturalSizeInt v ≤ 8 ∧ 1 ≤ naturalSizeInt v := by
    intro v; unfold naturalSizeInt; (repeat' split) <;> omega
  have csmall : ∀ a : Int, a < 127 → codedSizeLength a 0 true = 1 := by
    intro a h; simp [codedSizeLength, h]
  have hkids : metaSeekUpdate segData linkId linkPos [] =
      [.leaf ⟨idSeekID, bytes.length, 0, true, false, true⟩ none (.bin bytes),
        .leaf ⟨idSeekPosition, -1, 0, true, true, true⟩ none (.uint (BitVec.ofInt 64 (linkPos - segData)))] := by
    unfold metaSeekUpdate
    rw [hb1]
    rfl
  rw [hkids]
  generalize BitVec.ofInt 64 (linkPos - segData) = v
  have hv := hu v
  have e1 : update env false (.leaf ⟨idSeekID, bytes.length, 0, true, false, true⟩ none (.bin bytes)) =
      .leaf ⟨idSeekID, bytes.length, 0, true, false, true⟩ none (.bin bytes) := by
    simp [update, isDefault, Leaf.always, Leaf.natural, baseUpdate, Leaf.defaultSize]
  have e2 : update env false (.leaf ⟨idSeekPosition, -1, 0, true, true, true⟩ none (.uint v)) =
      .leaf ⟨idSeekPosition, naturalSizeInt v, 0, true, false, true⟩ none (.uint v) := by
    simp [update, needs, isDefault, Leaf.always, Leaf.natural, baseUpdate, Leaf.defaultSize]
    omega
  have f1 : fullSizeBase ⟨idSeekID, bytes.length, 0, true, false, true⟩ = bytes.length + 3 := by
    have : codedSizeLength (bytes.length : Int) 0 true = 1 := by
      exact csmall _ (by omega)
    simp only [fullSizeBase, this]
    have : idLength idSeekID = 2 := by decide
    omega
  have f2 : fullSizeBase ⟨idSeekPosition, naturalSizeInt v, 0, true, false, true⟩ = naturalSizeInt v + 3 := by
    have : codedSizeLength (naturalSizeInt v : Int) 0 true = 1 := by
      exact csmall _ (by omega)
    simp only [fullSizeBase, this]
    have : idLength idSeekPosition = 2 := by decide
    omega
  have hup : (update env false (.master ⟨0x4DBB, -1, 0, true, true, true⟩ 0
      [.leaf ⟨idSeekID, bytes.length, 0, true, false, true⟩ none (.bin bytes),
        .leaf ⟨idSeekPosition, -1, 0, true, true, true⟩ none (.uint v)])).base =
      ⟨0x4DBB, (0 : Int) + (bytes.length + 3) + (naturalSizeInt v + 3), 0, true, false, true⟩ := by
    rw [update, needs]
    simp only [Bool.true_or, if_true, updateList, isDefault, Bool.and_false, Bool.false_eq_true, if_false, ne_eq,
      not_true_eq_false, e1, e2, Elt.base, f1, f2]
    rw [if_neg (by omega), if_neg (by omega)]
    simp only [baseUpdate, Bool.false_eq_true, if_false]
    rw [if_neg (by omega)]
  rw [hup]
  have : codedSizeLength ((0 : Int) + (bytes.length + 3) + (naturalSizeInt v + 3)) 0 true = 1 := by
    exact csmall _ (by omega)
  simp only [fullSizeBase, this]
  have : idLength 0x4DBB = 2 := by decide
  omega

end Verif.Mkv
