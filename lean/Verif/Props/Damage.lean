import Verif.Ebml.Damage
import Verif.Props.Parse
import Verif.Props.Crc
/-!
Property theorems C228: damage under a checksum is reported.
-/
set_option linter.unusedSimpArgs false
namespace Verif.Ebml.Scan
open EbmlDoc Verif.Crc32

/-- The bytes of an element whose content starts with a CRC-32 element storing `v`, followed by `x`. -/
def underChecksum (id len : Nat) (v x : Bytes) : Bytes :=
  idField id ++ sizeField len (6 + x.length) ++ ([0xBF, 0x84] ++ v ++ x)

theorem encode_underChecksum (id len : Nat) (v x : Bytes) (hv : v.length = 4) :
    encode (.elem id len ([0xBF, 0x84] ++ v ++ x)) = underChecksum id len v x := by
  rw [encode_elem, underChecksum]
  have : ([0xBF, 0x84] ++ v ++ x : Bytes).length = 6 + x.length := by simp [hv]; omega
  rw [this]

theorem crcMatches_iff (w : BitVec 32) (x : Bytes) : Crc.crcMatches w x = true ↔ w = crc32 x := by
  unfold Crc.crcMatches
  rw [← C16_crc_is_crc32 x]
  simp [Crc.finalize, Crc.init]

/-- C228: whatever bytes follow the checksum, and whatever the loader makes of them, if an element comes out then its status
says whether the stored checksum is that of these bytes: 2 if so and 1 if not. -/
theorem C228_status (S : Schema) (env : Env) (a : Bool) (k root r rc id len : Nat) (v x : Bytes) (hv : v.length = 4) (hx : x ≠ [])
    (hk : k ≠ 0) (ho : Offers S root id r) (hm : (S.ctx r).cls = .master) (hoc : Offers S r 0xBF rc) (hcc : (S.ctx rc).cls = .crc)
    (hh : HeadOk id len (6 + x.length)) (before after : Bytes) (mem : Bool) (fuel : Nat) (n : Node) (pos : Nat)
    (hl : load S env a fuel (before ++ underChecksum id len v x ++ after) mem before.length root k = .ok n pos) :
    ∃ b kids, n = .master b (if leNat v = (crc32 x).toNat then 2 else 1) kids := by
  have hlen : ([0xBF, 0x84] ++ v ++ x : Bytes).length = 6 + x.length := by simp [hv]; omega
  have hf : HeadFacts S r (.elem id len ([0xBF, 0x84] ++ v ++ x)) := by
    refine ⟨ho.1, ?_, ?_, ?_, ?_⟩
    · simp only [docId, docLen, docSize, payload, hlen]; exact hh
    · rw [encode_elem]; rfl
    · rw [hm]; decide
    · rw [hm]; rfl
  have henc := encode_underChecksum id len v x hv
  have hdrop : (before ++ underChecksum id len v x ++ after).drop before.length = encode (.elem id len ([0xBF, 0x84] ++ v ++ x)) ++ after := by
    rw [List.append_assoc, henc]; exact List.drop_left' rfl
  have hfind := findNext_doc S a (before ++ underChecksum id len v x ++ after).length (before ++ underChecksum id len v x ++ after)
    before.length after ⟨root, -1⟩ [] r _ hf ho hdrop (Or.inl rfl)
  rw [load, hfind] at hl
  have hrep := reports_readElt S env a k r rc id len v x hv hf hm hoc hcc hk hx fuel _ after mem [⟨root, -1⟩] before.length hdrop n pos hl
  have hiff : Crc.crcMatches (BitVec.ofNat 32 (leNat v)) x = true ↔ leNat v = (crc32 x).toNat := by
    rw [crcMatches_iff]
    have hlt : leNat v < 2 ^ 32 := by
      have := leNat_lt v
      rw [hv] at this
      exact this
    constructor
    · intro h
      rw [← h, BitVec.toNat_ofNat, Nat.mod_eq_of_lt hlt]
    · intro h
      rw [h, BitVec.ofNat_toNat, BitVec.setWidth_eq]
  by_cases h : leNat v = (crc32 x).toNat
  · rw [if_pos (hiff.mpr h)] at hrep
    rw [if_pos h]; exact hrep
  · rw [if_neg (fun h' => h (hiff.mp h'))] at hrep
    rw [if_neg h]; exact hrep

/-- C228 for damage: an element written with the checksum of `good`, and then changed within 32 consecutive bits of what the
checksum covers, is either not loaded or loaded as invalid, whatever the change does to its structure. -/
theorem C228_damage (S : Schema) (env : Env) (a : Bool) (k root r rc id len : Nat) (good bad : Bytes)
    (pre window window' post : List Bool) (hg : good.flatMap bits = pre ++ window ++ post)
    (hb : bad.flatMap bits = pre ++ window' ++ post) (hlen : window.length = window'.length) (h32 : window.length ≤ 32)
    (hne : window ≠ window')
    (hk : k ≠ 0) (ho : Offers S root id r) (hm : (S.ctx r).cls = .master) (hoc : Offers S r 0xBF rc) (hcc : (S.ctx rc).cls = .crc)
    (hh : HeadOk id len (6 + bad.length)) (before after : Bytes) (mem : Bool) (fuel : Nat) (n : Node) (pos : Nat)
    (hl : load S env a fuel (before ++ underChecksum id len (leBytes 4 (crc32 good).toNat) bad ++ after) mem before.length root k =
      .ok n pos) :
    ∃ b st kids, n = .master b st kids ∧ isChecksumValid st = false := by
  have hx : bad ≠ [] := by
    intro h
    rw [h] at hb
    have h0 : window' = [] := by
      have := congrArg List.length hb
      simp only [List.flatMap_nil, List.length_nil, List.length_append] at this
      exact List.eq_nil_of_length_eq_zero (by omega)
    rw [h0] at hlen hne
    exact hne (List.eq_nil_of_length_eq_zero hlen)
  obtain ⟨b, kids, hn⟩ := C228_status S env a k root r rc id len _ bad (leBytes_length _ _) hx hk ho hm hoc hcc hh before after mem
    fuel n pos hl
  have hdet := C19_burst_detected good bad pre window window' post hg hb hlen h32 hne
  rw [C16_crc_is_crc32] at hdet
  have hcne : ¬ leNat (leBytes 4 (crc32 good).toNat) = (crc32 bad).toNat := by
    rw [leNat_leBytes]
    have := (crc32 good).isLt
    rw [Nat.mod_eq_of_lt (by simpa using this)]
    intro h
    rw [(crcMatches_iff _ _).mpr (BitVec.eq_of_toNat_eq h)] at hdet
    exact absurd hdet (by decide)
  rw [if_neg hcne] at hn
  exact ⟨b, 1, kids, hn, rfl⟩

theorem leBytes_leNat (l : Bytes) : leBytes l.length (leNat l) = l := by
  induction l with
  | nil => rfl
  | cons b l ih =>
    have hb := b.toNat_lt
    have h1 : (b.toNat + 256 * leNat l) % 256 = b.toNat := by omega
    have h2 : (b.toNat + 256 * leNat l) / 256 = leNat l := by omega
    simp only [List.length_cons, leBytes, leNat, h1, h2, ih, UInt8.ofNat_toNat]

/-- C228 for the checksum itself: any change to the four bytes stored makes the element invalid. -/
theorem C228_stored (S : Schema) (env : Env) (a : Bool) (k root r rc id len : Nat) (v x : Bytes) (hv : v.length = 4) (hx : x ≠ [])
    (hne : v ≠ leBytes 4 (crc32 x).toNat)
    (hk : k ≠ 0) (ho : Offers S root id r) (hm : (S.ctx r).cls = .master) (hoc : Offers S r 0xBF rc) (hcc : (S.ctx rc).cls = .crc)
    (hh : HeadOk id len (6 + x.length)) (before after : Bytes) (mem : Bool) (fuel : Nat) (n : Node) (pos : Nat)
    (hl : load S env a fuel (before ++ underChecksum id len v x ++ after) mem before.length root k = .ok n pos) :
    ∃ b st kids, n = .master b st kids ∧ isChecksumValid st = false := by
  obtain ⟨b, kids, hn⟩ := C228_status S env a k root r rc id len v x hv hx hk ho hm hoc hcc hh before after mem fuel n pos hl
  have hcne : ¬ leNat v = (crc32 x).toNat := by
    intro h
    apply hne
    rw [← h, ← hv, leBytes_leNat]
  rw [if_neg hcne] at hn
  exact ⟨b, 1, kids, hn, rfl⟩

/-- Without levels to verify, as mkclean reads, nothing is ever reported: every master is loaded with status 0, damaged or not. -/
theorem C228_unchecked (S : Schema) (env : Env) (a : Bool) (root : Nat) (data : Bytes) (start : Nat) (mem : Bool) (fuel : Nat)
    (b : Base) (st : Nat) (kids : List Node) (pos : Nat)
    (hl : load S env a fuel data mem start root 0 = .ok (.master b st kids) pos) : st = 0 ∧ isChecksumValid st = true := by
  have key : st = 0 := by
    rw [load] at hl
    split at hl
    · rename_i f _
      cases fuel with
      | zero => simp [readElt] at hl
      | succ fuel =>
        rw [readElt] at hl
        have flat : ∀ p, readFlat S env data f ≠ .ok (.master b st kids) p := by
          intro p
          unfold readFlat
          split
          · intro h; cases h
          · split <;> intro h <;> cases h
          · split <;> intro h <;> cases h
          · split
            · intro h; cases h
            · split <;> intro h <;> cases h
        split at hl
        · exact absurd hl (flat pos)
        · rename_i r _
          split at hl
          · have hrep : Reports (if f.dataSize > 0 ∨ !f.finite then
              next S f ⟨data, mem, f.posData, true, none, f.dataSize, []⟩
                (findNext S a (data.length + 1) data f.posData (⟨r, f.endPos⟩ :: [⟨root, -1⟩]) 0)
                (fun g => readLoop S env a fuel (⟨r, f.endPos⟩ :: [⟨root, -1⟩]) 0 f ⟨data, mem, f.posData, true, none, f.dataSize, []⟩ g)
              else finish S f ⟨data, mem, f.posData, true, none, f.dataSize, []⟩ f.streamPos.toNat) 0 := by
              split
              · exact reports_next S f ⟨data, mem, f.posData, true, none, f.dataSize, []⟩ _ _
                  (fun g => reports_readLoop S env a _ 0 f fuel ⟨data, mem, f.posData, true, none, f.dataSize, []⟩ g (Or.inr rfl))
              · exact reports_finish S f ⟨data, mem, f.posData, true, none, f.dataSize, []⟩ _
            obtain ⟨b', kids', h⟩ := hrep _ _ hl
            cases h
            rfl
          · exact absurd hl (flat pos)
    · simp at hl
    · simp at hl
    · simp at hl
  subst key
  exact ⟨rfl, rfl⟩

/-- What asking for a checksum does: it is asked for or dropped, the result says whether that is a change, and one just asked for
counts as invalid until the element is written and loaded. -/
theorem C228_requested (use : Bool) (status : Nat) :
    ((useChecksum use status).1 ≠ 0 ↔ use = true) ∧
    ((useChecksum use status).2 = true ↔ (use = true ↔ status = 0)) ∧
    (use = true → status = 0 → isChecksumValid (useChecksum use status).1 = false) ∧
    (use = true → status ≠ 0 → (useChecksum use status).1 = status) := by
  unfold useChecksum isChecksumValid
  cases use <;> by_cases h : status = 0 <;> simp [h]

/-- A Segment of the small schema with its checksum: sound, loaded as verified; with a bit of the number changed, loaded as
invalid; with a bit of the size of the number changed, so that the rest is skipped, loaded as invalid as well. -/
example :
    let v := leBytes 4 (crc32 [0x42, 0x86, 0x81, 7]).toNat
    (load mini miniEnv false 20 (underChecksum 0x18538067 1 v [0x42, 0x86, 0x81, 7]) false 0 0 1).status = some 2 ∧
    (load mini miniEnv false 20 (underChecksum 0x18538067 1 v [0x42, 0x86, 0x81, 5]) false 0 0 1).status = some 1 ∧
    (load mini miniEnv false 20 (underChecksum 0x18538067 1 v [0x42, 0x86, 0x83, 7]) false 0 0 1).status = some 1 := by
  decide +kernel

end Verif.Ebml.Scan
