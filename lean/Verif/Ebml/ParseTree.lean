import Verif.Ebml.ParseLemmas
import Verif.Ebml.EltLemmas
import Verif.Props.Number
/-! Trees in a coherent state that fit the schema denote documents that load as `loaded`. -/
set_option linter.unusedSimpArgs false
namespace Verif.Ebml.Scan
open EbmlDoc

theorem codedSizeLength_fits (n k : Nat) (hk : k ≤ 8) (hn : n < 2 ^ 35 - 1) :
    1 ≤ codedSizeLength n k true ∧ codedSizeLength n k true ≤ 8 ∧ n < 2 ^ (7 * codedSizeLength n k true) - 1 := by
  have key : ∀ c m : Nat, c ≤ m → n < 2 ^ (7 * c) - 1 → n < 2 ^ (7 * m) - 1 := by
    intro c m h1 h2
    have := Nat.pow_le_pow_right (n := 2) (by decide) (show 7 * c ≤ 7 * m by omega)
    omega
  simp only [Nat.reducePow, Nat.reduceSub] at hn
  have h5 : ∃ c, 1 ≤ c ∧ c ≤ 5 ∧ n < 2 ^ (7 * c) - 1 ∧ codedSizeLength n k true = if k ≠ 0 ∧ c < k then k else c := by
    unfold codedSizeLength
    simp only [Bool.not_true, Bool.false_eq_true, if_false]
    by_cases h1 : (n : Int) < 127
    · exact ⟨1, by omega, by omega, by omega, by simp only [if_pos h1]⟩
    by_cases h2 : (n : Int) < 16383
    · exact ⟨2, by omega, by omega, by omega, by simp only [if_neg h1, if_pos h2]⟩
    by_cases h3 : (n : Int) < 2097151
    · exact ⟨3, by omega, by omega, by omega, by simp only [if_neg h1, if_neg h2, if_pos h3]⟩
    by_cases h4 : (n : Int) < 268435455
    · exact ⟨4, by omega, by omega, by omega, by simp only [if_neg h1, if_neg h2, if_neg h3, if_pos h4]⟩
    · exact ⟨5, by omega, by omega, by omega, by simp only [if_neg h1, if_neg h2, if_neg h3, if_neg h4]⟩
  obtain ⟨c, h1, h5, hc, he⟩ := h5
  rw [he]
  split
  · exact ⟨by omega, by omega, key c k (by omega) hc⟩
  · exact ⟨by omega, by omega, hc⟩

theorem leNat_append_one (l : Bytes) (b : UInt8) : leNat (l ++ [b]) = leNat l + b.toNat * 256 ^ l.length := by
  induction l with
  | nil => simp [leNat]
  | cons a l ih =>
    simp only [List.cons_append, leNat, ih, List.length_cons, Nat.pow_succ, Nat.mul_add]
    rw [Nat.mul_left_comm, Nat.mul_comm 256 (256 ^ l.length)]
    omega

theorem leNat_reverse (l : Bytes) : leNat l.reverse = beNat l := by
  induction l with
  | nil => rfl
  | cons b l ih => rw [List.reverse_cons, leNat_append_one, ih, beNat_cons, List.length_reverse]; omega

theorem readLeaf_payload (env : Env) (b : Base) (v : Leaf) (hr : LeafReady b v) (hs : LeafSurvives env b v) (hv : v ≠ .void) :
    readLeaf env (leafPayload env b v) (leafCls v) = some (loadedLeaf v) := by
  cases v with
  | uint v =>
    obtain ⟨h1, h8, hf, _⟩ := C13_unsigned_minimal v
    have := (C11_unsigned_roundtrip v _ h1 h8 hf 1 (by omega) 0).2
    rw [renderInt_one _ _ _ h1] at this
    simp only [readLeaf, leafPayload, leafCls, this, loadedLeaf, Option.map_some]
  | sint v =>
    obtain ⟨h1, h8, hf, _⟩ := C13_signed_minimal v
    have hre := renderInt_one v _ env.junk h1
    have : readSignedInt env.charSigned env.junk (leafPayload env b (.sint v)) = some v := by
      simp only [leafPayload, LeafSurvives] at hs ⊢
      rw [← hre] at hs ⊢
      cases hc : env.charSigned with
      | false => exact C12_signed_roundtrip_unsigned_char v _ env.junk h1 h8 hf
      | true => exact (C12_signed_roundtrip_partial v env.junk).mpr (hs hc)
    simp only [readLeaf, leafCls, this, loadedLeaf, Option.map_some]
  | date v =>
    have : dateRead (beBytes 8 v.toInt) = some v := by
      unfold dateRead
      rw [if_neg (by simp), leNat_reverse]
      congr 1
      rw [beNat_beBytes_toInt v 8 (by omega)]
      apply BitVec.eq_of_toNat_eq
      have := v.isLt
      simp only [BitVec.toNat_ofNat]
      omega
    simp only [readLeaf, leafPayload, leafCls, this, loadedLeaf, Option.map_some]
  | float v =>
    simp only [readLeaf, leafPayload, leafCls, loadedLeaf]
    by_cases h8 : b.dataSize = 8
    · rw [if_pos h8]
      have := C14_float_bits env.toF32 env.toF64 v
      rw [this.1] at this
      rw [this.2.1]; rfl
    · rw [if_neg h8]
      simp only [LeafSurvives, h8, false_or] at hs
      have := C14_float_bits env.toF32 env.toF64 v
      rw [← this.2.2.1, this.2.2.2, hs]; rfl
  | str buf =>
    cases buf with
    | none => simp [LeafReady] at hr
    | some buf => rfl
  | bin data => rfl
  | void => exact absurd rfl hv

theorem validate_payload (env : Env) (b : Base) (v : Leaf) : validateSize true (leafPayload env b v).length (leafCls v) = true := by
  cases v with
  | uint v =>
    have := (C13_unsigned_minimal v).2.1
    simpa [validateSize, leafPayload, leafCls] using this
  | sint v =>
    have := (C13_signed_minimal v).2.1
    simpa [validateSize, leafPayload, leafCls] using this
  | date v => simp [validateSize, leafPayload, leafCls]
  | float v => simp only [validateSize, leafPayload, leafCls]; split <;> simp
  | str buf => rfl
  | bin data => rfl
  | void => rfl

theorem docId_toDoc (env : Env) (d : Bool) (e : Elt) : docId (toDoc env d e) = e.base.id := by cases e <;> simp [toDoc, docId, Elt.base]

theorem loaded_notCrc (env : Env) (d : Bool) (k : Nat) (e : Elt) : (loaded env d k e).isCrc = false := by
  cases e with
  | leaf b dflt v => simp [loaded, Node.isCrc]
  | master b crc ch =>
    simp only [loaded]
    split
    · rfl
    · split <;> rfl

theorem loadedList_notCrc (env : Env) (d : Bool) (k : Nat) (es : List Elt) : ∀ x ∈ loadedList env d k es, x.isCrc = false := by
  induction es with
  | nil => simp [loadedList]
  | cons e es ih =>
    rw [loadedList]
    split
    · exact ih
    · intro x hx
      rcases List.mem_cons.mp hx with h | h
      · rw [h]; exact loaded_notCrc env d k e
      · exact ih x h

theorem toDocList_ne (env : Env) (d : Bool) (es : List Elt) (h : ∃ c ∈ es, (!d && isDefault env c) = false) :
    toDocList env d es ≠ [] := by
  induction es with
  | nil => simp at h
  | cons e es ih =>
    rw [toDocList]
    split
    · rename_i hs
      apply ih
      obtain ⟨c, hc, h2⟩ := h
      rcases List.mem_cons.mp hc with h3 | h3
      · rw [h3, hs] at h2; simp at h2
      · exact ⟨c, h3, h2⟩
    · simp

mutual
theorem loads_toDoc (S : Schema) (env : Env) (d : Bool) : ∀ (e : Elt) (k r : Nat), Coherent env d e → Fits S env d r e →
    LoadsTo S env k r (toDoc env d e) (loaded env d k e)
  | .leaf b dflt v, k, r, hc, hf => by
    simp only [Coherent] at hc
    simp only [Fits] at hf
    obtain ⟨_, _, hsl, hfin, hready, _⟩ := hc
    obtain ⟨h1, h2, h3, h4, h5⟩ := hf
    simp only [toDoc, LoadsTo, loaded]
    rw [hfin]
    obtain ⟨g1, g2, g3⟩ := codedSizeLength_fits _ _ hsl h4
    refine ⟨h1, ⟨g1, g2, g3, h2⟩, ?_, ?_⟩
    · rw [h3]; exact validate_payload env b v
    · unfold FlatNode
      rw [h3]
      by_cases hv : v = .void
      · subst hv; rfl
      · have hr := readLeaf_payload env b v hready h5 hv
        cases v <;> first | exact absurd rfl hv | exact ⟨_, hr, by simp [leafCls]⟩
  | .master b crc ch, k, r, hc, hf => by
    simp only [Coherent] at hc
    simp only [Fits] at hf
    obtain ⟨_, _, hsl, hch, _⟩ := hc
    obtain ⟨h1, h2, h3, h4, h5, h6, h7⟩ := hf
    have hl := loads_toDocList S env d ch (k - 1) r hch h7
    obtain ⟨g1, g2, g3⟩ := codedSizeLength_fits _ _ hsl h5
    generalize hN : (payload (.group b.id 0 true (crc != 0) (toDocList env d ch))).length = N at *
    have hN' : ∀ l, (payload (.group b.id l true (crc != 0) (toDocList env d ch))).length = N := by
      intro l; rw [payload_group_len _ l 0]; exact hN
    simp only [toDoc, LoadsTo, h4, hN, hN']
    refine ⟨h1, trivial, ⟨g1, g2, g3, h2⟩, h3, _, hl, ?_⟩
    simp only [loaded, h4, hN]
    by_cases hz : crc = 0
    · subst hz
      simp only [bne_self_eq_false, Bool.false_eq_true, if_false, if_true, and_true]
      exact Or.inr (loadedList_notCrc env d _ ch)
    · have hb : (crc != 0) = true := by simpa using hz
      obtain ⟨hne, hoff⟩ := h6 hz
      simp only [hb, if_true, if_neg hz]
      refine ⟨hoff, ?_⟩
      by_cases hk : k = 0
      · rw [if_pos hk, if_pos hk]
      · rw [if_neg hk, if_neg hk]
        exact ⟨toDocList_ne env d ch hne, rfl⟩
theorem loads_toDocList (S : Schema) (env : Env) (d : Bool) : ∀ (es : List Elt) (k c : Nat), CoherentList env d es →
    FitsList S env d c es → LoadsToList S env k c (toDocList env d es) (loadedList env d k es)
  | [], k, c, _, _ => by simp [toDocList, LoadsToList, loadedList]
  | e :: es, k, c, hc, hf => by
    simp only [CoherentList] at hc
    simp only [FitsList] at hf
    have ih := loads_toDocList S env d es k c hc.2 hf.2
    rw [toDocList, loadedList]
    by_cases hs : (!d && isDefault env e) = true
    · rw [if_pos hs, if_pos hs]; exact ih
    · rw [if_neg hs, if_neg hs]
      have hs' : (!d && isDefault env e) = false := by simpa using hs
      obtain ⟨r, ho, hfe⟩ := hf.1 hs'
      simp only [LoadsToList]
      exact ⟨r, _, _, by rw [docId_toDoc]; exact ho, loads_toDoc S env d e k r (hc.1 hs') hfe, ih, rfl⟩
end

/-! Fuel: no more than the bytes of the document. -/

mutual
theorem need_le (S : Schema) (env : Env) : ∀ (d : Doc) (k r : Nat) (n : Node), LoadsTo S env k r d n → need d + 1 ≤ (encode d).length
  | .elem id len p, k, r, n, h => by
    have := encode_pos S r _ (loadsTo_head S env k r _ n h)
    simp only [need]; exact this
  | .group id len fin crc ch, k, r, n, h => by
    have hf := loadsTo_head S env k r _ n h
    have hl := encode_len S r _ hf
    obtain ⟨h1, _, _, m, hm⟩ := hf.ok
    rw [idField_len_wf _ m hm] at hl
    have := hm.1
    simp only [LoadsTo] at h
    obtain ⟨_, _, _, _, ns, hns, _⟩ := h
    have ih := needList_le S env ch (k - 1) r ns hns
    simp only [docSize, payload, List.length_append] at hl
    have : (if crc = true then crcElement (encodeList ch) else []).length = if crc then 6 else 0 := by
      split
      · exact crcElement_length _
      · rfl
    rw [this] at hl
    simp only [need]
    split <;> simp_all <;> omega
theorem needList_le (S : Schema) (env : Env) : ∀ (ds : List Doc) (k c : Nat) (ns : List Node), LoadsToList S env k c ds ns →
    needList ds ≤ (encodeList ds).length
  | [], k, c, ns, h => by simp [needList]
  | d :: ds, k, c, ns, h => by
    simp only [LoadsToList] at h
    obtain ⟨r, n, ns', _, h1, h2, _⟩ := h
    have a1 := need_le S env d k r n h1
    have a2 := needList_le S env ds k c ns' h2
    rw [encodeList_cons, List.length_append, needList]
    omega
end

end Verif.Ebml.Scan
