import Verif.Ebml.Elt
import Verif.Ebml.EltSpec
import Verif.Ebml.CrcLemmas
import Verif.Props.Number
import Verif.Props.Vint
import Verif.Props.Crc
set_option linter.unusedSimpArgs false
namespace Verif.Ebml
open Verif.EbmlDoc

theorem beNat_codedValue (L : Int) (n : Nat) (h1 : 1 ≤ n) (h8 : n ≤ 8) :
    (beNat (codedValue L n true) : Int) = 2 ^ (7 * n) + L % 2 ^ (7 * n) := by
  have hf := codedFirst_toNat L n h1 h8
  simp only [codedValue, if_true]
  have hb := beNat_beBytes (n - 1) L
  rw [beNat_cons, beBytes_length]
  generalize (codedFirst L n).toNat = c at *
  generalize beNat (beBytes (n - 1) L) = r at *
  have hn : n = 1 ∨ n = 2 ∨ n = 3 ∨ n = 4 ∨ n = 5 ∨ n = 6 ∨ n = 7 ∨ n = 8 := by omega
  rcases hn with h | h | h | h | h | h | h | h <;> subst h <;> simp at hf hb ⊢ <;> omega

theorem codedValue_eq_sizeField (L n : Nat) (h1 : 1 ≤ n) (h8 : n ≤ 8) :
    codedValue L n true = sizeField n L := by
  apply beNat_inj
  · rw [codedValue_length _ _ _ h1, sizeField, beBytes_length]
  · have h := beNat_codedValue L n h1 h8
    rw [sizeField, beNat_beBytes_nat, Nat.mod_eq_of_lt]
    · have e : ((2 : Int) ^ (7 * n)) = ((2 ^ (7 * n) : Nat) : Int) := by simp
      rw [e] at h
      omega
    · have : 256 ^ n = 2 ^ (7 * n) * 2 ^ n := by
        rw [← Nat.pow_add, show (256 : Nat) = 2 ^ 8 from rfl, ← Nat.pow_mul]; congr 1; omega
      rw [this]
      have hlt : L % 2 ^ (7 * n) < 2 ^ (7 * n) := Nat.mod_lt _ (Nat.two_pow_pos _)
      have h2 : 2 ≤ 2 ^ n := by
        calc 2 = 2 ^ 1 := rfl
          _ ≤ 2 ^ n := Nat.pow_le_pow_right (by decide) h1
      calc 2 ^ (7 * n) + L % 2 ^ (7 * n) < 2 ^ (7 * n) * 2 := by omega
        _ ≤ 2 ^ (7 * n) * 2 ^ n := Nat.mul_le_mul_left _ h2

theorem codedValue_eq_unknownField (L : Int) (n : Nat) (h1 : 1 ≤ n) (h8 : n ≤ 8) :
    codedValue L n false = unknownField n := by
  rw [codedValue_infinite]
  have : maxFilepos = ((2 ^ 63 - 1 : Nat) : Int) := by decide
  rw [this, codedValue_eq_sizeField _ _ h1 h8, sizeField, unknownField]
  have hn : n = 1 ∨ n = 2 ∨ n = 3 ∨ n = 4 ∨ n = 5 ∨ n = 6 ∨ n = 7 ∨ n = 8 := by omega
  rcases hn with h | h | h | h | h | h | h | h <;> subst h <;> rfl

theorem sizeField_length (n L : Nat) : (sizeField n L).length = n := by rw [sizeField, beBytes_length]
theorem unknownField_length (n : Nat) : (unknownField n).length = n := by rw [unknownField, beBytes_length]

theorem idField_eq (id : Nat) (h : id < 2 ^ 32) : (fillBufferID 12 id).getD [] = idField id := by
  have hl := idLength_eq id h
  have : idLength id ≤ 4 := by rw [hl]; (repeat' split) <;> omega
  rw [fillBufferID, if_neg (by omega), Option.getD_some, idField, hl]

theorem idField_length (id : Nat) (h : id < 2 ^ 32) : (idField id).length = idLength id := by
  rw [idField, beBytes_length, idLength_eq id h]

theorem encode_elem (id len : Nat) (p : Bytes) : encode (.elem id len p) = idField id ++ sizeField len p.length ++ p := by
  simp [encode, encodeList]

theorem encode_group (id len : Nat) (fin crc : Bool) (ch : List Doc) :
    encode (.group id len fin crc ch) = idField id ++
      (if fin then sizeField len (payload (.group id len fin crc ch)).length else unknownField len) ++
      payload (.group id len fin crc ch) := by
  simp [encode, encodeList]

theorem encodeList_cons (d : Doc) (ds : List Doc) : encodeList (d :: ds) = encode d ++ encodeList ds := by
  cases d <;> simp [encode, encodeList]

theorem renderCrcElt_eq (x : Bytes) : renderCrcElt x = crcElement x := by
  have h : renderHead ⟨0xBF, 4, 0, true, false, true⟩ = [0xBF, 0x84] := by decide
  rw [renderCrcElt, h, crcElement, Crc.renderCrc, C16_crc_is_crc32]

theorem crcElement_length (x : Bytes) : (crcElement x).length = 6 := by
  simp [crcElement, leBytes_length]

theorem natural_uint (v : BitVec 64) : 1 ≤ naturalSizeInt v ∧ naturalSizeInt v ≤ 8 :=
  ⟨(C13_unsigned_minimal v).1, (C13_unsigned_minimal v).2.1⟩

theorem natural_sint (v : BitVec 64) : 1 ≤ naturalSizeSigned v ∧ naturalSizeSigned v ≤ 8 :=
  ⟨(C13_signed_minimal v).1, (C13_signed_minimal v).2.1⟩

theorem codedSizeLength_pos (L : Int) (k : Nat) (f : Bool) : 1 ≤ codedSizeLength L k f := by
  unfold codedSizeLength
  simp only
  split
  · split <;> (try omega)
    all_goals (repeat' split) <;> omega
  · (repeat' split) <;> omega

/-- The payload size the leaf classes settle on. -/
theorem leaf_update (env : Env) (d : Bool) (b : Base) (dflt : Option Leaf) (v : Leaf)
    (hskip : (!d && isDefault env (.leaf b dflt v)) = false) (h : LeafReady b v)
    (hs : b.needUpdate = false → LeafSettled b v) :
    ∃ b', update env d (.leaf b dflt v) = .leaf b' dflt v ∧ b'.dataSize = (leafPayload env b v).length ∧
      b'.needUpdate = false ∧ b'.id = b.id ∧ b'.sizeLength = b.sizeLength ∧ b'.valueSet = b.valueSet ∧
      b'.finite = b.finite ∧ leafPayload env b' v = leafPayload env b v ∧ LeafReady b' v ∧ LeafSettled b' v := by
  have hneeds : needs env d (.leaf b dflt v) = b.needUpdate := by
    simp only [needs]
    cases d <;> simp_all
  refine ⟨_, rfl, ?_⟩
  simp only [hneeds, hskip, baseUpdate, Bool.false_eq_true, if_false]
  have hu : ∀ v, 1 ≤ naturalSizeInt v ∧ naturalSizeInt v ≤ 8 := natural_uint
  have hsi : ∀ v, 1 ≤ naturalSizeSigned v ∧ naturalSizeSigned v ≤ 8 := natural_sint
  cases hn : b.needUpdate with
  | true =>
    cases v with
    | uint v => simp [Leaf.natural, Leaf.defaultSize, leafPayload, LeafReady, LeafSettled, Leaf.always]; have := hu v; omega
    | sint v => simp [Leaf.natural, Leaf.defaultSize, leafPayload, LeafReady, LeafSettled, Leaf.always]; have := hsi v; omega
    | date v => simp [Leaf.natural, Leaf.defaultSize, leafPayload, LeafReady, LeafSettled, Leaf.always]; have := hsi v; omega
    | float v =>
      simp [Leaf.natural, Leaf.defaultSize, leafPayload, LeafReady, LeafSettled, Leaf.always] at *
      by_cases h8 : b.dataSize = 8
      · simp [h8]
      · have : b.dataSize ≤ 4 := by omega
        by_cases h4 : b.dataSize < 4
        · simp [h8, h4]; omega
        · have : b.dataSize = 4 := by omega
          simp [this]
    | str buf =>
      cases buf with
      | none => simp [LeafReady] at h
      | some buf => simp [Leaf.natural, Leaf.defaultSize, leafPayload, LeafReady, LeafSettled, Leaf.always]
    | bin data => simp [Leaf.natural, Leaf.defaultSize, leafPayload, LeafReady, LeafSettled, Leaf.always]
    | void =>
      simp [Leaf.natural, Leaf.defaultSize, leafPayload, LeafReady, LeafSettled, Leaf.always] at *
      have : ¬ (b.dataSize < -1) := by omega
      simp [this]; omega
  | false =>
    have hs := hs hn
    cases v with
    | uint v => simp [Leaf.natural, Leaf.defaultSize, leafPayload, LeafReady, LeafSettled, Leaf.always] at *; have := hu v; rw [hs]; simp; omega
    | sint v => simp [Leaf.natural, Leaf.defaultSize, leafPayload, LeafReady, LeafSettled, Leaf.always] at *; have := hsi v; rw [hs]; simp; omega
    | date v => simp [Leaf.natural, Leaf.defaultSize, leafPayload, LeafReady, LeafSettled, Leaf.always] at *; rw [hs]; simp
    | float v =>
      simp [Leaf.natural, Leaf.defaultSize, leafPayload, LeafReady, LeafSettled, Leaf.always] at *
      rcases hs with hs | hs <;> simp [hs]
    | str buf =>
      cases buf with
      | none => simp [LeafReady] at h
      | some buf =>
        simp [Leaf.natural, Leaf.defaultSize, leafPayload, LeafReady, LeafSettled, Leaf.always] at *
        rw [hs]; simp
    | bin data => simp [Leaf.natural, Leaf.defaultSize, leafPayload, LeafReady, LeafSettled, Leaf.always]
    | void =>
      simp [Leaf.natural, Leaf.defaultSize, leafPayload, LeafReady, LeafSettled, Leaf.always] at *
      have : ¬ (b.dataSize < -1) := by omega
      simp [this]; omega

theorem payload_group_len (id l1 l2 : Nat) (fin crc : Bool) (ch : List Doc) :
    payload (.group id l1 fin crc ch) = payload (.group id l2 fin crc ch) := by simp [payload]

/-- Full size of an element whose data size is right. -/
theorem fullSize_leaf (env : Env) (d : Bool) (b : Base) (dflt : Option Leaf) (v : Leaf) (hid : b.id < 2 ^ 32)
    (hfin : b.finite = true) (hd : b.dataSize = (leafPayload env b v).length) :
    fullSizeBase b = (encode (toDoc env d (.leaf b dflt v))).length := by
  simp only [toDoc, encode_elem, List.length_append, idField_length _ hid, sizeField_length, fullSizeBase, hd, hfin]
  omega

theorem fullSize_master (env : Env) (d : Bool) (b : Base) (crc : Nat) (ch : List Elt) (hid : b.id < 2 ^ 32)
    (hd : b.dataSize = (payload (.group b.id 0 b.finite (crc != 0) (toDocList env d ch))).length) :
    fullSizeBase b = (encode (toDoc env d (.master b crc ch))).length := by
  simp only [toDoc, encode_group, List.length_append, idField_length _ hid, fullSizeBase]
  rw [← hd]
  have : ∀ l n, (if b.finite = true then sizeField l n else unknownField l).length = l := by
    intro l n; split
    · exact sizeField_length _ _
    · exact unknownField_length _
  rw [this, payload_group_len _ (codedSizeLength b.dataSize b.sizeLength b.finite) 0]; omega

/-- What `update` achieves on one element. -/
structure Updated (env : Env) (d : Bool) (e e' : Elt) : Prop where
  size : fullSizeBase e'.base = (encode (toDoc env d e)).length
  data : e'.base.dataSize = (payload (toDoc env d e)).length
  settled : needs env d e' = false
  doc : toDoc env d e' = toDoc env d e
  coherent : Coherent env d e'
  dflt : isDefault env e' = isDefault env e
  depth : depth e' = depth e

theorem isDefault_base (env : Env) (b b' : Base) (dflt : Option Leaf) (v : Leaf) (h : b'.valueSet = b.valueSet) :
    isDefault env (.leaf b' dflt v) = isDefault env (.leaf b dflt v) := by
  cases dflt with
  | none => rfl
  | some x => cases x <;> cases v <;> simp [isDefault, h]

theorem updated_leaf (env : Env) (d : Bool) (b : Base) (dflt : Option Leaf) (v : Leaf)
    (hskip : (!d && isDefault env (.leaf b dflt v)) = false) (h : Coherent env d (.leaf b dflt v)) :
    Updated env d (.leaf b dflt v) (update env d (.leaf b dflt v)) := by
  simp only [Coherent] at h
  obtain ⟨hv, hid, hsl, hfin, hr, hs⟩ := h
  obtain ⟨b', he, h1, h2, h3, h4, h5, h6, h7, h8, h9⟩ := leaf_update env d b dflt v hskip hr hs
  rw [he]
  have hdoc : toDoc env d (.leaf b' dflt v) = toDoc env d (.leaf b dflt v) := by
    simp only [toDoc, h7, h3, h4, h6]
  constructor
  · rw [← hdoc]
    exact fullSize_leaf env d b' dflt v (h3 ▸ hid) (h6 ▸ hfin) (by rw [h7]; exact h1)
  · simp only [Elt.base, toDoc, payload, h1]
  · simp [needs, h2]
  · exact hdoc
  · simp only [Coherent]
    exact ⟨h5 ▸ hv, h3 ▸ hid, h4 ▸ hsl, h6 ▸ hfin, h8, fun _ => h9⟩
  · exact isDefault_base env b b' dflt v h5
  · simp [depth]

mutual
theorem updated (env : Env) (d : Bool) : ∀ e : Elt, (!d && isDefault env e) = false → Coherent env d e →
    Updated env d e (update env d e)
  | .leaf b dflt v, hskip, h => updated_leaf env d b dflt v hskip h
  | .master b crc ch, hskip, h => by
    have hco := h
    simp only [Coherent] at h
    obtain ⟨hv, hid, hsl, hch, hs⟩ := h
    obtain ⟨l1, l2, l3, l4, l5, l6, l7⟩ := updatedList env d ch hch (if crc ≠ 0 then 6 else 0)
    rw [update]
    by_cases hn : needs env d (.master b crc ch) = true
    · rw [if_pos hn]
      have hpay : (payload (.group b.id 0 b.finite (crc != 0) (toDocList env d ch))).length =
          (if crc ≠ 0 then 6 else 0) + (encodeList (toDocList env d ch)).length := by
        simp only [payload, List.length_append]
        by_cases hc : crc = 0
        · simp [hc]
        · simp [hc, crcElement_length]
      split
      · rename_i ch' total heq
        rw [heq] at l1 l2 l3 l4 l5 l6 l7
        simp only at l1 l2 l3 l4 l5 l6 l7
        have htotal : total = (payload (.group b.id 0 b.finite (crc != 0) (toDocList env d ch))).length := by
          rw [hpay, l2]
          split <;> simp
        have hb : baseUpdate false (-1) { b with dataSize := total } = { b with dataSize := total, needUpdate := false } := by
          simp only [baseUpdate, Bool.false_eq_true, if_false]
          have : ¬ ((-1 : Int) > total) := by omega
          rw [if_neg this]
        rw [hb]
        have hdoc : toDoc env d (.master { b with dataSize := total, needUpdate := false } crc ch') =
            toDoc env d (.master b crc ch) := by
          simp only [toDoc, l4]
        constructor
        · rw [← hdoc]
          exact fullSize_master env d _ crc ch' hid (by rw [l4]; exact htotal)
        · simp only [Elt.base, toDoc]
          rw [payload_group_len _ _ 0]; exact htotal
        · simp [needs, l3]
        · exact hdoc
        · simp only [Coherent]
          exact ⟨hv, hid, hsl, l5, fun _ => by rw [l4]; exact htotal⟩
        · rfl
        · simp [depth, l6]
      · rename_i ch' total heq
        rw [heq] at l1
        simp at l1
    · have hn' : needs env d (.master b crc ch) = false := by simpa using hn
      rw [if_neg hn]
      have hd := hs hn'
      have hnu : b.needUpdate = false := by
        simp only [needs, Bool.or_eq_false_iff] at hn'; exact hn'.1
      have hb : baseUpdate false (-1) b = b := by
        simp only [baseUpdate, Bool.false_eq_true, if_false]
        have : ¬ ((-1 : Int) > b.dataSize) := by omega
        rw [if_neg this, ← hnu]
      rw [hb]
      constructor
      · exact fullSize_master env d b crc ch hid hd
      · simp only [Elt.base, toDoc]
        rw [payload_group_len _ _ 0]; exact hd
      · exact hn'
      · rfl
      · exact hco
      · rfl
      · rfl
theorem updatedList (env : Env) (d : Bool) : ∀ es : List Elt, CoherentList env d es → ∀ acc : Int,
    (updateList env d es acc).2.2 = true ∧
    (updateList env d es acc).2.1 = acc + (encodeList (toDocList env d es)).length ∧
    needsList env d (updateList env d es acc).1 = false ∧
    toDocList env d (updateList env d es acc).1 = toDocList env d es ∧
    CoherentList env d (updateList env d es acc).1 ∧
    depthList (updateList env d es acc).1 = depthList es ∧
    (updateList env d es acc).1.length = es.length
  | [], _, acc => by simp [updateList, toDocList, encodeList, needsList, CoherentList]
  | e :: es, h, acc => by
    simp only [CoherentList] at h
    obtain ⟨he, hes⟩ := h
    by_cases hskip : (!d && isDefault env e) = true
    · obtain ⟨l1, l2, l3, l4, l5, l6, l7⟩ := updatedList env d es hes acc
      simp only [updateList, hskip, if_true, toDocList, l1, l2, needsList, l3, l4, CoherentList, l5, depthList, l6,
        List.length_cons, l7]
      have hneeds : needs env d e = false := by
        cases e with
        | leaf b dflt v =>
          simp only [Bool.and_eq_true, Bool.not_eq_true'] at hskip
          simp [needs, hskip]
        | master b c ch => simp [isDefault] at hskip
      simp [hneeds]
    · have hskip' : (!d && isDefault env e) = false := by simpa using hskip
      have hu := updated env d e hskip' (he hskip')
      obtain ⟨l1, l2, l3, l4, l5, l6, l7⟩ := updatedList env d es hes (acc + fullSizeBase (update env d e).base)
      rw [hu.size] at l1 l2 l3 l4 l5 l6 l7
      have hne : ¬ (update env d e).base.dataSize = -1 := by rw [hu.data]; omega
      have hskip2 : (!d && isDefault env (update env d e)) = false := by rw [hu.dflt]; exact hskip'
      simp only [updateList, hskip', hskip2, Bool.false_eq_true, if_false, hne, toDocList, l1, l2, needsList, l3, l4,
        CoherentList, l5, depthList, l6, List.length_cons, l7, hu.settled, hu.doc, hu.depth, hu.coherent,
        encodeList_cons, List.length_append, hu.size]
      refine ⟨trivial, ?_, rfl, trivial, ⟨fun _ => trivial, trivial⟩, trivial, trivial⟩
      omega
end

theorem renderHead_eq (b : Base) (n : Nat) (hid : b.id < 2 ^ 32) (hsl : b.sizeLength ≤ 8) (hd : b.dataSize = n) :
    renderHead b = idField b.id ++ (if b.finite then sizeField (codedSizeLength n b.sizeLength b.finite) n
      else unknownField (codedSizeLength n b.sizeLength b.finite)) := by
  have hr := codedSizeLength_range b.dataSize b.sizeLength hsl b.finite
  rw [renderHead, idField_eq _ hid]
  congr 1
  rw [hd] at hr ⊢
  cases hf : b.finite with
  | true =>
    rw [hf] at hr
    simp only [if_true]
    exact codedValue_eq_sizeField _ _ hr.1 hr.2
  | false =>
    rw [hf] at hr
    simp only [Bool.false_eq_true, if_false]
    exact codedValue_eq_unknownField _ _ hr.1 hr.2

theorem take_takeWhile_length {α : Type} (p : α → Bool) (l : List α) :
    l.take (l.takeWhile p).length = l.takeWhile p := by
  induction l with
  | nil => rfl
  | cons a l ih =>
    by_cases h : p a = true
    · simp [List.takeWhile_cons, h, ih]
    · simp [List.takeWhile_cons, h]

theorem renderLeafData_eq (env : Env) (b : Base) (v : Leaf) (hr : LeafReady b v) (hs : LeafSettled b v) :
    renderLeafData env b v = .ok (leafPayload env b v) := by
  cases v with
  | uint v =>
    have := natural_uint v
    simp only [LeafSettled] at hs
    simp only [renderLeafData, leafPayload, hs, renderInt, Int.toNat_natCast]
    rw [if_neg (by omega), if_neg (by omega)]
  | sint v =>
    have := natural_sint v
    simp only [LeafSettled] at hs
    simp only [renderLeafData, leafPayload, hs, renderInt, Int.toNat_natCast]
    rw [if_neg (by omega), if_neg (by omega)]
  | date v =>
    simp only [LeafSettled] at hs
    simp [renderLeafData, leafPayload, hs, renderInt]
  | float v =>
    simp only [LeafSettled] at hs
    obtain ⟨c1, c2, c3, c4⟩ := C14_float_bits env.toF32 env.toF64 v
    rcases hs with hs | hs
    · simp only [renderLeafData, leafPayload, hs]
      exact congrArg Res.ok c3
    · simp only [renderLeafData, leafPayload, hs]
      exact congrArg Res.ok c1
  | str buf =>
    cases buf with
    | none => simp [LeafReady] at hr
    | some buf =>
      simp only [LeafSettled] at hs
      have hle : (cstr buf).length ≤ buf.length := List.Sublist.length_le (List.takeWhile_sublist _)
      simp only [renderLeafData, leafPayload, hs]
      rw [if_neg (by omega), Int.toNat_natCast, List.take_append_of_le_length hle]
      rw [cstr, take_takeWhile_length]
  | bin data => rfl
  | void =>
    simp only [LeafReady] at hr
    simp only [renderLeafData, leafPayload]
    rw [if_neg (by omega)]

theorem coherentList_mem (env : Env) (d : Bool) (es : List Elt) (h : CoherentList env d es) (c : Elt) (hc : c ∈ es)
    (hs : (!d && isDefault env c) = false) : Coherent env d c := by
  induction es with
  | nil => cases hc
  | cons e es ih =>
    simp only [CoherentList] at h
    cases hc with
    | head => exact h.1 hs
    | tail _ hc => exact ih h.2 hc

theorem depthList_mem (es : List Elt) (c : Elt) (hc : c ∈ es) : depth c ≤ depthList es := by
  induction es with
  | nil => cases hc
  | cons e es ih =>
    simp only [depthList]
    cases hc with
    | head => omega
    | tail _ hc => have := ih hc; omega

theorem render_children (env : Env) (d : Bool) (f : Elt → Res) (es : List Elt)
    (h : ∀ c ∈ es, (!d && isDefault env c) = false → f c = .ok (encode (toDoc env d c))) :
    (es.filter (fun c => d || !isDefault env c)).foldr (fun c acc => (f c).append acc) (.ok []) =
      .ok (encodeList (toDocList env d es)) := by
  induction es with
  | nil => rfl
  | cons e es ih =>
    have ih := ih (fun c hc => h c (List.mem_cons_of_mem _ hc))
    by_cases hs : (!d && isDefault env e) = true
    · have : (d || !isDefault env e) = false := by
        cases d <;> simp_all
      rw [List.filter_cons, if_neg (by simp [this]), ih, toDocList, if_pos hs]
    · have hs' : (!d && isDefault env e) = false := by simpa using hs
      have : (d || !isDefault env e) = true := by
        cases d <;> simp_all
      rw [List.filter_cons, if_pos this, List.foldr_cons, ih, h e List.mem_cons_self hs', toDocList, if_neg hs,
        encodeList_cons]
      rfl

/-- Rendering an element in a coherent state yields the encoding of its document. -/
theorem render_eq (env : Env) (d : Bool) (fuel : Nat) (e : Elt) (hf : depth e ≤ fuel)
    (hskip : (!d && isDefault env e) = false) (h : Coherent env d e) :
    render env d fuel e = .ok (encode (toDoc env d e)) := by
  induction fuel generalizing e with
  | zero => cases e <;> simp [depth] at hf
  | succ fuel ih =>
    have hset : e.base.valueSet = true := by cases e <;> (simp only [Coherent] at h; exact h.1)
    obtain ⟨e', he', hco, hdoc, hneeds, hdata, hdep⟩ : ∃ e', (if needs env d e then update env d e else e) = e' ∧
        Coherent env d e' ∧ toDoc env d e' = toDoc env d e ∧ needs env d e' = false ∧
        e'.base.dataSize = (payload (toDoc env d e')).length ∧ depth e' = depth e := by
      have hu := updated env d e hskip h
      by_cases hn : needs env d e = true
      · exact ⟨_, rfl, by rw [if_pos hn]; exact hu.coherent, by rw [if_pos hn]; exact hu.doc,
          by rw [if_pos hn]; exact hu.settled, by rw [if_pos hn, hu.doc]; exact hu.data, by rw [if_pos hn]; exact hu.depth⟩
      · refine ⟨e, by rw [if_neg hn], h, rfl, by simpa using hn, ?_, rfl⟩
        cases e with
        | master b crc ch =>
          simp only [Coherent] at h
          have := h.2.2.2.2 (by simpa using hn)
          simp only [Elt.base, toDoc]
          rw [payload_group_len _ _ 0]; exact this
        | leaf b dflt v =>
          simp only [Coherent] at h
          have hnu : b.needUpdate = false := by
            simp only [needs] at hn
            cases d <;> simp_all
          have hs := h.2.2.2.2.2 hnu
          have hr := h.2.2.2.2.1
          simp only [Elt.base, toDoc, payload]
          cases v with
          | uint v => simp [LeafSettled] at hs; simp [leafPayload, hs]
          | sint v => simp [LeafSettled] at hs; simp [leafPayload, hs]
          | date v => simp [LeafSettled] at hs; simp [leafPayload, hs]
          | float v => simp [LeafSettled] at hs; rcases hs with hs | hs <;> simp [leafPayload, hs]
          | str buf =>
            cases buf with
            | none => simp [LeafReady] at hr
            | some buf => simp [LeafSettled] at hs; simp [leafPayload, hs]
          | bin data => simp [LeafSettled] at hs; simp [leafPayload, hs]
          | void => simp [LeafReady] at hr; simp [leafPayload]; omega
    rw [render, he', hset]
    simp only [Bool.true_or, Bool.not_true, Bool.false_eq_true, if_false, hskip]
    rw [← hdoc]
    cases e' with
    | leaf b dflt v =>
      simp only [Coherent] at hco
      obtain ⟨hv, hid, hsl, hfin, hr, hs⟩ := hco
      have hskip' : (!d && isDefault env (.leaf b dflt v)) = false ∨ b.needUpdate = false := by
        simp only [needs] at hneeds
        by_cases hb : b.needUpdate = false
        · exact Or.inr hb
        · exfalso
          have hb : b.needUpdate = true := by simpa using hb
          have hd : (!d && isDefault env e) = true := by
            have hdf : isDefault env e = isDefault env (.leaf b dflt v) := by
              by_cases hn : needs env d e = true
              · rw [if_pos hn] at he'; rw [← he', (updated env d e hskip h).dflt]
              · rw [if_neg hn] at he'; rw [he']
            rw [hdf]
            cases d <;> simp_all
          rw [hd] at hskip; cases hskip
      have hnu : b.needUpdate = false := by
        rcases hskip' with h' | h'
        · simp only [needs] at hneeds
          cases d <;> simp_all
        · exact h'
      have hd2 : b.dataSize = (leafPayload env b v).length := by
        simpa only [Elt.base, toDoc, payload] using hdata
      simp only [renderLeafData_eq env b v hr (hs hnu), Res.prepend, toDoc, encode_elem]
      rw [renderHead_eq b _ hid hsl hd2, hfin]
      simp
    | master b crc ch =>
      simp only [Coherent] at hco
      obtain ⟨hv, hid, hsl, hch, hs⟩ := hco
      have hdp : depthList ch ≤ fuel := by simp only [depth] at hdep; omega
      have hbody := render_children env d (render env d fuel) ch (fun c hc hcs =>
        ih c (Nat.le_trans (depthList_mem ch c hc) hdp) hcs (coherentList_mem env d ch hch c hc hcs))
      simp only
      rw [hbody]
      have hd2 : b.dataSize = (payload (.group b.id 0 b.finite (crc != 0) (toDocList env d ch))).length := hs hneeds
      simp only [toDoc, encode_group]
      rw [renderHead_eq b _ hid hsl hd2]
      have hpay : (if crc = 0 then Res.ok (encodeList (toDocList env d ch))
          else crcPayload b.dataSize (.ok (encodeList (toDocList env d ch)))) =
          .ok (payload (.group b.id 0 b.finite (crc != 0) (toDocList env d ch))) := by
        by_cases hc : crc = 0
        · simp [hc, payload]
        · rw [if_neg hc]
          have hne : (crc != 0) = true := by simp [hc]
          simp only [payload, hne, if_true, List.length_append, crcElement_length] at hd2
          simp only [crcPayload, payload, hne, if_true]
          rw [if_neg (by omega), if_neg (by omega), renderCrcElt_eq]
      rw [hpay]
      simp only [Res.prepend]
      simp only [payload_group_len b.id (codedSizeLength _ _ _) 0]

end Verif.Ebml
