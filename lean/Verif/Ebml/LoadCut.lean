import Verif.Ebml.LoadCutSpec
import Verif.Ebml.ParseTree
/-! Reading truncated documents. -/
set_option linter.unusedSimpArgs false
namespace Verif.Ebml.Scan
open EbmlDoc

theorem idLoop_cut (lim : Int) (il : Nat) (b0 : UInt8) (tl : Bytes) (n : Nat) (hn : n = tl.length + 1)
    (h4 : n ≤ 4) (hlo : 2 ^ (8 - n) ≤ b0.toNat) (hhi : b0.toNat < 2 ^ (9 - n)) (m : Nat) :
    ∀ (k pos : Nat), k + m < n → (lim = -1 ∨ ((pos : Int) + m < lim)) →
      idLoop lim il ((b0 :: tl).take k) pos (((b0 :: tl).drop k).take m) = .eof (pos + m) := by
  induction m with
  | zero =>
    intro k pos hk hlim
    have hnone : idMarker ((b0 :: tl).take k) = none := by
      cases k with
      | zero => rfl
      | succ k =>
        rw [List.take_succ_cons, idMarker_eq b0 _ n (by omega) h4 hlo hhi, if_neg]
        simp; omega
    rw [List.take_zero, idLoop.eq_def, hnone]
    simp only
    rw [if_neg (by omega)]
    rfl
  | succ m ih =>
    intro k pos hk hlim
    have hkl : k < (b0 :: tl).length := by simp; omega
    have hnone : idMarker ((b0 :: tl).take k) = none := by
      cases k with
      | zero => rfl
      | succ k =>
        rw [List.take_succ_cons, idMarker_eq b0 _ n (by omega) h4 hlo hhi, if_neg]
        simp; omega
    rw [List.drop_eq_getElem_cons hkl, List.take_succ_cons, idLoop, hnone]
    simp only
    rw [if_neg (by omega)]
    have hlen : ((b0 :: tl).take k).length = k := by simp; omega
    rw [hlen, if_neg (show ¬ k ≥ 4 by omega), hlen, if_neg (by omega)]
    have ht : (b0 :: tl).take k ++ [(b0 :: tl)[k]] = (b0 :: tl).take (k + 1) := by
      rw [List.take_add_one, List.getElem?_eq_getElem hkl]; rfl
    rw [ht, ih (k + 1) (pos + 1) (by omega) (by omega), show pos + 1 + m = pos + (m + 1) by omega]

theorem sizeLoop_cut (lim : Int) (n : Nat) (idb sz : Bytes) (hn : idb.length = n) (h4 : n ≤ 4)
    (hs : (readCodedSize sz).len = sz.length) (m : Nat) :
    ∀ (k pos : Nat), k + m < sz.length → (lim = -1 ∨ ((pos : Int) + m < lim)) →
      sizeLoop lim n (idb ++ sz.take k) k pos ((sz.drop k).take m) = .eof (pos + m) := by
  have h8 : sz.length ≤ 8 := by have := (C05_decode_bounded sz).2.1; omega
  have hdrop : ∀ k, (idb ++ sz.take k).drop n = sz.take k := by
    intro k; rw [← hn]; simp
  have head : ∀ k, k < sz.length → ¬ (k > 0 ∧ (idb ++ sz.take k)[n]? = some 0) := by
    intro k hkl
    obtain ⟨hz, b0, hb0, hne⟩ := readCodedSize_take sz hs k hkl
    rintro ⟨h1, h2⟩
    cases sz with
    | nil => simp at hkl
    | cons x sz =>
      cases k with
      | zero => omega
      | succ k =>
        simp only [List.take_succ_cons] at h2
        rw [List.getElem?_append_right (by omega), hn, Nat.sub_self] at h2
        simp at h2 hb0
        exact hne (hb0 ▸ h2)
  induction m with
  | zero =>
    intro k pos hk hlim
    obtain ⟨hz, _⟩ := readCodedSize_take sz hs k (by omega)
    have hlen : (idb ++ sz.take k).length = n + k := by simp; omega
    rw [List.take_zero, sizeLoop.eq_def, if_neg (by omega)]
    simp only
    rw [hdrop, List.take_of_length_le (by simp; omega), if_neg (by omega), if_neg (by omega), if_neg (head k (by omega)),
      if_neg (by omega)]
    rfl
  | succ m ih =>
    intro k pos hk hlim
    have hkl : k < sz.length := by omega
    obtain ⟨hz, _⟩ := readCodedSize_take sz hs k hkl
    have hlen : (idb ++ sz.take k).length = n + k := by simp; omega
    rw [sizeLoop.eq_def, if_neg (by omega)]
    simp only
    rw [hdrop, List.take_of_length_le (by simp; omega), if_neg (by omega), if_neg (by omega), if_neg (head k hkl), if_neg (by omega)]
    rw [List.drop_eq_getElem_cons hkl, List.take_succ_cons]
    simp only
    rw [if_neg (by omega)]
    have ht : idb ++ sz.take k ++ [sz[k]] = idb ++ sz.take (k + 1) := by
      rw [List.append_assoc, List.take_add_one (i := k), List.getElem?_eq_getElem hkl]; rfl
    rw [ht, ih (k + 1) (pos + 1) (by omega) (by omega), show pos + 1 + m = pos + (m + 1) by omega]

theorem adjust_in (start : Nat) (c : PCtx) (up : List PCtx) (lv : Int) (h : c.endPos = -1 ∨ (start : Int) < c.endPos) :
    adjust start (c :: up) lv = (c :: up, lv) := by
  cases up with
  | nil => rfl
  | cons c' up => rw [adjust, if_neg (by omega)]

/-- A head that is not complete is not found. -/
theorem findNext_cut (S : Schema) (a : Bool) (F : Nat) (data : Bytes) (start : Nat) (c : PCtx) (up : List PCtx)
    (id n : Nat) (sz : Bytes) (h : WellFormedId id n) (hs : (readCodedSize sz).len = sz.length) (j : Nat)
    (hdata : data.drop start = (idField id ++ sz).take j) (hj : j < n + sz.length)
    (hend : c.endPos = -1 ∨ (start : Int) + n + sz.length ≤ c.endPos) :
    findNext S a (F + 1) data start (c :: up) 0 = .none 0 (start + j) := by
  obtain ⟨b0, tl, g1, g2, g3, g4, g5⟩ := idField_head id n h
  have hlen : (b0 :: tl).length = n := by simp; omega
  rw [findNext, adjust_in start c up 0 (by omega), hdata]
  simp only
  rw [loop]
  simp only [limit]
  rw [g1]
  by_cases hjn : j < n
  · have ht : ((b0 :: tl) ++ sz).take j = (b0 :: tl).take j := by
      rw [List.take_append, hlen, show j - n = 0 by omega]; simp
    have hl := idLoop_cut c.endPos 0 b0 tl n g2 h.2.1 g3 g4 j 0 start (by omega) (by omega)
    simp only [List.take_zero, List.drop_zero] at hl
    rw [ht, hl]
  · have ht : ((b0 :: tl) ++ sz).take j = (b0 :: tl) ++ sz.take (j - n) := by
      rw [List.take_append, hlen, List.take_of_length_le (by omega)]
    have hl := idLoop_id c.endPos 0 b0 tl (sz.take (j - n)) n g2 h.2.1 g3 g4 n 0 start (by omega) (by omega)
    simp only [List.take_zero, List.drop_zero] at hl
    rw [ht, hl]
    simp only
    rw [hlen, if_neg (by omega), Nat.sub_self]
    have hl2 := sizeLoop_cut c.endPos n (b0 :: tl) sz hlen h.2.1 hs (j - n) 0 (start + n) (by omega) (by omega)
    simp only [List.take_zero, List.drop_zero, List.append_nil] at hl2
    rw [hl2]
    simp only
    congr 1
    omega

/-- Nothing is found behind the end. -/
theorem findNext_off (S : Schema) (a : Bool) (F : Nat) (data : Bytes) (start : Nat) (c : PCtx) (up : List PCtx)
    (hs : data.length ≤ start) (hend : c.endPos = -1 ∨ (start : Int) < c.endPos) :
    findNext S a (F + 1) data start (c :: up) 0 = .none 0 start := by
  rw [findNext, adjust_in start c up 0 hend, List.drop_eq_nil_of_le hs]
  simp only [loop, limit]
  rw [idLoop.eq_def]
  have : idMarker [] = none := by decide
  rw [this]
  simp only
  rw [if_neg (by omega)]

/-- A complete head is found, whatever is missing behind it. -/
theorem findNext_top (S : Schema) (a : Bool) (F : Nat) (data : Bytes) (start : Nat) (rest : Bytes)
    (c : PCtx) (up : List PCtx) (r : Nat) (d : Doc) (h : HeadFacts S r d) (ho : Offers S c.ref (docId d) r)
    (hdata : data.drop start = idField (docId d) ++ sizeField (docLen d) (docSize d) ++ rest)
    (hend : c.endPos = -1 ∨ (start : Int) + (encode d).length ≤ c.endPos) :
    findNext S a (F + 1) data start (c :: up) 0 = .found (headOf r start d) := by
  obtain ⟨h1, h8, hsz, n, hn⟩ := h.ok
  have hlen := encode_len S r d h
  have hidl := idField_len_wf _ n hn
  have hread := read_sizeField (docLen d) (docSize d) h1 h8 hsz
  obtain ⟨_, _, _, _, _, _, hfrom⟩ := idField_head _ n hn
  obtain ⟨ch, hch, hcr⟩ := createUsing_offers S (idField (docId d) ++ sizeField (docLen d) (docSize d)) n a c up _ r (hfrom _) ho
  have hne : ((docSize d : Nat) != 2 ^ (7 * docLen d) - 1) = true := by simp; omega
  have := findNext_head S a F data start c up 0 (docId d) n (sizeField (docLen d) (docSize d)) rest hn
    (by rw [hread, sizeField_length]) (by rw [sizeField_length]; omega)
    hdata
    (by rw [sizeField_length]; omega)
    (by rw [hread]; intro _; simp only; omega) r ch hcr h.cls (by rw [hread]; simp only; rw [hne]; exact h.val)
  rw [this, headOf, sizeField_length, hread, hidl]
  simp only [hne, if_true, if_neg (show ¬ ch > 0 by omega)]

/-- Where the head of `d` ends. -/
def headLen (d : Doc) : Nat := (idField (docId d)).length + docLen d

theorem take_head (S : Schema) (r : Nat) (d : Doc) (h : HeadFacts S r d) (avail : Nat) (ha : headLen d ≤ avail) :
    (encode d).take avail = idField (docId d) ++ sizeField (docLen d) (docSize d) ++ (payload d).take (avail - headLen d) := by
  rw [h.enc, List.take_append, List.take_of_length_le]
  · congr 2
    rw [List.length_append, sizeField_length]
    rfl
  · rw [List.length_append, sizeField_length]
    exact ha

theorem take_inHead (S : Schema) (r : Nat) (d : Doc) (h : HeadFacts S r d) (avail : Nat) (ha : avail < headLen d) :
    (encode d).take avail = (idField (docId d) ++ sizeField (docLen d) (docSize d)).take avail := by
  rw [h.enc, List.take_append, List.length_append, sizeField_length]
  have : avail - ((idField (docId d)).length + docLen d) = 0 := by unfold headLen at ha; omega
  rw [this, List.take_zero, List.append_nil]

theorem findNext_inHead (S : Schema) (a : Bool) (F : Nat) (data : Bytes) (start avail : Nat) (c : PCtx) (up : List PCtx)
    (r : Nat) (d : Doc) (h : HeadFacts S r d) (hdata : data.drop start = (encode d).take avail) (ha : avail < headLen d)
    (hend : c.endPos = -1 ∨ (start : Int) + (encode d).length ≤ c.endPos) :
    findNext S a (F + 1) data start (c :: up) 0 = .none 0 (start + avail) := by
  obtain ⟨h1, h8, hsz, n, hn⟩ := h.ok
  have hlen := encode_len S r d h
  have hidl := idField_len_wf _ n hn
  have hread := read_sizeField (docLen d) (docSize d) h1 h8 hsz
  unfold headLen at ha
  exact findNext_cut S a F data start c up (docId d) n (sizeField (docLen d) (docSize d)) hn
    (by rw [hread, sizeField_length]) avail (by rw [hdata]; exact take_inHead S r d h avail ha)
    (by rw [sizeField_length]; omega) (by rw [sizeField_length]; omega)

theorem readExact_short (data : Bytes) (pos n : Nat) (h : data.length < pos + n) (hn : 0 < n) : readExact data pos n = none := by
  unfold readExact
  rw [if_neg]
  rw [List.length_drop]
  omega

/-- A value that is cut is not read; a Void is. -/
theorem readFlat_short (S : Schema) (env : Env) (k r : Nat) (id len : Nat) (p : Bytes) (n : Node)
    (h : LoadsTo S env k r (.elem id len p) n) (data : Bytes) (start : Nat)
    (hs : start + ((idField id).length + len) ≤ data.length) (hl : data.length < start + ((idField id).length + len + p.length)) :
    ((∃ b, n = .leaf b .void) ∧ ∃ pos, readFlat S env data (headOf r start (.elem id len p)) = .ok n pos) ∨
    ((∀ b, n ≠ .leaf b .void) ∧ readFlat S env data (headOf r start (.elem id len p)) = .err data.length) := by
  have hf := loadsTo_head S env k r _ n h
  have hp := headOf_posData S r start _ hf
  have hb := headOf_base S r start _ hf
  simp only [docId, docLen, payload] at hp hb
  have hr := readExact_short data (start + (idField id).length + len) p.length (by omega) (by omega)
  have hstream : (headOf r start (.elem id len p)).streamPos.toNat = start + (idField id).length + len := by
    simp only [headOf, docId, docLen]; omega
  have hsize : (headOf r start (.elem id len p)).dataSize.toNat = p.length := by
    simp only [headOf, docSize, payload]; omega
  have hds : docSize (.elem id len p) = p.length := rfl
  simp only [LoadsTo] at h
  obtain ⟨_, _, hv, hn⟩ := h
  unfold readFlat
  have hk : (headOf r start (.elem id len p)).kind.cls S = (S.ctx r).cls := rfl
  rw [hk]
  unfold FlatNode at hn
  cases hc : (S.ctx r).cls <;> rw [hc] at hn hv hb <;> simp only at hn ⊢ <;>
    simp only [hp, hsize, hstream, hr, hb, hds] <;> try (exact hn.elim)
  case void => exact Or.inl ⟨⟨_, hn⟩, _, by rw [hn]; rfl⟩
  case crc =>
    have h4 : p.length = 4 := by simpa [validateSize] using hv
    rw [h4] at hr
    rw [hr]
    refine Or.inr ⟨fun b hb => ?_, rfl⟩
    rw [hn] at hb
    cases hb
  all_goals
    obtain ⟨v, hv1, hv2⟩ := hn
    refine Or.inr ⟨fun b hb => ?_, trivial⟩
    rw [hv2] at hb
    injection hb with _ hb
    subst hb
    simp only [readLeaf, Option.map_eq_some_iff, Option.some.injEq] at hv1
    first
      | (obtain ⟨_, _, h⟩ := hv1; cases h)
      | cases hv1

/-- What reading a cut element delivers: an element, or the error at the end of the data. -/
def CutRes (res : RRes) (l : List Node) (len : Nat) : Prop :=
  (∃ m pos, l = [m] ∧ res = .ok m pos) ∨ (l = [] ∧ res = .err len)

theorem finish_kids (S : Schema) (f : Found) (s : LSt) (p : Nat) (h : s.crc = none) :
    finish S f s p = .ok (.master (f.base S true) 0 s.kids) p := by
  rw [finish_eq, statusOf, h]

theorem addChild_zero (f g : Found) (s : LSt) (n : Node) : addChild 0 f g s n = some { s with kids := s.kids ++ [n] } :=
  addChild_plain 0 f g s n (Or.inl (by simp))

mutual
theorem readElt_cut (S : Schema) (env : Env) (a : Bool) : ∀ (d : Doc) (r : Nat) (n : Node) (fuel : Nat) (data : Bytes)
    (mem : Bool) (ctx : List PCtx) (start avail : Nat), LoadsTo S env 0 r d n → need d ≤ fuel →
    data.drop start = (encode d).take avail → data.length = start + avail → headLen d ≤ avail → avail < (encode d).length →
    CutRes (readElt S env a fuel data mem ctx 0 (headOf r start d)) (cutNode d n avail) data.length
  | .elem id len p, r, n, fuel, data, mem, ctx, start, avail, h, hfuel, hdata, hlen, hh, hlt => by
    obtain ⟨fuel, rfl⟩ : ∃ m, fuel = m + 1 := ⟨fuel - 1, by simp only [need] at hfuel; omega⟩
    have hel := encode_len S r _ (loadsTo_head S env 0 r _ n h)
    simp only [docId, docLen, docSize, payload, headLen] at hel hh
    have hm : (S.ctx r).cls ≠ .master := by
      simp only [LoadsTo] at h
      intro hc
      have := h.2.2.2
      unfold FlatNode at this
      rw [hc] at this
      exact this
    have hread : readElt S env a (fuel + 1) data mem ctx 0 (headOf r start (.elem id len p)) =
        readFlat S env data (headOf r start (.elem id len p)) := by
      rw [readElt]
      simp only [headOf]
      rw [if_neg hm]
    rw [hread, cutNode, if_neg (by omega), if_neg (by omega)]
    rcases readFlat_short S env 0 r id len p n h data start (by omega) (by omega) with ⟨⟨b, hb⟩, pos, hp⟩ | ⟨hb, hp⟩
    · exact Or.inl ⟨n, pos, by rw [hb]; rfl, hp⟩
    · refine Or.inr ⟨?_, hp⟩
      rw [if_neg]
      intro hv
      unfold isVoid at hv
      split at hv
      · rename_i b; exact hb b rfl
      · cases hv
  | .group id len fin crc ch, r, n, fuel, data, mem, ctx, start, avail, h, hfuel, hdata, hlen, hh, hlt => by
    obtain ⟨fuel, rfl⟩ : ∃ m, fuel = m + 1 := ⟨fuel - 1, by simp only [need] at hfuel; omega⟩
    have hf := loadsTo_head S env 0 r _ n h
    have hp := headOf_posData S r start _ hf
    have hb := headOf_base S r start _ hf true
    have he := headOf_end r start _ S hf
    have hel := encode_len S r _ hf
    have htk := take_head S r _ hf avail hh
    simp only [docId, docLen, docSize, headLen] at hp hb hel htk hh
    have hdrop : data.drop (start + (idField id).length + len) =
        (payload (.group id len fin crc ch)).take (avail - ((idField id).length + len)) := by
      rw [Nat.add_assoc, ← List.drop_drop, hdata, htk]
      exact List.drop_left' (by rw [List.length_append, sizeField_length])
    have hpl : payload (.group id len fin crc ch) = (if crc then crcElement (encodeList ch) else []) ++ encodeList ch := by
      simp only [payload]
    generalize hg : headOf r start (.group id len fin crc ch) = f at *
    have hkind : f.kind = .known r := by rw [← hg]; rfl
    have hfin : f.finite = true := by rw [← hg]; rfl
    have hds : f.dataSize = docSize (.group id len fin crc ch) := by rw [← hg]; rfl
    simp only [LoadsTo] at h
    obtain ⟨hid, hfi, hhead, hm, ns, hns, hn⟩ := h
    rw [hm] at hb
    have hb' : f.base S true = ⟨id, (payload (.group id len fin crc ch)).length, len, true, true, true⟩ := by
      rw [hb]; rfl
    simp only [docSize] at hds
    generalize hpos : start + (idField id).length + len = pos at *
    rw [readElt, hkind]
    simp only [if_pos hm]
    rw [if_pos (by rw [hds]; left; omega), hp, cutNode, if_neg (by omega), if_neg (by omega)]
    cases crc with
    | false =>
      simp only [Bool.false_eq_true, if_false, List.nil_append] at hn hpl
      obtain ⟨p', hl⟩ := readLoop_cut S env a ch r ns fuel ctx f ⟨data, mem, pos, true, none, f.dataSize, []⟩
        (avail - ((idField id).length + len)) hns
        (by simp only [need] at hfuel; simp at hfuel; omega) (by rw [hdrop, hpl]) (by simp only; omega)
        (by rw [← hpl]; omega) hfin rfl (by rw [← hpl]; simp only; omega)
      left
      rw [hl, hn.2]
      simp only [Bool.false_eq_true, if_false]
      exact ⟨_, p', rfl, by rw [hb']; rfl⟩
    | true =>
      simp only [if_true] at hn hpl
      obtain ⟨⟨rc, hoc, hcc⟩, hn⟩ := hn
      have hlc := loads_crcDoc S env 0 r rc hoc hcc (encodeList ch)
      have hfc := loadsTo_head S env _ rc _ _ hlc
      have henc : crcElement (encodeList ch) = encode (crcDoc (encodeList ch)) := docId_crc _
      have hcl : (encode (crcDoc (encodeList ch))).length = 6 := by rw [← henc, crcElement_length]
      have hplen : (payload (.group id len fin true ch)).length = 6 + (encodeList ch).length := by
        rw [hpl, List.length_append, crcElement_length]
      simp only [need, if_true] at hfuel
      obtain ⟨fuel, rfl⟩ : ∃ m, fuel = m + 1 := ⟨fuel - 1, by omega⟩
      rw [hn]
      simp only [if_true]
      have hec := headOf_end rc pos _ S hfc
      have hdum : (!a && (headOf rc pos (crcDoc (encodeList ch))).kind.isDummy S) = false := by
        have : (headOf rc pos (crcDoc (encodeList ch))).kind.isDummy S = false := by
          simp only [headOf, Kind.isDummy, Kind.cls]
          simpa using hfc.cls
        rw [this]; simp
      by_cases h6 : 6 ≤ avail - ((idField id).length + len)
      · rw [if_pos h6]
        have hdrop6 : data.drop pos = encode (crcDoc (encodeList ch)) ++ (encodeList ch).take (avail - ((idField id).length + len) - 6) := by
          rw [hdrop, hpl, List.take_append, crcElement_length, List.take_of_length_le (by rw [crcElement_length]; exact h6), henc]
        have hfind := findNext_doc S a data.length data pos _ ⟨r, f.endPos⟩ ctx rc _ hfc hoc hdrop6 (Or.inr (by simp only; omega))
        obtain ⟨p1, hp1⟩ := readElt_doc S env a (crcDoc (encodeList ch)) 0 rc _ fuel data mem (⟨r, f.endPos⟩ :: ctx) pos
          _ hlc (by simp only [crcDoc, need]; omega) hdrop6
        rw [hfind]
        simp only [next]
        rw [if_neg (by simp [headOf]), if_neg (by rw [hfin, hec, he]; simp; omega), readLoop]
        simp only [hdum, Bool.false_eq_true, if_false]
        rw [hp1]
        simp only [addChild_zero, skipData]
        rw [if_pos (show (headOf rc pos (crcDoc (encodeList ch))).finite = true from rfl)]
        simp only [turn, hfin, Bool.true_and, decide_eq_true_eq]
        rw [if_neg (by rw [hec, he]; omega)]
        have hep : (headOf rc pos (crcDoc (encodeList ch))).endPos.toNat = pos + 6 := by rw [hec, hcl]; omega
        simp only [hep]
        obtain ⟨p', hl⟩ := readLoop_cut S env a ch r ns fuel ctx f
          ⟨data, mem, pos + 6, true, none, f.endPos - (headOf rc pos (crcDoc (encodeList ch))).endPos, [crcNode (encodeList ch)]⟩
          (avail - ((idField id).length + len) - 6) hns
          (by omega) (by rw [← List.drop_drop, hdrop6]; exact List.drop_left' hcl) (by simp only; omega)
          (by omega) hfin rfl (by simp only; omega)
        left
        simp only [List.nil_append] at hl ⊢
        rw [hl]
        exact ⟨_, p', rfl, by rw [hb']; rfl⟩
      · rw [if_neg h6]
        left
        have hcut : data.drop pos = (encode (crcDoc (encodeList ch))).take (avail - ((idField id).length + len)) := by
          rw [hdrop, hpl, henc, List.take_append, hcl, show avail - ((idField id).length + len) - 6 = 0 by omega]
          simp
        have hhl : headLen (crcDoc (encodeList ch)) = 2 := by
          unfold headLen crcDoc
          simp only [docId, docLen]
          have : (idField 0xBF).length = 1 := by decide
          omega
        by_cases h2 : avail - ((idField id).length + len) < 2
        · have hfind := findNext_inHead S a data.length data pos _ ⟨r, f.endPos⟩ ctx rc _ hfc hcut (by omega)
            (Or.inr (by simp only; omega))
          rw [hfind]
          simp only [next]
          rw [if_neg (by omega), finish_kids _ _ _ _ rfl, hb']
          exact ⟨_, _, rfl, rfl⟩
        · have hfind := findNext_top S a data.length data pos _ ⟨r, f.endPos⟩ ctx rc _ hfc hoc
            (by rw [hcut]; exact take_head S rc _ hfc _ (by omega)) (Or.inr (by simp only; omega))
          rw [hfind]
          simp only [next]
          rw [if_neg (by simp [headOf]), if_neg (by rw [hfin, hec, he]; simp; omega), readLoop]
          simp only [hdum, Bool.false_eq_true, if_false]
          obtain ⟨fuel, rfl⟩ : ∃ m, fuel = m + 1 := ⟨fuel - 1, by omega⟩
          have hre : readElt S env a (fuel + 1) data mem (⟨r, f.endPos⟩ :: ctx) (0 - 1) (headOf rc pos (crcDoc (encodeList ch))) =
              .err data.length := by
            rw [readElt]
            have : (headOf rc pos (crcDoc (encodeList ch))).kind = .known rc := rfl
            rw [this]
            simp only
            rw [if_neg (by rw [hcc]; decide)]
            rcases readFlat_short S env 0 rc 0xBF 1 _ _ hlc data pos (by have : (idField 0xBF).length = 1 := (by decide); omega)
              (by have : (idField 0xBF).length = 1 := (by decide); rw [leBytes_length]; omega) with ⟨⟨b, hb⟩, _⟩ | ⟨_, hp⟩
            · simp [crcNode] at hb
            · exact hp
          rw [hre]
          simp only [turn]
          split
          · rw [finish_kids _ _ _ _ rfl, hb']
            exact ⟨_, _, rfl, rfl⟩
          · rw [findNext_off S a data.length data data.length ⟨r, f.endPos⟩ ctx (Nat.le_refl _) (Or.inr (by simp only; omega))]
            simp only [next]
            rw [if_neg (by omega), finish_kids _ _ _ _ rfl, hb']
            exact ⟨_, _, rfl, rfl⟩
theorem readLoop_cut (S : Schema) (env : Env) (a : Bool) : ∀ (ds : List Doc) (r : Nat) (ns : List Node) (fuel : Nat)
    (ctx : List PCtx) (f : Found) (s : LSt) (avail : Nat), LoadsToList S env 0 r ds ns → needList ds ≤ fuel →
    s.data.drop s.pos = (encodeList ds).take avail → s.data.length = s.pos + avail → avail < (encodeList ds).length →
    f.finite = true → s.crc = none → f.endPos = s.pos + (encodeList ds).length →
    ∃ p, next S f s (findNext S a (s.data.length + 1) s.data s.pos (⟨r, f.endPos⟩ :: ctx) 0)
      (fun g => readLoop S env a fuel (⟨r, f.endPos⟩ :: ctx) 0 f s g) =
      .ok (.master (f.base S true) 0 (s.kids ++ cutNodes ds ns avail)) p
  | [], r, ns, fuel, ctx, f, s, avail, h, _, hdata, hlen, hlt, hfin, hcrc, hend => by simp [encodeList] at hlt
  | d :: ds, r, ns, fuel, ctx, f, s, avail, h, hfuel, hdata, hlen, hlt, hfin, hcrc, hend => by
    simp only [LoadsToList] at h
    obtain ⟨rc, n, ns', ho, hd, hds, rfl⟩ := h
    simp only [needList] at hfuel
    obtain ⟨fuel, rfl⟩ : ∃ m, fuel = m + 1 := ⟨fuel - 1, by omega⟩
    have hf := loadsTo_head S env _ rc d n hd
    have hec := headOf_end rc s.pos d S hf
    have hdum : (!a && (headOf rc s.pos d).kind.isDummy S) = false := by
      have : (headOf rc s.pos d).kind.isDummy S = false := by
        simp only [headOf, Kind.isDummy, Kind.cls]
        simpa using hf.cls
      rw [this]; simp
    have hel : (encodeList (d :: ds)).length = (encode d).length + (encodeList ds).length := by
      rw [encodeList_cons, List.length_append]
    rw [cutNodes]
    by_cases hc : (encode d).length ≤ avail
    · rw [if_pos hc]
      have hdrop : s.data.drop s.pos = encode d ++ (encodeList ds).take (avail - (encode d).length) := by
        rw [hdata, encodeList_cons, List.take_append, List.take_of_length_le hc]
      have hfind := findNext_doc S a s.data.length s.data s.pos _ ⟨r, f.endPos⟩ ctx rc d hf ho hdrop (Or.inr (by simp only; omega))
      obtain ⟨p1, hp1⟩ := readElt_doc S env a d 0 rc n fuel s.data s.mem (⟨r, f.endPos⟩ :: ctx) s.pos _ hd (by omega) hdrop
      rw [hfind]
      simp only [next]
      rw [if_neg (by simp [headOf]), if_neg (by rw [hfin, hec]; simp; omega), readLoop]
      simp only [hdum, Bool.false_eq_true, if_false]
      rw [hp1]
      simp only [addChild_zero, skipData]
      rw [if_pos (show (headOf rc s.pos d).finite = true from rfl)]
      simp only [turn, hfin, Bool.true_and, decide_eq_true_eq]
      rw [if_neg (by rw [hec]; omega)]
      have hep : (headOf rc s.pos d).endPos.toNat = s.pos + (encode d).length := by rw [hec]; omega
      simp only [hep]
      obtain ⟨p', hl⟩ := readLoop_cut S env a ds r ns' fuel ctx f
        ⟨s.data, s.mem, s.pos + (encode d).length, s.first, s.crc, f.endPos - (headOf rc s.pos d).endPos, s.kids ++ [n]⟩
        (avail - (encode d).length) hds (by omega)
        (by rw [← List.drop_drop, hdrop]; exact List.drop_left' rfl) (by simp only; omega) (by omega) hfin hcrc (by simp only; omega)
      refine ⟨p', ?_⟩
      rw [hl, List.append_assoc]
      rfl
    · rw [if_neg hc]
      have hdrop : s.data.drop s.pos = (encode d).take avail := by
        rw [hdata, encodeList_cons, List.take_append, show avail - (encode d).length = 0 by omega]
        simp
      by_cases hh : avail < headLen d
      · have hfind := findNext_inHead S a s.data.length s.data s.pos avail ⟨r, f.endPos⟩ ctx rc d hf hdrop hh
          (Or.inr (by simp only; omega))
        rw [hfind]
        simp only [next]
        rw [if_neg (by omega), finish_kids _ _ _ _ hcrc]
        have : cutNode d n avail = [] := by
          unfold headLen at hh
          have := encode_len S rc d hf
          cases d with
          | elem id len p =>
            simp only [docId, docLen, docSize, payload] at hh this
            rw [cutNode, if_neg (by omega), if_pos hh]
          | group id len fin crc ch =>
            simp only [docId, docLen] at hh
            rw [cutNode, if_neg (by omega), if_pos hh]
        rw [this, List.append_nil]
        exact ⟨_, rfl⟩
      · have hfind := findNext_top S a s.data.length s.data s.pos _ ⟨r, f.endPos⟩ ctx rc d hf ho
          (by rw [hdrop]; exact take_head S rc d hf avail (by omega)) (Or.inr (by simp only; omega))
        rw [hfind]
        simp only [next]
        rw [if_neg (by simp [headOf]), if_neg (by rw [hfin, hec]; simp; omega), readLoop]
        simp only [hdum, Bool.false_eq_true, if_false]
        rcases readElt_cut S env a d rc n fuel s.data s.mem (⟨r, f.endPos⟩ :: ctx) s.pos avail hd (by omega) hdrop hlen (by omega)
          (by omega) with ⟨m, p1, h1, h2⟩ | ⟨h1, h2⟩
        · simp only [Nat.zero_sub]
          rw [h1, h2]
          simp only [addChild_zero, skipData]
          rw [if_pos (show (headOf rc s.pos d).finite = true from rfl)]
          simp only [turn, hfin, Bool.true_and, decide_eq_true_eq]
          split
          · rw [finish_kids _ _ _ _ (by exact hcrc)]
            exact ⟨_, rfl⟩
          · rename_i hms
            rw [findNext_off S a s.data.length s.data _ ⟨r, f.endPos⟩ ctx (by rw [hec]; omega) (Or.inr (by simp only; rw [hec] at hms ⊢; omega))]
            simp only [next]
            rw [if_neg (by omega), finish_kids _ _ _ _ (by exact hcrc)]
            exact ⟨_, rfl⟩
        · simp only [Nat.zero_sub]
          rw [h1, h2]
          simp only [turn]
          split
          · rw [finish_kids _ _ _ _ (by exact hcrc), List.append_nil]
            exact ⟨_, rfl⟩
          · rw [findNext_off S a s.data.length s.data _ ⟨r, f.endPos⟩ ctx (Nat.le_refl _) (Or.inr (by simp only; omega))]
            simp only [next]
            rw [if_neg (by omega), finish_kids _ _ _ _ (by exact hcrc), List.append_nil]
            exact ⟨_, rfl⟩
end

end Verif.Ebml.Scan
