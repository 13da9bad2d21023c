import Verif.Ebml.ParseSpec
import Verif.Props.Crc
/-! Proof that reading an encoded document delivers what `LoadsTo` asks for. -/
set_option linter.unusedSimpArgs false
namespace Verif.Ebml.Scan
open EbmlDoc

theorem codedSizeLength_len (size len : Nat) (h1 : 1 ≤ len) (h8 : len ≤ 8) (hs : size < 2 ^ (7 * len) - 1) :
    codedSizeLength (size : Int) len true = len := by
  have hn : len = 1 ∨ len = 2 ∨ len = 3 ∨ len = 4 ∨ len = 5 ∨ len = 6 ∨ len = 7 ∨ len = 8 := by omega
  rcases hn with h | h | h | h | h | h | h | h <;> subst h <;>
    simp only [Nat.reduceMul, Nat.reducePow, Nat.reduceSub] at hs <;> unfold codedSizeLength <;>
    simp only [Bool.not_true, Bool.false_eq_true, if_false] <;> (repeat' split) <;> omega

/-- Number of payload bytes. -/
def docSize (d : Doc) : Nat := (payload d).length

/-- Length of the size field. -/
def docLen : Doc → Nat
  | .elem _ len _ => len
  | .group _ len _ _ _ => len

/-- The element the finder must return for document `d` of context `r` at `start`. -/
def headOf (r start : Nat) (d : Doc) : Found :=
  ⟨.known r, start, start + (idField (docId d)).length, docLen d, docSize d,
    start + (idField (docId d)).length + docLen d + docSize d, true, 0,
    start + (idField (docId d)).length + docLen d⟩

theorem idField_len_wf (id n : Nat) (h : WellFormedId id n) : (idField id).length = n := by
  obtain ⟨b0, tl, g1, g2, _⟩ := idField_head id n h
  rw [g1]; simp; omega

/-- What `LoadsTo` says of the head. -/
structure HeadFacts (S : Schema) (r : Nat) (d : Doc) : Prop where
  id : (S.ctx r).id = docId d
  ok : HeadOk (docId d) (docLen d) (docSize d)
  enc : encode d = idField (docId d) ++ sizeField (docLen d) (docSize d) ++ payload d
  cls : (S.ctx r).cls ≠ .dummy
  val : validateSize true (docSize d) (S.ctx r).cls = true

theorem loadsTo_head (S : Schema) (env : Env) (k r : Nat) (d : Doc) (n : Node) (h : LoadsTo S env k r d n) :
    HeadFacts S r d := by
  cases d with
  | elem id len p =>
    simp only [LoadsTo] at h
    obtain ⟨h1, h2, h3, h4⟩ := h
    refine ⟨h1, h2, ?_, ?_, h3⟩
    · rw [encode_elem]; rfl
    · intro hc
      unfold FlatNode at h4
      rw [hc] at h4
      exact h4
  | group id len fin crc ch =>
    simp only [LoadsTo] at h
    obtain ⟨h1, h2, h3, h4, _⟩ := h
    subst h2
    refine ⟨h1, h3, ?_, ?_, ?_⟩
    · rw [encode_group]; rfl
    · rw [h4]; decide
    · rw [h4]; rfl

theorem encode_len (S : Schema) (r : Nat) (d : Doc) (h : HeadFacts S r d) :
    (encode d).length = (idField (docId d)).length + docLen d + docSize d := by
  rw [h.enc]
  simp only [List.length_append, sizeField_length]
  rfl

theorem findNext_doc (S : Schema) (a : Bool) (F : Nat) (data : Bytes) (start : Nat) (rest : Bytes)
    (c : PCtx) (up : List PCtx) (r : Nat) (d : Doc) (h : HeadFacts S r d) (ho : Offers S c.ref (docId d) r)
    (hdata : data.drop start = encode d ++ rest)
    (hend : c.endPos = -1 ∨ (start : Int) + (encode d).length ≤ c.endPos) :
    findNext S a (F + 1) data start (c :: up) 0 = .found (headOf r start d) := by
  obtain ⟨h1, h8, hsz, n, hn⟩ := h.ok
  have hlen := encode_len S r d h
  have hidl := idField_len_wf _ n hn
  have hread := read_sizeField (docLen d) (docSize d) h1 h8 hsz
  obtain ⟨_, _, _, _, _, _, hfrom⟩ := idField_head _ n hn
  obtain ⟨ch, hch, hcr⟩ := createUsing_offers S (idField (docId d) ++ sizeField (docLen d) (docSize d)) n a c up _ r (hfrom _) ho
  have hne : ((docSize d : Nat) != 2 ^ (7 * docLen d) - 1) = true := by simp; omega
  have := findNext_head S a F data start c up 0 (docId d) n (sizeField (docLen d) (docSize d)) (payload d ++ rest) hn
    (by rw [hread, sizeField_length]) (by rw [sizeField_length]; omega)
    (by rw [hdata, h.enc, List.append_assoc _ (payload d)])
    (by rw [sizeField_length]; omega)
    (by rw [hread]; intro _; simp only; omega) r ch hcr h.cls (by rw [hread]; simp only; rw [hne]; exact h.val)
  rw [this, headOf, sizeField_length, hread, hidl]
  simp only [hne, if_true, if_neg (show ¬ ch > 0 by omega)]

theorem headOf_posData (S : Schema) (r start : Nat) (d : Doc) (h : HeadFacts S r d) :
    (headOf r start d).posData = start + (idField (docId d)).length + docLen d := by
  obtain ⟨h1, h8, hsz, _⟩ := h.ok
  unfold Found.posData headOf
  simp only [if_true]
  have : ((docLen d : Int) % 256).toNat = docLen d := by omega
  rw [this, codedSizeLength_len _ _ h1 h8 hsz]
  omega

theorem headOf_base (S : Schema) (r start : Nat) (d : Doc) (h : HeadFacts S r d) (vs : Bool) :
    (headOf r start d).base S vs =
      ⟨docId d, docSize d, docLen d, vs, (S.ctx r).cls != .date && (S.ctx r).cls != .crc, true⟩ := by
  obtain ⟨h1, h8, hsz, _⟩ := h.ok
  unfold Found.base headOf Found.id Kind.cls
  have : ((docLen d : Int) % 256).toNat = docLen d := by omega
  simp only [this, h.id]

theorem readExact_mid (data p rest : Bytes) (pos : Nat) (h : data.drop pos = p ++ rest) :
    readExact data pos p.length = some p := by
  unfold readExact
  rw [h, if_pos (by simp)]
  simp

theorem drop_payload (S : Schema) (r : Nat) (d : Doc) (h : HeadFacts S r d) (data rest : Bytes) (start : Nat)
    (hdata : data.drop start = encode d ++ rest) :
    data.drop (start + (idField (docId d)).length + docLen d) = payload d ++ rest := by
  rw [Nat.add_assoc, ← List.drop_drop, hdata, h.enc, List.append_assoc _ (payload d)]
  exact List.drop_left' (by rw [List.length_append, sizeField_length])

theorem headOf_end (r start : Nat) (d : Doc) (S : Schema) (h : HeadFacts S r d) :
    (headOf r start d).endPos = start + (encode d).length := by
  rw [encode_len S r d h]
  simp only [headOf]
  omega

/-- Leaves, checksums and Voids; the stream is left behind the element. -/
theorem readFlat_at (S : Schema) (env : Env) (k r : Nat) (id len : Nat) (p : Bytes) (n : Node)
    (h : LoadsTo S env k r (.elem id len p) n) (data rest : Bytes) (start : Nat)
    (hdata : data.drop start = encode (.elem id len p) ++ rest) :
    readFlat S env data (headOf r start (.elem id len p)) = .ok n (start + (encode (.elem id len p)).length) := by
  have hel := encode_len S r _ (loadsTo_head S env k r _ n h)
  have hf := loadsTo_head S env k r _ n h
  have hp := headOf_posData S r start _ hf
  have hb := headOf_base S r start _ hf
  have hd := drop_payload S r _ hf data rest start hdata
  have hend := headOf_end r start _ S hf
  simp only [docId, docLen, payload] at hd hp hb hel
  have hr := readExact_mid data p rest _ hd
  have hstream : (headOf r start (.elem id len p)).streamPos.toNat = start + (idField id).length + len := by
    simp only [headOf, docId, docLen]; omega
  have hsize : (headOf r start (.elem id len p)).dataSize.toNat = p.length := by
    simp only [headOf, docSize, payload]; omega
  have hds : docSize (.elem id len p) = p.length := rfl
  simp only [LoadsTo] at h
  obtain ⟨_, _, hv, hn⟩ := h
  unfold readFlat
  have hk : (headOf r start (.elem id len p)).kind.cls S = (S.ctx r).cls := rfl
  rw [hk]
  unfold FlatNode at hn
  cases hc : (S.ctx r).cls <;> rw [hc] at hn hv hb <;> simp only at hn ⊢ <;>
    simp only [hp, hsize, hstream, hr, hb, hds] <;> try (exact hn.elim)
  case void => rw [hn, hend, show ((start : Int) + ((encode (.elem id len p)).length : Int)).toNat = start + (encode (.elem id len p)).length by omega]; rfl
  case crc =>
    have h4 : p.length = 4 := by simpa [validateSize] using hv
    rw [h4] at hr
    rw [hr]
    rw [hn, show start + (idField id).length + len + 4 = start + (encode (.elem id len p)).length by omega]; rfl
  all_goals
    obtain ⟨v, hv1, hv2⟩ := hn
    rw [hv1]
    rw [hv2, show start + (idField id).length + len + p.length = start + (encode (.elem id len p)).length by omega]; rfl

theorem docId_crc (x : Bytes) : crcElement x = encode (.elem 0xBF 1 (leBytes 4 (Crc32.crc32 x).toNat)) := by
  rw [encode_elem, crcElement, leBytes_length]
  rfl

mutual
/-- Fuel needed to read a document. -/
def need : Doc → Nat
  | .elem _ _ _ => 1
  | .group _ _ _ crc ch => 1 + (if crc then 2 else 0) + needList ch
def needList : List Doc → Nat
  | [] => 0
  | d :: ds => 1 + need d + needList ds
end

/-- Checksum status of a loop state. -/
def statusOf (s : LSt) : Nat :=
  match s.crc with
  | some (v, some d) => if Crc.crcMatches v d then 2 else 1
  | _ => 0

theorem finish_eq (S : Schema) (f : Found) (s : LSt) (pos : Nat) :
    finish S f s pos = .ok (.master (f.base S true) (statusOf s) s.kids) pos := rfl

theorem encode_pos (S : Schema) (r : Nat) (d : Doc) (h : HeadFacts S r d) : 2 ≤ (encode d).length := by
  rw [encode_len S r d h]
  obtain ⟨h1, _, _, n, hn⟩ := h.ok
  rw [idField_len_wf _ n hn]
  have := hn.1
  omega

theorem offers_unique (S : Schema) (c id r r' : Nat) (h : Offers S c id r) (h' : Offers S c id r') : r = r' := by
  obtain ⟨h1, sem, h2, h3⟩ := h
  obtain ⟨h1', sem', h2', h3'⟩ := h'
  rw [h2] at h2'
  cases h2'
  rcases h3 with ⟨a1, a2⟩ | ⟨a1, a2, a3⟩ <;> rcases h3' with ⟨b1, b2⟩ | ⟨b1, b2, b3⟩
  · exact b2 r a1 h1
  · exact absurd h1 (b1 r a1)
  · exact absurd h1' (a1 r' b1)
  · exact b3 r a2 h1

theorem addChild_plain (k : Nat) (f g : Found) (s : LSt) (n : Node)
    (h : (s.first && k != 0 && s.crc.isNone) = false ∨ n.isCrc = false) :
    addChild k f g s n = some { s with kids := s.kids ++ [n] } := by
  cases n with
  | crc b v =>
    rcases h with h | h
    · simp only [addChild, h, Bool.false_eq_true, if_false]
    · simp [Node.isCrc] at h
  | _ => rfl

/-- The CRC-32 element as a document. -/
def crcDoc (x : Bytes) : Doc := .elem 0xBF 1 (leBytes 4 (Crc32.crc32 x).toNat)

theorem loads_crcDoc (S : Schema) (env : Env) (k r rc : Nat) (ho : Offers S r 0xBF rc) (hc : (S.ctx rc).cls = .crc) (x : Bytes) :
    LoadsTo S env k rc (crcDoc x) (crcNode x) := by
  simp only [crcDoc, LoadsTo, leBytes_length]
  refine ⟨ho.1, ⟨by omega, by omega, by omega, 1, ?_⟩, ?_, ?_⟩
  · unfold WellFormedId; omega
  · rw [hc]; rfl
  · unfold FlatNode
    rw [hc]
    simp only [leBytes_length, leNat_leBytes, crcNode]
    have : (Crc32.crc32 x).toNat % 256 ^ 4 = (Crc32.crc32 x).toNat := by
      have := (Crc32.crc32 x).isLt
      omega
    rw [this]
    congr 1
    simp

theorem crcMatches_self (x : Bytes) : Crc.crcMatches (Crc32.crc32 x) x = true := by
  unfold Crc.crcMatches
  rw [← C16_crc_is_crc32 x]
  simp [Crc.finalize, Crc.init]

/-- The state after the CRC-32 element in front of `x` was met. -/
theorem addChild_crc (k : Nat) (f g : Found) (s : LSt) (x rest : Bytes) (pos rc : Nat) (hg : g = headOf rc pos (crcDoc x))
    (hge : g.endPos = (pos : Int) + 6)
    (hfin : f.finite = true) (hfe : f.endPos = (pos : Int) + 6 + x.length) (hfs : f.dataSize = 6 + x.length)
    (hk : k ≠ 0) (hx : x ≠ []) (hs1 : s.first = true) (hs2 : s.crc = none) (hs3 : s.kids = [])
    (hd : s.data.drop (pos + 6) = x ++ rest) :
    ∃ s' rest', addChild k f g s (crcNode x) = some s' ∧ s'.data.drop (pos + 6) = x ++ rest' ∧ s'.kids = [] ∧
      statusOf s' = 2 ∧ s'.first = false := by
  simp only [crcNode, addChild, hs1, hs2, Option.isNone_none, Bool.and_true, Bool.true_and, bne_iff_ne, ne_eq, hk,
    not_false_eq_true, if_true, takeCrc, hfin]
  have hpn : ((pos : Int) + 6).toNat = pos + 6 := by omega
  have hr := readExact_mid s.data x rest _ hd
  by_cases hm : s.mem = true
  · rw [if_pos hm]
    have hsz : f.dataSize - (g.dataSize + (g.sizePos - g.pos) + codedSizeLength g.dataSize (g.sizeLen % 256).toNat true) =
        x.length := by
      have h1 : g.dataSize = 4 := by rw [hg]; simp only [headOf, docSize, crcDoc, payload, leBytes_length]; rfl
      have h2 : g.sizePos - g.pos = 1 := by
        rw [hg]; simp only [headOf, docId, crcDoc]
        have : (idField 0xBF).length = 1 := by decide
        omega
      have h3 : g.sizeLen = 1 := by rw [hg]; rfl
      rw [h1, h2, h3, hfs]
      have : codedSizeLength 4 ((1 : Int) % 256).toNat true = 1 := by decide
      omega
    rw [hsz, if_neg (by omega), hge, hpn, Int.toNat_natCast, hr]
    refine ⟨_, rest, rfl, hd, hs3, ?_, rfl⟩
    simp only [statusOf, crcMatches_self, if_true]
  · rw [if_neg hm]
    have : (f.endPos - g.endPos).toNat = x.length := by rw [hfe, hge]; omega
    rw [this, hge, hpn, hr]
    refine ⟨_, [], rfl, ?_, hs3, ?_, rfl⟩
    · simp only [hfe, List.append_nil]
      rw [List.drop_take, hd]
      have : ((pos : Int) + 6 + x.length).toNat - (pos + 6) = x.length := by omega
      rw [this]
      simp
    · simp only [statusOf, if_neg hx, crcMatches_self, if_true]

mutual
theorem readElt_at (S : Schema) (env : Env) (a : Bool) : ∀ (d : Doc) (k r : Nat) (n : Node) (fuel : Nat) (data : Bytes)
    (mem : Bool) (ctx : List PCtx) (start : Nat) (rest : Bytes), LoadsTo S env k r d n → need d ≤ fuel →
    data.drop start = encode d ++ rest →
    readElt S env a fuel data mem ctx k (headOf r start d) = .ok n (start + (encode d).length)
  | .elem id len p, k, r, n, fuel, data, mem, ctx, start, rest, h, hfuel, hdata => by
    obtain ⟨fuel, rfl⟩ : ∃ m, fuel = m + 1 := ⟨fuel - 1, by simp only [need] at hfuel; omega⟩
    have hp := readFlat_at S env k r id len p n h data rest start hdata
    have hm : (S.ctx r).cls ≠ .master := by
      simp only [LoadsTo] at h
      intro hc
      have := h.2.2.2
      unfold FlatNode at this
      rw [hc] at this
      exact this
    rw [readElt]
    simp only [headOf] at hp ⊢
    rw [if_neg hm]
    exact hp
  | .group id len fin crc ch, k, r, n, fuel, data, mem, ctx, start, rest, h, hfuel, hdata => by
    obtain ⟨fuel, rfl⟩ : ∃ m, fuel = m + 1 := ⟨fuel - 1, by simp only [need] at hfuel; omega⟩
    have hf := loadsTo_head S env k r _ n h
    have hp := headOf_posData S r start _ hf
    have hb := headOf_base S r start _ hf true
    have he := headOf_end r start _ S hf
    have hel := encode_len S r _ hf
    have hd := drop_payload S r _ hf data rest start hdata
    generalize hg : headOf r start (.group id len fin crc ch) = f at *
    have hkind : f.kind = .known r := by rw [← hg]; rfl
    have hfin : f.finite = true := by rw [← hg]; rfl
    have hds : f.dataSize = docSize (.group id len fin crc ch) := by rw [← hg]; rfl
    simp only [LoadsTo] at h
    obtain ⟨hid, hfi, hhead, hm, ns, hns, hn⟩ := h
    rw [readElt, hkind]
    simp only [if_pos hm]
    rw [hm] at hb
    simp only [docId, docLen, docSize] at *
    have hpl : (payload (.group id len fin crc ch)) = (if crc then crcElement (encodeList ch) else []) ++ encodeList ch := by
      simp only [payload]
    have hb' : f.base S true = ⟨id, (payload (.group id len fin crc ch)).length, len, true, true, true⟩ := by
      rw [hb]; rfl
    generalize hpos : start + (idField id).length + len = pos at *
    cases crc with
    | false =>
      simp only [Bool.false_eq_true, if_false, List.nil_append] at hn hpl
      cases ch with
      | nil =>
        simp only [LoadsToList] at hns
        subst hns
        have : (payload (.group id len fin false [])).length = 0 := by rw [hpl]; rfl
        rw [if_neg (by rw [hds, hfin, this]; simp), finish_eq]
        have hsp : f.streamPos.toNat = start + (encode (.group id len fin false [])).length := by
          have : f.streamPos = start + (idField id).length + len := by rw [← hg]; rfl
          omega
        rw [hn.2, hb', hsp]; rfl
      | cons c cs =>
        obtain ⟨rc, nc, ncs, ho, hlc, hlcs, hns'⟩ := (by simpa only [LoadsToList] using hns :
          ∃ r' n' ns', Offers S r (docId c) r' ∧ LoadsTo S env (k - 1) r' c n' ∧ LoadsToList S env (k - 1) r cs ns' ∧ ns = n' :: ns')
        have hfc := loadsTo_head S env _ rc c nc hlc
        have hpc := encode_pos S rc c hfc
        have hfind := findNext_doc S a data.length data pos (encodeList cs ++ rest) ⟨r, f.endPos⟩ ctx rc c hfc ho
          (by rw [hd, hpl, encodeList_cons, List.append_assoc])
          (by right; simp only; rw [he]; rw [hpl, encodeList_cons, List.length_append] at hel; omega)
        have hlt : (payload (.group id len fin false (c :: cs))).length = (encode c).length + (encodeList cs).length := by
          rw [hpl, encodeList_cons, List.length_append]
        rw [if_pos (by rw [hds]; left; omega), hp, hfind]
        simp only [next]
        have hec := headOf_end rc pos c S hfc
        rw [if_neg (by simp [headOf]), if_neg (by rw [hfin, hec, he]; simp; omega)]
        have hl := readLoop_at S env a (c :: cs) k r ns fuel ctx f
          ⟨data, mem, pos, true, none, f.dataSize, []⟩ pos rest c cs rc rfl ho hns
          (by simp only [need, needList] at *; omega) (by rw [hd, hpl]) hfin
          (by rw [he, ← hpl]; omega) (by
            rcases hn.1 with h0 | h0
            · left; simp [h0]
            · right; exact h0)
        have hw : pos + (encodeList (c :: cs)).length = start + (encode (.group id len fin false (c :: cs))).length := by
          rw [hpl] at hel; omega
        rw [hl, hn.2, hb', hw]
        rfl
    | true =>
      simp only [if_true] at hn hpl
      obtain ⟨⟨rc, hoc, hcc⟩, hn⟩ := hn
      have hlc := loads_crcDoc S env (k - 1) r rc hoc hcc (encodeList ch)
      have hfc := loadsTo_head S env _ rc _ _ hlc
      have henc : crcElement (encodeList ch) = encode (crcDoc (encodeList ch)) := docId_crc _
      have hcl : (encode (crcDoc (encodeList ch))).length = 6 := by rw [← henc, crcElement_length]
      have hlt : (payload (.group id len fin true ch)).length = 6 + (encodeList ch).length := by
        rw [hpl, List.length_append, crcElement_length]
      have hfind := findNext_doc S a data.length data pos (encodeList ch ++ rest) ⟨r, f.endPos⟩ ctx rc _ hfc hoc
        (by rw [hd, hpl, henc, List.append_assoc]) (by right; simp only; omega)
      have hec := headOf_end rc pos _ S hfc
      rw [if_pos (by rw [hds]; left; omega), hp, hfind]
      simp only [next]
      rw [if_neg (by simp [headOf]), if_neg (by rw [hfin, hec, he]; simp; omega)]
      obtain ⟨fuel, rfl⟩ : ∃ m, fuel = m + 1 := ⟨fuel - 1, by simp only [need, if_true] at hfuel; omega⟩
      obtain ⟨fuel, rfl⟩ : ∃ m, fuel = m + 1 := ⟨fuel - 1, by simp only [need, if_true] at hfuel; omega⟩
      have hdata' : data.drop (pos + 6) = encodeList ch ++ rest := by
        rw [← List.drop_drop, hd, hpl, List.append_assoc]
        exact List.drop_left' (crcElement_length _)
      have hp1 := readFlat_at S env (k - 1) rc 0xBF 1 _ _ hlc data (encodeList ch ++ rest) pos
        (by rw [hd, hpl, henc, List.append_assoc]; rfl)
      have hre : readElt S env a (fuel + 1) data mem (⟨r, f.endPos⟩ :: ctx) (k - 1) (headOf rc pos (crcDoc (encodeList ch))) =
          .ok (crcNode (encodeList ch)) (pos + (encode (crcDoc (encodeList ch))).length) := by
        rw [readElt]
        have : (headOf rc pos (crcDoc (encodeList ch))).kind = .known rc := rfl
        rw [this]
        simp only
        rw [if_neg (by rw [hcc]; decide)]
        exact hp1
      generalize hs0 : (⟨data, mem, pos, true, none, f.dataSize, []⟩ : LSt) = s0
      have hstate : ∃ s' rest', addChild k f (headOf rc pos (crcDoc (encodeList ch))) s0 (crcNode (encodeList ch)) = some s' ∧
          s'.data.drop (pos + 6) = encodeList ch ++ rest' ∧ ((s'.first && k != 0 && s'.crc.isNone) = false) ∧
          n = .master (f.base S true) (statusOf s') (s'.kids ++ ns) := by
        by_cases hk : k = 0
        · rw [if_pos hk] at hn
          refine ⟨{ s0 with kids := s0.kids ++ [crcNode (encodeList ch)] }, rest, ?_, ?_, ?_, ?_⟩
          · exact addChild_plain k f _ s0 _ (Or.inl (by simp [hk]))
          · rw [← hs0]; exact hdata'
          · simp [hk]
          · rw [hn, hb', ← hs0]; rfl
        · rw [if_neg hk] at hn
          have hx : encodeList ch ≠ [] := by
            cases ch with
            | nil => exact absurd rfl hn.1
            | cons c cs =>
              obtain ⟨rc', nc, ncs, _, hlc', _⟩ := (by simpa only [LoadsToList] using hns :
                ∃ r' n' ns', Offers S r (docId c) r' ∧ LoadsTo S env (k - 1) r' c n' ∧ LoadsToList S env (k - 1) r cs ns' ∧ ns = n' :: ns')
              have := encode_pos S rc' c (loadsTo_head S env _ _ _ _ hlc')
              intro h0
              rw [encodeList_cons] at h0
              have := congrArg List.length h0
              simp only [List.length_append, List.length_nil] at this
              omega
          obtain ⟨s', rest', h1, h2, h3, h4, h5⟩ := addChild_crc k f _ s0 (encodeList ch) rest pos rc rfl
            (by rw [hec]; omega) hfin (by rw [he]; omega) (by rw [hds]; omega) hk hx
            (by rw [← hs0]) (by rw [← hs0]) (by rw [← hs0]) (by rw [← hs0]; exact hdata')
          refine ⟨s', rest', h1, h2, by simp [h5], ?_⟩
          rw [hn.2, h4, h3, hb']
          rfl
      obtain ⟨s', rest', hadd, hdr, hcond, hnn⟩ := hstate
      rw [readLoop]
      have hdum : (!a && (headOf rc pos (crcDoc (encodeList ch))).kind.isDummy S) = false := by
        have : (headOf rc pos (crcDoc (encodeList ch))).kind.isDummy S = false := by
          simp only [headOf, Kind.isDummy, Kind.cls]
          simpa using hfc.cls
        rw [this]; simp
      have hsd : s0.data = data ∧ s0.mem = mem := by rw [← hs0]; exact ⟨rfl, rfl⟩
      rw [hdum, hsd.1, hsd.2, hre]
      simp only [Bool.false_eq_true, if_false]
      rw [hadd]
      simp only [skipData]
      rw [if_pos (show (headOf rc pos (crcDoc (encodeList ch))).finite = true from rfl)]
      simp only [turn, hfin, Bool.true_and, decide_eq_true_eq]
      have hpos' : (headOf rc pos (crcDoc (encodeList ch))).endPos.toNat = pos + 6 := by rw [hec]; omega
      cases ch with
      | nil =>
        simp only [LoadsToList] at hns
        subst hns
        have h0 : (encodeList []).length = 0 := rfl
        rw [if_pos (by rw [hec, he]; omega), finish_eq]
        have hw : pos + 6 = start + (encode (.group id len fin true [])).length := by omega
        rw [hnn, hpos', hw]; simp only [statusOf, List.append_nil]
      | cons c cs =>
        obtain ⟨rc', nc, ncs, ho', hlc', hlcs', hns'⟩ := (by simpa only [LoadsToList] using hns :
          ∃ r' n' ns', Offers S r (docId c) r' ∧ LoadsTo S env (k - 1) r' c n' ∧ LoadsToList S env (k - 1) r cs ns' ∧ ns = n' :: ns')
        have hfc' := loadsTo_head S env _ rc' c nc hlc'
        have hpc' := encode_pos S rc' c hfc'
        have hlen : (encodeList (c :: cs)).length = (encode c).length + (encodeList cs).length := by
          rw [encodeList_cons, List.length_append]
        have hfind' := findNext_doc S a s'.data.length s'.data (pos + 6) (encodeList cs ++ rest')
          ⟨r, f.endPos⟩ ctx rc' c hfc' ho' (by rw [hdr, encodeList_cons, List.append_assoc])
          (by right; simp only; omega)
        rw [if_neg (by rw [hec, he]; omega), hpos', hfind']
        simp only [next]
        have hec' := headOf_end rc' (pos + 6) c S hfc'
        rw [if_neg (by simp [headOf]), if_neg (by rw [hfin, hec', he]; simp; omega)]
        have hl := readLoop_at S env a (c :: cs) k r ns (fuel + 1) ctx f
          { s' with pos := pos + 6, maxSize := f.endPos - (headOf rc pos (crcDoc (encodeList (c :: cs)))).endPos }
          (pos + 6) rest' c cs rc' rfl ho' hns (by simp only [need, if_true] at hfuel; omega) hdr hfin
          (by rw [he]; omega) (Or.inl hcond)
        have hw : pos + 6 + (encodeList (c :: cs)).length = start + (encode (.group id len fin true (c :: cs))).length := by
          omega
        rw [hnn, ← hw]
        exact hl
theorem readLoop_at (S : Schema) (env : Env) (a : Bool) : ∀ (ds : List Doc) (k r : Nat) (ns : List Node) (fuel : Nat)
    (ctx : List PCtx) (f : Found) (s : LSt) (start : Nat) (rest : Bytes) (d : Doc) (ds' : List Doc) (r' : Nat),
    ds = d :: ds' → Offers S r (docId d) r' →
    LoadsToList S env (k - 1) r ds ns → needList ds ≤ fuel → s.data.drop start = encodeList ds ++ rest →
    f.finite = true → f.endPos = start + (encodeList ds).length →
    ((s.first && k != 0 && s.crc.isNone) = false ∨ ∀ x ∈ ns, x.isCrc = false) →
    readLoop S env a fuel (⟨r, f.endPos⟩ :: ctx) k f s (headOf r' start d) =
      .ok (.master (f.base S true) (statusOf s) (s.kids ++ ns)) (start + (encodeList ds).length)
  | [], k, r, ns, fuel, ctx, f, s, start, rest, d, ds', r', hds, ho, h, hfuel, hdata, hfin, hend, hcrc => by simp at hds
  | d0 :: ds0, k, r, ns, fuel, ctx, f, s, start, rest, d, ds', r', hds, ho, h, hfuel, hdata, hfin, hend, hcrc => by
    cases hds
    obtain ⟨r1, n1, ns1, ho1, hl1, hls1, hns⟩ := (by simpa only [LoadsToList] using h :
      ∃ r' n' ns', Offers S r (docId d0) r' ∧ LoadsTo S env (k - 1) r' d0 n' ∧ LoadsToList S env (k - 1) r ds0 ns' ∧ ns = n' :: ns')
    have hru := offers_unique S r _ r1 r' ho1 ho
    subst hru
    subst hns
    obtain ⟨m, rfl⟩ : ∃ m, fuel = m + 1 := ⟨fuel - 1, by simp only [needList] at hfuel; omega⟩
    simp only [needList] at hfuel
    have hf := loadsTo_head S env _ r1 d0 n1 hl1
    rw [encodeList_cons, List.append_assoc] at hdata
    rw [encodeList_cons, List.length_append] at hend
    have hp := readElt_at S env a d0 (k - 1) r1 n1 m s.data s.mem (⟨r, f.endPos⟩ :: ctx) start (encodeList ds0 ++ rest) hl1
      (by omega) hdata
    have he := headOf_end r1 start d0 S hf
    rw [readLoop]
    have hdum : (!a && (headOf r1 start d0).kind.isDummy S) = false := by
      have : (headOf r1 start d0).kind.isDummy S = false := by
        simp only [headOf, Kind.isDummy, Kind.cls]
        simpa using hf.cls
      rw [this]; simp
    rw [hdum, hp]
    simp only [Bool.false_eq_true, if_false]
    rw [addChild_plain k f _ s n1 (by
      rcases hcrc with hc | hc
      · exact Or.inl hc
      · exact Or.inr (hc n1 (List.mem_cons_self)))]
    simp only [skipData]
    have hfin' : (headOf r1 start d0).finite = true := rfl
    rw [if_pos hfin']
    simp only [turn, hfin, Bool.true_and, decide_eq_true_eq]
    have hdata' : s.data.drop (start + (encode d0).length) = encodeList ds0 ++ rest := by
      rw [← List.drop_drop, hdata]
      exact List.drop_left' rfl
    have hpos : (headOf r1 start d0).endPos.toNat = start + (encode d0).length := by rw [he]; omega
    cases ds0 with
    | nil =>
      simp only [LoadsToList] at hls1
      subst hls1
      simp only [encodeList, List.length_nil] at hend
      rw [if_pos (by rw [he, hend]; omega), finish_eq, hpos]
      simp only [encodeList_cons, encodeList, List.append_nil]
      rfl
    | cons d1 ds1 =>
      obtain ⟨r2, n2, ns2, ho2, hl2, hls2, hns2⟩ := (by simpa only [LoadsToList] using hls1 :
        ∃ r' n' ns', Offers S r (docId d1) r' ∧ LoadsTo S env (k - 1) r' d1 n' ∧ LoadsToList S env (k - 1) r ds1 ns' ∧ ns1 = n' :: ns')
      have hf2 := loadsTo_head S env _ r2 d1 n2 hl2
      have hp2 := encode_pos S r2 d1 hf2
      have hlen : (encodeList (d1 :: ds1)).length = (encode d1).length + (encodeList ds1).length := by
        rw [encodeList_cons, List.length_append]
      have hfind := findNext_doc S a s.data.length s.data (start + (encode d0).length) (encodeList ds1 ++ rest)
        ⟨r, f.endPos⟩ ctx r2 d1 hf2 ho2 (by rw [hdata', encodeList_cons, List.append_assoc])
        (by right; simp only; omega)
      rw [if_neg (by rw [he, hend]; omega), hpos, hfind]
      simp only [next]
      have he2 := headOf_end r2 (start + (encode d0).length) d1 S hf2
      rw [if_neg (by simp [headOf]), if_neg (by rw [hfin, he2, hend]; simp; omega)]
      have hl := readLoop_at S env a (d1 :: ds1) k r ns1 m ctx f
        { s with kids := s.kids ++ [n1], pos := start + (encode d0).length, maxSize := f.endPos - (headOf r1 start d0).endPos }
        (start + (encode d0).length) rest d1 ds1 r2 rfl ho2 hls1 (by simp only [needList] at *; omega) hdata' hfin
        (by rw [hend]; omega) (by
          rcases hcrc with hc | hc
          · exact Or.inl hc
          · exact Or.inr (fun x hx => hc x (List.mem_cons_of_mem _ hx)))
      rw [encodeList_cons d0, List.length_append, ← Nat.add_assoc]
      simp only [statusOf, List.append_assoc, List.singleton_append] at hl ⊢
      exact hl
end

theorem readFlat_doc (S : Schema) (env : Env) (k r : Nat) (id len : Nat) (p : Bytes) (n : Node)
    (h : LoadsTo S env k r (.elem id len p) n) (data rest : Bytes) (start : Nat)
    (hdata : data.drop start = encode (.elem id len p) ++ rest) :
    ∃ pos, readFlat S env data (headOf r start (.elem id len p)) = .ok n pos :=
  ⟨_, readFlat_at S env k r id len p n h data rest start hdata⟩

theorem readElt_doc (S : Schema) (env : Env) (a : Bool) (d : Doc) (k r : Nat) (n : Node) (fuel : Nat) (data : Bytes)
    (mem : Bool) (ctx : List PCtx) (start : Nat) (rest : Bytes) (h : LoadsTo S env k r d n) (hf : need d ≤ fuel)
    (hdata : data.drop start = encode d ++ rest) :
    ∃ pos, readElt S env a fuel data mem ctx k (headOf r start d) = .ok n pos :=
  ⟨_, readElt_at S env a d k r n fuel data mem ctx start rest h hf hdata⟩

end Verif.Ebml.Scan
