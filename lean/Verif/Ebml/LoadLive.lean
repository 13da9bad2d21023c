import Verif.Ebml.LoadLiveSpec
import Verif.Ebml.ParseTree
/-! Reading documents of unknown size that reach to the end of the stream. -/
set_option linter.unusedSimpArgs false
namespace Verif.Ebml.Scan
open EbmlDoc

/-- No context has an end. -/
def NoEnd (ctx : List PCtx) : Prop := ∀ c ∈ ctx, c.endPos = -1

theorem adjust_noEnd (start : Nat) (ctx : List PCtx) (lv : Int) (h : NoEnd ctx) : adjust start ctx lv = (ctx, lv) := by
  match ctx with
  | [] => rfl
  | [c] => rfl
  | c :: c' :: up =>
    rw [adjust, if_neg]
    have := h c List.mem_cons_self
    omega

theorem findNext_end (S : Schema) (a : Bool) (F : Nat) (data : Bytes) (c : PCtx) (up : List PCtx) (h : NoEnd (c :: up)) :
    findNext S a (F + 1) data data.length (c :: up) 0 = .none 0 data.length := by
  unfold findNext
  rw [adjust_noEnd _ _ _ h]
  simp only [List.drop_length, loop]
  have hl : limit (c :: up) = -1 := h c List.mem_cons_self
  rw [hl, idLoop.eq_def]
  have : idMarker [] = none := by decide
  rw [this]
  simp only
  rw [if_neg (by omega)]

/-- What the finder returns for a group of unknown size. -/
def liveHead (r start : Nat) (d : Doc) : Found :=
  ⟨.known r, start, start + (idField (docId d)).length, docLen d, -1, -1, false, 0, start + (idField (docId d)).length + docLen d⟩

theorem findNext_live (S : Schema) (a : Bool) (F : Nat) (data : Bytes) (start : Nat) (c : PCtx) (up : List PCtx)
    (r id len : Nat) (crc : Bool) (ch : List Doc) (rest : Bytes) (hend : c.endPos = -1) (ho : Offers S c.ref id r)
    (h1 : 1 ≤ len) (h8 : len ≤ 8) (m : Nat) (hm : WellFormedId id m) (hcls : (S.ctx r).cls = .master)
    (hdata : data.drop start = encode (.group id len false crc ch) ++ rest) :
    findNext S a (F + 1) data start (c :: up) 0 = .found (liveHead r start (.group id len false crc ch)) := by
  have hread := read_unknownField len h1 h8
  obtain ⟨_, _, _, _, _, _, hfrom⟩ := idField_head id m hm
  obtain ⟨j, hj, hcr⟩ := createUsing_offers S (idField id ++ unknownField len) m a c up id r (hfrom _) ho
  have := findNext_head S a F data start c up 0 id m (unknownField len) (payload (.group id len false crc ch) ++ rest) hm
    (by rw [hread, unknownField_length]) (by rw [unknownField_length]; omega)
    (by rw [hdata, encode_group]; simp) (Or.inl hend) (fun _ => Or.inl hend) r j hcr (by rw [hcls]; decide)
    (by rw [hcls]; rfl)
  rw [this, hread, unknownField_length, liveHead]
  simp [if_neg (show ¬ j > 0 by omega), hend, docId, docLen, idField_len_wf id m hm]

theorem liveHead_posData (r start : Nat) (d : Doc) : (liveHead r start d).posData = start + (idField (docId d)).length + docLen d := by
  simp only [Found.posData, liveHead, Bool.false_eq_true, if_false]
  omega

theorem addChild_live (k : Nat) (f g : Found) (s : LSt) (n : Node) (hf : f.finite = false) :
    ∃ b, addChild k f g s n = some { s with first := b, kids := s.kids ++ [n] } := by
  cases n with
  | crc b v =>
    by_cases h : (s.first && k != 0 && s.crc.isNone) = true
    · exact ⟨false, by simp only [addChild, if_pos h, takeCrc, hf]; rfl⟩
    · exact ⟨s.first, by simp only [addChild, if_neg h]⟩
  | _ => exact ⟨s.first, rfl⟩

theorem loadsOpen_group (S : Schema) (env : Env) (k r : Nat) (d : Doc) (n : Node) (h : LoadsOpen S env k r d n) :
    ∃ id len crc ch, d = .group id len false crc ch := by
  cases d with
  | elem => simp [LoadsOpen] at h
  | group id len fin crc ch =>
    simp only [LoadsOpen] at h
    exact ⟨id, len, crc, ch, by rw [h.2.1]⟩

mutual
theorem readElt_live (S : Schema) (env : Env) (a : Bool) : ∀ (d : Doc) (k r : Nat) (n : Node) (fuel : Nat) (data : Bytes)
    (mem : Bool) (ctx : List PCtx) (start : Nat), LoadsOpen S env k r d n → need d ≤ fuel → NoEnd ctx →
    data.drop start = encode d → start ≤ data.length →
    readElt S env a fuel data mem ctx k (liveHead r start d) = .ok n data.length
  | .elem id len p, k, r, n, fuel, data, mem, ctx, start, h, _, _, _, _ => by simp [LoadsOpen] at h
  | .group id len fin crc ch, k, r, n, fuel, data, mem, ctx, start, h, hfuel, hctx, hdata, hst => by
    obtain ⟨fuel, rfl⟩ : ∃ m, fuel = m + 1 := ⟨fuel - 1, by simp only [need] at hfuel; omega⟩
    have hpd := liveHead_posData r start (.group id len fin crc ch)
    simp only [LoadsOpen] at h
    obtain ⟨hid, hfin, h1, h8, ⟨m, hm⟩, hcls, hcrc, ns, hns, hn⟩ := h
    subst hfin
    have hdrop : data.drop (start + (idField id).length + len) = payload (.group id len false crc ch) := by
      rw [Nat.add_assoc, ← List.drop_drop, hdata, encode_group]
      simp only [Bool.false_eq_true, if_false]
      exact List.drop_left' (by rw [List.length_append, unknownField_length])
    have hle : start + (idField id).length + len ≤ data.length := by
      have := congrArg List.length hdata
      rw [encode_group] at this
      simp only [Bool.false_eq_true, if_false, List.length_append, List.length_drop, unknownField_length] at this
      omega
    simp only [docId, docLen] at hpd
    have hb : (liveHead r start (.group id len false crc ch)).base S true = ⟨id, -1, len, true, true, false⟩ := by
      have : ((len : Int) % 256).toNat = len := by omega
      simp only [Found.base, liveHead, Found.id, Kind.cls, docLen, this, hid, hcls]
      rfl
    have hctx' : NoEnd (⟨r, -1⟩ :: ctx) := by
      intro c hc
      rcases List.mem_cons.mp hc with h | h
      · rw [h]
      · exact hctx c h
    generalize hg : liveHead r start (.group id len false crc ch) = f at *
    have hkind : f.kind = .known r := by rw [← hg]; rfl
    have hfin : f.finite = false := by rw [← hg]; rfl
    have hend : f.endPos = -1 := by rw [← hg]; rfl
    rw [readElt, hkind]
    simp only [if_pos hcls]
    rw [if_pos (by simp [hfin]), hpd, hend]
    have hpl : (payload (.group id len false crc ch)) = (if crc then crcElement (encodeList ch) else []) ++ encodeList ch := by
      simp only [payload]
    cases crc with
    | false =>
      simp only [Bool.false_eq_true, if_false, List.nil_append] at hn hpl
      rw [readLoop_live S env a ch k r ns fuel ctx f ⟨data, mem, start + (idField id).length + len, true, none, f.dataSize, []⟩
        hns (by simp only [need] at hfuel; simp at hfuel; omega) hctx' hfin rfl (by rw [hdrop, hpl]) hle, hn, hb]
      rfl
    | true =>
      simp only [if_true] at hn hpl
      obtain ⟨rc, hoc, hcc⟩ := hcrc rfl
      have hlc := loads_crcDoc S env (k - 1) r rc hoc hcc (encodeList ch)
      have hfc := loadsTo_head S env _ rc _ _ hlc
      have henc : crcElement (encodeList ch) = encode (crcDoc (encodeList ch)) := docId_crc _
      have hcl : (encode (crcDoc (encodeList ch))).length = 6 := by rw [← henc, crcElement_length]
      generalize hpos : start + (idField id).length + len = pos at *
      have hfind := findNext_doc S a data.length data pos (encodeList ch) ⟨r, -1⟩ ctx rc _ hfc hoc
        (by rw [hdrop, hpl, henc]) (Or.inl rfl)
      have hec := headOf_end rc pos _ S hfc
      simp only [need, if_true] at hfuel
      obtain ⟨fuel, rfl⟩ : ∃ m, fuel = m + 1 := ⟨fuel - 1, by omega⟩
      obtain ⟨p1, hp1⟩ := readElt_doc S env a (crcDoc (encodeList ch)) (k - 1) rc _ fuel data mem (⟨r, -1⟩ :: ctx) pos
        (encodeList ch) hlc (by simp only [crcDoc, need]; omega) (by rw [hdrop, hpl, henc])
      rw [hfind]
      simp only [next]
      rw [if_neg (by simp [headOf]), if_neg (by simp [hfin]), readLoop]
      have hdum : (!a && (headOf rc pos (crcDoc (encodeList ch))).kind.isDummy S) = false := by
        have : (headOf rc pos (crcDoc (encodeList ch))).kind.isDummy S = false := by
          simp only [headOf, Kind.isDummy, Kind.cls]
          simpa using hfc.cls
        rw [this]; simp
      simp only [hdum, Bool.false_eq_true, if_false]
      rw [hp1]
      simp only
      obtain ⟨b, hb'⟩ := addChild_live k f (headOf rc pos (crcDoc (encodeList ch)))
        ⟨data, mem, pos, true, none, f.dataSize, []⟩ (crcNode (encodeList ch)) hfin
      rw [hb']
      simp only [skipData]
      rw [if_pos (show (headOf rc pos (crcDoc (encodeList ch))).finite = true from rfl)]
      simp only [turn, hfin, Bool.false_and, Bool.false_eq_true, if_false]
      have hep : (headOf rc pos (crcDoc (encodeList ch))).endPos.toNat = pos + 6 := by rw [hec, hcl]; omega
      have hlen : data.length = pos + (6 + (encodeList ch).length) := by
        have := congrArg List.length hdrop
        rw [hpl, List.length_append, crcElement_length, List.length_drop] at this
        omega
      simp only [hep]
      have hdrop' : data.drop (pos + 6) = encodeList ch := by
        rw [← List.drop_drop, hdrop, hpl]
        exact List.drop_left' (crcElement_length _)
      have hl := readLoop_live S env a ch k r ns fuel ctx f
        ⟨data, mem, pos + 6, b, none, f.endPos - (headOf rc pos (crcDoc (encodeList ch))).endPos, [crcNode (encodeList ch)]⟩
        hns (by omega) hctx' hfin rfl hdrop' (by simp only; omega)
      simp only [List.nil_append] at hl ⊢
      rw [hl, hn, hb]
theorem readLoop_live (S : Schema) (env : Env) (a : Bool) : ∀ (ds : List Doc) (k r : Nat) (ns : List Node) (fuel : Nat)
    (ctx : List PCtx) (f : Found) (s : LSt), LoadsOpenList S env (k - 1) r ds ns → needList ds ≤ fuel → NoEnd (⟨r, -1⟩ :: ctx) →
    f.finite = false → s.crc = none → s.data.drop s.pos = encodeList ds → s.pos ≤ s.data.length →
    next S f s (findNext S a (s.data.length + 1) s.data s.pos (⟨r, -1⟩ :: ctx) 0)
      (fun g => readLoop S env a fuel (⟨r, -1⟩ :: ctx) k f s g) =
      .ok (.master (f.base S true) 0 (s.kids ++ ns)) s.data.length
  | [], k, r, ns, fuel, ctx, f, s, h, _, hctx, hfin, hcrc, hdata, hpos => by
    simp only [LoadsOpenList] at h
    subst h
    have hp : s.pos = s.data.length := by
      have := congrArg List.length hdata
      simp only [List.length_drop, encodeList, List.length_nil] at this
      omega
    rw [hp, findNext_end S a _ _ _ _ hctx]
    simp only [next]
    rw [if_neg (by omega), finish_eq, statusOf, hcrc]
    simp
  | d :: ds, k, r, ns, fuel, ctx, f, s, h, hfuel, hctx, hfin, hcrc, hdata, hpos => by
    simp only [LoadsOpenList] at h
    obtain ⟨rc, n, ns', ho, hd, hds, rfl⟩ := h
    simp only [needList] at hfuel
    obtain ⟨fuel, rfl⟩ : ∃ m, fuel = m + 1 := ⟨fuel - 1, by omega⟩
    rw [encodeList_cons] at hdata
    have hlen : s.data.length = s.pos + ((encode d).length + (encodeList ds).length) := by
      have := congrArg List.length hdata
      rw [List.length_append, List.length_drop] at this
      omega
    -- the child found, read and stepped over
    have child : ∃ g p, findNext S a (s.data.length + 1) s.data s.pos (⟨r, -1⟩ :: ctx) 0 = .found g ∧ g.levels = 0 ∧
        g.kind.isDummy S = false ∧ readElt S env a fuel s.data s.mem (⟨r, -1⟩ :: ctx) (k - 1) g = .ok n p ∧
        ∀ data', data' = s.data → skipData S a data' p (⟨r, -1⟩ :: ctx) g = some (s.pos + (encode d).length) := by
      rcases hd with hd | ⟨hnil, hd⟩
      · have hf := loadsTo_head S env _ rc d n hd
        obtain ⟨p, hp⟩ := readElt_doc S env a d (k - 1) rc n fuel s.data s.mem (⟨r, -1⟩ :: ctx) s.pos (encodeList ds) hd
          (by omega) hdata
        refine ⟨headOf rc s.pos d, p, findNext_doc S a _ s.data s.pos (encodeList ds) ⟨r, -1⟩ ctx rc d hf ho hdata (Or.inl rfl),
          rfl, ?_, hp, ?_⟩
        · simp only [headOf, Kind.isDummy, Kind.cls]
          simpa using hf.cls
        · intro data' _
          rw [skipData, if_pos (show (headOf rc s.pos d).finite = true from rfl), headOf_end rc s.pos d S hf]
          congr 1
      · subst hnil
        rw [show encodeList [] = [] from rfl, List.append_nil] at hdata
        obtain ⟨id, len, crc, ch, rfl⟩ := loadsOpen_group S env _ rc d n hd
        have hd' := hd
        simp only [LoadsOpen] at hd'
        obtain ⟨_, _, h1, h8, ⟨m, hm⟩, hcls, _⟩ := hd'
        have hr := readElt_live S env a _ (k - 1) rc n fuel s.data s.mem (⟨r, -1⟩ :: ctx) s.pos hd (by omega) hctx hdata hpos
        refine ⟨_, s.data.length, findNext_live S a _ s.data s.pos ⟨r, -1⟩ ctx rc id len crc ch [] rfl ho h1 h8 m hm hcls
          (by rw [hdata, List.append_nil]), rfl, ?_, hr, ?_⟩
        · simp only [liveHead, Kind.isDummy, Kind.cls, hcls]
          rfl
        · intro data' he
          rw [he, skipData, if_neg (show ¬ (liveHead rc s.pos (.group id len false crc ch)).finite = true by simp [liveHead]),
            findNext_end S a _ _ _ _ hctx]
          simp only [Option.some.injEq]
          simp only [encodeList, List.length_nil] at hlen
          omega
    obtain ⟨g, p, hfind, hlv, hdum, hread, hskip⟩ := child
    rw [hfind]
    simp only [next]
    rw [if_neg (by omega), if_neg (by simp [hfin]), readLoop]
    simp only [hdum, Bool.and_false, Bool.false_eq_true, if_false]
    rw [hread]
    simp only
    obtain ⟨b, hb⟩ := addChild_live k f g s n hfin
    rw [hb]
    simp only
    rw [hskip _ rfl]
    simp only [turn, hfin, Bool.false_and, Bool.false_eq_true, if_false]
    have := readLoop_live S env a ds k r ns' fuel ctx f
      ⟨s.data, s.mem, s.pos + (encode d).length, b, s.crc, f.endPos - g.endPos, s.kids ++ [n]⟩ hds (by omega) hctx hfin hcrc
      (by rw [← List.drop_drop, hdata]; exact List.drop_left' rfl) (by simp only; omega)
    simp only at this
    rw [this, List.append_assoc]
    rfl
end

/-! The writer's side. -/

theorem codedSizeLength_unknown (n : Int) (k : Nat) : codedSizeLength n k false = if 1 < k then k else 1 := by
  unfold codedSizeLength
  simp only [Bool.not_false, if_true]
  by_cases h : 1 < k
  · rw [if_pos ⟨by omega, h⟩, if_pos h]
  · rw [if_neg (by omega), if_neg h]

theorem toDocList_nil (env : Env) (d : Bool) (es : List Elt) (h : ∀ e ∈ es, (!d && isDefault env e) = true) :
    toDocList env d es = [] := by
  induction es with
  | nil => rfl
  | cons e es ih =>
    rw [toDocList, if_pos (h e List.mem_cons_self)]
    exact ih fun e' he => h e' (List.mem_cons_of_mem _ he)

theorem loadedOpen_fits (S : Schema) (env : Env) (d : Bool) (k r : Nat) (e : Elt) (h : Fits S env d r e) :
    loadedOpen env d k e = loaded env d k e := by
  cases e with
  | leaf => rfl
  | master b crc ch =>
    simp only [Fits] at h
    rw [loadedOpen, if_pos h.2.2.2.1]

mutual
theorem loads_open (S : Schema) (env : Env) (d : Bool) : ∀ (e : Elt) (k r : Nat), Coherent env d e → FitsOpen S env d r e →
    LoadsOpen S env k r (toDoc env d e) (loadedOpen env d k e)
  | .leaf b dflt v, k, r, hc, hf => by simp [FitsOpen] at hf
  | .master b crc ch, k, r, hc, hf => by
    simp only [Coherent] at hc
    simp only [FitsOpen] at hf
    obtain ⟨_, _, hsl, hch, _⟩ := hc
    obtain ⟨h1, h2, h3, h4, h5, h6⟩ := hf
    have hl := loads_openList S env d ch (k - 1) r hch h6
    simp only [toDoc, LoadsOpen, h4, codedSizeLength_unknown]
    refine ⟨h1, trivial, by split <;> omega, by split <;> omega, h2, h3, fun hz => h5 (by simpa using hz), _, hl, ?_⟩
    rw [loadedOpen, if_neg (by simp [h4])]
    congr 2
    by_cases hz : crc = 0
    · simp [hz]
    · simp [hz]
theorem loads_openList (S : Schema) (env : Env) (d : Bool) : ∀ (es : List Elt) (k c : Nat), CoherentList env d es →
    FitsOpenList S env d c es → LoadsOpenList S env k c (toDocList env d es) (loadedOpenList env d k es)
  | [], k, c, _, _ => by simp [toDocList, LoadsOpenList, loadedOpenList]
  | e :: es, k, c, hc, hf => by
    simp only [CoherentList] at hc
    simp only [FitsOpenList] at hf
    have ih := loads_openList S env d es k c hc.2 hf.2
    rw [toDocList, loadedOpenList]
    by_cases hs : (!d && isDefault env e) = true
    · rw [if_pos hs, if_pos hs]; exact ih
    · rw [if_neg hs, if_neg hs]
      have hs' : (!d && isDefault env e) = false := by simpa using hs
      obtain ⟨r, ho, hfe⟩ := hf.1 hs'
      simp only [LoadsOpenList]
      refine ⟨r, _, _, by rw [docId_toDoc]; exact ho, ?_, ih, rfl⟩
      rcases hfe with hfe | ⟨hl, hfe⟩
      · left
        rw [loadedOpen_fits S env d k r e hfe]
        exact loads_toDoc S env d e k r (hc.1 hs') hfe
      · exact Or.inr ⟨toDocList_nil env d es hl, loads_open S env d e k r (hc.1 hs') hfe⟩
end

/-! Fuel: no more than the bytes of the document. -/

mutual
theorem need_open (S : Schema) (env : Env) : ∀ (d : Doc) (k r : Nat) (n : Node), LoadsOpen S env k r d n → need d + 1 ≤ (encode d).length
  | .elem id len p, k, r, n, h => by simp [LoadsOpen] at h
  | .group id len fin crc ch, k, r, n, h => by
    simp only [LoadsOpen] at h
    obtain ⟨_, rfl, h1, _, ⟨m, hm⟩, _, _, ns, hns, _⟩ := h
    have ih := needList_open S env ch (k - 1) r ns hns
    have hml := idField_len_wf _ m hm
    have := hm.1
    rw [encode_group]
    simp only [Bool.false_eq_true, if_false, List.length_append, unknownField_length, payload, hml]
    have : (if crc = true then crcElement (encodeList ch) else []).length = if crc then 6 else 0 := by
      split
      · exact crcElement_length _
      · rfl
    rw [this]
    simp only [need]
    split <;> simp_all <;> omega
theorem needList_open (S : Schema) (env : Env) : ∀ (ds : List Doc) (k c : Nat) (ns : List Node), LoadsOpenList S env k c ds ns →
    needList ds ≤ (encodeList ds).length
  | [], k, c, ns, h => by simp [needList]
  | d :: ds, k, c, ns, h => by
    simp only [LoadsOpenList] at h
    obtain ⟨r, n, ns', _, h1, h2, _⟩ := h
    have a1 : need d + 1 ≤ (encode d).length := by
      rcases h1 with h1 | ⟨_, h1⟩
      · exact need_le S env d k r n h1
      · exact need_open S env d k r n h1
    have a2 := needList_open S env ds k c ns' h2
    rw [encodeList_cons, List.length_append, needList]
    omega
end

end Verif.Ebml.Scan
