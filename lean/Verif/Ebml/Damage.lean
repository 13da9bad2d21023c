import Verif.Ebml.ParseTree
/-! What loading reports of a master whose data was damaged under its checksum. -/
set_option linter.unusedSimpArgs false
namespace Verif.Ebml.Scan
open EbmlDoc

/-- `EBML_MasterIsChecksumValid`, ebmlmaster.c:440-443. -/
def isChecksumValid (status : Nat) : Bool := status != 1

/-- `EBML_MasterUseChecksum`, ebmlmaster.c:423-438: the new status and the result. -/
def useChecksum (use : Bool) (status : Nat) : Nat × Bool :=
  if use && status == 0 then (1, true)
  else if !use && status != 0 then (0, true)
  else (status, false)

/-- The status of a master that was read. -/
def RRes.status : RRes → Option Nat
  | .ok (.master _ st _) _ => some st
  | _ => none

/-- A master comes out with the status `st`, or not at all. -/
def Reports (r : RRes) (st : Nat) : Prop := ∀ n pos, r = .ok n pos → ∃ b kids, n = .master b st kids

theorem reports_finish (S : Schema) (f : Found) (s : LSt) (pos : Nat) : Reports (finish S f s pos) (statusOf s) := by
  intro n p h
  rw [finish_eq] at h
  cases h
  exact ⟨_, _, rfl⟩

theorem reports_next (S : Schema) (f : Found) (s : LSt) (o : Out) (cont : Found → RRes)
    (hc : ∀ g, Reports (cont g) (statusOf s)) : Reports (next S f s o cont) (statusOf s) := by
  cases o with
  | bad => intro n p h; simp [next] at h
  | fuelOut => intro n p h; simp [next] at h
  | none lv q =>
    simp only [next]
    split
    · intro n p h; simp at h
    · exact reports_finish S f s q
  | found g =>
    simp only [next]
    split
    · exact reports_finish S f s _
    · split
      · exact reports_finish S f s _
      · exact hc g

theorem reports_turn (S : Schema) (a : Bool) (f : Found) (s : LSt) (ctx : List PCtx) (cont : LSt → Found → RRes)
    (hc : ∀ g, Reports (cont s g) (statusOf s)) : Reports (turn S a f s ctx cont) (statusOf s) := by
  simp only [turn]
  split
  · exact reports_finish S f s _
  · exact reports_next S f s _ _ hc

/-- Once no checksum is looked for any more, the status does not change. -/
theorem reports_readLoop (S : Schema) (env : Env) (a : Bool) (ctx : List PCtx) (k : Nat) (f : Found) :
    ∀ (fuel : Nat) (s : LSt) (g : Found), s.first = false ∨ k = 0 → Reports (readLoop S env a fuel ctx k f s g) (statusOf s)
  | 0, s, g, _ => by intro n p h; simp [readLoop] at h
  | fuel + 1, s, g, hs => by
    have ih := reports_readLoop S env a ctx k f fuel
    have hadd : ∀ n, addChild k f g s n = some { s with kids := s.kids ++ [n] } := by
      intro n
      refine addChild_plain k f g s n (Or.inl ?_)
      rcases hs with h | h <;> simp [h]
    rw [readLoop]
    split
    · split
      · intro n p h; simp at h
      · exact reports_turn S a f { s with pos := _ } ctx _ (fun g => ih _ g hs)
    · split
      · intro n p h; simp at h
      · intro n p h; simp at h
      · exact reports_turn S a f { s with pos := _ } ctx _ (fun g => ih _ g hs)
      · rw [hadd]
        simp only
        split
        · intro n p h; simp at h
        · rename_i q _
          exact reports_turn S a f { s with kids := _, pos := _, maxSize := _ } ctx _ (fun g => ih _ g hs)

/-- The state after a CRC-32 element with any value in front of `x` was met. -/
theorem addChild_any (k : Nat) (f g : Found) (s : LSt) (b : Base) (w : BitVec 32) (p x rest : Bytes) (pos rc : Nat) (hp : p.length = 4)
    (hg : g = headOf rc pos (.elem 0xBF 1 p)) (hge : g.endPos = (pos : Int) + 6)
    (hfin : f.finite = true) (hfe : f.endPos = (pos : Int) + 6 + x.length) (hfs : f.dataSize = 6 + x.length)
    (hk : k ≠ 0) (hx : x ≠ []) (hs1 : s.first = true) (hs2 : s.crc = none)
    (hd : s.data.drop (pos + 6) = x ++ rest) :
    ∃ s', addChild k f g s (.crc b w) = some s' ∧ s'.first = false ∧ s'.crc = some (w, some x) := by
  simp only [addChild, hs1, hs2, Option.isNone_none, Bool.and_true, Bool.true_and, bne_iff_ne, ne_eq, hk,
    not_false_eq_true, if_true, takeCrc, hfin]
  have hpn : ((pos : Int) + 6).toNat = pos + 6 := by omega
  have hr := readExact_mid s.data x rest _ hd
  by_cases hm : s.mem = true
  · rw [if_pos hm]
    have hsz : f.dataSize - (g.dataSize + (g.sizePos - g.pos) + codedSizeLength g.dataSize (g.sizeLen % 256).toNat true) =
        x.length := by
      have h1 : g.dataSize = 4 := by rw [hg]; simp only [headOf, docSize, payload, hp]; rfl
      have h2 : g.sizePos - g.pos = 1 := by
        rw [hg]; simp only [headOf, docId]
        have : (idField 0xBF).length = 1 := by decide
        omega
      have h3 : g.sizeLen = 1 := by rw [hg]; rfl
      rw [h1, h2, h3, hfs]
      have : codedSizeLength 4 ((1 : Int) % 256).toNat true = 1 := by decide
      omega
    rw [hsz, if_neg (by omega), hge, hpn, Int.toNat_natCast, hr]
    exact ⟨_, rfl, rfl, rfl⟩
  · rw [if_neg hm]
    have : (f.endPos - g.endPos).toNat = x.length := by rw [hfe, hge]; omega
    rw [this, hge, hpn, hr]
    exact ⟨_, rfl, rfl, by simp only [if_neg hx]⟩

/-- Reading a master whose content is a CRC-32 element and any bytes. -/
theorem reports_readElt (S : Schema) (env : Env) (a : Bool) (k r rc id len : Nat) (p x : Bytes) (hp : p.length = 4)
    (hf : HeadFacts S r (.elem id len ([0xBF, 0x84] ++ p ++ x))) (hm : (S.ctx r).cls = .master) (hoc : Offers S r 0xBF rc)
    (hcc : (S.ctx rc).cls = .crc) (hk : k ≠ 0) (hx : x ≠ []) (fuel : Nat) (data rest : Bytes) (mem : Bool) (ctx : List PCtx)
    (start : Nat) (hdata : data.drop start = encode (.elem id len ([0xBF, 0x84] ++ p ++ x)) ++ rest) :
    Reports (readElt S env a fuel data mem ctx k (headOf r start (.elem id len ([0xBF, 0x84] ++ p ++ x))))
      (if Crc.crcMatches (BitVec.ofNat 32 (leNat p)) x then 2 else 1) := by
  cases fuel with
  | zero => intro n q h; simp [readElt] at h
  | succ fuel =>
    have hpd := headOf_posData S r start _ hf
    have he := headOf_end r start _ S hf
    have hel := encode_len S r _ hf
    have hd := drop_payload S r _ hf data rest start hdata
    simp only [payload, docId, docLen, docSize] at hd hpd hel
    generalize hg : headOf r start (.elem id len ([0xBF, 0x84] ++ p ++ x)) = f at *
    have hkind : f.kind = .known r := by rw [← hg]; rfl
    have hfin : f.finite = true := by rw [← hg]; rfl
    have hds : f.dataSize = ([0xBF, 0x84] ++ p ++ x : Bytes).length := by rw [← hg]; rfl
    have hlen : ([0xBF, 0x84] ++ p ++ x : Bytes).length = 6 + x.length := by simp [hp]; omega
    rw [hlen] at hds hel
    generalize hpos : start + (idField id).length + len = pos at *
    have hxl : 1 ≤ x.length := by
      cases x with
      | nil => exact absurd rfl hx
      | cons => simp
    have hlc : LoadsTo S env (k - 1) rc (.elem 0xBF 1 p) (.crc ⟨0xBF, 4, 1, true, false, true⟩ (BitVec.ofNat 32 (leNat p))) := by
      simp only [LoadsTo, hp]
      refine ⟨hoc.1, ⟨by omega, by omega, by omega, 1, ?_⟩, ?_, ?_⟩
      · unfold WellFormedId; omega
      · rw [hcc]; rfl
      · unfold FlatNode
        rw [hcc]
        simp only [hp]
        rfl
    have hfc := loadsTo_head S env _ rc _ _ hlc
    have henc : encode (.elem 0xBF 1 p) = [0xBF, 0x84] ++ p := by
      rw [encode_elem, hp]
      rfl
    have hcl : (encode (.elem 0xBF 1 p)).length = 6 := by rw [henc]; simp [hp]
    have hdc : data.drop pos = encode (.elem 0xBF 1 p) ++ (x ++ rest) := by
      rw [hd, henc]; simp
    have hfind := findNext_doc S a data.length data pos (x ++ rest) ⟨r, f.endPos⟩ ctx rc _ hfc hoc hdc
      (by right; simp only; omega)
    have hec := headOf_end rc pos _ S hfc
    rw [readElt, hkind]
    simp only [if_pos hm]
    rw [if_pos (by rw [hds]; left; omega), hpd, hfind]
    simp only [next]
    rw [if_neg (by simp [headOf]), if_neg (by rw [hfin]; simp only [Bool.true_and, decide_eq_true_eq]; rw [hec, he]; omega)]
    cases fuel with
    | zero => intro n q h; simp [readLoop] at h
    | succ fuel =>
    rw [readLoop]
    have hdum : (!a && (headOf rc pos (.elem 0xBF 1 p)).kind.isDummy S) = false := by
      have : (headOf rc pos (.elem 0xBF 1 p)).kind.isDummy S = false := by
        simp only [headOf, Kind.isDummy, Kind.cls]
        simpa using hfc.cls
      rw [this]; simp
    rw [hdum]
    simp only [Bool.false_eq_true, if_false]
    cases fuel with
    | zero => intro n q h; simp [readElt] at h
    | succ fuel =>
    rw [readElt_at S env a _ (k - 1) rc _ (fuel + 1) data mem (⟨r, f.endPos⟩ :: ctx) pos (x ++ rest) hlc
      (by simp only [need]; omega) hdc]
    simp only
    obtain ⟨s', h1, h2, h3⟩ := addChild_any k f (headOf rc pos (.elem 0xBF 1 p)) ⟨data, mem, pos, true, none, f.dataSize, []⟩
      ⟨0xBF, 4, 1, true, false, true⟩ (BitVec.ofNat 32 (leNat p)) p x rest pos rc hp rfl (by rw [hec]; omega) hfin
      (by rw [he]; omega) (by rw [hds]; omega) hk hx rfl rfl
      (by simp only; rw [← List.drop_drop, hdc]; exact List.drop_left' hcl)
    rw [h1]
    simp only [skipData]
    rw [if_pos (show (headOf rc pos (.elem 0xBF 1 p)).finite = true from rfl)]
    have hst : statusOf s' = if Crc.crcMatches (BitVec.ofNat 32 (leNat p)) x then 2 else 1 := by
      simp only [statusOf, h3]
    rw [← hst]
    exact reports_turn S a f { s' with pos := _, maxSize := _ } _ _ (fun g => reports_readLoop S env a _ k f _ _ g (Or.inl h2))

end Verif.Ebml.Scan
