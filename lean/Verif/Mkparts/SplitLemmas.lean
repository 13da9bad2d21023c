import Verif.Mkparts.Split
/-! Lemmas about mkparts. -/
set_option linter.unusedSimpArgs false
namespace Verif.Mkparts
open Verif.Ebml Verif.Ebml.Scan Verif.EbmlDoc
open Verif.Ebml.Master (mkvScan mkv mkv_offers Allowed)

/-- The finder takes the first head. -/
theorem findNext_first (S : Schema) (c : Nat) (lv : Int) (data : Bytes) (start : Nat) (hs : start ≤ data.length) (fuel : Nat) :
    (∀ f, findNext S false fuel data start [⟨c, -1⟩] lv = .found f →
      ∃ p : Nat, f.pos = p ∧ start ≤ p ∧ HeadAt S c lv data p f ∧ ∀ q, start ≤ q → q < p → ∀ g, ¬ HeadAt S c lv data q g) ∧
    (∀ l p, findNext S false fuel data start [⟨c, -1⟩] lv = .none l p →
      ∀ q, start ≤ q → q + 12 ≤ data.length → ∀ g, ¬ HeadAt S c lv data q g) := by
  rw [findNext]
  exact loop_first S c lv data start fuel 0 [] start (data.drop start) (by simp) (by simp) (by simp) (by simp) (by simp) hs
    (by simp) (by simp; omega)

theorem find_past (a : Bool) (data : Bytes) (pos : Nat) (h : data.length ≤ pos) : find a data pos = .none 0 pos := by
  rw [find, findNext, List.drop_eq_nil_of_le h]
  have hl : idLoop (limit [⟨0, -1⟩]) 0 [] pos [] = .eof pos := by
    show idLoop (-1) 0 [] pos [] = .eof pos
    rw [idLoop]
    simp only [idMarker]
    rw [if_neg (by omega)]
  simp only [adjust, loop, hl]

theorem find_ok (a : Bool) (data : Bytes) (pos : Nat) : find a data pos ≠ .bad ∧ find a data pos ≠ .fuelOut :=
  ⟨C25_window_safe _ _ _ _ _ _ _, findNext_fuel _ _ _ _ _ _⟩

theorem find_ahead (a : Bool) (data : Bytes) (pos : Nat) (f : Found) (h : find a data pos = .found f) :
    Ahead mkvScan a data.length pos f :=
  findNext_ahead mkvScan a _ data pos [⟨0, -1⟩] 0 f (by simp) h

/-- The search for a Segment ends, and moves on when it finds one. -/
theorem inner_ok (data : Bytes) : ∀ (fuel : Nat) (head : Found) (pos : Nat) (w : Bool), data.length - pos < fuel →
    inner data fuel head pos w ≠ .fuelOut ∧
    ∀ h s w', inner data fuel head pos w = .done h s w' → pos < data.length ∧ ∃ q, pos ≤ q ∧ find false data q = .found s ∧ s.kind = .known rSegment := by
  intro fuel
  induction fuel with
  | zero => intro head pos w h; omega
  | succ fuel ih =>
    intro head pos w h
    rw [inner]
    have hok := find_ok false data pos
    cases hf : find false data pos with
    | bad => exact absurd hf hok.1
    | fuelOut => exact absurd hf hok.2
    | none l p => simp
    | found f =>
      simp only
      have ha := find_ahead _ _ _ _ hf
      have h1 := ha.lt
      have h2 := ha.stream
      split
      · rename_i hk
        refine ⟨by simp, ?_⟩
        intro h' s w' e
        injection e with e1 e2 e3
        subst e2
        exact ⟨h1, pos, Nat.le_refl _, hf, hk⟩
      · split
        · obtain ⟨i1, i2⟩ := ih f f.streamPos.toNat true (by omega)
          refine ⟨i1, ?_⟩
          intro h' s w' e
          obtain ⟨j1, q, j2, j3⟩ := i2 h' s w' e
          exact ⟨by omega, q, by omega, j3⟩
        · obtain ⟨i1, i2⟩ := ih head f.streamPos.toNat w (by omega)
          refine ⟨i1, ?_⟩
          intro h' s w' e
          obtain ⟨j1, q, j2, j3⟩ := i2 h' s w' e
          exact ⟨by omega, q, by omega, j3⟩

/-- The search for documents ends. -/
theorem outer_ends (data : Bytes) : ∀ (fuel : Nat) (head : Option Found) (pos : Nat) (acc : List Part) (w : Bool),
    data.length - pos < fuel → outer data fuel head pos acc w ≠ .fuelOut := by
  intro fuel
  induction fuel with
  | zero => intro head pos acc w h; omega
  | succ fuel ih =>
    intro head pos acc w h
    cases head with
    | none => simp [outer]
    | some head =>
      rw [outer]
      obtain ⟨i1, i2⟩ := inner_ok data (data.length + 1) head pos (w || head.kind != .known rHead) (by omega)
      cases hi : inner data (data.length + 1) head pos (w || head.kind != .known rHead) with
      | crash => simp
      | fuelOut => exact absurd hi i1
      | done h s w' =>
        simp only
        obtain ⟨hlt, q, hq, hfs, _⟩ := i2 h s w' hi
        have ha := find_ahead _ _ _ _ hfs
        have hst := ha.stream
        split
        · cases hsk : skip data s with
          | none =>
            exfalso
            rw [skip] at hsk
            split at hsk
            · cases hsk
            · have hok := find_ok true data s.streamPos.toNat
              cases hf : find true data s.streamPos.toNat <;> simp_all
          | some np =>
            obtain ⟨next, p⟩ := np
            simp only
            have hp : s.streamPos.toNat ≤ p := by
              rw [skip] at hsk
              split at hsk
              · rename_i hfin
                injection hsk with hsk
                injection hsk with e1 e2
                have := (ha.fin hfin).2
                omega
              · cases hf : find true data s.streamPos.toNat with
                | found f =>
                  rw [hf] at hsk
                  injection hsk with hsk
                  injection hsk with e1 e2
                  have := (find_ahead _ _ _ _ hf).posData
                  omega
                | none l p' =>
                  rw [hf] at hsk
                  injection hsk with hsk
                  injection hsk with e1 e2
                  have := findNext_none _ _ _ _ _ _ _ _ _ hf
                  omega
                | bad => rw [hf] at hsk; cases hsk
                | fuelOut => rw [hf] at hsk; cases hsk
            cases next with
            | some f => exact ih _ _ _ _ (by omega)
            | none =>
              simp only
              have hok := find_ok false data p
              cases hf : find false data p with
              | bad => exact absurd hf hok.1
              | fuelOut => exact absurd hf hok.2
              | none l p' =>
                have := findNext_none _ _ _ _ _ _ _ _ _ hf
                exact ih _ _ _ _ (by omega)
              | found f =>
                have := (find_ahead _ _ _ _ hf).stream
                exact ih _ _ _ _ (by omega)
        · exact ih _ _ _ _ (by omega)

theorem scan_ends (data : Bytes) : scan data ≠ .fuelOut := by
  rw [scan]
  have hok := find_ok false data 0
  cases hf : find false data 0 with
  | bad => exact absurd hf hok.1
  | fuelOut => exact absurd hf hok.2
  | none l p => simp
  | found f => exact outer_ends data _ _ _ _ _ (by omega)

/-- Copying: it ends exactly if all bytes are there, and then it copies them. -/
theorem copyLoop_spec : ∀ (fuel : Nat) (rest : Bytes) (size : Nat), size < fuel →
    ((copyLoop fuel rest size).ends = true ↔ size ≤ rest.length) ∧
    (size ≤ rest.length → (copyLoop fuel rest size).bytes = rest.take size) ∧
    (rest.length < size → (copyLoop fuel rest size).bytes = rest.take (rest.length / 8192 * 8192)) := by
  intro fuel
  induction fuel with
  | zero => intro rest size h; omega
  | succ fuel ih =>
    intro rest size h
    rw [copyLoop]
    by_cases h0 : size = 0
    · subst h0; simp
    · rw [if_neg h0]
      by_cases hm : min size 8192 ≤ rest.length
      · rw [if_pos hm]
        obtain ⟨i1, i2, i3⟩ := ih (rest.drop (min size 8192)) (size - min size 8192) (by omega)
        rw [List.length_drop] at i1 i2 i3
        refine ⟨?_, ?_, ?_⟩
        · simp only; rw [i1]; omega
        · intro hl
          simp only
          rw [i2 (by omega), ← List.take_add]
          congr 1
          omega
        · intro hl
          simp only
          rw [i3 (by omega), ← List.take_add]
          congr 1
          omega
      · rw [if_neg hm]
        refine ⟨?_, ?_, ?_⟩
        · simp; omega
        · intro hl; omega
        · intro hl
          have : rest.length / 8192 = 0 := by omega
          simp [this]

theorem offers_head : Offers mkvScan 0 0x1A45DFA3 rHead := by
  have := mkv_offers 0 rHead (by decide +kernel) (Or.inl (by decide +kernel))
  exact this

theorem offers_segment : Offers mkvScan 0 0x18538067 rSegment := by
  have := mkv_offers 0 rSegment (by decide +kernel) (Or.inl (by decide +kernel))
  exact this

theorem wf_head : WellFormedId 0x1A45DFA3 4 := by unfold WellFormedId; decide
theorem wf_segment : WellFormedId 0x18538067 4 := by unfold WellFormedId; decide

/-- The element found at a head of known size. -/
def at_ (r pos len size : Nat) : Found :=
  ⟨.known r, pos, pos + 4, len, size, pos + 4 + len + size, true, 0, pos + 4 + len⟩

theorem find_known (a : Bool) (pre rest : Bytes) (id r len size : Nat) (hid : WellFormedId id 4) (hr : Offers mkvScan 0 id r)
    (hc : (mkvScan.ctx r).cls = .master) (h1 : 1 ≤ len) (h8 : len ≤ 8) (hs : size < 2 ^ (7 * len) - 1) :
    find a (pre ++ idField id ++ sizeField len size ++ rest) pre.length = .found (at_ r pre.length len size) := by
  rw [find, C24_head_found mkvScan a _ pre rest ⟨0, -1⟩ [] 0 id 4 hid len size h1 h8 hs r hr (by rw [hc]; decide) (by rw [hc]; rfl)
    (Or.inl rfl)]
  rfl

theorem head_master : (mkvScan.ctx rHead).cls = .master := by decide +kernel
theorem segment_master : (mkvScan.ctx rSegment).cls = .master := by decide +kernel

theorem fullSize_at (r pos len size : Nat) (h1 : 1 ≤ len) (h8 : len ≤ 8) (hs : size < 2 ^ (7 * len) - 1) :
    fullSize (at_ r pos len size) = size + 4 + len := by
  simp only [fullSize, at_]
  have : ((len : Int) % 256).toNat = len := by omega
  rw [this, codedSizeLength_known size len h1 h8 hs]

theorem headAt_known (pre rest : Bytes) (id r len size : Nat) (hid : WellFormedId id 4) (hr : Offers mkvScan 0 id r)
    (hc : (mkvScan.ctx r).cls = .master) (h1 : 1 ≤ len) (h8 : len ≤ 8) (hs : size < 2 ^ (7 * len) - 1) :
    HeadAt mkvScan 0 0 (pre ++ idField id ++ sizeField len size ++ rest) pre.length (at_ r pre.length len size) := by
  have hf := find_known false pre rest id r len size hid hr hc h1 h8 hs
  obtain ⟨p, e1, e2, e3, e4⟩ := (findNext_first mkvScan 0 0 _ pre.length (by simp) _).1 _ hf
  simp only [at_] at e1
  have : p = pre.length := by omega
  rw [← this]
  rw [this] at e3
  rw [this]; exact e3

/-- Between `a` and `b` nothing looks like an EBML header or a Segment, and no Void or CRC-32 reaches with its head over `b`. -/
def Harmless (data : Bytes) (a b : Nat) : Prop :=
  ∀ q f, a ≤ q → q < b → HeadAt mkvScan 0 0 data q f → f.kind ≠ .known rHead ∧ f.kind ≠ .known rSegment ∧ f.streamPos ≤ b

theorem inner_segment (data : Bytes) (a p : Nat) (s : Found) (hh : Harmless data a p) (hs : HeadAt mkvScan 0 0 data p s)
    (hk : s.kind = .known rSegment) (hp : p + 12 ≤ data.length) (head : Found) (w : Bool) : ∀ (fuel pos : Nat), a ≤ pos → pos ≤ p → p - pos < fuel →
    inner data fuel head pos w = .done head s w := by
  intro fuel
  induction fuel with
  | zero => intro pos _ _ h; omega
  | succ fuel ih =>
    intro pos h1 h2 h3
    rw [inner]
    have hok := find_ok false data pos
    obtain ⟨f1, f2⟩ := findNext_first mkvScan 0 0 data pos (by omega) (data.length + 1)
    cases hf : find false data pos with
    | bad => exact absurd hf hok.1
    | fuelOut => exact absurd hf hok.2
    | none l p' => exact absurd hs (f2 l p' hf p h2 hp s)
    | found f =>
      simp only
      obtain ⟨p', e1, e2, e3, e4⟩ := f1 f hf
      have ha := find_ahead _ _ _ _ hf
      have hst := ha.stream
      by_cases hpp : p' < p
      · obtain ⟨g1, g2, g3⟩ := hh p' f (by omega) hpp e3
        rw [if_neg g2, if_neg g1]
        exact ih _ (by omega) (by omega) (by omega)
      · have : p' = p := by
          rcases Nat.lt_or_ge p p' with h | h
          · exact absurd hs (e4 p h2 h s)
          · omega
        subst this
        have := e3.unique hs
        subst this
        rw [if_pos hk]

/-- A document: lengths of the two size fields, the content of the EBML header and of the Segment. -/
structure Piece where
  headLen : Nat
  head : Bytes
  segLen : Nat
  seg : Bytes

/-- The bytes of the EBML header. -/
def Piece.headBytes (d : Piece) : Bytes := idField 0x1A45DFA3 ++ sizeField d.headLen d.head.length ++ d.head

/-- The bytes of the Segment. -/
def Piece.segBytes (d : Piece) : Bytes := idField 0x18538067 ++ sizeField d.segLen d.seg.length ++ d.seg

/-- The bytes of the document. -/
def Piece.bytes (d : Piece) : Bytes := d.headBytes ++ d.segBytes

/-- The size fields hold the sizes; the Segment has at least 12 bytes. -/
structure Piece.Ok (d : Piece) : Prop where
  h1 : 1 ≤ d.headLen
  h8 : d.headLen ≤ 8
  head : d.head.length < 2 ^ (7 * d.headLen) - 1
  s1 : 1 ≤ d.segLen
  s8 : d.segLen ≤ 8
  seg : d.seg.length < 2 ^ (7 * d.segLen) - 1
  long : 12 ≤ d.segBytes.length

theorem idField_head_length : (idField 0x1A45DFA3).length = 4 := by decide
theorem idField_segment_length : (idField 0x18538067).length = 4 := by decide

theorem headBytes_length (d : Piece) : d.headBytes.length = 4 + d.headLen + d.head.length := by
  simp [Piece.headBytes, idField_head_length, sizeField_length]; omega

theorem segBytes_length (d : Piece) : d.segBytes.length = 4 + d.segLen + d.seg.length := by
  simp [Piece.segBytes, idField_segment_length, sizeField_length]; omega

/-- The part a document at `off` is taken for. -/
def partAt (off : Nat) (d : Piece) : Part :=
  ⟨off, d.headBytes.length, off + d.headBytes.length, d.segBytes.length⟩

/-- One document: the header and the head of the Segment are there, the content of the Segment need not be. -/
theorem outer_piece (pre : Bytes) (d : Piece) (rest : Bytes) (hd : d.Ok) (data : Bytes)
    (hdata : data = pre ++ d.headBytes ++ idField 0x18538067 ++ sizeField d.segLen d.seg.length ++ rest)
    (hlong : pre.length + d.headBytes.length + 12 ≤ data.length)
    (hh : Harmless data (pre.length + 4 + d.headLen) (pre.length + d.headBytes.length))
    (fuel : Nat) (acc : List Part) (w : Bool) :
    find false data pre.length = .found (at_ rHead pre.length d.headLen d.head.length) ∧
    outer data (fuel + 1) (some (at_ rHead pre.length d.headLen d.head.length)) (pre.length + 4 + d.headLen) acc w =
      match find false data (pre.length + d.bytes.length) with
      | .found f => outer data fuel (some f) f.streamPos.toNat (acc ++ [partAt pre.length d]) w
      | .none _ p => outer data fuel none p (acc ++ [partAt pre.length d]) w
      | _ => .fuelOut := by
  have hhl := headBytes_length d
  have hsl := segBytes_length d
  have e1 : data = pre ++ idField 0x1A45DFA3 ++ sizeField d.headLen d.head.length ++ (d.head ++ idField 0x18538067 ++ sizeField d.segLen d.seg.length ++ rest) := by
    rw [hdata]; simp [Piece.headBytes]
  have hlp : (pre ++ d.headBytes).length = pre.length + d.headBytes.length := by simp
  have hf1 := find_known false pre (d.head ++ idField 0x18538067 ++ sizeField d.segLen d.seg.length ++ rest) _ rHead d.headLen d.head.length wf_head offers_head head_master
    hd.h1 hd.h8 hd.head
  rw [← e1] at hf1
  have hseg := headAt_known (pre ++ d.headBytes) rest _ rSegment d.segLen d.seg.length wf_segment offers_segment segment_master hd.s1 hd.s8 hd.seg
  rw [← hdata, hlp] at hseg
  refine ⟨hf1, ?_⟩
  rw [outer]
  have hw : (w || (at_ rHead pre.length d.headLen d.head.length).kind != .known rHead) = w := by simp [at_]
  rw [hw, inner_segment data _ _ _ hh hseg rfl hlong _ _ _ _ (Nat.le_refl _) (by omega) (by omega)]
  simp only
  rw [if_pos (by rfl)]
  simp only [skip, at_, if_true]
  have hend : ((((pre.length + d.headBytes.length : Nat) : Int) + 4 + d.segLen + d.seg.length)).toNat = pre.length + d.bytes.length := by
    simp [Piece.bytes]; omega
  rw [hend]
  have hpart : mkPart (at_ rHead pre.length d.headLen d.head.length) (at_ rSegment (pre.length + d.headBytes.length) d.segLen d.seg.length) none (pre.length + d.bytes.length) = partAt pre.length d := by
    simp only [mkPart, partAt]
    rw [fullSize_at _ _ _ _ hd.h1 hd.h8 hd.head, fullSize_at _ _ _ _ hd.s1 hd.s8 hd.seg]
    simp only [at_, if_true, Part.mk.injEq]
    refine ⟨trivial, by omega, by omega, by omega⟩
  have := hpart
  simp only [at_] at this
  rw [this]
  cases find false data (pre.length + d.bytes.length) <;> rfl

/-- The documents of a file from an offset on, each with a harmless header. -/
def AllHarmless (data : Bytes) : Nat → List Piece → Prop
  | _, [] => True
  | off, d :: ds => Harmless data (off + 4 + d.headLen) (off + d.headBytes.length) ∧ AllHarmless data (off + d.bytes.length) ds

/-- The parts of documents from an offset on. -/
def partsAt : Nat → List Piece → List Part
  | _, [] => []
  | off, d :: ds => partAt off d :: partsAt (off + d.bytes.length) ds

theorem partsAt_append : ∀ (ds es : List Piece) (off : Nat),
    partsAt off (ds ++ es) = partsAt off ds ++ partsAt (off + (ds.flatMap (·.bytes)).length) es := by
  intro ds
  induction ds with
  | nil => intro es off; simp [partsAt]
  | cons d ds ih =>
    intro es off
    simp only [List.cons_append, partsAt, ih, List.flatMap_cons, List.length_append]
    rw [Nat.add_assoc]

/-- Documents in front: they become parts, whatever comes behind. -/
theorem outer_pieces (data : Bytes) : ∀ (ds : List Piece) (pre rest : Bytes) (acc : List Part) (w : Bool) (fuel : Nat),
    (∀ d ∈ ds, d.Ok) → data = pre ++ ds.flatMap (·.bytes) ++ rest → AllHarmless data pre.length ds →
    ∀ f, find false data pre.length = .found f → ds ≠ [] →
    outer data (fuel + ds.length) (some f) f.streamPos.toNat acc w =
      match find false data (pre.length + (ds.flatMap (·.bytes)).length) with
      | .found f => outer data fuel (some f) f.streamPos.toNat (acc ++ partsAt pre.length ds) w
      | .none _ p => outer data fuel none p (acc ++ partsAt pre.length ds) w
      | _ => .fuelOut := by
  intro ds
  induction ds with
  | nil => intro pre rest acc w fuel _ _ _ f _ h; exact absurd rfl h
  | cons d ds ih =>
    intro pre rest acc w fuel hok hdata hh f hf _
    have hd := hok d List.mem_cons_self
    have hsl := segBytes_length d
    have e1 : data = pre ++ d.headBytes ++ idField 0x18538067 ++ sizeField d.segLen d.seg.length ++ (d.seg ++ ds.flatMap (·.bytes) ++ rest) := by
      rw [hdata]; simp [Piece.bytes, Piece.segBytes]
    have hlong : pre.length + d.headBytes.length + 12 ≤ data.length := by
      have := congrArg List.length hdata
      simp [Piece.bytes] at this
      have := hd.long
      omega
    obtain ⟨g1, g2⟩ := outer_piece pre d _ hd data e1 hlong hh.1 (fuel + ds.length) acc w
    rw [g1] at hf
    injection hf with hf
    subst hf
    have hst : ((at_ rHead pre.length d.headLen d.head.length).streamPos).toNat = pre.length + 4 + d.headLen := by
      simp only [at_]; omega
    rw [hst, List.length_cons, ← Nat.add_assoc, g2]
    have hpre : (pre ++ d.bytes).length = pre.length + d.bytes.length := by simp
    cases ds with
    | nil => simp [partsAt, List.flatMap_cons]
    | cons d' ds =>
      have hdata' : data = (pre ++ d.bytes) ++ (d' :: ds).flatMap (·.bytes) ++ rest := by
        rw [hdata]; simp
      have hd' := hok d' (by simp)
      have e2 : data = (pre ++ d.bytes) ++ d'.headBytes ++ idField 0x18538067 ++ sizeField d'.segLen d'.seg.length ++ (d'.seg ++ ds.flatMap (·.bytes) ++ rest) := by
        rw [hdata]; simp [Piece.bytes, Piece.segBytes]
      have hlong' : (pre ++ d.bytes).length + d'.headBytes.length + 12 ≤ data.length := by
        have := congrArg List.length hdata
        simp [Piece.bytes] at this
        have := hd'.long
        simp [Piece.bytes]
        omega
      have hh' : AllHarmless data (pre ++ d.bytes).length (d' :: ds) := by rw [hpre]; exact hh.2
      obtain ⟨k1, _⟩ := outer_piece (pre ++ d.bytes) d' _ hd' data e2 hlong' hh'.1 0 acc w
      have := ih (pre ++ d.bytes) rest (acc ++ [partAt pre.length d]) w fuel (fun x hx => hok x (List.mem_cons_of_mem _ hx)) hdata' hh' _ k1
        (by simp)
      rw [← hpre, k1]
      simp only
      rw [this, hpre]
      have ea : pre.length + d.bytes.length + ((d' :: ds).flatMap (·.bytes)).length = pre.length + ((d :: d' :: ds).flatMap (·.bytes)).length := by
        simp only [List.flatMap_cons, List.length_append]; omega
      have eb : acc ++ [partAt pre.length d] ++ partsAt (pre.length + d.bytes.length) (d' :: ds) = acc ++ partsAt pre.length (d :: d' :: ds) := by
        simp [partsAt]
      rw [ea, eb]

end Verif.Mkparts

namespace Verif.Mkparts
open Verif.Ebml Verif.Ebml.Scan Verif.EbmlDoc
open Verif.Ebml.Master (mkvScan mkv mkv_offers Allowed)

/-- Without a further header or Segment the search crashes. -/
theorem inner_crash (data : Bytes) (a : Nat) (hh : Harmless data a data.length) (head : Found) (w : Bool) : ∀ (fuel pos : Nat), a ≤ pos →
    data.length - pos < fuel → inner data fuel head pos w = .crash := by
  intro fuel
  induction fuel with
  | zero => intro pos _ h; omega
  | succ fuel ih =>
    intro pos h1 h3
    rw [inner]
    have hok := find_ok false data pos
    cases hf : find false data pos with
    | bad => exact absurd hf hok.1
    | fuelOut => exact absurd hf hok.2
    | none l p' => rfl
    | found f =>
      simp only
      have ha := find_ahead _ _ _ _ hf
      have hlt := ha.lt
      have hst := ha.stream
      obtain ⟨f1, f2⟩ := findNext_first mkvScan 0 0 data pos (by omega) (data.length + 1)
      obtain ⟨p', e1, e2, e3, e4⟩ := f1 f hf
      have hp : p' < data.length := by
        obtain ⟨n, _, _, _, t1, _, t3, _⟩ := e3
        omega
      obtain ⟨g1, g2, g3⟩ := hh p' f (by omega) hp e3
      rw [if_neg g2, if_neg g1]
      exact ih _ (by omega) (by omega)

/-- A header met on the way replaces the one before. -/
theorem inner_header (data : Bytes) (a p : Nat) (h : Found) (hh : Harmless data a p) (hs : HeadAt mkvScan 0 0 data p h)
    (hk : h.kind = .known rHead) (hp : p + 12 ≤ data.length) (head : Found) (w : Bool) : ∀ (fuel pos : Nat), a ≤ pos → pos ≤ p → p - pos < fuel →
    ∃ fuel', fuel ≤ fuel' + (p - pos) + 1 ∧ inner data fuel head pos w = inner data fuel' h h.streamPos.toNat true := by
  intro fuel
  induction fuel with
  | zero => intro pos _ _ h; omega
  | succ fuel ih =>
    intro pos h1 h2 h3
    rw [inner]
    have hok := find_ok false data pos
    obtain ⟨f1, f2⟩ := findNext_first mkvScan 0 0 data pos (by omega) (data.length + 1)
    cases hf : find false data pos with
    | bad => exact absurd hf hok.1
    | fuelOut => exact absurd hf hok.2
    | none l p' => exact absurd hs (f2 l p' hf p h2 hp h)
    | found f =>
      simp only
      obtain ⟨p', e1, e2, e3, e4⟩ := f1 f hf
      have ha := find_ahead _ _ _ _ hf
      have hst := ha.stream
      by_cases hpp : p' < p
      · obtain ⟨g1, g2, g3⟩ := hh p' f (by omega) hpp e3
        rw [if_neg g2, if_neg g1]
        obtain ⟨fuel', i1, i2⟩ := ih f.streamPos.toNat (by omega) (by omega) (by omega)
        exact ⟨fuel', by omega, i2⟩
      · have : p' = p := by
          rcases Nat.lt_or_ge p p' with h' | h'
          · exact absurd hs (e4 p h2 h' h)
          · omega
        subst this
        have := e3.unique hs
        subst this
        rw [if_neg (by rw [hk]; decide), if_pos hk]
        exact ⟨fuel, by omega, rfl⟩

/-- The finder with dummies allowed takes whatever element begins where it starts. -/
theorem find_any (pre rest : Bytes) (id n len size : Nat) (hid : WellFormedId id n) (h1 : 1 ≤ len) (h8 : len ≤ 8)
    (hs : size < 2 ^ (7 * len) - 1) : ∃ f, find true (pre ++ idField id ++ sizeField len size ++ rest) pre.length = .found f ∧
      f.pos = pre.length ∧ f.posData = pre.length + n + len ∧ (id ≠ 0x1A45DFA3 → f.kind ≠ .known rHead) := by
  obtain ⟨b0, tl, g1, g2, g3, g4, g5⟩ := idField_head id n hid
  have hread := read_sizeField len size h1 h8 hs
  have hsl : (sizeField len size).length = len := sizeField_length _ _
  have hne : ((size : Nat) != 2 ^ (7 * len) - 1) = true := by simp; omega
  have hwl : (idField id ++ sizeField len size).length = n + len := by rw [g1]; simp [hsl]; omega
  have hdrop : (pre ++ idField id ++ sizeField len size ++ rest).drop pre.length = idField id ++ (sizeField len size ++ rest) := by simp
  have hl := idLoop_id (-1) 0 b0 tl (sizeField len size ++ rest) n g2 hid.2.1 g3 g4 n 0 pre.length (by omega) (by omega)
  simp only [List.take_zero, List.drop_zero] at hl
  have hlen : (b0 :: tl).length = n := by simp; omega
  have hl2 := sizeLoop_field (-1) n (b0 :: tl) (sizeField len size) rest hlen hid.2.1 (by rw [hread, hsl]) (by omega) (sizeField len size).length 0
    (pre.length + n) (by omega) (by omega)
  simp only [List.take_zero, List.drop_zero, List.append_nil] at hl2
  rw [← g1] at hl hl2 hlen
  have hlim : limit [⟨0, -1⟩] = -1 := rfl
  have hfitc : fit true [⟨0, -1⟩] 0 (idField id ++ sizeField len size) (pre.length + n + len) (some (readCodedSize (sizeField len size))) =
      ([⟨0, -1⟩], 0, true) := by
    simp [fit, contain]
  -- the element made
  obtain ⟨f, hb, e1, e2, e3⟩ : ∃ f, build mkvScan true [⟨0, -1⟩] 0 (idField id ++ sizeField len size) n (readCodedSize (sizeField len size))
      (pre.length + n + len) = some f ∧ f.pos = pre.length ∧ f.posData = pre.length + n + len ∧ (id ≠ 0x1A45DFA3 → f.kind ≠ .known rHead) := by
    have hcr : ∃ kd ch, createUsing mkvScan (idField id ++ sizeField len size) n true [⟨0, -1⟩] 0 = some (kd, ch) ∧
        (id ≠ 0x1A45DFA3 → kd ≠ .known rHead) := by
      have h1e : (mkvScan.ctx rHead).id = 0x1A45DFA3 := by decide +kernel
      rw [createUsing, g5]
      have hsem : (mkvScan.ctx 0).sem = some [rHead, rSegment] := by decide +kernel
      have hglob : mkvScan.globals = [9, 10] := rfl
      rw [hsem]
      simp only
      cases hf : [rHead, rSegment].find? (fun r => (mkvScan.ctx r).id == id) with
      | some r =>
        refine ⟨_, _, rfl, ?_⟩
        intro hne hk
        injection hk with hk
        subst hk
        have := (find_mem hf).2
        exact hne (by rw [← this, h1e])
      | none =>
        simp only
        cases hg : mkvScan.globals.find? (fun r => (mkvScan.ctx r).id == id) with
        | some r =>
          refine ⟨_, _, rfl, ?_⟩
          intro hne hk
          injection hk with hk
          subst hk
          have := (find_mem hg).2
          exact hne (by rw [← this, h1e])
        | none =>
          simp only
          rw [if_pos (by have := hid.1; simp; omega)]
          refine ⟨_, _, rfl, ?_⟩
          intro _
          split
          · intro hk; injection hk with hk; cases hk
          · simp
    obtain ⟨kd, ch, hcr, hkd⟩ := hcr
    rw [build, hcr, hread]
    simp only [Bool.true_or, Bool.true_and, if_true, hne]
    have hv : validateSize true size (Kind.cls mkvScan (if (!validateSize true size (kd.cls mkvScan) && !kd.isDummy mkvScan) = true then
        Kind.dummy (idFromBuffer (idField id ++ sizeField len size) n) else kd)) = true := by
      by_cases hv : validateSize true size (kd.cls mkvScan) = true
      · simp [hv]
      · have hd : kd.isDummy mkvScan = false := by
          cases hk : kd.isDummy mkvScan with
          | false => rfl
          | true =>
            simp only [Kind.isDummy, beq_iff_eq] at hk
            rw [hk] at hv
            exact absurd rfl hv
        rw [if_pos (by simp [hv, hd])]
        rfl
    rw [if_pos hv]
    refine ⟨_, rfl, ?_, ?_, ?_⟩
    · simp only [hwl]; push_cast; omega
    · simp only [Found.posData, if_true, hwl]
      have : ((len : Int) % 256).toNat = len := by omega
      rw [this, codedSizeLength_known size len h1 h8 hs]
      push_cast
      omega
    · intro hne'
      simp only
      split
      · simp
      · exact hkd hne'
  refine ⟨f, ?_, e1, e2, e3⟩
  rw [find, findNext, hdrop]
  simp only [adjust]
  rw [loop, hlim, hl]
  simp only
  rw [hlen, if_neg (by omega), Nat.sub_self, hl2, hsl]
  simp only
  rw [hfitc]
  simp only
  rw [if_neg (by have := hid.1; omega)]
  simp only [attempt, if_true, hb]

/-- The bytes of a document whose Segment says it has no known size. -/
def Piece.openBytes (d : Piece) : Bytes := d.headBytes ++ idField 0x18538067 ++ unknownField d.segLen ++ d.seg

/-- The element found at the head of a Segment without size. -/
def openAt (pos len : Nat) : Found := ⟨.known rSegment, pos, pos + 4, len, -1, -1, false, 0, pos + 4 + len⟩

/-- A document with a Segment of unknown size that holds an element: the part ends behind the head of the Segment, and the search
goes on with the element. -/
theorem outer_open (pre : Bytes) (d : Piece) (rest : Bytes) (h1 : 1 ≤ d.headLen) (h8 : d.headLen ≤ 8) (hhead : d.head.length < 2 ^ (7 * d.headLen) - 1)
    (s1 : 1 ≤ d.segLen) (s8 : d.segLen ≤ 8) (data : Bytes) (id n len size : Nat) (hid : WellFormedId id n)
    (l1 : 1 ≤ len) (l8 : len ≤ 8) (hs : size < 2 ^ (7 * len) - 1) (inside : Bytes) (hseg : d.seg = idField id ++ sizeField len size ++ inside)
    (hne : id ≠ 0x1A45DFA3)
    (hdata : data = pre ++ d.openBytes ++ rest) (hlong : pre.length + d.headBytes.length + 12 ≤ data.length)
    (hh : Harmless data (pre.length + 4 + d.headLen) (pre.length + d.headBytes.length))
    (fuel : Nat) (acc : List Part) (w : Bool) :
    find false data pre.length = .found (at_ rHead pre.length d.headLen d.head.length) ∧
    ∃ f : Found, f.kind ≠ .known rHead ∧
    outer data (fuel + 1) (some (at_ rHead pre.length d.headLen d.head.length)) (pre.length + 4 + d.headLen) acc w =
      outer data fuel (some f) (pre.length + d.headBytes.length + 4 + d.segLen + n + len)
        (acc ++ [⟨pre.length, d.headBytes.length, pre.length + d.headBytes.length, 4 + d.segLen⟩]) w := by
  have hhl := headBytes_length d
  have e1 : data = pre ++ idField 0x1A45DFA3 ++ sizeField d.headLen d.head.length ++ (d.head ++ idField 0x18538067 ++ unknownField d.segLen ++ d.seg ++ rest) := by
    rw [hdata]; simp [Piece.headBytes, Piece.openBytes]
  have hlp : (pre ++ d.headBytes).length = pre.length + d.headBytes.length := by simp
  have hf1 := find_known false pre (d.head ++ idField 0x18538067 ++ unknownField d.segLen ++ d.seg ++ rest) _ rHead d.headLen d.head.length wf_head offers_head head_master
    h1 h8 hhead
  rw [← e1] at hf1
  have e2 : data = (pre ++ d.headBytes) ++ idField 0x18538067 ++ unknownField d.segLen ++ (d.seg ++ rest) := by
    rw [hdata]; simp [Piece.openBytes]
  have hsegf : find false data (pre.length + d.headBytes.length) = .found (openAt (pre.length + d.headBytes.length) d.segLen) := by
    rw [find, ← hlp, e2, C24_head_found_unknown mkvScan false _ (pre ++ d.headBytes) (d.seg ++ rest) ⟨0, -1⟩ [] 0 0x18538067 4 wf_segment d.segLen s1 s8 rSegment offers_segment segment_master (Or.inl rfl)]
    simp [openAt]
  have hsegH : HeadAt mkvScan 0 0 data (pre.length + d.headBytes.length) (openAt (pre.length + d.headBytes.length) d.segLen) := by
    obtain ⟨p, t1, t2, t3, t4⟩ := (findNext_first mkvScan 0 0 data (pre.length + d.headBytes.length) (by omega) _).1 _ hsegf
    simp only [openAt] at t1
    have : p = pre.length + d.headBytes.length := by omega
    rw [this] at t3
    exact t3
  have e3 : data = (pre ++ d.headBytes ++ idField 0x18538067 ++ unknownField d.segLen) ++ idField id ++ sizeField len size ++ (inside ++ rest) := by
    rw [hdata]; simp [Piece.openBytes, hseg]
  have hl3 : (pre ++ d.headBytes ++ idField 0x18538067 ++ unknownField d.segLen).length = pre.length + d.headBytes.length + 4 + d.segLen := by
    simp [idField_segment_length, unknownField_length]; omega
  obtain ⟨f, g1, g2, g3, g4⟩ := find_any (pre ++ d.headBytes ++ idField 0x18538067 ++ unknownField d.segLen) (inside ++ rest) id n len size hid l1 l8 hs
  rw [← e3, hl3] at g1
  rw [hl3] at g2 g3
  refine ⟨hf1, f, g4 hne, ?_⟩
  rw [outer]
  have hw : (w || (at_ rHead pre.length d.headLen d.head.length).kind != .known rHead) = w := by simp [at_]
  rw [hw, inner_segment data _ _ _ hh hsegH rfl hlong _ _ _ _ (Nat.le_refl _) (by omega) (by omega)]
  simp only
  rw [if_pos (by rfl)]
  have hst : ((openAt (pre.length + d.headBytes.length) d.segLen).streamPos).toNat = pre.length + d.headBytes.length + 4 + d.segLen := by
    simp only [openAt]; omega
  have hsk : skip data (openAt (pre.length + d.headBytes.length) d.segLen) = some (some f, f.posData) := by
    rw [skip, if_neg (show ¬ (openAt (pre.length + d.headBytes.length) d.segLen).finite = true by simp [openAt]), hst, g1]
  rw [hsk]
  simp only
  have hpart : mkPart (at_ rHead pre.length d.headLen d.head.length) (openAt (pre.length + d.headBytes.length) d.segLen) (some f) f.posData =
      ⟨pre.length, d.headBytes.length, pre.length + d.headBytes.length, 4 + d.segLen⟩ := by
    simp only [mkPart]
    rw [fullSize_at _ _ _ _ h1 h8 hhead, g2]
    simp only [at_, openAt, if_true, Bool.false_eq_true, if_false, Part.mk.injEq]
    refine ⟨trivial, by omega, by omega, by omega⟩
  rw [hpart, g3]

/-- From an element that is no header on: the document behind harmless bytes becomes a part, with a warning. -/
theorem outer_resync (data pre : Bytes) (d : Piece) (rest : Bytes) (hd : d.Ok) (hdata : data = pre ++ d.bytes ++ rest)
    (f : Found) (hfk : f.kind ≠ .known rHead) (pos : Nat) (hpos : pos ≤ pre.length) (hh0 : Harmless data pos pre.length)
    (hh : Harmless data (pre.length + 4 + d.headLen) (pre.length + d.headBytes.length)) (fuel : Nat) (acc : List Part) (w : Bool) :
    outer data (fuel + 1) (some f) pos acc w =
      outer data (fuel + 1) (some (at_ rHead pre.length d.headLen d.head.length)) (pre.length + 4 + d.headLen) acc true := by
  have hhl := headBytes_length d
  have hlong : pre.length + d.headBytes.length + 12 ≤ data.length := by
    have := congrArg List.length hdata
    simp [Piece.bytes] at this
    have := hd.long
    omega
  have e1 : data = pre ++ idField 0x1A45DFA3 ++ sizeField d.headLen d.head.length ++ (d.head ++ d.segBytes ++ rest) := by
    rw [hdata]; simp [Piece.bytes, Piece.headBytes]
  have e2 : data = (pre ++ d.headBytes) ++ idField 0x18538067 ++ sizeField d.segLen d.seg.length ++ (d.seg ++ rest) := by
    rw [hdata]; simp [Piece.bytes, Piece.segBytes]
  have hlp : (pre ++ d.headBytes).length = pre.length + d.headBytes.length := by simp
  have hH := headAt_known pre (d.head ++ d.segBytes ++ rest) _ rHead d.headLen d.head.length wf_head offers_head head_master hd.h1 hd.h8 hd.head
  rw [← e1] at hH
  have hS := headAt_known (pre ++ d.headBytes) (d.seg ++ rest) _ rSegment d.segLen d.seg.length wf_segment offers_segment segment_master hd.s1 hd.s8 hd.seg
  rw [← e2, hlp] at hS
  have hst : ((at_ rHead pre.length d.headLen d.head.length).streamPos).toNat = pre.length + 4 + d.headLen := by
    simp only [at_]; omega
  obtain ⟨fuel', i1, i2⟩ := inner_header data pos pre.length _ hh0 hH rfl (by omega) f (w || f.kind != .known rHead) (data.length + 1) pos (Nat.le_refl _) hpos (by omega)
  rw [outer, i2, hst, outer]
  rw [inner_segment data _ _ _ hh hS rfl hlong _ _ _ _ (Nat.le_refl _) (by omega) (by omega)]
  rw [inner_segment data _ _ _ hh hS rfl hlong _ _ _ _ (Nat.le_refl _) (by omega) (by omega)]
  rfl

end Verif.Mkparts
