import Verif.Props.ScanFirst
/-!
Property theorems C196 to C198: what mkparts writes and how it ends.
-/
set_option linter.unusedSimpArgs false
namespace Verif.Mkparts
open Verif.Ebml Verif.Ebml.Scan Verif.EbmlDoc
open Verif.Ebml.Master (mkvScan)

theorem copyTo_all (a x b : Bytes) (off size : Int) (ho : off = a.length) (hs : size = x.length) : copyTo (a ++ x ++ b) off size = ⟨x, true⟩ := by
  subst ho hs
  rw [copyTo, if_neg (by omega)]
  simp only [Int.toNat_natCast]
  obtain ⟨h1, h2, _⟩ := copyLoop_spec (x.length + 1) ((a ++ x ++ b).drop a.length) x.length (by omega)
  have hd : (a ++ x ++ b).drop a.length = x ++ b := by simp
  rw [hd] at h1 h2 ⊢
  have e1 := h1.2 (by simp)
  have e2 := h2 (by simp)
  rw [List.take_left] at e2
  cases hc : copyLoop (x.length + 1) (x ++ b) x.length with
  | mk bytes ends =>
    rw [hc] at e1 e2
    simp only at e1 e2
    rw [e1, e2]

theorem writeParts_pieces (opens : Nat → Bool) (data : Bytes) : ∀ (ds : List Piece) (pre rest : Bytes) (tail : List Part) (j : Nat),
    (∀ k, j ≤ k → k < j + ds.length → opens k = true) → data = pre ++ ds.flatMap (·.bytes) ++ rest →
    writeParts opens data j (partsAt pre.length ds ++ tail) =
      (ds.map (·.bytes) ++ (writeParts opens data (j + ds.length) tail).1, (writeParts opens data (j + ds.length) tail).2) := by
  intro ds
  induction ds with
  | nil => intro pre rest tail j _ _; simp [partsAt]
  | cons d ds ih =>
    intro pre rest tail j ho hdata
    have e1 : copyTo data pre.length d.headBytes.length = ⟨d.headBytes, true⟩ := by
      have : data = pre ++ d.headBytes ++ (d.segBytes ++ ds.flatMap (·.bytes) ++ rest) := by rw [hdata]; simp [Piece.bytes]
      rw [this]; exact copyTo_all _ _ _ _ _ rfl rfl
    have e2 : copyTo data (pre.length + d.headBytes.length) d.segBytes.length = ⟨d.segBytes, true⟩ := by
      have : data = (pre ++ d.headBytes) ++ d.segBytes ++ (ds.flatMap (·.bytes) ++ rest) := by rw [hdata]; simp [Piece.bytes]
      rw [this]; exact copyTo_all _ _ _ _ _ (by simp) rfl
    have hih := ih (pre ++ d.bytes) rest tail (j + 1) (fun k h1 h2 => ho k (by omega) (by simp; omega)) (by rw [hdata]; simp)
    rw [List.length_append] at hih
    simp only [partsAt, List.cons_append, writeParts, partAt]
    rw [if_pos (ho j (Nat.le_refl _) (by simp))]
    have hn : j + 1 + ds.length = j + (ds.length + 1) := by omega
    simp only [e1, e2, if_true, hih, hn, List.map_cons, List.length_cons, List.cons_append]
    rfl

theorem scan_pieces (ds : List Piece) (hok : ∀ d ∈ ds, d.Ok) (hne : ds ≠ []) (data : Bytes) (hdata : data = ds.flatMap (·.bytes))
    (hh : AllHarmless data 0 ds) : scan data = .parts (partsAt 0 ds) false := by
  have hlen : ds.length ≤ data.length := by
    subst hdata
    clear hh hne
    induction ds with
    | nil => simp
    | cons d ds ih =>
      have := ih (fun x hx => hok x (List.mem_cons_of_mem _ hx))
      have hl := (hok d List.mem_cons_self).long
      simp only [List.flatMap_cons, List.length_append, List.length_cons, Piece.bytes]
      simp only [Piece.bytes] at this
      omega
  cases ds with
  | nil => exact absurd rfl hne
  | cons d ds =>
    have hd := hok d List.mem_cons_self
    have hl := hd.long
    have e1 : data = [] ++ d.headBytes ++ idField 0x18538067 ++ sizeField d.segLen d.seg.length ++ (d.seg ++ ds.flatMap (·.bytes)) := by
      rw [hdata]; simp [Piece.bytes, Piece.segBytes]
    have hlong : ([] : Bytes).length + d.headBytes.length + 12 ≤ data.length := by
      have := congrArg List.length hdata
      simp [Piece.bytes] at this
      simp
      omega
    obtain ⟨g1, _⟩ := outer_piece [] d _ hd data e1 hlong hh.1 0 [] false
    rw [scan]
    rw [List.length_nil] at g1
    rw [g1]
    simp only
    have := outer_pieces data (d :: ds) [] [] [] false (data.length + 1 - (d :: ds).length) hok (by rw [hdata]; simp) hh _ g1 (by simp)
    rw [show data.length + 1 - (d :: ds).length + (d :: ds).length = data.length + 1 by omega] at this
    simp only [List.length_nil, Nat.zero_add] at this
    rw [this, ← hdata, find_past false data data.length (Nat.le_refl _)]
    simp only [List.nil_append]
    cases data.length + 1 - (d :: ds).length <;> simp [outer]

/-- C196. A file of two or more documents, each an EBML header and a Segment that tell their sizes, is split into exactly these
documents, in their order and byte by byte, if nothing in the content of a header is taken for a header or a Segment or hides the
Segment behind it. -/
theorem C196_split (opens : Nat → Bool) (ho : ∀ j, opens j = true) (ds : List Piece) (hok : ∀ d ∈ ds, d.Ok) (h2 : 2 ≤ ds.length)
    (hh : AllHarmless (ds.flatMap (·.bytes)) 0 ds) : (run opens (ds.flatMap (·.bytes))).1 = ds.map (·.bytes) := by
  have hlen : ∀ (l : List Piece) off, (partsAt off l).length = l.length := by
    intro l
    induction l with
    | nil => intro off; rfl
    | cons x l ih => intro off; simp [partsAt, ih]
  rw [run, scan_pieces ds hok (by intro h; subst h; simp at h2) _ rfl hh]
  simp only
  rw [if_neg (by rw [hlen]; omega), if_neg (by rw [hlen]; omega)]
  have := writeParts_pieces opens (ds.flatMap (·.bytes)) ds [] [] [] 0 (fun k _ _ => ho k) (by simp)
  simp only [List.append_nil, List.length_nil] at this
  rw [this]
  simp [writeParts]

/-- C196. Nothing is written for a file of one document; the program says so and returns -3. -/
theorem C196_single (opens : Nat → Bool) (d : Piece) (hd : d.Ok) (hh : Harmless d.bytes (4 + d.headLen) d.headBytes.length) :
    run opens d.bytes = ([], .exit (-3)) := by
  have := scan_pieces [d] (by simpa using hd) (by simp) d.bytes (by simp) ⟨by simpa using hh, trivial⟩
  rw [run, this]
  simp [partsAt]

theorem beNat_take_first (b0 : UInt8) (tl : Bytes) : beNat (b0 :: tl) = b0.toNat * 256 ^ tl.length + beNat tl := by
  rw [beNat_cons]

/-- The bytes the IDs of EBML header, Segment, Void and CRC-32 begin with. -/
theorem headAt_first (data : Bytes) (p : Nat) (f : Found) (h : HeadAt mkvScan 0 0 data p f) :
    ∃ b : UInt8, data[p]? = some b ∧ b ∈ [0x1A, 0x18, 0xEC, 0xBF] := by
  obtain ⟨n, r, b0, sem, a1, a2, a3, a4, a5, a6, a7, a8, _⟩ := h
  refine ⟨b0, a4, ?_⟩
  have hsem : (mkvScan.ctx 0).sem = some [rHead, rSegment] := by decide +kernel
  rw [hsem] at a7
  injection a7 with a7
  subst a7
  have hr := List.mem_of_find?_eq_some a8
  have hid := List.find?_some a8
  simp only [beq_iff_eq] at hid
  have hids : ∀ r ∈ [rHead, rSegment] ++ mkvScan.globals, (mkvScan.ctx r).id ∈ [0x1A45DFA3, 0x18538067, 0xEC, 0xBF] := by decide +kernel
  have hm := hids r hr
  rw [hid] at hm
  have hd : data.drop p = b0 :: data.drop (p + 1) := by
    have hlt : p < data.length := by omega
    rw [List.drop_eq_getElem_cons hlt]
    rw [List.getElem?_eq_getElem hlt] at a4
    injection a4 with a4
    rw [a4]
  obtain ⟨m, rfl⟩ : ∃ m, n = m + 1 := ⟨n - 1, by omega⟩
  rw [hd, List.take_succ_cons, beNat_take_first] at hm
  have hl : ((data.drop (p + 1)).take m).length = m := by simp; omega
  have hlt := beNat_lt ((data.drop (p + 1)).take m)
  rw [hl] at hm hlt
  generalize beNat ((data.drop (p + 1)).take m) = x at *
  have hb : b0.toNat = 0x1A ∨ b0.toNat = 0x18 ∨ b0.toNat = 0xEC ∨ b0.toNat = 0xBF := by
    have hn : m = 0 ∨ m = 1 ∨ m = 2 ∨ m = 3 := by omega
    simp only [List.mem_cons, List.not_mem_nil, or_false] at hm
    rcases hn with e | e | e | e <;> subst e <;> simp only [Nat.reduceSub, Nat.reducePow, Nat.reduceAdd] at * <;> omega
  simp only [List.mem_cons, List.not_mem_nil, or_false]
  rcases hb with h | h | h | h
  · exact Or.inl (UInt8.toNat_inj.1 h)
  · exact Or.inr (Or.inl (UInt8.toNat_inj.1 h))
  · exact Or.inr (Or.inr (Or.inl (UInt8.toNat_inj.1 h)))
  · exact Or.inr (Or.inr (Or.inr (UInt8.toNat_inj.1 h)))

/-- A header is harmless if its content has none of the bytes 1A, 18, EC and BF. -/
theorem allHarmless_plain (data : Bytes) : ∀ (ds : List Piece) (pre rest : Bytes), data = pre ++ ds.flatMap (·.bytes) ++ rest →
    (∀ d ∈ ds, ∀ b ∈ d.head, b ∉ [0x1A, 0x18, 0xEC, 0xBF]) → AllHarmless data pre.length ds := by
  intro ds
  induction ds with
  | nil => intro pre rest _ _; trivial
  | cons d ds ih =>
    intro pre rest hdata hp
    have hhl := headBytes_length d
    refine ⟨?_, ?_⟩
    · intro q f h1 h2 hf
      exfalso
      obtain ⟨b, e1, e2⟩ := headAt_first data q f hf
      refine hp d List.mem_cons_self b ?_ e2
      have hd : data = (pre ++ (idField 0x1A45DFA3 ++ sizeField d.headLen d.head.length)) ++ (d.head ++ (d.segBytes ++ ds.flatMap (·.bytes) ++ rest)) := by
        rw [hdata]; simp [Piece.bytes, Piece.headBytes]
      have hl : (pre ++ (idField 0x1A45DFA3 ++ sizeField d.headLen d.head.length)).length = pre.length + 4 + d.headLen := by
        simp [idField_head_length, sizeField_length]; omega
      rw [hd, List.getElem?_append_right (by omega), hl, List.getElem?_append_left (by omega)] at e1
      exact List.mem_of_getElem? e1
    · have := ih (pre ++ d.bytes) rest (by rw [hdata]; simp) (fun x hx => hp x (List.mem_cons_of_mem _ hx))
      rwa [List.length_append] at this

/-- C196 for headers without the bytes 1A, 18, EC and BF, like those this library and others write. -/
theorem C196_plain (opens : Nat → Bool) (ho : ∀ j, opens j = true) (ds : List Piece) (hok : ∀ d ∈ ds, d.Ok) (h2 : 2 ≤ ds.length)
    (hp : ∀ d ∈ ds, ∀ b ∈ d.head, b ∉ [0x1A, 0x18, 0xEC, 0xBF]) : (run opens (ds.flatMap (·.bytes))).1 = ds.map (·.bytes) :=
  C196_split opens ho ds hok h2 (allHarmless_plain _ ds [] [] (by simp) hp)

/-- A document of version 1 with a Void of 6 bytes in its Segment. -/
def sample : Piece := ⟨1, [0x42, 0x86, 0x81, 1], 1, [0xEC, 0x86, 1, 2, 3, 4, 5, 6]⟩

theorem sample_ok : sample.Ok := ⟨by decide, by decide, by decide, by decide, by decide, by decide, by decide⟩

example : (∀ d ∈ [sample, sample], d.Ok) ∧ (∀ d ∈ [sample, sample], ∀ b ∈ d.head, b ∉ [0x1A, 0x18, 0xEC, 0xBF]) ∧
    (run (fun _ => true) (sample.bytes ++ sample.bytes)).1 = [sample.bytes, sample.bytes] := by
  refine ⟨?_, ?_, ?_⟩
  · intro d hd
    simp at hd
    subst hd
    exact sample_ok
  · decide
  · exact C196_plain (fun _ => true) (fun _ => rfl) [sample, sample] (by
      intro d hd
      simp at hd
      subst hd
      exact sample_ok) (by decide) (by decide)

/-- C196 as hoped for: documents that tell their sizes are split, whatever their headers hold. -/
def SplitsAll : Prop :=
  ∀ ds : List Piece, (∀ d ∈ ds, d.Ok) → 2 ≤ ds.length → (run (fun _ => true) (ds.flatMap (·.bytes))).1 = ds.map (·.bytes)

/-- A header whose last element, DocTypeReadVersion, is 236. -/
def concealing : Piece := ⟨1, [0x42, 0x85, 0x81, 0xEC], 1, [0xEC, 0x86, 1, 2, 3, 4, 5, 6]⟩

/-- C196 fails: the contents of a header are searched byte by byte. The last byte EC of this one is taken for a Void whose size
is the ID of the Segment, so the Segment is passed over: the program crashes and writes nothing. -/
theorem C196_hidden_counterexample : ¬ SplitsAll ∧ run (fun _ => true) (concealing.bytes ++ concealing.bytes) = ([], .crash) := by
  have hr : run (fun _ => true) (concealing.bytes ++ concealing.bytes) = ([], .crash) := by decide +kernel
  refine ⟨?_, hr⟩
  intro h
  have := h [concealing, concealing] (by
    intro d hd
    simp at hd
    subst hd
    exact ⟨by decide, by decide, by decide, by decide, by decide, by decide, by decide⟩) (by decide)
  simp only [List.flatMap_cons, List.flatMap_nil, List.append_nil] at this
  rw [hr] at this
  cases this

/-- C197 as hoped for: whatever the file, the program returns. -/
def Returns : Prop := ∀ data : Bytes, ∃ code, (run (fun _ => true) data).2 = .exit code

/-- C197 fails whenever the program does what it is for: it returns only if it wrote nothing because there were fewer than two
documents, or because a file could not be opened. Having written all parts it closes the last one a second time. -/
theorem C197_closed_twice_counterexample (opens : Nat → Bool) (data : Bytes) :
    (∀ code, (run opens data).2 = .exit code → ((run opens data).1 = [] ∧ code = -3) ∨ (code = -5 ∧ ∃ j, opens j = false)) ∧
    (∀ ds : List Piece, (∀ d ∈ ds, d.Ok) → 2 ≤ ds.length → AllHarmless (ds.flatMap (·.bytes)) 0 ds → (∀ j, opens j = true) →
      (run opens (ds.flatMap (·.bytes))).2 = .closedTwice) ∧ ¬ Returns := by
  have hw : ∀ (ps : List Part) (j : Nat) (code : Int), (writeParts opens data j ps).2 = .exit code → code = -5 ∧ ∃ j, opens j = false := by
    intro ps
    induction ps with
    | nil => intro j code h; simp [writeParts] at h
    | cons p ps ih =>
      intro j code h
      rw [writeParts] at h
      split at h
      · simp only at h
        split at h
        · split at h
          · exact ih _ _ h
          · cases h
        · cases h
      · rename_i ho
        simp only at h
        injection h with h
        exact ⟨h.symm, j, by simpa using ho⟩
  have hsplit : ∀ (opens : Nat → Bool) (ds : List Piece), (∀ d ∈ ds, d.Ok) → 2 ≤ ds.length → AllHarmless (ds.flatMap (·.bytes)) 0 ds →
      (∀ j, opens j = true) → (run opens (ds.flatMap (·.bytes))).2 = .closedTwice := by
    intro opens ds hok h2 hh ho
    have hlen : ∀ (l : List Piece) off, (partsAt off l).length = l.length := by
      intro l
      induction l with
      | nil => intro off; rfl
      | cons x l ih => intro off; simp [partsAt, ih]
    rw [run, scan_pieces ds hok (by intro h; subst h; simp at h2) _ rfl hh]
    simp only
    rw [if_neg (by rw [hlen]; omega), if_neg (by rw [hlen]; omega)]
    have := writeParts_pieces opens (ds.flatMap (·.bytes)) ds [] [] [] 0 (fun k _ _ => ho k) (by simp)
    simp only [List.append_nil, List.length_nil] at this
    rw [this]
    simp [writeParts]
  refine ⟨?_, hsplit opens, ?_⟩
  · intro code h
    rw [run] at h ⊢
    cases hs : scan data with
    | crash => rw [hs] at h; cases h
    | fuelOut => rw [hs] at h; cases h
    | parts l w =>
      rw [hs] at h
      simp only at h ⊢
      split at h
      · injection h with h
        rename_i h0
        rw [if_pos h0]
        exact Or.inl ⟨rfl, h.symm⟩
      · rename_i h0
        rw [if_neg h0]
        split at h
        · injection h with h
          rename_i h1
          rw [if_pos h1]
          exact Or.inl ⟨rfl, h.symm⟩
        · exact Or.inr (hw l 0 code h)
  · intro h
    obtain ⟨code, hc⟩ := h ([sample, sample].flatMap (·.bytes))
    have ho : ∀ d ∈ [sample, sample], d.Ok := by
      intro d hd
      simp at hd
      subst hd
      exact sample_ok
    rw [hsplit (fun _ => true) [sample, sample] ho (by decide)
      (allHarmless_plain _ [sample, sample] [] [] (by simp) (by decide)) (fun _ => rfl)] at hc
    cases hc

/-- C197 fails for a header with no Segment behind it: the program uses a NULL pointer. -/
theorem C197_header_only_counterexample (opens : Nat → Bool) (d : Piece) (h1 : 1 ≤ d.headLen) (h8 : d.headLen ≤ 8)
    (hs : d.head.length < 2 ^ (7 * d.headLen) - 1) (hp : ∀ b ∈ d.head, b ∉ [0x1A, 0x18, 0xEC, 0xBF]) :
    run opens d.headBytes = ([], .crash) := by
  have hhl := headBytes_length d
  have hf := find_known false [] d.head _ rHead d.headLen d.head.length wf_head offers_head head_master h1 h8 hs
  simp only [List.nil_append, List.length_nil] at hf
  have hb : idField 0x1A45DFA3 ++ sizeField d.headLen d.head.length ++ d.head = d.headBytes := rfl
  rw [hb] at hf
  have hst : ((at_ rHead 0 d.headLen d.head.length).streamPos).toNat = 4 + d.headLen := by
    simp only [at_]; omega
  have hh : Harmless d.headBytes (4 + d.headLen) d.headBytes.length := by
    intro q f h1 h2 hf
    exfalso
    obtain ⟨b, e1, e2⟩ := headAt_first _ q f hf
    refine hp b ?_ e2
    have hl : (idField 0x1A45DFA3 ++ sizeField d.headLen d.head.length).length = 4 + d.headLen := by
      simp [idField_head_length, sizeField_length]
    rw [Piece.headBytes, List.getElem?_append_right (by omega), hl] at e1
    exact List.mem_of_getElem? e1
  rw [run, scan, hf]
  simp only
  rw [outer, hst, inner_crash d.headBytes (4 + d.headLen) hh _ _ _ _ (Nat.le_refl _) (by omega)]

/-- C197 fails for a file cut off in its last document: the program copies for ever. All documents in front are written, and of
the last Segment the blocks of 8192 bytes that are complete. -/
theorem C197_cut_off_counterexample (opens : Nat → Bool) (ho : ∀ j, opens j = true) (ds : List Piece) (d : Piece) (hok : ∀ d ∈ ds, d.Ok) (hd : d.Ok)
    (h1 : 1 ≤ ds.length) (k : Nat) (hk : k < d.seg.length) (hk8 : 12 ≤ 4 + d.segLen + k)
    (hp : ∀ x ∈ ds ++ [d], ∀ b ∈ x.head, b ∉ [0x1A, 0x18, 0xEC, 0xBF]) (file : Bytes)
    (hfile : file = ds.flatMap (·.bytes) ++ d.headBytes ++ d.segBytes.take (4 + d.segLen + k)) :
    run opens file = (ds.map (·.bytes) ++ [d.headBytes ++ d.segBytes.take ((4 + d.segLen + k) / 8192 * 8192)], .endless) := by
  have hsl := segBytes_length d
  have hhl := headBytes_length d
  have htake : d.segBytes.take (4 + d.segLen + k) = idField 0x18538067 ++ sizeField d.segLen d.seg.length ++ d.seg.take k := by
    rw [Piece.segBytes, List.take_append, List.take_of_length_le (by simp [idField_segment_length, sizeField_length])]
    congr 2
    simp [idField_segment_length, sizeField_length]
  have htl : (d.segBytes.take (4 + d.segLen + k)).length = 4 + d.segLen + k := by simp; omega
  have hlenf : file.length = (ds.flatMap (·.bytes)).length + d.headBytes.length + (4 + d.segLen + k) := by
    rw [hfile, List.length_append, List.length_append, htl]
  have e1 : file = (ds.flatMap (·.bytes)) ++ d.headBytes ++ idField 0x18538067 ++ sizeField d.segLen d.seg.length ++ d.seg.take k := by
    rw [hfile, htake]; simp
  have hdsl : ds.length ≤ (ds.flatMap (·.bytes)).length := by
    clear hp e1 hlenf hfile h1
    induction ds with
    | nil => simp
    | cons x xs ih =>
      have := ih (fun x hx => hok x (List.mem_cons_of_mem _ hx))
      have hl := (hok x List.mem_cons_self).long
      simp only [List.flatMap_cons, List.length_append, List.length_cons, Piece.bytes]
      simp only [Piece.bytes] at this
      omega
  -- the header of the last document is harmless
  have hh0 : AllHarmless file 0 ds := allHarmless_plain file ds [] (d.headBytes ++ d.segBytes.take (4 + d.segLen + k)) (by rw [hfile]; simp)
    (fun x hx => hp x (by simp [hx]))
  have hhd : Harmless file ((ds.flatMap (·.bytes)).length + 4 + d.headLen) ((ds.flatMap (·.bytes)).length + d.headBytes.length) := by
    intro q f h1 h2 hf
    exfalso
    obtain ⟨b, t1, t2⟩ := headAt_first _ q f hf
    refine hp d (by simp) b ?_ t2
    have hd' : file = (ds.flatMap (·.bytes) ++ (idField 0x1A45DFA3 ++ sizeField d.headLen d.head.length)) ++ (d.head ++ d.segBytes.take (4 + d.segLen + k)) := by
      rw [hfile]; simp [Piece.headBytes]
    have hl : (ds.flatMap (·.bytes) ++ (idField 0x1A45DFA3 ++ sizeField d.headLen d.head.length)).length = (ds.flatMap (·.bytes)).length + 4 + d.headLen := by
      rw [List.length_append, List.length_append, idField_head_length, sizeField_length]; omega
    rw [hd', List.getElem?_append_right (by omega), hl, List.getElem?_append_left (by omega)] at t1
    exact List.mem_of_getElem? t1
  -- scanning
  have hscan : scan file = .parts (partsAt 0 ds ++ [partAt (ds.flatMap (·.bytes)).length d]) false := by
    cases ds with
    | nil => simp at h1
    | cons x xs =>
      have hx := hok x List.mem_cons_self
      have ex : file = [] ++ x.headBytes ++ idField 0x18538067 ++ sizeField x.segLen x.seg.length ++ (x.seg ++ xs.flatMap (·.bytes) ++ d.headBytes ++ d.segBytes.take (4 + d.segLen + k)) := by
        rw [hfile]; simp [Piece.bytes, Piece.segBytes]
      have hlx : ([] : Bytes).length + x.headBytes.length + 12 ≤ file.length := by
        have := hx.long
        have hll := congrArg List.length ex
        rw [segBytes_length] at this
        simp [idField_segment_length, sizeField_length] at hll
        simp
        omega
      obtain ⟨g1, _⟩ := outer_piece [] x _ hx file ex hlx hh0.1 0 [] false
      rw [List.length_nil] at g1
      rw [scan, g1]
      simp only
      have hop := outer_pieces file (x :: xs) [] (d.headBytes ++ d.segBytes.take (4 + d.segLen + k)) [] false (file.length + 1 - (x :: xs).length) hok
        (by rw [hfile]; simp) hh0 _ g1 (by simp)
      rw [show file.length + 1 - (x :: xs).length + (x :: xs).length = file.length + 1 by omega] at hop
      simp only [List.length_nil, Nat.zero_add, List.nil_append] at hop
      rw [hop]
      obtain ⟨fuel, hfu⟩ : ∃ fuel, file.length + 1 - (x :: xs).length = fuel + 1 := ⟨file.length - (x :: xs).length, by omega⟩
      rw [hfu]
      obtain ⟨k1, k2⟩ := outer_piece ((x :: xs).flatMap (·.bytes)) d _ hd file e1 (by omega) hhd fuel (partsAt 0 (x :: xs)) false
      rw [k1]
      simp only
      have hst : ((at_ rHead ((x :: xs).flatMap (·.bytes)).length d.headLen d.head.length).streamPos).toNat = ((x :: xs).flatMap (·.bytes)).length + 4 + d.headLen := by
        simp only [at_]; omega
      rw [hst, k2]
      have hbl : d.bytes.length = d.headBytes.length + d.segBytes.length := by simp [Piece.bytes]
      rw [find_past false file _ (by omega)]
      simp only
      cases fuel <;> simp [outer]
  have hplen : ∀ (l : List Piece) off, (partsAt off l).length = l.length := by
    intro l
    induction l with
    | nil => intro off; rfl
    | cons x l ih => intro off; simp [partsAt, ih]
  rw [run, hscan]
  simp only
  rw [if_neg (by rw [List.length_append, hplen]; simp), if_neg (by rw [List.length_append, hplen, List.length_singleton]; omega)]
  have hwp := writeParts_pieces opens file ds [] (d.headBytes ++ d.segBytes.take (4 + d.segLen + k)) [partAt (ds.flatMap (·.bytes)).length d] 0
    (fun k _ _ => ho k) (by rw [hfile]; simp)
  rw [List.length_nil] at hwp
  rw [hwp]
  have c1 : copyTo file (ds.flatMap (·.bytes)).length d.headBytes.length = ⟨d.headBytes, true⟩ := by
    rw [hfile]; exact copyTo_all _ _ _ _ _ rfl rfl
  have c2 : copyTo file ((ds.flatMap (·.bytes)).length + d.headBytes.length) d.segBytes.length =
      ⟨d.segBytes.take ((4 + d.segLen + k) / 8192 * 8192), false⟩ := by
    rw [copyTo, if_neg (by omega)]
    have ho' : ((((ds.flatMap (·.bytes)).length : Int) + d.headBytes.length)).toNat = (ds.flatMap (·.bytes) ++ d.headBytes).length := by
      rw [List.length_append]; omega
    rw [ho', hfile, List.drop_left, Int.toNat_natCast]
    obtain ⟨q1, q2, q3⟩ := copyLoop_spec (d.segBytes.length + 1) (d.segBytes.take (4 + d.segLen + k)) d.segBytes.length (by omega)
    have q3 := q3 (by omega)
    rw [htl] at q1 q3
    rw [List.take_take, Nat.min_eq_left (by omega)] at q3
    cases hc : copyLoop (d.segBytes.length + 1) (d.segBytes.take (4 + d.segLen + k)) d.segBytes.length with
    | mk bytes ends =>
      rw [hc] at q1 q3
      simp only at q1 q3
      cases ends with
      | true => exact absurd (q1.1 rfl) (by omega)
      | false => rw [q3]
  simp only [writeParts, partAt, c1, c2]
  rw [if_pos (ho _)]
  simp

/-- C197, what holds: on every file the search for documents ends, and copying a part ends exactly if all its bytes are in the
file; then it copies exactly these. -/
theorem C197_search_ends_partial (data : Bytes) (start size : Nat) : scan data ≠ .fuelOut ∧
    ((copyTo data start size).ends = true ↔ size ≤ data.length - start) ∧
    (size ≤ data.length - start → (copyTo data start size).bytes = (data.drop start).take size) := by
  refine ⟨scan_ends data, ?_⟩
  rw [copyTo, if_neg (by omega)]
  simp only [Int.toNat_natCast]
  obtain ⟨h1, h2, _⟩ := copyLoop_spec (size + 1) (data.drop start) size (by omega)
  rw [List.length_drop] at h1 h2
  exact ⟨h1, h2⟩

/-- Cut in the middle of the second Segment, one byte too few. -/
example : run (fun _ => true) (sample.bytes ++ sample.headBytes ++ sample.segBytes.take 12) =
    ([sample.bytes, sample.headBytes], .endless) := by decide +kernel

/-- C198 as hoped for: the parts hold all bytes of the documents, also when a Segment tells no size. -/
def KeepsContent : Prop :=
  ∀ d e : Piece, d.Ok → e.Ok → (∀ x ∈ [d, e], ∀ b ∈ x.head, b ∉ [0x1A, 0x18, 0xEC, 0xBF]) →
    (run (fun _ => true) (d.openBytes ++ e.bytes)).1 = [d.openBytes, e.bytes]

/-- C198 fails always: a Segment of unknown size that holds an element is cut off behind its own head. All its content is lost
(and a warning given for it), the documents behind are written. -/
theorem C198_content_lost_counterexample (opens : Nat → Bool) (ho : ∀ j, opens j = true) (d e : Piece) (hd : d.Ok) (he : e.Ok)
    (id n len size : Nat) (inside : Bytes) (hid : WellFormedId id n) (l1 : 1 ≤ len) (l8 : len ≤ 8) (hs : size < 2 ^ (7 * len) - 1)
    (hne : id ≠ 0x1A45DFA3) (hseg : d.seg = idField id ++ sizeField len size ++ inside)
    (hp : ∀ x ∈ [d, e], ∀ b ∈ x.head, b ∉ [0x1A, 0x18, 0xEC, 0xBF]) (hpi : ∀ b ∈ inside, b ∉ [0x1A, 0x18, 0xEC, 0xBF]) :
    (run opens (d.openBytes ++ e.bytes)).1 = [d.headBytes ++ idField 0x18538067 ++ unknownField d.segLen, e.bytes] ∧ ¬ KeepsContent := by
  have main : ∀ (opens : Nat → Bool), (∀ j, opens j = true) → ∀ (d e : Piece), d.Ok → e.Ok → ∀ (id n len size : Nat) (inside : Bytes), WellFormedId id n →
      1 ≤ len → len ≤ 8 → size < 2 ^ (7 * len) - 1 → id ≠ 0x1A45DFA3 → d.seg = idField id ++ sizeField len size ++ inside →
      (∀ x ∈ [d, e], ∀ b ∈ x.head, b ∉ [0x1A, 0x18, 0xEC, 0xBF]) → (∀ b ∈ inside, b ∉ [0x1A, 0x18, 0xEC, 0xBF]) →
      (run opens (d.openBytes ++ e.bytes)).1 = [d.headBytes ++ idField 0x18538067 ++ unknownField d.segLen, e.bytes] := by
    clear ho hd he hid l1 l8 hs hne hseg hp hpi
    intro opens ho d e hd he id n len size inside hid l1 l8 hs hne hseg hp hpi
    obtain ⟨file, hfile⟩ : ∃ file, file = d.openBytes ++ e.bytes := ⟨_, rfl⟩
    rw [← hfile]
    have hidl : (idField id).length = n := by
      obtain ⟨b0, tl, g1, g2, _⟩ := idField_head id n hid
      rw [g1, g2]; rfl
    have hhl := headBytes_length d
    have hol : d.openBytes.length = d.headBytes.length + 4 + d.segLen + d.seg.length := by
      simp [Piece.openBytes, idField_segment_length, unknownField_length]; omega
    have hsegl : d.seg.length = n + len + inside.length := by
      rw [hseg]; simp [hidl, sizeField_length]; omega
    have hel : e.bytes.length = e.headBytes.length + e.segBytes.length := by simp [Piece.bytes]
    have hflen : file.length = d.openBytes.length + e.bytes.length := by rw [hfile]; simp
    have h12 := he.long
    have hh1 : Harmless file (([] : Bytes).length + 4 + d.headLen) (([] : Bytes).length + d.headBytes.length) := by
      intro q f h1 h2 hf
      exfalso
      obtain ⟨b, t1, t2⟩ := headAt_first _ q f hf
      refine hp d (by simp) b ?_ t2
      have hd' : file = (idField 0x1A45DFA3 ++ sizeField d.headLen d.head.length) ++ (d.head ++ (idField 0x18538067 ++ unknownField d.segLen ++ d.seg ++ e.bytes)) := by
        rw [hfile]; simp [Piece.headBytes, Piece.openBytes]
      have hl : (idField 0x1A45DFA3 ++ sizeField d.headLen d.head.length).length = 4 + d.headLen := by
        rw [List.length_append, idField_head_length, sizeField_length]
      rw [List.length_nil] at h1 h2
      rw [hd', List.getElem?_append_right (by omega), hl, List.getElem?_append_left (by omega)] at t1
      exact List.mem_of_getElem? t1
    have hh2 : Harmless file (d.headBytes.length + 4 + d.segLen + n + len) d.openBytes.length := by
      intro q f h1 h2 hf
      exfalso
      obtain ⟨b, t1, t2⟩ := headAt_first _ q f hf
      refine hpi b ?_ t2
      have hd' : file = (d.headBytes ++ (idField 0x18538067 ++ unknownField d.segLen ++ idField id ++ sizeField len size)) ++ (inside ++ e.bytes) := by
        rw [hfile]; simp [Piece.openBytes, hseg]
      have hl : (d.headBytes ++ (idField 0x18538067 ++ unknownField d.segLen ++ idField id ++ sizeField len size)).length = d.headBytes.length + 4 + d.segLen + n + len := by
        simp [idField_segment_length, unknownField_length, sizeField_length, hidl]; omega
      rw [hd', List.getElem?_append_right (by omega), hl, List.getElem?_append_left (by omega)] at t1
      exact List.mem_of_getElem? t1
    have hh3 : Harmless file (d.openBytes.length + 4 + e.headLen) (d.openBytes.length + e.headBytes.length) := by
      have := allHarmless_plain file [e] d.openBytes [] (by rw [hfile]; simp) (fun x hx => hp x (by simp at hx; simp [hx]))
      exact this.1
    have hel2 := headBytes_length e
    obtain ⟨g1, f, g2, g3⟩ := outer_open [] d e.bytes hd.h1 hd.h8 hd.head hd.s1 hd.s8 file id n len size hid l1 l8 hs inside hseg hne
      (by rw [hfile]; simp) (by simp; omega) hh1 file.length [] false
    simp only [List.length_nil, Nat.zero_add, List.nil_append] at g1 g3
    have hst : ((at_ rHead 0 d.headLen d.head.length).streamPos).toNat = 4 + d.headLen := by
      simp only [at_]; omega
    obtain ⟨fuel, hfu⟩ : ∃ fuel, file.length = fuel + 1 := ⟨file.length - 1, by omega⟩
    have hscan : scan file = .parts [⟨0, d.headBytes.length, d.headBytes.length, 4 + d.segLen⟩, partAt d.openBytes.length e] true := by
      rw [scan, g1]
      simp only
      rw [hst, g3, hfu, outer_resync file d.openBytes e [] he (by rw [hfile]; simp) f g2 _ (by omega) hh2 hh3]
      obtain ⟨_, k2⟩ := outer_piece d.openBytes e e.seg he file (by rw [hfile]; simp [Piece.bytes, Piece.segBytes]) (by omega) hh3 fuel
        [⟨0, d.headBytes.length, d.headBytes.length, 4 + d.segLen⟩] true
      simp only [Int.natCast_zero, Int.zero_add]
      rw [k2, find_past false file _ (by omega)]
      simp only
      cases fuel <;> simp [outer]
    rw [run, hscan]
    simp only [List.length_cons, List.length_nil]
    rw [if_neg (by omega), if_neg (by omega)]
    have c1 : copyTo file 0 d.headBytes.length = ⟨d.headBytes, true⟩ := by
      have : file = [] ++ d.headBytes ++ (idField 0x18538067 ++ unknownField d.segLen ++ d.seg ++ e.bytes) := by rw [hfile]; simp [Piece.openBytes]
      rw [this]; exact copyTo_all _ _ _ _ _ rfl rfl
    have c2 : copyTo file d.headBytes.length (4 + d.segLen) = ⟨idField 0x18538067 ++ unknownField d.segLen, true⟩ := by
      have : file = d.headBytes ++ (idField 0x18538067 ++ unknownField d.segLen) ++ (d.seg ++ e.bytes) := by rw [hfile]; simp [Piece.openBytes]
      rw [this]; exact copyTo_all _ _ _ _ _ rfl (by simp [idField_segment_length, unknownField_length])
    have hw := writeParts_pieces opens file [e] d.openBytes [] [] 1 (fun k _ _ => ho k) (by rw [hfile]; simp)
    simp only [partsAt, List.append_nil] at hw
    rw [writeParts, if_pos (ho 0)]
    simp only [c1, c2, if_true, hw]
    simp [writeParts]
  refine ⟨main opens ho d e hd he id n len size inside hid l1 l8 hs hne hseg hp hpi, ?_⟩
  intro hk
  have h1 : (∀ x ∈ [sample, sample], ∀ b ∈ x.head, b ∉ [0x1A, 0x18, 0xEC, 0xBF]) := by decide
  have a := hk sample sample sample_ok sample_ok h1
  have b := main (fun _ => true) (fun _ => rfl) sample sample sample_ok sample_ok 0xEC 1 1 6 [1, 2, 3, 4, 5, 6] (by unfold WellFormedId; decide) (by decide) (by decide)
    (by decide) (by decide) (by decide) h1 (by decide)
  rw [a] at b
  revert b
  decide +kernel

/-- A Segment of unknown size at the end of the file: the program crashes and nothing is written, also of the document in
front. -/
theorem C198_last_open_counterexample : run (fun _ => true) (sample.bytes ++ sample.openBytes) = ([], .crash) ∧
    run (fun _ => true) (sample.bytes ++ sample.bytes ++ sample.openBytes) = ([], .crash) := by decide +kernel

end Verif.Mkparts
