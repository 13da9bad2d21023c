import Verif.Mkclean.OutputLemmas
import Verif.Props.Layout
import Verif.Mkv.TimeLemmas
/-!
C169 to C173 and C190: the file mkclean writes.
-/
set_option linter.unusedSimpArgs false
namespace Verif.Mkclean
open Verif.Ebml Verif.EbmlDoc Verif.Mkv

/-- Bytes of the shortest size field the library writes for a size. -/
def sizeNeeded (n : Nat) : Nat :=
  if n < 127 then 1 else if n < 16383 then 2 else if n < 2097151 then 3 else if n < 268435455 then 4 else 5

/-- Length of the size field that is written first: what the size of the source's Segment needs, or 8. -/
def firstLen : Option Nat → Nat
  | some s => sizeNeeded s
  | none => 8

/-- `bytes` are found at `pos` in the file. -/
def At (file : Bytes) (pos : Nat) (bytes : Bytes) : Prop := ∃ a b, file = a ++ bytes ++ b ∧ a.length = pos

/-- What a file consists of: length and value of the Segment's size field, the SeekHead, the Void behind it, the Cues
and the Clusters. -/
structure Pieces where
  len : Nat
  n : Nat
  seek : Bytes
  void : Bytes
  cues : Bytes
  clusters : List Bytes

/-- What follows the SeekHead, in order. -/
def Pieces.tail (p : Pieces) (j : Job) : Bytes :=
  p.void ++ (j.parts.map (·.bytes)).flatten ++ p.cues ++ p.clusters.flatten

/-- Where the data of the Segment starts for a reader of the file. -/
def Pieces.data (p : Pieces) (j : Job) : Nat := j.head.length + 4 + p.len

/-- What may follow the Cues in the place of former ones: nothing, or a Void, or a Void and one stray byte of the former Cues, which is
left where the size of a Void cannot be expressed (C20). -/
def Filler (f : Bytes) : Prop :=
  f = [] ∨ ∃ l k rest, f = encode (.elem 0xEC l (List.replicate k 0)) ++ rest ∧
    (rest = [] ∨ rest.length = 1 ∧ VoidBoundary f.length)

/-- By how many bytes the Segment head outgrew its place. -/
def Pieces.grown (p : Pieces) (j : Job) : Nat := p.len - firstLen j.srcSize

/-- The file: the EBML head, the head of a Segment of `n` bytes, the SeekHead and what follows it, of which the first
bytes are missing if the head outgrew its place. -/
structure IsOutput (j : Job) (file : Bytes) (p : Pieces) : Prop where
  bytes : file = j.head ++ (idField 0x18538067 ++ sizeField p.len p.n) ++ (p.seek ++ (p.tail j).drop (p.grown j))
  len : p.len = max (firstLen j.srcSize) (sizeNeeded p.n)
  size : p.n = (p.seek ++ p.tail j).length
  void : ∃ k, 42 ≤ k ∧ k ≤ 108 ∧ p.void = encode (.elem 0xEC 1 (List.replicate k 0))
  cues : p.cues = [] ↔ j.cues = none
  clusters : p.clusters.length = j.clusters.length
  cluster : ∀ c ∈ p.clusters, ∃ len crc kids, c = encode (.group 0x1F43B675 len true crc kids)

/-- Assumptions on what is to be written: IDs of at most four bytes, size fields of at most 8, blocks as reading or
setting them leaves them. -/
structure Job.Good (env : Ebml.Env) (j : Job) : Prop where
  ids : ∀ p ∈ j.parts, p.id < 2 ^ 32
  cues : ∀ c, j.cues = some c → c.sizeLength ≤ 8
  clusters : ∀ c ∈ j.clusters, c.sizeLength ≤ 8 ∧ ∀ b ∈ c.blocks, Coherent env false b.2

theorem sizeNeeded_eq (n : Nat) : codedSizeLength n 0 true = sizeNeeded n := by
  unfold codedSizeLength sizeNeeded
  simp only [Bool.not_true, Bool.false_eq_true, if_false, ne_eq, not_true_eq_false, false_and]
  (repeat' split) <;> omega

theorem tempLen_eq (s : Option Nat) : tempLen s = firstLen s := by
  cases s with
  | none => rfl
  | some s => exact sizeNeeded_eq s

theorem sizeNeeded_range (n : Nat) : 1 ≤ sizeNeeded n ∧ sizeNeeded n ≤ 5 := by
  unfold sizeNeeded; (repeat' split) <;> omega

theorem firstLen_range (s : Option Nat) : 1 ≤ firstLen s ∧ firstLen s ≤ 8 := by
  cases s with
  | none => simp [firstLen]
  | some s => have := sizeNeeded_range s; simp only [firstLen]; omega

theorem IsOutput.grown_le {j : Job} {file : Bytes} {p : Pieces} (h : IsOutput j file p) :
    p.len = firstLen j.srcSize + p.grown j ∧ p.grown j ≤ 4 := by
  have h1 := h.len
  have h2 := sizeNeeded_range p.n
  have h3 := firstLen_range j.srcSize
  unfold Pieces.grown
  omega

theorem IsOutput.void_len {j : Job} {file : Bytes} {p : Pieces} (h : IsOutput j file p) : 44 ≤ p.void.length := by
  obtain ⟨k, h1, h2, h3⟩ := h.void
  rw [h3, encode_elem]
  have : (idField 0xEC).length = 1 := by decide
  simp only [List.length_append, this, sizeField_length, List.length_replicate]
  omega

/-- Bytes behind the Void are where they were put, whether the head grew or not. -/
theorem IsOutput.at_tail {j : Job} {file : Bytes} {p : Pieces} (h : IsOutput j file p) (a x b : Bytes)
    (hx : p.tail j = p.void ++ (a ++ x ++ b)) :
    At file (j.head.length + 4 + firstLen j.srcSize + p.seek.length + p.void.length + a.length) x := by
  have hg := h.grown_le
  have hv := h.void_len
  have h4 : (idField 0x18538067).length = 4 := by decide
  refine ⟨j.head ++ (idField 0x18538067 ++ sizeField p.len p.n) ++ p.seek ++ p.void.drop (p.grown j) ++ a, b, ?_, ?_⟩
  · rw [h.bytes, hx, List.drop_append, show p.grown j - p.void.length = 0 by omega, List.drop_zero]
    simp only [List.append_assoc]
  · simp only [List.length_append, h4, sizeField_length, List.length_drop]
    omega

/-- What the pieces are in terms of the model. -/
structure Explains (env : Ebml.Env) (j : Job) (p : Pieces) (pl : Plan) (w : Written) : Prop where
  plan : plan env j ((j.head.length + 4 + firstLen j.srcSize : Nat) : Int) = some pl
  written : w = writeAll env j ((j.head.length + 4 + firstLen j.srcSize : Nat) : Int) pl
  cues : CuesNow env j ((j.head.length + 4 + firstLen j.srcSize : Nat) : Int) pl w p.cues
  cuesLen : p.cues.length = w.cues.length
  clusters : p.clusters = w.clusters.map (·.1)
  void : p.void = w.void
  voidLen : p.void.length = extraVoid j.parts
  seekLen : p.seek.length = w.seek.length
  seek : p.seek = rendered env (seekHeadElt j.safe (p.data j)
    (entriesOf w.parts (pl.cues.map fun _ => w.cuesPos) (w.clusters.head?.map (·.2))))
  planned : (j.cues = none ∧ pl.cues = none ∧ pl.clusters = j.clusters.map fun c => (c, none)) ∨
      ∃ c c' placed, j.cues = some c ∧
        PlanCues env j ((j.head.length + 4 + firstLen j.srcSize : Nat) : Int) pl c c' placed
  supposed : pl.supposed ≤ 15 + 27 * (j.parts.length + 2)

theorem cues_ne (env : Ebml.Env) (c : Cues) (hs : c.sizeLength ≤ 8) (x : Bytes) : rendered env c.elt ++ x ≠ [] := by
  obtain ⟨len, h1, _, h⟩ := cues_toDoc env c hs
  rw [h, encode_group]
  intro h
  have := congrArg List.length h
  have h4 : (idField 0x1C53BB6B).length = 4 := by decide
  simp only [List.length_append, h4, List.length_nil] at this
  omega

theorem planned_clusters (env : Ebml.Env) (j : Job) (hg : j.Good env) (seg : Int) (pl : Plan)
    (hp : (j.cues = none ∧ pl.cues = none ∧ pl.clusters = j.clusters.map fun c => (c, none)) ∨
      ∃ c c' placed, j.cues = some c ∧ PlanCues env j seg pl c c' placed) :
    pl.clusters.length = j.clusters.length ∧
    ∀ c ∈ pl.clusters, c.1.sizeLength ≤ 8 ∧ ∀ b ∈ c.1.blocks, Coherent env false b.2 := by
  rcases hp with ⟨_, _, h⟩ | ⟨c, c', placed, _, h⟩
  · rw [h]
    refine ⟨by simp, ?_⟩
    intro x hx
    obtain ⟨y, hy, rfl⟩ := List.mem_map.1 hx
    exact hg.clusters y hy
  · have hs := (settle_done _ _ _ _ _ _ _ _ _ h.settled).1
    rw [h.clusters, hs]
    refine ⟨by simp [place_length], ?_⟩
    intro x hx
    have := List.of_mem_zip hx
    obtain ⟨y, hy, hyx⟩ := List.mem_map.1 this.1
    rw [← hyx]
    have hgy := hg.clusters y hy
    split
    · exact ⟨hgy.1, fun b hb => hgy.2 b (List.mem_filter.1 hb).1⟩
    · exact hgy

theorem explained (env : Ebml.Env) (j : Job) (hg : j.Good env) (file : Bytes) (h : clean env j = .done file) :
    ∃ p pl w, IsOutput j file p ∧ Explains env j p pl w := by
  obtain ⟨pl, w, now, hpl, hw, hnow, hlen, hform⟩ := clean_form env j file h
  rw [tempLen_eq] at *
  obtain ⟨hseek, hfile⟩ := hform _ _ _ rfl rfl rfl
  rw [sizeNeeded_eq] at *
  generalize hsk : rendered env _ = seek at hseek hfile
  have hvoid : w.void = voidBytes env (extraVoid j.parts) := by rw [hw]; rfl
  have hvr := extraVoid_range j.parts
  have hvl := (void_length env (extraVoid j.parts) (by omega)).2.2 (by omega)
  obtain ⟨f1, f2, f3⟩ := plan_facts env j _ pl hpl hg.ids
  have hcs := planned_clusters env j hg _ pl f3
  have hwc : w.clusters = (writeClusters env j.scale invalidTs (w.cuesPos + w.cues.length) pl.clusters).1 := by rw [hw]; rfl
  have hcl : w.clusters.length = j.clusters.length := by rw [hwc, writeClusters_length, hcs.1]
  refine ⟨⟨max (firstLen j.srcSize) (sizeNeeded (w.size j.parts)), w.size j.parts, seek, w.void, now, w.clusters.map (fun x : Bytes × Int => x.1)⟩,
    pl, w, ⟨hfile, rfl, ?_, ?_, ?_, by simpa using hcl, ?_⟩,
    ⟨hpl, hw, hnow, hlen, rfl, rfl, by rw [hvoid, hvl], hseek, hsk.symm, f3, f2⟩⟩
  · simp only [Pieces.tail, List.length_append, hlen]
    rw [← rest_length w j.parts, hseek]
    simp only [Written.rest, List.length_append]
  · exact ⟨extraVoid j.parts - 2, by omega, by omega, by simp only; rw [hvoid]; exact void_bytes env _ (by omega) (by omega)⟩
  · simp only
    cases hnow with
    | none h1 h2 =>
      rcases f3 with ⟨a, _, _⟩ | ⟨c, c', placed, _, b⟩
      · simp [h2, a]
      · rw [b.cues] at h1; simp at h1
    | kept c h1 h2 h3 =>
      rcases f3 with ⟨_, a, _⟩ | ⟨c0, c', placed, b0, b⟩
      · rw [a] at h1; simp at h1
      · have hs := settle_done _ _ _ _ _ _ _ _ _ b.settled
        have : c = c' := by rw [b.cues] at h1; simpa using h1.symm
        have := cues_ne env c (by rw [this, hs.2.2.2.2.2]; exact hg.cues c0 b0) []
        rw [List.append_nil] at this
        simp [h3, this, b0]
    | again c ps h1 h2 hu f hfill h3 =>
      rcases f3 with ⟨_, a, _⟩ | ⟨c0, c', placed, b0, b⟩
      · rw [a] at h1; simp at h1
      · have hs := settle_done _ _ _ _ _ _ _ _ _ b.settled
        have hcc : c = c' := by rw [b.cues] at h1; simpa using h1.symm
        have := cues_ne env { c with points := ps } (by simp only; rw [hcc, hs.2.2.2.2.2]; exact hg.cues c0 b0) f
        simp [h3, this, b0]
  · intro c hc
    simp only at hc
    obtain ⟨x, hx, rfl⟩ := List.mem_map.1 hc
    obtain ⟨k, hk⟩ := List.mem_iff_getElem?.1 hx
    have hklt : k < pl.clusters.length := by
      have := (List.getElem?_eq_some_iff.1 hk).1
      rw [hcl] at this; rw [hcs.1]; exact this
    obtain ⟨t, q, h1, _⟩ := writeClusters_bytes env j.scale pl.clusters invalidTs (w.cuesPos + w.cues.length) k _
      (List.getElem?_eq_getElem hklt)
    rw [← hwc, hk] at h1
    simp only [Option.some.injEq] at h1
    have hgood := hcs.2 _ (List.getElem_mem hklt)
    rw [h1]
    simp only
    rw [(rendered_eq env _ (cluster_coherent env j.scale _ _ (by exact hgood.1)
      (by intro b hb; exact hgood.2 b (List.mem_filter.1 hb).1)) rfl).1, cluster_toDoc]
    exact ⟨_, _, _, rfl⟩

/-- **C169** (partial). Every file mkclean finishes is the EBML head, the head of the Segment, the SeekHead, a Void of
44 to 110 bytes, the sections, the Cues and the Clusters in this order; the Segment's size is that of all of them. If
the size field is as long as the one written first they are all there; if it had to grow by `g` bytes, the first `g`
bytes of the Void are overwritten, and the Segment announces `g` bytes more than follow. -/
theorem C169_segment_partial (env : Ebml.Env) (j : Job) (hg : j.Good env) (file : Bytes) (h : clean env j = .done file) :
    ∃ p body, IsOutput j file p ∧
      file = j.head ++ (idField 0x18538067 ++ sizeField p.len p.n) ++ body ∧
      p.n = body.length + p.grown j ∧
      (p.grown j = 0 ↔ sizeNeeded p.n ≤ firstLen j.srcSize) ∧
      (p.grown j = 0 → body = p.seek ++ p.tail j) := by
  obtain ⟨p, pl, w, ho, _⟩ := explained env j hg file h
  refine ⟨p, p.seek ++ (p.tail j).drop (p.grown j), ho, ho.bytes, ?_, ?_, ?_⟩
  · have h1 := ho.size
    have h2 := ho.grown_le
    have h3 := ho.void_len
    simp only [List.length_append, List.length_drop, Pieces.tail] at h1 ⊢
    omega
  · have := ho.len
    unfold Pieces.grown
    omega
  · intro h0; rw [h0, List.drop_zero]

theorem IsOutput.grown_zero {j : Job} {file : Bytes} {p : Pieces} (ho : IsOutput j file p)
    (hs : ∀ s, j.srcSize = some s → file.length ≤ s) : p.grown j = 0 := by
  have hl := congrArg List.length ho.bytes
  have hn := ho.size
  have h2 := ho.grown_le
  have h3 := ho.void_len
  have h4 : (idField 0x18538067).length = 4 := by decide
  have hlen := ho.len
  simp only [List.length_append, h4, sizeField_length, List.length_drop, Pieces.tail] at hl hn
  cases hsrc : j.srcSize with
  | none => rw [hsrc] at hlen h2; have := sizeNeeded_range p.n; simp only [firstLen] at *; omega
  | some s =>
    have h1 := hs s hsrc
    rw [hsrc] at hlen h2
    have : p.n ≤ s := by omega
    have : sizeNeeded p.n ≤ sizeNeeded s := by unfold sizeNeeded; (repeat' split) <;> omega
    simp only [firstLen] at *
    omega

/-- The Segment is exact if the size of the source's Segment is unknown or at least that of the new file. -/
theorem C169_segment_exact (env : Ebml.Env) (j : Job) (hg : j.Good env) (file : Bytes) (h : clean env j = .done file)
    (hs : ∀ s, j.srcSize = some s → file.length ≤ s) :
    ∃ p, IsOutput j file p ∧
      file = j.head ++ (idField 0x18538067 ++ sizeField p.len (p.seek ++ p.tail j).length) ++ (p.seek ++ p.tail j) := by
  obtain ⟨p, body, ho, hf, hn, hi, hb⟩ := C169_segment_partial env j hg file h
  have h0 := ho.grown_zero hs
  refine ⟨p, ho, ?_⟩
  rw [← hb h0]
  have : p.n = body.length := by omega
  rw [← this]; exact hf

/-- An entry of a SeekHead for an element of the given ID, `off` bytes behind the start of the Segment's data. -/
def SeekEntry (safe : Bool) (id off : Nat) (d : Doc) : Prop :=
  ∃ v : Bytes, d = .group 0x4DBB 1 true safe [.elem 0x53AB 1 (idField id), .elem 0x53AC 1 v] ∧
    v.length ≤ 8 ∧ beNat v = off

/-- The elements a SeekHead lists: the sections, the Cues, the first Cluster. -/
def Pieces.listed (p : Pieces) (j : Job) : List (Nat × Bytes) :=
  j.parts.map (fun x => (x.id, x.bytes)) ++ (if j.cues = none then [] else [(0x1C53BB6B, p.cues)]) ++
    (p.clusters.head?.map fun c => (0x1F43B675, c)).toList

theorem ofInt_small (x : Int) (h0 : 0 ≤ x) (h : x < 2 ^ 63) : ((BitVec.ofInt 64 x).toNat : Int) = x := by
  rw [BitVec.toNat_ofInt]
  have : ((2 ^ 64 : Nat) : Int) = 2 ^ 64 := by decide
  rw [this, Int.toNat_of_nonneg (by omega), Int.emod_eq_of_lt h0 (by omega)]

/-- **C170**. In every file mkclean finishes the SeekHead has exactly one entry for each section, for the
Cues and for the first Cluster, and a reader who follows it finds that element, also when the Segment head outgrew its
place. -/
theorem C170_seek_head (env : Ebml.Env) (j : Job) (hg : j.Good env) (file : Bytes) (h : clean env j = .done file)
    (hsmall : file.length < 2 ^ 63) :
    ∃ p len ds, IsOutput j file p ∧ p.seek = encode (.group 0x114D9B74 len true j.safe ds) ∧
      At file (p.data j) p.seek ∧
      List.Forall₂ (fun t d => ∃ off, SeekEntry j.safe t.1 off d ∧ At file (p.data j + off) t.2) (p.listed j) ds := by
  obtain ⟨p, pl, w, ho, hx⟩ := explained env j hg file h
  have hgr := ho.grown_le
  have hvl := ho.void_len
  have h4 : (idField 0x18538067).length = 4 := by decide
  have hwparts : (w.parts, w.cuesPos) = partsFrom (((j.head.length + 4 + firstLen j.srcSize : Nat) : Int) + w.seek.length +
      w.void.length) j.parts := by rw [hx.written]; rfl
  have hwp1 : w.parts = (partsFrom (((j.head.length + 4 + firstLen j.srcSize : Nat) : Int) + w.seek.length +
      w.void.length) j.parts).1 := by rw [← hwparts]
  have hwp2 : w.cuesPos = (partsFrom (((j.head.length + 4 + firstLen j.srcSize : Nat) : Int) + w.seek.length +
      w.void.length) j.parts).2 := by rw [← hwparts]
  have hwc : w.clusters = (writeClusters env j.scale invalidTs (w.cuesPos + w.cues.length) pl.clusters).1 := by
    rw [hx.written]; rfl
  rw [partsFrom_end] at hwp2
  have hid := entries_ids w.parts j.parts hg.ids (by rw [hwp1]; exact partsFrom_ids _ _)
    (pl.cues.map fun _ => w.cuesPos) (w.clusters.head?.map (·.2))
  obtain ⟨len, _, _, hseek⟩ := seekHead_bytes env j.safe (p.data j) _ hid
  rw [← hx.seek] at hseek
  refine ⟨p, len, _, ho, hseek, ?_, ?_⟩
  · refine ⟨j.head ++ (idField 0x18538067 ++ sizeField p.len p.n), (p.tail j).drop (p.grown j), ?_, ?_⟩
    · rw [ho.bytes]; simp only [List.append_assoc]
    · simp only [List.length_append, h4, sizeField_length, Pieces.data]; omega
  · -- an entry for the position of an element
    have key : ∀ (id : Nat) (x : Bytes) (a b : Bytes) (pos : Int), p.tail j = p.void ++ (a ++ x ++ b) →
        pos = ((j.head.length + 4 + firstLen j.srcSize : Nat) : Int) + w.seek.length + w.void.length + a.length →
        ∃ off, SeekEntry j.safe id off (entryDoc j.safe (p.data j) (id, pos)) ∧ At file (p.data j + off) x := by
      intro id x a b pos ht hpos
      have hat := ho.at_tail a x b ht
      rw [← hx.seekLen, ← hx.void] at hpos
      have hposn : pos = ((j.head.length + 4 + firstLen j.srcSize + p.seek.length + p.void.length + a.length : Nat) : Int) := by
        rw [hpos]; omega
      generalize j.head.length + 4 + firstLen j.srcSize + p.seek.length + p.void.length + a.length = q at hat hposn
      have hq : q ≤ file.length := by
        obtain ⟨u, v, e1, e2⟩ := hat
        rw [e1]; simp only [List.length_append]; omega
      have hge : p.data j ≤ q := by unfold Pieces.data; omega
      have hu := ofInt_small (pos - (p.data j : Nat)) (by omega) (by omega)
      refine ⟨q - p.data j, ⟨_, rfl, ?_, ?_⟩, ?_⟩
      · rw [beBytes_length]; exact (natural_uint _).2
      · rw [uint_bytes]
        simp only at hu ⊢
        omega
      · rw [show p.data j + (q - p.data j) = q by omega]; exact hat
    rw [List.forall₂_map_right_iff]
    unfold Pieces.listed entriesOf
    apply List.rel_append
    · apply List.rel_append
      · apply forall₂_of_getElem?
        · simp [hwp1, partsFrom_length]
        · intro i t e ht he
          rw [List.getElem?_map] at ht
          cases hi : j.parts[i]? with
          | none => rw [hi] at ht; simp at ht
          | some pt =>
            rw [hi] at ht
            simp only [Option.map_some, Option.some.injEq] at ht
            have hpa := partsFrom_at j.parts (((j.head.length + 4 + firstLen j.srcSize : Nat) : Int) + w.seek.length +
              w.void.length) i pt hi
            rw [← hwp1, he] at hpa
            simp only [Option.some.injEq] at hpa
            rw [← ht, hpa]
            apply key pt.id pt.bytes ((j.parts.take i).map (·.bytes)).flatten
              (((j.parts.drop (i + 1)).map (·.bytes)).flatten ++ p.cues ++ p.clusters.flatten)
            · unfold Pieces.tail
              have hsplit : j.parts = j.parts.take i ++ pt :: j.parts.drop (i + 1) := by
                obtain ⟨hlt, hget⟩ := List.getElem?_eq_some_iff.1 hi
                rw [← hget, List.getElem_cons_drop, List.take_append_drop]
              conv => lhs; rw [hsplit]
              simp only [List.map_append, List.map_cons, List.flatten_append, List.flatten_cons, List.append_assoc]
            · rfl
      · rcases hx.planned with ⟨hc, hpc, _⟩ | ⟨c, c', placed, hc, hpc⟩
        · rw [hpc]; simp [hc]
        · rw [hpc.cues]
          simp only [hc, reduceCtorEq, if_false, Option.map_some, Option.toList_some]
          refine .cons ?_ .nil
          apply key 0x1C53BB6B p.cues (j.parts.map (·.bytes)).flatten p.clusters.flatten
          · unfold Pieces.tail; simp only [List.append_assoc]
          · exact hwp2
    · rw [hx.clusters]
      cases hcl : w.clusters with
      | nil => simp
      | cons c cs =>
        simp only [List.map_cons, List.head?_cons, Option.map_some, Option.toList_some]
        refine .cons ?_ .nil
        have hpos := writeClusters_at env j.scale pl.clusters invalidTs (w.cuesPos + w.cues.length) 0 c (by
          rw [← hwc, hcl]; rfl)
        simp only [List.take_zero, List.map_nil, List.flatten_nil, List.length_nil] at hpos
        apply key 0x1F43B675 c.1 ((j.parts.map (·.bytes)).flatten ++ p.cues) ((cs.map (·.1)).flatten)
        · unfold Pieces.tail
          rw [hx.clusters, hcl]
          simp only [List.map_cons, List.flatten_cons, List.append_assoc]
        · rw [hpos, hwp2, List.length_append, hx.cuesLen]; omega

/-- A CuePoint of a track whose position is `off`. -/
def CuePointAt (track off : Nat) (d : Doc) : Prop :=
  ∃ crc t k v, d = .group 0xBB 1 true crc [.elem 0xB3 1 t, .group 0xB7 1 true false [.elem 0xF7 1 k, .elem 0xF1 1 v]] ∧
    beNat k = track ∧ beNat v = off

/-- Where the Clusters are. -/
theorem Explains.cluster_at {env : Ebml.Env} {j : Job} {file : Bytes} {p : Pieces} {pl : Plan} {w : Written}
    (ho : IsOutput j file p) (hx : Explains env j p pl w) (k : Nat) (x : Bytes × Int) (h : w.clusters[k]? = some x) :
    p.clusters[k]? = some x.1 ∧ 0 ≤ x.2 ∧ At file x.2.toNat x.1 ∧
    x.2 = ((j.head.length + 4 + firstLen j.srcSize : Nat) : Int) + p.seek.length + p.void.length +
      ((j.parts.map (·.bytes)).flatten.length : Nat) + w.cues.length +
      (((w.clusters.take k).map (·.1)).flatten.length : Nat) := by
  have hwp2 : w.cuesPos = ((j.head.length + 4 + firstLen j.srcSize : Nat) : Int) + w.seek.length + w.void.length +
      ((j.parts.map (·.bytes)).flatten.length : Nat) := by
    rw [← partsFrom_end, hx.written]; rfl
  have hwc : w.clusters = (writeClusters env j.scale invalidTs (w.cuesPos + w.cues.length) pl.clusters).1 := by
    rw [hx.written]; rfl
  have hpos := writeClusters_at env j.scale pl.clusters invalidTs (w.cuesPos + w.cues.length) k x (by rw [← hwc]; exact h)
  rw [← hwc, hwp2, ← hx.seekLen, ← hx.void] at hpos
  refine ⟨by rw [hx.clusters, List.getElem?_map, h]; rfl, by omega, ?_, hpos⟩
  have hsplit : w.clusters = w.clusters.take k ++ x :: w.clusters.drop (k + 1) := by
    obtain ⟨hlt, hget⟩ := List.getElem?_eq_some_iff.1 h
    rw [← hget, List.getElem_cons_drop, List.take_append_drop]
  have hat := ho.at_tail ((j.parts.map (·.bytes)).flatten ++ p.cues ++ ((w.clusters.take k).map (·.1)).flatten) x.1
    (((w.clusters.drop (k + 1)).map (·.1)).flatten) (by
      unfold Pieces.tail
      rw [hx.clusters]
      conv => lhs; rw [hsplit]
      simp only [List.map_append, List.map_cons, List.flatten_append, List.flatten_cons, List.append_assoc])
  rw [List.length_append, List.length_append, hx.cuesLen] at hat
  rw [hpos]
  convert hat using 1
  omega

/-- Sizes of the Clusters when nothing changed while they were written. -/
theorem Explains.cluster_sizes {env : Ebml.Env} {j : Job} (hg : j.Good env) {p : Pieces} {pl : Plan} {w : Written}
    (hx : Explains env j p pl w) (c c' : Cues) (placed : List Clu)
    (hpc : PlanCues env j ((j.head.length + 4 + firstLen j.srcSize : Nat) : Int) pl c c' placed)
    (hch : w.changed = false) (k : Nat) (cl : Clu) (h : placed[k]? = some cl) :
    ∃ (oc : OutCluster) (x : Bytes × Int), w.clusters[k]? = some x ∧ x.1 = rendered env (oc.elt j.scale cl.prevSize) ∧ (x.1.length : Int) = cl.fullSize ∧
      oc.sizeLength ≤ 8 ∧ ∀ b ∈ oc.blocks, Coherent env false b.2 := by
  have hwc : w.clusters = (writeClusters env j.scale invalidTs (w.cuesPos + w.cues.length) pl.clusters).1 := by
    rw [hx.written]; rfl
  have hwch : w.changed = (writeClusters env j.scale invalidTs (w.cuesPos + w.cues.length) pl.clusters).2 := by
    rw [hx.written]; rfl
  have hcs := planned_clusters env j hg _ pl hx.planned
  have hpl := (settle_done _ _ _ _ _ _ _ _ _ hpc.settled).1
  generalize hCS : (j.clusters.map fun c => if j.needRead then c.read.1 else c) = CS at hpc hpl
  have hlen : placed.length = CS.length := by rw [hpl, place_length, List.length_map]
  have hk : k < placed.length := (List.getElem?_eq_some_iff.1 h).1
  obtain ⟨oc, hoc⟩ : ∃ oc, CS[k]? = some oc := ⟨_, List.getElem?_eq_getElem (by omega)⟩
  have hplc : pl.clusters[k]? = some (oc, cl.prevSize) := by
    rw [hpc.clusters, hCS, List.getElem?_zip_eq_some]
    exact ⟨hoc, by rw [List.getElem?_map, h]; rfl⟩
  obtain ⟨t, q, h1, h2⟩ := writeClusters_bytes env j.scale pl.clusters invalidTs (w.cuesPos + w.cues.length) k _ hplc
  obtain ⟨h2a, h2b⟩ := h2 (by rw [← hwch]; exact hch)
  have hsame : ({ oc.read.1 with time := t } : OutCluster) = oc := by
    simp only at h2a h2b
    rw [h2b, h2a]
  simp only [hsame] at h1
  have hgood := hcs.2 _ (List.mem_of_getElem? hplc)
  have hkeep := place_keeps j.safe (CS.map (·.clu env j.scale))
    (((j.head.length + 4 + firstLen j.srcSize : Nat) : Int) + extraVoid j.parts + ((j.parts.map (·.bytes)).flatten.length : Nat) + pl.supposed + c'.fullSize) none
  rw [← hpl] at hkeep
  have hk2 := congrArg (·[k]?) hkeep
  simp only [List.getElem?_map, h, hoc, Option.map_some, Option.some.injEq, Prod.mk.injEq] at hk2
  have hclu : ({ oc.clu env j.scale with prevSize := cl.prevSize, pos := cl.pos } : Clu) = cl := by
    show Clu.mk _ _ _ _ = cl
    rw [← hk2.1, ← hk2.2]
  refine ⟨oc, _, by rw [hwc]; exact h1, rfl, ?_, hgood⟩
  simp only
  rw [cluster_length env j.scale cl.prevSize cl.pos oc hgood.1 hgood.2, hclu]

/-- By how many bytes a CuePoint of the file misses its Cluster: the growth of the Segment head, and, if the Cues were
not written again, what the SeekHead was supposed to take more than it takes. -/
def miss (j : Job) (p : Pieces) (pl : Plan) (changed : Bool) : Int :=
  p.grown j + if changed then 0 else (pl.supposed : Int) - p.seek.length

theorem filler_of (env : Ebml.Env) (f : Bytes)
    (h : f = [] ∨ ∃ n rest, 2 ≤ n ∧ n = f.length ∧ f = voidBytes env n ++ rest) : Filler f := by
  rcases h with h | ⟨n, rest, h2, hn, hf⟩
  · exact Or.inl h
  · obtain ⟨l, k, h3, h4⟩ := void_doc env n h2
    have hlen := congrArg List.length hf
    rw [List.length_append] at hlen
    refine Or.inr ⟨l, k, rest, by rw [← h3]; exact hf, ?_⟩
    rcases h4 with h4 | ⟨h4, hb⟩
    · exact Or.inl (List.length_eq_zero_iff.1 (by omega))
    · exact Or.inr ⟨by omega, hn ▸ hb⟩

/-- What the Cues say, for the pieces of the file. -/
theorem Explains.cues_miss {env : Ebml.Env} {j : Job} (hg : j.Good env) {file : Bytes} {p : Pieces} {pl : Plan} {w : Written}
    (ho : IsOutput j file p) (hx : Explains env j p pl w)
    (c : Cues) (hc : j.cues = some c) (hsmall : file.length + 27 * j.parts.length + 100 < 2 ^ 63) :
    ∃ len ds, (∃ f, p.cues = encode (.group 0x1C53BB6B len true (c.crc != 0) ds) ++ f ∧ Filler f) ∧
      List.Forall₂ (fun q d => ∃ k cl off pos, q.cluster = some k ∧ p.clusters[k]? = some cl ∧ At file pos cl ∧
        CuePointAt q.track.toNat off d ∧ ((p.data j + off : Nat) : Int) = pos + miss j p pl w.changed) c.points ds := by
  have hgr := ho.grown_le
  rcases hx.planned with ⟨h1, _, _⟩ | ⟨c0, c', placed, h1, hpc⟩
  · rw [h1] at hc; simp at hc
  rw [hc] at h1
  simp only [Option.some.injEq] at h1
  subst h1
  obtain ⟨s1, s2, s3, s4, s5, s6⟩ := settle_done _ _ _ _ _ _ _ _ _ hpc.settled
  have hsl : c'.sizeLength ≤ 8 := by rw [s6]; exact hg.cues c hc
  have hsup := hx.supposed
  -- the positions of placed Clusters and what a point says
  have final : ∀ (pts : List Cue) (f : Cue → Cue), (∀ q, (f q).cluster = q.cluster ∧ (f q).track = q.track) →
      pts.map Cue.key = (c'.points.map f).map Cue.key →
      (∀ q ∈ pts, ∃ k x, q.cluster = some k ∧ w.clusters[k]? = some x ∧
        q.pos = BitVec.ofInt 64 (x.2 + (miss j p pl w.changed - p.grown j) - ((j.head.length + 4 + firstLen j.srcSize : Nat) : Int))) →
      List.Forall₂ (fun q d => ∃ k cl off pos, q.cluster = some k ∧ p.clusters[k]? = some cl ∧ At file pos cl ∧
        CuePointAt q.track.toNat off d ∧ ((p.data j + off : Nat) : Int) = pos + miss j p pl w.changed) c.points (pts.map pointDoc) := by
    intro pts f hf hkey hpts
    rw [List.forall₂_map_right_iff]
    have hl1 : pts.length = c'.points.length := by have := congrArg List.length hkey; simpa using this
    have hl2 : c'.points.length = c.points.length := by have := congrArg List.length s2; simpa using this
    apply forall₂_of_getElem?
    · omega
    · intro i q r hq hr
      obtain ⟨q', hq'⟩ : ∃ q', c'.points[i]? = some q' :=
        ⟨_, List.getElem?_eq_getElem (by have := (List.getElem?_eq_some_iff.1 hq).1; omega)⟩
      have k1 := congrArg (·[i]?) hkey
      have k2 := congrArg (·[i]?) s2
      simp only [List.getElem?_map, hq, hq', hr, Option.map_some, Option.some.injEq, Cue.key, Prod.mk.injEq] at k1 k2
      obtain ⟨k, x, e1, e2, e3⟩ := hpts r (List.mem_of_getElem? hr)
      obtain ⟨d1, d2, d3, d4⟩ := hx.cluster_at ho k x e2
      have hxle : x.2 ≤ file.length := by
        obtain ⟨u, v, f1, f2⟩ := d3
        rw [f1]; simp only [List.length_append]; omega
      have hmb : miss j p pl w.changed - p.grown j ≤ pl.supposed ∧
          -(p.seek.length : Int) ≤ miss j p pl w.changed - p.grown j := by
        unfold miss
        split <;> omega
      have hu := ofInt_small (x.2 + (miss j p pl w.changed - p.grown j) - ((j.head.length + 4 + firstLen j.srcSize : Nat) : Int))
        (by omega) (by simp only [Nat.reducePow, Int.reducePow] at hsmall ⊢; omega)
      rw [← e3] at hu
      refine ⟨k, x.1, r.pos.toNat, x.2.toNat, ?_, d1, d3, ⟨_, _, _, _, rfl, ?_, ?_⟩, ?_⟩
      · rw [← k2.2.2.2, ← (hf q').1, ← k1.2.2.2, e1]
      · rw [uint_bytes, k1.2.1, (hf q').2, k2.2.1]
      · rw [uint_bytes]
      · unfold Pieces.data
        omega
  cases hx.cues with
  | none h1 h2 => rw [hpc.cues] at h1; simp at h1
  | kept c1 h1 hch hn =>
    have : c1 = c' := by rw [hpc.cues] at h1; simpa using h1.symm
    subst this
    obtain ⟨len, _, _, hdoc⟩ := cues_toDoc env c1 hsl
    rw [s5] at hdoc
    refine ⟨len, c1.points.map pointDoc, ⟨[], by rw [hn, hdoc, List.append_nil], Or.inl rfl⟩, ?_⟩
    refine final c1.points id (fun q => ⟨rfl, rfl⟩) (by simp) ?_
    intro q hq
    obtain ⟨k, cl, e1, e2, e3⟩ := s3 q hq
    obtain ⟨oc, x, x1, x2, x3, _⟩ := hx.cluster_sizes hg c c1 placed hpc hch k cl e2
    refine ⟨k, x, e1, x1, ?_⟩
    rw [e3]
    congr 1
    have hpos := (hx.cluster_at ho k x x1).2.2.2
    have hpp := place_pos j.safe _ _ none k cl (by rw [← s1]; exact e2)
    rw [← s1] at hpp
    have hsum : ((placed.map Clu.fullSize).take k).sum = ((((w.clusters.take k).map (·.1)).flatten.length : Nat) : Int) := by
      have hlen : w.clusters.length = placed.length := by
        have hcs := planned_clusters env j hg _ pl hx.planned
        have hwc : w.clusters = (writeClusters env j.scale invalidTs (w.cuesPos + w.cues.length) pl.clusters).1 := by
          rw [hx.written]; rfl
        rw [hwc, writeClusters_length, hcs.1, s1, place_length]; simp
      have hmap : placed.map Clu.fullSize = w.clusters.map (fun x => (x.1.length : Int)) := by
        apply List.ext_getElem?
        intro i
        rw [List.getElem?_map, List.getElem?_map]
        cases hi : placed[i]? with
        | none =>
          have : w.clusters[i]? = none := by
            rw [List.getElem?_eq_none_iff] at hi ⊢; omega
          rw [this]; rfl
        | some cl' =>
          obtain ⟨_, y, y1, _, y3, _⟩ := hx.cluster_sizes hg c c1 placed hpc hch i cl' hi
          rw [y1]
          simp only [Option.map_some, y3]
      rw [hmap, ← List.map_take]
      generalize w.clusters.take k = L
      induction L with
      | nil => simp
      | cons a L ih =>
        simp only [List.map_cons, List.sum_cons, List.flatten_cons, List.length_append, ih]
        omega
    have hfull : c1.fullSize = w.cues.length := by
      rw [← hx.cuesLen, hn, cues_bytes env c1 hsl s4, (rendered_eq env _ (cues_coherent env c1 hsl) rfl).1]
    rw [hpp, hpos, hsum, hfull]
    unfold miss
    rw [hch, hx.voidLen]
    simp only [Bool.false_eq_true, if_false]
    omega
  | again c1 ps h1 hch hu f hfill hn =>
    have : c1 = c' := by rw [hpc.cues] at h1; simpa using h1.symm
    subst this
    obtain ⟨len, _, _, hdoc⟩ := cues_toDoc env { c1 with points := ps } hsl
    simp only [s5] at hdoc
    obtain ⟨u1, u2⟩ := updateCues_names _ _ _ _ hu
    refine ⟨len, ps.map pointDoc, ⟨f, by rw [hn]; simp only [s5]; rw [hdoc], filler_of env f hfill⟩, ?_⟩
    refine final ps (fun q => { q with time := j.retime q }) (fun q => ⟨rfl, rfl⟩) u1 ?_
    intro q hq
    obtain ⟨k, cl, e1, e2, e3⟩ := u2 q hq
    rw [List.getElem?_map] at e2
    cases hk : w.clusters[k]? with
    | none => rw [hk] at e2; simp at e2
    | some x =>
      rw [hk] at e2
      simp only [Option.map_some, Option.some.injEq] at e2
      refine ⟨k, x, e1, hk, ?_⟩
      rw [e3, ← e2]
      congr 1
      unfold miss
      rw [hch]
      simp only [if_true]
      omega

/-- **C171** (partial). In every file mkclean finishes with Cues, the Cues have one CuePoint for each one planned, of
the same track, and all of them name a place by the same number of bytes, `miss`, behind the start of the Cluster of
their Block. -/
theorem C171_cues_partial (env : Ebml.Env) (j : Job) (hg : j.Good env) (file : Bytes) (h : clean env j = .done file)
    (c : Cues) (hc : j.cues = some c) (hsmall : file.length + 27 * j.parts.length + 100 < 2 ^ 63) :
    ∃ p pl len ds, IsOutput j file p ∧ plan env j ((j.head.length + 4 + firstLen j.srcSize : Nat) : Int) = some pl ∧
      p.seek.length = (writeAll env j ((j.head.length + 4 + firstLen j.srcSize : Nat) : Int) pl).seek.length ∧
      (∃ f, p.cues = encode (.group 0x1C53BB6B len true (c.crc != 0) ds) ++ f ∧ Filler f) ∧
      List.Forall₂ (fun q d => ∃ k cl off pos, q.cluster = some k ∧ p.clusters[k]? = some cl ∧ At file pos cl ∧
        CuePointAt q.track.toNat off d ∧ ((p.data j + off : Nat) : Int) = pos + miss j p pl
          (writeAll env j ((j.head.length + 4 + firstLen j.srcSize : Nat) : Int) pl).changed) c.points ds := by
  obtain ⟨p, pl, w, ho, hx⟩ := explained env j hg file h
  obtain ⟨len, ds, h1, h2⟩ := hx.cues_miss hg ho c hc hsmall
  exact ⟨p, pl, len, ds, ho, hx.plan, hx.written ▸ hx.seekLen, h1, hx.written ▸ h2⟩

/-- With the size of the source's Segment unknown or at least that of the new file, and Cues that were written again or
a SeekHead of the size it was supposed to have, a reader who follows a CuePoint finds the Cluster of its Block. -/
theorem C171_cues_right (env : Ebml.Env) (j : Job) (hg : j.Good env) (file : Bytes) (h : clean env j = .done file)
    (c : Cues) (hc : j.cues = some c) (hsmall : file.length + 27 * j.parts.length + 100 < 2 ^ 63)
    (hs : ∀ s, j.srcSize = some s → file.length ≤ s)
    (hm : ∀ pl w, plan env j ((j.head.length + 4 + firstLen j.srcSize : Nat) : Int) = some pl →
      w = writeAll env j ((j.head.length + 4 + firstLen j.srcSize : Nat) : Int) pl →
      w.changed = true ∨ pl.supposed = w.seek.length) :
    ∃ p len ds, IsOutput j file p ∧ (∃ f, p.cues = encode (.group 0x1C53BB6B len true (c.crc != 0) ds) ++ f ∧ Filler f) ∧
      List.Forall₂ (fun q d => ∃ k cl off, q.cluster = some k ∧ p.clusters[k]? = some cl ∧
        CuePointAt q.track.toNat off d ∧ At file (p.data j + off) cl) c.points ds := by
  obtain ⟨p, pl, len, ds, ho, hpl, hsl, hpre, hall⟩ := C171_cues_partial env j hg file h c hc hsmall
  refine ⟨p, len, ds, ho, hpre, hall.imp ?_⟩
  rintro q d ⟨k, cl, off, pos, h1, h2, h3, h4, h5⟩
  refine ⟨k, cl, off, h1, h2, h4, ?_⟩
  have hz := ho.grown_zero hs
  have hmiss : miss j p pl (writeAll env j ((j.head.length + 4 + firstLen j.srcSize : Nat) : Int) pl).changed = 0 := by
    unfold miss
    rw [hz]
    rcases hm pl _ hpl rfl with hch | hsup
    · rw [hch]; rfl
    · rw [hsup, hsl]; split <;> omega
  rw [hmiss] at h5
  rw [show p.data j + off = pos by omega]
  exact h3

/-- Nothing changes while the Clusters are written if every block can be read, now or while the Clusters are placed, and
each Cluster is later than the one before. -/
theorem unchanged_written (env : Ebml.Env) (j : Job) (seg : Int) (pl : Plan) (w : Written) (hw : w = writeAll env j seg pl)
    (hp : (j.cues = none ∧ pl.cues = none ∧ pl.clusters = j.clusters.map fun c => (c, none)) ∨
      ∃ c c' placed, j.cues = some c ∧ PlanCues env j seg pl c c' placed) (c : Cues) (hc : j.cues = some c)
    (hread : j.needRead = true ∨ ∀ c ∈ j.clusters, ∀ b ∈ c.blocks, b.1 = true)
    (htime : (j.clusters.map (·.time)).Pairwise (· < ·)) : w.changed = false := by
  have hwch : w.changed = (writeClusters env j.scale invalidTs (w.cuesPos + w.cues.length) pl.clusters).2 := by
    rw [hw]; rfl
  rw [hwch]
  rcases hp with ⟨h1, _, _⟩ | ⟨c0, c', placed, h1, hpc⟩
  · rw [h1] at hc; simp at hc
  have s1 := (settle_done _ _ _ _ _ _ _ _ _ hpc.settled).1
  have hlen : (j.clusters.map fun c => if j.needRead then c.read.1 else c).length ≤ (placed.map (·.prevSize)).length := by
    rw [s1]; simp [place_length]
  have hfst : pl.clusters.map (·.1) = j.clusters.map fun c => if j.needRead then c.read.1 else c := by
    rw [hpc.clusters]
    exact List.map_fst_zip hlen
  apply writeClusters_same
  · intro x hx' b hb
    have hmem : x.1 ∈ pl.clusters.map (·.1) := List.mem_map_of_mem hx'
    rw [hfst] at hmem
    obtain ⟨y, hy, hyx⟩ := List.mem_map.1 hmem
    cases hn : j.needRead with
    | true =>
      rw [hn, if_pos rfl] at hyx
      rw [← hyx] at hb
      exact (List.mem_filter.1 hb).2
    | false =>
      rw [hn] at hyx hread
      simp only [Bool.false_eq_true, if_false, false_or] at hyx hread
      rw [← hyx] at hb
      exact hread y hy b hb
  · have : pl.clusters.map (fun x => x.1.time) = j.clusters.map (·.time) := by
      have e := congrArg (List.map OutCluster.time) hfst
      rw [List.map_map, List.map_map] at e
      rw [show (fun x : OutCluster × Option (BitVec 64) => x.1.time) = OutCluster.time ∘ (fun x => x.1) from rfl, e]
      apply List.map_congr_left
      intro y _
      simp only [Function.comp]
      split <;> rfl
    rw [this]; exact htime
  · exact Or.inl rfl

theorem unchanged (env : Ebml.Env) (j : Job) (p : Pieces) (pl : Plan) (w : Written)
    (hx : Explains env j p pl w) (c : Cues) (hc : j.cues = some c)
    (hread : j.needRead = true ∨ ∀ c ∈ j.clusters, ∀ b ∈ c.blocks, b.1 = true)
    (htime : (j.clusters.map (·.time)).Pairwise (· < ·)) : w.changed = false :=
  unchanged_written env j _ pl w hx.written hx.planned c hc hread htime

/-- **C172** (partial). In a file finished without `--unsafe`, with Cues, from blocks that can all be read and Clusters
that are each later than the one before, each Cluster but the first says in its PrevSize how many bytes the Cluster
before takes. -/
theorem C172_prev_size_partial (env : Ebml.Env) (j : Job) (hg : j.Good env) (file : Bytes) (h : clean env j = .done file)
    (c : Cues) (hc : j.cues = some c) (hsafe : j.safe = true) (hsmall : file.length < 2 ^ 63)
    (hread : j.needRead = true ∨ ∀ c ∈ j.clusters, ∀ b ∈ c.blocks, b.1 = true)
    (htime : (j.clusters.map (·.time)).Pairwise (· < ·)) :
    ∃ p, IsOutput j file p ∧ ∀ k a b, p.clusters[k]? = some a → p.clusters[k + 1]? = some b →
      ∃ len crc t v kids, b = encode (.group 0x1F43B675 len true crc (.elem 0xE7 1 t :: .elem 0xAB 1 v :: kids)) ∧
        beNat v = a.length := by
  obtain ⟨p, pl, w, ho, hx⟩ := explained env j hg file h
  have hch := unchanged env j p pl w hx c hc hread htime
  refine ⟨p, ho, ?_⟩
  intro k a b ha hb
  rcases hx.planned with ⟨h1, _, _⟩ | ⟨c0, c', placed, h1, hpc⟩
  · rw [h1] at hc; simp at hc
  have s1 := (settle_done _ _ _ _ _ _ _ _ _ hpc.settled).1
  have hlen : p.clusters.length = placed.length := by rw [ho.clusters, s1, place_length]; simp
  have hk1 : k + 1 < placed.length := by rw [← hlen]; exact (List.getElem?_eq_some_iff.1 hb).1
  obtain ⟨A, hA⟩ : ∃ A, placed[k]? = some A := ⟨_, List.getElem?_eq_getElem (by omega)⟩
  obtain ⟨B, hB⟩ : ∃ B, placed[k + 1]? = some B := ⟨_, List.getElem?_eq_getElem hk1⟩
  have hprev := place_prev _ _ none k A B (by rw [hsafe] at s1; rw [← s1]; exact hA)
    (by rw [hsafe] at s1; rw [← s1]; exact hB)
  obtain ⟨oa, xa, a1, a2, a3, _⟩ := hx.cluster_sizes hg c0 c' placed hpc hch k A hA
  obtain ⟨ob, xb, b1, b2, b3, b4, b5⟩ := hx.cluster_sizes hg c0 c' placed hpc hch (k + 1) B hB
  have ha' := (hx.cluster_at ho k xa a1)
  have hb' := (hx.cluster_at ho (k + 1) xb b1).1
  rw [ha'.1] at ha
  rw [hb'] at hb
  simp only [Option.some.injEq] at ha hb
  have hal : xa.1.length ≤ file.length := by
    obtain ⟨u, v, f1, f2⟩ := ha'.2.2.1
    rw [f1]; simp only [List.length_append]; omega
  rw [hprev, (rendered_eq env _ (cluster_coherent env j.scale _ ob b4 b5) rfl).1, cluster_toDoc] at b2
  refine ⟨_, _, _, _, _, by rw [← hb, b2]; rfl, ?_⟩
  rw [uint_bytes, ← ha]
  have := ofInt_small A.fullSize (by omega) (by omega)
  omega

/-- Timestamps made strictly ascending: one that is not later than the one before is set to the next tick. -/
def ascend : Option Nat → List Nat → List Nat
  | _, [] => []
  | none, m :: ms => m :: ascend (some m) ms
  | some q, m :: ms => max m (q + 1) :: ascend (some (max m (q + 1))) ms

theorem ascend_length : ∀ (ms : List Nat) (q : Option Nat), (ascend q ms).length = ms.length := by
  intro ms
  induction ms with
  | nil => intro q; cases q <;> rfl
  | cons m ms ih => intro q; cases q <;> simp [ascend, ih]

theorem ascend_above : ∀ (ms : List Nat) (q : Nat), ∀ t ∈ ascend (some q) ms, q < t := by
  intro ms
  induction ms with
  | nil => intro q t h; simp [ascend] at h
  | cons m ms ih =>
    intro q t h
    simp only [ascend, List.mem_cons] at h
    rcases h with h | h
    · omega
    · have := ih _ t h; omega

theorem ascend_sorted : ∀ (ms : List Nat) (q : Option Nat), (ascend q ms).Pairwise (· < ·) := by
  intro ms
  induction ms with
  | nil => intro q; cases q <;> simp [ascend]
  | cons m ms ih =>
    intro q
    cases q with
    | none => exact List.pairwise_cons.2 ⟨ascend_above ms m, ih _⟩
    | some q => exact List.pairwise_cons.2 ⟨ascend_above ms _, ih _⟩

theorem writeClusters_ascend (env : Ebml.Env) (S B : Nat) (hS : 0 < S) : ∀ (cs : List (OutCluster × Option (BitVec 64)))
    (ms : List Nat) (prev pos : Int) (q : Option Nat), cs.map (·.1.time) = ms.map (fun m => ((m * S : Nat) : Int)) →
    (∀ m ∈ ms, m + ms.length ≤ B) → (∀ x ∈ q, x + ms.length ≤ B) → B * S < 2 ^ 63 - 1 →
    (prev = match q with | none => invalidTs | some x => ((x * S : Nat) : Int)) →
    ∀ (k : Nat) (c : OutCluster × Option (BitVec 64)), cs[k]? = some c →
    ∃ t p, (ascend q ms)[k]? = some t ∧ t ≤ B ∧ (writeClusters env S prev pos cs).1[k]? =
        some (rendered env ({ c.1.read.1 with time := ((t * S : Nat) : Int) }.elt S c.2), p) := by
  intro cs
  induction cs with
  | nil => intro ms prev pos q _ _ _ _ _ k c h; simp at h
  | cons c0 cs ih =>
    intro ms prev pos q ht hb hq hB hp k c h
    cases ms with
    | nil => simp at ht
    | cons m ms =>
      simp only [List.map_cons, List.cons.injEq] at ht
      obtain ⟨ht0, ht⟩ := ht
      simp only [List.length_cons, List.mem_cons, forall_eq_or_imp] at hb hq
      have mulle : ∀ x, x ≤ B → x * S ≤ B * S := fun x h => Nat.mul_le_mul_right S h
      -- the time written
      obtain ⟨t, h1, h2, hw⟩ : ∃ t, ascend q (m :: ms) = t :: ascend (some t) ms ∧ t + ms.length ≤ B ∧
          writeCluster S prev c0.1 = ({ c0.1.read.1 with time := ((t * S : Nat) : Int) }, ((t * S : Nat) : Int),
            (writeCluster S prev c0.1).2.2) := by
        cases q with
        | none =>
          refine ⟨m, rfl, by omega, ?_⟩
          simp only at hp
          unfold writeCluster
          simp only [hp, ne_eq, not_true, false_and, decide_false, Bool.false_eq_true, if_false, ht0]
        | some x =>
          simp only [Option.mem_def, Option.some.injEq, forall_eq'] at hq
          simp only at hp
          have hx := mulle (x + 1) (by omega)
          have hinv : prev ≠ invalidTs := by
            rw [hp]; unfold invalidTs
            simp only [Nat.reducePow, Int.reducePow, Nat.reduceSub, Int.reduceSub] at hB ⊢
            rw [Nat.add_mul, Nat.one_mul] at hx
            omega
          by_cases hle : m ≤ x
          · have hmx := Nat.mul_le_mul_right S hle
            refine ⟨x + 1, by rw [ascend, show max m (x + 1) = x + 1 by omega], by omega, ?_⟩
            have hlate : prev ≥ c0.1.time := by rw [hp, ht0]; omega
            have hs : s64 (prev + S) = (((x + 1) * S : Nat) : Int) := by
              rw [hp, show ((x * S : Nat) : Int) + (S : Int) = (((x + 1) * S : Nat) : Int) by rw [Nat.add_mul, Nat.one_mul]; omega]
              apply s64_of_range
              · omega
              · simp only [Nat.reducePow, Int.reducePow] at hB ⊢; omega
            unfold writeCluster
            simp only [hinv, hlate, ne_eq, not_false_eq_true, true_and, decide_true, if_true, hs]
          · have hmx := Nat.mul_lt_mul_of_pos_right (show x < m by omega) hS
            refine ⟨m, by rw [ascend, show max m (x + 1) = m by omega], by omega, ?_⟩
            have hlate : ¬ prev ≥ ((m * S : Nat) : Int) := by rw [hp]; omega
            unfold writeCluster
            simp only [ht0, hlate, and_false, decide_false, Bool.false_eq_true, if_false]
      cases k with
      | zero =>
        simp only [List.getElem?_cons_zero, Option.some.injEq] at h
        subst h
        refine ⟨t, pos, by rw [h1]; rfl, by omega, ?_⟩
        simp only [writeClusters, List.getElem?_cons_zero]
        rw [hw]
      | succ k =>
        simp only [List.getElem?_cons_succ] at h
        obtain ⟨t', p, e1, e2, e3⟩ := ih ms (writeCluster S prev c0.1).2.1
          (pos + (rendered env ((writeCluster S prev c0.1).1.elt S c0.2)).length) (some t) ht
          (fun x hx => by have := hb.2 x hx; omega) (by
            simp only [Option.mem_def, Option.some.injEq, forall_eq']
            exact h2) hB (by rw [hw]) k c h
        refine ⟨t', p, by rw [h1]; exact e1, e2, ?_⟩
        simp only [writeClusters, List.getElem?_cons_succ]
        exact e3

/-- **C190**. In every file mkclean finishes the Timestamps of the Clusters ascend strictly: those that are not later than the one
before are set to the next tick, the others are what they were (times in multiples of the TimestampScale, and room to 2^63). -/
theorem C190_times_ascend (env : Ebml.Env) (j : Job) (hg : j.Good env) (file : Bytes) (h : clean env j = .done file)
    (S B : Nat) (ms : List Nat) (hS : j.scale = S) (hpos : 0 < S) (ht : j.clusters.map (·.time) = ms.map fun m => ((m * S : Nat) : Int))
    (hm : ∀ m ∈ ms, m + ms.length ≤ B) (hB : B * S < 2 ^ 63 - 1) :
    ∃ p ts, IsOutput j file p ∧ ts = ascend none ms ∧ ts.length = p.clusters.length ∧ ts.Pairwise (· < ·) ∧
      ∀ (k : Nat) b, p.clusters[k]? = some b → ∃ len crc t kids,
        b = encode (.group 0x1F43B675 len true crc (.elem 0xE7 1 t :: kids)) ∧ ts[k]? = some (beNat t) := by
  obtain ⟨p, pl, w, ho, hx⟩ := explained env j hg file h
  have hcs := planned_clusters env j hg _ pl hx.planned
  have htimes : pl.clusters.map (·.1.time) = ms.map fun m => ((m * S : Nat) : Int) := by
    rw [← ht]
    rcases hx.planned with ⟨_, _, h1⟩ | ⟨c0, c', placed, _, hpc⟩
    · rw [h1, List.map_map]; rfl
    · have s1 := (settle_done _ _ _ _ _ _ _ _ _ hpc.settled).1
      have hl : (j.clusters.map fun c => if j.needRead then c.read.1 else c).length ≤ (placed.map (·.prevSize)).length := by
        rw [s1]; simp [place_length]
      have h2 : pl.clusters.map (·.1) = j.clusters.map fun c => if j.needRead then c.read.1 else c := by
        rw [hpc.clusters]; exact List.map_fst_zip hl
      have h3 := congrArg (List.map OutCluster.time) h2
      rw [List.map_map, List.map_map] at h3
      have : (OutCluster.time ∘ fun c => if j.needRead then c.read.1 else c) = OutCluster.time := by
        funext c
        simp only [Function.comp_apply]
        split <;> rfl
      rw [this] at h3
      exact h3
  refine ⟨p, _, ho, rfl, ?_, ascend_sorted ms none, ?_⟩
  · have := congrArg List.length ht
    rw [List.length_map, List.length_map] at this
    rw [ascend_length, ho.clusters, this]
  · intro k b hb
    have hk : k < pl.clusters.length := by
      rw [hcs.1, ← ho.clusters]; exact (List.getElem?_eq_some_iff.1 hb).1
    obtain ⟨c, hc⟩ : ∃ c, pl.clusters[k]? = some c := ⟨_, List.getElem?_eq_getElem hk⟩
    obtain ⟨t, q, e1, e2, e3⟩ := writeClusters_ascend env S B hpos pl.clusters ms invalidTs (w.cuesPos + w.cues.length) none htimes hm
      (by simp) hB rfl k c hc
    have hwc : w.clusters = (writeClusters env S invalidTs (w.cuesPos + w.cues.length) pl.clusters).1 := by
      rw [← hS, hx.written]; rfl
    rw [← hwc] at e3
    have hb' := (hx.cluster_at ho k _ e3).1
    rw [hb'] at hb
    simp only [Option.some.injEq] at hb
    have hgood := hcs.2 _ (List.mem_of_getElem? hc)
    have hread : ∀ b ∈ c.1.read.1.blocks, Coherent env false b.2 := fun b hb => hgood.2 b (List.mem_filter.1 hb).1
    rw [(rendered_eq env _ (cluster_coherent env S _ { c.1.read.1 with time := ((t * S : Nat) : Int) } hgood.1 hread) rfl).1,
      cluster_toDoc] at hb
    refine ⟨_, _, _, _, by rw [← hb]; rfl, ?_⟩
    rw [e1, uint_bytes]
    have hd : scale64 ((t * S : Nat) : Int) S = t := by
      unfold scale64
      rw [if_neg (by omega), Int.natCast_mul, Int.mul_tdiv_cancel _ (by omega)]
    have hlt : t * S < 2 ^ 63 := by
      have := Nat.mul_le_mul_right S e2
      omega
    have ht1 : t ≤ t * S := Nat.le_mul_of_pos_right t hpos
    have := ofInt_small (t : Int) (by omega) (by simp only [Nat.reducePow, Int.reducePow] at hlt ⊢; omega)
    simp only [hd]
    congr 1
    omega

theorem updateCues_total (clusters : List Clu) (seg : Int) : ∀ ps : List Cue,
    (∀ q ∈ ps, ∃ k, q.cluster = some k ∧ k < clusters.length) → ∃ qs, updateCues clusters seg ps = some qs := by
  intro ps
  induction ps with
  | nil => intro _; exact ⟨[], rfl⟩
  | cons q ps ih =>
    intro h
    obtain ⟨qs, hq⟩ := ih fun x hx => h x (by simp [hx])
    obtain ⟨k, h1, h2⟩ := h q (by simp)
    rw [updateCues, hq, updateCue, h1]
    simp only [List.getElem?_eq_getElem h2]
    exact ⟨_, rfl⟩

/-- **C173** (partial). For linked CuePoints and a file below 2^63 bytes mkclean always comes to an end without following
a NULL pointer: it finishes, or gives up with -18 because the Cues changed their size, which takes a Cluster that
changed while it was written, or with -23 because the SeekHead changed its size. -/
theorem C173_outcome_partial (env : Ebml.Env) (j : Job) (hg : j.Good env)
    (hlink : ∀ c, j.cues = some c → 0 ≤ c.dataSize ∧ ∀ q ∈ c.points, ∃ k, q.cluster = some k ∧ k < j.clusters.length)
    (hbig : ∀ c, j.cues = some c → (j.head.length : Int) + (j.parts.map (·.bytes)).flatten.length + 27 * j.parts.length + 300 +
      max c.dataSize (6 + 40 * (c.points.length : Int)) +
      ((j.clusters.map fun c => ((if j.needRead then c.read.1 else c).clu env j.scale).body + 22).sum : Nat) < 2 ^ 63) :
    (∃ file, clean env j = .done file) ∨
    (clean env j = .fail (-18) ∧
      ¬ ((j.needRead = true ∨ ∀ c ∈ j.clusters, ∀ b ∈ c.blocks, b.1 = true) ∧ (j.clusters.map (·.time)).Pairwise (· < ·))) ∨
    clean env j = .fail (-23) := by
  have hfin : ∀ pl w file, (∃ f, finish env j pl w file = .done f) ∨ finish env j pl w file = .fail (-23) := by
    intro pl w file
    unfold finish
    simp only
    split
    · exact Or.inl ⟨_, rfl⟩
    · exact Or.inr rfl
  have hplan : ∃ pl, plan env j ((j.head.length + 4 + tempLen j.srcSize : Nat) : Int) = some pl := by
    have hS : (0 : Int) ≤ ((j.head.length + 4 + tempLen j.srcSize : Nat) : Int) ∧
        ((j.head.length + 4 + tempLen j.srcSize : Nat) : Int) ≤ j.head.length + 12 := by
      have := firstLen_range j.srcSize
      rw [tempLen_eq]; omega
    generalize ((j.head.length + 4 + tempLen j.srcSize : Nat) : Int) = S at hS
    unfold plan
    simp only
    cases hc : j.cues with
    | none => exact ⟨_, rfl⟩
    | some c =>
      simp only [Option.map_some]
      generalize guesses (firstGuess j.safe j.parts) j.parts = g
      generalize (Option.map (fun _ => g.2 + c.fullSize + (extraVoid j.parts : Int)) j.clusters.head?) = cg
      generalize (rendered env (seekHeadElt j.safe S (entriesOf g.1 (some g.2) cg))).length = m1
      have hq1 := partsFrom_ids j.parts (S + m1 + extraVoid j.parts)
      have hq2 := partsFrom_end j.parts (S + m1 + extraVoid j.parts)
      have hq3 := partsFrom_length j.parts (S + m1 + extraVoid j.parts)
      generalize partsFrom (S + m1 + extraVoid j.parts) j.parts = q at hq1 hq2 hq3
      have hm2 := seekHead_length env j.safe S (entriesOf q.1 (some g.2) cg) (entries_ids _ _ hg.ids hq1 _ _)
      have hel := entries_length q.1 (some g.2) cg
      generalize (rendered env (seekHeadElt j.safe S (entriesOf q.1 (some g.2) cg))).length = m2 at hm2
      obtain ⟨h0, hl⟩ := hlink c hc
      have hv := extraVoid_range j.parts
      have hb := hbig c hc
      obtain ⟨C', c', hset, _⟩ := C111_cues_settle env j.safe (q.2 + ((m2 : Int) - m1)) S
        ((j.clusters.map fun c => if j.needRead then c.read.1 else c).map (·.clu env j.scale)) c
        (by simpa using hl) (hg.cues c hc)
        (by
          intro x hx
          simp only [List.map_map, List.mem_map, Function.comp] at hx
          obtain ⟨y, hy, rfl⟩ := hx
          have := (hg.clusters y hy).1
          unfold OutCluster.clu
          simp only
          split <;> exact this)
        h0 hS.1 (by omega)
        (by
          have hsum : ((j.clusters.map fun c => if j.needRead then c.read.1 else c).map (·.clu env j.scale)).map (fun c => c.body + 22) =
              j.clusters.map fun c => ((if j.needRead then c.read.1 else c).clu env j.scale).body + 22 := by
            simp only [List.map_map]; rfl
          rw [hsum]
          generalize (j.clusters.map fun c => ((if j.needRead then c.read.1 else c).clu env j.scale).body + 22).sum = T at *
          generalize (j.parts.map (·.bytes)).flatten.length = P at *
          simp only [Int.reducePow] at hb ⊢
          omega)
      rw [hset _ (Nat.le_refl _)]
      exact ⟨_, rfl⟩
  obtain ⟨pl, hpl⟩ := hplan
  unfold clean
  rw [tempHead_length]
  simp only [← Nat.add_assoc]
  rw [hpl]
  simp only
  have hw := rfl (a := writeAll env j ((j.head.length + 4 + tempLen j.srcSize : Nat) : Int) pl)
  generalize hw' : writeAll env j ((j.head.length + 4 + tempLen j.srcSize : Nat) : Int) pl = w
  obtain ⟨f1, f2, f3⟩ := plan_facts env j _ pl hpl hg.ids
  have hcs := planned_clusters env j hg _ pl f3
  have hwc : w.clusters.length = j.clusters.length := by
    rw [← hw']
    simp only [writeAll, writeClusters_length, hcs.1]
  have hpts : ∀ c', pl.cues = some c' → ∀ q ∈ c'.points, ∃ k, q.cluster = some k ∧ k < j.clusters.length := by
    intro c' hc' q hq
    rcases f3 with ⟨_, h, _⟩ | ⟨c, c1, placed, hc, h⟩
    · rw [h] at hc'; simp at hc'
    · rw [h.cues] at hc'
      simp only [Option.some.injEq] at hc'
      subst hc'
      obtain ⟨s1, s2, s3, _⟩ := settle_done _ _ _ _ _ _ _ _ _ h.settled
      obtain ⟨k, cl, e1, e2, _⟩ := s3 q hq
      refine ⟨k, e1, ?_⟩
      have := (List.getElem?_eq_some_iff.1 e2).1
      rw [s1, place_length] at this
      simpa using this
  cases hr : rewriteCues env j ((j.head.length + 4 + tempLen j.srcSize : Nat) : Int) pl.cues w with
  | keep =>
    rcases hfin pl w _ with ⟨f, h⟩ | h
    · exact Or.inl ⟨f, h⟩
    · exact Or.inr (Or.inr h)
  | over b =>
    rcases hfin pl w _ with ⟨f, h⟩ | h
    · exact Or.inl ⟨f, h⟩
    · exact Or.inr (Or.inr h)
  | crash =>
    exfalso
    unfold rewriteCues at hr
    cases hc : pl.cues with
    | none => rw [hc] at hr; cases hr
    | some c' =>
      rw [hc] at hr
      simp only at hr
      split at hr
      · cases hr
      · obtain ⟨qs, hqs⟩ := updateCues_total (w.clusters.map fun x => ⟨0, 0, none, x.2⟩)
          ((j.head.length + 4 + tempLen j.srcSize : Nat) : Int) (c'.points.map fun p => { p with time := j.retime p }) (by
            intro x hx
            obtain ⟨y, hy, rfl⟩ := List.mem_map.1 hx
            rw [List.length_map, hwc]
            exact hpts c' hc y hy)
        rw [hqs] at hr
        simp only at hr
        split at hr
        · cases hr
        · split at hr <;> cases hr
  | misfit =>
    refine Or.inr (Or.inl ⟨rfl, ?_⟩)
    rintro ⟨h1, h2⟩
    have hch : w.changed = true := by
      cases hch : w.changed with
      | true => rfl
      | false =>
        unfold rewriteCues at hr
        cases hc : pl.cues with
        | none => rw [hc] at hr; cases hr
        | some c' => rw [hc, hch] at hr; cases hr
    have hc : ∃ c, j.cues = some c := by
      rcases f3 with ⟨_, h, _⟩ | ⟨c, c1, placed, hc, h⟩
      · unfold rewriteCues at hr; rw [h] at hr; cases hr
      · exact ⟨c, hc⟩
    obtain ⟨c, hc⟩ := hc
    have := unchanged_written env j _ pl w hw'.symm f3 c hc h1 h2
    rw [this] at hch
    cases hch

/-! Examples and counterexamples. -/

/-- The file written, if it was finished. -/
def fileOf : Out → Bytes
  | .done f => f
  | _ => []

def simpleBlock (n : Nat) : Elt := .leaf ⟨0xA3, n, 0, true, false, true⟩ none (.bin (List.replicate n 7))

/-- Segment Info and Tracks of the given sizes, Cues for two Clusters, the Clusters. -/
def exJob (safe : Bool) (src : Option Nat) (info tracks : Nat) (clusters : List OutCluster) : Job where
  safe := safe
  head := [0x1A, 0x45, 0xDF, 0xA3, 0x80]
  srcSize := src
  parts := [⟨0x1549A966, info, [0x15, 0x49, 0xA9, 0x66, 0x80 + UInt8.ofNat (info - 5)] ++ List.replicate (info - 5) 1⟩,
    ⟨0x1654AE6B, tracks, [0x16, 0x54, 0xAE, 0x6B, 0x80 + UInt8.ofNat (tracks - 5)] ++ List.replicate (tracks - 5) 2⟩]
  cues := some ⟨0, 24, 0, [⟨0, 1, 0, 0, some 0⟩, ⟨40, 1, 0, 0, some 1⟩]⟩
  clusters := clusters
  scale := 1
  needRead := false
  retime := fun c => c.time

def twoClusters : List OutCluster :=
  [⟨0, 0, 0, [(true, simpleBlock 6)]⟩, ⟨40, 0, 0, [(true, simpleBlock 5)]⟩]

theorem simpleBlock_coherent (env : Ebml.Env) (n : Nat) : Coherent env false (simpleBlock n) := by
  simp [simpleBlock, Coherent, LeafReady, LeafSettled]

theorem exJob_good (safe : Bool) (src : Option Nat) (info tracks : Nat) (clusters : List OutCluster)
    (h : ∀ c ∈ clusters, c.sizeLength ≤ 8 ∧ ∀ b ∈ c.blocks, ∃ n, b.2 = simpleBlock n) :
    (exJob safe src info tracks clusters).Good exEnv := by
  refine ⟨?_, ?_, ?_⟩
  · intro p hp
    simp only [exJob, List.mem_cons, List.not_mem_nil, or_false] at hp
    rcases hp with rfl | rfl <;> simp
  · intro c hc
    simp only [exJob, Option.some.injEq] at hc
    subst hc; simp
  · intro c hc
    refine ⟨(h c hc).1, fun b hb => ?_⟩
    obtain ⟨n, hn⟩ := (h c hc).2 b hb
    rw [hn]; exact simpleBlock_coherent _ _

theorem twoClusters_good : ∀ c ∈ twoClusters, c.sizeLength ≤ 8 ∧ ∀ b ∈ c.blocks, ∃ n, b.2 = simpleBlock n := by
  intro c hc
  simp only [twoClusters, List.mem_cons, List.not_mem_nil, or_false] at hc
  rcases hc with rfl | rfl
  · exact ⟨by simp, fun b hb => ⟨6, by simp at hb; rw [hb]⟩⟩
  · exact ⟨by simp, fun b hb => ⟨5, by simp at hb; rw [hb]⟩⟩

/-- A file that is finished, with everything where it should be: the SeekHead had the size supposed, no Cluster
changed, the size field did not grow. -/
example : (exJob true none 100 30 twoClusters).Good exEnv ∧
    (clean exEnv (exJob true none 100 30 twoClusters) =
      .done (fileOf (clean exEnv (exJob true none 100 30 twoClusters)))) ∧
    (fileOf (clean exEnv (exJob true none 100 30 twoClusters))).length = 418 ∧
    ((plan exEnv (exJob true none 100 30 twoClusters) 17).map fun pl =>
      (pl.supposed, (writeAll exEnv (exJob true none 100 30 twoClusters) 17 pl).seek.length,
        (writeAll exEnv (exJob true none 100 30 twoClusters) 17 pl).changed)) = some (94, 94, false) ∧
    (twoClusters.map (·.time)).Pairwise (· < ·) :=
  ⟨exJob_good _ _ _ _ _ twoClusters_good, by decide +kernel, by decide +kernel, by decide +kernel, by decide⟩

/-- C169 in full: the Segment announces exactly the bytes behind its head. -/
def SegmentExact : Prop := ∀ (env : Ebml.Env) (j : Job) (file : Bytes), j.Good env → clean env j = .done file →
  ∃ len body, 1 ≤ len ∧ len ≤ 8 ∧ file = j.head ++ (idField 0x18538067 ++ sizeField len body.length) ++ body

/-- The source had a Segment of 100 bytes, mkclean adds a SeekHead, a Void and Cues: the size field of the new Segment
takes two bytes instead of one. The Segment announces 368 bytes, 367 follow, and behind the SeekHead there is no
element but the second byte of the Void. -/
theorem C169_segment_counterexample : ¬ SegmentExact := by
  intro h
  obtain ⟨len, body, hl1, hl, hf⟩ := h exEnv (exJob false (some 100) 100 30 twoClusters)
    (fileOf (clean exEnv (exJob false (some 100) 100 30 twoClusters))) (exJob_good _ _ _ _ _ twoClusters_good) (by decide +kernel)
  have hfl : (fileOf (clean exEnv (exJob false (some 100) 100 30 twoClusters))).length = 378 := by decide +kernel
  have h4 : (idField 0x18538067).length = 4 := by decide
  have hb : body.length = 378 - 9 - len := by
    have := congrArg List.length hf
    rw [hfl] at this
    simp only [List.length_append, h4, sizeField_length] at this
    have h5 : (exJob false (some 100) 100 30 twoClusters).head.length = 5 := rfl
    omega
  have ht : ((fileOf (clean exEnv (exJob false (some 100) 100 30 twoClusters))).drop 9).take len =
      sizeField len (378 - 9 - len) := by
    rw [hf, hb, show (exJob false (some 100) 100 30 twoClusters).head ++ (idField 0x18538067 ++ sizeField len (378 - 9 - len)) ++ body =
      ((exJob false (some 100) 100 30 twoClusters).head ++ idField 0x18538067) ++ (sizeField len (378 - 9 - len) ++ body) by
        simp only [List.append_assoc]]
    rw [List.drop_left' (by simp only [List.length_append, h4]; rfl), List.take_left' (sizeField_length _ _)]
  have : len = 1 ∨ len = 2 ∨ len = 3 ∨ len = 4 ∨ len = 5 ∨ len = 6 ∨ len = 7 ∨ len = 8 := by omega
  rcases this with e | e | e | e | e | e | e | e <;> subst e
  all_goals exact absurd ht (by decide +kernel)

/-- A Segment Info of 60 bytes and Tracks of 30: the SeekHead was supposed to take 62 bytes and takes 63. The data of the
Segment starts at 17; the first CuePoint, behind the head of the Cues at 280, names offset 0x127, the first Cluster is at
offset 0x128. -/
theorem C171_cues_counterexample : ∃ j file, j.Good exEnv ∧ clean exEnv j = .done file ∧ file.length = 344 ∧
    (file.drop 5).take 4 = [0x18, 0x53, 0x80, 0x67] ∧ (file.drop 9).take 8 = [1, 0, 0, 0, 0, 0, 1, 0x47] ∧
    (file.drop 280).take 19 = [0x1C, 0x53, 0xBB, 0x6B, 0x9C,
      0xBB, 0x8C, 0xB3, 0x81, 0, 0xB7, 0x87, 0xF7, 0x81, 1, 0xF1, 0x82, 1, 0x27] ∧
    (file.drop (17 + 0x127)).take 4 ≠ [0x1F, 0x43, 0xB6, 0x75] ∧
    (file.drop (17 + 0x128)).take 4 = [0x1F, 0x43, 0xB6, 0x75] :=
  ⟨exJob false none 60 30 twoClusters, fileOf (clean exEnv (exJob false none 60 30 twoClusters)),
    exJob_good _ _ _ _ _ twoClusters_good, by decide +kernel, by decide +kernel, by decide +kernel, by decide +kernel,
    by decide +kernel, by decide +kernel, by decide +kernel⟩

def lateClusters : List OutCluster :=
  [⟨255, 0, 0, [(true, simpleBlock 6)]⟩, ⟨255, 0, 0, [(true, simpleBlock 5)]⟩, ⟨300, 0, 0, [(true, simpleBlock 5)]⟩]

def unreadClusters : List OutCluster :=
  [⟨0, 0, 0, [(true, simpleBlock 6), (false, simpleBlock 3)]⟩, ⟨40, 0, 0, [(true, simpleBlock 5)]⟩]

/-- Two Clusters of the same time, 255: the second one gets 256 when it is written, one byte more, and takes 19 bytes, from
400 to 419. The PrevSize of the third one says 18. -/
theorem C172_prev_size_counterexample : ∃ j file, j.Good exEnv ∧ clean exEnv j = .done file ∧
    (∀ c ∈ j.clusters, ∀ b ∈ c.blocks, b.1 = true) ∧ j.safe = true ∧
    (file.drop 400).take 9 = [0x1F, 0x43, 0xB6, 0x75, 0x8E, 0xE7, 0x82, 1, 0] ∧
    (file.drop 419).take 12 = [0x1F, 0x43, 0xB6, 0x75, 0x8E, 0xE7, 0x82, 1, 0x2C, 0xAB, 0x81, 18] :=
  ⟨exJob true none 100 30 lateClusters, fileOf (clean exEnv (exJob true none 100 30 lateClusters)),
    exJob_good _ _ _ _ _ (by
      intro c hc
      simp only [lateClusters, List.mem_cons, List.not_mem_nil, or_false] at hc
      rcases hc with rfl | rfl | rfl
      · exact ⟨by simp, fun b hb => ⟨6, by simp at hb; rw [hb]⟩⟩
      · exact ⟨by simp, fun b hb => ⟨5, by simp at hb; rw [hb]⟩⟩
      · exact ⟨by simp, fun b hb => ⟨5, by simp at hb; rw [hb]⟩⟩),
    by decide +kernel, by
      intro c hc b hb
      simp only [exJob, lateClusters, List.mem_cons, List.not_mem_nil, or_false] at hc
      rcases hc with rfl | rfl | rfl <;> (simp at hb; rw [hb]), rfl, by decide +kernel, by decide +kernel⟩

/-- A block that cannot be read any more is left out of the first Cluster, which takes 16 bytes, from 384 to 400. The
PrevSize of the second one says 21. -/
theorem C172_dropped_block_counterexample : ∃ j file, j.Good exEnv ∧ clean exEnv j = .done file ∧
    (j.clusters.map (·.time)).Pairwise (· < ·) ∧ j.safe = true ∧
    (file.drop 384).take 5 = [0x1F, 0x43, 0xB6, 0x75, 0x8B] ∧
    (file.drop 400).take 11 = [0x1F, 0x43, 0xB6, 0x75, 0x8D, 0xE7, 0x81, 40, 0xAB, 0x81, 21] :=
  ⟨exJob true none 100 30 unreadClusters, fileOf (clean exEnv (exJob true none 100 30 unreadClusters)),
    exJob_good _ _ _ _ _ (by
      intro c hc
      simp only [unreadClusters, List.mem_cons, List.not_mem_nil, or_false] at hc
      rcases hc with rfl | rfl
      · refine ⟨by simp, fun b hb => ?_⟩
        simp at hb
        rcases hb with rfl | rfl
        exacts [⟨6, rfl⟩, ⟨3, rfl⟩]
      · exact ⟨by simp, fun b hb => ⟨5, by simp at hb; rw [hb]⟩⟩),
    by decide +kernel, by decide, rfl, by decide +kernel, by decide +kernel⟩

/-- C173 in full: readable blocks in Clusters each later than the one before, and linked CuePoints, give a file. -/
def AlwaysDone : Prop := ∀ (env : Ebml.Env) (j : Job), j.Good env →
  (∀ c, j.cues = some c → 0 ≤ c.dataSize ∧ ∀ q ∈ c.points, ∃ k, q.cluster = some k ∧ k < j.clusters.length) →
  (∀ c ∈ j.clusters, ∀ b ∈ c.blocks, b.1 = true) → (j.clusters.map (·.time)).Pairwise (· < ·) →
  ∃ file, clean env j = .done file

/-- A Segment Info of 83 bytes and Tracks of 10: mkclean gives up with -23. -/
theorem C173_outcome_counterexample : ¬ AlwaysDone := by
  intro h
  obtain ⟨f, hf⟩ := h exEnv (exJob false none 83 10 twoClusters) (exJob_good _ _ _ _ _ twoClusters_good)
    (by
      intro c hc
      simp only [exJob, Option.some.injEq] at hc
      subst hc
      refine ⟨by simp, fun q hq => ?_⟩
      simp only [List.mem_cons, List.not_mem_nil, or_false] at hq
      rcases hq with rfl | rfl
      exacts [⟨0, rfl, by decide⟩, ⟨1, rfl, by decide⟩])
    (by
      intro c hc b hb
      simp only [exJob, twoClusters, List.mem_cons, List.not_mem_nil, or_false] at hc
      rcases hc with rfl | rfl <;> (simp at hb; rw [hb]))
    (by decide)
  have h23 : (clean exEnv (exJob false none 83 10 twoClusters)) = .fail (-23) := by decide +kernel
  rw [h23] at hf
  cases hf

/-- Clusters of the same time, the CuePoint of the second one moves from 255 to 256 with it: mkclean gives up with -18. -/
def movedJob : Job :=
  { exJob false none 100 30 lateClusters with
    cues := some ⟨0, 24, 0, [⟨255, 1, 0, 0, some 0⟩, ⟨255, 1, 0, 0, some 1⟩]⟩
    retime := fun c => if c.cluster = some 1 then 256 else c.time }

example : clean exEnv movedJob = .fail (-18) := by decide +kernel

/-- The hypotheses of C173 for the job above. -/
example : ∀ c, (exJob true none 100 30 twoClusters).cues = some c →
    ((exJob true none 100 30 twoClusters).head.length : Int) +
      ((exJob true none 100 30 twoClusters).parts.map (·.bytes)).flatten.length + 27 * (exJob true none 100 30 twoClusters).parts.length + 300 +
      max c.dataSize (6 + 40 * (c.points.length : Int)) +
      (((exJob true none 100 30 twoClusters).clusters.map fun c =>
        ((if (exJob true none 100 30 twoClusters).needRead then c.read.1 else c).clu exEnv 1).body + 22).sum : Nat) < 2 ^ 63 := by
  intro c hc
  simp only [exJob, Option.some.injEq] at hc
  subst hc
  decide +kernel

/-- The hypotheses of C190 for Clusters of the same time, and for three of them. -/
example : (exJob true none 100 30 lateClusters).clusters.map (·.time) = [255, 255, 300].map (fun m => ((m * 1 : Nat) : Int)) ∧
    ascend none [255, 255, 300] = [255, 256, 300] ∧ ascend none [7, 7, 7, 3, 20] = [7, 8, 9, 10, 20] := by decide

example : ∃ file, clean exEnv (exJob true none 100 30 lateClusters) = .done file :=
  ⟨fileOf (clean exEnv (exJob true none 100 30 lateClusters)), by decide +kernel⟩

end Verif.Mkclean
