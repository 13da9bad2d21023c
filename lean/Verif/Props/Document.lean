import Verif.Props.MkvSchema
import Verif.Props.Block
/-!
Property theorem C136: whole Matroska documents with blocks.

`Document` is what a program that writes a file has in mind: elements with their values, blocks with header
and frames, masters. `Document.elt` is the element tree it gives to the library, where the bytes of a block
are those of `RenderBlockData` (C33). What is loaded is compared with the document by `Shows`, where a block
is shown by what the block reader makes of its bytes in place.
-/
set_option linter.unusedSimpArgs false
namespace Verif.Ebml.Master
open Scan (Offers Fits FitsList leafCls LeafSurvives load loaded loadedList loadedLeaf Node)
open EbmlDoc
open Mkv (Enc Head Blk readBlock writeAuto stored EncOk bestLacing)

/-- A Matroska document or part of one. -/
inductive Document where
  | elem (b : Base) (dflt : Option Leaf) (v : Leaf)
  | block (b : Base) (h : Head) (frames : List Bytes)
  | master (b : Base) (crc : Nat) (children : List Document)

/-- A SimpleBlock, not a Block: matroskamain.c:1449,1759. -/
def simple (b : Base) : Bool := b.id == 0xA3

/-- The bytes of a block of a track encoded with `enc`. -/
def blockBytes (enc : Nat → Enc) (b : Base) (h : Head) (frames : List Bytes) : Bytes :=
  match writeAuto (simple b) (enc h.track) h frames with
  | .ok p => p
  | _ => []

mutual
/-- The element tree; `enc` is the encoding of each track. -/
def Document.elt (enc : Nat → Enc) : Document → Elt
  | .elem b dflt v => .leaf b dflt v
  | .block b h frames => .leaf b none (.bin (blockBytes enc b h frames))
  | .master b crc ch => .master b crc (Document.elts enc ch)
def Document.elts (enc : Nat → Enc) : List Document → List Elt
  | [] => []
  | m :: ms => m.elt enc :: Document.elts enc ms
end

/-- The blocks C33 is about: 1 to 256 frames below 2^27 bytes that the encoding of the track can carry,
4 GiB in all; one frame stored in no bytes only on tracks from 128 on. -/
def Carries (enc : Enc) (h : Head) (frames : List Bytes) : Prop :=
  h.track < 0x4000 ∧ -32768 ≤ h.time ∧ h.time < 32768 ∧ 1 ≤ frames.length ∧ frames.length ≤ 256 ∧
  (∀ f ∈ frames, f.length < 2 ^ 27) ∧ (∀ f ∈ stored enc frames, f.length < 2 ^ 27) ∧
  (stored enc frames).flatten.length + 4 * frames.length < 2 ^ 32 ∧ EncOk enc frames ∧ Mkv.FramesOk enc frames ∧
  ((∀ f ∈ frames, ∀ g ∈ frames, f.length = g.length) → ∀ f ∈ stored enc frames, ∀ g ∈ stored enc frames, f.length = g.length) ∧
  (2 ≤ frames.length ∨ (stored enc frames).flatten ≠ [] ∨ 0x80 ≤ h.track)

mutual
/-- The document follows the Matroska table as an element of type `r`, like `Follows`, with blocks. -/
def DocFollows (env : Env) (enc : Nat → Enc) (d : Bool) (r : Nat) : Document → Prop
  | .elem b dflt v => Follows env d r (.leaf b dflt v)
  | .block b h frames => b.id = (mkv.ctx r).id ∧ (mkv.ctx r).cls = .block ∧ Carries (enc h.track) h frames
  | .master b crc ch => b.id = (mkv.ctx r).id ∧ (mkv.ctx r).cls = .master ∧ b.finite = true ∧
      (payload (.group b.id 0 true (crc != 0) (toDocList env d (Document.elts enc ch)))).length < 2 ^ 35 - 1 ∧
      (crc ≠ 0 → ∃ c ∈ Document.elts enc ch, (!d && isDefault env c) = false) ∧ DocFollowsList env enc d r ch
def DocFollowsList (env : Env) (enc : Nat → Enc) (d : Bool) (c : Nat) : List Document → Prop
  | [] => True
  | m :: ms => ((!d && isDefault env (m.elt enc)) = false → ∃ r, Allowed c r ∧ DocFollows env enc d r m) ∧
      DocFollowsList env enc d c ms
end

/-- Is the element left out because it holds its default value and default values are not written. -/
def Document.leftOut (env : Env) (d : Bool) : Document → Bool
  | .elem b dflt v => !d && isDefault env (.leaf b dflt v)
  | _ => false

mutual
/-- The loaded element `n` shows the document: same ID, same value; for a block, whatever follows its bytes
in the file, the block reader delivers the header and the frames; for a master, apart from a CRC-32 element
its children show the document's children in order, and a checksum that was to be verified was. -/
def Shows (env : Env) (enc : Nat → Enc) (d : Bool) (k : Nat) : Document → Node → Prop
  | .elem b _ v, n => ∃ b', n = .leaf b' (loadedLeaf v) ∧ b'.id = b.id
  | .block b h frames, n => ∃ b' p, n = .leaf b' (.bin p) ∧ b'.id = b.id ∧ b'.dataSize = p.length ∧
      ∀ rest, ∃ lac, readBlock (simple b) (enc h.track) (p ++ rest) p.length =
        .ok ⟨{ h with key := simple b && h.key, discard := simple b && h.discard, lacing := lac }, frames.map List.length, frames.flatten⟩
  | .master b crc ch, n => ∃ b' st ns, n = .master b' st ns ∧ b'.id = b.id ∧ (crc ≠ 0 ∧ k ≠ 0 → st = 2) ∧
      ShowsList env enc d (k - 1) ch (ns.filter fun x => !x.isCrc)
def ShowsList (env : Env) (enc : Nat → Enc) (d : Bool) (k : Nat) : List Document → List Node → Prop
  | [], ns => ns = []
  | m :: ms, ns => if m.leftOut env d then ShowsList env enc d k ms ns
    else ∃ n ns', ns = n :: ns' ∧ Shows env enc d k m n ∧ ShowsList env enc d k ms ns'
end

theorem leftOut_eq (env : Env) (enc : Nat → Enc) (d : Bool) (m : Document) :
    m.leftOut env d = (!d && isDefault env (m.elt enc)) := by
  cases m with
  | elem b dflt v => simp only [Document.leftOut, Document.elt]
  | block b h frames => simp [Document.leftOut, Document.elt, isDefault]
  | master b crc ch => simp [Document.leftOut, Document.elt, isDefault]

theorem block_length (sim : Bool) (enc : Enc) (h : Head) (frames : List Bytes) (bytes : Bytes) (henc : EncOk enc frames)
    (hw : writeAuto sim enc h frames = .ok bytes) :
    bytes.length ≤ 6 + 4 * frames.length + (stored enc frames).flatten.length := by
  rw [writeAuto, Mkv.writeBlock] at hw
  cases hr : Mkv.renderHead sim { h with lacing := bestLacing enc frames } with
  | none => rw [hr] at hw; simp at hw
  | some hd =>
    rw [hr] at hw
    simp only at hw
    obtain ⟨l, hl, hw⟩ := Mkv.bind_eq_ok hw
    obtain ⟨pay, hp, hw⟩ := Mkv.bind_eq_ok hw
    rw [Mkv.writeFrames_ok enc frames henc (Mkv.writeFrames_framesOk enc frames pay hp)] at hp
    simp only [Mkv.Out.ok.injEq] at hw hp
    rw [← hp] at hw
    have h1 := Mkv.renderHead_length sim _ hd hr
    have h2 : hd.length ≤ 5 := by rw [h1, Mkv.headSize]; split <;> omega
    have h3 : l.length ≤ 1 + 4 * frames.length := by
      rw [Mkv.writeLace] at hl
      by_cases c1 : bestLacing enc frames ≠ .none ∧ frames.map (Mkv.frameSize enc) = []
      · rw [if_pos c1] at hl; simp at hl
      rw [if_neg c1] at hl
      by_cases c2 : Mkv.laceRoom (bestLacing enc frames) (frames.map (Mkv.frameSize enc)).length <
          (Mkv.laceHead (bestLacing enc frames) (frames.map (Mkv.frameSize enc))).length
      · rw [if_pos c2] at hl; simp at hl
      rw [if_neg c2] at hl
      simp only [Mkv.Out.ok.injEq] at hl
      rw [hl, List.length_map] at c2
      have : Mkv.laceRoom (bestLacing enc frames) frames.length ≤ 1 + frames.length * 4 := by
        unfold Mkv.laceRoom; split <;> omega
      omega
    rw [← hw]
    simp only [List.length_append]
    omega

theorem carries_read (enc : Nat → Enc) (b : Base) (h : Head) (frames : List Bytes) (hc : Carries (enc h.track) h frames) :
    (blockBytes enc b h frames).length < 2 ^ 33 ∧
    ∀ rest, ∃ lac, readBlock (simple b) (enc h.track) (blockBytes enc b h frames ++ rest) (blockBytes enc b h frames).length =
        .ok ⟨{ h with key := simple b && h.key, discard := simple b && h.discard, lacing := lac }, frames.map List.length, frames.flatten⟩ := by
  obtain ⟨c1, c2, c3, c4, c5, c6, c7, c8, c9, cf, c10, c11⟩ := hc
  have key : ∀ rest, ∃ bytes, writeAuto (simple b) (enc h.track) h frames = .ok bytes ∧ _ := fun rest =>
    Mkv.C33_auto_lossless_partial (simple b) (enc h.track) h frames rest c1 c2 c3 c4 c5 c6 c7 c8 c9 cf c10
      (c11.imp id (Or.imp (fun hn e => hn (List.append_eq_nil_iff.1 e).1) id))
  refine ⟨?_, fun rest => ?_⟩
  · obtain ⟨bytes, h1, _⟩ := key []
    have e : blockBytes enc b h frames = bytes := by rw [blockBytes, h1]
    have hl := block_length _ _ _ _ _ c9 h1
    rw [e]
    omega
  · obtain ⟨bytes, h1, _, h3⟩ := key rest
    have e : blockBytes enc b h frames = bytes := by rw [blockBytes, h1]
    rw [e]
    exact ⟨_, h3⟩

mutual
theorem docFollows_fits (env : Env) (enc : Nat → Enc) (d : Bool) (r : Nat) (h1 : 1 ≤ r) (h2 : r < mkvTable.length) :
    ∀ m : Document, DocFollows env enc d r m → Fits mkvScan env d r (m.elt enc)
  | .elem b dflt v, h => by
    simp only [DocFollows] at h
    exact follows_fits env d r h1 h2 _ h
  | .block b h frames, hf => by
    simp only [DocFollows] at hf
    obtain ⟨g1, g2, g3⟩ := hf
    have hl := (carries_read enc b h frames g3).1
    simp only [Document.elt, Fits]
    refine ⟨g1.symm, g1 ▸ mkv_ids_formed r h1 h2, by simp [mkvScan, g2, scanCls, leafCls], ?_, trivial⟩
    simp only [leafPayload]; omega
  | .master b crc ch, h => by
    simp only [DocFollows] at h
    obtain ⟨g1, g2, g3, g4, g5, g6⟩ := h
    simp only [Document.elt, Fits]
    refine ⟨g1.symm, g1 ▸ mkv_ids_formed r h1 h2, by simp [mkvScan, g2, scanCls], g3, g4, fun hc => ⟨g5 hc, 10, ?_, ?_⟩,
      docFollowsList_fits env enc d r g2 ch g6⟩
    · have : (mkv.ctx 10).id = 0xBF := by decide +kernel
      rw [← this]; exact mkv_offers r 10 g2 (.inr (.inr rfl))
    · decide +kernel
theorem docFollowsList_fits (env : Env) (enc : Nat → Enc) (d : Bool) (c : Nat) (hc : (mkv.ctx c).cls = .master) :
    ∀ ms : List Document, DocFollowsList env enc d c ms → FitsList mkvScan env d c (Document.elts enc ms)
  | [], _ => by simp only [Document.elts, FitsList]
  | m :: ms, h => by
    simp only [DocFollowsList] at h
    simp only [Document.elts, FitsList]
    refine ⟨fun hs => ?_, docFollowsList_fits env enc d c hc ms h.2⟩
    obtain ⟨r, ha, hf⟩ := h.1 hs
    have hr := allowed_range c r ha
    have hid : (m.elt enc).base.id = (mkv.ctx r).id := by
      cases m <;> (simp only [DocFollows] at hf; first | exact hf.1 | exact follows_id env d r _ hf)
    exact ⟨r, hid ▸ mkv_offers c r hc ha, docFollows_fits env enc d r hr.1 hr.2 m hf⟩
end

theorem loaded_notCrc (env : Env) (d : Bool) (k : Nat) (e : Elt) : (loaded env d k e).isCrc = false := by
  cases e with
  | leaf b dflt v => simp only [loaded]; rfl
  | master b crc ch =>
    simp only [loaded]
    split
    · rfl
    · split <;> rfl

theorem loadedList_notCrc (env : Env) (d : Bool) (k : Nat) : ∀ es : List Elt,
    (loadedList env d k es).filter (fun x => !x.isCrc) = loadedList env d k es
  | [] => by simp only [loadedList, List.filter_nil]
  | e :: es => by
    rw [loadedList]
    split
    · exact loadedList_notCrc env d k es
    · rw [List.filter_cons_of_pos (by simp [loaded_notCrc]), loadedList_notCrc env d k es]

mutual
theorem shows_loaded (env : Env) (enc : Nat → Enc) (d : Bool) : ∀ (m : Document) (k r : Nat), DocFollows env enc d r m →
    Shows env enc d k m (loaded env d k (m.elt enc))
  | .elem b dflt v, k, r, _ => by
    simp only [Shows, Document.elt, loaded]
    exact ⟨_, rfl, rfl⟩
  | .block b h frames, k, r, hf => by
    simp only [DocFollows] at hf
    simp only [Shows, Document.elt, loaded]
    exact ⟨_, _, rfl, rfl, rfl, (carries_read enc b h frames hf.2.2).2⟩
  | .master b crc ch, k, r, hf => by
    simp only [DocFollows] at hf
    have ih := showsList_loaded env enc d ch (k - 1) r hf.2.2.2.2.2
    have hn := loadedList_notCrc env d (k - 1) (Document.elts enc ch)
    simp only [Shows, Document.elt, loaded]
    by_cases hc : crc = 0
    · rw [if_pos hc]
      exact ⟨_, _, _, rfl, rfl, fun h => absurd hc h.1, by rw [hn]; exact ih⟩
    rw [if_neg hc]
    by_cases hk : k = 0
    · rw [if_pos hk]
      refine ⟨_, _, _, rfl, rfl, fun h => absurd hk h.2, ?_⟩
      rw [List.filter_cons_of_neg (by simp [Scan.crcNode, Node.isCrc]), hn]; exact ih
    · rw [if_neg hk]
      exact ⟨_, _, _, rfl, rfl, fun _ => rfl, by rw [hn]; exact ih⟩
theorem showsList_loaded (env : Env) (enc : Nat → Enc) (d : Bool) : ∀ (ms : List Document) (k c : Nat),
    DocFollowsList env enc d c ms → ShowsList env enc d k ms (loadedList env d k (Document.elts enc ms))
  | [], k, c, _ => by simp only [ShowsList, Document.elts, loadedList]
  | m :: ms, k, c, h => by
    simp only [DocFollowsList] at h
    have ih := showsList_loaded env enc d ms k c h.2
    simp only [ShowsList, Document.elts, loadedList, leftOut_eq env enc d m]
    by_cases hd : (!d && isDefault env (m.elt enc)) = true
    · rw [if_pos hd, if_pos hd]; exact ih
    · rw [if_neg hd, if_neg hd]
      obtain ⟨r, _, hf⟩ := h.1 (by simpa using hd)
      exact ⟨_, _, rfl, shows_loaded env enc d m k r hf, ih⟩
end

/-- C136. Every Matroska document or part that follows the element table, with blocks of any tracks and any
encodings C33 covers, as large and as deep as it likes (with the restrictions of C23), is written, and read
at any place of any file it loads as what was written: the same elements, values, order and nesting,
checksums verified, and every block with its track number, timestamp, flags and frames. -/
theorem C136_document_round_trip_partial (env : Env) (enc : Nat → Enc) (d allowDummy : Bool) (k root r : Nat) (m : Document)
    (hroot : (mkv.ctx root).cls = .master) (ha : Allowed root r) (hf : DocFollows env enc d r m)
    (hc : Coherent env d (m.elt enc)) (hs : m.leftOut env d = false) (dep : Nat) (hd : depth (m.elt enc) ≤ dep) :
    ∃ bytes, render env d dep (m.elt enc) = .ok bytes ∧
      ∀ before after mem fuel, bytes.length ≤ fuel →
        ∃ n pos, load mkvScan env allowDummy fuel (before ++ bytes ++ after) mem before.length root k = .ok n pos ∧
          Shows env enc d k m n := by
  have hr := allowed_range root r ha
  have hid : (m.elt enc).base.id = (mkv.ctx r).id := by
    cases m <;> (simp only [DocFollows] at hf; first | exact hf.1 | exact follows_id env d r _ hf)
  obtain ⟨bytes, h1, h2⟩ := Scan.C23_round_trip_partial mkvScan env d allowDummy k root r (m.elt enc) hc
    (by rw [← leftOut_eq]; exact hs) (docFollows_fits env enc d r hr.1 hr.2 m hf) (hid ▸ mkv_offers root r hroot ha) dep hd
  refine ⟨bytes, h1, fun before after mem fuel hfu => ?_⟩
  obtain ⟨pos, hl⟩ := h2 before after mem fuel hfu
  exact ⟨_, pos, hl, shows_loaded env enc d m k r hf⟩

/-- A Cluster with a timestamp, a SimpleBlock of two frames on track 1 and a BlockGroup with a Block of three
frames on track 300, whose header bytes `[9]` are stripped. -/
def goodCluster : Document :=
  .master ⟨0x1F43B675, -1, 0, true, true, true⟩ 1
    [.elem ⟨0xE7, -1, 0, true, true, true⟩ none (.uint 700),
     .block ⟨0xA3, -1, 0, true, true, true⟩ ⟨1, -3, true, false, false, .none⟩ [[1, 2, 3], [4]],
     .master ⟨0xA0, -1, 0, true, true, true⟩ 0
       [.block ⟨0xA1, -1, 0, true, true, true⟩ ⟨300, 12, false, false, true, .none⟩ [[9, 1], [9, 2], [9, 3]]]]

/-- Track 300 has header stripping. -/
def goodEnc (t : Nat) : Enc := if t = 300 then .strip [9] true else .plain

example : Allowed rSegment rCluster ∧ Coherent Scan.miniEnv true (goodCluster.elt goodEnc) ∧
    DocFollows Scan.miniEnv goodEnc true rCluster goodCluster := by
  refine ⟨.inl (by decide +kernel), ?_, ?_⟩
  · simp [goodCluster, Document.elt, Document.elts, Coherent, CoherentList, LeafReady, LeafSettled, needs, needsList]
  · simp only [goodCluster, DocFollows, DocFollowsList, Follows]
    refine ⟨by decide +kernel, by decide +kernel, trivial, by decide +kernel, fun _ => ⟨_, List.mem_cons_self, rfl⟩,
      fun _ => ⟨rTimestamp, .inl (by decide +kernel), by decide +kernel, by decide +kernel, by decide +kernel, trivial, by decide +kernel, by decide +kernel⟩,
      fun _ => ⟨38, .inl (by decide +kernel), by decide +kernel, by decide +kernel, ?_⟩,
      fun _ => ⟨rBlockGroup, .inl (by decide +kernel), by decide +kernel, by decide +kernel, trivial, by decide +kernel, fun h => absurd rfl h,
        fun _ => ⟨39, .inl (by decide +kernel), by decide +kernel, by decide +kernel, ?_⟩, trivial⟩, trivial⟩
    · refine ⟨by decide, by decide, by decide, by decide, by decide, by decide, by decide, by decide, trivial, trivial, ?_, by decide⟩
      intro h; exact h
    · refine ⟨by decide, by decide, by decide, by decide, by decide, by decide, by decide, by decide, ⟨rfl, by decide⟩, trivial, ?_, by decide⟩
      intro _; decide

example : render Scan.miniEnv true 3 (goodCluster.elt goodEnc) = .ok
    [0x1F, 0x43, 0xB6, 0x75, 0xA3, 0xBF, 0x84, 0x7D, 0xC5, 0x52, 0x05, 0xE7, 0x82, 2, 0xBC,
     0xA3, 0x8A, 0x81, 0xFF, 0xFD, 0x86, 1, 0x83, 1, 2, 3, 4,
     0xA0, 0x8B, 0xA1, 0x89, 0x41, 0x2C, 0, 12, 0x0C, 2, 1, 2, 3] := by decide +kernel

end Verif.Ebml.Master
