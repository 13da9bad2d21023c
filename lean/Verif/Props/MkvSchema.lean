import Verif.Mkv.SchemaFacts
import Verif.Props.Parse
/-!
Property theorems C103 and C104: the Matroska schema and Matroska documents.
-/
set_option linter.unusedSimpArgs false
namespace Verif.Ebml.Master
open Scan (PCtx createUsing Offers Fits FitsList leafCls LeafSurvives load loaded)
open EbmlDoc

/-- The class the element finder and the reader of the model know for a class of the table. A segment UID
is a binary for which the finder wants 16 bytes (matroskamain.c:2232-2241; the trees below have that size).
A block is a binary whose bytes are then parsed by a reader of its own (matroskamain.c:1407-1554; C136). -/
def scanCls : Cls → Scan.Cls
  | .uint => .uint | .sint => .sint | .date => .date | .float => .float | .str => .str | .bin | .uid | .block => .bin
  | .crc => .crc | .void => .void | .master => .master | .dummy => .dummy

/-- The Matroska table as the schema the finder uses; Void and CRC-32 are global, ebmlmain.c:26-33. -/
def mkvScan : Scan.Schema where
  ctx r := ⟨(mkv.ctx r).id, scanCls (mkv.ctx r).cls,
    if (mkv.ctx r).cls = .master then some ((mkv.ctx r).sem.map (·.ref)) else none⟩
  globals := [9, 10]

/-- The table allows type `r` as a child of type `c`: it is listed, or it is Void or CRC-32. -/
def Allowed (c r : Nat) : Prop := (∃ s ∈ (mkv.ctx c).sem, s.ref = r) ∨ r = 9 ∨ r = 10

theorem mkv_ids_formed : ∀ r, 1 ≤ r → r < mkvTable.length → ∃ n, WellFormedId (mkv.ctx r).id n := by
  have key : ∀ r < mkvTable.length, 1 ≤ r → ∃ n < 5, 1 ≤ n ∧ n ≤ 4 ∧ 2 ^ (7 * n) ≤ (mkv.ctx r).id ∧ (mkv.ctx r).id < 2 ^ (7 * n + 1) := by
    decide +kernel
  intro r h1 h2
  obtain ⟨n, _, h⟩ := key r h2 h1
  exact ⟨n, h⟩

theorem mkv_ref_inj {r r' : Nat} (h : r < mkvTable.length) (h' : r' < mkvTable.length)
    (he : (mkv.ctx r).id = (mkv.ctx r').id) : r = r' := by
  have hn := mkv_ids
  have e : ∀ r (h : r < mkvTable.length), (mkvTable.map (·.id))[r]? = some (mkv.ctx r).id := by
    intro r h
    rw [List.getElem?_map, List.getElem?_eq_getElem h]
    show _ = some (mkvTable.getD r _).id
    rw [List.getD_eq_getElem?_getD, List.getElem?_eq_getElem h]; rfl
  refine (List.getElem?_inj (by simpa using h) hn).1 ?_
  rw [e r h, e r' h', he]

theorem allowed_range (c r : Nat) (h : Allowed c r) : 1 ≤ r ∧ r < mkvTable.length := by
  rcases h with ⟨s, hs, rfl⟩ | rfl | rfl
  · rcases mkv_row c with ⟨_, hc⟩ | ⟨_, hc⟩
    · have key : ∀ c ∈ mkvTable, ∀ s ∈ c.sem, 1 ≤ s.ref ∧ s.ref < mkvTable.length := by decide +kernel
      exact key _ hc s hs
    · rw [hc] at hs; simp at hs
  · exact ⟨by decide, by decide +kernel⟩
  · exact ⟨by decide, by decide +kernel⟩

theorem mkv_offers (c r : Nat) (hc : (mkv.ctx c).cls = .master) (h : Allowed c r) : Offers mkvScan c (mkv.ctx r).id r := by
  have hr := allowed_range c r h
  refine ⟨rfl, (mkv.ctx c).sem.map (·.ref), by simp only [mkvScan, hc, if_true], ?_⟩
  have hin : ∀ x ∈ (mkv.ctx c).sem.map (·.ref), (mkv.ctx x).id = (mkv.ctx r).id → x = r := by
    intro x hx he
    obtain ⟨s, hs, rfl⟩ := List.mem_map.1 hx
    exact mkv_ref_inj (allowed_range c _ (.inl ⟨s, hs, rfl⟩)).2 hr.2 he
  by_cases hm : r ∈ (mkv.ctx c).sem.map (·.ref)
  · exact .inl ⟨hm, hin⟩
  · refine .inr ⟨fun x hx he => hm (hin x hx he ▸ hx), ?_, ?_⟩
    · rcases h with ⟨s, hs, rfl⟩ | rfl | rfl
      · exact absurd (List.mem_map.2 ⟨s, hs, rfl⟩) hm
      · exact List.mem_cons_self
      · exact List.mem_cons_of_mem _ List.mem_cons_self
    · intro x hx he
      refine mkv_ref_inj ?_ hr.2 he
      simp only [mkvScan, List.mem_cons, List.not_mem_nil, or_false] at hx
      rcases hx with rfl | rfl <;> decide +kernel

/-- C103. Every Matroska element type has a well-formed ID that no other type has, of one to four bytes;
and inside every master, for every type the table allows there, the bytes of its ID, whatever follows
them, make the reader create an element of that type and no other, at that level. -/
theorem C103_ids_recognised :
    (∀ r r', r < mkvTable.length → r' < mkvTable.length → (mkv.ctx r).id = (mkv.ctx r').id → r = r') ∧
    ∀ c r, (mkv.ctx c).cls = .master → Allowed c r → ∃ n, WellFormedId (mkv.ctx r).id n ∧
      ∀ rest allowDummy up endPos level, ∃ bytes, fillBufferID 4 (mkv.ctx r).id = some bytes ∧ bytes.length = n ∧
        ∃ lv, createUsing mkvScan (bytes ++ rest) n allowDummy (⟨c, endPos⟩ :: up) level = some (.known r, lv) ∧
          (lv = level ∨ lv = level - 1 ∧ (r = 9 ∨ r = 10)) := by
  refine ⟨fun r r' h h' he => mkv_ref_inj h h' he, ?_⟩
  intro c r hc ha
  obtain ⟨h1, h2⟩ := allowed_range c r ha
  obtain ⟨n, hn⟩ := mkv_ids_formed r h1 h2
  refine ⟨n, hn, fun rest allowDummy up endPos level => ?_⟩
  obtain ⟨bytes, g1, g2, _, _, g3⟩ := C10_id_roundtrip _ n hn 4 (Nat.le_refl 4) rest
  refine ⟨bytes, g1, g2, ?_⟩
  obtain ⟨_, sem, hs, ho⟩ := mkv_offers c r hc ha
  rw [createUsing.eq_def]
  simp only [hs, g3]
  rcases ho with ⟨hm, hu⟩ | ⟨hno, hm, hu⟩
  · rw [Scan.find_unique mkvScan sem (mkv.ctx r).id r rfl hm hu]
    exact ⟨level, rfl, .inl rfl⟩
  · have : sem.find? (fun r' => (mkvScan.ctx r').id == (mkv.ctx r).id) = none := by
      rw [List.find?_eq_none]
      intro x hx
      simpa using hno x hx
    rw [this]
    simp only []
    rw [Scan.find_unique mkvScan mkvScan.globals (mkv.ctx r).id r rfl hm hu]
    refine ⟨level - 1, rfl, .inr ⟨rfl, ?_⟩⟩
    simpa [mkvScan] using hm

example : Allowed rTargets rTagEditionUID ∧ (mkv.ctx rTargets).cls = .master ∧ (mkv.ctx rTagEditionUID).id = 0x63C9 := by
  refine ⟨.inl ?_, ?_, ?_⟩ <;> decide +kernel

/-! ### C104 -/

mutual
/-- The tree follows the Matroska table as an element of type `r`: IDs and classes are those of the table,
every child that is saved is allowed where it is, sizes are known and below 32 GiB, segment UIDs have 16
bytes, masters with a checksum have something to save, and values are such as their payload keeps. There
are no blocks: see `Document` (C136) for them. -/
def Follows (env : Env) (d : Bool) (r : Nat) : Elt → Prop
  | .leaf b _ v => b.id = (mkv.ctx r).id ∧ scanCls (mkv.ctx r).cls = leafCls v ∧
      (leafPayload env b v).length < 2 ^ 35 - 1 ∧ LeafSurvives env b v ∧ (mkv.ctx r).cls ≠ .block ∧
      ((mkv.ctx r).cls = .uid → (leafPayload env b v).length = 16)
  | .master b crc ch => b.id = (mkv.ctx r).id ∧ (mkv.ctx r).cls = .master ∧ b.finite = true ∧
      (payload (.group b.id 0 true (crc != 0) (toDocList env d ch))).length < 2 ^ 35 - 1 ∧
      (crc ≠ 0 → ∃ c ∈ ch, (!d && isDefault env c) = false) ∧ FollowsList env d r ch
def FollowsList (env : Env) (d : Bool) (c : Nat) : List Elt → Prop
  | [] => True
  | e :: es => ((!d && isDefault env e) = false → ∃ r, Allowed c r ∧ Follows env d r e) ∧ FollowsList env d c es
end

theorem follows_id (env : Env) (d : Bool) (r : Nat) (e : Elt) (h : Follows env d r e) : e.base.id = (mkv.ctx r).id := by
  cases e <;> (simp only [Follows] at h; exact h.1)

mutual
theorem follows_fits (env : Env) (d : Bool) (r : Nat) (h1 : 1 ≤ r) (h2 : r < mkvTable.length) :
    ∀ e : Elt, Follows env d r e → Fits mkvScan env d r e
  | .leaf b _ v, h => by
    simp only [Follows] at h
    simp only [Fits]
    exact ⟨h.1.symm, h.1 ▸ mkv_ids_formed r h1 h2, h.2.1, h.2.2.1, h.2.2.2.1⟩
  | .master b crc ch, h => by
    simp only [Follows] at h
    obtain ⟨g1, g2, g3, g4, g5, g6⟩ := h
    simp only [Fits]
    refine ⟨g1.symm, g1 ▸ mkv_ids_formed r h1 h2, by simp [mkvScan, g2, scanCls], g3, g4, fun hc => ⟨g5 hc, 10, ?_, ?_⟩,
      followsList_fits env d r g2 ch g6⟩
    · have : (mkv.ctx 10).id = 0xBF := by decide +kernel
      rw [← this]; exact mkv_offers r 10 g2 (.inr (.inr rfl))
    · decide +kernel
theorem followsList_fits (env : Env) (d : Bool) (c : Nat) (hc : (mkv.ctx c).cls = .master) :
    ∀ es : List Elt, FollowsList env d c es → FitsList mkvScan env d c es
  | [], _ => by simp only [FitsList]
  | e :: es, h => by
    simp only [FollowsList] at h
    simp only [FitsList]
    refine ⟨fun hs => ?_, followsList_fits env d c hc es h.2⟩
    obtain ⟨r, ha, hf⟩ := h.1 hs
    have hr := allowed_range c r ha
    exact ⟨r, follows_id env d r e hf ▸ mkv_offers c r hc ha, follows_fits env d r hr.1 hr.2 e hf⟩
end

/-- C104. Every Matroska document part that follows the element table, as large and as deep as it likes
(blocks excepted, and with the restrictions of C23), read in the place the table gives
it, loads as what was written: the same IDs, values, children and order, checksums verified. -/
theorem C104_matroska_round_trip_partial (env : Env) (d allowDummy : Bool) (k root r : Nat) (e : Elt)
    (hroot : (mkv.ctx root).cls = .master) (ha : Allowed root r) (hf : Follows env d r e)
    (hc : Coherent env d e) (hs : (!d && isDefault env e) = false) (dep : Nat) (hd : depth e ≤ dep) :
    ∃ bytes, render env d dep e = .ok bytes ∧
      ∀ before after mem fuel, bytes.length ≤ fuel →
        ∃ pos, load mkvScan env allowDummy fuel (before ++ bytes ++ after) mem before.length root k = .ok (loaded env d k e) pos :=
  have hr := allowed_range root r ha
  Scan.C23_round_trip_partial mkvScan env d allowDummy k root r e hc hs (follows_fits env d r hr.1 hr.2 e hf)
    (follows_id env d r e hf ▸ mkv_offers root r hroot ha) dep hd

/-- A Segment with a checksum, holding Tags with a Tag with Targets, and a Void. -/
def goodSegment : Elt :=
  .master ⟨0x18538067, -1, 0, true, true, true⟩ 1
    [.master ⟨0x1254C367, -1, 2, true, true, true⟩ 0
      [.master ⟨0x7373, -1, 0, true, true, true⟩ 1
        [.master ⟨0x63C0, -1, 0, true, true, true⟩ 0 [.leaf ⟨0x68CA, -1, 0, true, true, true⟩ none (.uint 30)]]],
     .leaf ⟨0xEC, 3, 0, true, true, true⟩ none .void]

example : Coherent Scan.miniEnv true goodSegment ∧ Allowed 0 rSegment ∧ Follows Scan.miniEnv true rSegment goodSegment := by
  refine ⟨?_, .inl (by decide +kernel), ?_⟩
  · simp [goodSegment, Coherent, CoherentList, LeafReady, LeafSettled, needs, needsList]
  · simp only [goodSegment, Follows, FollowsList]
    refine ⟨by decide +kernel, by decide +kernel, trivial, by decide +kernel, fun _ => ⟨_, List.mem_cons_self, rfl⟩,
      fun _ => ⟨rTags, .inl (by decide +kernel), by decide +kernel, by decide +kernel, trivial, by decide +kernel, fun h => absurd rfl h,
        fun _ => ⟨rTag, .inl (by decide +kernel), by decide +kernel, by decide +kernel, trivial, by decide +kernel, fun _ => ⟨_, List.mem_cons_self, rfl⟩,
          fun _ => ⟨rTargets, .inl (by decide +kernel), by decide +kernel, by decide +kernel, trivial, by decide +kernel, fun h => absurd rfl h,
            fun _ => ⟨rTargetTypeValue, .inl (by decide +kernel), by decide +kernel, by decide +kernel, by decide +kernel, trivial, by decide +kernel, by decide +kernel⟩, trivial⟩, trivial⟩, trivial⟩,
      fun _ => ⟨9, .inr (.inl rfl), by decide +kernel, by decide +kernel, by decide +kernel, trivial, by decide +kernel, by decide +kernel⟩, trivial⟩

end Verif.Ebml.Master
