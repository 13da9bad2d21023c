import Verif.Mkclean.Output
import Verif.Mkclean.LayoutLemmas
import Verif.Props.Tree
import Mathlib.Data.List.Forall2
/-! Lemmas about the output of mkclean. -/
set_option linter.unusedSimpArgs false
namespace Verif.Mkclean
open Verif.Ebml Verif.EbmlDoc Verif.Mkv

theorem rendered_eq (env : Ebml.Env) (e : Elt) (h : Coherent env false e) (hd : isDefault env e = false) :
    rendered env e = encode (toDoc env false e) ∧
      ((rendered env e).length : Int) = fullSizeBase (update env false e).base := by
  have := C22_announced_size_partial env false e h (by simp [hd]) (depth e) (Nat.le_refl _)
  have e1 : rendered env e = encode (toDoc env false e) := by simp [rendered, this.1, bytesOf]
  exact ⟨e1, by rw [e1, this.2.2.2.1]⟩

theorem writeAt_mid (a b d : Bytes) : writeAt (a ++ b) a.length d = a ++ (d ++ b.drop d.length) := by
  simp [writeAt, List.drop_append, List.append_assoc]

/-! The SeekHead. -/

theorem metaSeek_fresh (seg : Int) (id : Nat) (pos : Int) (hid : id < 2 ^ 32) :
    metaSeekUpdate seg id pos [] =
      [.leaf ⟨0x53AB, (idField id).length, 0, true, false, true⟩ none (.bin (idField id)),
        .leaf ⟨0x53AC, -1, 0, true, true, true⟩ none (.uint (BitVec.ofInt 64 (pos - seg)))] := by
  have hb : fillBufferID 4 id = some (idField id) := by
    have hl := idLength_eq id hid
    have : idLength id ≤ 4 := by rw [hl]; (repeat' split) <;> omega
    rw [fillBufferID, if_neg (by omega), idField, hl]
  unfold metaSeekUpdate
  rw [hb]
  rfl

theorem idField_len (id : Nat) : 1 ≤ (idField id).length ∧ (idField id).length ≤ 4 := by
  rw [idField, beBytes_length]
  (repeat' split) <;> omega

theorem idField_ne (id : Nat) : idField id ≠ [] := by
  have := idField_len id
  intro h; rw [h] at this; simp at this

/-- The document of a Seek entry. -/
def entryDoc (safe : Bool) (seg : Int) (e : Nat × Int) : Doc :=
  .group 0x4DBB 1 true safe [.elem 0x53AB 1 (idField e.1),
    .elem 0x53AC 1 (beBytes (naturalSizeInt (BitVec.ofInt 64 (e.2 - seg))) (BitVec.ofInt 64 (e.2 - seg)).toInt)]

theorem crc_if (safe : Bool) : ((if safe then 1 else 0 : Nat) != 0) = safe := by cases safe <;> rfl

theorem entry_payload (safe : Bool) (id len l1 l2 : Nat) (a b : Bytes) :
    (payload (.group id len true safe [.elem 0x53AB l1 a, .elem 0x53AC l2 b])).length =
      (if safe then 6 else 0) + 4 + l1 + l2 + a.length + b.length := by
  cases safe <;> simp [payload, encodeList, crcElement_length, sizeField_length, idField_length] <;>
    simp [idLength] <;> omega

theorem entry_toDoc (env : Ebml.Env) (safe : Bool) (seg : Int) (e : Nat × Int) (hid : e.1 < 2 ^ 32) :
    toDoc env false (.master ⟨0x4DBB, -1, 0, true, true, true⟩ (if safe then 1 else 0) (metaSeekUpdate seg e.1 e.2 [])) =
      entryDoc safe seg e := by
  rw [metaSeek_fresh seg e.1 e.2 hid]
  have hl := idField_len e.1
  have hn := natural_uint (BitVec.ofInt 64 (e.2 - seg))
  simp only [toDoc, toDocList, isDefault, leafPayload, Bool.not_false, Bool.true_and, Bool.false_eq_true, if_false,
    crc_if, beBytes_length]
  rw [coded_small ((idField e.1).length : Int) (by omega),
    coded_small (naturalSizeInt (BitVec.ofInt 64 (e.2 - seg)) : Int) (by omega), entry_payload, coded_small _ (by
    rw [beBytes_length]; split <;> omega)]
  rfl

theorem entry_coherent (env : Ebml.Env) (safe : Bool) (seg : Int) (e : Nat × Int) (hid : e.1 < 2 ^ 32) :
    Coherent env false (.master ⟨0x4DBB, -1, 0, true, true, true⟩ (if safe then 1 else 0) (metaSeekUpdate seg e.1 e.2 [])) := by
  rw [metaSeek_fresh seg e.1 e.2 hid]
  simp [Coherent, CoherentList, LeafReady, LeafSettled, needs]

theorem seekHead_coherent (env : Ebml.Env) (safe : Bool) (seg : Int) (es : List (Nat × Int))
    (hid : ∀ e ∈ es, e.1 < 2 ^ 32) : Coherent env false (seekHeadElt safe seg es) := by
  have hl : CoherentList env false (es.map fun e => .master ⟨0x4DBB, -1, 0, true, true, true⟩ (if safe then 1 else 0)
      (metaSeekUpdate seg e.1 e.2 [])) := by
    induction es with
    | nil => simp [CoherentList]
    | cons e es ih =>
      rw [List.map_cons]
      exact ⟨fun _ => entry_coherent env safe seg e (hid e (by simp)), ih fun x hx => hid x (by simp [hx])⟩
  unfold seekHeadElt
  simp only [Coherent]
  exact ⟨trivial, by decide, by decide, hl, fun h => by simp [needs] at h⟩

theorem seekHead_docs (env : Ebml.Env) (safe : Bool) (seg : Int) (es : List (Nat × Int))
    (hid : ∀ e ∈ es, e.1 < 2 ^ 32) :
    toDocList env false (es.map fun e => .master ⟨0x4DBB, -1, 0, true, true, true⟩ (if safe then 1 else 0)
      (metaSeekUpdate seg e.1 e.2 [])) = es.map (entryDoc safe seg) := by
  induction es with
  | nil => rfl
  | cons e es ih =>
    rw [List.map_cons, toDocList]
    simp only [isDefault, Bool.and_false, Bool.false_eq_true, if_false]
    rw [entry_toDoc env safe seg e (hid e (by simp)), ih fun x hx => hid x (by simp [hx]), List.map_cons]

theorem seekHead_bytes (env : Ebml.Env) (safe : Bool) (seg : Int) (es : List (Nat × Int))
    (hid : ∀ e ∈ es, e.1 < 2 ^ 32) :
    ∃ len, 1 ≤ len ∧ len ≤ 5 ∧ rendered env (seekHeadElt safe seg es) =
      encode (.group 0x114D9B74 len true safe (es.map (entryDoc safe seg))) := by
  have h := (rendered_eq env _ (seekHead_coherent env safe seg es hid) rfl).1
  rw [h]
  unfold seekHeadElt
  simp only [toDoc]
  rw [seekHead_docs env safe seg es hid, crc_if]
  exact ⟨_, codedSizeLength_pos _ _ _, by unfold codedSizeLength; (repeat' split) <;> simp_all, rfl⟩

theorem entry_length (safe : Bool) (seg : Int) (e : Nat × Int) : (encode (entryDoc safe seg e)).length ≤ 27 := by
  have hl := idField_len e.1
  have hn := natural_uint (BitVec.ofInt 64 (e.2 - seg))
  unfold entryDoc
  rw [encode_group]
  simp only [if_true, List.length_append, sizeField_length, idField_length 0x4DBB (by decide), entry_payload, beBytes_length]
  have : idLength 0x4DBB = 2 := by decide
  rw [this]
  split <;> omega

theorem seekHead_length (env : Ebml.Env) (safe : Bool) (seg : Int) (es : List (Nat × Int))
    (hid : ∀ e ∈ es, e.1 < 2 ^ 32) : (rendered env (seekHeadElt safe seg es)).length ≤ 15 + 27 * es.length := by
  obtain ⟨len, h1, h2, h⟩ := seekHead_bytes env safe seg es hid
  rw [h, encode_group]
  have hs : (encodeList (es.map (entryDoc safe seg))).length ≤ 27 * es.length := by
    clear h hid
    induction es with
    | nil => simp [encodeList]
    | cons e es ih =>
      have := entry_length safe seg e
      rw [List.map_cons, encodeList_cons, List.length_append, List.length_cons]
      omega
  simp only [if_true, List.length_append, sizeField_length, idField_length 0x114D9B74 (by decide), payload]
  have : idLength 0x114D9B74 = 4 := by decide
  rw [this]
  cases safe <;> simp only [Bool.false_eq_true, if_false, if_true, List.length_nil, crcElement_length] <;> omega

/-! The Void. -/

theorem extraVoid_range (parts : List Part) : 44 ≤ extraVoid parts ∧ extraVoid parts ≤ 110 := by
  unfold extraVoid
  (repeat' split) <;> omega

theorem void_length (env : Ebml.Env) (n : Nat) (h : 2 ≤ n) :
    n - 1 ≤ (voidBytes env n).length ∧ (voidBytes env n).length ≤ n ∧ (n < 127 → (voidBytes env n).length = n) := by
  have hv := C20_void_full_size_partial env false n
  have key : ∀ k, (render env false 1 (.leaf (voidSetFullSize newVoid n).1 none .void)).bytes = some k →
      (voidBytes env n).length = k := by
    intro k hk
    unfold voidBytes rendered
    have hd : depth (.leaf (voidSetFullSize newVoid n).1 none .void) = 1 := rfl
    rw [hd]
    cases hr : render env false 1 (.leaf (voidSetFullSize newVoid n).1 none .void) with
    | ok b => rw [hr] at hk; simpa [Res.bytes, bytesOf] using hk
    | err => rw [hr] at hk; simp [Res.bytes] at hk
    | undef => rw [hr] at hk; simp [Res.bytes] at hk
  by_cases hb : VoidBoundary n
  · have := key _ (hv.2.2 h hb)
    refine ⟨by omega, by omega, fun h127 => ?_⟩
    obtain ⟨k, h1, h2, h3, h4⟩ := hb
    exfalso
    have : k = 1 ∨ k = 2 ∨ k = 3 ∨ k = 4 := by omega
    rcases this with e | e | e | e <;> subst e <;> simp at h3 h4 <;> omega
  · have := key _ (hv.2.1 h hb)
    omega

/-! The sections. -/

theorem partsFrom_end : ∀ (ps : List Part) (pos : Int),
    (partsFrom pos ps).2 = pos + ((ps.map (·.bytes)).flatten.length : Nat) := by
  intro ps
  induction ps with
  | nil => intro pos; simp [partsFrom]
  | cons p ps ih =>
    intro pos
    simp only [partsFrom, ih, List.map_cons, List.flatten_cons, List.length_append]
    omega

theorem partsFrom_at : ∀ (ps : List Part) (pos : Int) (i : Nat) (p : Part), ps[i]? = some p →
    (partsFrom pos ps).1[i]? = some (p.id, pos + (((ps.take i).map (·.bytes)).flatten.length : Nat)) := by
  intro ps
  induction ps with
  | nil => intro pos i p h; simp at h
  | cons q ps ih =>
    intro pos i p h
    cases i with
    | zero => simp at h; subst h; simp [partsFrom]
    | succ i =>
      simp only [List.getElem?_cons_succ] at h
      simp only [partsFrom, List.getElem?_cons_succ, ih _ i p h, List.take_succ_cons, List.map_cons,
        List.flatten_cons, List.length_append]
      congr 2; omega

theorem partsFrom_length : ∀ (ps : List Part) (pos : Int), (partsFrom pos ps).1.length = ps.length := by
  intro ps
  induction ps with
  | nil => intro pos; rfl
  | cons p ps ih => intro pos; simp [partsFrom, ih]

theorem partsFrom_ids (ps : List Part) : ∀ (pos : Int), (partsFrom pos ps).1.map (·.1) = ps.map (·.id) := by
  induction ps with
  | nil => intro pos; rfl
  | cons p ps ih => intro pos; simp [partsFrom, ih]

theorem guesses_ids (ps : List Part) : ∀ (pos : Int), (guesses pos ps).1.map (·.1) = ps.map (·.id) := by
  induction ps with
  | nil => intro pos; rfl
  | cons p ps ih => intro pos; simp [guesses, ih]

/-- IDs in a SeekHead. -/
theorem entries_ids (es : List (Nat × Int)) (ps : List Part) (hp : ∀ p ∈ ps, p.id < 2 ^ 32)
    (he : es.map (·.1) = ps.map (·.id)) (c k : Option Int) : ∀ e ∈ entriesOf es c k, e.1 < 2 ^ 32 := by
  intro e h
  unfold entriesOf at h
  simp only [List.mem_append, Option.mem_toList, Option.map_eq_some_iff] at h
  rcases h with (h | ⟨_, _, rfl⟩) | ⟨_, _, rfl⟩
  · have : e.1 ∈ es.map (·.1) := List.mem_map_of_mem h
    rw [he] at this
    obtain ⟨p, hp', e'⟩ := List.mem_map.1 this
    rw [← e']; exact hp p hp'
  · simp
  · simp

theorem entries_length (es : List (Nat × Int)) (c k : Option Int) : (entriesOf es c k).length ≤ es.length + 2 := by
  unfold entriesOf
  cases c <;> cases k <;> simp

/-! The Clusters. -/

theorem cluster_coherent (env : Ebml.Env) (scale : Int) (prev : Option (BitVec 64)) (c : OutCluster)
    (hs : c.sizeLength ≤ 8) (hb : ∀ b ∈ c.blocks, Coherent env false b.2) : Coherent env false (c.elt scale prev) := by
  have hu : ∀ id v, id < 2 ^ 32 → Coherent env false (newUint id v) := by
    intro id v h
    simp [newUint, newBase, Coherent, LeafReady]
    simpa using h
  have hl : ∀ bs : List (Bool × Elt), (∀ b ∈ bs, Coherent env false b.2) → CoherentList env false (bs.map (·.2)) := by
    intro bs
    induction bs with
    | nil => intro _; simp [CoherentList]
    | cons b bs ih => intro h; exact ⟨fun _ => h b (by simp), ih fun x hx => h x (by simp [hx])⟩
  have hch : CoherentList env false (newUint 0xE7 (BitVec.ofInt 64 (scale64 c.time scale)) ::
      ((prev.map (newUint 0xAB)).toList ++ c.blocks.map (·.2))) := by
    refine ⟨fun _ => hu _ _ (by decide), ?_⟩
    cases prev with
    | none => exact hl _ hb
    | some v => exact ⟨fun _ => hu _ _ (by decide), hl _ hb⟩
  unfold OutCluster.elt
  simp only [Coherent]
  exact ⟨trivial, by decide, hs, hch, fun h => by simp [needs] at h⟩

theorem toDocList_append (env : Ebml.Env) (d : Bool) : ∀ a b : List Elt,
    toDocList env d (a ++ b) = toDocList env d a ++ toDocList env d b := by
  intro a
  induction a with
  | nil => intro b; simp [toDocList]
  | cons e es ih =>
    intro b
    rw [List.cons_append, toDocList, toDocList, ih]
    split <;> rfl

theorem uint_toDoc (env : Ebml.Env) (id : Nat) (v : BitVec 64) :
    toDoc env false (newUint id v) = .elem id 1 (beBytes (naturalSizeInt v) v.toInt) := by
  have := natural_uint v
  simp only [newUint, newBase, toDoc, leafPayload]
  rw [beBytes_length, coded_small _ (by omega)]

/-- The document of a Cluster. -/
def clusterDoc (env : Ebml.Env) (scale : Int) (prev : Option (BitVec 64)) (len : Nat) (c : OutCluster) : Doc :=
  .group 0x1F43B675 len true (c.crc != 0)
    (.elem 0xE7 1 (beBytes (naturalSizeInt (BitVec.ofInt 64 (scale64 c.time scale))) (BitVec.ofInt 64 (scale64 c.time scale)).toInt) ::
      ((prev.map fun v => Doc.elem 0xAB 1 (beBytes (naturalSizeInt v) v.toInt)).toList ++
        toDocList env false (c.blocks.map (·.2))))

theorem cluster_toDoc (env : Ebml.Env) (scale : Int) (prev : Option (BitVec 64)) (c : OutCluster) :
    toDoc env false (c.elt scale prev) =
      clusterDoc env scale prev (codedSizeLength (payload (clusterDoc env scale prev 0 c)).length c.sizeLength true) c := by
  have hd : ∀ id v, isDefault env (newUint id v) = false := fun _ _ => rfl
  unfold OutCluster.elt clusterDoc
  simp only [toDoc]
  cases prev <;>
    simp only [Option.map_none, Option.map_some, Option.toList_none, Option.toList_some, List.nil_append,
      List.cons_append, toDocList, hd, Bool.not_false, Bool.true_and, Bool.false_eq_true, if_false, uint_toDoc]

theorem clusterDoc_payload (env : Ebml.Env) (scale : Int) (prev : Option (BitVec 64)) (len : Nat) (c : OutCluster) :
    (payload (clusterDoc env scale prev len c)).length =
      (payload (clusterDoc env scale none 0 c)).length + (match prev with | none => 0 | some v => 2 + naturalSizeInt v) := by
  have h1 : (idField 0xAB).length = 1 := by decide
  unfold clusterDoc
  cases prev with
  | none =>
    simp only [payload, Option.map_none, Option.toList_none, List.nil_append, List.length_append]
    cases (c.crc != 0) <;> simp [crcElement_length]
  | some v =>
    simp only [payload, Option.map_none, Option.toList_none, List.nil_append, List.length_append, Option.map_some,
      Option.toList_some, List.cons_append]
    simp only [encodeList, List.length_append, sizeField_length, beBytes_length, h1]
    cases (c.crc != 0) <;> simp [crcElement_length] <;> omega

/-- A Cluster takes the bytes it was planned with. -/
theorem cluster_length (env : Ebml.Env) (scale : Int) (prev : Option (BitVec 64)) (pos : Int) (c : OutCluster)
    (hs : c.sizeLength ≤ 8) (hb : ∀ b ∈ c.blocks, Coherent env false b.2) :
    ((rendered env (c.elt scale prev)).length : Int) = ({ c.clu env scale with prevSize := prev, pos := pos } : Clu).fullSize := by
  have h1 := rendered_eq env _ (cluster_coherent env scale prev c hs hb) rfl
  have h2 := updated env false _ (by rfl) (cluster_coherent env scale none c hs hb)
  have h3 := updated env false _ (by rfl) (cluster_coherent env scale prev c hs hb)
  have hbase : ∀ p, (update env false (c.elt scale p)).base.id = 0x1F43B675 ∧
      (update env false (c.elt scale p)).base.sizeLength = c.sizeLength ∧
      (update env false (c.elt scale p)).base.finite = true := by
    intro p
    unfold OutCluster.elt
    rw [update]
    split
    · split <;> simp [Elt.base, baseUpdate]
    · simp [Elt.base, baseUpdate]
  rw [h1.2]
  have e1 := h2.data
  have e2 := h3.data
  rw [cluster_toDoc, clusterDoc_payload] at e1 e2
  obtain ⟨b1, b2, b3⟩ := hbase prev
  have hdata : ({ c.clu env scale with prevSize := prev, pos := pos } : Clu).dataSize =
      (update env false (c.elt scale prev)).base.dataSize := by
    rw [e2]
    unfold Clu.dataSize OutCluster.clu
    simp only [e1]
    cases prev <;> simp
  unfold Clu.fullSize
  rw [hdata]
  simp only [fullSizeBase, b1, b2, b3]
  rfl

/-! Settling, from its outcome. -/

/-- What an update of the Cues keeps of a CuePoint. -/
def Cue.key (c : Cue) : BitVec 64 × BitVec 64 × Nat × Option Nat := (c.time, c.track, c.crc, c.cluster)

/-- The CuePoint names the place of its Cluster. -/
def NamesPlace (clusters : List Clu) (seg : Int) (c : Cue) : Prop :=
  ∃ k cl, c.cluster = some k ∧ clusters[k]? = some cl ∧ c.pos = BitVec.ofInt 64 (cl.pos - seg)

theorem updateCues_names (clusters : List Clu) (seg : Int) : ∀ ps qs : List Cue,
    updateCues clusters seg ps = some qs →
    qs.map Cue.key = ps.map Cue.key ∧ ∀ q ∈ qs, NamesPlace clusters seg q := by
  intro ps
  induction ps with
  | nil => intro qs h; simp only [updateCues, Option.some.injEq] at h; subst h; simp
  | cons c ps ih =>
    intro qs h
    rw [updateCues] at h
    cases h1 : updateCue clusters seg c with
    | none => rw [h1] at h; simp at h
    | some c' =>
      cases h2 : updateCues clusters seg ps with
      | none => rw [h1, h2] at h; simp at h
      | some cs' =>
        rw [h1, h2] at h
        simp only [Option.some.injEq] at h
        subst h
        obtain ⟨i1, i2⟩ := ih cs' h2
        rw [updateCue] at h1
        cases hk : c.cluster with
        | none => rw [hk] at h1; simp at h1
        | some k =>
          rw [hk] at h1
          simp only at h1
          cases hc : clusters[k]? with
          | none => rw [hc] at h1; simp at h1
          | some cl =>
            rw [hc] at h1
            simp only [Option.some.injEq] at h1
            subst h1
            refine ⟨by simp [i1, Cue.key, hk], ?_⟩
            intro q hq
            simp only [List.mem_cons] at hq
            rcases hq with rfl | hq
            · exact ⟨k, cl, rfl, hc, rfl⟩
            · exact i2 q hq

theorem settle_done (env : Ebml.Env) (safe : Bool) (start seg : Int) : ∀ (fuel : Nat) (C C' : List Clu) (cues cues' : Cues),
    settle env safe start seg fuel C cues = .done C' cues' →
    C' = place safe (start + cues'.fullSize) none C ∧
    cues'.points.map Cue.key = cues.points.map Cue.key ∧ (∀ q ∈ cues'.points, NamesPlace C' seg q) ∧
    cues'.dataSize = (if cues'.crc ≠ 0 then 6 else 0) + (pointsSize cues'.points : Int) ∧
    cues'.crc = cues.crc ∧ cues'.sizeLength = cues.sizeLength := by
  intro fuel
  induction fuel with
  | zero => intro C C' cues cues' h; simp [settle] at h
  | succ fuel ih =>
    intro C C' cues cues' h
    rw [settle] at h
    cases hu : updateCues (place safe (start + cues.fullSize) none C) seg cues.points with
    | none => rw [hu] at h; simp at h
    | some ps =>
      rw [hu] at h
      obtain ⟨k1, k2⟩ := updateCues_names _ _ _ _ hu
      simp only at h
      split at h
      · rename_i hs
        simp only [Settle.done.injEq] at h
        obtain ⟨rfl, rfl⟩ := h
        refine ⟨?_, k1, k2, ?_, rfl, rfl⟩
        · rw [hs]; rfl
        · simp only
          rw [cues_size]
      · obtain ⟨i1, i2, i3, i4, i5, i6⟩ := ih _ _ _ _ h
        refine ⟨?_, ?_, i3, i4, i5, i6⟩
        · rw [i1]; exact place_idem _ _ _ _ _
        · rw [i2]; exact k1

/-! Writing the Clusters. -/

theorem writeClusters_length (env : Ebml.Env) (scale : Int) : ∀ (cs : List (OutCluster × Option (BitVec 64))) (prev pos : Int),
    (writeClusters env scale prev pos cs).1.length = cs.length := by
  intro cs
  induction cs with
  | nil => intros; rfl
  | cons c cs ih => intro prev pos; simp [writeClusters, ih]

theorem writeClusters_at (env : Ebml.Env) (scale : Int) : ∀ (cs : List (OutCluster × Option (BitVec 64))) (prev pos : Int)
    (k : Nat) (x : Bytes × Int), (writeClusters env scale prev pos cs).1[k]? = some x →
    x.2 = pos + ((((writeClusters env scale prev pos cs).1.take k).map (·.1)).flatten.length : Nat) := by
  intro cs
  induction cs with
  | nil => intro prev pos k x h; simp [writeClusters] at h
  | cons c cs ih =>
    intro prev pos k x h
    cases k with
    | zero =>
      simp only [writeClusters, List.getElem?_cons_zero, Option.some.injEq] at h
      rw [← h]; simp
    | succ k =>
      simp only [writeClusters, List.getElem?_cons_succ] at h
      rw [ih _ _ k x h]
      simp only [writeClusters, List.take_succ_cons, List.map_cons, List.flatten_cons, List.length_append]
      omega

/-- The bytes of Cluster `k`: the Cluster without its unreadable blocks and with some time. -/
theorem writeClusters_bytes (env : Ebml.Env) (scale : Int) : ∀ (cs : List (OutCluster × Option (BitVec 64))) (prev pos : Int)
    (k : Nat) (c : OutCluster × Option (BitVec 64)), cs[k]? = some c →
    ∃ t p, (writeClusters env scale prev pos cs).1[k]? =
        some (rendered env ({ c.1.read.1 with time := t }.elt scale c.2), p) ∧
      ((writeClusters env scale prev pos cs).2 = false → t = c.1.time ∧ c.1.read.1 = c.1) := by
  intro cs
  induction cs with
  | nil => intro prev pos k c h; simp at h
  | cons c0 cs ih =>
    intro prev pos k c h
    cases k with
    | zero =>
      simp only [List.getElem?_cons_zero, Option.some.injEq] at h
      subst h
      refine ⟨_, _, by simp only [writeClusters, List.getElem?_cons_zero]; rfl, ?_⟩
      intro hch
      simp only [writeClusters, Bool.or_eq_false_iff] at hch
      obtain ⟨hc, _⟩ := hch
      simp only [writeCluster, Bool.or_eq_false_iff] at hc
      refine ⟨by simp only [hc.2, Bool.false_eq_true, if_false], ?_⟩
      have hb := hc.1
      simp only [OutCluster.read, List.any_eq_false, Bool.not_eq_true', Bool.not_eq_false] at hb ⊢
      have : c0.1.blocks.filter (·.1) = c0.1.blocks := List.filter_eq_self.2 hb
      rw [this]
    | succ k =>
      simp only [List.getElem?_cons_succ] at h
      obtain ⟨t, p, h1, h2⟩ := ih (writeCluster scale prev c0.1).2.1
        (pos + (rendered env ((writeCluster scale prev c0.1).1.elt scale c0.2)).length) k c h
      refine ⟨t, p, by simp only [writeClusters, List.getElem?_cons_succ]; exact h1, ?_⟩
      intro hch
      simp only [writeClusters, Bool.or_eq_false_iff] at hch
      exact h2 hch.2

/-- The times of Clusters that are each later than the one before stay. -/
theorem writeClusters_times (env : Ebml.Env) (scale : Int) : ∀ (cs : List (OutCluster × Option (BitVec 64))) (prev pos : Int),
    (cs.map (·.1.time)).Pairwise (· < ·) → (prev = invalidTs ∨ ∀ c ∈ cs, prev < c.1.time) →
    ∀ (k : Nat) (c : OutCluster × Option (BitVec 64)), cs[k]? = some c →
    ∃ p, (writeClusters env scale prev pos cs).1[k]? = some (rendered env (c.1.read.1.elt scale c.2), p) := by
  intro cs
  induction cs with
  | nil => intro prev pos _ _ k c h; simp at h
  | cons c0 cs ih =>
    intro prev pos ht hp k c h
    simp only [List.map_cons, List.pairwise_cons] at ht
    have hlate : decide (prev ≠ invalidTs ∧ prev ≥ c0.1.time) = false := by
      rw [decide_eq_false_iff_not]
      rintro ⟨h1, h2⟩
      rcases hp with h | h
      · exact h1 h
      · have := h c0 (by simp); omega
    cases k with
    | zero =>
      simp only [List.getElem?_cons_zero, Option.some.injEq] at h
      subst h
      refine ⟨_, by simp only [writeClusters, List.getElem?_cons_zero, writeCluster, hlate, Bool.false_eq_true, if_false]; rfl⟩
    | succ k =>
      simp only [List.getElem?_cons_succ] at h
      obtain ⟨p, h1⟩ := ih (writeCluster scale prev c0.1).2.1
        (pos + (rendered env ((writeCluster scale prev c0.1).1.elt scale c0.2)).length) ht.2 (by
          right
          intro c hc
          simp only [writeCluster, hlate, Bool.false_eq_true, if_false]
          exact ht.1 _ (List.mem_map_of_mem hc)) k c h
      exact ⟨p, by simp only [writeClusters, List.getElem?_cons_succ]; exact h1⟩

/-- Nothing changes when every block is readable and the times increase. -/
theorem writeClusters_same (env : Ebml.Env) (scale : Int) : ∀ (cs : List (OutCluster × Option (BitVec 64))) (prev pos : Int),
    (∀ c ∈ cs, ∀ b ∈ c.1.blocks, b.1 = true) → (cs.map (·.1.time)).Pairwise (· < ·) →
    (prev = invalidTs ∨ ∀ c ∈ cs, prev < c.1.time) →
    (writeClusters env scale prev pos cs).2 = false := by
  intro cs
  induction cs with
  | nil => intros; rfl
  | cons c cs ih =>
    intro prev pos hr ht hp
    simp only [List.map_cons, List.pairwise_cons] at ht
    have hlate : decide (prev ≠ invalidTs ∧ prev ≥ c.1.time) = false := by
      rw [decide_eq_false_iff_not]
      rintro ⟨h1, h2⟩
      rcases hp with h | h
      · exact h1 h
      · have := h c (by simp); omega
    have hread : (c.1.read).2 = false := by
      simp only [OutCluster.read, List.any_eq_false, Bool.not_eq_true', Bool.not_eq_false]
      exact hr c (by simp)
    have htime : (writeCluster scale prev c.1).2.1 = c.1.time := by
      simp only [writeCluster, hlate, Bool.false_eq_true, if_false]
    simp only [writeClusters, Bool.or_eq_false_iff]
    refine ⟨by simp only [writeCluster, hlate, hread, Bool.or_self], ?_⟩
    rw [htime]
    apply ih
    · intro x hx; exact hr x (by simp [hx])
    · exact ht.2
    · exact Or.inr fun x hx => ht.1 _ (List.mem_map_of_mem hx)

/-! The file. -/

/-- Length of the size field of the first Segment head. -/
def tempLen : Option Nat → Nat
  | some s => codedSizeLength s 0 true
  | none => 8

theorem tempHead_length (s : Option Nat) : (renderHead (tempHead s)).length = 4 + tempLen s := by
  have h4 : ((fillBufferID 12 0x18538067).getD []).length = 4 := by decide
  cases s with
  | some s =>
    have := codedSizeLength_pos s 0 true
    simp only [Ebml.renderHead, tempHead, List.length_append, h4, tempLen]
    rw [codedValue_length _ _ _ this]
  | none =>
    have : codedSizeLength (-1) 8 true = 8 := by decide
    simp only [Ebml.renderHead, tempHead, List.length_append, h4, tempLen, this]
    rw [codedValue_length _ _ _ (by decide)]

theorem finalHead_eq (s : Option Nat) (n : Nat) :
    renderHead (finalHead (tempHead s) n) =
      idField 0x18538067 ++ sizeField (max (tempLen s) (codedSizeLength n 0 true)) n := by
  have hn5 : codedSizeLength n 0 true ≤ 5 := by unfold codedSizeLength; (repeat' split) <;> simp_all
  have hn1 := codedSizeLength_pos n 0 true
  have hgrow : ∀ k : Nat, codedSizeLength n 0 true < k → codedSizeLength n k true = k := by
    intro k hk
    have : ∀ c : Nat, c < k → (if k ≠ 0 ∧ c < k then k else c) = k := by
      intro c hc; rw [if_pos ⟨by omega, hc⟩]
    simp only [codedSizeLength, ne_eq, not_true_eq_false, false_and, if_false] at hk ⊢
    exact this _ hk
  cases s with
  | some s =>
    have hs5 : codedSizeLength s 0 true ≤ 5 := by unfold codedSizeLength; (repeat' split) <;> simp_all
    by_cases h : codedSizeLength s 0 true > codedSizeLength n 0 true
    · have : finalHead (tempHead (some s)) n = ⟨0x18538067, n, codedSizeLength s 0 true, true, true, true⟩ := by
        unfold finalHead
        rw [if_pos (show (codedSizeLength (tempHead (some s)).dataSize 0 true > codedSizeLength n 0 true) from h)]
        simp only [tempHead]
      rw [this, renderHead_eq _ n (by simp) (by simp only; omega) rfl]
      simp only [if_true, tempLen]
      rw [hgrow _ h, Nat.max_eq_left (by omega)]
    · have : finalHead (tempHead (some s)) n = ⟨0x18538067, n, 0, true, true, true⟩ := by
        unfold finalHead
        rw [if_neg (show ¬ (codedSizeLength (tempHead (some s)).dataSize 0 true > codedSizeLength n 0 true) from h)]
        simp only [tempHead]
      rw [this, renderHead_eq _ n (by simp) (by simp only; omega) rfl]
      simp only [if_true, tempLen]
      rw [Nat.max_eq_right (by omega)]
  | none =>
    have h1 : codedSizeLength (-1) 0 true = 1 := by decide
    have : finalHead (tempHead none) n = ⟨0x18538067, n, 8, true, true, true⟩ := by
      simp only [finalHead, tempHead, h1]
      rw [if_neg (by omega)]
    rw [this, renderHead_eq _ n (by simp) (by simp only; omega) rfl]
    simp only [if_true, tempLen]
    rw [hgrow 8 (by omega), Nat.max_eq_left (by omega)]

/-- The file after the heads were written again. -/
theorem finish_form (env : Ebml.Env) (j : Job) (pl : Plan) (w : Written) (rest file : Bytes)
    (h : finish env j pl w (j.head ++ renderHead (tempHead j.srcSize) ++ w.seek ++ rest) = .done file)
    (len : Nat) (hlen : len = max (tempLen j.srcSize) (codedSizeLength (w.size j.parts) 0 true)) (seg : Nat)
    (hseg : seg = j.head.length + 4 + len) (seek : Bytes)
    (hseek : seek = rendered env (seekHeadElt j.safe seg
      (entriesOf w.parts (pl.cues.map fun _ => w.cuesPos) (w.clusters.head?.map (·.2)))))
    : seek.length = w.seek.length ∧
      file = j.head ++ (idField 0x18538067 ++ sizeField len (w.size j.parts)) ++
        (seek ++ rest.drop (len - tempLen j.srcSize)) := by
  have h4 : (idField 0x18538067).length = 4 := by decide
  have hH := finalHead_eq j.srcSize (w.size j.parts)
  rw [← hlen] at hH
  have hT := tempHead_length j.srcSize
  unfold finish at h
  simp only [hH] at h
  have hl : (idField 0x18538067 ++ sizeField len (w.size j.parts)).length = 4 + len := by
    rw [List.length_append, sizeField_length, h4]
  rw [hl, show j.head.length + (4 + len) = seg by omega, ← hseek] at h
  split at h
  · rename_i hs
    refine ⟨hs, ?_⟩
    simp only [Out.done.injEq] at h
    rw [← h, List.append_assoc, List.append_assoc, writeAt_mid, ← List.append_assoc,
      show seg = (j.head ++ (idField 0x18538067 ++ sizeField len (w.size j.parts))).length by
        rw [List.length_append, hl]; omega, writeAt_mid, hl, hs, List.drop_drop]
    congr 2
    rw [← List.append_assoc, List.drop_append, List.drop_of_length_le (by
      rw [List.length_append, hT]; omega), List.nil_append]
    congr 1
    rw [List.length_append, hT]; omega
  · simp at h

theorem rest_length (w : Written) (parts : List Part) : w.seek.length + (w.rest parts).length = w.size parts := by
  simp only [Written.rest, Written.size, List.length_append, List.length_flatten, List.map_map]
  have h1 : (parts.map (List.length ∘ fun p => p.bytes)) = parts.map (fun p => p.bytes.length) := rfl
  have h2 : (w.clusters.map (List.length ∘ fun x => x.1)) = w.clusters.map (fun x => x.1.length) := rfl
  rw [h1, h2]; omega

/-- How the Cues on disk came about. -/
inductive CuesNow (env : Ebml.Env) (j : Job) (seg : Int) (pl : Plan) (w : Written) (now : Bytes) : Prop where
  | none (h : pl.cues = none) (hn : now = [])
  | kept (c : Cues) (h : pl.cues = some c) (hc : w.changed = false) (hn : now = rendered env c.elt)
  | again (c : Cues) (ps : List Cue) (h : pl.cues = some c) (hc : w.changed = true)
      (hu : updateCues (w.clusters.map fun x => ⟨0, 0, none, x.2⟩) seg
        (c.points.map fun p => { p with time := j.retime p }) = some ps)
      (filler : Bytes) (hfill : filler = [] ∨ ∃ n rest, 2 ≤ n ∧ n = filler.length ∧ filler = voidBytes env n ++ rest)
      (hn : now = rendered env { c with points := ps }.elt ++ filler)

/-- The form of every finished file. -/
theorem clean_form (env : Ebml.Env) (j : Job) (file : Bytes) (h : clean env j = .done file) :
    ∃ pl w now, plan env j ((j.head.length + 4 + tempLen j.srcSize : Nat) : Int) = some pl ∧
      w = writeAll env j ((j.head.length + 4 + tempLen j.srcSize : Nat) : Int) pl ∧
      CuesNow env j ((j.head.length + 4 + tempLen j.srcSize : Nat) : Int) pl w now ∧ now.length = w.cues.length ∧
      ∀ len seg seek, len = max (tempLen j.srcSize) (codedSizeLength (w.size j.parts) 0 true) →
        seg = j.head.length + 4 + len →
        seek = rendered env (seekHeadElt j.safe seg
          (entriesOf w.parts (pl.cues.map fun _ => w.cuesPos) (w.clusters.head?.map (·.2)))) →
        seek.length = w.seek.length ∧
        file = j.head ++ (idField 0x18538067 ++ sizeField len (w.size j.parts)) ++
          (seek ++ (w.void ++ (j.parts.map (·.bytes)).flatten ++ now ++ (w.clusters.map (·.1)).flatten).drop
            (len - tempLen j.srcSize)) := by
  unfold clean at h
  rw [tempHead_length] at h
  simp only [← Nat.add_assoc] at h
  generalize hS : j.head.length + 4 + tempLen j.srcSize = S at h ⊢
  cases hp : plan env j (S : Int) with
  | none => rw [hp] at h; simp at h
  | some pl =>
    rw [hp] at h
    simp only at h
    generalize hw : writeAll env j (S : Int) pl = w at h
    have hcues : w.cues = match pl.cues with | some c => rendered env c.elt | none => [] := by rw [← hw]; rfl
    have hpos : w.cuesPos = S + w.seek.length + w.void.length + ((j.parts.map (·.bytes)).flatten.length : Nat) := by
      rw [← hw]; simp only [writeAll, partsFrom_end]
    cases hr : rewriteCues env j (S : Int) pl.cues w with
    | keep =>
      rw [hr] at h
      refine ⟨pl, w, w.cues, rfl, hw.symm, ?_, rfl, ?_⟩
      · cases hc : pl.cues with
        | none => rw [hc] at hcues; exact .none hc hcues
        | some c =>
          rw [hc] at hcues
          refine .kept c hc ?_ hcues
          cases hch : w.changed with
          | false => rfl
          | true =>
            exfalso
            simp only [rewriteCues, hc, hch, Bool.not_true, Bool.false_eq_true, if_false] at hr
            split at hr
            · cases hr
            · split at hr
              · cases hr
              · split at hr <;> cases hr
      · intro len seg seek h1 h2 h3
        exact finish_form env j pl w _ file h len h1 seg h2 seek h3
    | misfit => rw [hr] at h; simp at h
    | crash => rw [hr] at h; simp at h
    | over b =>
      rw [hr] at h
      simp only at h
      have hprefix : j.head ++ renderHead (tempHead j.srcSize) ++ w.seek ++ w.rest j.parts =
          (j.head ++ renderHead (tempHead j.srcSize) ++ w.seek ++ w.void ++ (j.parts.map (·.bytes)).flatten) ++
            (w.cues ++ (w.clusters.map (·.1)).flatten) := by
        simp only [Written.rest, List.append_assoc]
      have hat : w.cuesPos.toNat = (j.head ++ renderHead (tempHead j.srcSize) ++ w.seek ++ w.void ++
          (j.parts.map (·.bytes)).flatten).length := by
        simp only [List.length_append, tempHead_length]
        rw [hpos]; omega
      have hb : b.length ≤ w.cues.length ∧ ∃ c ps, pl.cues = some c ∧ w.changed = true ∧
          updateCues (w.clusters.map fun x => ⟨0, 0, none, x.2⟩) S (c.points.map fun p => { p with time := j.retime p }) = some ps ∧
          ∃ f, b = rendered env { c with points := ps }.elt ++ f ∧ ((f = [] ∧ b.length = w.cues.length) ∨ ∃ n, 2 ≤ n ∧
            n = w.cues.length - (rendered env { c with points := ps }.elt).length ∧ f = voidBytes env n) := by
        unfold rewriteCues at hr
        cases hc : pl.cues with
        | none => rw [hc] at hr; cases hr
        | some c =>
          rw [hc] at hr
          simp only at hr
          cases hch : w.changed with
          | false => rw [hch] at hr; cases hr
          | true =>
            rw [hch] at hr
            simp only [Bool.not_true, Bool.false_eq_true, if_false] at hr
            split at hr
            · cases hr
            · rename_i ps hu
              split at hr
              · rename_i hge
                cases hr
                have := void_length env (w.cues.length - (rendered env { c with points := ps }.elt).length) (by omega)
                refine ⟨by rw [List.length_append]; omega, c, ps, rfl, rfl, hu, _, rfl, Or.inr ⟨_, by omega, rfl, rfl⟩⟩
              · split at hr
                · rename_i heq
                  cases hr
                  exact ⟨by omega, c, ps, rfl, rfl, hu, [], by simp, Or.inl ⟨rfl, heq⟩⟩
                · cases hr
      obtain ⟨hble, c, ps, hc, hch, hu, f, hf, hfill⟩ := hb
      refine ⟨pl, w, b ++ w.cues.drop b.length, rfl, hw.symm, ?_, by simp; omega, ?_⟩
      · refine .again c ps hc hch hu (f ++ w.cues.drop b.length) ?_ (by rw [hf, List.append_assoc])
        rcases hfill with ⟨h0, hl⟩ | ⟨n, hn2, hn, h0⟩
        · exact Or.inl (by rw [h0, hl, List.drop_length, List.append_nil])
        · have hbl := congrArg List.length hf
          rw [List.length_append] at hbl
          exact Or.inr ⟨n, w.cues.drop b.length, hn2, by rw [List.length_append, List.length_drop]; omega, by rw [h0]⟩
      · intro len seg seek h1 h2 h3
        rw [hprefix, hat, writeAt_mid, List.drop_append, show b.length - w.cues.length = 0 by omega, List.drop_zero] at h
        apply finish_form env j pl w _ file ?_ len h1 seg h2 seek h3
        rw [← h]
        congr 1
        simp only [List.append_assoc]

/-- What a plan is, with Cues. -/
structure PlanCues (env : Ebml.Env) (j : Job) (seg : Int) (pl : Plan) (c c' : Cues) (placed : List Clu) : Prop where
  cues : pl.cues = some c'
  settled : settle env j.safe (seg + extraVoid j.parts + ((j.parts.map (·.bytes)).flatten.length : Nat) + pl.supposed) seg
    (7 * c.points.length + 2) ((j.clusters.map fun c => if j.needRead then c.read.1 else c).map (·.clu env j.scale)) c =
      .done placed c'
  clusters : pl.clusters = (j.clusters.map fun c => if j.needRead then c.read.1 else c).zip (placed.map (·.prevSize))

theorem plan_facts (env : Ebml.Env) (j : Job) (seg : Int) (pl : Plan) (hp : plan env j seg = some pl)
    (hid : ∀ p ∈ j.parts, p.id < 2 ^ 32) :
    (∀ e ∈ pl.entries, e.1 < 2 ^ 32) ∧ pl.supposed ≤ 15 + 27 * (j.parts.length + 2) ∧
    ((j.cues = none ∧ pl.cues = none ∧ pl.clusters = j.clusters.map fun c => (c, none)) ∨
      ∃ c c' placed, j.cues = some c ∧ PlanCues env j seg pl c c' placed) := by
  unfold plan at hp
  simp only at hp
  generalize hg : guesses (firstGuess j.safe j.parts) j.parts = g at hp
  generalize (Option.map (fun _ => g.2 + (match j.cues with | some c => c.fullSize | none => 0) + (extraVoid j.parts : Int))
    j.clusters.head?) = cg at hp
  generalize hm1 : (rendered env (seekHeadElt j.safe seg (entriesOf g.1 (Option.map (fun _ => g.2) j.cues) cg))).length = m1 at hp
  generalize hpf : partsFrom (seg + m1 + extraVoid j.parts) j.parts = q at hp
  generalize hm2 : (rendered env (seekHeadElt j.safe seg (entriesOf q.1 (Option.map (fun _ => g.2) j.cues) cg))).length = m2 at hp
  have hq1 : q.1.map (·.1) = j.parts.map (·.id) := by rw [← hpf]; exact partsFrom_ids _ _
  have hq2 : q.2 = seg + m1 + extraVoid j.parts + ((j.parts.map (·.bytes)).flatten.length : Nat) := by
    rw [← hpf]; exact partsFrom_end _ _
  have hsup : m2 ≤ 15 + 27 * (j.parts.length + 2) := by
    have h1 := seekHead_length env j.safe seg (entriesOf q.1 (Option.map (fun _ => g.2) j.cues) cg)
      (entries_ids _ _ hid hq1 _ _)
    have h2 := entries_length q.1 (Option.map (fun _ => g.2) j.cues) cg
    have h3 : q.1.length = j.parts.length := by rw [← hpf]; exact partsFrom_length _ _
    omega
  have hstart : q.2 + ((m2 : Int) - m1) = seg + extraVoid j.parts + ((j.parts.map (·.bytes)).flatten.length : Nat) + m2 := by
    rw [hq2]; omega
  rw [hstart] at hp
  cases hc : j.cues with
  | none =>
    rw [hc] at hp
    simp only [Option.some.injEq] at hp
    subst hp
    exact ⟨entries_ids _ _ hid hq1 _ _, hsup, Or.inl ⟨rfl, rfl, rfl⟩⟩
  | some c =>
    rw [hc] at hp
    simp only at hp
    split at hp
    · rename_i placed c' hs
      simp only [Option.some.injEq] at hp
      subst hp
      exact ⟨entries_ids _ _ hid hq1 _ _, hsup, Or.inr ⟨c, c', placed, rfl, ⟨rfl, hs, rfl⟩⟩⟩
    · simp at hp

theorem uint_bytes (v : BitVec 64) : beNat (beBytes (naturalSizeInt v) v.toInt) = v.toNat := by
  have h := beNat_beBytes (naturalSizeInt v) v.toInt
  have hlt : v.toNat < 256 ^ naturalSizeInt v := by
    have := v.isLt
    unfold naturalSizeInt
    (repeat' split) <;> simp <;> omega
  have h64 : (256 : Int) ^ naturalSizeInt v ∣ 2 ^ 64 := by
    have hn := natural_uint v
    have : naturalSizeInt v = 1 ∨ naturalSizeInt v = 2 ∨ naturalSizeInt v = 3 ∨ naturalSizeInt v = 4 ∨
      naturalSizeInt v = 5 ∨ naturalSizeInt v = 6 ∨ naturalSizeInt v = 7 ∨ naturalSizeInt v = 8 := by omega
    rcases this with e | e | e | e | e | e | e | e <;> rw [e] <;> decide
  have e1 : v.toInt % (256 : Int) ^ naturalSizeInt v = (v.toNat : Int) % (256 : Int) ^ naturalSizeInt v := by
    have h0 : v.toInt % 2 ^ 64 = v.toNat := by
      rw [BitVec.toInt_eq_toNat_bmod, show ((2 : Int) ^ 64) = ((2 ^ 64 : Nat) : Int) by decide, Int.bmod_emod]
      exact Int.emod_eq_of_lt (by omega) (by have := v.isLt; omega)
    rw [← h0, Int.emod_emod_of_dvd _ h64]
  have e2 : ((256 : Int) ^ naturalSizeInt v) = ((256 ^ naturalSizeInt v : Nat) : Int) := by simp
  rw [← e2, e1, e2, Int.emod_eq_of_lt (by omega) (by omega)] at h
  omega

theorem void_bytes (env : Ebml.Env) (n : Nat) (h : 2 ≤ n) (h2 : n < 127) :
    voidBytes env n = encode (.elem 0xEC 1 (List.replicate (n - 2) 0)) := by
  have hb : (voidSetFullSize newVoid n).1 = ⟨0xEC, ((n - 2 : Nat) : Int), 0, true, false, true⟩ := by
    simp only [voidSetFullSize, newVoid]
    rw [coded_small _ (by omega)]
    congr 1; omega
  unfold voidBytes
  rw [hb, (rendered_eq env _ (by simp [Coherent, LeafReady, LeafSettled]) (by rfl)).1]
  simp only [toDoc, leafPayload, List.length_replicate, Int.toNat_natCast]
  rw [coded_small _ (by omega)]

/-- The Void that takes the place left by shorter Cues, of any size. -/
theorem void_doc (env : Ebml.Env) (n : Nat) (h : 2 ≤ n) :
    ∃ l k, voidBytes env n = encode (.elem 0xEC l (List.replicate k 0)) ∧
      ((voidBytes env n).length = n ∨ (voidBytes env n).length = n - 1 ∧ VoidBoundary n) := by
  obtain ⟨k, hk⟩ : ∃ k : Nat, (n : Int) - 1 - codedSizeLength n 0 true = k := by
    have : codedSizeLength n 0 true ≤ n - 1 := by
      unfold codedSizeLength
      simp only [Bool.not_true, Bool.false_eq_true, if_false, ne_eq, not_true_eq_false, false_and]
      (repeat' split) <;> omega
    exact ⟨n - 1 - codedSizeLength n 0 true, by omega⟩
  refine ⟨codedSizeLength k 0 true, k, ?_, ?_⟩
  · have hb : (voidSetFullSize newVoid n).1 = ⟨0xEC, (k : Int), 0, true, false, true⟩ := by
      simp only [voidSetFullSize, newVoid, hk]
    unfold voidBytes
    rw [hb, (rendered_eq env _ (by simp [Coherent, LeafReady, LeafSettled]) (by rfl)).1]
    simp only [toDoc, leafPayload, List.length_replicate, Int.toNat_natCast]
  · have hv := C20_void_full_size_partial env false n
    have key : ∀ k, (render env false 1 (.leaf (voidSetFullSize newVoid n).1 none .void)).bytes = some k →
        (voidBytes env n).length = k := by
      intro k hk
      unfold voidBytes rendered
      have hd : depth (.leaf (voidSetFullSize newVoid n).1 none .void) = 1 := rfl
      rw [hd]
      cases hr : render env false 1 (.leaf (voidSetFullSize newVoid n).1 none .void) with
      | ok b => rw [hr] at hk; simpa [Res.bytes, bytesOf] using hk
      | err => rw [hr] at hk; simp [Res.bytes] at hk
      | undef => rw [hr] at hk; simp [Res.bytes] at hk
    by_cases hb : VoidBoundary n
    · exact Or.inr ⟨key _ (hv.2.2 h hb), hb⟩
    · exact Or.inl (key _ (hv.2.1 h hb))

theorem forall₂_of_getElem? {α β : Type} (R : α → β → Prop) : ∀ (l : List α) (m : List β), l.length = m.length →
    (∀ (i : Nat) x y, l[i]? = some x → m[i]? = some y → R x y) → List.Forall₂ R l m := by
  intro l
  induction l with
  | nil => intro m h _; cases m with
    | nil => exact .nil
    | cons => simp at h
  | cons x l ih =>
    intro m h hR
    cases m with
    | nil => simp at h
    | cons y m =>
      refine .cons (hR 0 x y rfl rfl) (ih m (by simpa using h) ?_)
      intro i a b ha hb
      exact hR (i + 1) a b (by simpa using ha) (by simpa using hb)

/-! The Cues. -/

/-- The document of a CuePoint. -/
def pointDoc (c : Cue) : Doc :=
  .group 0xBB 1 true (c.crc != 0) [.elem 0xB3 1 (beBytes (naturalSizeInt c.time) c.time.toInt),
    .group 0xB7 1 true false [.elem 0xF7 1 (beBytes (naturalSizeInt c.track) c.track.toInt),
      .elem 0xF1 1 (beBytes (naturalSizeInt c.pos) c.pos.toInt)]]

theorem point_toDoc (env : Ebml.Env) (c : Cue) : toDoc env false (cuePointElt c.crc c.time c.track c.pos) = pointDoc c := by
  have h1 := natural_uint c.time
  have h2 := natural_uint c.track
  have h3 := natural_uint c.pos
  have hd : ∀ id v, isDefault env (newUint id v) = false := fun _ _ => rfl
  have hm : ∀ b crc ch, isDefault env (.master b crc ch) = false := fun _ _ _ => rfl
  have i1 : (idField 0xB3).length = 1 := by decide
  have i2 : (idField 0xF7).length = 1 := by decide
  have i3 : (idField 0xF1).length = 1 := by decide
  have i4 : (idField 0xB7).length = 1 := by decide
  unfold cuePointElt pointDoc
  simp only [toDoc, toDocList, hd, hm, Bool.not_false, Bool.true_and, Bool.false_eq_true, if_false, uint_toDoc,
    newBase]
  have hB7 : (payload (.group 0xB7 0 true (0 != 0) [.elem 0xF7 1 (beBytes (naturalSizeInt c.track) c.track.toInt),
      .elem 0xF1 1 (beBytes (naturalSizeInt c.pos) c.pos.toInt)])).length = 4 + naturalSizeInt c.track + naturalSizeInt c.pos := by
    simp [payload, encodeList, sizeField_length, beBytes_length, i2, i3]; omega
  have hB7' : codedSizeLength ((payload (.group 0xB7 0 true (0 != 0)
      [.elem 0xF7 1 (beBytes (naturalSizeInt c.track) c.track.toInt),
      .elem 0xF1 1 (beBytes (naturalSizeInt c.pos) c.pos.toInt)])).length : Int) 0 true = 1 := coded_small _ (by rw [hB7]; omega)
  rw [hB7']
  have hBB : (payload (.group 0xBB 0 true (c.crc != 0) [.elem 0xB3 1 (beBytes (naturalSizeInt c.time) c.time.toInt),
      .group 0xB7 1 true (0 != 0) [.elem 0xF7 1 (beBytes (naturalSizeInt c.track) c.track.toInt),
      .elem 0xF1 1 (beBytes (naturalSizeInt c.pos) c.pos.toInt)]])).length ≤ 60 := by
    cases (c.crc != 0) <;>
      simp [payload, encodeList, sizeField_length, beBytes_length, i1, i2, i3, i4, crcElement_length] <;> omega
  rw [coded_small _ (by omega)]
  rfl

theorem cues_toDoc (env : Ebml.Env) (c : Cues) (hs : c.sizeLength ≤ 8) : ∃ len, 1 ≤ len ∧ len ≤ 8 ∧
    rendered env c.elt = encode (.group 0x1C53BB6B len true (c.crc != 0) (c.points.map pointDoc)) := by
  rw [(rendered_eq env _ (cues_coherent env c hs) rfl).1]
  have hl : toDocList env false (c.points.map fun p => cuePointElt p.crc p.time p.track p.pos) = c.points.map pointDoc := by
    induction c.points with
    | nil => rfl
    | cons p ps ih =>
      rw [List.map_cons, toDocList]
      have : isDefault env (cuePointElt p.crc p.time p.track p.pos) = false := rfl
      rw [this, point_toDoc, ih]
      rfl
  unfold Cues.elt
  simp only [toDoc, hl]
  have hr := codedSizeLength_range ((payload (.group 0x1C53BB6B 0 true (c.crc != 0) (c.points.map pointDoc))).length : Int)
    c.sizeLength hs true
  exact ⟨_, hr.1, hr.2, rfl⟩

end Verif.Mkclean
