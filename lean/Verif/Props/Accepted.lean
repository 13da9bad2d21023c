import Verif.Mkvalidator.Neat
import Verif.Props.Output
/-!
C205: mkvalidator on the files of mkclean.
-/
set_option linter.unusedSimpArgs false
namespace Verif.Accepted
open Verif Verif.EbmlDoc
open Verif.Mkclean (Job OutCluster Part Pieces Plan Written IsOutput Explains PlanCues writeClusters rendered clusterDoc
  partsFrom firstLen entryDoc entriesOf Clu)
open Verif.Mkv (invalidTs scale64)

theorem beNat_idField (id : Nat) (h : id < 2 ^ 32) : beNat (idField id) = id := by
  unfold idField
  rw [beNat_beBytes_nat]
  simp only [Nat.reducePow] at *
  (repeat' split) <;> simp only [Nat.reducePow] <;> omega

/-- What a reader makes of an entry mkclean writes. -/
theorem seekOf_entry (safe : Bool) (data : Nat) (id : Nat) (pos : Int) (hid : id < 2 ^ 32) (h0 : (data : Int) ≤ pos)
    (h1 : pos < 2 ^ 63) : seekOf data (entryDoc safe data (id, pos)) = ⟨id, some pos⟩ := by
  unfold seekOf entryDoc child kids childIn
  have hu := Mkclean.ofInt_small (pos - (data : Nat)) (by omega) (by omega)
  simp only [childIn, if_true, Nat.reduceEqDiff, if_false, Option.map_some, Option.getD_some]
  rw [beNat_idField id hid, Mkclean.uint_bytes]
  congr 2
  omega

theorem parts_places : ∀ (ps : List Part) (P : List Doc) (pos : Int),
    List.Forall₂ (fun p d => docId d = p.id ∧ p.bytes = encode d) ps P →
    (partsFrom pos ps).1 = placesFrom pos P ∧ (ps.map (·.bytes)).flatten = encodeList P
  | [], P, pos, h => by cases h; exact ⟨rfl, rfl⟩
  | p :: ps, P, pos, h => by
    cases h with
    | cons h1 h2 =>
      rename_i d ds
      have ih := parts_places ps ds (pos + p.bytes.length) h2
      refine ⟨?_, ?_⟩
      · rw [placesFrom, ← h1.2, ← ih.1, h1.1]; rfl
      · rw [List.map_cons, List.flatten_cons, ih.2, Ebml.encodeList_cons, h1.2]

/-- The Timestamp and the blocks do not hide a PrevSize or Position. -/
theorem childIn_append (id : Nat) : ∀ a b : List Doc, childIn id (a ++ b) = (childIn id a).or (childIn id b)
  | [], b => by simp [childIn]
  | .elem i l p :: a, b => by
    rw [List.cons_append, childIn, childIn]
    split
    · rfl
    · exact childIn_append id a b
  | .group .. :: a, b => by
    rw [List.cons_append, childIn, childIn]
    exact childIn_append id a b

theorem childIn_none (id : Nat) : ∀ a : List Doc, (∀ d ∈ a, docId d ≠ id) → childIn id a = none
  | [], _ => rfl
  | .elem i l p :: a, h => by
    rw [childIn, if_neg (show ¬ i = id from h (.elem i l p) (by simp))]
    exact childIn_none id a fun d hd => h d (by simp [hd])
  | .group .. :: a, h => by
    rw [childIn]
    exact childIn_none id a fun d hd => h d (by simp [hd])

theorem toDoc_id (env : Ebml.Env) (d : Bool) (e : Ebml.Elt) : docId (Ebml.toDoc env d e) = e.base.id := by
  cases e <;> simp [Ebml.toDoc, docId, Ebml.Elt.base]

theorem toDocList_ids (env : Ebml.Env) (d : Bool) : ∀ es : List Ebml.Elt, ∀ x ∈ Ebml.toDocList env d es,
    ∃ e ∈ es, docId x = e.base.id
  | [], x, h => by simp [Ebml.toDocList] at h
  | e :: es, x, h => by
    rw [Ebml.toDocList] at h
    split at h
    · obtain ⟨y, hy, hxy⟩ := toDocList_ids env d es x h
      exact ⟨y, by simp [hy], hxy⟩
    · rcases List.mem_cons.1 h with rfl | h
      · exact ⟨e, by simp, toDoc_id ..⟩
      · obtain ⟨y, hy, hxy⟩ := toDocList_ids env d es x h
        exact ⟨y, by simp [hy], hxy⟩

theorem cluster_children (env : Ebml.Env) (scale : Int) (prev : Option (BitVec 64)) (len : Nat) (c : OutCluster)
    (hb : ∀ b ∈ c.blocks, b.2.base.id ≠ 0xA7 ∧ b.2.base.id ≠ 0xAB) :
    docId (clusterDoc env scale prev len c) = 0x1F43B675 ∧ child 0xA7 (clusterDoc env scale prev len c) = none ∧
    (child 0xAB (clusterDoc env scale prev len c)).map beNat = prev.map (·.toNat) := by
  have hids : ∀ d ∈ Ebml.toDocList env false (c.blocks.map (·.2)), docId d ≠ 0xA7 ∧ docId d ≠ 0xAB := by
    intro d hd
    obtain ⟨e, he, hde⟩ := toDocList_ids _ _ _ d hd
    obtain ⟨b, hbm, rfl⟩ := List.mem_map.1 he
    rw [hde]; exact hb b hbm
  have h1 := childIn_none 0xA7 _ fun d hd => (hids d hd).1
  have h2 := childIn_none 0xAB _ fun d hd => (hids d hd).2
  refine ⟨rfl, ?_, ?_⟩
  · unfold child clusterDoc kids
    rw [childIn, if_neg (by decide), childIn_append, h1]
    cases prev <;> simp [childIn]
  · unfold child clusterDoc kids
    rw [childIn, if_neg (by decide), childIn_append, h2]
    cases prev with
    | none => simp [childIn]
    | some v => simp [childIn, Mkclean.uint_bytes]

/-- The documents of the Clusters that are written. -/
theorem cluster_docs (env : Ebml.Env) (scale : Int) : ∀ (cs : List (OutCluster × Option (BitVec 64))) (prev pos : Int),
    (∀ c ∈ cs, c.1.sizeLength ≤ 8 ∧ ∀ b ∈ c.1.blocks, Ebml.Coherent env false b.2) →
    (∀ c ∈ cs, ∀ b ∈ c.1.blocks, b.2.base.id ≠ 0xA7 ∧ b.2.base.id ≠ 0xAB) →
    ∃ K : List Doc, (writeClusters env scale prev pos cs).1.map (·.1) = K.map encode ∧ K.length = cs.length ∧
      ∀ (k : Nat) c d, cs[k]? = some c → K[k]? = some d →
        docId d = 0x1F43B675 ∧ child 0xA7 d = none ∧ (child 0xAB d).map beNat = c.2.map (·.toNat)
  | [], prev, pos, _, _ => ⟨[], rfl, rfl, fun k c d h => by simp at h⟩
  | c :: cs, prev, pos, hg, hb => by
    obtain ⟨K, h1, h2, h3⟩ := cluster_docs env scale cs (Mkclean.writeCluster scale prev c.1).2.1
      (pos + (rendered env ((Mkclean.writeCluster scale prev c.1).1.elt scale c.2)).length)
      (fun x hx => hg x (by simp [hx])) (fun x hx => hb x (by simp [hx]))
    have hgc := hg c (by simp)
    have hcoh := Mkclean.cluster_coherent env scale c.2 (Mkclean.writeCluster scale prev c.1).1 hgc.1
      (fun b hbm => hgc.2 b (List.mem_filter.1 hbm).1)
    have hr := (Mkclean.rendered_eq env _ hcoh rfl).1
    rw [Mkclean.cluster_toDoc] at hr
    generalize Ebml.codedSizeLength _ _ _ = len at hr
    refine ⟨clusterDoc env scale c.2 len (Mkclean.writeCluster scale prev c.1).1 :: K, ?_, ?_, ?_⟩
    · rw [List.map_cons, ← h1, ← hr]
      rfl
    · simp [h2]
    · intro k x d hx hd
      cases k with
      | zero =>
        simp only [List.getElem?_cons_zero, Option.some.injEq] at hx hd
        subst hx; subst hd
        exact cluster_children env scale _ _ _ fun b hbm => hb c (by simp) b (List.mem_filter.1 hbm).1
      | succ k =>
        simp only [List.getElem?_cons_succ] at hx hd
        exact h3 k x d hx hd

theorem chained_of : ∀ (K : List Doc) (prev : Option Nat), (∀ d ∈ K, docId d = 0x1F43B675 ∧ child 0xA7 d = none) →
    (∀ d, K[0]? = some d → ∀ v, child 0xAB d = some v → prev = some (beNat v)) →
    (∀ (k : Nat) a b, K[k]? = some a → K[k + 1]? = some b → ∀ v, child 0xAB b = some v → (encode a).length = beNat v) →
    Chained prev K
  | [], _, _, _, _ => by rw [Chained]; trivial
  | d :: K, prev, h1, h2, h3 => by
    rw [Chained]
    refine ⟨(h1 d (by simp)).1, (h1 d (by simp)).2, h2 d rfl, ?_⟩
    apply chained_of K
    · intro x hx; exact h1 x (by simp [hx])
    · intro x hx v hv
      rw [h3 0 d x rfl (by simpa using hx) v hv]
    · intro k a b ha hb v hv
      exact h3 (k + 1) a b (by simpa using ha) (by simpa using hb) v hv

theorem encodeList_flatten : ∀ K : List Doc, (K.map encode).flatten = encodeList K
  | [] => rfl
  | d :: K => by rw [List.map_cons, List.flatten_cons, encodeList_flatten K, Ebml.encodeList_cons]

theorem encodeList_append : ∀ a b : List Doc, encodeList (a ++ b) = encodeList a ++ encodeList b
  | [], b => by simp [encodeList]
  | d :: a, b => by rw [List.cons_append, Ebml.encodeList_cons, Ebml.encodeList_cons, encodeList_append a b, List.append_assoc]

theorem places_bound : ∀ (L : List Doc) (pos : Int), ∀ x ∈ placesFrom pos L, pos ≤ x.2 ∧ x.2 ≤ pos + (encodeList L).length
  | [], pos, x, h => by rw [placesFrom] at h; cases h
  | d :: L, pos, x, h => by
    rw [placesFrom] at h
    rw [Ebml.encodeList_cons, List.length_append]
    rcases List.mem_cons.1 h with rfl | h
    · simp only; omega
    · have := places_bound L _ x h
      omega

/-- The first Cluster keeps the PrevSize it has, and without `--unsafe` only the others get one. -/
theorem place_unsafe : ∀ (cs : List Clu) (p : Int) (prev : Option Int) (k : Nat) (a : Clu), (∀ c ∈ cs, c.prevSize = none) →
    (Mkclean.place false p prev cs)[k]? = some a → a.prevSize = none
  | [], _, _, k, a, _, h => by simp [Mkclean.place] at h
  | c :: cs, p, prev, k, a, hc, h => by
    cases k with
    | zero =>
      simp only [Mkclean.place, Bool.false_eq_true, if_false, List.getElem?_cons_zero, Option.some.injEq] at h
      rw [← h]; exact hc c (by simp)
    | succ k =>
      simp only [Mkclean.place, List.getElem?_cons_succ] at h
      exact place_unsafe cs _ _ k a (fun x hx => hc x (by simp [hx])) h

theorem place_first (safe : Bool) (cs : List Clu) (p : Int) (a : Clu) (hc : ∀ c ∈ cs, c.prevSize = none)
    (h : (Mkclean.place safe p none cs)[0]? = some a) : a.prevSize = none := by
  cases cs with
  | nil => simp [Mkclean.place] at h
  | cons c cs =>
    simp only [Mkclean.place, List.getElem?_cons_zero, Option.some.injEq] at h
    rw [← h]
    simp only
    split <;> exact hc c (by simp)

/-- The IDs of the sections, in the order in which mkclean writes them. -/
def sectionIds : List Nat := [0x1549A966, 0x1654AE6B, 0x1043A770, 0x1941A469, 0x1254C367]

/-- A finished file holds a neat Segment. -/
theorem clean_neat (env : Ebml.Env) (j : Job) (hg : j.Good env) (file : Bytes) (h : Mkclean.clean env j = .done file)
    (hsmall : file.length < 2 ^ 63) (hs : ∀ s, j.srcSize = some s → file.length ≤ s) (P : List Doc)
    (hP : List.Forall₂ (fun p d => docId d = p.id ∧ p.bytes = encode d) j.parts P)
    (hids : (j.parts.map (·.id)).Sublist sectionIds) (hinfo : 0x1549A966 ∈ j.parts.map (·.id))
    (htracks : 0x1654AE6B ∈ j.parts.map (·.id))
    (hblk : ∀ c ∈ j.clusters, ∀ b ∈ c.blocks, b.2.base.id ≠ 0xA7 ∧ b.2.base.id ≠ 0xAB)
    (hsame : j.cues = none ∨ ((j.needRead = true ∨ ∀ c ∈ j.clusters, ∀ b ∈ c.blocks, b.1 = true) ∧
      (j.clusters.map (·.time)).Pairwise (· < ·))) :
    ∃ len S V C K, file = j.head ++ (idField 0x18538067 ++ sizeField len (encodeList (S :: V :: ((P ++ C) ++ K))).length) ++
        encodeList (S :: V :: ((P ++ C) ++ K)) ∧
      Neat ((j.head.length + 4 + len : Nat) : Int) S V (P ++ C) K ∧ (C = [] ↔ j.cues = none) ∧
      C.map docId = (if j.cues = none then [] else [0x1C53BB6B]) ∧ K.length = j.clusters.length := by
  obtain ⟨p, pl, w, ho, hx⟩ := Mkclean.explained env j hg file h
  have h0 := ho.grown_zero hs
  have hgr := ho.grown_le
  have hlen : p.len = firstLen j.srcSize := by omega
  have hdata : p.data j = j.head.length + 4 + firstLen j.srcSize := by unfold Pieces.data; rw [hlen]
  have hcs := Mkclean.planned_clusters env j hg _ pl hx.planned
  generalize hseg : j.head.length + 4 + firstLen j.srcSize = seg at hx hdata hcs
  have hPids : P.map docId = j.parts.map (·.id) := by
    clear hids hinfo htracks
    generalize j.parts = ps at hP
    induction hP with
    | nil => rfl
    | cons h1 _ ih => rw [List.map_cons, List.map_cons, ih, h1.1]
  -- the blocks of the Clusters that are written
  have hblk2 : ∀ c ∈ pl.clusters, ∀ b ∈ c.1.blocks, b.2.base.id ≠ 0xA7 ∧ b.2.base.id ≠ 0xAB := by
    rcases hx.planned with ⟨_, _, hp⟩ | ⟨c0, c', placed, _, hp⟩
    · rw [hp]
      intro c hc
      obtain ⟨y, hy, rfl⟩ := List.mem_map.1 hc
      exact hblk y hy
    · rw [hp.clusters]
      intro c hc b hb
      have := (List.of_mem_zip (a := c.1) (b := c.2) hc).1
      obtain ⟨y, hy, hyx⟩ := List.mem_map.1 this
      rw [← hyx] at hb
      split at hb
      · exact hblk y hy b (List.mem_filter.1 hb).1
      · exact hblk y hy b hb
  obtain ⟨K, hK1, hK2, hK3⟩ := cluster_docs env j.scale pl.clusters invalidTs (w.cuesPos + w.cues.length) hcs.2 hblk2
  have hwc : w.clusters = (writeClusters env j.scale invalidTs (w.cuesPos + w.cues.length) pl.clusters).1 := by
    rw [hx.written]; rfl
  rw [← hwc] at hK1
  -- the Cues
  obtain ⟨C, hC1, hC2, hC3, hC4⟩ : ∃ C : List Doc, p.cues = encodeList C ∧ (C = [] ↔ j.cues = none) ∧
      (∀ d ∈ C, docId d = 0x1C53BB6B) ∧ C.length ≤ 1 := by
    have hcu := hx.cues
    rcases hx.planned with ⟨hc, hpc, _⟩ | ⟨c0, c', placed, hc, hpc⟩
    · refine ⟨[], ?_, by simp [hc], by simp, by simp⟩
      cases hcu with
      | none h1 h2 => rw [h2]; rfl
      | kept c h1 _ _ => rw [hpc] at h1; cases h1
      | again c ps h1 _ _ _ _ _ => rw [hpc] at h1; cases h1
    · have hch : w.changed = false := by
        rcases hsame with hn | ⟨hr, ht⟩
        · rw [hn] at hc; cases hc
        · exact Mkclean.unchanged_written env j _ pl w hx.written hx.planned c0 hc hr ht
      cases hcu with
      | none h1 h2 => rw [hpc.cues] at h1; cases h1
      | kept c h1 _ h2 =>
        have hcc : c = c' := by rw [hpc.cues] at h1; simpa using h1.symm
        have hst := Mkclean.settle_done _ _ _ _ _ _ _ _ _ hpc.settled
        obtain ⟨len, _, _, hb⟩ := Mkclean.cues_toDoc env c (by rw [hcc, hst.2.2.2.2.2]; exact hg.cues c0 hc)
        exact ⟨[.group 0x1C53BB6B len true (c.crc != 0) (c.points.map Mkclean.pointDoc)], h2.trans hb, by simp [hc],
          by simp [docId], by simp⟩
      | again c ps _ h2 _ _ _ _ => rw [hch] at h2; cases h2
  have hCids : C.map docId = if j.cues = none then [] else [0x1C53BB6B] := by
    cases C with
    | nil => rw [if_pos (hC2.1 rfl)]; rfl
    | cons d C =>
      have : C = [] := by cases C with | nil => rfl | cons _ _ => simp at hC4
      subst this
      rw [if_neg (fun hn => by have := hC2.2 hn; cases this)]
      simp [hC3 d (by simp)]
  obtain ⟨vk, _, _, hV⟩ := ho.void
  -- the places
  have hwp : (w.parts, w.cuesPos) = partsFrom ((seg : Int) + w.seek.length + w.void.length) j.parts := by
    rw [hx.written, ← hseg]; rfl
  have hpp := parts_places j.parts P ((seg : Int) + w.seek.length + w.void.length) hP
  have hwp1 : w.parts = placesFrom ((seg : Int) + w.seek.length + w.void.length) P := by rw [← hpp.1, ← hwp]
  have hwp2 : w.cuesPos = (seg : Int) + w.seek.length + w.void.length + (encodeList P).length := by
    rw [← hpp.2, ← Mkclean.partsFrom_end, ← hwp]
  have hent : entriesOf w.parts (pl.cues.map fun _ => w.cuesPos) (w.clusters.head?.map (·.2)) =
      placesFrom ((seg : Int) + w.seek.length + w.void.length) ((P ++ C) ++ K.take 1) := by
    rw [placesFrom_append, placesFrom_append, ← hwp1, ← hwp2]
    unfold entriesOf
    congr 1
    · congr 1
      rcases hx.planned with ⟨hc, hpc, _⟩ | ⟨c0, c', placed, hc, hpc⟩
      · rw [hpc, hC2.2 hc]; rfl
      · rw [hpc.cues]
        cases C with
        | nil => rw [hC2.1 rfl] at hc; cases hc
        | cons d C =>
          have : C = [] := by cases C with | nil => rfl | cons _ _ => simp at hC4
          subst this
          simp [placesFrom, hC3 d (by simp)]
    · cases hcl : w.clusters with
      | nil =>
        rw [hcl] at hK1
        have : K = [] := by cases K with | nil => rfl | cons _ _ => simp at hK1
        rw [this]; rfl
      | cons x xs =>
        rw [hcl] at hK1
        cases K with
        | nil => simp at hK1
        | cons d K =>
          have hpos := Mkclean.writeClusters_at env j.scale pl.clusters invalidTs (w.cuesPos + w.cues.length) 0 x (by
            rw [← hwc, hcl]; rfl)
          simp only [List.take_zero, List.map_nil, List.flatten_nil, List.length_nil] at hpos
          have hd : docId d = 0x1F43B675 := by
            obtain ⟨c, hc⟩ : ∃ c, pl.clusters[0]? = some c := ⟨_, List.getElem?_eq_getElem (by rw [← hK2]; simp)⟩
            exact (hK3 0 c d hc rfl).1
          simp only [List.head?_cons, Option.map_some, Option.toList_some, List.take_succ_cons, List.take_zero, placesFrom, hd,
            hpos]
          rw [encodeList_append, List.length_append, ← hC1, hx.cuesLen, hwp2]
          congr 2
          omega
  have hid : ∀ e ∈ entriesOf w.parts (pl.cues.map fun _ => w.cuesPos) (w.clusters.head?.map (·.2)), e.1 < 2 ^ 32 := by
    have hwi : w.parts.map (·.1) = j.parts.map (·.id) := by
      rw [hwp1, placesFrom_ids, hPids]
    exact Mkclean.entries_ids w.parts j.parts hg.ids hwi _ _
  obtain ⟨slen, _, _, hseek⟩ := Mkclean.seekHead_bytes env j.safe (p.data j) _ hid
  rw [← hx.seek] at hseek
  rw [hdata] at hseek
  -- the file
  have hfile : file = j.head ++ (idField 0x18538067 ++ sizeField p.len
      (encodeList (.group 0x114D9B74 slen true j.safe ((entriesOf w.parts (pl.cues.map fun _ => w.cuesPos)
        (w.clusters.head?.map (·.2))).map (entryDoc j.safe seg)) :: .elem 0xEC 1 (List.replicate vk 0) :: ((P ++ C) ++ K))).length) ++
      encodeList (.group 0x114D9B74 slen true j.safe ((entriesOf w.parts (pl.cues.map fun _ => w.cuesPos)
        (w.clusters.head?.map (·.2))).map (entryDoc j.safe seg)) :: .elem 0xEC 1 (List.replicate vk 0) :: ((P ++ C) ++ K)) := by
    have hb : encodeList (.group 0x114D9B74 slen true j.safe ((entriesOf w.parts (pl.cues.map fun _ => w.cuesPos)
        (w.clusters.head?.map (·.2))).map (entryDoc j.safe seg)) :: .elem 0xEC 1 (List.replicate vk 0) :: ((P ++ C) ++ K)) =
        p.seek ++ p.tail j := by
      rw [Ebml.encodeList_cons, Ebml.encodeList_cons, ← hseek, ← hV, encodeList_append, encodeList_append, ← hC1, ← hpp.2]
      unfold Pieces.tail
      rw [hx.clusters, hK1, encodeList_flatten]
      simp only [List.append_assoc]
    rw [hb, ← ho.size]
    have := ho.bytes
    rw [h0, List.drop_zero] at this
    exact this
  have hbound : ∀ x ∈ placesFrom ((seg : Int) + w.seek.length + w.void.length) ((P ++ C) ++ K.take 1),
      (seg : Int) ≤ x.2 ∧ x.2 < 2 ^ 63 := by
    intro x hxm
    have hb := places_bound _ _ x hxm
    have hl := congrArg List.length ho.bytes
    have h4 : (idField 0x18538067).length = 4 := by decide
    rw [h0, List.drop_zero] at hl
    simp only [List.length_append, h4, Ebml.sizeField_length, Pieces.tail] at hl
    rw [hx.clusters, hK1, encodeList_flatten, hC1, hpp.2, hx.seekLen, hx.void] at hl
    have hKt : (encodeList (K.take 1)).length ≤ (encodeList K).length := by
      conv => rhs; rw [← List.take_append_drop 1 K]
      rw [encodeList_append, List.length_append]; omega
    simp only [encodeList_append, List.length_append] at hb
    omega
  refine ⟨p.len, _, _, C, K, hfile, ⟨rfl, rfl, ?_, ?_, ?_, ?_, ?_, ?_, ?_⟩, hC2, hCids, by rw [hK2, hcs.1]⟩
  · intro d hd
    rcases List.mem_append.1 hd with hd | hd
    · have : docId d ∈ sectionIds := by
        apply hids.subset
        rw [← hPids]
        exact List.mem_map_of_mem hd
      generalize docId d = y at this
      simp only [sectionIds, List.mem_cons, List.not_mem_nil, or_false] at this
      rcases this with rfl | rfl | rfl | rfl | rfl <;> decide
    · rw [hC3 d hd]; decide
  · rw [List.map_append, hPids, hCids, List.nodup_append]
    refine ⟨hids.nodup (by decide), by split <;> simp, ?_⟩
    intro a ha b hb
    have := hids.subset ha
    split at hb
    · cases hb
    · rw [List.mem_singleton] at hb
      rintro rfl
      rw [hb] at this
      exact absurd this (by decide)
  · rw [List.map_append, hPids]; exact List.mem_append_left _ hinfo
  · rw [List.map_append, hPids]; exact List.mem_append_left _ htracks
  · intro d hd
    obtain ⟨k, hk⟩ := List.mem_iff_getElem?.1 hd
    obtain ⟨c, hc⟩ : ∃ c, pl.clusters[k]? = some c :=
      ⟨_, List.getElem?_eq_getElem (by rw [← hK2]; exact (List.getElem?_eq_some_iff.1 hk).1)⟩
    exact (hK3 k c d hc hk).1
  · have hAll : ∀ d ∈ K, docId d = 0x1F43B675 ∧ child 0xA7 d = none := by
      intro d hd
      obtain ⟨k, hk⟩ := List.mem_iff_getElem?.1 hd
      obtain ⟨c, hc⟩ : ∃ c, pl.clusters[k]? = some c :=
        ⟨_, List.getElem?_eq_getElem (by rw [← hK2]; exact (List.getElem?_eq_some_iff.1 hk).1)⟩
      exact ⟨(hK3 k c d hc hk).1, (hK3 k c d hc hk).2.1⟩
    have hnone : ∀ (k : Nat) (d : Doc) (c : OutCluster × Option (BitVec 64)), K[k]? = some d → pl.clusters[k]? = some c →
        c.2 = none → child 0xAB d = none := by
      intro k d c hk hc h2
      have := (hK3 k c d hc hk).2.2
      rw [h2] at this
      cases hv : child 0xAB d with
      | none => rfl
      | some v => rw [hv] at this; cases this
    rcases hx.planned with ⟨hc, hpc, hpl⟩ | ⟨c0, c', placed, hc, hpc⟩
    · have hno : ∀ (k : Nat) (d : Doc), K[k]? = some d → child 0xAB d = none := by
        intro k d hk
        have hlt : k < pl.clusters.length := by rw [← hK2]; exact (List.getElem?_eq_some_iff.1 hk).1
        obtain ⟨c, hc2⟩ : ∃ c, pl.clusters[k]? = some c := ⟨_, List.getElem?_eq_getElem hlt⟩
        refine hnone k d c hk hc2 ?_
        have hm := List.mem_of_getElem? hc2
        rw [hpl] at hm
        obtain ⟨z, _, rfl⟩ := List.mem_map.1 hm
        rfl
      apply chained_of K none hAll
      · intro d hd v hv
        rw [hno 0 d hd] at hv; cases hv
      · intro k a b _ hb v hv
        rw [hno (k + 1) b hb] at hv; cases hv
    · have hch : w.changed = false := by
        rcases hsame with hn | ⟨hr, ht⟩
        · rw [hn] at hc; cases hc
        · exact Mkclean.unchanged_written env j _ pl w hx.written hx.planned c0 hc hr ht
      have s1 := (Mkclean.settle_done _ _ _ _ _ _ _ _ _ hpc.settled).1
      have hfresh : ∀ c ∈ (j.clusters.map fun c => if j.needRead then c.read.1 else c).map (·.clu env j.scale),
          c.prevSize = none := by
        intro c hcm
        obtain ⟨y, _, rfl⟩ := List.mem_map.1 hcm
        rfl
      have hpll : pl.clusters.length = placed.length := by
        rw [hcs.1, s1, Mkclean.place_length]; simp
      have hprev : ∀ (k : Nat) A, placed[k]? = some A → ∃ oc, pl.clusters[k]? = some (oc, A.prevSize) := by
        intro k A hA
        have hlt : k < pl.clusters.length := by rw [hpll]; exact (List.getElem?_eq_some_iff.1 hA).1
        obtain ⟨q, hq⟩ : ∃ q, pl.clusters[k]? = some q := ⟨_, List.getElem?_eq_getElem hlt⟩
        have hq2 := hq
        rw [hpc.clusters, List.getElem?_zip_eq_some, List.getElem?_map, List.getElem?_map, hA] at hq2
        simp only [Option.map_some, Option.some.injEq] at hq2
        exact ⟨q.1, by rw [hq, ← Prod.eta q, hq2.2]⟩
      apply chained_of K none hAll
      · intro d hd v hv
        obtain ⟨A, hA⟩ : ∃ A, placed[0]? = some A :=
          ⟨_, List.getElem?_eq_getElem (by rw [← hpll, ← hK2]; exact (List.getElem?_eq_some_iff.1 hd).1)⟩
        obtain ⟨oc, hoc⟩ := hprev 0 A hA
        have := place_first _ _ _ A hfresh (by rw [← s1]; exact hA)
        rw [hnone 0 d _ hd hoc this] at hv
        cases hv
      · intro k a b ha hb v hv
        have hk1 : k + 1 < placed.length := by rw [← hpll, ← hK2]; exact (List.getElem?_eq_some_iff.1 hb).1
        obtain ⟨A, hA⟩ : ∃ A, placed[k]? = some A := ⟨_, List.getElem?_eq_getElem (by omega)⟩
        obtain ⟨B, hB⟩ : ∃ B, placed[k + 1]? = some B := ⟨_, List.getElem?_eq_getElem hk1⟩
        obtain ⟨ob, hob⟩ := hprev (k + 1) B hB
        cases hsafe : j.safe with
        | false =>
          rw [hsafe] at s1
          have := place_unsafe _ _ _ (k + 1) B hfresh (by rw [← s1]; exact hB)
          rw [hnone (k + 1) b _ hb hob this] at hv
          cases hv
        | true =>
          rw [hsafe] at s1
          have hpv := Mkclean.place_prev _ _ none k A B (by rw [← s1]; exact hA) (by rw [← s1]; exact hB)
          obtain ⟨oa, xa, a1, a2, a3, _⟩ := hx.cluster_sizes hg c0 c' placed hpc hch k A hA
          have hal : (encode a).length = xa.1.length := by
            have h1 := congrArg (·[k]?) hK1
            simp only [List.getElem?_map, a1, ha, Option.map_some, Option.some.injEq] at h1
            rw [h1]
          have hlen2 : xa.1.length ≤ file.length := by
            obtain ⟨u, v, f1, f2⟩ := (hx.cluster_at ho k xa a1).2.2.1
            rw [f1]; simp only [List.length_append]; omega
          have hv2 := (hK3 (k + 1) _ b hob hb).2.2
          rw [hv, hpv] at hv2
          simp only [Option.map_some, Option.some.injEq] at hv2
          have := Mkclean.ofInt_small A.fullSize (by omega) (by omega)
          omega
  · have hS : kids (.group 0x114D9B74 slen true j.safe ((entriesOf w.parts (pl.cues.map fun _ => w.cuesPos)
        (w.clusters.head?.map (·.2))).map (entryDoc j.safe seg))) = (entriesOf w.parts (pl.cues.map fun _ => w.cuesPos)
        (w.clusters.head?.map (·.2))).map (entryDoc j.safe seg) := rfl
    rw [hS, ← hseek, ← hV, hx.seekLen, hx.void, hlen, hseg, ← hent, List.map_map]
    apply List.map_congr_left
    intro x hxm
    have hb := hbound x (by rw [← hent]; exact hxm)
    exact seekOf_entry j.safe seg x.1 x.2 (hid x hxm) hb.1 hb.2

/-- C205. Of a file that mkclean finished mkvalidator has nothing to say about where things are: the Segment is announced
with its size and holds, one behind the other, a SeekHead, a Void, the sections, the Cues if there are any and the
Clusters, and whoever sees these elements as they are written gets no message about a missing, double, misplaced or
unknown element, a wrong entry of the SeekHead, one that is missing or unknown, a wrong PrevSize or the size of the Segment.
Conditions: the sections are in mkclean's order, each at most once, Info and Tracks among them, and encode as elements;
the file is not larger than the source whose size chose the width of the size field; no block bears the ID of Position or
PrevSize; with Cues the blocks are readable and the Clusters in ascending order of time (C171: without that the file may
be rewritten with positions that no longer hold). -/
theorem C205_accepted (env : Ebml.Env) (j : Job) (hg : j.Good env) (file : Bytes) (h : Mkclean.clean env j = .done file)
    (hsmall : file.length < 2 ^ 63) (hs : ∀ s, j.srcSize = some s → file.length ≤ s) (P : List Doc)
    (hP : List.Forall₂ (fun p d => docId d = p.id ∧ p.bytes = encode d) j.parts P)
    (hids : (j.parts.map (·.id)).Sublist sectionIds) (hinfo : 0x1549A966 ∈ j.parts.map (·.id))
    (htracks : 0x1654AE6B ∈ j.parts.map (·.id))
    (hblk : ∀ c ∈ j.clusters, ∀ b ∈ c.blocks, b.2.base.id ≠ 0xA7 ∧ b.2.base.id ≠ 0xAB)
    (hsame : j.cues = none ∨ ((j.needRead = true ∨ ∀ c ∈ j.clusters, ∀ b ∈ c.blocks, b.1 = true) ∧
      (j.clusters.map (·.time)).Pairwise (· < ·))) :
    ∃ len docs, file = j.head ++ (idField 0x18538067 ++ sizeField len (encodeList docs).length) ++ encodeList docs ∧
      docs.map docId = 0x114D9B74 :: 0xEC :: (j.parts.map (·.id) ++ (if j.cues = none then [] else [0x1C53BB6B]) ++
        List.replicate j.clusters.length 0x1F43B675) ∧
      ∀ (o : Mkvalidator.Opts) (fits : Nat → Bool) (f : Mkvalidator.File), o.live = false →
        f.dataPos = (file.length - (encodeList docs).length : Nat) → f.segEnd = some (file.length : Int) →
        SeesAll f.dataPos f.dataPos docs f.elts →
        ∀ e ∈ (Mkvalidator.validate o fits f).evs, evCode e ∉ placeCodes := by
  obtain ⟨len, S, V, C, K, hfile, hn, hC, hCi, hK⟩ := clean_neat env j hg file h hsmall hs P hP hids hinfo htracks hblk hsame
  refine ⟨len, S :: V :: ((P ++ C) ++ K), hfile, ?_, ?_⟩
  · have hKi : K.map docId = List.replicate j.clusters.length 0x1F43B675 := by
      rw [List.eq_replicate_iff]
      refine ⟨by rw [List.length_map, hK], ?_⟩
      intro b hb
      obtain ⟨d, hd, rfl⟩ := List.mem_map.1 hb
      exact hn.clusters d hd
    have hPi : P.map docId = j.parts.map (·.id) := by
      clear hids hinfo htracks hn hfile
      generalize j.parts = ps at hP
      induction hP with
      | nil => rfl
      | cons h1 _ ih => rw [List.map_cons, List.map_cons, ih, h1.1]
    rw [List.map_cons, List.map_cons, List.map_append, List.map_append, hPi, hCi, hKi, hn.seekHead, hn.void]
  · intro o fits f hl hd he hsee
    have hlen := congrArg List.length hfile
    have h4 : (idField 0x18538067).length = 4 := by decide
    simp only [List.length_append, h4, Ebml.sizeField_length] at hlen
    have hdata : f.dataPos = ((j.head.length + 4 + len : Nat) : Int) := by rw [hd]; omega
    rw [hdata] at hsee
    exact hn.accepted o hl fits f hsee hdata (by rw [he, hlen]; congr 1; omega)

/-- What there is to see of an element mkvalidator knows. -/
def bodyOf (data pos : Int) (d : Doc) : Mkvalidator.Body :=
  if docId d = 0x1F43B675 then .cluster ⟨pos, (encode d).length, 0, (child 0xAB d).map (fun v => (beNat v : Int)),
    (child 0xA7 d).map (fun v => (beNat v : Int)), []⟩
  else if docId d = 0x114D9B74 then .seekHead ((kids d).map (seekOf data))
  else if docId d = 0x1549A966 then .info 1000000 true
  else if docId d = 0x1654AE6B then .tracks []
  else if docId d = 0x1C53BB6B then .cues []
  else if docId d = 0x1043A770 then .chapters
  else if docId d = 0x1254C367 then .tags
  else if docId d = 0x1941A469 then .attachments []
  else .void 0

/-- What C205 asks to be seen can always be seen. -/
theorem sees_exists (data : Int) : ∀ (docs : List Doc) (pos : Int), (∀ d ∈ docs, docId d ∈ 0x114D9B74 :: 0xEC :: 0x1C53BB6B ::
    0x1F43B675 :: sectionIds) → ∃ es, SeesAll data pos docs es
  | [], _, _ => ⟨[], rfl⟩
  | d :: docs, pos, h => by
    obtain ⟨es, he⟩ := sees_exists data docs (pos + (encode d).length) fun x hx => h x (by simp [hx])
    refine ⟨⟨bodyOf data pos d, pos, pos + (encode d).length, true, [], []⟩ :: es, _, _, rfl, ⟨?_, rfl, rfl, rfl, ?_, ?_⟩, he⟩
    · have := h d (by simp)
      unfold bodyOf
      generalize docId d = y at this
      simp only [sectionIds, List.mem_cons, List.not_mem_nil, or_false] at this
      rcases this with rfl | rfl | rfl | rfl | rfl | rfl | rfl | rfl | rfl <;> rfl
    · intro s hs
      simp only [bodyOf] at hs
      repeat' split at hs
      all_goals first | (cases hs; rfl) | cases hs
    · intro c hc
      simp only [bodyOf] at hc
      repeat' split at hc
      all_goals first | (cases hc; exact ⟨rfl, rfl, rfl⟩) | cases hc

/-- The sections of the example. -/
def exSections : List Doc := [.elem 0x1549A966 1 (List.replicate 95 1), .elem 0x1654AE6B 1 (List.replicate 25 2)]

/-- All conditions of C205 hold of the example, with Cues and two Clusters. -/
example : (Mkclean.exJob true none 100 30 Mkclean.twoClusters).Good Mkclean.exEnv ∧
    (Mkclean.clean Mkclean.exEnv (Mkclean.exJob true none 100 30 Mkclean.twoClusters) =
      .done (Mkclean.fileOf (Mkclean.clean Mkclean.exEnv (Mkclean.exJob true none 100 30 Mkclean.twoClusters)))) ∧
    List.Forall₂ (fun (p : Part) d => docId d = p.id ∧ p.bytes = encode d)
      (Mkclean.exJob true none 100 30 Mkclean.twoClusters).parts exSections ∧
    ((Mkclean.exJob true none 100 30 Mkclean.twoClusters).parts.map (·.id)).Sublist sectionIds ∧
    (∀ c ∈ Mkclean.twoClusters, ∀ b ∈ c.blocks, b.2.base.id ≠ 0xA7 ∧ b.2.base.id ≠ 0xAB) ∧
    (∀ c ∈ Mkclean.twoClusters, ∀ b ∈ c.blocks, b.1 = true) ∧ (Mkclean.twoClusters.map (·.time)).Pairwise (· < ·) := by
  refine ⟨Mkclean.exJob_good _ _ _ _ _ Mkclean.twoClusters_good, by decide +kernel, ?_, by decide, ?_, ?_, by decide⟩
  · exact .cons ⟨rfl, by decide +kernel⟩ (.cons ⟨rfl, by decide +kernel⟩ .nil)
  · intro c hc b hb
    simp only [Mkclean.twoClusters, List.mem_cons, List.not_mem_nil, or_false] at hc
    rcases hc with rfl | rfl <;> (simp at hb; rw [hb]; decide)
  · intro c hc b hb
    simp only [Mkclean.twoClusters, List.mem_cons, List.not_mem_nil, or_false] at hc
    rcases hc with rfl | rfl <;> (simp at hb; rw [hb])

/-- The messages in question do come up: without the entry for the Tracks mkvalidator says that it is missing, with a
PrevSize one too large that it is wrong. -/
example :
    let f := fun (entries : List Mkvalidator.Seek) (prev : Int) => ({ dataPos := 0, segEnd := some 400, elts := [
      { body := .seekHead entries, pos := 0, endPos := 100 }, { body := .info 1000000 true, pos := 100, endPos := 150 },
      { body := .tracks [], pos := 150, endPos := 200 }, { body := .cluster ⟨200, 100, 0, none, none, []⟩, pos := 200, endPos := 300 },
      { body := .cluster ⟨300, 100, 0, some prev, none, []⟩, pos := 300, endPos := 400 }] } : Mkvalidator.File)
    let codes := fun (f : Mkvalidator.File) => ((Mkvalidator.validate {} (fun _ => true) f).evs.map evCode).filter (· ∈ placeCodes)
    codes (f [⟨0x1549A966, some 100⟩, ⟨0x1654AE6B, some 150⟩] 100) = [] ∧
    codes (f [⟨0x1549A966, some 100⟩] 100) = [0x861] ∧
    codes (f [⟨0x1549A966, some 100⟩, ⟨0x1654AE6B, some 150⟩] 101) = [0xA1] := by
  decide +kernel

end Verif.Accepted
