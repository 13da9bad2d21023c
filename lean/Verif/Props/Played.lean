import Verif.Props.Output
import Verif.Props.Document
/-!
C174: what mkclean wrote is what is read, from every Cluster and from every CuePoint.
-/
set_option linter.unusedSimpArgs false
namespace Verif.Mkclean
open Verif.Ebml Verif.EbmlDoc Verif.Mkv
open Verif.Ebml.Master (Document DocFollows DocFollowsList Follows Shows ShowsList mkv mkvScan)
open Verif.Ebml.Scan (load Node)

/-- The blocks of each Cluster, and whether they can be read, are these documents: SimpleBlocks and BlockGroups with
their frames (see C136). -/
structure Holds (env : Ebml.Env) (enc : Nat → Mkv.Enc) (j : Job) (docs : List (List (Bool × Document))) : Prop where
  blocks : j.clusters.map (·.blocks) = docs.map fun ds => ds.map fun x => (x.1, x.2.elt enc)
  follow : ∀ ds ∈ docs, ∀ x ∈ ds, x.1 = true → ∃ r, Master.Allowed Master.rCluster r ∧ DocFollows env enc false r x.2

/-- A Cluster of the given time, with or without a PrevSize, and with the blocks that can be read. -/
def clusterWith (scale : Int) (c : OutCluster) (prev : Option (BitVec 64)) (ds : List (Bool × Document)) : Document :=
  .master ⟨0x1F43B675, -1, c.sizeLength, true, true, true⟩ c.crc
    (.elem (newBase 0xE7) none (.uint (BitVec.ofInt 64 (scale64 c.time scale))) ::
      ((prev.map fun v => Document.elem (newBase 0xAB) none (.uint v)).toList ++ (ds.filter (·.1)).map (·.2)))

theorem elts_map (enc : Nat → Mkv.Enc) : ∀ ms : List Document, Document.elts enc ms = ms.map (·.elt enc) := by
  intro ms
  induction ms with
  | nil => rfl
  | cons m ms ih => simp only [Document.elts, ih, List.map_cons]

theorem clusterWith_elt (enc : Nat → Mkv.Enc) (scale : Int) (c : OutCluster) (prev : Option (BitVec 64))
    (ds : List (Bool × Document)) (h : c.blocks = ds.map fun x => (x.1, x.2.elt enc)) :
    (clusterWith scale c prev ds).elt enc = c.read.1.elt scale prev := by
  unfold clusterWith OutCluster.elt OutCluster.read
  simp only [Document.elt, elts_map, List.map_cons, List.map_append]
  congr 2
  congr 1
  · cases prev <;> rfl
  · rw [h]
    simp only [List.filter_map, List.map_map]
    rfl

theorem clusterWith_follows (env : Ebml.Env) (enc : Nat → Mkv.Enc) (scale : Int) (c : OutCluster) (prev : Option (BitVec 64))
    (ds : List (Bool × Document)) (h : c.blocks = ds.map fun x => (x.1, x.2.elt enc)) (hs : c.sizeLength ≤ 8)
    (hb : ∀ b ∈ c.blocks, Coherent env false b.2)
    (hf : ∀ x ∈ ds, x.1 = true → ∃ r, Master.Allowed Master.rCluster r ∧ DocFollows env enc false r x.2)
    (hl : (rendered env (c.read.1.elt scale prev)).length < 2 ^ 35 - 1) :
    DocFollows env enc false Master.rCluster (clusterWith scale c prev ds) := by
  have huint : ∀ id v r, (mkv.ctx r).id = id → Master.scanCls (mkv.ctx r).cls = .uint → Master.Allowed Master.rCluster r →
      (mkv.ctx r).cls ≠ .block → (mkv.ctx r).cls ≠ .uid →
      ∃ r, Master.Allowed Master.rCluster r ∧ DocFollows env enc false r (.elem (newBase id) none (.uint v)) := by
    intro id v r h1 h2 h3 h4 h5
    refine ⟨r, h3, ?_⟩
    simp only [DocFollows, Follows]
    refine ⟨h1.symm, h2, ?_, trivial, h4, fun h => absurd h h5⟩
    have := (C13_unsigned_minimal v).2.1
    simp only [leafPayload, beBytes_length]
    omega
  have hlist : ∀ ms : List Document, (∀ m ∈ ms, ∃ r, Master.Allowed Master.rCluster r ∧ DocFollows env enc false r m) →
      DocFollowsList env enc false Master.rCluster ms := by
    intro ms
    induction ms with
    | nil => intro _; simp only [DocFollowsList]
    | cons m ms ih =>
      intro hm
      simp only [DocFollowsList]
      exact ⟨fun _ => hm m (by simp), ih fun x hx => hm x (by simp [hx])⟩
  have he := clusterWith_elt enc scale c prev ds h
  have hr := rendered_eq env (c.read.1.elt scale prev) (cluster_coherent env scale prev c.read.1 hs (fun b hb' => hb b (List.mem_of_mem_filter hb'))) rfl
  rw [hr.1] at hl
  unfold clusterWith at he ⊢
  simp only [DocFollows]
  refine ⟨by decide +kernel, by decide +kernel, trivial, ?_, fun _ => ?_, hlist _ ?_⟩
  · rw [← he] at hl
    simp only [Document.elt, toDoc, encode_group, List.length_append] at hl
    refine Nat.lt_of_le_of_lt ?_ hl
    simp only [payload]
    omega
  · simp only [Document.elts]
    exact ⟨_, List.mem_cons_self, rfl⟩
  · intro m hm
    rcases List.mem_cons.1 hm with rfl | hm
    · exact huint _ _ Master.rTimestamp (by decide +kernel) (by decide +kernel) (.inl (by decide +kernel)) (by decide +kernel) (by decide +kernel)
    · rcases List.mem_append.1 hm with hm | hm
      · cases prev with
        | none => simp at hm
        | some v =>
          simp only [Option.map_some, Option.toList_some, List.mem_cons, List.not_mem_nil, or_false] at hm
          rw [hm]
          exact huint _ _ 37 (by decide +kernel) (by decide +kernel) (.inl (by decide +kernel)) (by decide +kernel) (by decide +kernel)
      · obtain ⟨x, hx, rfl⟩ := List.mem_map.1 hm
        obtain ⟨h1, h2⟩ := List.mem_filter.1 hx
        exact hf x h1 h2

/-- Loading a Cluster of the output where it is. -/
theorem Explains.cluster_loads {env : Ebml.Env} {j : Job} (hg : j.Good env) {file : Bytes} {p : Pieces} {pl : Plan} {w : Written}
    (ho : IsOutput j file p) (hx : Explains env j p pl w) (enc : Nat → Mkv.Enc) (docs : List (List (Bool × Document)))
    (hd : Holds env enc j docs) (hsmall : file.length < 2 ^ 35 - 1) (htime : (j.clusters.map (·.time)).Pairwise (· < ·))
    (k : Nat) (c : OutCluster) (ds : List (Bool × Document)) (hc : j.clusters[k]? = some c) (hk : docs[k]? = some ds) :
    ∃ cl prev, p.clusters[k]? = some cl ∧ ∀ pos, At file pos cl → ∀ dummy level mem fuel, file.length ≤ fuel →
      ∃ n e, load mkvScan env dummy fuel file mem pos Master.rSegment level = .ok n e ∧
        Shows env enc false level (clusterWith j.scale c prev ds) n := by
  have hgc := hg.clusters c (List.mem_of_getElem? hc)
  have hb : c.blocks = ds.map fun x => (x.1, x.2.elt enc) := by
    have := congrArg (·[k]?) hd.blocks
    simp only [List.getElem?_map, hc, hk, Option.map_some, Option.some.injEq] at this
    exact this
  have hwc : w.clusters = (writeClusters env j.scale invalidTs (w.cuesPos + w.cues.length) pl.clusters).1 := by
    rw [hx.written]; rfl
  have hpl : (pl.clusters.map (·.1.time)) = j.clusters.map (·.time) ∧
      ∃ oc prev, pl.clusters[k]? = some (oc, prev) ∧ oc.read.1 = c.read.1 := by
    rcases hx.planned with ⟨_, _, h⟩ | ⟨c1, c', placed, _, h⟩
    · rw [h]
      refine ⟨by simp only [List.map_map]; rfl, c, none, by rw [List.getElem?_map, hc]; rfl, rfl⟩
    · have s1 := (settle_done _ _ _ _ _ _ _ _ _ h.settled).1
      have hlen : placed.length = j.clusters.length := by rw [s1, place_length]; simp
      rw [h.clusters]
      constructor
      · rw [show (fun x : OutCluster × Option (BitVec 64) => x.1.time) = OutCluster.time ∘ Prod.fst from rfl, ← List.map_map,
          List.map_fst_zip (by simp [hlen]), List.map_map]
        congr 1
        funext x
        simp only [Function.comp]
        split <;> rfl
      · obtain ⟨cl, hcl⟩ : ∃ cl, placed[k]? = some cl :=
          ⟨_, List.getElem?_eq_getElem (by rw [hlen]; exact (List.getElem?_eq_some_iff.1 hc).1)⟩
        refine ⟨if j.needRead then c.read.1 else c, cl.prevSize, ?_, ?_⟩
        · rw [List.getElem?_zip_eq_some]
          exact ⟨by rw [List.getElem?_map, hc]; rfl, by rw [List.getElem?_map, hcl]; rfl⟩
        · split
          · simp only [OutCluster.read, List.filter_filter, Bool.and_self]
          · rfl
  obtain ⟨hpt, oc, prev, hoc, hread⟩ := hpl
  obtain ⟨q, hq⟩ := writeClusters_times env j.scale pl.clusters invalidTs (w.cuesPos + w.cues.length)
    (by rw [hpt]; exact htime) (.inl rfl) k _ hoc
  rw [← hwc, hread] at hq
  have hat := (hx.cluster_at ho k _ hq)
  refine ⟨_, prev, hat.1, fun pos hpos dummy level mem fuel hfu => ?_⟩
  simp only at hpos
  obtain ⟨a, b, hf, ha⟩ := hpos
  have hlen : (rendered env (c.read.1.elt j.scale prev)).length ≤ file.length := by
    rw [hf]; simp only [List.length_append]; omega
  have hfol := clusterWith_follows env enc j.scale c prev ds hb hgc.1 hgc.2
    (hd.follow ds (List.mem_of_getElem? hk)) (by omega)
  have hcoh := cluster_coherent env j.scale prev c.read.1 hgc.1 (fun b hb' => hgc.2 b (List.mem_of_mem_filter hb'))
  rw [← clusterWith_elt enc j.scale c prev ds hb] at hcoh
  obtain ⟨bytes, h1, h2⟩ := Master.C136_document_round_trip_partial env enc false dummy level Master.rSegment Master.rCluster
    (clusterWith j.scale c prev ds) (by decide +kernel) (.inl (by decide +kernel)) hfol hcoh rfl _ (Nat.le_refl _)
  have hbytes : bytes = rendered env (c.read.1.elt j.scale prev) := by
    rw [← clusterWith_elt enc j.scale c prev ds hb, rendered, h1]; rfl
  rw [hbytes] at h2
  obtain ⟨n, e, h3, h4⟩ := h2 a b mem fuel (by omega)
  rw [← hf, ha] at h3
  exact ⟨n, e, h3, h4⟩

/-- **C174** (partial). In every file below 32 GiB that mkclean finishes from Clusters that are each later than the one before,
the library loads each Cluster from where it is, and finds in it the Timestamp and every block of the Cluster that could
be read, in order, with its track, its time, its flags and its frames, and no other block. -/
theorem C174_clusters_load_partial (env : Ebml.Env) (enc : Nat → Mkv.Enc) (j : Job) (hg : j.Good env)
    (docs : List (List (Bool × Document))) (hd : Holds env enc j docs) (file : Bytes) (h : clean env j = .done file)
    (hsmall : file.length < 2 ^ 35 - 1) (htime : (j.clusters.map (·.time)).Pairwise (· < ·)) :
    ∃ p, IsOutput j file p ∧ ∀ (k : Nat) (c : OutCluster) (ds : List (Bool × Document)), j.clusters[k]? = some c → docs[k]? = some ds →
      ∃ cl pos prev, p.clusters[k]? = some cl ∧ At file pos cl ∧ ∀ dummy level mem fuel, file.length ≤ fuel →
        ∃ n e, load mkvScan env dummy fuel file mem pos Master.rSegment level = .ok n e ∧
          Shows env enc false level (clusterWith j.scale c prev ds) n := by
  obtain ⟨p, pl, w, ho, hx⟩ := explained env j hg file h
  refine ⟨p, ho, fun k c ds hc hk => ?_⟩
  obtain ⟨cl, prev, h1, h2⟩ := hx.cluster_loads hg ho enc docs hd hsmall htime k c ds hc hk
  have h3 : ∃ x, w.clusters[k]? = some x ∧ x.1 = cl := by
    rw [hx.clusters, List.getElem?_map] at h1
    cases hw : w.clusters[k]? with
    | none => rw [hw] at h1; cases h1
    | some x => rw [hw] at h1; exact ⟨x, rfl, by simpa using h1⟩
  obtain ⟨x, hxk, rfl⟩ := h3
  have hat := (hx.cluster_at ho k x hxk).2.2.1
  exact ⟨_, _, prev, h1, hat, h2 _ hat⟩

/-- **C174** for players that seek. Where the Cues are right (C171), loading at the position a CuePoint names gives the
Cluster of its Block, with all its blocks and frames. -/
theorem C174_cues_play (env : Ebml.Env) (enc : Nat → Mkv.Enc) (j : Job) (hg : j.Good env)
    (docs : List (List (Bool × Document))) (hd : Holds env enc j docs) (file : Bytes) (h : clean env j = .done file)
    (hsmall : file.length < 2 ^ 35 - 1) (htime : (j.clusters.map (·.time)).Pairwise (· < ·))
    (c : Cues) (hc : j.cues = some c) (hp : 27 * j.parts.length < 2 ^ 62) (hs : ∀ s, j.srcSize = some s → file.length ≤ s)
    (hm : ∀ pl w, plan env j ((j.head.length + 4 + firstLen j.srcSize : Nat) : Int) = some pl →
      w = writeAll env j ((j.head.length + 4 + firstLen j.srcSize : Nat) : Int) pl →
      w.changed = true ∨ pl.supposed = w.seek.length) :
    ∃ p len cs, IsOutput j file p ∧ (∃ f, p.cues = encode (.group 0x1C53BB6B len true (c.crc != 0) cs) ++ f ∧ Filler f) ∧
      List.Forall₂ (fun q d => ∃ k oc ds off prev, q.cluster = some k ∧ j.clusters[k]? = some oc ∧ docs[k]? = some ds ∧
        CuePointAt q.track.toNat off d ∧ ∀ dummy level mem fuel, file.length ≤ fuel →
          ∃ n e, load mkvScan env dummy fuel file mem (p.data j + off) Master.rSegment level = .ok n e ∧
            Shows env enc false level (clusterWith j.scale oc prev ds) n) c.points cs := by
  obtain ⟨p, pl, w, ho, hx⟩ := explained env j hg file h
  obtain ⟨len, cs, h1, h2⟩ := hx.cues_miss hg ho c hc (by omega)
  refine ⟨p, len, cs, ho, h1, h2.imp ?_⟩
  rintro q d ⟨k, cl, off, pos, e1, e2, e3, e4, e5⟩
  have hz := ho.grown_zero hs
  have hmiss : miss j p pl w.changed = 0 := by
    unfold miss
    rw [hz]
    rcases hm pl w hx.plan hx.written with hch | hsup
    · rw [hch]; rfl
    · rw [hsup, hx.seekLen]; split <;> omega
  rw [hmiss] at e5
  have hpos : p.data j + off = pos := by omega
  have hkl : k < j.clusters.length := by rw [← ho.clusters]; exact (List.getElem?_eq_some_iff.1 e2).1
  have hdl : docs.length = j.clusters.length := by
    have := congrArg List.length hd.blocks
    simpa using this.symm
  obtain ⟨cl', prev, g1, g2⟩ := hx.cluster_loads hg ho enc docs hd hsmall htime k _ _ (List.getElem?_eq_getElem hkl)
    (List.getElem?_eq_getElem (by omega))
  rw [e2] at g1
  obtain rfl : cl = cl' := by simpa using g1
  exact ⟨k, _, _, off, prev, e1, List.getElem?_eq_getElem hkl, List.getElem?_eq_getElem (by omega), e4,
    hpos ▸ g2 pos e3⟩

/-! A job that meets the hypotheses: two Clusters, a laced SimpleBlock, a block that cannot be read. -/

def playDocs : List (List (Bool × Document)) :=
  [[(true, .block ⟨0xA3, -1, 0, true, true, true⟩ ⟨1, -3, true, false, false, .none⟩ [[1, 2, 3], [4]]),
    (false, .block ⟨0xA3, -1, 0, true, true, true⟩ ⟨2, 5, true, false, false, .none⟩ [[8, 8]])],
   [(true, .block ⟨0xA3, -1, 0, true, true, true⟩ ⟨1, 0, true, false, false, .none⟩ [[5, 6]])]]

def playJob : Job := exJob true none 100 30
  [⟨0, 0, 1, [(true, .leaf ⟨0xA3, -1, 0, true, true, true⟩ none (.bin [0x81, 0xFF, 0xFD, 0x86, 1, 0x83, 1, 2, 3, 4])),
      (false, .leaf ⟨0xA3, -1, 0, true, true, true⟩ none (.bin [0x82, 0, 5, 0x80, 8, 8]))]⟩,
   ⟨40, 0, 1, [(true, .leaf ⟨0xA3, -1, 0, true, true, true⟩ none (.bin [0x81, 0, 0, 0x80, 5, 6]))]⟩]

example : playJob.Good exEnv ∧ Holds exEnv (fun _ => .plain) playJob playDocs ∧
    (playJob.clusters.map (·.time)).Pairwise (· < ·) ∧
    clean exEnv playJob = .done (fileOf (clean exEnv playJob)) := by
  have hb : ∀ p, Coherent exEnv false (.leaf ⟨0xA3, -1, 0, true, true, true⟩ none (.bin p)) := by
    intro p
    simp [Coherent, LeafReady, LeafSettled]
  have hc : ∀ h frames, Master.Carries .plain h frames → ∃ r, Master.Allowed Master.rCluster r ∧
      DocFollows exEnv (fun _ => .plain) false r (.block ⟨0xA3, -1, 0, true, true, true⟩ h frames) := by
    intro h frames hc
    refine ⟨38, .inl (by decide +kernel), ?_⟩
    simp only [DocFollows]
    exact ⟨by decide +kernel, by decide +kernel, hc⟩
  refine ⟨⟨?_, ?_, ?_⟩, ⟨by rfl, ?_⟩, by decide, by decide +kernel⟩
  · intro p hp
    simp only [playJob, exJob, List.mem_cons, List.not_mem_nil, or_false] at hp
    rcases hp with rfl | rfl <;> simp
  · intro c hc
    simp only [playJob, exJob, Option.some.injEq] at hc
    subst hc; simp
  · intro c hc
    simp only [playJob, exJob, List.mem_cons, List.not_mem_nil, or_false] at hc
    rcases hc with rfl | rfl <;> refine ⟨by simp, fun b hb' => ?_⟩ <;>
      simp only [List.mem_cons, List.not_mem_nil, or_false] at hb'
    · rcases hb' with rfl | rfl <;> exact hb _
    · rw [hb']; exact hb _
  · intro ds hds x hx ht
    simp only [playDocs, List.mem_cons, List.not_mem_nil, or_false] at hds
    rcases hds with rfl | rfl <;> simp only [List.mem_cons, List.not_mem_nil, or_false] at hx
    · rcases hx with rfl | rfl
      · refine hc _ _ ⟨by decide, by decide, by decide, by decide, by decide, by decide, by decide, by decide, trivial, trivial, ?_, by decide⟩
        intro h; exact h
      · cases ht
    · subst hx
      refine hc _ _ ⟨by decide, by decide, by decide, by decide, by decide, by decide, by decide, by decide, trivial, trivial, ?_, by decide⟩
      intro h; exact h

end Verif.Mkclean
