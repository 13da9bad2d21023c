import Verif.Mkclean.LiveOut
import Verif.Props.Output
import Verif.Ebml.ScanFirst
import Verif.Ebml.ParseLemmas
/-!
Property theorems C207 to C209: what mkclean writes with `--live`.
-/
set_option linter.unusedSimpArgs false
namespace Verif.Mkclean
open Verif.Ebml Verif.EbmlDoc Verif.Mkv

theorem setUnknown_elt (scale : Int) (prev : Option (BitVec 64)) (c : OutCluster) :
    setUnknown (c.elt scale prev) = .master ⟨0x1F43B675, -1, c.sizeLength, true, true, false⟩ c.crc
      (newUint 0xE7 (BitVec.ofInt 64 (scale64 c.time scale)) ::
        ((prev.map (newUint 0xAB)).toList ++ c.blocks.map (·.2))) := rfl

theorem unknown_coherent (env : Ebml.Env) (scale : Int) (prev : Option (BitVec 64)) (c : OutCluster)
    (hs : c.sizeLength ≤ 8) (hb : ∀ b ∈ c.blocks, Coherent env false b.2) :
    Coherent env false (setUnknown (c.elt scale prev)) := by
  have h := cluster_coherent env scale prev c hs hb
  rw [setUnknown_elt]
  unfold OutCluster.elt at h
  simp only [Coherent] at h ⊢
  exact ⟨h.1, h.2.1, h.2.2.1, h.2.2.2.1, fun h => by simp [needs] at h⟩

/-- The size an updated Cluster has once its size is unknown is the size it is written with. -/
theorem unknown_size (env : Ebml.Env) (scale : Int) (prev : Option (BitVec 64)) (c : OutCluster)
    (hs : c.sizeLength ≤ 8) (hb : ∀ b ∈ c.blocks, Coherent env false b.2) :
    fullSizeBase (setUnknown (update env false (c.elt scale prev))).base =
      ((rendered env (setUnknown (c.elt scale prev))).length : Int) := by
  rw [(rendered_eq env _ (unknown_coherent env scale prev c hs hb) rfl).2, setUnknown_elt]
  unfold OutCluster.elt
  have hn : ∀ f : Bool, needs env false (.master ⟨0x1F43B675, -1, c.sizeLength, true, true, f⟩ c.crc
      (newUint 0xE7 (BitVec.ofInt 64 (scale64 c.time scale)) ::
        ((prev.map (newUint 0xAB)).toList ++ c.blocks.map (·.2)))) = true := fun f => by simp [needs]
  rw [update, update, if_pos (hn _), if_pos (hn _)]
  generalize updateList env false _ _ = r
  obtain ⟨a, b, ok⟩ := r
  cases ok <;> rfl

theorem codedSizeLength_le8 (n : Int) (s : Nat) (f : Bool) (h : s ≤ 8) : codedSizeLength n s f ≤ 8 := by
  unfold codedSizeLength
  simp only
  (repeat' split) <;> omega

theorem unknown_toDoc (env : Ebml.Env) (scale : Int) (prev : Option (BitVec 64)) (c : OutCluster) :
    ∃ len, (1 ≤ len) ∧ (c.sizeLength ≤ 8 → len ≤ 8) ∧ toDoc env false (setUnknown (c.elt scale prev)) =
      .group 0x1F43B675 len false (c.crc != 0)
        (.elem 0xE7 1 (beBytes (naturalSizeInt (BitVec.ofInt 64 (scale64 c.time scale))) (BitVec.ofInt 64 (scale64 c.time scale)).toInt) ::
          ((prev.map fun v => Doc.elem 0xAB 1 (beBytes (naturalSizeInt v) v.toInt)).toList ++
            toDocList env false (c.blocks.map (·.2)))) := by
  have hd : ∀ id v, isDefault env (newUint id v) = false := fun _ _ => rfl
  rw [setUnknown_elt]
  simp only [toDoc]
  have hl : ∀ n, codedSizeLength n c.sizeLength false = codedSizeLength 0 c.sizeLength false := fun n => rfl
  refine ⟨codedSizeLength 0 c.sizeLength false, codedSizeLength_pos _ _ _, codedSizeLength_le8 _ _ _, ?_⟩
  rw [hl]
  cases prev <;>
    simp only [Option.map_none, Option.map_some, Option.toList_none, Option.toList_some, List.nil_append,
      List.cons_append, toDocList, hd, Bool.not_false, Bool.true_and, Bool.false_eq_true, if_false, uint_toDoc]

/-- A Cluster as found in a live file: with `--unsafe` it tells its size. `t` and `prev` are the payloads of its Timestamp
and PrevSize; the readable blocks follow. -/
def LiveCluster (env : Ebml.Env) (safe : Bool) (c : OutCluster) (t : Bytes) (prev : Option Bytes) (b : Bytes) : Prop :=
  ∃ len, 1 ≤ len ∧ len ≤ 8 ∧ b = encode (.group 0x1F43B675 len (!safe) (c.crc != 0)
    (.elem 0xE7 1 t :: ((prev.map (Doc.elem 0xAB 1)).toList ++
      toDocList env false ((c.blocks.filter (·.1)).map (·.2)))))

/-- Clusters mkclean can write: size fields of at most 8 bytes, blocks in a coherent state. -/
def GoodClusters (env : Ebml.Env) (cs : List OutCluster) : Prop :=
  ∀ c ∈ cs, c.sizeLength ≤ 8 ∧ ∀ b ∈ c.blocks, Coherent env false b.2

theorem live_one (env : Ebml.Env) (scale : Int) (safe : Bool) (prev : Option (BitVec 64)) (c : OutCluster) (tm : Int)
    (hs : c.sizeLength ≤ 8) (hb : ∀ b ∈ c.blocks, Coherent env false b.2) :
    LiveCluster env safe c
      (beBytes (naturalSizeInt (BitVec.ofInt 64 (scale64 tm scale))) (BitVec.ofInt 64 (scale64 tm scale)).toInt)
      (prev.map fun v => beBytes (naturalSizeInt v) v.toInt)
      (rendered env (if safe then setUnknown ({ c.read.1 with time := tm }.elt scale prev)
        else { c.read.1 with time := tm }.elt scale prev)) := by
  have hb' : ∀ b ∈ ({ c.read.1 with time := tm } : OutCluster).blocks, Coherent env false b.2 :=
    fun b h => hb b (List.mem_filter.1 h).1
  cases safe with
  | true =>
    simp only [if_true]
    rw [(rendered_eq env _ (unknown_coherent env scale prev _ (by exact hs) hb') rfl).1]
    obtain ⟨len, h1, h2, h3⟩ := unknown_toDoc env scale prev { c.read.1 with time := tm }
    rw [h3]
    refine ⟨len, h1, h2 hs, ?_⟩
    rw [Option.map_map]
    rfl
  | false =>
    simp only [Bool.false_eq_true, if_false]
    rw [(rendered_eq env _ (cluster_coherent env scale prev _ (by exact hs) hb') rfl).1, cluster_toDoc]
    refine ⟨codedSizeLength (payload (clusterDoc env scale prev 0 { c.read.1 with time := tm })).length c.sizeLength true,
      codedSizeLength_pos _ _ _, codedSizeLength_le8 _ _ _ hs, ?_⟩
    rw [Option.map_map]
    rfl

theorem liveClusters_length (env : Ebml.Env) (scale : Int) (safe : Bool) : ∀ (cs : List (OutCluster × Option (BitVec 64))) (prev : Int),
    (liveClusters env scale safe prev cs).length = cs.length := by
  intro cs
  induction cs with
  | nil => intro _; rfl
  | cons c cs ih => intro p; simp [liveClusters, ih]

theorem liveClusters_at (env : Ebml.Env) (scale : Int) (safe : Bool) : ∀ (cs : List (OutCluster × Option (BitVec 64))) (prev : Int)
    (k : Nat) (c : OutCluster × Option (BitVec 64)), cs[k]? = some c →
    ∃ tm, (liveClusters env scale safe prev cs)[k]? =
      some (rendered env (if safe then setUnknown ({ c.1.read.1 with time := tm }.elt scale c.2)
        else { c.1.read.1 with time := tm }.elt scale c.2)) ∧
      ((cs.map (·.1.time)).Pairwise (· < ·) → (prev = invalidTs ∨ ∀ c ∈ cs, prev < c.1.time) → tm = c.1.time) := by
  intro cs
  induction cs with
  | nil => intro prev k c h; simp at h
  | cons c0 cs ih =>
    intro prev k c h
    have hlate : (prev = invalidTs ∨ ∀ c ∈ c0 :: cs, prev < c.1.time) → decide (prev ≠ invalidTs ∧ prev ≥ c0.1.time) = false := by
      intro hp
      rw [decide_eq_false_iff_not]
      rintro ⟨h1, h2⟩
      rcases hp with h | h
      · exact h1 h
      · have := h c0 (by simp); omega
    cases k with
    | zero =>
      simp only [List.getElem?_cons_zero, Option.some.injEq] at h
      subst h
      refine ⟨_, by simp only [liveClusters, List.getElem?_cons_zero, writeCluster]; rfl, ?_⟩
      intro _ hp
      rw [hlate hp]
      rfl
    | succ k =>
      simp only [List.getElem?_cons_succ] at h
      obtain ⟨tm, h1, h2⟩ := ih (writeCluster scale prev c0.1).2.1 k c h
      refine ⟨tm, by simp only [liveClusters, List.getElem?_cons_succ]; exact h1, ?_⟩
      intro ht hp
      simp only [List.map_cons, List.pairwise_cons] at ht
      refine h2 ht.2 (Or.inr ?_)
      intro c hc
      simp only [writeCluster, hlate hp, Bool.false_eq_true, if_false]
      exact ht.1 _ (List.mem_map_of_mem hc)

/-- What the plan says of Cluster `k`. -/
theorem setPrevSizes_at (env : Ebml.Env) (scale : Int) (needRead : Bool) : ∀ (cs : List OutCluster) (size : Option Int) (k : Nat)
    (c : OutCluster), cs[k]? = some c →
    ∃ prev, (setPrevSizes env scale needRead size cs)[k]? = some (if needRead then c.read.1 else c, prev) ∧
      (k = 0 → prev = size.map (BitVec.ofInt 64)) ∧ (k ≠ 0 → prev.isSome) := by
  intro cs
  induction cs with
  | nil => intro size k c h; simp at h
  | cons c0 cs ih =>
    intro size k c h
    cases k with
    | zero =>
      simp only [List.getElem?_cons_zero, Option.some.injEq] at h
      subst h
      exact ⟨_, rfl, fun _ => rfl, fun h => absurd rfl h⟩
    | succ k =>
      simp only [List.getElem?_cons_succ] at h
      obtain ⟨prev, h1, h2, h3⟩ := ih (some (fullSizeBase (setUnknown (update env false
        ((if needRead then c0.read.1 else c0).elt scale (size.map (BitVec.ofInt 64))))).base)) k c h
      refine ⟨prev, by simp only [setPrevSizes, List.getElem?_cons_succ]; exact h1, fun h => by omega, fun _ => ?_⟩
      by_cases hk : k = 0
      · rw [h2 hk]; rfl
      · exact h3 hk

theorem setPrevSizes_next (env : Ebml.Env) (scale : Int) (needRead : Bool) : ∀ (cs : List OutCluster) (size : Option Int) (k : Nat)
    (x y : OutCluster × Option (BitVec 64)), (setPrevSizes env scale needRead size cs)[k]? = some x →
    (setPrevSizes env scale needRead size cs)[k + 1]? = some y →
    y.2 = some (BitVec.ofInt 64 (fullSizeBase (setUnknown (update env false (x.1.elt scale x.2))).base)) := by
  intro cs
  induction cs with
  | nil => intro size k x y h; simp [setPrevSizes] at h
  | cons c0 cs ih =>
    intro size k x y hx hy
    cases k with
    | zero =>
      simp only [setPrevSizes, List.getElem?_cons_zero, Option.some.injEq, List.getElem?_cons_succ] at hx hy
      subst hx
      cases cs with
      | nil => simp [setPrevSizes] at hy
      | cons c1 cs =>
        simp only [setPrevSizes, Nat.zero_add, List.getElem?_cons_zero, Option.some.injEq] at hy
        subst hy
        rfl
    | succ k =>
      simp only [setPrevSizes, List.getElem?_cons_succ] at hx hy
      exact ih _ k x y hx hy

theorem setPrevSizes_clusters (env : Ebml.Env) (scale : Int) (needRead : Bool) : ∀ (cs : List OutCluster) (size : Option Int),
    (setPrevSizes env scale needRead size cs).map (·.1) = cs.map fun c => if needRead then c.read.1 else c := by
  intro cs
  induction cs with
  | nil => intro _; rfl
  | cons c cs ih => intro size; simp only [setPrevSizes, List.map_cons, ih]

theorem read_read (c : OutCluster) : c.read.1.read.1 = c.read.1 := by
  simp [OutCluster.read, List.filter_filter]

theorem livePlan_at (env : Ebml.Env) (j : Job) (k : Nat) (c : OutCluster) (h : j.clusters[k]? = some c) :
    ∃ (c' : OutCluster) (prev : Option (BitVec 64)), (livePlan env j)[k]? = some (c', prev) ∧ c'.read.1 = c.read.1 ∧
      c'.time = c.time ∧ (c' = c ∨ c' = c.read.1) ∧ (prev.isSome ↔ j.safe = true ∧ k ≠ 0) := by
  unfold livePlan
  cases hs : j.safe with
  | false =>
    simp only [Bool.false_eq_true, if_false]
    exact ⟨c, none, by simp [h], rfl, rfl, Or.inl rfl, by simp⟩
  | true =>
    simp only [if_true]
    obtain ⟨prev, h1, h2, h3⟩ := setPrevSizes_at env j.scale j.needRead j.clusters none k c h
    refine ⟨_, prev, h1, ?_, ?_, ?_, ?_⟩
    · split
      · exact read_read c
      · rfl
    · split <;> rfl
    · split
      · exact Or.inr rfl
      · exact Or.inl rfl
    · constructor
      · intro hp
        refine ⟨trivial, fun h0 => ?_⟩
        rw [h2 h0] at hp
        simp at hp
      · intro h; exact h3 h.2

/-- **C207**. With `--live` the output is the EBML head, the head of a Segment of unknown size, 134 bytes 0x0A, the
sections and one Cluster for each Cluster, in order, with all its readable blocks. The Clusters are of unknown size and all
but the first have a PrevSize; with `--unsafe` they tell their size and have none. -/
theorem C207_layout (env : Ebml.Env) (j : Job) (hg : GoodClusters env j.clusters) :
    ∃ cs : List Bytes,
      cleanLive env j = j.head ++ [0x18, 0x53, 0x80, 0x67, 0xFF] ++ List.replicate 134 0x0A ++
        (j.parts.map (·.bytes)).flatten ++ cs.flatten ∧
      cs.length = j.clusters.length ∧
      ∀ (k : Nat) (c : OutCluster), j.clusters[k]? = some c → ∃ b t prev, cs[k]? = some b ∧
        LiveCluster env j.safe c t prev b ∧ (prev.isSome ↔ j.safe = true ∧ k ≠ 0) ∧
        ((j.clusters.map (·.time)).Pairwise (· < ·) → beNat t = (BitVec.ofInt 64 (scale64 c.time j.scale)).toNat) := by
  have hmap : (livePlan env j).map (·.1.time) = j.clusters.map (·.time) := by
    unfold livePlan
    split
    · have := congrArg (List.map OutCluster.time) (setPrevSizes_clusters env j.scale j.needRead j.clusters none)
      rw [List.map_map, List.map_map] at this
      rw [show (fun x : OutCluster × Option (BitVec 64) => x.1.time) = OutCluster.time ∘ (·.1) from rfl, this]
      apply List.map_congr_left
      intro c _
      simp only [Function.comp]
      split <;> rfl
    · rw [List.map_map]; rfl
  refine ⟨liveClusters env j.scale j.safe invalidTs (livePlan env j), ?_, ?_, ?_⟩
  · rfl
  · rw [liveClusters_length]
    have := congrArg List.length hmap
    simpa using this
  · intro k c h
    obtain ⟨c', prev, h1, h2, h3, h4, h5⟩ := livePlan_at env j k c h
    obtain ⟨tm, g1, g2⟩ := liveClusters_at env j.scale j.safe (livePlan env j) invalidTs k _ h1
    obtain ⟨a1, a2⟩ := hg c (List.mem_of_getElem? h)
    simp only [h2] at g1
    refine ⟨_, _, _, g1, live_one env j.scale j.safe prev c tm a1 a2, ?_, ?_⟩
    · rw [Option.isSome_map]; exact h5
    · intro ht
      have := g2 (by rw [hmap]; exact ht) (Or.inl rfl)
      simp only at this
      rw [this, h3]
      exact uint_bytes _

/-- Every Cluster but the first names the number of bytes of the Cluster before it. -/
def PrevSizesRight (env : Ebml.Env) (j : Job) : Prop :=
  ∃ cs : List Bytes,
    cleanLive env j = j.head ++ [0x18, 0x53, 0x80, 0x67, 0xFF] ++ List.replicate 134 0x0A ++
      (j.parts.map (·.bytes)).flatten ++ cs.flatten ∧
    cs.length = j.clusters.length ∧
    ∀ (k : Nat) (c : OutCluster) (b b' : Bytes), j.clusters[k + 1]? = some c → cs[k]? = some b → cs[k + 1]? = some b' →
      b.length < 2 ^ 63 → ∃ t v, LiveCluster env true c t (some v) b' ∧ beNat v = b.length

/-- **C208** (partial). If the Clusters are each later than the one before and mkclean looked at the blocks in advance or can read
them all, every PrevSize of a live file is right. -/
theorem C208_prev_size_partial (env : Ebml.Env) (j : Job) (hg : GoodClusters env j.clusters) (hsafe : j.safe = true)
    (hread : j.needRead = true ∨ ∀ c ∈ j.clusters, ∀ b ∈ c.blocks, b.1 = true)
    (htimes : (j.clusters.map (·.time)).Pairwise (· < ·)) : PrevSizesRight env j := by
  have hplan : livePlan env j = setPrevSizes env j.scale j.needRead none j.clusters := by
    unfold livePlan; rw [hsafe]; rfl
  have hcl := setPrevSizes_clusters env j.scale j.needRead j.clusters none
  rw [← hplan] at hcl
  have hmap : (livePlan env j).map (·.1.time) = j.clusters.map (·.time) := by
    have := congrArg (List.map OutCluster.time) hcl
    rw [List.map_map, List.map_map] at this
    rw [show (fun x : OutCluster × Option (BitVec 64) => x.1.time) = OutCluster.time ∘ (·.1) from rfl, this]
    apply List.map_congr_left
    intro c _
    simp only [Function.comp]
    split <;> rfl
  have hself : ∀ x ∈ livePlan env j, x.1.read.1 = x.1 ∧ x.1.sizeLength ≤ 8 ∧ ∀ b ∈ x.1.blocks, Coherent env false b.2 := by
    intro x hx
    have : x.1 ∈ (livePlan env j).map (·.1) := List.mem_map_of_mem hx
    rw [hcl, List.mem_map] at this
    obtain ⟨c, hc, e⟩ := this
    obtain ⟨a1, a2⟩ := hg c hc
    cases hn : j.needRead with
    | true =>
      rw [hn, if_pos rfl] at e
      rw [← e]
      exact ⟨read_read c, a1, fun b h => a2 b (List.mem_filter.1 h).1⟩
    | false =>
      rw [hn] at e
      simp only [Bool.false_eq_true, if_false] at e
      rw [← e]
      refine ⟨?_, a1, a2⟩
      rcases hread with h | h
      · rw [hn] at h; cases h
      · have := List.filter_eq_self.2 (h c hc)
        simp only [OutCluster.read, this]
  refine ⟨liveClusters env j.scale j.safe invalidTs (livePlan env j), rfl, ?_, ?_⟩
  · rw [liveClusters_length]
    have := congrArg List.length hmap
    simpa using this
  · intro k c b b' hc hb hb' hsmall
    rw [hsafe] at hb hb'
    have hkl : k < (livePlan env j).length := by
      have := (List.getElem?_eq_some_iff.1 hb).1
      rwa [liveClusters_length] at this
    have hkl' : k + 1 < (livePlan env j).length := by
      have := (List.getElem?_eq_some_iff.1 hb').1
      rwa [liveClusters_length] at this
    have hx := List.getElem?_eq_getElem hkl
    have hy := List.getElem?_eq_getElem hkl'
    generalize (livePlan env j)[k] = x at hx
    generalize (livePlan env j)[k + 1] = y at hy
    obtain ⟨tm, g1, g2⟩ := liveClusters_at env j.scale true (livePlan env j) invalidTs k _ hx
    obtain ⟨tm', g1', g2'⟩ := liveClusters_at env j.scale true (livePlan env j) invalidTs (k + 1) _ hy
    have e := g2 (by rw [hmap]; exact htimes) (Or.inl rfl)
    obtain ⟨x1, x2, x3⟩ := hself x (List.mem_of_getElem? hx)
    rw [g1, x1, e] at hb
    simp only [if_true, Option.some.injEq] at hb
    have hnext := setPrevSizes_next env j.scale j.needRead j.clusters none k x y (hplan ▸ hx) (hplan ▸ hy)
    rw [unknown_size env j.scale x.2 x.1 x2 x3] at hnext
    have hbl : (rendered env (setUnknown (x.1.elt j.scale x.2))).length = b.length := by rw [← hb]
    rw [hbl] at hnext
    obtain ⟨a1, a2⟩ := hg c (List.mem_of_getElem? hc)
    obtain ⟨c', prev, q1, q2, q3, q4, q5⟩ := livePlan_at env j (k + 1) c hc
    rw [q1] at hy
    injection hy with hy
    rw [g1', ← hy] at hb'
    rw [← hy] at hnext
    simp only at hnext
    simp only [if_true, Option.some.injEq, q2] at hb'
    refine ⟨beBytes (naturalSizeInt (BitVec.ofInt 64 (scale64 tm' j.scale))) (BitVec.ofInt 64 (scale64 tm' j.scale)).toInt,
      _, ?_, uint_bytes (BitVec.ofInt 64 b.length) |>.trans ?_⟩
    · have := live_one env j.scale true prev c tm' a1 a2
      simp only [if_true] at this
      rw [hb', hnext] at this
      exact this
    · have := ofInt_small (b.length : Int) (by omega) (by omega)
      omega

/-! Finding the first section behind the junk. -/

open Verif.Ebml.Scan in
theorem idMarker_junk (b : UInt8) (w : Bytes) (h : b.toNat < 16) : idMarker (b :: w) = none := by
  have hb : ∀ (n : Fin 16) (i : Fin 4), (UInt8.ofNat n &&& (0x80 >>> UInt8.ofNat i) != 0) = false := by decide +kernel
  unfold idMarker
  simp only [Option.map_eq_none_iff, List.find?_eq_none, List.mem_range]
  intro i hi
  have := hb ⟨b.toNat, h⟩ ⟨i, hi⟩
  simp only [UInt8.ofNat_toNat] at this
  simp [this]

open Verif.Ebml.Scan in
theorem idLoop_step (lim : Int) (il : Nat) (w : Bytes) (pos : Nat) (b : UInt8) (rest : Bytes) (hm : idMarker w = none)
    (hl : lim ≠ pos) (hw : w.length ≤ 4) :
    idLoop lim il w pos (b :: rest) = idLoop lim il ((if w.length ≥ 4 then w.drop 1 else w) ++ [b]) (pos + 1) rest := by
  rw [idLoop, hm]
  simp only
  rw [if_neg hl, if_neg]
  split <;> simp <;> omega

open Verif.Ebml.Scan in
/-- The ID loop passes bytes below 16 and stops behind an ID of four bytes. -/
theorem idLoop_junk (lim : Int) (il : Nat) (b0 b1 b2 b3 : UInt8) (rest : Bytes) (hlo : 16 ≤ b0.toNat) (hhi : b0.toNat < 32) :
    ∀ (jk w : Bytes) (pos : Nat), w.length ≤ 4 → (∀ b ∈ w, b.toNat < 16) → (∀ b ∈ jk, b.toNat < 16) →
      (lim = -1 ∨ (pos : Int) + jk.length + 4 ≤ lim) →
      idLoop lim il w pos (jk ++ b0 :: b1 :: b2 :: b3 :: rest) = .done [b0, b1, b2, b3] (pos + jk.length + 4) rest 4 := by
  have hid : ∀ tl, idMarker (b0 :: tl) = if 4 ≤ tl.length + 1 then some 4 else none := by
    intro tl
    have := idMarker_eq b0 tl 4 (by omega) (by omega) (by simpa using hlo) (by simpa using hhi)
    simpa using this
  have hlow : ∀ w : Bytes, (∀ b ∈ w, b.toNat < 16) → idMarker w = none := by
    intro w hw
    cases w with
    | nil => rfl
    | cons b w => exact idMarker_junk b w (hw b (by simp))
  intro jk
  induction jk with
  | nil =>
    intro w pos hw hwl _ hlim
    simp only [List.nil_append, List.length_nil, Nat.add_zero]
    rcases w with _ | ⟨x0, _ | ⟨x1, _ | ⟨x2, _ | ⟨x3, _ | ⟨x4, w⟩⟩⟩⟩⟩
    rotate_right
    · simp at hw
    all_goals
      iterate 4
        rw [idLoop_step _ _ _ _ _ _ (by first | rfl | (rw [hid]; rfl) | exact idMarker_junk _ _ (hwl _ (by simp)))
          (by simp at hlim; omega) (by simp)]
        simp only [List.length_cons, List.length_nil, ge_iff_le, Nat.reduceLeDiff, Nat.reduceAdd, if_false, if_true,
          List.cons_append, List.nil_append, List.drop_succ_cons, List.drop_zero, Nat.le_refl]
      rw [idLoop.eq_def, hid]
      simp
  | cons b jk ih =>
    intro w pos hw hwl hjk hlim
    rw [List.cons_append, idLoop_step _ _ _ _ _ _ (hlow w hwl) (by simp at hlim; omega) hw]
    rw [ih]
    · simp; omega
    · split <;> simp <;> omega
    · intro x hx
      rw [List.mem_append] at hx
      rcases hx with hx | hx
      · split at hx
        · exact hwl x (List.mem_of_mem_drop hx)
        · exact hwl x hx
      · simp at hx; rw [hx]; exact hjk b (by simp)
    · intro x hx; exact hjk x (by simp [hx])
    · simp at hlim ⊢; omega

open Verif.Ebml.Scan in
theorem loop_congr (S : Schema) (a : Bool) (orig : List PCtx) (lv0 : Int) (fuel : Nat) (ctx : List PCtx) (lv : Int) (il : Nat)
    (w w' : Bytes) (pos pos' : Nat) (rest rest' : Bytes)
    (h : idLoop (limit ctx) il w pos rest = idLoop (limit ctx) il w' pos' rest') :
    loop S a orig lv0 (fuel + 1) ctx lv il w pos rest = loop S a orig lv0 (fuel + 1) ctx lv il w' pos' rest' := by
  rw [loop, loop, h]

open Verif.Ebml.Scan in
/-- **C209**. Bytes below 16 in front of an element with an ID of four bytes do not keep a reader from finding it, in any
context that is not over. -/
theorem C209_junk_skipped (S : Schema) (a : Bool) (fuel : Nat) (pre jk rest : Bytes) (c : PCtx) (up : List PCtx) (r : Nat) (d : Doc)
    (hj : ∀ b ∈ jk, b.toNat < 16) (h : HeadFacts S r d) (h4 : WellFormedId (docId d) 4) (ho : Offers S c.ref (docId d) r)
    (hend : c.endPos = -1 ∨ (pre.length : Int) + jk.length + (encode d).length ≤ c.endPos) :
    findNext S a (fuel + 1) (pre ++ jk ++ encode d ++ rest) pre.length (c :: up) 0 = .found (headOf r (pre.length + jk.length) d) := by
  have hlen := encode_len S r d h
  have hidl := idField_len_wf _ 4 h4
  rw [← findNext_doc S a fuel (pre ++ jk ++ encode d ++ rest) (pre.length + jk.length) rest c up r d h ho
    (by rw [List.append_assoc (pre ++ jk)]; exact List.drop_left' (by simp)) (by push_cast; exact hend)]
  have hadj : ∀ start : Nat, (c.endPos = -1 ∨ (start : Int) < c.endPos) → adjust start (c :: up) 0 = (c :: up, 0) := by
    intro start hs
    cases up with
    | nil => rfl
    | cons c' up => rw [adjust, if_neg (by omega)]
  rw [findNext, findNext, hadj _ (by omega), hadj _ (by push_cast; omega)]
  apply loop_congr
  obtain ⟨b0, tl, g1, g2, g3, g4, _⟩ := idField_head _ 4 h4
  obtain ⟨b1, b2, b3, rfl⟩ : ∃ b1 b2 b3, tl = [b1, b2, b3] := by
    rcases tl with _ | ⟨b1, _ | ⟨b2, _ | ⟨b3, _ | ⟨b4, tl⟩⟩⟩⟩
    all_goals first
      | exact ⟨_, _, _, rfl⟩
      | (simp at g2)
  have hd1 : (pre ++ jk ++ encode d ++ rest).drop pre.length = jk ++ b0 :: b1 :: b2 :: b3 :: ((sizeField (docLen d) (docSize d) ++ payload d) ++ rest) := by
    rw [List.append_assoc, List.append_assoc, List.drop_left' rfl, h.enc, g1]
    simp [List.append_assoc]
  have hd2 : (pre ++ jk ++ encode d ++ rest).drop (pre.length + jk.length) = [] ++ b0 :: b1 :: b2 :: b3 :: ((sizeField (docLen d) (docSize d) ++ payload d) ++ rest) := by
    rw [List.append_assoc, List.drop_left' (by simp), h.enc, g1]
    simp [List.append_assoc]
  rw [hd1, hd2, idLoop_junk _ _ b0 b1 b2 b3 _ (by simpa using g3) (by simpa using g4) jk [] _ (by simp) (by simp) hj (by simp only [limit]; omega),
    idLoop_junk _ _ b0 b1 b2 b3 _ (by simpa using g3) (by simpa using g4) [] [] _ (by simp) (by simp) (by simp) (by simp only [limit]; simp; omega)]
  simp

open Verif.Ebml.Scan in
/-- In a live file a reader at the data of the Segment, whose size is unknown, finds the first section. -/
theorem C209_first_section (env : Ebml.Env) (j : Job) (S : Schema) (a : Bool) (fuel : Nat) (c : Nat) (up : List PCtx) (r : Nat) (d : Doc)
    (size : Nat) (ps : List Part) (hp : j.parts = ⟨docId d, size, encode d⟩ :: ps)
    (h : HeadFacts S r d) (h4 : WellFormedId (docId d) 4) (ho : Offers S c (docId d) r) :
    findNext S a (fuel + 1) (cleanLive env j) (j.head.length + 5) (⟨c, -1⟩ :: up) 0 = .found (headOf r (j.head.length + 139) d) := by
  have e : cleanLive env j = (j.head ++ renderHead liveHead) ++ junk ++ encode d ++ ((ps.map (·.bytes)).flatten ++
      (liveClusters env j.scale j.safe invalidTs (livePlan env j)).flatten) := by
    simp only [cleanLive, hp, List.map_cons, List.flatten_cons, List.append_assoc]
  have h5 : (renderHead liveHead).length = 5 := rfl
  have hj : junk.length = 134 := rfl
  have := C209_junk_skipped S a fuel (j.head ++ renderHead liveHead) junk ((ps.map (·.bytes)).flatten ++
      (liveClusters env j.scale j.safe invalidTs (livePlan env j)).flatten) ⟨c, -1⟩ up r d
    (by intro b hb; simp only [junk, List.mem_replicate] at hb; rw [hb.2]; decide) h h4 ho (Or.inl rfl)
  rw [List.length_append, h5, hj, ← e] at this
  exact this

/-! Cases. -/

def liveJob (cs : List OutCluster) : Job := exJob true none 60 30 cs

/-- The hypotheses of C207 and C208 and what becomes of them: the second Cluster names the 16 bytes of the first one. -/
example : GoodClusters exEnv (liveJob twoClusters).clusters ∧ ((liveJob twoClusters).clusters.map (·.time)).Pairwise (· < ·) ∧
    (∀ c ∈ (liveJob twoClusters).clusters, ∀ b ∈ c.blocks, b.1 = true) ∧
    (cleanLive exEnv (liveJob twoClusters)).drop 234 = [0x1F, 0x43, 0xB6, 0x75, 0xFF, 0xE7, 0x81, 0, 0xA3, 0x86, 7, 7, 7, 7, 7, 7,
      0x1F, 0x43, 0xB6, 0x75, 0xFF, 0xE7, 0x81, 40, 0xAB, 0x81, 16, 0xA3, 0x85, 7, 7, 7, 7, 7] :=
  ⟨(exJob_good _ _ _ _ _ twoClusters_good).clusters, by decide, by decide, by decide +kernel⟩

theorem lateClusters_good : ∀ c ∈ lateClusters, c.sizeLength ≤ 8 ∧ ∀ b ∈ c.blocks, ∃ n, b.2 = simpleBlock n := by
  intro c hc
  simp only [lateClusters, List.mem_cons, List.not_mem_nil, or_false] at hc
  rcases hc with rfl | rfl | rfl
  · exact ⟨by simp, fun b hb => ⟨6, by simp at hb; rw [hb]⟩⟩
  · exact ⟨by simp, fun b hb => ⟨5, by simp at hb; rw [hb]⟩⟩
  · exact ⟨by simp, fun b hb => ⟨5, by simp at hb; rw [hb]⟩⟩

theorem unreadClusters_good : ∀ c ∈ unreadClusters, c.sizeLength ≤ 8 ∧ ∀ b ∈ c.blocks, ∃ n, b.2 = simpleBlock n := by
  intro c hc
  simp only [unreadClusters, List.mem_cons, List.not_mem_nil, or_false] at hc
  rcases hc with rfl | rfl
  · refine ⟨by simp, fun b hb => ?_⟩
    simp at hb
    rcases hb with rfl | rfl
    exacts [⟨6, rfl⟩, ⟨3, rfl⟩]
  · exact ⟨by simp, fun b hb => ⟨5, by simp at hb; rw [hb]⟩⟩

/-- C208 fails for Clusters of the same time: the second one is moved from 255 to 256 when it is written and takes 19 bytes; the
third one names the 18 bytes it was supposed to take. -/
theorem C208_late_counterexample : ∃ (j : Job) (a b c : Bytes), GoodClusters exEnv j.clusters ∧ j.safe = true ∧
    (∀ c ∈ j.clusters, ∀ b ∈ c.blocks, b.1 = true) ∧
    cleanLive exEnv j = j.head ++ [0x18, 0x53, 0x80, 0x67, 0xFF] ++ List.replicate 134 0x0A ++
      (j.parts.map (·.bytes)).flatten ++ (a ++ b ++ c) ∧
    a = [0x1F, 0x43, 0xB6, 0x75, 0xFF, 0xE7, 0x81, 255, 0xA3, 0x86, 7, 7, 7, 7, 7, 7] ∧
    b = [0x1F, 0x43, 0xB6, 0x75, 0xFF, 0xE7, 0x82, 1, 0, 0xAB, 0x81, 16, 0xA3, 0x85, 7, 7, 7, 7, 7] ∧ b.length = 19 ∧
    c = [0x1F, 0x43, 0xB6, 0x75, 0xFF, 0xE7, 0x82, 1, 44, 0xAB, 0x81, 18, 0xA3, 0x85, 7, 7, 7, 7, 7] :=
  ⟨liveJob lateClusters, _, _, _, (exJob_good _ _ _ _ _ lateClusters_good).clusters, rfl, by decide, by decide +kernel, rfl, rfl, rfl, rfl⟩

/-- It also fails if a block cannot be read: the first Cluster was supposed to take 21 bytes and takes 16. -/
theorem C208_unread_counterexample : ∃ (j : Job) (a b : Bytes), GoodClusters exEnv j.clusters ∧ j.safe = true ∧
    (j.clusters.map (·.time)).Pairwise (· < ·) ∧
    cleanLive exEnv j = j.head ++ [0x18, 0x53, 0x80, 0x67, 0xFF] ++ List.replicate 134 0x0A ++
      (j.parts.map (·.bytes)).flatten ++ (a ++ b) ∧
    a = [0x1F, 0x43, 0xB6, 0x75, 0xFF, 0xE7, 0x81, 0, 0xA3, 0x86, 7, 7, 7, 7, 7, 7] ∧ a.length = 16 ∧
    b = [0x1F, 0x43, 0xB6, 0x75, 0xFF, 0xE7, 0x81, 40, 0xAB, 0x81, 21, 0xA3, 0x85, 7, 7, 7, 7, 7] :=
  ⟨liveJob unreadClusters, _, _, (exJob_good _ _ _ _ _ unreadClusters_good).clusters, rfl, by decide, by decide +kernel, rfl, rfl, rfl⟩

open Verif.Ebml.Scan in
/-- A Segment with a Segment Info, and the hypotheses of C209. -/
def liveSchema : Schema where
  ctx := fun
    | 0 => ⟨0x18538067, .master, some [1]⟩
    | _ => ⟨0x1549A966, .master, some []⟩
  globals := []

open Verif.Ebml.Scan in
example : ∃ d : Doc, HeadFacts liveSchema 1 d ∧ WellFormedId (docId d) 4 ∧ Offers liveSchema 0 (docId d) 1 ∧ encode d = [0x15, 0x49, 0xA9, 0x66, 0x80] := by
  refine ⟨.group 0x1549A966 1 true false [], ⟨rfl, ⟨by decide, by decide, by decide, 4, by unfold WellFormedId; decide⟩, ?_, by decide, rfl⟩,
    by unfold WellFormedId; decide, ⟨rfl, _, rfl, Or.inl ⟨by decide, by decide⟩⟩, by decide +kernel⟩
  rw [encode_group]; rfl

end Verif.Mkclean
