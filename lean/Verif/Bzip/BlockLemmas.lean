import Verif.Bzip.RleLemmas
/-!
A whole block: what is read, and that nothing goes wrong.
-/
set_option linter.unusedSimpArgs false
namespace Verif.Bzip
open Verif Verif.Mkv

/-- The position in front of the first character. -/
def pos0 (origPtr : Nat) : Pos := ⟨origPtr, 0, 0, 0, 0, 0xFFFFFFFF, 0, 0⟩

/-- What happens behind the symbols. -/
theorem block_tail (a : Acc) (L t : List Nat) (h : AccRep a L t) (hL : ∀ x ∈ L, x < 256) (size : Nat) (hsize : size ≤ 9) (hn : L.length ≤ 100000 * size)
    (p : Nat) (hp : p < L.length) (random : Bool) :
    (((List.range 256).map a.unzftab).any (· > a.nblock) || (sums 0 ((List.range 256).map a.unzftab)).any (· > a.nblock)) = false ∧
    ∃ ll' pos q, reverseT p a.nblock (a.nblock + 1) p
          ((makeT a.nblock 0 ⟨fun i => (sums 0 ((List.range 256).map a.unzftab)).getD i 0⟩ ⟨a.ll16, ⟨fun _ => 0⟩⟩).get p)
          (makeT a.nblock 0 ⟨fun i => (sums 0 ((List.range 256).map a.unzftab)).getD i 0⟩ ⟨a.ll16, ⟨fun _ => 0⟩⟩) = .ok ll' ∧
      let b : Blk := ⟨size, a.nblock, ll', sums 0 ((List.range 256).map a.unzftab), random⟩
      let c := fun k => L.getD (pos (k + 1)) 0
      pos 0 = p ∧ (∀ k, lf L (pos (k + 1)) = pos k) ∧ Walk b pos c ∧ getSmall b (pos0 p) = .ok (some (unmasked b c 0), q) ∧ At b pos 1 q ∧ Same (pos0 p) q := by
  have hunz : (List.range 256).map a.unzftab = (List.range 256).map fun x => L.count x := List.map_congr_left fun c _ => h.tab c
  rw [hunz, h.nblock]
  constructor
  · rw [Bool.or_eq_false_iff]
    constructor
    · rw [List.any_eq_false]
      intro x hx
      obtain ⟨c, _, rfl⟩ := List.mem_map.mp hx
      have := List.count_le_length (a := c) (l := L)
      simpa using this
    · rw [List.any_eq_false]
      intro x hx
      obtain ⟨i, hi, e⟩ := List.getElem_of_mem hx
      have hi2 : i ≤ 256 := by rw [sums_length] at hi; simp at hi; omega
      have h2 := sums_counts L i hi2
      rw [List.getElem?_eq_getElem hi, e] at h2
      have := cntLt_le L i
      rw [Option.some.inj h2]
      simpa using this
  · have hcf : ∀ i, i < L.length → (sums 0 ((List.range 256).map fun x => L.count x)).getD (L.getD i 0) 0 = cntLt L (L.getD i 0) := by
      intro i hi
      have := hL _ (List.mem_of_getElem? (getD_get? L i hi))
      rw [List.getD_eq_getElem?_getD, sums_counts L _ (by omega)]; rfl
    have hT := makeT_spec L hL (fun i => (sums 0 ((List.range 256).map fun x => L.count x)).getD i 0) (fun i hi => by
        rw [hcf i hi]
        have := lf_lt_length L i hi
        rw [lf] at this
        omega) L.length 0 ⟨fun i => (sums 0 ((List.range 256).map fun x => L.count x)).getD i 0⟩ ⟨a.ll16, ⟨fun _ => 0⟩⟩ (by omega)
      (fun j _ hj => h.ll16 j hj) (fun c => by simp)
    obtain ⟨ll', pos, e, h0, hlf, hw⟩ := walk_exists L hL (by omega) p hp _ (fun i hi => by rw [hT i, if_pos ⟨Nat.zero_le _, hi⟩, hcf i hi, lf]) size random
    obtain ⟨q, e2, hA, hS⟩ := getSmall_spec hw hn (k := 0) (p := pos0 p) ⟨h0.symm, rfl, fun _ => ⟨rfl, rfl⟩⟩
    exact ⟨ll', pos, q, e, h0, hlf, hw, e2, hA, hS⟩

/-- Nothing read yet. -/
theorem accRep_init (n : Nat) (hn : n ≤ 256) : AccRep (⟨0, ⟨fun _ => 0⟩, ⟨fun _ => 0⟩, mtfInit⟩ : Acc) [] (List.range n) where
  nblock := rfl
  ll16 := fun i hi => by simp at hi
  tab := fun c => by simp
  mtf := rep_init _ n hn rfl

/-! ### No block goes wrong -/

/-- A block that is being put out. -/
def BlkOk (size : Nat) (b : Blk) (p : Pos) : Prop :=
  b.size = size ∧ b.nblock ≤ 100000 * size ∧ p.outLen ≤ 259 ∧ p.k0 < 256 ∧ p.outCh < 256 ∧ ∃ pos c k, Walk b pos c ∧ At b pos k p ∧ 1 ≤ k

theorem Safe.blockBody (size : Nat) (hsize : size ≤ 9) (stored : Nat) :
    Safe 0 (blockBody size stored) fun x => x.1 = stored ∧ BlkOk size x.2.1 x.2.2 ∧ x.2.2.crc = 0xFFFFFFFF := by
  unfold Bzip.blockBody
  refine Safe.bind0 Safe.getBit.zero fun rand _ => ?_
  refine Safe.bind0 (Safe.getWord 3 0) fun p _ => ?_
  refine Safe.ite (fun _ => Safe.fail) fun _ => ?_
  refine Safe.bind0 Safe.getMap fun seq hseq => ?_
  refine Safe.ite (fun _ => Safe.fail) fun hne => ?_
  refine Safe.bind0 Safe.getSelectors fun x hx => ?_
  obtain ⟨g, sel⟩ := x
  simp only
  refine Safe.bind0 (Safe.times (Safe.getLens (seq.length + 2) (by omega)) g) fun lens hlens => ?_
  have hsel : ∀ s ∈ sel, s < lens.length := by rw [hlens.1]; exact hx.2.2
  have hsym := Safe.getSym (seq.length + 2) lens hlens.2 sel hsel
  refine Safe.bind0 (hsym ⟨0, 0, ⟨0, [], [], []⟩⟩ (Or.inl rfl)).zero fun y hy => ?_
  obtain ⟨s, grp⟩ := y
  simp only
  have hpos : 0 < seq.length := List.length_pos_iff.mpr hne
  have hacc : AccRep (⟨0, ⟨fun _ => 0⟩, ⟨fun _ => 0⟩, mtfInit⟩ : Acc) [] (List.range seq.length) := accRep_init seq.length hseq.1
  refine Safe.bind0 (Safe.withFuel fun f r hr hf => Safe.symLoop (seq.length + 2) _ hsym seq rfl hpos (100000 * size) f s grp _ [] (List.range seq.length) hy.1 hy.2
    hacc (by simp) (by simp) (by simp) (by simp) r hr hf) fun a ha => ?_
  obtain ⟨L, t, hA, hLn, hLm⟩ := ha
  refine Safe.ite (fun _ => Safe.fail) fun hp => ?_
  have hLb : ∀ x ∈ L, x < 256 := fun x hx => hseq.2.2 x (hLm x hx)
  have hnb := hA.nblock
  obtain ⟨hany, ll', pos, q, e1, h0, hlf, hw, e2, hAt, hS⟩ := block_tail a L t hA hLb size hsize hLn p (by omega) (rand == 1)
  rw [if_neg (by rw [hany]; simp)]
  refine Safe.bind0 (Safe.lift (Q := fun x => x = ll') (by rw [e1])) fun x hx => ?_
  subst hx
  refine Safe.bind0 (Safe.lift (Q := fun x => x = (some _, q)) (by rw [pos0] at e2; rw [e2])) fun x hx => ?_
  subst hx
  simp only
  refine Safe.pure ⟨rfl, ⟨rfl, by simp only; omega, by have := hS.outLen; simp only [pos0] at this; simp only; omega, unmasked_lt _ _ _ (hw.small _),
    by have := hS.outCh; simp only [pos0] at this; simp only; omega, pos, _, 1, hw, hAt.setK0 _, Nat.le_refl _⟩, hS.crc⟩

/-! ### A block of the format -/

theorem symbols_lt (n : Nat) (hn : 0 < n) (ps : List Nat) (h : ∀ p ∈ ps, p < n) : ∀ z, ∀ s ∈ Spec.symbols z ps, s < n + 1 := by
  induction ps with
  | nil =>
    intro z s hs
    rw [Spec.symbols] at hs
    rcases (digits_spec z).2.1 s hs with rfl | rfl <;> omega
  | cons p ps ih =>
    intro z s hs
    have ih := ih fun q hq => h q (by simp [hq])
    cases p with
    | zero => exact ih _ s hs
    | succ p =>
      rw [Spec.symbols] at hs
      rcases List.mem_append.mp hs with hs | hs
      · rcases (digits_spec z).2.1 s hs with rfl | rfl <;> omega
      · rcases List.mem_cons.mp hs with rfl | hs
        · have := h (p + 1) (by simp); omega
        · exact ih _ s hs

theorem flips_length (k n i : Nat) : (Spec.flips k n i).length = i := by rw [flips_eq]; simp

theorem text_length (b : Spec.Block) : b.text.length = (b.runs.flatMap Spec.run).length := by
  rw [Spec.Block.text]
  split
  · rw [List.length_zipWith, flips_length]; omega
  · rfl

theorem unmask_text (blk : Spec.Block) (b : Blk) (hb : b.random = blk.rand) (c : Nat → Nat) (k : Nat) (hk : k < blk.text.length)
    (hc : c k = blk.text.getD k 0) : unmasked b c k = (blk.runs.flatMap Spec.run).getD k 0 := by
  have hl := text_length blk
  rw [unmasked, hc, hb, Spec.Block.text]
  by_cases hr : blk.rand = true
  · rw [if_pos hr, if_pos hr]
    have h2 : k < (blk.runs.flatMap Spec.run).length := by omega
    rw [List.getD_eq_getElem?_getD, List.getElem?_zipWith, getD_get? _ _ h2, flips_eq, List.getElem?_map, List.getElem?_range (by omega)]
    simp only [Option.map_some, Option.getD_some]
    rw [Nat.xor_assoc, Nat.xor_self, Nat.xor_zero]
  · rw [if_neg hr, if_neg hr]

/-- The bits of a block behind its first byte. -/
def blockTail (b : Spec.Block) : List Bool :=
  toBits 40 0x4159265359 ++ toBits 32 (Spec.crc b.data).toNat ++ [b.rand] ++ toBits 24 (b.rows.idxOf 0) ++ Spec.mapBits b.used ++
  toBits 3 b.tabs.length ++ toBits 15 b.sel.length ++ Spec.unaryBits (Spec.positions (List.range b.tabs.length) b.sel) ++
  b.tabs.flatMap Spec.lensBits ++ Spec.coded b.tabs b.sel b.syms

theorem bits_eq (b : Spec.Block) : b.bits = toBits 8 0x31 ++ blockTail b := by
  rw [Spec.Block.bits, blockTail, show toBits 48 0x314159265359 = toBits 8 0x31 ++ toBits 40 0x4159265359 from by decide +kernel]
  simp only [List.append_assoc]

/-- A block ready to be put out. -/
def Ready (blk : Spec.Block) (size : Nat) (x : Nat × Blk × Pos) : Prop :=
  x.1 = (Spec.crc blk.data).toNat ∧ x.2.1.size = size ∧ x.2.1.nblock ≤ 100000 * size ∧ x.2.2.crc = 0xFFFFFFFF ∧
  ∃ pos c, Walk x.2.1 pos c ∧ Text x.2.1 c (blk.runs.flatMap Spec.run) ∧ Pend x.2.1 pos (blk.runs.flatMap Spec.run) blk.runs x.2.2 blk.data

theorem Reads.getBlockHead (v : Nat) (hv : v < 2 ^ 32) : Reads getBlockHead (toBits 40 0x4159265359 ++ toBits 32 v) v := by
  unfold Bzip.getBlockHead
  rw [show toBits 40 0x4159265359 = toBits 8 0x41 ++ (toBits 8 0x59 ++ (toBits 8 0x26 ++ (toBits 8 0x53 ++ toBits 8 0x59))) from by decide +kernel]
  simp only [List.append_assoc]
  refine Reads.bind (Reads.expect 0x41 (by omega)) ?_
  refine Reads.bind (Reads.expect 0x59 (by omega)) ?_
  refine Reads.bind (Reads.expect 0x26 (by omega)) ?_
  refine Reads.bind (Reads.expect 0x53 (by omega)) ?_
  refine Reads.bind (Reads.expect 0x59 (by omega)) ?_
  have := Reads.getWord 4 0 v hv
  rwa [Nat.zero_mul, Nat.zero_add] at this

theorem Reads.getBlock (size : Nat) (hsize : size ≤ 9) (blk : Spec.Block) (h : blk.Ok size) :
    ∃ x, Reads (getBlock size) (blockTail blk) x ∧ Ready blk size x := by
  have hrl : blk.rows.length = blk.text.length := by rw [h.rows.perm.length_eq, List.length_range]
  have hpos := h.pos
  have hmax := h.max
  have h0 : 0 ∈ blk.rows := h.rows.perm.mem_iff.mpr (by simpa using hpos)
  have hp := List.idxOf_lt_length_of_mem h0
  rw [hrl] at hp
  have hused : blk.used ≠ [] := by
    obtain ⟨x, l, hx⟩ := List.exists_cons_of_ne_nil (List.length_pos_iff.mp hpos)
    have := h.cover x (by rw [hx]; simp)
    intro e; rw [e] at this; simp at this
  have hul : 0 < blk.used.length := List.length_pos_iff.mpr hused
  have hu256 : blk.used.length ≤ 256 := by
    have hnd : blk.used.Nodup := List.Pairwise.imp (fun h => Nat.ne_of_lt h) h.used
    have := (List.subperm_of_subset hnd (l₂ := List.range 256) (fun x hx => by simpa using h.bytes x hx)).length_le
    simpa using this
  -- the last column
  have hcol : ∀ x ∈ Spec.lastColumn blk.text blk.rows, x ∈ blk.used := by
    intro x hx
    obtain ⟨i, _, rfl⟩ := List.mem_map.mp hx
    exact h.cover _ (List.mem_of_getElem? (getD_get? blk.text _ (Nat.mod_lt _ hpos)))
  generalize hL : Spec.lastColumn blk.text blk.rows = L at hcol
  have hLl : L.length = blk.text.length := by rw [← hL, Spec.lastColumn, List.length_map, hrl]
  have hidx : ∀ x ∈ L.map fun c => blk.used.idxOf c, x ∈ List.range blk.used.length := by
    intro x hx
    obtain ⟨c, hc, rfl⟩ := List.mem_map.mp hx
    simpa using List.idxOf_lt_length_of_mem (hcol c hc)
  generalize hps : Spec.positions (List.range blk.used.length) (L.map fun c => blk.used.idxOf c) = ps
  have hpslt : ∀ p ∈ ps, p < blk.used.length := by
    have := positions_lt _ _ hidx
    rw [hps] at this
    simpa using this
  have hpsl : ps.length = L.length := by rw [← hps, positions_length, List.length_map]
  have hsyms : blk.syms = Spec.symbols 0 ps ++ [blk.used.length + 1] := by rw [Spec.Block.syms, hL, hps]
  have hsylt : ∀ s ∈ blk.syms, s < blk.used.length + 2 := by
    intro s hs
    rw [hsyms] at hs
    rcases List.mem_append.mp hs with hs | hs
    · have := symbols_lt _ hul ps hpslt 0 s hs; omega
    · rw [List.mem_singleton.mp hs]; omega
  have hunpos : (unpos (List.range blk.used.length) ps).map (fun i => blk.used.getD i 0) = L := by
    rw [← hps, unpos_positions _ _ hidx, List.map_map]
    conv => rhs; rw [← List.map_id L]
    apply List.map_congr_left
    intro c hc
    have hm := hcol c hc
    simp only [Function.comp, id]
    rw [List.getD_eq_getElem?_getD, List.getElem?_eq_getElem (List.idxOf_lt_length_of_mem hm)]
    simp
  -- the symbols
  obtain ⟨g2, hfeed⟩ := feeds_coded blk.used.length hu256 blk.tabs h.lens blk.sel h.sel blk.syms hsylt 0 ⟨0, 0, ⟨0, [], [], []⟩⟩ ⟨fun _ => ⟨rfl, rfl⟩, fun h => absurd rfl h⟩
    (by have := h.enough; omega)
  have hcoded : Spec.coded blk.tabs blk.sel blk.syms = (blk.syms.zipIdx 0).flatMap fun x => Spec.word (blk.tabs.getD (blk.sel.getD (x.2 / 50) 0) []) x.1 := rfl
  rw [← hcoded] at hfeed
  obtain ⟨s, ss, hss⟩ := List.exists_cons_of_ne_nil (l := blk.syms) (by rw [hsyms]; simp)
  generalize hcb : Spec.coded blk.tabs blk.sel blk.syms = cb at hfeed
  rw [hss] at hfeed
  cases hfeed with
  | cons hfirst _ hrest =>
    rename_i g1 b1 b2 _
    have hselne : blk.sel ≠ [] := by
      intro e
      have := h.enough
      rw [e, hss] at this
      simp at this
    -- the end of the block
    have hAcc := accRep_init blk.used.length hu256
    obtain ⟨a, t', hR, hA⟩ := Reads.symLoop (Bzip.getSym (blk.tabs.map makeTab) blk.sel) blk.used (100000 * size) (by omega) ps.length ps rfl
      (List.range blk.used.length) _ [] g1 g2 s ss b2 (by simp) (by simp) hul hpslt hAcc (by simp; omega) (by rw [← hsyms, hss]) hrest
    rw [List.nil_append, hunpos] at hA
    have hLb : ∀ x ∈ L, x < 256 := fun x hx => h.bytes x (hcol x hx)
    have hnb := hA.nblock
    obtain ⟨hany, ll', pos, q, e1, hp0, hlf, hw, e2, hAt, hS⟩ := block_tail a L t' hA hLb size hsize (by omega) (blk.rows.idxOf 0) (by omega) (blk.rand.toNat == 1)
    generalize hB : (⟨size, a.nblock, ll', sums 0 ((List.range 256).map a.unzftab), blk.rand.toNat == 1⟩ : Blk) = B at hw e2 hAt
    have hBn : B.nblock = a.nblock := by rw [← hB]
    have hBs : B.size = size := by rw [← hB]
    have hBr : B.random = blk.rand := by rw [← hB]; cases blk.rand <;> rfl
    -- the text
    have htext : Text B (fun k => L.getD (pos (k + 1)) 0) (blk.runs.flatMap Spec.run) := by
      refine ⟨by rw [hBn, hnb, hLl, text_length], fun k hk => ?_⟩
      rw [← text_length] at hk
      refine unmask_text blk B hBr _ k hk ?_
      have := walk_text blk.text blk.rows h.rows hpos pos hp0 (fun k => by have := hw.lt k; omega) (by rw [hL]; exact hlf) k
      rw [hL, Nat.mod_eq_of_lt hk] at this
      exact this
    refine ⟨((Spec.crc blk.data).toNat, B, { q with k0 := unmasked B (fun k => L.getD (pos (k + 1)) 0) 0 }), ?_, ?_⟩
    · unfold Bzip.getBlock
      rw [blockTail, hcb]
      refine Reads.seq (Reads.getBlockHead (Spec.crc blk.data).toNat (BitVec.isLt _)) (y := [blk.rand] ++ (toBits 24 (blk.rows.idxOf 0) ++ (Spec.mapBits blk.used ++
        (toBits 3 blk.tabs.length ++ (toBits 15 blk.sel.length ++ (Spec.unaryBits (Spec.positions (List.range blk.tabs.length) blk.sel) ++
        (blk.tabs.flatMap Spec.lensBits ++ (b1 ++ b2)))))))) ?_ (by simp only [List.append_assoc])
      unfold Bzip.blockBody
      refine Reads.bind (Reads.getBit blk.rand) ?_
      refine Reads.bind (a := blk.rows.idxOf 0) (by
        have := Reads.getWord 3 0 (blk.rows.idxOf 0) (by simp only [Nat.reduceMul, Nat.reducePow]; omega)
        rwa [Nat.zero_mul, Nat.zero_add] at this) ?_
      rw [if_neg (by omega)]
      refine Reads.bind (Reads.getMap blk.used h.used h.bytes) ?_
      rw [if_neg hused]
      refine Reads.seq (Reads.getSelectors blk.tabs.length blk.sel h.tabs2 h.tabs6 h.sel hselne h.selMax) (y := blk.tabs.flatMap Spec.lensBits ++ (b1 ++ b2)) ?_
        (by simp only [List.append_assoc])
      simp only
      have hlens := Reads.times (p := Bzip.getLens (blk.used.length + 2)) (l := blk.tabs.map fun t => (Spec.lensBits t, t)) (by
        intro x hx
        obtain ⟨t, ht, rfl⟩ := List.mem_map.mp hx
        have := Reads.getLens t (h.lens t ht).range (by intro e; have := (h.lens t ht).length; rw [e] at this; simp at this)
        rw [(h.lens t ht).length] at this
        exact this)
      simp only [List.length_map, List.flatMap_map, List.map_map, Function.comp_def, List.map_id'] at hlens
      refine Reads.bind hlens ?_
      refine Reads.bind hfirst ?_
      simp only
      refine Reads.seq (Reads.withFuel hR) (y := []) ?_ (by simp)
      rw [if_neg (by omega), if_neg (by rw [hany]; simp)]
      refine Reads.seq (Reads.lift e1) (y := []) ?_ (by simp)
      rw [hB]
      rw [pos0] at e2
      refine Reads.seq (Reads.lift e2) (y := []) ?_ (by simp)
      exact Reads.pure _
    · refine ⟨rfl, hBs, by rw [hBn]; omega, hS.crc, pos, _, hw, htext, ?_⟩
      refine ⟨⟨0, hAt.setK0 _, by omega, by simp⟩, ?_, h.runs, ?_⟩
      · intro y hy
        simp only
        have hl := text_length blk
        rw [htext.2 0 (by omega)]
        cases hruns : blk.runs with
        | nil => rw [hruns] at hy; simp at hy
        | cons z zs =>
          rw [hruns] at hy
          have : z = y := by simpa using hy
          subst this
          have hr := h.runs
          rw [hruns] at hr
          rw [List.flatMap_cons, run_ne z hr.2.1]; rfl
      · have h1 := hS.outLen
        simp only [pos0] at h1
        simp only
        rw [h1, Spec.Block.data]; rfl

end Verif.Bzip
