import Verif.Core.MasterOps
import Verif.Props.Node
import Verif.Props.Sort
/-!
Property C240: counting, taking out, deleting and sorting the children of a master.
-/
namespace Verif.NodeTree
open Verif

/-! ### Helpers -/

theorem countLoop_spec (h : Heap) : ∀ (fuel : Nat) (i : Cell) (l : List Nat) (n : Nat), ChainAt h i l → l.length < fuel →
    countLoop fuel h i n = some (n + l.length)
  | 0, _, _, _, _, hf => absurd hf (Nat.not_lt_zero _)
  | fuel + 1, i, [], n, hc, _ => by
    rw [ChainAt] at hc
    rw [countLoop, hc]; rfl
  | fuel + 1, i, c :: r, n, hc, hf => by
    rw [ChainAt] at hc
    rw [countLoop, hc.2.1]
    simp only
    rw [if_neg hc.1, countLoop_spec h fuel (.next c) r (n + 1) hc.2.2 (by rw [List.length_cons] at hf; omega), List.length_cons]
    congr 1; omega

theorem place_out {h : Heap} {K : Nat → List Nat} (r : Rep h K) (p c : Nat) (l : List Nat) (hk : K p = c :: l) :
    place K c 0 0 = upd K p l := by
  funext x
  unfold place upd
  rw [if_neg (fun hh => hh.2 rfl)]
  by_cases hx : x = p
  · rw [if_pos hx, hx, hk, List.erase_cons_head]
  · rw [if_neg hx, List.erase_of_not_mem]
    intro hm
    exact hx (r.owner_unique hm (by rw [hk]; exact List.mem_cons_self))

theorem upd_upd (K : Nat → List Nat) (p : Nat) (l m : List Nat) : upd (upd K p l) p m = upd K p m := by
  funext x
  unfold upd
  by_cases hx : x = p
  · simp only [if_pos hx]
  · simp only [if_neg hx]

theorem upd_same (K : Nat → List Nat) (p : Nat) (l : List Nat) (h : K p = l) : upd K p l = K := by
  funext x
  unfold upd
  by_cases hx : x = p
  · rw [if_pos hx, hx, h]
  · rw [if_neg hx]

theorem upd_at (K : Nat → List Nat) (p : Nat) (l : List Nat) : upd K p l p = l := if_pos rfl

theorem clearLoop_spec (p : Nat) : ∀ (l : List Nat) (fuel : Nat) (h : Heap) (K : Nat → List Nat), Rep h K → h.live p → K p = l →
    l.length < fuel → ∃ h', masterClearLoop fuel h p = some h' ∧ Rep h' (upd K p []) ∧ h'.top = h.top ∧
      (∀ x, h'.par x = if x ∈ l then some 0 else h.par x) ∧ (∀ x, h'.live x ↔ h.live x) ∧ (∀ x, h'.refsOf x = h.refsOf x) ∧
      (∀ x, h.dirtyOf x = some true → h'.dirtyOf x = some true) ∧ (l ≠ [] → h'.dirtyOf p = some true)
  | _, 0, _, _, _, _, _, hf => absurd hf (Nat.not_lt_zero _)
  | [], fuel + 1, h, K, r, hp, hk, _ => by
    have hc := r.chain p hp
    rw [hk, ChainAt] at hc
    refine ⟨h, ?_, ?_, rfl, fun x => ?_, fun _ => Iff.rfl, fun _ => rfl, fun _ hx => hx, fun hn => absurd rfl hn⟩
    · rw [masterClearLoop, hc]; rfl
    · rw [upd_same K p [] hk]; exact r
    · rw [if_neg List.not_mem_nil]
  | c :: l, fuel + 1, h, K, r, hp, hk, hf => by
    have hc := r.chain p hp
    rw [hk, ChainAt] at hc
    have hcm : c ∈ K p := by rw [hk]; exact List.mem_cons_self
    have hpar := r.up p c hcm
    have hp0 := (r.owner hcm).2
    obtain ⟨h1, e1, r1, t1, q1, l1, f1, d1, m1⟩ := setParent_spec r c 0 0 (par_live h c p hpar) (.inl rfl) (.inl rfl) hc.1
    rw [place_out r p c l hk] at r1
    obtain ⟨h2, e2, r2, t2, q2, l2, f2, d2, _⟩ := clearLoop_spec p l fuel h1 _ r1 ((l1 p).2 hp) (upd_at K p l)
      (by rw [List.length_cons] at hf; omega)
    rw [upd_upd] at r2
    refine ⟨h2, ?_, r2, t2.trans t1, fun x => ?_, fun x => (l2 x).trans (l1 x), fun x => (f2 x).trans (f1 x),
      fun x hx => d2 x (d1 x hx), fun _ => ?_⟩
    · rw [masterClearLoop, hc.2.1]
      simp only
      rw [if_pos hc.1, e1]
      exact e2
    · rw [q2, q1]
      by_cases hxl : x ∈ l
      · rw [if_pos hxl, if_pos (List.mem_cons_of_mem _ hxl)]
      · rw [if_neg hxl]
        by_cases hxc : x = c
        · rw [if_pos hxc, if_pos (by rw [hxc]; exact List.mem_cons_self)]
        · rw [if_neg hxc, if_neg (fun hm => (List.mem_cons.1 hm).elim hxc hxl)]
    · rcases m1 with m1 | m1
      · exfalso
        have := q1 c
        rw [if_pos rfl, m1, hpar] at this
        exact hp0 (Option.some.inj this)
      · exact d2 p (m1 p hp0 (.inr hpar))

theorem insertB_end (c : Nat) (l : List Nat) (h0 : 0 ∉ l) : insertB c 0 l = l ++ [c] := by
  have hs := split_at 0 l
  have hd := dropWhile_none h0
  unfold insertB
  rw [hd, List.append_nil] at hs
  rw [hd, hs]

theorem place_end {h : Heap} {K : Nat → List Nat} (r : Rep h K) (p c : Nat) (hp0 : p ≠ 0) (hc : h.par c = some 0) :
    place K c p 0 = upd K p (K p ++ [c]) := by
  funext x
  unfold place upd
  rw [List.erase_of_not_mem (r.loose_mem hc x)]
  by_cases hx : x = p
  · rw [if_pos hx, if_pos ⟨hx, hp0⟩, insertB_end, hx]
    exact fun hm => r.ne_zero hm rfl
  · rw [if_neg hx, if_neg (fun hh => hx hh.1)]

theorem refill_spec (p : Nat) : ∀ (l : List Nat) (h : Heap) (K : Nat → List Nat), Rep h K → h.live p → l.Nodup →
    (∀ c ∈ l, h.par c = some 0) → ∃ h', refill p l h = some h' ∧ Rep h' (upd K p (K p ++ l)) ∧
      (∀ x, h'.par x = if x ∈ l then some p else h.par x) ∧ (∀ x, h'.live x ↔ h.live x) ∧ (∀ x, h'.refsOf x = h.refsOf x) ∧
      (∀ x, h.dirtyOf x = some true → h'.dirtyOf x = some true)
  | [], h, K, r, _, _, _ => by
    refine ⟨h, rfl, ?_, fun x => by rw [if_neg List.not_mem_nil], fun _ => Iff.rfl, fun _ => rfl, fun _ hx => hx⟩
    rw [List.append_nil, upd_same K p _ rfl]
    exact r
  | c :: l, h, K, r, hp, hn, hl => by
    have hp0 : p ≠ 0 := by rintro rfl; exact r.null hp
    have hc := hl c List.mem_cons_self
    have hcl := par_live h c 0 hc
    have hc0 : c ≠ 0 := by rintro rfl; exact r.null hcl
    obtain ⟨h1, e1, r1, t1, q1, l1, f1, d1, m1⟩ := setParent_spec r c p 0 hcl (.inr hp) (.inl rfl) hc0
    rw [place_end r p c hp0 hc] at r1
    rw [List.nodup_cons] at hn
    obtain ⟨h2, e2, r2, q2, l2, f2, d2⟩ := refill_spec p l h1 _ r1 ((l1 p).2 hp) hn.2 (fun x hx => by
      rw [q1, if_neg (show ¬ x = c by rintro rfl; exact hn.1 hx)]
      exact hl x (List.mem_cons_of_mem _ hx))
    rw [upd_upd, upd_at, List.append_assoc] at r2
    refine ⟨h2, ?_, r2, fun x => ?_, fun x => (l2 x).trans (l1 x), fun x => (f2 x).trans (f1 x), fun x hx => d2 x (d1 x hx)⟩
    · rw [refill, e1]; exact e2
    · rw [q2, q1]
      by_cases hxl : x ∈ l
      · rw [if_pos hxl, if_pos (List.mem_cons_of_mem _ hxl)]
      · rw [if_neg hxl]
        by_cases hxc : x = c
        · rw [if_pos hxc, if_pos (by rw [hxc]; exact List.mem_cons_self)]
        · rw [if_neg hxc, if_neg (fun hm => (List.mem_cons.1 hm).elim hxc hxl)]

theorem Below.map {h h' : Heap} {x a : Nat} (hm : ∀ c q, h.par c = some q → q ≠ 0 → h'.par c = some q) (hb : Below h x a) :
    Below h' x a := by
  induction hb with
  | child h1 h2 => exact .child (hm _ _ h1 h2) h2
  | step h1 h2 _ ih => exact .step (hm _ _ h1 h2) h2 ih

theorem eraseLoop_spec (rank : Nat → Nat) (p : Nat) : ∀ (l : List Nat) (fuel : Nat) (h : Heap) (K : Nat → List Nat), Rep h K →
    Ranked h rank → h.live p → K p = l → l.length < fuel → (∀ c ∈ l, ∀ x, x = c ∨ Below h x c → h.refsOf x = some 1) →
    ∃ h' K', masterEraseLoop fuel h p = some h' ∧ Rep h' K' ∧ K' p = [] ∧
      (∀ x, h'.live x ↔ h.live x ∧ ∀ c ∈ l, x ≠ c ∧ ¬ Below h x c) ∧
      (∀ x, h'.live x → h'.par x = h.par x ∧ (x ≠ p → K' x = K x) ∧ h'.refsOf x = h.refsOf x)
  | _, 0, _, _, _, _, _, _, hf, _ => absurd hf (Nat.not_lt_zero _)
  | [], fuel + 1, h, K, r, _, hp, hk, _, _ => by
    have hc := r.chain p hp
    rw [hk, ChainAt] at hc
    refine ⟨h, K, ?_, r, hk, fun x => ⟨fun hx => ⟨hx, fun c hc => absurd hc List.not_mem_nil⟩, fun hx => hx.1⟩,
      fun x _ => ⟨rfl, fun _ => rfl, rfl⟩⟩
    rw [masterEraseLoop, hc]; rfl
  | c :: l, fuel + 1, h, K, r, hr, hp, hk, hf, hrefs => by
    have hc := r.chain p hp
    rw [hk, ChainAt] at hc
    have hcm : c ∈ K p := by rw [hk]; exact List.mem_cons_self
    have hcnl : c ∉ l := by
      have := r.nodup p
      rw [hk, List.nodup_cons] at this
      exact this.1
    have hpar := r.up p c hcm
    have hp0 := (r.owner hcm).2
    obtain ⟨h1, e1, r1, t1, q1, l1, f1, _, _⟩ := setParent_spec r c 0 0 (par_live h c p hpar) (.inl rfl) (.inl rfl) hc.1
    rw [place_out r p c l hk] at r1
    have up1 : ∀ x q, h1.par x = some q → q ≠ 0 → h.par x = some q := fun x q hx hq => by
      rw [q1] at hx
      by_cases hxc : x = c
      · rw [if_pos hxc] at hx; exact absurd (Option.some.inj hx).symm hq
      · rw [if_neg hxc] at hx; exact hx
    have hr1 : Ranked h1 rank := fun x q hx hq => hr x q (up1 x q hx hq) hq
    have below1 : ∀ x, Below h1 x c ↔ Below h x c := by
      intro x
      refine ⟨Below.map up1, fun hb => ?_⟩
      have gen : ∀ {x a}, Below h x a → a = c → Below h1 x c := by
        intro x a hb
        induction hb with
        | @child x a g1 g2 =>
          intro ha
          rw [ha] at g1 g2
          have hx : x ≠ c := by rintro rfl; exact Nat.lt_irrefl _ (hr _ _ g1 g2)
          exact .child (by rw [q1, if_neg hx]; exact g1) g2
        | @step x q a g1 g2 g3 ih =>
          intro ha
          have hx : x ≠ c := by
            rintro rfl
            rw [ha] at g3
            exact Nat.lt_irrefl _ (Nat.lt_trans (hr _ _ g1 g2) (g3.rank hr))
          exact .step (by rw [q1, if_neg hx]; exact g1) g2 (ih ha)
      exact gen hb rfl
    obtain ⟨h2, K2, e2, r2, l2, s2⟩ := release_good r1 hr1 c
      (by rw [f1]; exact hrefs c List.mem_cons_self c (.inl rfl))
      (fun x hx => by rw [f1]; exact hrefs c List.mem_cons_self x (.inr ((below1 x).1 hx)))
    have live2 : ∀ x, h2.live x ↔ h.live x ∧ x ≠ c ∧ ¬ Below h x c := fun x => by rw [l2, l1, below1]
    have par2 : ∀ x, h2.live x → h2.par x = h.par x := fun x hx => by
      rw [(s2 x hx).1, q1, if_neg ((live2 x).1 hx).2.1]
    have up2 : ∀ x q, h2.par x = some q → q ≠ 0 → h.par x = some q := fun x q hx _ => by
      rw [← par2 x (par_live h2 x q hx)]; exact hx
    have below2 : ∀ x, h2.live x → ∀ a, Below h2 x a ↔ Below h x a := by
      intro x hx a
      refine ⟨Below.map up2, fun hb => ?_⟩
      induction hb with
      | @child x a g1 g2 => exact .child (by rw [par2 x hx]; exact g1) g2
      | @step x q a g1 g2 g3 ih =>
        refine .step (by rw [par2 x hx]; exact g1) g2 (ih ((live2 q).2 ⟨(r.down x q g1 g2).1, ?_, ?_⟩))
        · rintro rfl; exact ((live2 x).1 hx).2.2 (.child g1 g2)
        · exact fun hq => ((live2 x).1 hx).2.2 (.step g1 g2 hq)
    have pc : ¬ Below h p c := fun hb => by
      have := hb.rank hr
      have := hr c p hpar hp0
      omega
    have hpc : p ≠ c := by
      intro he
      have := hr c p hpar hp0
      rw [he] at this
      omega
    have hp2 : h2.live p := (live2 p).2 ⟨hp, hpc, pc⟩
    have hk2 : K2 p = l := by
      rw [(s2 p hp2).2.1, upd_at, List.erase_of_not_mem hcnl]
    obtain ⟨h3, K3, e3, r3, k3, l3, s3⟩ := eraseLoop_spec rank p l fuel h2 K2 r2 (fun x q hx hq => hr x q (up2 x q hx hq) hq)
      hp2 hk2 (by rw [List.length_cons] at hf; omega) (fun d hd x hx => by
        have hdm : d ∈ K2 p := by rw [hk2]; exact hd
        have hxl : h2.live x := by
          rcases hx with hx | hx
          · rw [hx]; exact par_live h2 d p (r2.up p d hdm)
          · cases hx with
            | child g1 _ => exact par_live h2 _ _ g1
            | step g1 _ _ => exact par_live h2 _ _ g1
        rw [(s2 x hxl).2.2, f1]
        exact hrefs d (List.mem_cons_of_mem _ hd) x (hx.imp id (below2 x hxl d).1))
    refine ⟨h3, K3, ?_, r3, k3, fun x => ?_, fun x hx => ?_⟩
    · rw [masterEraseLoop, hc.2.1]
      simp only
      rw [if_pos hc.1, e1]
      simp only
      rw [e2]
      exact e3
    · rw [l3]
      constructor
      · rintro ⟨g1, g2⟩
        refine ⟨((live2 x).1 g1).1, fun d hd => ?_⟩
        rcases List.mem_cons.1 hd with he | hd
        · rw [he]; exact ((live2 x).1 g1).2
        · exact ⟨(g2 d hd).1, fun hb => (g2 d hd).2 ((below2 x g1 d).2 hb)⟩
      · rintro ⟨g1, g2⟩
        have g3 := (live2 x).2 ⟨g1, g2 c List.mem_cons_self⟩
        exact ⟨g3, fun d hd => ⟨(g2 d (List.mem_cons_of_mem _ hd)).1,
          fun hb => (g2 d (List.mem_cons_of_mem _ hd)).2 ((below2 x g3 d).1 hb)⟩⟩
    · have hx2 := ((l3 x).1 hx).1
      obtain ⟨g1, g2, g3⟩ := s3 x hx
      refine ⟨g1.trans (par2 x hx2), fun hxp => ?_, ?_⟩
      · rw [g2 hxp, (s2 x hx2).2.1]
        unfold upd
        rw [if_neg hxp, List.erase_of_not_mem]
        exact fun hm => hxp (r.owner_unique hm hcm)
      · rw [g3, (s2 x hx2).2.2, f1]

/-! ### C240 -/

/-- C240, counting. After every history as in C56, the count of a node is the number of nodes whose
parent it is. -/
theorem C240_count (ops : List TOp) (hok : TreeHist ops Heap.empty) :
    ∃ h, treeRun ops Heap.empty = some h ∧
      ∀ p, h.live p → ∃ l : List Nat, l.Nodup ∧ (∀ c, c ∈ l ↔ h.par c = some p) ∧ masterCount h p = some l.length := by
  obtain ⟨h, e, K, rank, r, hr⟩ := run_good ops _ empty_good hok
  refine ⟨h, e, fun p hp => ⟨K p, r.nodup p, fun c => mem_kids r p c (by rintro rfl; exact r.null hp), ?_⟩⟩
  unfold masterCount
  rw [countLoop_spec h _ _ _ 0 (r.chain p hp) (by have := r.length p; omega), Nat.zero_add]

/-- C240, taking out. After every history as in C56, taking out the children of a node ends, leaves
it without children and its former children without a parent; no node is deleted, all others keep
their parents, all nodes their references and the other nodes their children. If there were any
children, the size of the node is computed again. -/
theorem C240_clear (ops : List TOp) (hok : TreeHist ops Heap.empty) :
    ∃ h, treeRun ops Heap.empty = some h ∧
      ∀ p, h.live p → ∃ h', masterClear h p = some h' ∧ childrenOf h' p = some [] ∧
        (∀ x, h'.live x ↔ h.live x) ∧ (∀ x, h'.refsOf x = h.refsOf x) ∧
        (∀ x, h'.par x = if h.par x = some p then some 0 else h.par x) ∧
        (∀ x, h.live x → x ≠ p → childrenOf h' x = childrenOf h x) ∧
        (∀ c, h.par c = some p → h'.dirtyOf p = some true) := by
  obtain ⟨h, e, K, rank, r, hr⟩ := run_good ops _ empty_good hok
  refine ⟨h, e, fun p hp => ?_⟩
  have hp0 : p ≠ 0 := by rintro rfl; exact r.null hp
  obtain ⟨h', e', r', t', q', l', f', _, m'⟩ := clearLoop_spec p (K p) (h.top + 1) h K r hp rfl (by have := r.length p; omega)
  refine ⟨h', e', ?_, l', f', fun x => ?_, fun x hx hxp => ?_, fun c hc => ?_⟩
  · rw [childrenOf_spec r' p ((l' p).2 hp), upd_at]
  · rw [q' x]
    by_cases hx : x ∈ K p
    · rw [if_pos hx, if_pos (r.up p x hx)]
    · rw [if_neg hx, if_neg (fun hh => hx ((mem_kids r p x hp0).2 hh))]
  · rw [childrenOf_spec r' x ((l' x).2 hx), childrenOf_spec r x hx]
    unfold upd
    rw [if_neg hxp]
  · have := (mem_kids r p c hp0).2 hc
    exact m' (fun hk => by rw [hk] at this; cases this)

/-- C240, deleting. After every history as in C56, deleting the children of a node, below which there
are no further references, ends, frees exactly the nodes below it and leaves it without children; all
other nodes keep their parents, references and children. -/
theorem C240_erase (ops : List TOp) (hok : TreeHist ops Heap.empty) :
    ∃ h, treeRun ops Heap.empty = some h ∧
      ∀ p, h.live p → (∀ x, Below h x p → h.refsOf x = some 1) →
        ∃ h', masterErase h p = some h' ∧ childrenOf h' p = some [] ∧
          (∀ x, h'.live x ↔ h.live x ∧ ¬ Below h x p) ∧
          (∀ x, h'.live x → h'.par x = h.par x ∧ h'.refsOf x = h.refsOf x ∧ (x ≠ p → childrenOf h' x = childrenOf h x)) := by
  obtain ⟨h, e, K, rank, r, hr⟩ := run_good ops _ empty_good hok
  refine ⟨h, e, fun p hp hrefs => ?_⟩
  have hp0 : p ≠ 0 := by rintro rfl; exact r.null hp
  have hbelow : ∀ x, Below h x p ↔ ∃ c ∈ K p, x = c ∨ Below h x c := by
    intro x
    constructor
    · intro hb
      have gen : ∀ {x a}, Below h x a → a = p → ∃ c ∈ K p, x = c ∨ Below h x c := by
        intro x a hb
        induction hb with
        | @child x a g1 g2 => intro ha; rw [ha] at g1; exact ⟨x, (mem_kids r p x hp0).2 g1, .inl rfl⟩
        | @step x q a g1 g2 g3 ih =>
          intro ha
          obtain ⟨c, hc, hq⟩ := ih ha
          refine ⟨c, hc, .inr ?_⟩
          rcases hq with hq | hq
          · rw [hq] at g1 g2; exact .child g1 g2
          · exact .step g1 g2 hq
      exact gen hb rfl
    · rintro ⟨c, hc, hx⟩
      have hcp := r.up p c hc
      rcases hx with hx | hx
      · rw [hx]; exact .child hcp hp0
      · induction hx with
        | @child x a g1 g2 => exact .step g1 g2 (.child hcp hp0)
        | @step x q a g1 g2 g3 ih => exact .step g1 g2 (ih hc hcp)
  obtain ⟨h', K', e', r', k', l', s'⟩ := eraseLoop_spec rank p (K p) (h.top + 1) h K r hr hp rfl (by have := r.length p; omega)
    (fun c hc x hx => hrefs x ((hbelow x).2 ⟨c, hc, hx⟩))
  have hlive : ∀ x, h'.live x ↔ h.live x ∧ ¬ Below h x p := by
    intro x
    rw [l', hbelow]
    constructor
    · rintro ⟨g1, g2⟩
      exact ⟨g1, fun ⟨c, hc, hx⟩ => hx.elim (g2 c hc).1 (g2 c hc).2⟩
    · rintro ⟨g1, g2⟩
      exact ⟨g1, fun c hc => ⟨fun hx => g2 ⟨c, hc, .inl hx⟩, fun hx => g2 ⟨c, hc, .inr hx⟩⟩⟩
  refine ⟨h', e', ?_, hlive, fun x hx => ?_⟩
  · rw [childrenOf_spec r' p ((hlive p).2 ⟨hp, fun hb => Nat.lt_irrefl _ (hb.rank hr)⟩), k']
  · obtain ⟨g1, g2, g3⟩ := s' x hx
    refine ⟨g1, g3, fun hxp => ?_⟩
    rw [childrenOf_spec r' x hx, childrenOf_spec r x ((hlive x).1 hx).1, g2 hxp]

/-- C240, sorting, for up to 17 children or a comparison that puts no node before itself (see
`C79_counterexample` for others). After every history as in C56, sorting the children of a node ends
with the same children in another order, which is ascending if the comparison is a total preorder; no
node is deleted or gets another parent, the other nodes keep their children. -/
theorem C240_sort_partial (cmp : Nat → Nat → Int) (ops : List TOp) (hok : TreeHist ops Heap.empty) :
    ∃ h, treeRun ops Heap.empty = some h ∧
      ∀ p l, h.live p → childrenOf h p = some l → (l.length ≤ 17 ∨ ∀ x, 0 ≤ cmp x x) →
        ∃ h' l', sortMaster cmp h p = some h' ∧ childrenOf h' p = some l' ∧ l'.Perm l ∧
          (Core.Total cmp → l'.Pairwise fun x y => cmp x y ≤ 0) ∧
          (∀ x, h'.live x ↔ h.live x) ∧ (∀ x, h'.par x = h.par x) ∧ (∀ x, h'.refsOf x = h.refsOf x) ∧
          (∀ x, h.live x → x ≠ p → childrenOf h' x = childrenOf h x) := by
  obtain ⟨h, e, K, rank, r, hr⟩ := run_good ops _ empty_good hok
  refine ⟨h, e, fun p l hp hl hcmp => ?_⟩
  have hl1 := hl
  rw [childrenOf_spec r p hp] at hl
  have hl := Option.some.inj hl
  obtain ⟨l', es, hperm⟩ := Mkv.C79_children_kept_partial cmp l hcmp
  obtain ⟨h1, e1, r1, t1, q1, l1, f1, d1, m1⟩ := clearLoop_spec p l (h.top + 1) h K r hp hl (by have := r.length p; rw [hl] at this; omega)
  obtain ⟨h2, e2, r2, q2, l2, f2, d2⟩ := refill_spec p l' h1 _ r1 ((l1 p).2 hp) (hperm.nodup_iff.2 (by rw [← hl]; exact r.nodup p))
    (fun c hc => by rw [q1, if_pos (hperm.mem_iff.1 hc)])
  rw [upd_upd, upd_at, List.nil_append] at r2
  refine ⟨h2, l', ?_, ?_, hperm, fun ht => ?_, fun x => (l2 x).trans (l1 x), fun x => ?_, fun x => (f2 x).trans (f1 x),
    fun x hx hxp => ?_⟩
  · unfold sortMaster masterClear
    rw [hl1]
    simp only
    rw [es]
    simp only
    rw [e1]
    exact e2
  · rw [childrenOf_spec r2 p ((l2 p).2 ((l1 p).2 hp)), upd_at]
  · obtain ⟨⟨a', ea, ha⟩, _⟩ := Core.C48_sort_orders cmp ht true l
    rw [Core.masterSort] at es
    rw [es] at ea
    rw [Option.some.inj ea]
    exact ha.2
  · rw [q2, q1]
    by_cases hx : x ∈ l
    · rw [if_pos (hperm.mem_iff.2 hx)]
      exact (r.up p x (by rw [hl]; exact hx)).symm
    · rw [if_neg (fun hh => hx (hperm.mem_iff.1 hh)), if_neg hx]
  · rw [childrenOf_spec r2 x ((l2 x).2 ((l1 x).2 hx)), childrenOf_spec r x hx]
    unfold upd
    rw [if_neg hxp]

/-- Node 1 with the children 4, 3, 2, where 3 has the child 5. -/
def fiveNodes : List TOp :=
  [.create, .create, .create, .create, .create, .setParent 4 1 0, .setParent 3 1 0, .setParent 2 1 0, .setParent 5 3 0]

example : (treeRun fiveNodes Heap.empty).bind (fun h => masterCount h 1) = some 3 := by decide +kernel
example : ((treeRun fiveNodes Heap.empty).bind (fun h => masterClear h 1)).map
    (fun h => (childrenOf h 1, [1, 2, 3, 4, 5].map h.par, childrenOf h 3)) =
    some (some [], [some 0, some 0, some 0, some 0, some 3], some [5]) := by decide +kernel
example : ((treeRun fiveNodes Heap.empty).bind (fun h => masterErase h 1)).map
    (fun h => (childrenOf h 1, [1, 2, 3, 4, 5].map fun x => (h.at_ x).isSome)) =
    some (some [], [true, false, false, false, false]) := by decide +kernel
example : ((treeRun fiveNodes Heap.empty).bind (fun h => sortMaster (fun a b => (a : Int) - b) h 1)).map
    (fun h => (childrenOf h 1, childrenOf h 3)) = some (some [2, 3, 4], some [5]) := by decide +kernel

end Verif.NodeTree
