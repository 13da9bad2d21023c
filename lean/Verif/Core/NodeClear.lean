import Verif.Core.NodeOps
/-!
Clearing and deleting nodes.
-/
set_option linter.unusedSimpArgs false
namespace Verif.NodeTree
open Verif

/-- Ranks that grow towards the root: there are no cycles. -/
def Ranked (h : Heap) (rank : Nat → Nat) : Prop := ∀ c q, h.par c = some q → q ≠ 0 → rank c < rank q

/-- Does the node have a parent? -/
def Heap.hasPar (h : Heap) (x : Nat) : Bool := match h.par x with | some q => decide (q ≠ 0) | none => false

theorem hasPar_iff (h : Heap) (x : Nat) : h.hasPar x = true ↔ ∃ q, h.par x = some q ∧ q ≠ 0 := by
  unfold Heap.hasPar
  cases h.par x with
  | none => simp
  | some q => simp

/-- Number of nodes with a parent, among those up to `top`. -/
def attached (h : Heap) : Nat := (List.range (h.top + 1)).countP h.hasPar

theorem countP_lt {α : Type} (f g : α → Bool) : ∀ (l : List α), (∀ x, f x = true → g x = true) → ∀ c ∈ l, g c = true → f c = false →
    l.countP f < l.countP g
  | [], _, c, hc, _, _ => by cases hc
  | d :: r, hm, c, hc, hg, hf => by
    rcases List.mem_cons.1 hc with rfl | hc
    · rw [List.countP_cons_of_pos hg, List.countP_cons_of_neg (by rw [hf]; exact Bool.false_ne_true)]
      have := List.countP_mono_left (p := f) (q := g) (l := r) fun x _ => hm x
      omega
    · have ih := countP_lt f g r hm c hc hg hf
      rw [List.countP_cons, List.countP_cons]
      have hd := hm d
      cases hfd : f d
      · simp; omega
      · simp [hd hfd]; exact ih

theorem attached_le {h h' : Heap} (ht : h'.top = h.top) (hm : ∀ x q, h'.par x = some q → q ≠ 0 → h.par x = some q) :
    attached h' ≤ attached h := by
  unfold attached
  rw [ht]
  refine List.countP_mono_left fun x _ hx => ?_
  rw [hasPar_iff] at hx ⊢
  obtain ⟨q, h1, h2⟩ := hx
  exact ⟨q, hm x q h1 h2, h2⟩

theorem attached_lt {h h' : Heap} (ht : h'.top = h.top) (hm : ∀ x q, h'.par x = some q → q ≠ 0 → h.par x = some q)
    (c q : Nat) (hc : h.par c = some q) (hq : q ≠ 0) (hct : c ≤ h.top) (hc' : h'.par c = some 0) : attached h' < attached h := by
  unfold attached
  rw [ht]
  refine countP_lt _ _ _ ?_ c (by rw [List.mem_range]; omega) ((hasPar_iff h c).2 ⟨q, hc, hq⟩) ?_
  · intro x hx
    rw [hasPar_iff] at hx ⊢
    obtain ⟨q, h1, h2⟩ := hx
    exact ⟨q, hm x q h1 h2, h2⟩
  · cases hh : h'.hasPar c with
    | false => rfl
    | true =>
      rw [hasPar_iff] at hh
      obtain ⟨q, h1, h2⟩ := hh
      rw [hc'] at h1
      exact absurd (Option.some.inj h1).symm h2

/-- What clearing `p` does. -/
structure Cleared (h h' : Heap) (K K' : Nat → List Nat) (rank : Nat → Nat) (p : Nat) : Prop where
  rep : Rep h' K'
  top : h'.top = h.top
  sub : ∀ x, h'.live x → h.live x
  high : ∀ x, rank p ≤ rank x → h.live x → h'.live x
  kids : K' p = []
  loose : h'.par p = some 0
  par : ∀ d, h'.live d → d ≠ p → h'.par d = h.par d ∨
    (h'.par d = some 0 ∧ ∃ y, h.par d = some y ∧ y ≠ 0 ∧ (y = p ∨ ¬ h'.live y))
  refs : ∀ d, h'.live d → h'.refsOf d = h.refsOf d ∨ ∃ y, h.par d = some y ∧ y ≠ 0 ∧ (y = p ∨ ¬ h'.live y)
  exact : ∀ y d, (y = p ∨ (h.live y ∧ ¬ h'.live y)) → h.par d = some y → h.refsOf d = some 1 → ¬ h'.live d
  dead : ∀ y, h.live y → ¬ h'.live y → ∃ z, h.par y = some z ∧ z ≠ 0 ∧ (z = p ∨ ¬ h'.live z)
  lists : ∀ x, h'.live x → x ≠ p → K' x = (K x).erase p

theorem Cleared.mono {h h' : Heap} {K K' : Nat → List Nat} {rank : Nat → Nat} {p : Nat} (c : Cleared h h' K K' rank p)
    (x q : Nat) (hx : h'.par x = some q) (hq : q ≠ 0) : h.par x = some q := by
  have hxp : x ≠ p := by
    rintro rfl
    rw [c.loose] at hx
    exact hq (Option.some.inj hx).symm
  rcases c.par x (par_live h' x q hx) hxp with h1 | ⟨h1, _⟩
  · rw [← h1]; exact hx
  · rw [h1] at hx
    exact absurd (Option.some.inj hx).symm hq

/-- Changing the count of references of one node. -/
theorem setRefs_spec (h : Heap) (c : Nat) (n : TNode) (hn : h.at_ c = some n) (v : Nat) :
    (h.set c { n with refs := v }).top = h.top ∧ (∀ x, (h.set c { n with refs := v }).get x = h.get x) ∧
    (∀ x, (h.set c { n with refs := v }).par x = h.par x) ∧ (∀ x, (h.set c { n with refs := v }).live x ↔ h.live x) ∧
    (∀ x, (h.set c { n with refs := v }).refsOf x = if x = c then some v else h.refsOf x) := by
  obtain ⟨a1, a2, a3, a4⟩ := set_same h c n { n with refs := v } hn rfl rfl rfl
  refine ⟨a1, a2, a3, a4, ?_⟩
  intro x
  by_cases hx : x = c
  · subst hx; simp [Heap.refsOf, Heap.set]
  · simp [Heap.refsOf, Heap.set, hx]

/-- Joining what happens to the first child with what happens afterwards. `h3` is the heap after
the first child `c` has been dealt with. -/
theorem cleared_step {h h3 h' : Heap} {K K3 K' : Nat → List Nat} {rank : Nat → Nat} {p c : Nat}
    (r : Rep h K) (hr : Ranked h rank) (hc : h.par c = some p) (hp0 : p ≠ 0) (c3 : Cleared h3 h' K3 K' rank p)
    (top3 : h3.top = h.top) (sub3 : ∀ x, h3.live x → h.live x) (high3 : ∀ x, rank p ≤ rank x → h.live x → h3.live x)
    (loose3 : h3.live c → h3.par c = some 0)
    (par3 : ∀ d, h3.live d → d ≠ c → h3.par d = h.par d ∨
      (h3.par d = some 0 ∧ ∃ y, h.par d = some y ∧ y ≠ 0 ∧ ¬ h3.live y))
    (refs3 : ∀ d, h3.live d → d ≠ c → h3.refsOf d = h.refsOf d ∨ ∃ y, h.par d = some y ∧ y ≠ 0 ∧ ¬ h3.live y)
    (exact3 : ∀ y d, h.live y → ¬ h3.live y → h.par d = some y → h.refsOf d = some 1 → ¬ h3.live d)
    (exactc : h.refsOf c = some 1 → ¬ h3.live c)
    (dead3 : ∀ y, h.live y → ¬ h3.live y → y ≠ c → ∃ z, h.par y = some z ∧ z ≠ 0 ∧ ¬ h3.live z)
    (lists3 : ∀ x, h3.live x → x ≠ p → x ≠ c → K3 x = K x) (listc : h3.live c → K3 c = K c) :
    Cleared h h' K K' rank p := by
  have hcp : c ≠ p := by rintro rfl; exact Nat.lt_irrefl _ (hr c c hc hp0)
  refine ⟨c3.rep, by rw [c3.top, top3], fun x hx => sub3 x (c3.sub x hx), fun x h1 h2 => c3.high x h1 (high3 x h1 h2),
    c3.kids, c3.loose, ?_, ?_, ?_, ?_, ?_⟩
  · intro d hd hdp
    have hd3 := c3.sub d hd
    by_cases hdc : d = c
    · subst hdc
      refine .inr ⟨?_, p, hc, hp0, .inl rfl⟩
      rcases c3.par d hd hdp with h1 | ⟨h1, _⟩
      · rw [h1]; exact loose3 hd3
      · exact h1
    · rcases par3 d hd3 hdc with h1 | ⟨h1, y, h2, h3, h4⟩
      · rcases c3.par d hd hdp with k1 | ⟨k1, y, k2, k3, k4⟩
        · exact .inl (by rw [k1, h1])
        · exact .inr ⟨k1, y, by rw [← h1]; exact k2, k3, k4⟩
      · refine .inr ⟨?_, y, h2, h3, .inr fun hl => h4 (c3.sub y hl)⟩
        rcases c3.par d hd hdp with k1 | ⟨k1, _⟩
        · rw [k1]; exact h1
        · exact k1
  · intro d hd
    have hd3 := c3.sub d hd
    by_cases hdc : d = c
    · subst hdc
      exact .inr ⟨p, hc, hp0, .inl rfl⟩
    · rcases refs3 d hd3 hdc with h1 | ⟨y, h2, h3, h4⟩
      · rcases c3.refs d hd with k1 | ⟨y, k2, k3, k4⟩
        · exact .inl (by rw [k1, h1])
        · rcases par3 d hd3 hdc with g1 | ⟨g1, z, g2, g3, g4⟩
          · exact .inr ⟨y, by rw [← g1]; exact k2, k3, k4⟩
          · exact .inr ⟨z, g2, g3, .inr fun hl => g4 (c3.sub z hl)⟩
      · exact .inr ⟨y, h2, h3, .inr fun hl => h4 (c3.sub y hl)⟩
  · intro y d hy hd h1 hl
    have hd3 := c3.sub d hl
    by_cases hdc : d = c
    · subst hdc; exact exactc h1 hd3
    · by_cases hy3 : h3.live y
      · have hy' : y = p ∨ (h3.live y ∧ ¬ h'.live y) := by
          rcases hy with hy | hy
          · exact .inl hy
          · exact .inr ⟨hy3, hy.2⟩
        have hp3 : h3.par d = some y := by
          rcases par3 d hd3 hdc with g1 | ⟨g1, z, g2, g3, g4⟩
          · rw [g1]; exact hd
          · rw [hd] at g2; cases g2; exact absurd hy3 g4
        have hr3 : h3.refsOf d = some 1 := by
          rcases refs3 d hd3 hdc with g1 | ⟨z, g2, g3, g4⟩
          · rw [g1]; exact h1
          · rw [hd] at g2; cases g2; exact absurd hy3 g4
        exact c3.exact y d hy' hp3 hr3 hl
      · have hyl : h.live y := by
          rcases hy with hy | hy
          · rw [hy]; exact (r.down c p hc hp0).1
          · exact hy.1
        exact exact3 y d hyl hy3 hd h1 hd3
  · intro y hy hy'
    by_cases hyc : y = c
    · subst hyc; exact ⟨p, hc, hp0, .inl rfl⟩
    · by_cases hy3 : h3.live y
      · obtain ⟨z, k1, k2, k3⟩ := c3.dead y hy3 hy'
        rcases par3 y hy3 hyc with g1 | ⟨g1, _⟩
        · exact ⟨z, by rw [← g1]; exact k1, k2, k3⟩
        · rw [g1] at k1
          exact absurd (Option.some.inj k1).symm k2
      · obtain ⟨z, k1, k2, k3⟩ := dead3 y hy hy3 hyc
        exact ⟨z, k1, k2, .inr fun hl => k3 (c3.sub z hl)⟩
  · intro x hx hxp
    have hx3 := c3.sub x hx
    rw [c3.lists x hx hxp]
    by_cases hxc : x = c
    · subst hxc; rw [listc hx3]
    · rw [lists3 x hx3 hxp hxc]

theorem clear_spec (rank : Nat → Nat) : ∀ (fuel : Nat) (h : Heap) (K : Nat → List Nat) (p : Nat), Rep h K → Ranked h rank →
    h.live p → attached h < fuel → ∃ h' K', clear fuel h p = some h' ∧ Cleared h h' K K' rank p
  | 0, _, _, _, _, _, _, hf => absurd hf (Nat.not_lt_zero _)
  | fuel + 1, h, K, p, r, hr, hp, hf => by
    have hp0 : p ≠ 0 := by rintro rfl; exact r.null hp
    have hch := r.chain p hp
    rw [clear]
    cases hk : K p with
    | nil =>
      rw [hk, ChainAt] at hch
      rw [hch]
      simp only
      rw [if_neg (fun hh => hh rfl)]
      obtain ⟨h1, e1, r1, t1, p1, l1, f1, _⟩ := setParent_spec r p 0 0 hp (.inl rfl) (.inl rfl) hp0
      refine ⟨h1, _, e1, r1, t1, fun x hx => (l1 x).1 hx, fun x _ hx => (l1 x).2 hx, ?_, ?_, ?_, fun d _ => .inl (f1 d), ?_, ?_, ?_⟩
      · unfold place
        rw [if_neg (fun hh => hh.2 rfl), hk]; rfl
      · rw [p1, if_pos rfl]
      · intro d _ hd; left; rw [p1, if_neg hd]
      · intro y d hy hd
        rcases hy with hy | hy
        · rw [hy] at hd
          have := (r.down d p hd hp0).2
          rw [hk] at this; cases this
        · exact absurd ((l1 y).2 hy.1) hy.2
      · intro y hy hy'
        exact absurd ((l1 y).2 hy) hy'
      · intro x _ hx
        unfold place
        rw [if_neg (fun hh => hh.2 rfl)]
    | cons c rest =>
      rw [hk, ChainAt] at hch
      have hcm : c ∈ K p := by rw [hk]; exact List.mem_cons_self
      have hcpar := r.up p c hcm
      have hcl := par_live h c p hcpar
      have hcrank := hr c p hcpar hp0
      have hcp : c ≠ p := by rintro rfl; exact Nat.lt_irrefl _ hcrank
      rw [hch.2.1]
      simp only
      rw [if_pos hch.1]
      obtain ⟨h1, e1, r1, t1, p1, l1, f1, _⟩ := setParent_spec r c 0 0 hcl (.inl rfl) (.inl rfl) hch.1
      have k1 : place K c 0 0 = fun x => (K x).erase c := by
        funext x; unfold place; rw [if_neg (fun hh => hh.2 rfl)]
      rw [k1] at r1
      have k1x : ∀ x, x ≠ p → (K x).erase c = K x := fun x hx =>
        List.erase_of_not_mem fun hm => hx (r.owner_unique hm hcm)
      rw [e1]
      simp only
      obtain ⟨n, hn⟩ := (live_iff h1 c).1 ((l1 c).2 hcl)
      have hn1 : h.refsOf c = some n.refs := by rw [← f1, Heap.refsOf, hn]; rfl
      have m1 : ∀ x q, h1.par x = some q → q ≠ 0 → h.par x = some q := by
        intro x q hx hq
        rw [p1] at hx
        by_cases hxc : x = c
        · rw [if_pos hxc] at hx; exact absurd (Option.some.inj hx).symm hq
        · rw [if_neg hxc] at hx; exact hx
      have hr1 : Ranked h1 rank := fun x q hx hq => hr x q (m1 x q hx hq) hq
      have hat1 : attached h1 < attached h :=
        attached_lt t1 m1 c p hcpar hp0 (r.top c hcl) (by rw [p1, if_pos rfl])
      rw [hn]
      simp only
      by_cases href : n.refs = 1
      · rw [if_pos href]
        obtain ⟨a1, a2, a3, a4, a5⟩ := setRefs_spec h1 c n hn 0
        generalize h1.set c { n with refs := 0 } = h2 at a1 a2 a3 a4 a5
        have r2 : Rep h2 (fun x => (K x).erase c) := r1.congr a1 a2 a3 a4
        have hr2 : Ranked h2 rank := fun x q hx hq => hr1 x q (by rw [← a3]; exact hx) hq
        have hat2 : attached h2 ≤ attached h1 := attached_le a1 fun x q hx _ => by rw [← a3]; exact hx
        obtain ⟨hx, Kx, ex, cx⟩ := clear_spec rank fuel h2 _ c r2 hr2 ((a4 c).2 ((l1 c).2 hcl)) (by omega)
        rw [ex]
        simp only
        obtain ⟨r3, l3, q3⟩ := free_spec cx.rep c cx.loose cx.kids
        have hpx : hx.live p := cx.high p (Nat.le_of_lt hcrank) ((a4 p).2 ((l1 p).2 hp))
        have t3 : (hx.free c).top = h.top := by show hx.top = h.top; rw [cx.top, a1, t1]
        have lh2 : ∀ x, h2.live x ↔ h.live x := fun x => (a4 x).trans (l1 x)
        have ph2 : ∀ x, x ≠ c → h2.par x = h.par x := fun x hxc => by rw [a3, p1, if_neg hxc]
        have fh2 : ∀ x, x ≠ c → h2.refsOf x = h.refsOf x := fun x hxc => by rw [a5, if_neg hxc, f1]
        have m3 : ∀ x q, (hx.free c).par x = some q → q ≠ 0 → h.par x = some q := by
          intro x q hxq hq
          have hxc := ((l3 x).1 (par_live _ x q hxq)).2
          rw [(q3 x hxc).1] at hxq
          have := cx.mono x q hxq hq
          rw [a3] at this
          exact m1 x q this hq
        have hr3 : Ranked (hx.free c) rank := fun x q hxq hq => hr x q (m3 x q hxq hq) hq
        have hat3 : attached (hx.free c) ≤ attached h1 := by
          refine attached_le (by rw [t3, t1]) fun x q hxq hq => ?_
          have hxc := ((l3 x).1 (par_live _ x q hxq)).2
          rw [p1, if_neg hxc]
          exact m3 x q hxq hq
        obtain ⟨h', K', e', c'⟩ := clear_spec rank fuel (hx.free c) Kx p r3 hr3 ((l3 p).2 ⟨hpx, Ne.symm hcp⟩) (by omega)
        refine ⟨h', K', e', cleared_step r hr hcpar hp0 c' t3 ?_ ?_ ?_ ?_ ?_ ?_ ?_ ?_ ?_ ?_⟩
        · intro x h3
          exact (lh2 x).1 (cx.sub x ((l3 x).1 h3).1)
        · intro x h3 h4
          refine (l3 x).2 ⟨cx.high x (by omega) ((lh2 x).2 h4), ?_⟩
          rintro rfl; omega
        · intro h3
          exact absurd rfl ((l3 c).1 h3).2
        · intro d hd hdc
          rw [(q3 d hdc).1]
          rcases cx.par d ((l3 d).1 hd).1 hdc with g1 | ⟨g1, y, g2, g3, g4⟩
          · left; rw [g1, ph2 d hdc]
          · right
            refine ⟨g1, y, by rw [← ph2 d hdc]; exact g2, g3, ?_⟩
            intro hl
            rcases g4 with g4 | g4
            · exact ((l3 y).1 hl).2 g4
            · exact g4 ((l3 y).1 hl).1
        · intro d hd hdc
          rw [(q3 d hdc).2]
          rcases cx.refs d ((l3 d).1 hd).1 with g1 | ⟨y, g2, g3, g4⟩
          · left; rw [g1, fh2 d hdc]
          · right
            refine ⟨y, by rw [← ph2 d hdc]; exact g2, g3, ?_⟩
            intro hl
            rcases g4 with g4 | g4
            · exact ((l3 y).1 hl).2 g4
            · exact g4 ((l3 y).1 hl).1
        · intro y d hy hy3 hd hd1 hl
          obtain ⟨hl1, hdc⟩ := (l3 d).1 hl
          refine cx.exact y d ?_ (by rw [ph2 d hdc]; exact hd) (by rw [fh2 d hdc]; exact hd1) hl1
          by_cases hyc : y = c
          · exact .inl hyc
          · exact .inr ⟨(lh2 y).2 hy, fun hh => hy3 ((l3 y).2 ⟨hh, hyc⟩)⟩
        · intro _ hl
          exact ((l3 c).1 hl).2 rfl
        · intro y hy hy3 hyc
          obtain ⟨z, g1, g2, g3⟩ := cx.dead y ((lh2 y).2 hy) fun hh => hy3 ((l3 y).2 ⟨hh, hyc⟩)
          refine ⟨z, by rw [← ph2 y hyc]; exact g1, g2, fun hl => ?_⟩
          rcases g3 with g3 | g3
          · exact ((l3 z).1 hl).2 g3
          · exact g3 ((l3 z).1 hl).1
        · intro x hxl hxp hxc
          rw [cx.lists x ((l3 x).1 hxl).1 hxc, k1x x hxp, k1x x hxp]
        · intro hl
          exact absurd rfl ((l3 c).1 hl).2
      · rw [if_neg href]
        obtain ⟨a1, a2, a3, a4, a5⟩ := setRefs_spec h1 c n hn ((n.refs + (2 ^ 64 - 1)) % 2 ^ 64)
        generalize h1.set c { n with refs := (n.refs + (2 ^ 64 - 1)) % 2 ^ 64 } = h2 at a1 a2 a3 a4 a5 ⊢
        have r2 : Rep h2 (fun x => (K x).erase c) := r1.congr a1 a2 a3 a4
        have hr2 : Ranked h2 rank := fun x q hx hq => hr1 x q (by rw [← a3]; exact hx) hq
        have hat2 : attached h2 ≤ attached h1 := attached_le a1 fun x q hx _ => by rw [← a3]; exact hx
        have lh2 : ∀ x, h2.live x ↔ h.live x := fun x => (a4 x).trans (l1 x)
        obtain ⟨h', K', e', c'⟩ := clear_spec rank fuel h2 _ p r2 hr2 ((lh2 p).2 hp) (by omega)
        refine ⟨h', K', e', cleared_step r hr hcpar hp0 c' (by rw [a1, t1]) (fun x hx => (lh2 x).1 hx)
          (fun x _ hx => (lh2 x).2 hx) ?_ ?_ ?_ ?_ ?_ ?_ ?_ ?_⟩
        · intro _; rw [a3, p1, if_pos rfl]
        · intro d _ hdc; left; rw [a3, p1, if_neg hdc]
        · intro d _ hdc; left; rw [a5, if_neg hdc, f1]
        · intro y d hy hy3
          exact absurd ((lh2 y).2 hy) hy3
        · intro hc1
          rw [hn1] at hc1
          exact absurd (Option.some.inj hc1) href
        · intro y hy hy3
          exact absurd ((lh2 y).2 hy) hy3
        · intro x _ hxp _
          exact k1x x hxp
        · intro _
          exact k1x c hcp

end Verif.NodeTree
