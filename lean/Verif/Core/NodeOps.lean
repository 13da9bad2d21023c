import Verif.Core.NodeRep
/-!
The operations on the node tree in terms of the lists of children.
-/
set_option linter.unusedSimpArgs false
namespace Verif.NodeTree
open Verif

/-- Reference count of a node. -/
def Heap.refsOf (h : Heap) (x : Nat) : Option Nat := (h.at_ x).map (·.refs)
/-- Whether a node is marked for a new computation of its size. -/
def Heap.dirtyOf (h : Heap) (x : Nat) : Option Bool := (h.at_ x).map (·.dirty)

theorem refs_of_pair {h h' : Heap}
    (hx : ∀ x, (h'.at_ x).map (fun n => (n.refs, n.dirty)) = (h.at_ x).map (fun n => (n.refs, n.dirty))) (x : Nat) :
    h'.refsOf x = h.refsOf x ∧ h'.dirtyOf x = h.dirtyOf x := by
  have := hx x
  unfold Heap.refsOf Heap.dirtyOf
  cases h1 : h'.at_ x <;> cases h2 : h.at_ x <;> rw [h1, h2] at this <;> simp at this ⊢
  exact this

/-- Marking a node changes nothing else. -/
theorem markDirty_spec (h : Heap) (p : Nat) (hp : h.live p) :
    ∃ h', markDirty h p = some h' ∧ h'.top = h.top ∧ (∀ x, h'.get x = h.get x) ∧ (∀ x, h'.par x = h.par x) ∧
      (∀ x, h'.live x ↔ h.live x) ∧ (∀ x, h'.refsOf x = h.refsOf x) ∧
      (∀ x, h'.dirtyOf x = if x = p then some true else h.dirtyOf x) := by
  obtain ⟨n, hn⟩ := (live_iff h p).1 hp
  obtain ⟨k1, k2, k3, k4⟩ := set_same h p n { n with dirty := true } hn rfl rfl rfl
  refine ⟨h.set p { n with dirty := true }, by rw [markDirty, hn]; rfl, k1, k2, k3, k4, ?_, ?_⟩
  · intro x
    by_cases hx : x = p
    · subst hx; simp [Heap.refsOf, Heap.set, hn]
    · simp [Heap.refsOf, Heap.set, hx]
  · intro x
    by_cases hx : x = p
    · subst hx; simp [Heap.dirtyOf, Heap.set]
    · simp [Heap.dirtyOf, Heap.set, hx]

/-- `RemoveChild` of a master. -/
theorem removeChild_spec {h : Heap} {K : Nat → List Nat} (r : Rep h K) (q c : Nat) (hc : c ∈ K q) :
    ∃ h', removeChild h q c = some h' ∧ Rep h' (upd K q ((K q).erase c)) ∧ h'.top = h.top ∧
      (∀ x, h'.par x = if x = c then some 0 else h.par x) ∧ (∀ x, h'.live x ↔ h.live x) ∧
      (∀ x, h'.refsOf x = h.refsOf x) ∧ (∀ x, h'.dirtyOf x = if x = q then some true else h.dirtyOf x) := by
  obtain ⟨h1, e1, t1, g1, p1, l1, f1, d1⟩ := markDirty_spec h q (r.owner hc).1
  have r1 : Rep h1 K := r.congr t1 g1 p1 l1
  obtain ⟨h2, e2, r2, t2, p2, l2, x2⟩ := removeChildPlain_spec r1 q c hc
  refine ⟨h2, by rw [removeChild, e1]; exact e2, r2, by rw [t2, t1], fun x => by rw [p2, p1],
    fun x => (l2 x).trans (l1 x), fun x => by rw [(refs_of_pair x2 x).1, f1], fun x => by rw [(refs_of_pair x2 x).2, d1]⟩

/-- `AddChild` of a master. -/
theorem addChild_spec {h : Heap} {K : Nat → List Nat} (r : Rep h K) (q c b : Nat) (hq : h.live q)
    (hc : h.par c = some 0) (hb : b = 0 ∨ b ∈ K q) :
    ∃ h', addChild h q c b = some h' ∧ Rep h' (upd K q (insertB c b (K q))) ∧ h'.top = h.top ∧
      (∀ x, h'.par x = if x = c then some q else h.par x) ∧ (∀ x, h'.live x ↔ h.live x) ∧
      (∀ x, h'.refsOf x = h.refsOf x) ∧ (∀ x, h'.dirtyOf x = if x = q then some true else h.dirtyOf x) := by
  obtain ⟨h1, e1, t1, g1, p1, l1, f1, d1⟩ := markDirty_spec h q hq
  have r1 : Rep h1 K := r.congr t1 g1 p1 l1
  obtain ⟨h2, e2, r2, t2, p2, l2, x2⟩ := addChildPlain_spec r1 q c b ((l1 q).2 hq) (by rw [p1]; exact hc) hb
  refine ⟨h2, by rw [addChild, e1]; exact e2, r2, by rw [t2, t1], fun x => by rw [p2, p1],
    fun x => (l2 x).trans (l1 x), fun x => by rw [(refs_of_pair x2 x).1, f1], fun x => by rw [(refs_of_pair x2 x).2, d1]⟩

/-- The lists of children after taking `p` out of its list and putting it in front of `b` in the
list of `q` (nowhere if `q` is NULL). -/
def place (K : Nat → List Nat) (p q b : Nat) : Nat → List Nat := fun x =>
  if x = q ∧ q ≠ 0 then insertB p b ((K x).erase p) else (K x).erase p

theorem erase_upd {h : Heap} {K : Nat → List Nat} (r : Rep h K) (q p : Nat) (hp : h.par p = some q) :
    (fun x => (K x).erase p) = if q = 0 then K else upd K q ((K q).erase p) := by
  funext x
  by_cases hq : q = 0
  · rw [if_pos hq]
    subst hq
    exact List.erase_of_not_mem (r.loose_mem hp x)
  · rw [if_neg hq]
    unfold upd
    by_cases hx : x = q
    · rw [if_pos hx, hx]
    · rw [if_neg hx]
      refine List.erase_of_not_mem fun hm => hx ?_
      have := r.up x p hm
      rw [hp] at this
      exact (Option.some.inj this).symm

theorem insertB_of_split (p b : Nat) (pre post : List Nat) (h1 : b ∉ pre) (h2 : post.headD 0 = b) (h3 : b = 0 → post = []) :
    insertB p b (pre ++ post) = pre ++ p :: post := by
  induction pre with
  | nil =>
    cases post with
    | nil => simp [insertB]
    | cons d r =>
      rw [List.headD_cons] at h2
      subst h2
      simp [insertB]
  | cons d r ih =>
    have hd : d ≠ b := by rintro rfl; exact h1 List.mem_cons_self
    have := ih fun hm => h1 (List.mem_cons_of_mem _ hm)
    unfold insertB at this ⊢
    rw [List.cons_append, List.takeWhile_cons_of_pos (by simp [hd]), List.dropWhile_cons_of_pos (by simp [hd]),
      List.cons_append, this, List.cons_append]

/-- A node that is where it should be. -/
theorem place_same {h : Heap} {K : Nat → List Nat} (r : Rep h K) (p q : Nat) (hp : h.par p = some q) (b : Nat)
    (hb : h.get (.next p) = some b) : place K p q b = K := by
  funext x
  unfold place
  by_cases hq : q = 0
  · subst hq
    rw [if_neg (fun h => h.2 rfl)]
    exact List.erase_of_not_mem (r.loose_mem hp x)
  by_cases hx : x = q
  · subst hx
    rw [if_pos ⟨rfl, hq⟩]
    obtain ⟨hl, hm⟩ := r.down p x hp hq
    obtain ⟨post, hpost⟩ := dropWhile_mem hm
    have hsplit := split_at p (K x)
    rw [hpost] at hsplit
    have hpre : p ∉ (K x).takeWhile (· ≠ p) := takeWhile_notMem
    generalize (K x).takeWhile (· ≠ p) = pre at hsplit hpre
    have hch := r.chain x hl
    have hnd := r.nodup x
    have hz : 0 ∉ K x := fun hm => r.ne_zero hm rfl
    rw [← hsplit] at hch hnd hz ⊢
    rw [List.erase_append_right _ hpre, List.erase_cons_head]
    have hhd := hch.drop.2.2.head
    rw [hb] at hhd
    have hhd' := (Option.some.inj hhd).symm
    refine insertB_of_split p b pre post ?_ hhd' ?_
    · intro hbm
      cases post with
      | nil =>
        simp only [List.headD_nil] at hhd'
        rw [← hhd'] at hbm
        exact hz (List.mem_append_left _ hbm)
      | cons d t =>
        rw [List.headD_cons] at hhd'
        exact (List.nodup_append.1 hnd).2.2 b hbm b (by rw [← hhd']; simp) rfl
    · intro hb0
      cases post with
      | nil => rfl
      | cons d t =>
        rw [List.headD_cons] at hhd'
        exact absurd (by rw [hhd', hb0]; simp) hz (a := 0 ∈ pre ++ p :: d :: t)
  · rw [if_neg (fun h => hx h.1)]
    refine List.erase_of_not_mem fun hm => hx ?_
    have := r.up x p hm
    rw [hp] at this
    exact (Option.some.inj this).symm

/-- `SetParent`: when `Before` is another child of the new parent. -/
theorem setParent_spec {h : Heap} {K : Nat → List Nat} (r : Rep h K) (p q b : Nat) (hp : h.live p) (hq : q = 0 ∨ h.live q)
    (hb : b = 0 ∨ b ∈ K q) (hpb : p ≠ b) :
    ∃ h', setParent h p q b = some h' ∧ Rep h' (place K p q b) ∧ h'.top = h.top ∧
      (∀ x, h'.par x = if x = p then some q else h.par x) ∧ (∀ x, h'.live x ↔ h.live x) ∧
      (∀ x, h'.refsOf x = h.refsOf x) ∧ (∀ x, h.dirtyOf x = some true → h'.dirtyOf x = some true) ∧
      (h' = h ∨ ∀ x ≠ 0, x = q ∨ h.par p = some x → h'.dirtyOf x = some true) := by
  obtain ⟨n, hn⟩ := (live_iff h p).1 hp
  have hpar : h.par p = some n.parent := by rw [Heap.par, hn]; rfl
  have hnext : h.get (.next p) = some n.next := by rw [Heap.get, hn]; rfl
  rw [setParent, hn]
  simp only
  by_cases hgo : p ≠ b ∧ (n.parent ≠ q ∨ n.next ≠ b)
  · rw [if_pos hgo]
    -- detach
    have h1ex : ∃ h1, detachFrom h n.parent p = some h1 ∧ Rep h1 (fun x => (K x).erase p) ∧ h1.top = h.top ∧
        (∀ x, h1.par x = if x = p then some 0 else h.par x) ∧ (∀ x, h1.live x ↔ h.live x) ∧
        (∀ x, h1.refsOf x = h.refsOf x) ∧ (∀ x, h1.dirtyOf x = if x = n.parent ∧ x ≠ 0 then some true else h.dirtyOf x) := by
      rw [erase_upd r _ p hpar]
      by_cases h0 : n.parent = 0
      · refine ⟨h, by rw [detachFrom, if_neg (fun hh => hh h0)], by rw [if_pos h0]; exact r, rfl, ?_, fun _ => Iff.rfl, fun _ => rfl, ?_⟩
        · intro x
          by_cases hx : x = p
          · rw [if_pos hx, hx, hpar, h0]
          · rw [if_neg hx]
        · intro x
          rw [if_neg (fun hh => hh.2 (hh.1.trans h0))]
      · obtain ⟨h1, e1, r1, t1, p1, l1, f1, d1⟩ := removeChild_spec r n.parent p (r.down p _ hpar h0).2
        refine ⟨h1, by rw [detachFrom, if_pos h0]; exact e1, by rw [if_neg h0]; exact r1, t1, p1, l1, f1, ?_⟩
        intro x
        rw [d1]
        by_cases hx : x = n.parent
        · rw [if_pos hx, if_pos ⟨hx, by rw [hx]; exact h0⟩]
        · rw [if_neg hx, if_neg (fun hh => hx hh.1)]
    obtain ⟨h1, e1, r1, t1, p1, l1, f1, d1⟩ := h1ex
    rw [e1]
    simp only
    by_cases h0 : q = 0
    · refine ⟨h1, by rw [attachTo, if_neg (fun hh => hh h0)], ?_, t1, ?_, l1, f1, ?_, .inr ?_⟩
      · have : place K p q b = fun x => (K x).erase p := by
          funext x; unfold place; rw [if_neg (fun hh => hh.2 h0)]
        rw [this]; exact r1
      · rw [h0]; exact p1
      · intro x hx
        rw [d1]
        split
        · rfl
        · exact hx
      · intro x hx0 hx
        rw [d1, if_pos]
        rcases hx with hx | hx
        · exact absurd (hx.trans h0) hx0
        · rw [hpar] at hx
          exact ⟨(Option.some.inj hx).symm, hx0⟩
    · have hql : h1.live q := (l1 q).2 (hq.resolve_left h0)
      have hb1 : b = 0 ∨ b ∈ (K q).erase p := by
        rcases hb with hb | hb
        · exact .inl hb
        · exact .inr ((List.mem_erase_of_ne (Ne.symm hpb)).2 hb)
      obtain ⟨h2, e2, r2, t2, p2, l2, f2, d2⟩ := addChild_spec r1 q p b hql (by rw [p1, if_pos rfl]) hb1
      refine ⟨h2, by rw [attachTo, if_pos h0]; exact e2, ?_, by rw [t2, t1], ?_, fun x => (l2 x).trans (l1 x),
        fun x => by rw [f2, f1], ?_, .inr ?_⟩
      · have : place K p q b = upd (fun x => (K x).erase p) q (insertB p b ((K q).erase p)) := by
          funext x
          unfold place upd
          by_cases hx : x = q
          · rw [if_pos ⟨hx, h0⟩, if_pos hx, hx]
          · rw [if_neg (fun hh => hx hh.1), if_neg hx]
        rw [this]; exact r2
      · intro x
        rw [p2]
        by_cases hx : x = p
        · rw [if_pos hx, if_pos hx]
        · rw [if_neg hx, if_neg hx, p1, if_neg hx]
      · intro x hx
        rw [d2]
        split
        · rfl
        · rw [d1]
          split
          · rfl
          · exact hx
      · intro x hx0 hx
        rw [d2]
        by_cases hxq : x = q
        · rw [if_pos hxq]
        · rw [if_neg hxq, d1, if_pos]
          rcases hx with hx | hx
          · exact absurd hx hxq
          · rw [hpar] at hx
            exact ⟨(Option.some.inj hx).symm, hx0⟩
  · rw [if_neg hgo]
    have hpq : n.parent = q := by
      by_cases hh : n.parent = q
      · exact hh
      · exact absurd ⟨hpb, .inl hh⟩ hgo
    have hnb : n.next = b := by
      by_cases hh : n.next = b
      · exact hh
      · exact absurd ⟨hpb, .inr hh⟩ hgo
    refine ⟨h, rfl, ?_, rfl, ?_, fun _ => Iff.rfl, fun _ => rfl, fun _ hx => hx, .inl rfl⟩
    · rw [place_same r p q (by rw [hpar, hpq]) b (by rw [hnext, hnb])]; exact r
    · intro x
      by_cases hx : x = p
      · rw [if_pos hx, hx, hpar, hpq]
      · rw [if_neg hx]

/-- `SetParent` in front of the node itself does nothing. -/
theorem setParent_self (h : Heap) (p q : Nat) (hp : h.live p) : setParent h p q p = some h := by
  obtain ⟨n, hn⟩ := (live_iff h p).1 hp
  rw [setParent, hn]
  simp only
  rw [if_neg (fun hh => hh.1 rfl)]

/-- `NodeTree_MoveBefore` for a node with a parent and another child of that parent. -/
theorem moveBefore_spec {h : Heap} {K : Nat → List Nat} (r : Rep h K) (p q b : Nat) (hp : h.par p = some q) (hq : q ≠ 0)
    (hb : b = 0 ∨ b ∈ K q) (hpb : p ≠ b) :
    ∃ h', moveBefore h p b = some h' ∧ Rep h' (place K p q b) ∧ h'.top = h.top ∧
      (∀ x, h'.par x = h.par x) ∧ (∀ x, h'.live x ↔ h.live x) ∧
      (∀ x, h'.refsOf x = h.refsOf x) ∧ (∀ x, h'.dirtyOf x = h.dirtyOf x) := by
  obtain ⟨hql, hm⟩ := r.down p q hp hq
  obtain ⟨h1, e1, r1, t1, p1, l1, x1⟩ := removeChildPlain_spec r q p hm
  have hb1 : b = 0 ∨ b ∈ upd K q ((K q).erase p) q := by
    rcases hb with hb | hb
    · exact .inl hb
    · right; unfold upd; rw [if_pos rfl]
      exact (List.mem_erase_of_ne (Ne.symm hpb)).2 hb
  obtain ⟨h2, e2, r2, t2, p2, l2, x2⟩ := addChildPlain_spec r1 q p b ((l1 q).2 hql) (by rw [p1, if_pos rfl]) hb1
  refine ⟨h2, ?_, ?_, by rw [t2, t1], ?_, fun x => (l2 x).trans (l1 x),
    fun x => by rw [(refs_of_pair x2 x).1, (refs_of_pair x1 x).1], fun x => by rw [(refs_of_pair x2 x).2, (refs_of_pair x1 x).2]⟩
  · rw [moveBefore, if_pos hpb, hp]
    simp only
    rw [e1]
    exact e2
  · have : place K p q b = upd (upd K q ((K q).erase p)) q (insertB p b (upd K q ((K q).erase p) q)) := by
      funext x
      unfold place upd
      by_cases hx : x = q
      · rw [if_pos ⟨hx, hq⟩, if_pos hx, if_pos rfl, hx]
      · rw [if_neg (fun hh => hx hh.1), if_neg hx, if_neg hx]
        refine List.erase_of_not_mem fun hm => hx ?_
        have := r.up x p hm
        rw [hp] at this
        exact (Option.some.inj this).symm
    rw [this]; exact r2
  · intro x
    rw [p2]
    by_cases hx : x = p
    · rw [if_pos hx, hx, hp]
    · rw [if_neg hx, p1, if_neg hx]

/-- Freeing a node without parent and children. -/
theorem free_spec {h : Heap} {K : Nat → List Nat} (r : Rep h K) (p : Nat) (hp : h.par p = some 0) (hk : K p = []) :
    Rep (h.free p) K ∧ (∀ x, (h.free p).live x ↔ h.live x ∧ x ≠ p) ∧
      (∀ x, x ≠ p → (h.free p).par x = h.par x ∧ (h.free p).refsOf x = h.refsOf x) := by
  have hlive : ∀ x, (h.free p).live x ↔ h.live x ∧ x ≠ p := by
    intro x
    by_cases hx : x = p
    · subst hx; simp [Heap.live, Heap.free]
    · simp [Heap.live, Heap.free, hx]
  have hat : ∀ x, x ≠ p → (h.free p).at_ x = h.at_ x := by
    intro x hx; simp [Heap.free, hx]
  have hpar : ∀ x, x ≠ p → (h.free p).par x = h.par x := fun x hx => by rw [Heap.par, hat x hx]; rfl
  have hparp : (h.free p).par p = none := by simp [Heap.par, Heap.free]
  have hkids : ∀ x, x ≠ p → (h.free p).get (.kids x) = h.get (.kids x) := fun x hx => by rw [Heap.get, hat x hx]; rfl
  have hnext : ∀ x, x ≠ p → (h.free p).get (.next x) = h.get (.next x) := fun x hx => by rw [Heap.get, hat x hx]; rfl
  refine ⟨⟨fun hl => r.null ((hlive 0).1 hl).1, fun x hx => r.top x ((hlive x).1 hx).1, ?_, ?_, ?_, r.nodup, ?_, ?_⟩, hlive,
    fun x hx => ⟨hpar x hx, by rw [Heap.refsOf, hat x hx]; rfl⟩⟩
  · intro x hx
    obtain ⟨h1, h2⟩ := (hlive x).1 hx
    refine (r.chain x h1).congr (hkids x h2) fun c hc => hnext c ?_
    rintro rfl
    exact r.loose_mem hp x hc
  · intro x c hc
    rw [hpar c]
    · exact r.up x c hc
    · rintro rfl
      exact r.loose_mem hp x hc
  · intro c q hc hq
    have hcp : c ≠ p := by
      rintro rfl
      rw [hparp] at hc; cases hc
    rw [hpar c hcp] at hc
    obtain ⟨h1, h2⟩ := r.down c q hc hq
    refine ⟨(hlive q).2 ⟨h1, ?_⟩, h2⟩
    rintro rfl
    rw [hk] at h2; cases h2
  · intro c hc
    have hcp : c ≠ p := by
      rintro rfl
      rw [hparp] at hc; cases hc
    rw [hpar c hcp] at hc
    rw [hnext c hcp]
    exact r.loose c hc
  · intro x hx
    by_cases hxp : x = p
    · rw [hxp]; exact hk
    · exact r.dead x fun hl => hx ((hlive x).2 ⟨hl, hxp⟩)

/-- A new node. -/
theorem create_spec {h : Heap} {K : Nat → List Nat} (r : Rep h K) :
    Rep (create h) K ∧ (∀ x, (create h).live x ↔ h.live x ∨ x = h.top + 1) ∧ ¬ h.live (h.top + 1) ∧
      (∀ x, (create h).par x = if x = h.top + 1 then some 0 else h.par x) ∧
      (∀ x, (create h).refsOf x = if x = h.top + 1 then some 1 else h.refsOf x) := by
  have hnew : ¬ h.live (h.top + 1) := fun hl => by have := r.top _ hl; omega
  have hlive : ∀ x, (create h).live x ↔ h.live x ∨ x = h.top + 1 := by
    intro x
    by_cases hx : x = h.top + 1
    · subst hx; simp [Heap.live, create, Heap.set]
    · simp [Heap.live, create, Heap.set, hx]
  have hpar : ∀ x, (create h).par x = if x = h.top + 1 then some 0 else h.par x := by
    intro x
    by_cases hx : x = h.top + 1
    · subst hx; simp [Heap.par, create, Heap.set]
    · simp [Heap.par, create, Heap.set, hx]
  have hkids : ∀ x, x ≠ h.top + 1 → (create h).get (.kids x) = h.get (.kids x) := fun x hx => by
    simp [Heap.get, create, Heap.set, hx]
  have hnext : ∀ x, x ≠ h.top + 1 → (create h).get (.next x) = h.get (.next x) := fun x hx => by
    simp [Heap.get, create, Heap.set, hx]
  have hne : ∀ x, h.live x → x ≠ h.top + 1 := fun x hx => by rintro rfl; exact hnew hx
  refine ⟨⟨?_, ?_, ?_, ?_, ?_, r.nodup, ?_, ?_⟩, hlive, hnew, hpar, ?_⟩
  · intro hl
    rcases (hlive 0).1 hl with h1 | h1
    · exact r.null h1
    · omega
  · intro x hx
    show x ≤ h.top + 1
    rcases (hlive x).1 hx with h1 | h1
    · have := r.top x h1; omega
    · omega
  · intro x hx
    rcases (hlive x).1 hx with h1 | h1
    · refine (r.chain x h1).congr (hkids x (hne x h1)) fun c hc => hnext c (hne c (par_live h c x (r.up x c hc)))
    · rw [h1, r.dead _ hnew, ChainAt]
      simp [Heap.get, create, Heap.set]
  · intro x c hc
    rw [hpar, if_neg (hne c (par_live h c x (r.up x c hc)))]
    exact r.up x c hc
  · intro c q hc hq
    rw [hpar] at hc
    by_cases hcn : c = h.top + 1
    · rw [if_pos hcn] at hc; cases hc; exact absurd rfl hq
    · rw [if_neg hcn] at hc
      obtain ⟨h1, h2⟩ := r.down c q hc hq
      exact ⟨(hlive q).2 (.inl h1), h2⟩
  · intro c hc
    rw [hpar] at hc
    by_cases hcn : c = h.top + 1
    · subst hcn; simp [Heap.get, create, Heap.set]
    · rw [if_neg hcn] at hc
      rw [hnext c hcn]
      exact r.loose c hc
  · intro x hx
    exact r.dead x fun hl => hx ((hlive x).2 (.inl hl))
  · intro x
    by_cases hx : x = h.top + 1
    · subst hx; simp [Heap.refsOf, create, Heap.set]
    · simp [Heap.refsOf, create, Heap.set, hx]

end Verif.NodeTree
