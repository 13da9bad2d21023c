import Verif.Core.NodeClear
/-!
Properties C56, C57 and C84-C87: the node tree.
-/
namespace Verif.NodeTree
open Verif

/-- Calls on a tree of nodes. -/
inductive TOp where
  | create
  | setParent (p q b : Nat)
  | moveBefore (p b : Nat)
  | addRef (p : Nat)
  | release (p : Nat)
  | clear (p : Nat)
deriving DecidableEq, Repr

/-- One call. The loops of clearing get as many rounds as there are nodes. -/
def treeStep (h : Heap) : TOp → Option Heap
  | .create => some (create h)
  | .setParent p q b => setParent h p q b
  | .moveBefore p b => moveBefore h p b
  | .addRef p => addRef h p
  | .release p => release (h.top + 2) h p
  | .clear p => clear (h.top + 2) h p

def treeRun : List TOp → Heap → Option Heap
  | [], h => some h
  | op :: r, h =>
    match treeStep h op with
    | none => none
    | some h' => treeRun r h'

/-- `a` is an ancestor of `x`. -/
inductive Below (h : Heap) : Nat → Nat → Prop where
  | child {x a : Nat} : h.par x = some a → a ≠ 0 → Below h x a
  | step {x q a : Nat} : h.par x = some q → q ≠ 0 → Below h q a → Below h x a

/-- What callers have to respect: nodes that exist, `Before` another child of the parent (as
asserted at nodetree.c:15), a parent for `NodeTree_MoveBefore`, and a new parent that is not the
node itself or one of its descendants. -/
def TreeOk (h : Heap) : TOp → Prop
  | .create => True
  | .setParent p q b => h.live p ∧ (q = 0 ∨ h.live q) ∧ (b = 0 ∨ (q ≠ 0 ∧ h.par b = some q)) ∧ q ≠ p ∧ ¬ Below h q p
  | .moveBefore p b => ∃ q, q ≠ 0 ∧ h.par p = some q ∧ (b = 0 ∨ h.par b = some q)
  | .addRef p => h.live p
  | .release p => h.live p
  | .clear p => h.live p

/-- A history of calls that respect `TreeOk`. -/
def TreeHist : List TOp → Heap → Prop
  | [], _ => True
  | op :: r, h => TreeOk h op ∧ ∀ h', treeStep h op = some h' → TreeHist r h'

/-- The invariant. -/
def Good (h : Heap) : Prop := ∃ K rank, Rep h K ∧ Ranked h rank

/-! ### Helpers -/

theorem walk_spec (h : Heap) : ∀ (fuel : Nat) (i : Cell) (l : List Nat), ChainAt h i l → l.length < fuel → walk fuel h i = some l
  | 0, _, _, _, hf => absurd hf (Nat.not_lt_zero _)
  | fuel + 1, i, [], hc, _ => by
    rw [ChainAt] at hc
    rw [walk, hc]; rfl
  | fuel + 1, i, c :: r, hc, hf => by
    rw [ChainAt] at hc
    rw [walk, hc.2.1]
    simp only
    rw [if_neg hc.1, walk_spec h fuel (.next c) r hc.2.2 (by rw [List.length_cons] at hf; omega)]
    rfl

theorem childrenOf_spec {h : Heap} {K : Nat → List Nat} (r : Rep h K) (p : Nat) (hp : h.live p) :
    childrenOf h p = some (K p) :=
  walk_spec h _ _ _ (r.chain p hp) (by have := r.length p; omega)

theorem mem_kids {h : Heap} {K : Nat → List Nat} (r : Rep h K) (p c : Nat) (hp0 : p ≠ 0) : c ∈ K p ↔ h.par c = some p :=
  ⟨r.up p c, fun hc => (r.down c p hc hp0).2⟩

theorem attached_top (h : Heap) : attached h < h.top + 2 := by
  unfold attached
  have := List.countP_le_length (p := h.hasPar) (l := List.range (h.top + 1))
  rw [List.length_range] at this
  omega

theorem Below.rank {h : Heap} {rank : Nat → Nat} (hr : Ranked h rank) {x a : Nat} (hb : Below h x a) : rank x < rank a := by
  induction hb with
  | child h1 h2 => exact hr _ _ h1 h2
  | step h1 h2 _ ih => exact Nat.lt_trans (hr _ _ h1 h2) ih

theorem ranked_move {h h' : Heap} {rank : Nat → Nat} (hr : Ranked h rank) (p q : Nat) (hqp : q ≠ p) (hb : ¬ Below h q p)
    (hpar : ∀ x, h'.par x = if x = p then some q else h.par x) : ∃ rank', Ranked h' rank' := by
  classical
  refine ⟨fun x => if x = p ∨ Below h x p then rank x else rank x + rank p + 1, ?_⟩
  intro x z hx hz
  show (if x = p ∨ Below h x p then rank x else rank x + rank p + 1) <
    (if z = p ∨ Below h z p then rank z else rank z + rank p + 1)
  rw [hpar] at hx
  by_cases hxp : x = p
  · rw [if_pos hxp] at hx
    have hzq := Option.some.inj hx
    subst hzq
    rw [if_pos (.inl hxp), if_neg (by rintro (h1 | h1); exact hqp h1; exact hb h1), hxp]
    omega
  · rw [if_neg hxp] at hx
    have h1 := hr x z hx hz
    by_cases hxb : Below h x p
    · rw [if_pos (.inr hxb), if_pos ?_]
      · exact h1
      · cases hxb with
        | child h2 h3 => rw [hx] at h2; exact .inl (Option.some.inj h2)
        | step h2 h3 h4 => rw [hx] at h2; cases h2; exact .inr h4
    · rw [if_neg (by rintro (h2 | h2); exact hxp h2; exact hxb h2), if_neg ?_]
      · omega
      · rintro (h2 | h2)
        · exact hxb (.child (by rw [hx, h2]) (by rw [← h2]; exact hz))
        · exact hxb (.step hx hz h2)

theorem release_last {h : Heap} {K : Nat → List Nat} {rank : Nat → Nat} (r : Rep h K) (hr : Ranked h rank) (p : Nat)
    (h1 : h.refsOf p = some 1) :
    ∃ h0 h2 K', release (h.top + 2) h p = some (h2.free p) ∧ Cleared h0 h2 K K' rank p ∧ (∀ x, h0.live x ↔ h.live x) ∧
      (∀ x, h0.par x = h.par x) ∧ (∀ x, x ≠ p → h0.refsOf x = h.refsOf x) := by
  unfold Heap.refsOf at h1
  cases hn : h.at_ p with
  | none => rw [hn] at h1; cases h1
  | some n =>
    rw [hn] at h1
    have hn1 : n.refs = 1 := Option.some.inj h1
    obtain ⟨a1, a2, a3, a4, a5⟩ := setRefs_spec h p n hn 0
    have hp : h.live p := (live_iff h p).2 ⟨n, hn⟩
    have hr0 : Ranked (h.set p { n with refs := 0 }) rank := fun x q hx hq => hr x q (by rw [← a3]; exact hx) hq
    obtain ⟨h2, K', e2, c2⟩ := clear_spec rank (h.top + 2) _ K p (r.congr a1 a2 a3 a4) hr0 ((a4 p).2 hp)
      (by have := attached_top (h.set p { n with refs := 0 }); rw [a1] at this; exact this)
    refine ⟨_, h2, K', ?_, c2, a4, a3, fun x hx => by rw [a5, if_neg hx]⟩
    rw [release, hn]
    simp only
    rw [if_pos hn1, e2]

theorem step_good (h : Heap) (op : TOp) (hg : Good h) (ho : TreeOk h op) : ∃ h', treeStep h op = some h' ∧ Good h' := by
  obtain ⟨K, rank, r, hr⟩ := hg
  cases op with
  | create =>
    obtain ⟨r', _, _, hpar, _⟩ := create_spec r
    refine ⟨_, rfl, K, rank, r', ?_⟩
    intro x q hx hq
    rw [hpar] at hx
    by_cases hxn : x = h.top + 1
    · rw [if_pos hxn] at hx; exact absurd (Option.some.inj hx).symm hq
    · rw [if_neg hxn] at hx; exact hr x q hx hq
  | setParent p q b =>
    obtain ⟨hp, hq, hb, hqp, hnb⟩ := ho
    by_cases hpb : p = b
    · refine ⟨h, ?_, K, rank, r, hr⟩
      rw [treeStep, ← hpb, setParent_self h p q hp]
    · have hb' : b = 0 ∨ b ∈ K q := by
        rcases hb with hb | ⟨h1, h2⟩
        · exact .inl hb
        · exact .inr (r.down b q h2 h1).2
      obtain ⟨h', e, r', _, hpar, _⟩ := setParent_spec r p q b hp hq hb' hpb
      obtain ⟨rank', hr'⟩ := ranked_move hr p q hqp hnb hpar
      exact ⟨h', e, _, rank', r', hr'⟩
  | moveBefore p b =>
    obtain ⟨q, hq0, hq, hb⟩ := ho
    by_cases hpb : p = b
    · refine ⟨h, ?_, K, rank, r, hr⟩
      rw [treeStep, moveBefore, if_neg (fun hh => hh hpb)]
    · have hb' : b = 0 ∨ b ∈ K q := by
        rcases hb with hb | h2
        · exact .inl hb
        · exact .inr (r.down b q h2 hq0).2
      obtain ⟨h', e, r', _, hpar, _⟩ := moveBefore_spec r p q b hq hq0 hb' hpb
      exact ⟨h', e, _, rank, r', fun x z hx hz => hr x z (by rw [← hpar]; exact hx) hz⟩
  | addRef p =>
    obtain ⟨n, hn⟩ := (live_iff h p).1 ho
    obtain ⟨a1, a2, a3, a4, _⟩ := setRefs_spec h p n hn ((n.refs + 1) % 2 ^ 64)
    refine ⟨h.set p { n with refs := (n.refs + 1) % 2 ^ 64 }, by rw [treeStep, addRef, hn]; rfl, K, rank, r.congr a1 a2 a3 a4, ?_⟩
    exact fun x z hx hz => hr x z (by rw [← a3]; exact hx) hz
  | release p =>
    obtain ⟨n, hn⟩ := (live_iff h p).1 ho
    by_cases h1 : n.refs = 1
    · obtain ⟨h0, h2, K', e, c, l0, p0, _⟩ := release_last r hr p (by rw [Heap.refsOf, hn, ← h1]; rfl)
      obtain ⟨r3, l3, q3⟩ := free_spec c.rep p c.loose c.kids
      refine ⟨_, e, K', rank, r3, ?_⟩
      intro x z hx hz
      have hxp := ((l3 x).1 (par_live _ x z hx)).2
      rw [(q3 x hxp).1] at hx
      have := c.mono x z hx hz
      rw [p0] at this
      exact hr x z this hz
    · obtain ⟨a1, a2, a3, a4, _⟩ := setRefs_spec h p n hn ((n.refs + (2 ^ 64 - 1)) % 2 ^ 64)
      refine ⟨h.set p { n with refs := (n.refs + (2 ^ 64 - 1)) % 2 ^ 64 }, ?_, K, rank, r.congr a1 a2 a3 a4, ?_⟩
      · rw [treeStep, release, hn]
        simp only
        rw [if_neg h1]
      · exact fun x z hx hz => hr x z (by rw [← a3]; exact hx) hz
  | clear p =>
    obtain ⟨h', K', e, c⟩ := clear_spec rank (h.top + 2) h K p r hr ho (attached_top h)
    exact ⟨h', e, K', rank, c.rep, fun x z hx hz => hr x z (c.mono x z hx hz) hz⟩

theorem run_good : ∀ (ops : List TOp) (h : Heap), Good h → TreeHist ops h → ∃ h', treeRun ops h = some h' ∧ Good h'
  | [], h, hg, _ => ⟨h, rfl, hg⟩
  | op :: r, h, hg, ho => by
    obtain ⟨h1, e1, g1⟩ := step_good h op hg ho.1
    obtain ⟨h2, e2, g2⟩ := run_good r h1 g1 (ho.2 h1 e1)
    exact ⟨h2, by rw [treeRun, e1]; exact e2, g2⟩

theorem empty_good : Good Heap.empty := by
  refine ⟨fun _ => [], fun _ => 0, ⟨?_, ?_, ?_, ?_, ?_, ?_, ?_, ?_⟩, ?_⟩
  · intro h; cases h
  · intro p h; cases h
  · intro p h; cases h
  · intro p c h; cases h
  · intro c q h; cases h
  · intro p; exact List.nodup_nil
  · intro c h; cases h
  · intro p _; rfl
  · intro c q h; cases h

/-! ### C56: the tree stays well formed -/

/-- C56 for callers that respect `TreeOk`: after every history of creating, attaching, detaching,
moving, referencing, releasing (with everything below) and clearing nodes, no call has touched a freed
node, and going through the children of a node ends, visits each child once and visits exactly the
nodes whose parent it is; parents have not been freed. -/
theorem C56_tree_well_formed_partial (ops : List TOp) (hok : TreeHist ops Heap.empty) :
    ∃ h, treeRun ops Heap.empty = some h ∧
      (∀ p, h.live p → ∃ l, childrenOf h p = some l ∧ l.Nodup ∧ ∀ c, c ∈ l ↔ h.par c = some p) ∧
      (∀ c q, h.par c = some q → q = 0 ∨ h.live q) := by
  obtain ⟨h, e, K, rank, r, hr⟩ := run_good ops _ empty_good hok
  refine ⟨h, e, fun p hp => ⟨K p, childrenOf_spec r p hp, r.nodup p, fun c => mem_kids r p c ?_⟩, fun c q hc => ?_⟩
  · rintro rfl; exact r.null hp
  · by_cases hq : q = 0
    · exact .inl hq
    · exact .inr (r.down c q hc hq).1

/-- A history that meets the conditions: two nodes, the second attached to the first, a third one
attached before it, and the first deleted. -/
example : TreeHist [.create, .create, .create, .setParent 2 1 0, .setParent 3 1 2, .release 1] Heap.empty := by
  refine ⟨trivial, fun h1 e1 => ?_⟩; cases e1
  refine ⟨trivial, fun h2 e2 => ?_⟩; cases e2
  refine ⟨trivial, fun h3 e3 => ?_⟩; cases e3
  have root : ∀ (h : Heap) x a, h.par x = some 0 → ¬ Below h x a := by
    intro h x a hx hb
    cases hb with
    | child h1 h2 => rw [hx] at h1; cases h1; exact h2 rfl
    | step h1 h2 _ => rw [hx] at h1; cases h1; exact h2 rfl
  refine ⟨⟨by decide, by decide, by decide, by decide, root _ _ _ (by decide)⟩, fun h4 e4 => ?_⟩; cases e4
  refine ⟨⟨by decide, by decide, by decide, by decide, root _ _ _ (by decide)⟩, fun h5 e5 => ?_⟩; cases e5
  exact ⟨by show Heap.live _ 1; decide, fun _ _ => trivial⟩

/-- Moving a node without parent crashes. -/
theorem C56_counterexample_detached : (treeRun [.create, .create, .moveBefore 1 2] Heap.empty).isNone = true := by decide +kernel

/-- Moving a node in front of a child of another node is accepted: afterwards the children of node
1 include node 5, whose parent is node 2. -/
theorem C56_counterexample_foreign :
    (treeRun [.create, .create, .create, .create, .create, .setParent 3 1 0, .setParent 4 1 0, .setParent 5 2 0,
      .moveBefore 3 5] Heap.empty).map (fun h => (childrenOf h 1, childrenOf h 2, h.par 5)) =
    some (some [4, 3, 5], some [5], some 2) := by decide +kernel

example : (treeRun [.create, .create, .create, .create, .setParent 2 1 0, .setParent 3 1 2, .setParent 4 3 0, .moveBefore 2 3,
    .release 3] Heap.empty).map (fun h => (childrenOf h 1, h.par 2, h.at_ 3, h.at_ 4)) =
    some (some [2], some 1, none, none) := by decide +kernel

/-! ### C57: the order of the children -/

theorem insertB_split (c b : Nat) (l : List Nat) (hb : b = 0 ∨ b ∈ l) (h0 : 0 ∉ l) :
    ∃ pre post, l = pre ++ post ∧ insertB c b l = pre ++ c :: post ∧ post.head? = if b = 0 then none else some b := by
  refine ⟨l.takeWhile (· ≠ b), l.dropWhile (· ≠ b), (split_at b l).symm, rfl, ?_⟩
  by_cases hb0 : b = 0
  · subst hb0
    rw [if_pos rfl, dropWhile_none h0]; rfl
  · rw [if_neg hb0]
    obtain ⟨post, hp⟩ := dropWhile_mem (hb.resolve_left hb0)
    rw [hp]; rfl

theorem place_lists {h h' : Heap} {K : Nat → List Nat} (r : Rep h K) (p q b : Nat) (hpb : p ≠ b) (hq : q ≠ 0)
    (hb : b = 0 ∨ h.par b = some q) (r' : Rep h' (place K p q b)) (hl : ∀ x, h'.live x ↔ h.live x) (x : Nat) (hx : h.live x) :
    ∃ l l', childrenOf h x = some l ∧ childrenOf h' x = some l' ∧ (x ≠ q → l' = l.erase p) ∧
      (x = q → ∃ pre post, l.erase p = pre ++ post ∧ l' = pre ++ p :: post ∧ post.head? = if b = 0 then none else some b) := by
  refine ⟨K x, _, childrenOf_spec r x hx, childrenOf_spec r' x ((hl x).2 hx), ?_, ?_⟩
  · intro hxq
    unfold place
    rw [if_neg (fun hh => hxq hh.1)]
  · intro hxq
    unfold place
    rw [if_pos ⟨hxq, hq⟩]
    refine insertB_split p b _ ?_ fun hm => r.ne_zero (List.mem_of_mem_erase hm) rfl
    rcases hb with hb | hb
    · exact .inl hb
    · right
      rw [hxq]
      exact (List.mem_erase_of_ne (Ne.symm hpb)).2 ((mem_kids r q b hq).2 hb)

/-- C57. After every history as in C56, attaching a node before a given child of a node (or at the
end, `b = 0`) gives that node its old children, without the attached node if it was one of them, with
it put directly in front of the given child; all other nodes keep their children, except that the old
parent loses it. -/
theorem C57_child_order (ops : List TOp) (hok : TreeHist ops Heap.empty) :
    ∃ h, treeRun ops Heap.empty = some h ∧
      ∀ p q b, q ≠ 0 → p ≠ b → TreeOk h (.setParent p q b) → ∃ h', setParent h p q b = some h' ∧ h'.par p = some q ∧
        ∀ x, h.live x → ∃ l l', childrenOf h x = some l ∧ childrenOf h' x = some l' ∧ (x ≠ q → l' = l.erase p) ∧
          (x = q → ∃ pre post, l.erase p = pre ++ post ∧ l' = pre ++ p :: post ∧
            post.head? = if b = 0 then none else some b) := by
  obtain ⟨h, e, K, rank, r, hr⟩ := run_good ops _ empty_good hok
  refine ⟨h, e, fun p q b hq0 hpb ⟨hp, hq, hb, _, _⟩ => ?_⟩
  have hb1 : b = 0 ∨ h.par b = some q := hb.imp_right (·.2)
  have hb2 : b = 0 ∨ b ∈ K q := hb1.imp_right (mem_kids r q b hq0).2
  obtain ⟨h', e', r', _, hpar, hl, _⟩ := setParent_spec r p q b hp hq hb2 hpb
  exact ⟨h', e', by rw [hpar, if_pos rfl], place_lists r p q b hpb hq0 hb1 r' hl⟩

/-- The same for moving a node among the children of its parent. -/
theorem C57_move_order (ops : List TOp) (hok : TreeHist ops Heap.empty) :
    ∃ h, treeRun ops Heap.empty = some h ∧
      ∀ p q b, q ≠ 0 → p ≠ b → h.par p = some q → (b = 0 ∨ h.par b = some q) → ∃ h', moveBefore h p b = some h' ∧
        h'.par p = some q ∧
        ∀ x, h.live x → ∃ l l', childrenOf h x = some l ∧ childrenOf h' x = some l' ∧ (x ≠ q → l' = l.erase p) ∧
          (x = q → ∃ pre post, l.erase p = pre ++ post ∧ l' = pre ++ p :: post ∧
            post.head? = if b = 0 then none else some b) := by
  obtain ⟨h, e, K, rank, r, hr⟩ := run_good ops _ empty_good hok
  refine ⟨h, e, fun p q b hq0 hpb hp hb1 => ?_⟩
  have hb2 : b = 0 ∨ b ∈ K q := hb1.imp_right (mem_kids r q b hq0).2
  obtain ⟨h', e', r', _, hpar, hl, _⟩ := moveBefore_spec r p q b hp hq0 hb2 hpb
  exact ⟨h', e', by rw [hpar, hp], place_lists r p q b hpb hq0 hb1 r' hl⟩

/-- Detaching: the old parent loses the node, nothing else changes. -/
theorem C57_detach (ops : List TOp) (hok : TreeHist ops Heap.empty) :
    ∃ h, treeRun ops Heap.empty = some h ∧
      ∀ p, h.live p → ∃ h', setParent h p 0 0 = some h' ∧ h'.par p = some 0 ∧
        ∀ x, h.live x → ∃ l, childrenOf h x = some l ∧ childrenOf h' x = some (l.erase p) := by
  obtain ⟨h, e, K, rank, r, hr⟩ := run_good ops _ empty_good hok
  refine ⟨h, e, fun p hp => ?_⟩
  obtain ⟨h', e', r', _, hpar, hl, _⟩ := setParent_spec r p 0 0 hp (.inl rfl) (.inl rfl) (by rintro rfl; exact r.null hp)
  refine ⟨h', e', by rw [hpar, if_pos rfl], fun x hx => ⟨K x, childrenOf_spec r x hx, ?_⟩⟩
  rw [childrenOf_spec r' x ((hl x).2 hx)]
  unfold place
  rw [if_neg (fun hh => hh.2 rfl)]

example : (treeRun [.create, .create, .create, .create, .setParent 2 1 0, .setParent 3 1 0, .setParent 4 1 3, .setParent 3 1 2]
    Heap.empty).map (fun h => childrenOf h 1) = some (some [3, 2, 4]) := by decide +kernel

/-! ### C84: no cycles -/

/-- C84 for callers that do not attach a node to itself or to a node below it: no node ever becomes
its own ancestor. -/
theorem C84_no_cycles_partial (ops : List TOp) (hok : TreeHist ops Heap.empty) :
    ∃ h, treeRun ops Heap.empty = some h ∧ ∀ x, ¬ Below h x x := by
  obtain ⟨h, e, K, rank, r, hr⟩ := run_good ops _ empty_good hok
  exact ⟨h, e, fun x hb => Nat.lt_irrefl _ (hb.rank hr)⟩

/-- C84 is false in general: attaching a node to its own child is accepted, and clearing the node
afterwards uses it after it has been freed. -/
theorem C84_counterexample :
    (treeRun [.create, .create, .setParent 2 1 0, .setParent 1 2 0] Heap.empty).map (fun h => (h.par 1, h.par 2)) =
      some (some 2, some 1) ∧
    (treeRun [.create, .create, .setParent 2 1 0, .setParent 1 2 0, .clear 1] Heap.empty).isNone = true := by decide +kernel

/-! ### C85: deleting -/

/-- Deleting a node, in terms of the lists of children. -/
theorem release_good {h : Heap} {K : Nat → List Nat} {rank : Nat → Nat} (r : Rep h K) (hr : Ranked h rank) (p : Nat)
    (hp : h.refsOf p = some 1) (hrefs : ∀ x, Below h x p → h.refsOf x = some 1) :
    ∃ h' K', release (h.top + 2) h p = some h' ∧ Rep h' K' ∧
      (∀ x, h'.live x ↔ h.live x ∧ x ≠ p ∧ ¬ Below h x p) ∧
      (∀ x, h'.live x → h'.par x = h.par x ∧ K' x = (K x).erase p ∧ h'.refsOf x = h.refsOf x) := by
  obtain ⟨h0, h2, K', e2, c, l0, p0, f0⟩ := release_last r hr p hp
  obtain ⟨r3, l3, q3⟩ := free_spec c.rep p c.loose c.kids
  have hne : ∀ x, Below h x p → x ≠ p := fun x hx => by
    rintro rfl; exact Nat.lt_irrefl _ (hx.rank hr)
  have hdead : ∀ x, Below h x p → ¬ h2.live x := by
    intro x hx
    have hall : ∀ {x a}, Below h x a → a = p → ¬ h2.live x := by
      intro x a hx
      induction hx with
      | @child x a h1 h2' =>
        intro ha
        subst ha
        exact c.exact a x (.inl rfl) (by rw [p0]; exact h1)
          (by rw [f0 x (hne x (.child h1 h2'))]; exact hrefs x (.child h1 h2'))
      | @step x q a h1 h2' h3 ih =>
        intro ha
        have hq := ih ha
        subst ha
        have hxb : Below h x a := .step h1 h2' h3
        exact c.exact q x (.inr ⟨(l0 q).2 (r.down x q h1 h2').1, hq⟩) (by rw [p0]; exact h1)
          (by rw [f0 x (hne x hxb)]; exact hrefs x hxb)
    exact hall hx rfl
  have honly : ∀ n x, rank p - rank x ≤ n → h.live x → ¬ h2.live x → Below h x p := by
    intro n
    induction n with
    | zero =>
      intro x hn hx hd
      exact absurd (c.high x (by omega) ((l0 x).2 hx)) hd
    | succ n ih =>
      intro x hn hx hd
      obtain ⟨z, h1, h2', h3⟩ := c.dead x ((l0 x).2 hx) hd
      rw [p0] at h1
      rcases h3 with h3 | h3
      · rw [h3] at h1; exact .child h1 (by rw [← h3]; exact h2')
      · have hz := (r.down x z h1 h2').1
        have hrk := hr x z h1 h2'
        have hzp : rank z < rank p := by
          by_cases hh : rank p ≤ rank z
          · exact absurd (c.high z hh ((l0 z).2 hz)) h3
          · omega
        exact .step h1 h2' (ih z (by omega) hz h3)
  have hlive : ∀ x, (h2.free p).live x ↔ h.live x ∧ x ≠ p ∧ ¬ Below h x p := by
    intro x
    rw [l3]
    constructor
    · rintro ⟨h1, h2'⟩
      exact ⟨(l0 x).1 (c.sub x h1), h2', fun hb => hdead x hb h1⟩
    · rintro ⟨h1, h2', h3⟩
      refine ⟨?_, h2'⟩
      by_cases hl : h2.live x
      · exact hl
      · exact absurd (honly _ x (Nat.le_refl _) h1 hl) h3
  refine ⟨_, K', e2, r3, hlive, fun x hx => ?_⟩
  obtain ⟨hx1, hx2, hx3⟩ := (hlive x).1 hx
  have hxl := ((l3 x).1 hx).1
  have hno : ¬ ∃ y, h.par x = some y ∧ y ≠ 0 ∧ (y = p ∨ ¬ h2.live y) := by
    rintro ⟨y, g2, g3, g4⟩
    rcases g4 with g4 | g4
    · rw [g4] at g2; exact hx3 (.child g2 (by rw [← g4]; exact g3))
    · exact hx3 (.step g2 g3 (honly _ y (Nat.le_refl _) (r.down x y g2 g3).1 g4))
  refine ⟨?_, c.lists x hxl hx2, ?_⟩
  · rw [(q3 x hx2).1]
    rcases c.par x hxl hx2 with g1 | ⟨_, g1⟩
    · rw [g1, p0]
    · rw [p0] at g1; exact absurd g1 hno
  · rw [(q3 x hx2).2]
    rcases c.refs x hxl with g1 | g1
    · rw [g1, f0 x hx2]
    · rw [p0] at g1; exact absurd g1 hno

/-- C85. After every history as in C56, deleting a node to which there is one reference frees it and
everything below it, provided there are no further references to those; nothing else is freed, and
the other nodes keep their parents and children, except that the parent loses the node. -/
theorem C85_delete (ops : List TOp) (hok : TreeHist ops Heap.empty) :
    ∃ h, treeRun ops Heap.empty = some h ∧
      ∀ p, h.refsOf p = some 1 → (∀ x, Below h x p → h.refsOf x = some 1) →
        ∃ h', release (h.top + 2) h p = some h' ∧
          (∀ x, h'.live x ↔ h.live x ∧ x ≠ p ∧ ¬ Below h x p) ∧
          (∀ x, h'.live x → h'.par x = h.par x ∧ ∃ l, childrenOf h x = some l ∧ childrenOf h' x = some (l.erase p)) := by
  obtain ⟨h, e, K, rank, r, hr⟩ := run_good ops _ empty_good hok
  refine ⟨h, e, fun p hp hrefs => ?_⟩
  obtain ⟨h', K', e2, r3, hlive, hrest⟩ := release_good r hr p hp hrefs
  refine ⟨h', e2, hlive, fun x hx => ⟨(hrest x hx).1, K x, childrenOf_spec r x ((hlive x).1 hx).1, ?_⟩⟩
  rw [childrenOf_spec r3 x hx, (hrest x hx).2.1]

example : (treeRun [.create, .create, .create, .create, .create, .setParent 2 1 0, .setParent 3 1 0, .setParent 4 2 0,
    .setParent 5 4 0, .release 2] Heap.empty).map (fun h => ([1, 2, 3, 4, 5].map fun x => (h.at_ x).isSome, childrenOf h 1)) =
    some ([true, false, true, false, false], some [3]) := by decide +kernel

/-! ### C86: parents notice -/

/-- C86. After every history as in C56, attaching or detaching a node either changes nothing at all or
marks the old and the new parent for a new computation of their sizes; no mark is ever taken off. -/
theorem C86_parents_marked (ops : List TOp) (hok : TreeHist ops Heap.empty) :
    ∃ h, treeRun ops Heap.empty = some h ∧
      ∀ p q b, TreeOk h (.setParent p q b) → ∃ h', setParent h p q b = some h' ∧
        (h' = h ∨ ∀ x ≠ 0, x = q ∨ h.par p = some x → h'.dirtyOf x = some true) ∧
        ∀ x, h.dirtyOf x = some true → h'.dirtyOf x = some true := by
  obtain ⟨h, e, K, rank, r, hr⟩ := run_good ops _ empty_good hok
  refine ⟨h, e, fun p q b ⟨hp, hq, hb, _, _⟩ => ?_⟩
  by_cases hpb : p = b
  · exact ⟨h, by rw [← hpb, setParent_self h p q hp], .inl rfl, fun _ hx => hx⟩
  · have hb2 : b = 0 ∨ b ∈ K q := by
      rcases hb with hb | ⟨h1, h2⟩
      · exact .inl hb
      · exact .inr (r.down b q h2 h1).2
    obtain ⟨h', e', _, _, _, _, _, hd, hm⟩ := setParent_spec r p q b hp hq hb2 hpb
    exact ⟨h', e', hm, hd⟩

example : (treeRun [.create, .create, .create, .setParent 2 1 0, .setParent 2 3 0] Heap.empty).map
    (fun h => ([1, 2, 3].map h.dirtyOf)) = some [some true, some false, some true] := by decide +kernel

/-! ### C87: clearing -/

/-- C87 is false: clearing a node, as reading the contents of a master does first (ebmlmaster.c:283),
takes it out of its parent. -/
theorem C87_counterexample :
    (treeRun [.create, .create, .setParent 2 1 0, .clear 2] Heap.empty).map (fun h => (h.par 2, childrenOf h 1)) =
      some (some 0, some []) := by decide +kernel

end Verif.NodeTree
