import Verif.Core.Node
/-!
Lemmas on the node tree: the pointers represent lists of children.
-/
set_option linter.unusedSimpArgs false
namespace Verif.NodeTree
open Verif

/-! ### Single stores -/

theorem get_none (h : Heap) (p : Nat) (hn : h.at_ p = none) : h.get (.kids p) = none ∧ h.get (.next p) = none ∧ h.par p = none := by
  simp only [Heap.get, Heap.par, hn, Option.map_none, and_self]

theorem live_iff (h : Heap) (p : Nat) : h.live p ↔ ∃ n, h.at_ p = some n := by
  unfold Heap.live; rw [Option.isSome_iff_exists]

/-- `*i = v` changes that place only. -/
theorem put_spec (h : Heap) (v : Nat) (i : Cell) (w : Nat) (hi : h.get i = some w) :
    ∃ h', h.put v i = some h' ∧ h'.top = h.top ∧ (∀ x, h'.get x = if x = i then some v else h.get x) ∧
      (∀ x, h'.par x = h.par x) ∧ (∀ x, h'.live x ↔ h.live x) ∧
      (∀ x, (h'.at_ x).map (fun n => (n.refs, n.dirty)) = (h.at_ x).map (fun n => (n.refs, n.dirty))) := by
  cases i with
  | kids p =>
    cases hp : h.at_ p with
    | none => simp only [Heap.get, hp, Option.map_none] at hi; cases hi
    | some n =>
      refine ⟨h.set p { n with kids := v }, by rw [Heap.put, hp]; rfl, rfl, ?_, ?_, ?_, ?_⟩
      · intro x
        cases x with
        | kids q =>
          by_cases hq : q = p
          · subst hq; simp [Heap.get, Heap.set]
          · simp [Heap.get, Heap.set, hq]
        | next c =>
          by_cases hq : c = p
          · subst hq; simp [Heap.get, Heap.set, hp]
          · simp [Heap.get, Heap.set, hq]
      · intro x
        by_cases hq : x = p
        · subst hq; simp [Heap.par, Heap.set, hp]
        · simp [Heap.par, Heap.set, hq]
      · intro x
        by_cases hq : x = p
        · subst hq; simp [Heap.live, Heap.set, hp]
        · simp [Heap.live, Heap.set, hq]
      · intro x
        by_cases hq : x = p
        · subst hq; simp [Heap.set, hp]
        · simp [Heap.set, hq]
  | next p =>
    cases hp : h.at_ p with
    | none => simp only [Heap.get, hp, Option.map_none] at hi; cases hi
    | some n =>
      refine ⟨h.set p { n with next := v }, by rw [Heap.put, hp]; rfl, rfl, ?_, ?_, ?_, ?_⟩
      · intro x
        cases x with
        | next q =>
          by_cases hq : q = p
          · subst hq; simp [Heap.get, Heap.set]
          · simp [Heap.get, Heap.set, hq]
        | kids c =>
          by_cases hq : c = p
          · subst hq; simp [Heap.get, Heap.set, hp]
          · simp [Heap.get, Heap.set, hq]
      · intro x
        by_cases hq : x = p
        · subst hq; simp [Heap.par, Heap.set, hp]
        · simp [Heap.par, Heap.set, hq]
      · intro x
        by_cases hq : x = p
        · subst hq; simp [Heap.live, Heap.set, hp]
        · simp [Heap.live, Heap.set, hq]
      · intro x
        by_cases hq : x = p
        · subst hq; simp [Heap.set, hp]
        · simp [Heap.set, hq]

theorem link_spec (h : Heap) (c p b : Nat) (hc : h.live c) :
    ∃ h', link h c p b = some h' ∧ h'.top = h.top ∧ (∀ x, h'.get x = if x = .next c then some b else h.get x) ∧
      (∀ x, h'.par x = if x = c then some p else h.par x) ∧ (∀ x, h'.live x ↔ h.live x) ∧
      (∀ x, (h'.at_ x).map (fun n => (n.refs, n.dirty)) = (h.at_ x).map (fun n => (n.refs, n.dirty))) := by
  obtain ⟨n, hn⟩ := (live_iff h c).1 hc
  refine ⟨h.set c { n with parent := p, next := b }, by rw [link, hn]; rfl, rfl, ?_, ?_, ?_, ?_⟩
  · intro x
    cases x with
    | next q =>
      by_cases hq : q = c
      · subst hq; simp [Heap.get, Heap.set]
      · simp [Heap.get, Heap.set, hq]
    | kids q =>
      by_cases hq : q = c
      · subst hq; simp [Heap.get, Heap.set, hn]
      · simp [Heap.get, Heap.set, hq]
  · intro x
    by_cases hq : x = c
    · subst hq; simp [Heap.par, Heap.set, hn]
    · simp [Heap.par, Heap.set, hq]
  · intro x
    by_cases hq : x = c
    · subst hq; simp [Heap.live, Heap.set, hn]
    · simp [Heap.live, Heap.set, hq]
  · intro x
    by_cases hq : x = c
    · subst hq; simp [Heap.set, hn]
    · simp [Heap.set, hq]

/-- Changing only counters and marks of a node. -/
theorem set_same (h : Heap) (p : Nat) (n m : TNode) (hn : h.at_ p = some n) (h1 : m.parent = n.parent)
    (h2 : m.next = n.next) (h3 : m.kids = n.kids) :
    (h.set p m).top = h.top ∧ (∀ x, (h.set p m).get x = h.get x) ∧ (∀ x, (h.set p m).par x = h.par x) ∧
      (∀ x, (h.set p m).live x ↔ h.live x) := by
  refine ⟨rfl, ?_, ?_, ?_⟩
  · intro x
    cases x with
    | next q =>
      by_cases hq : q = p
      · subst hq; simp [Heap.get, Heap.set, hn, h2]
      · simp [Heap.get, Heap.set, hq]
    | kids q =>
      by_cases hq : q = p
      · subst hq; simp [Heap.get, Heap.set, hn, h3]
      · simp [Heap.get, Heap.set, hq]
  · intro x
    by_cases hq : x = p
    · subst hq; simp [Heap.par, Heap.set, hn, h1]
    · simp [Heap.par, Heap.set, hq]
  · intro x
    by_cases hq : x = p
    · subst hq; simp [Heap.live, Heap.set, hn]
    · simp [Heap.live, Heap.set, hq]

/-! ### Chains -/

/-- Following the pointers from the place `i` visits exactly the nodes of the list, then NULL. -/
def ChainAt (h : Heap) : Cell → List Nat → Prop
  | i, [] => h.get i = some 0
  | i, c :: r => c ≠ 0 ∧ h.get i = some c ∧ ChainAt h (.next c) r

/-- The place behind a list. -/
def endCell : Cell → List Nat → Cell
  | i, [] => i
  | _, c :: r => endCell (.next c) r

theorem endCell_mem (i : Cell) (l : List Nat) : endCell i l = i ∧ l = [] ∨ ∃ c ∈ l, endCell i l = .next c := by
  induction l generalizing i with
  | nil => exact .inl ⟨rfl, rfl⟩
  | cons c r ih =>
    right
    rcases ih (.next c) with ⟨h1, _⟩ | ⟨d, hd, he⟩
    · exact ⟨c, List.mem_cons_self, h1⟩
    · exact ⟨d, List.mem_cons_of_mem _ hd, he⟩

theorem ChainAt.congr {h h' : Heap} : ∀ {i : Cell} {l : List Nat}, ChainAt h i l → h'.get i = h.get i →
    (∀ c ∈ l, h'.get (.next c) = h.get (.next c)) → ChainAt h' i l
  | i, [], hc, hi, _ => by rw [ChainAt] at hc ⊢; rw [hi]; exact hc
  | i, c :: r, hc, hi, hl => by
    rw [ChainAt] at hc ⊢
    refine ⟨hc.1, by rw [hi]; exact hc.2.1, ChainAt.congr hc.2.2 (hl c List.mem_cons_self) fun d hd => hl d (List.mem_cons_of_mem _ hd)⟩

/-- The tail of a chain is a chain. -/
theorem ChainAt.drop {h : Heap} : ∀ {i : Cell} {pre post : List Nat}, ChainAt h i (pre ++ post) → ChainAt h (endCell i pre) post
  | _, [], _, hc => hc
  | _, c :: r, post, hc => ChainAt.drop (pre := r) (post := post) hc.2.2

/-- Replacing the tail of a chain. -/
theorem ChainAt.splice {h h' : Heap} : ∀ {i : Cell} {pre post post' : List Nat}, ChainAt h i (pre ++ post) → pre.Nodup →
    (∀ c ∈ pre, i ≠ .next c) →
    (∀ x, (x = i ∨ ∃ c ∈ pre, x = .next c) → x ≠ endCell i pre → h'.get x = h.get x) →
    ChainAt h' (endCell i pre) post' → ChainAt h' i (pre ++ post')
  | _, [], _, _, _, _, _, _, hp => hp
  | i, c :: r, post, post', hc, hn, hi, hx, hp => by
    rw [List.cons_append, ChainAt] at hc ⊢
    have hn' := List.nodup_cons.1 hn
    refine ⟨hc.1, ?_, ChainAt.splice (pre := r) (post := post) hc.2.2 hn'.2 ?_ ?_ hp⟩
    · rw [hx i (.inl rfl) ?_, hc.2.1]
      rcases endCell_mem i (c :: r) with ⟨_, h2⟩ | ⟨d, hd, he⟩
      · cases h2
      · rw [he]; exact hi d hd
    · intro d hd he
      cases he
      exact hn'.1 hd
    · intro x hx1 hx2
      refine hx x ?_ hx2
      rcases hx1 with h1 | ⟨d, hd, h1⟩
      · exact .inr ⟨c, List.mem_cons_self, h1⟩
      · exact .inr ⟨d, List.mem_cons_of_mem _ hd, h1⟩

/-- The loop stops at the first node looked for, or at the end. -/
theorem findCell_spec (stop : Nat) (h : Heap) : ∀ (fuel : Nat) (i : Cell) (l : List Nat), ChainAt h i l → l.length < fuel →
    findCell stop fuel h i = some (endCell i (l.takeWhile (· ≠ stop)), (l.dropWhile (· ≠ stop)).headD 0)
  | 0, _, _, _, hf => absurd hf (Nat.not_lt_zero _)
  | fuel + 1, i, [], hc, _ => by
    rw [ChainAt] at hc
    rw [findCell, hc]
    simp [endCell]
  | fuel + 1, i, c :: r, hc, hf => by
    rw [ChainAt] at hc
    rw [findCell, hc.2.1]
    simp only
    by_cases h1 : c = stop
    · rw [if_pos (.inr h1)]
      subst h1
      simp [endCell]
    · rw [if_neg (by rintro (h2 | h2); exact hc.1 h2; exact h1 h2),
        findCell_spec stop h fuel (.next c) r hc.2.2 (by simp only [List.length_cons] at hf; omega)]
      simp [h1, endCell]

end Verif.NodeTree
