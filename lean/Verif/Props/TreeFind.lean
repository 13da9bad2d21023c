import Verif.Core.TreeFind
import Verif.Core.StrLemmas
/-!
C236: searching a tree of nodes by name or class.
-/
namespace Verif.TreeFind
open Verif Verif.Core

/-! ### Specification -/

/-- Two names differ at most in the case of ASCII letters. -/
def SameName (a b : Bytes) : Prop :=
  a.map (fun c => if 97 ≤ c.toNat ∧ c.toNat ≤ 122 then c.toNat - 32 else c.toNat) =
  b.map (fun c => if 97 ≤ c.toNat ∧ c.toNat ≤ 122 then c.toNat - 32 else c.toNat)

/-- Being below a node. -/
inductive Below : Tree → Tree → Prop where
  | child (t k : Tree) : k ∈ t.kids → Below t k
  | deeper (t k x : Tree) : k ∈ t.kids → Below k x → Below t x

/-- Being below a node with no named node in between: what `FindChild` can see. -/
inductive Seen : Tree → Tree → Prop where
  | child (t k : Tree) : k ∈ t.kids → Seen t k
  | deeper (t k x : Tree) : k ∈ t.kids → k.name = none → Seen k x → Seen t x

/-- A node of the class and the name. -/
def Fits (part : Nat → Bool) (name : Bytes) (t : Tree) : Prop :=
  part t.cls = true ∧ ∃ s, t.name = some s ∧ SameName s name

/-! ### Lemmas -/

theorem sameName_iff (a b : Bytes) : isame a b = true ↔ SameName a b := by
  rw [isame_eq]
  unfold SameName uppers
  have key : ∀ x y : UInt8, asciiUpper (chr x) = asciiUpper (chr y) ↔
      (if 97 ≤ x.toNat ∧ x.toNat ≤ 122 then x.toNat - 32 else x.toNat) =
      (if 97 ≤ y.toNat ∧ y.toNat ≤ 122 then y.toNat - 32 else y.toNat) := by
    intro x y
    have hx := x.toNat_lt
    have hy := y.toNat_lt
    unfold asciiUpper chr
    constructor
    · intro h
      repeat' split at h
      all_goals (repeat' split)
      all_goals omega
    · intro h
      repeat' split at h
      all_goals (repeat' split)
      all_goals omega
  induction a generalizing b with
  | nil => cases b <;> simp
  | cons x a ih =>
    cases b with
    | nil => simp
    | cons y b =>
      simp only [List.map_cons, List.cons.injEq, key x y, ih b]

theorem hit_iff (part : Nat → Bool) (name : Bytes) (t : Tree) : hit part name t = true ↔ Fits part name t := by
  unfold hit Fits
  cases h : t.name with
  | none => simp
  | some s => simp [sameName_iff]

theorem firstHit_some (part : Nat → Bool) (name : Bytes) (l : List Tree) (x : Tree) :
    firstHit part name l = some x ↔ ∃ a b, l = a ++ x :: b ∧ Fits part name x ∧ ∀ y ∈ a, ¬ Fits part name y := by
  induction l with
  | nil => simp [firstHit]
  | cons t r ih =>
    unfold firstHit
    by_cases h : hit part name t = true
    · rw [if_pos h]
      constructor
      · intro e
        cases e
        exact ⟨[], r, rfl, (hit_iff _ _ _).1 h, by simp⟩
      · rintro ⟨a, b, he, _, hn⟩
        cases a with
        | nil => simp at he; rw [he.1]
        | cons y a =>
          simp at he
          exact absurd ((hit_iff _ _ _).1 h) (he.1 ▸ hn y (by simp))
    · rw [if_neg h, ih]
      constructor
      · rintro ⟨a, b, he, hf, hn⟩
        refine ⟨t :: a, b, by rw [he]; rfl, hf, ?_⟩
        intro y hy
        rcases List.mem_cons.1 hy with rfl | hy
        · exact fun hc => h ((hit_iff _ _ _).2 hc)
        · exact hn y hy
      · rintro ⟨a, b, he, hf, hn⟩
        cases a with
        | nil =>
          simp at he
          exact absurd ((hit_iff _ _ _).2 (he.1 ▸ hf)) h
        | cons y a =>
          simp at he
          exact ⟨a, b, he.2, hf, fun z hz => hn z (by simp [hz])⟩

theorem firstHit_none (part : Nat → Bool) (name : Bytes) (l : List Tree) :
    firstHit part name l = none ↔ ∀ y ∈ l, ¬ Fits part name y := by
  induction l with
  | nil => simp [firstHit]
  | cons t r ih =>
    unfold firstHit
    by_cases h : hit part name t = true
    · rw [if_pos h]
      simp only [reduceCtorEq, List.mem_cons, forall_eq_or_imp, false_iff]
      exact fun hc => hc.1 ((hit_iff _ _ _).1 h)
    · rw [if_neg h, ih]
      simp only [List.mem_cons, forall_eq_or_imp]
      exact ⟨fun hc => ⟨fun hf => h ((hit_iff _ _ _).2 hf), hc⟩, fun hc => hc.2⟩

theorem below_iff (t x : Tree) : Below t x ↔ x ∈ t.kids ∨ ∃ k ∈ t.kids, Below k x := by
  constructor
  · rintro (⟨_, _, h⟩ | ⟨_, k, _, h, hb⟩)
    · exact .inl h
    · exact .inr ⟨k, h, hb⟩
  · rintro (h | ⟨k, h, hb⟩)
    · exact .child _ _ h
    · exact .deeper _ _ _ h hb

theorem seen_iff (t x : Tree) : Seen t x ↔ x ∈ t.kids ∨ ∃ k ∈ t.kids, k.name = none ∧ Seen k x := by
  constructor
  · rintro (⟨_, _, h⟩ | ⟨_, k, _, h, hn, hb⟩)
    · exact .inl h
    · exact .inr ⟨k, h, hn, hb⟩
  · rintro (h | ⟨k, h, hn, hb⟩)
    · exact .child _ _ h
    · exact .deeper _ _ _ h hn hb

mutual
theorem deep_some (part : Nat → Bool) (name : Bytes) : ∀ t x : Tree, byNameDeep part name t = some x →
    Below t x ∧ Fits part name x
  | .node i c n kids, x => by
    intro h
    unfold byNameDeep at h
    cases hf : firstHit part name kids with
    | some y =>
      rw [hf] at h
      cases h
      obtain ⟨a, b, he, hfit, _⟩ := (firstHit_some _ _ _ _).1 hf
      exact ⟨.child _ _ (by unfold Tree.kids; rw [he]; simp), hfit⟩
    | none =>
      rw [hf] at h
      obtain ⟨⟨k, hk, hb⟩, hfit⟩ := kids_some part name kids x h
      exact ⟨.deeper _ k _ hk hb, hfit⟩
theorem kids_some (part : Nat → Bool) (name : Bytes) : ∀ (l : List Tree) (x : Tree), byNameKids part name l = some x →
    (∃ k ∈ l, Below k x) ∧ Fits part name x
  | [], x => by intro h; simp [byNameKids] at h
  | t :: r, x => by
    intro h
    unfold byNameKids at h
    cases hd : byNameDeep part name t with
    | some y =>
      rw [hd] at h
      cases h
      have := deep_some part name t _ hd
      exact ⟨⟨t, by simp, this.1⟩, this.2⟩
    | none =>
      rw [hd] at h
      obtain ⟨⟨k, hk, hb⟩, hf⟩ := kids_some part name r x h
      exact ⟨⟨k, by simp [hk], hb⟩, hf⟩
end

mutual
theorem deep_none (part : Nat → Bool) (name : Bytes) : ∀ t : Tree, byNameDeep part name t = none →
    ∀ x, Below t x → ¬ Fits part name x
  | .node i c n kids => by
    intro h x hx
    unfold byNameDeep at h
    cases hf : firstHit part name kids with
    | some y => rw [hf] at h; cases h
    | none =>
      rw [hf] at h
      rcases (below_iff _ _).1 hx with hk | ⟨k, hk, hb⟩
      · exact (firstHit_none _ _ _).1 hf x hk
      · exact kids_none part name kids h k hk x hb
theorem kids_none (part : Nat → Bool) (name : Bytes) : ∀ l : List Tree, byNameKids part name l = none →
    ∀ k ∈ l, ∀ x, Below k x → ¬ Fits part name x
  | [] => by intro _ k hk; simp at hk
  | t :: r => by
    intro h k hk x hb
    unfold byNameKids at h
    cases hd : byNameDeep part name t with
    | some y => rw [hd] at h; cases h
    | none =>
      rw [hd] at h
      rcases List.mem_cons.1 hk with he | hk
      · rw [he] at hb
        exact deep_none part name t hd x hb
      · exact kids_none part name r h k hk x hb
end

mutual
theorem class_some (part : Nat → Bool) : ∀ t x : Tree, childByClass part t = some x →
    (x = t ∨ (Below t x ∧ part t.cls = false)) ∧ part x.cls = true
  | .node i c n kids, x => by
    intro h
    unfold childByClass at h
    by_cases hp : part c = true
    · rw [if_pos hp] at h
      cases h
      exact ⟨.inl rfl, hp⟩
    · rw [if_neg hp] at h
      obtain ⟨⟨k, hk, hb⟩, hx⟩ := classKids_some part kids x h
      refine ⟨.inr ⟨?_, by simpa [Tree.cls] using hp⟩, hx⟩
      rcases hb with rfl | hb
      · exact .child _ _ hk
      · exact .deeper _ k _ hk hb
theorem classKids_some (part : Nat → Bool) : ∀ (l : List Tree) (x : Tree), byClassKids part l = some x →
    (∃ k ∈ l, x = k ∨ Below k x) ∧ part x.cls = true
  | [], x => by intro h; simp [byClassKids] at h
  | t :: r, x => by
    intro h
    unfold byClassKids at h
    cases hd : childByClass part t with
    | some y =>
      rw [hd] at h
      cases h
      obtain ⟨h1, h2⟩ := class_some part t _ hd
      refine ⟨⟨t, by simp, ?_⟩, h2⟩
      rcases h1 with h1 | h1
      · exact .inl h1
      · exact .inr h1.1
    | none =>
      rw [hd] at h
      obtain ⟨⟨k, hk, hb⟩, hx⟩ := classKids_some part r x h
      exact ⟨⟨k, by simp [hk], hb⟩, hx⟩
end

mutual
theorem class_none (part : Nat → Bool) : ∀ t : Tree, childByClass part t = none →
    part t.cls = false ∧ ∀ x, Below t x → part x.cls = false
  | .node i c n kids => by
    intro h
    unfold childByClass at h
    by_cases hp : part c = true
    · rw [if_pos hp] at h; cases h
    · rw [if_neg hp] at h
      refine ⟨by simpa [Tree.cls] using hp, fun x hx => ?_⟩
      have hk := classKids_none part kids h
      rcases (below_iff _ _).1 hx with hm | ⟨k, hm, hb⟩
      · exact (hk x hm).1
      · exact (hk k hm).2 x hb
theorem classKids_none (part : Nat → Bool) : ∀ l : List Tree, byClassKids part l = none →
    ∀ k ∈ l, part k.cls = false ∧ ∀ x, Below k x → part x.cls = false
  | [] => by intro _ k hk; simp at hk
  | t :: r => by
    intro h k hk
    unfold byClassKids at h
    cases hd : childByClass part t with
    | some y => rw [hd] at h; cases h
    | none =>
      rw [hd] at h
      rcases List.mem_cons.1 hk with he | hk
      · rw [he]
        exact class_none part t hd
      · exact classKids_none part r h k hk
end

mutual
theorem find_some (name : Bytes) : ∀ t x : Tree, findChild name t = some x →
    Seen t x ∧ ∃ s, x.name = some s ∧ SameName name s
  | .node i c n kids, x => by
    intro h
    unfold findChild at h
    obtain ⟨hk, hs⟩ := findKids_some name kids x h
    refine ⟨?_, hs⟩
    rcases hk with hk | ⟨k, hk, hn, hb⟩
    · exact .child _ _ hk
    · exact .deeper _ k _ hk hn hb
theorem findKids_some (name : Bytes) : ∀ (l : List Tree) (x : Tree), findKids name l = some x →
    (x ∈ l ∨ ∃ k ∈ l, k.name = none ∧ Seen k x) ∧ ∃ s, x.name = some s ∧ SameName name s
  | [], x => by intro h; simp [findKids] at h
  | .node i c (some s) k :: r, x => by
    intro h
    unfold findKids at h
    by_cases hs : isame name s = true
    · rw [if_pos hs] at h
      cases h
      exact ⟨.inl (by simp), s, rfl, (sameName_iff _ _).1 hs⟩
    · rw [if_neg hs] at h
      obtain ⟨hk, hx⟩ := findKids_some name r x h
      refine ⟨?_, hx⟩
      rcases hk with hk | ⟨k', hk, hn, hb⟩
      · exact .inl (by simp [hk])
      · exact .inr ⟨k', by simp [hk], hn, hb⟩
  | .node i c none k :: r, x => by
    intro h
    unfold findKids at h
    cases hd : findChild name (.node i c none k) with
    | some y =>
      rw [hd] at h
      cases h
      obtain ⟨h1, h2⟩ := find_some name _ _ hd
      exact ⟨.inr ⟨_, by simp, rfl, h1⟩, h2⟩
    | none =>
      rw [hd] at h
      obtain ⟨hk, hx⟩ := findKids_some name r x h
      refine ⟨?_, hx⟩
      rcases hk with hk | ⟨k', hk, hn, hb⟩
      · exact .inl (by simp [hk])
      · exact .inr ⟨k', by simp [hk], hn, hb⟩
end

mutual
theorem find_none (name : Bytes) : ∀ t : Tree, findChild name t = none →
    ∀ x s, Seen t x → x.name = some s → ¬ SameName name s
  | .node i c n kids => by
    intro h x s hx hs
    unfold findChild at h
    have hk := findKids_none name kids h
    rcases (seen_iff _ _).1 hx with hm | ⟨k, hm, hn, hb⟩
    · exact (hk x hm).1 s hs
    · exact (hk k hm).2 hn x s hb hs
theorem findKids_none (name : Bytes) : ∀ l : List Tree, findKids name l = none → ∀ k ∈ l,
    (∀ s, k.name = some s → ¬ SameName name s) ∧
    (k.name = none → ∀ x s, Seen k x → x.name = some s → ¬ SameName name s)
  | [] => by intro _ k hk; simp at hk
  | .node i c (some s) k :: r => by
    intro h y hy
    unfold findKids at h
    by_cases hs : isame name s = true
    · rw [if_pos hs] at h; cases h
    · rw [if_neg hs] at h
      rcases List.mem_cons.1 hy with rfl | hy
      · refine ⟨fun s' hs' => ?_, fun hn => by simp [Tree.name] at hn⟩
        simp only [Tree.name, Option.some.injEq] at hs'
        rw [← hs']
        exact fun hc => hs ((sameName_iff _ _).2 hc)
      · exact findKids_none name r h y hy
  | .node i c none k :: r => by
    intro h y hy
    unfold findKids at h
    cases hd : findChild name (.node i c none k) with
    | some z => rw [hd] at h; cases h
    | none =>
      rw [hd] at h
      rcases List.mem_cons.1 hy with rfl | hy
      · exact ⟨fun s' hs' => by simp [Tree.name] at hs', fun _ => find_none name _ hd⟩
      · exact findKids_none name r h y hy
end

/-! ### The theorems -/

/-- **C236** (by name). A search by name through the whole tree finds a node below, of the class and the name (letters of
either case), whenever there is one, at any depth, and a child before what is deeper; without `Recursive` it finds exactly
the first child. -/
theorem C236_by_name (part : Nat → Bool) (name : Bytes) (hn : name ≠ []) (t : Tree) :
    (∀ x, childByName part name true t = some x → Below t x ∧ Fits part name x) ∧
    (childByName part name true t = none ↔ ∀ x, Below t x → ¬ Fits part name x) ∧
    (∀ x, childByName part name false t = some x ↔
      ∃ a b, t.kids = a ++ x :: b ∧ Fits part name x ∧ ∀ y ∈ a, ¬ Fits part name y) ∧
    ((∃ k ∈ t.kids, Fits part name k) → childByName part name true t = childByName part name false t) := by
  unfold childByName
  simp only [if_neg hn, if_true, Bool.false_eq_true, if_false]
  refine ⟨deep_some part name t, ⟨deep_none part name t, ?_⟩, firstHit_some part name t.kids, ?_⟩
  · intro h
    cases hd : byNameDeep part name t with
    | none => rfl
    | some x =>
      obtain ⟨h1, h2⟩ := deep_some part name t x hd
      exact absurd h2 (h x h1)
  · rintro ⟨k, hk, hf⟩
    cases t with
    | node i c n kids =>
      simp only [Tree.kids] at hk ⊢
      unfold byNameDeep
      cases hfst : firstHit part name kids with
      | some x => rfl
      | none => exact absurd hf ((firstHit_none _ _ _).1 hfst k hk)

/-- A tree: 1 has the children 2 "A" and 4 "b"; 2 has the child 3 "c", 4 has 5 without a name, 5 has 6 "C". -/
def sample : Tree :=
  .node 1 0 none [.node 2 7 (some [0x41]) [.node 3 7 (some [0x63]) []],
    .node 4 7 (some [0x62]) [.node 5 8 none [.node 6 7 (some [0x43]) []]]]

example : (childByName (· == 7) [0x43] true sample).map Tree.id = some 3 ∧ (childByName (· == 7) [0x43] false sample).map Tree.id = none ∧
    (childByName (· == 7) [0x42] false sample).map Tree.id = some 4 := by decide

/-- Without a name nothing is found. -/
theorem C236_no_name (part : Nat → Bool) (r : Bool) (t : Tree) : childByName part [] r t = none := rfl

/-- **C236** (by class). A search by class finds the node itself or one below it, whenever there is one of the class. -/
theorem C236_by_class (part : Nat → Bool) (t : Tree) :
    (∀ x, childByClass part t = some x → (x = t ∨ (Below t x ∧ part t.cls = false)) ∧ part x.cls = true) ∧
    (childByClass part t = none ↔ part t.cls = false ∧ ∀ x, Below t x → part x.cls = false) := by
  refine ⟨class_some part t, class_none part t, ?_⟩
  rintro ⟨h1, h2⟩
  cases hd : childByClass part t with
  | none => rfl
  | some x =>
    obtain ⟨h3, h4⟩ := class_some part t x hd
    rcases h3 with rfl | h3
    · rw [h1] at h4; cases h4
    · rw [h2 x h3.1] at h4; cases h4

example : (childByClass (· == 8) sample).map Tree.id = some 5 ∧ (childByClass (· == 9) sample).map Tree.id = none := by decide

/-- **C236** (scopes). The search the parser of texts uses finds a name exactly when it can be seen: below, with no named
node in between. -/
theorem C236_scope (name : Bytes) (t : Tree) :
    (∀ x, findChild name t = some x → Seen t x ∧ ∃ s, x.name = some s ∧ SameName name s) ∧
    (findChild name t = none ↔ ∀ x s, Seen t x → x.name = some s → ¬ SameName name s) := by
  refine ⟨find_some name t, find_none name t, ?_⟩
  intro h
  cases hd : findChild name t with
  | none => rfl
  | some x =>
    obtain ⟨h1, s, h2, h3⟩ := find_some name t x hd
    exact absurd h3 (h x s h1 h2)

/-- 3 and 6 are below 2 and 4, which have names. -/
example : (findChild [0x43] sample).map Tree.id = none ∧ (findChild [0x42] sample).map Tree.id = some 4 ∧
    (findChild [0x43] (.node 4 7 none [.node 5 8 none [.node 6 7 (some [0x43]) []]])).map Tree.id = some 6 := by decide

/-- **C236** (creating). A child that was created under a name no child before it has is found under that name. -/
theorem C236_created (part : Nat → Bool) (id cls : Nat) (name : Bytes) (before : Option Nat) (t : Tree) (hn : name ≠ [])
    (hc : part cls = true) (hfree : ∀ k ∈ t.kids, ¬ Fits part name k) (r : Bool) :
    childByName part name r (createChild id cls name before t) = some (.node id cls (some name) []) := by
  have key : childByName part name false (createChild id cls name before t) = some (.node id cls (some name) []) := by
    rw [(C236_by_name part name hn _).2.2.1]
    cases t with
    | node i c n kids =>
      refine ⟨kids.takeWhile (fun k => some k.id ≠ before), kids.dropWhile (fun k => some k.id ≠ before), ?_, ?_, ?_⟩
      · simp only [createChild, Tree.kids, if_neg hn]
      · exact ⟨hc, name, rfl, rfl⟩
      · intro y hy
        exact hfree y (by
          unfold Tree.kids
          rw [← List.takeWhile_append_dropWhile (p := fun k : Tree => some k.id ≠ before) (l := kids)]
          exact List.mem_append_left _ hy)
  cases r with
  | false => exact key
  | true =>
    obtain ⟨a, b, he, hf, _⟩ := ((C236_by_name part name hn _).2.2.1 _).1 key
    rw [(C236_by_name part name hn _).2.2.2 ⟨_, by rw [he]; simp, hf⟩]
    exact key

example : (childByName (· == 7) [0x64] true (createChild 9 7 [0x44] (some 4) sample)).map Tree.id = some 9 ∧
    (createChild 9 7 [0x44] (some 4) sample).kids.map Tree.id = [2, 9, 4] := by decide

/-! ### Which one is found first -/

mutual
/-- A node and all that is below it, each node before its children, the first child with all that is below it before the
second. -/
def preorder : Tree → List Tree
  | .node i c n kids => .node i c n kids :: preorders kids
def preorders : List Tree → List Tree
  | [] => []
  | t :: r => preorder t ++ preorders r
end

mutual
/-- What is below a node, all its children before what is below them, and that child by child. -/
def family : Tree → List Tree
  | .node _ _ _ kids => kids ++ families kids
def families : List Tree → List Tree
  | [] => []
  | t :: r => family t ++ families r
end

mutual
/-- What can be seen below a node in the order of the text: a named child, or what can be seen below one without a name. -/
def scope : Tree → List Tree
  | .node _ _ _ kids => scopes kids
def scopes : List Tree → List Tree
  | [] => []
  | .node i c (some s) k :: r => .node i c (some s) k :: scopes r
  | .node i c none k :: r => scope (.node i c none k) ++ scopes r
end

mutual
theorem class_order (part : Nat → Bool) : ∀ t : Tree, childByClass part t = (preorder t).find? (fun x => part x.cls)
  | .node i c n kids => by
    unfold childByClass preorder
    rw [List.find?_cons, classKids_order part kids]
    by_cases h : part c = true
    · simp [h, Tree.cls]
    · simp [h, Tree.cls]
theorem classKids_order (part : Nat → Bool) : ∀ l : List Tree, byClassKids part l = (preorders l).find? (fun x => part x.cls)
  | [] => by simp [byClassKids, preorders]
  | t :: r => by
    unfold byClassKids preorders
    rw [List.find?_append, class_order part t, classKids_order part r]
    cases (preorder t).find? (fun x => part x.cls) <;> rfl
end

theorem firstHit_find (part : Nat → Bool) (name : Bytes) (l : List Tree) : firstHit part name l = l.find? (hit part name) := by
  induction l with
  | nil => rfl
  | cons t r ih =>
    unfold firstHit
    rw [List.find?_cons, ih]
    cases hit part name t <;> rfl

mutual
theorem name_order (part : Nat → Bool) (name : Bytes) : ∀ t : Tree, byNameDeep part name t = (family t).find? (hit part name)
  | .node i c n kids => by
    unfold byNameDeep family
    rw [List.find?_append, nameKids_order part name kids, firstHit_find]
    cases kids.find? (hit part name) <;> rfl
theorem nameKids_order (part : Nat → Bool) (name : Bytes) : ∀ l : List Tree,
    byNameKids part name l = (families l).find? (hit part name)
  | [] => by simp [byNameKids, families]
  | t :: r => by
    unfold byNameKids families
    rw [List.find?_append, name_order part name t, nameKids_order part name r]
    cases (family t).find? (hit part name) <;> rfl
end

/-- A node has the name. -/
def named (name : Bytes) (t : Tree) : Bool := match t.name with | some s => isame name s | none => false

mutual
theorem scope_order (name : Bytes) : ∀ t : Tree, findChild name t = (scope t).find? (named name)
  | .node i c n kids => by
    unfold findChild scope
    exact scopeKids_order name kids
theorem scopeKids_order (name : Bytes) : ∀ l : List Tree, findKids name l = (scopes l).find? (named name)
  | [] => by simp [findKids, scopes]
  | .node i c (some s) k :: r => by
    unfold findKids scopes
    rw [List.find?_cons, scopeKids_order name r]
    unfold named Tree.name
    simp only
    cases isame name s <;> rfl
  | .node i c none k :: r => by
    unfold findKids scopes
    rw [List.find?_append, scope_order name (.node i c none k), scopeKids_order name r]
    cases (scope (.node i c none k)).find? (named name) <;> rfl
end

theorem named_iff (name : Bytes) (t : Tree) : named name t = true ↔ ∃ s, t.name = some s ∧ SameName name s := by
  unfold named
  cases t.name with
  | none => simp
  | some s => simp [sameName_iff]

/-- The first of a list that has a property. -/
def First (l : List Tree) (p : Tree → Prop) (x : Tree) : Prop := ∃ a b, l = a ++ x :: b ∧ p x ∧ ∀ y ∈ a, ¬ p y

theorem find_first (l : List Tree) (q : Tree → Bool) (p : Tree → Prop) (h : ∀ t, q t = true ↔ p t) (x : Tree) :
    l.find? q = some x ↔ First l p x := by
  rw [List.find?_eq_some_iff_append]
  unfold First
  constructor
  · rintro ⟨hq, a, b, he, hn⟩
    exact ⟨a, b, he, (h x).1 hq, fun y hy hp => by have := hn y hy; rw [(h y).2 hp] at this; cases this⟩
  · rintro ⟨a, b, he, hp, hn⟩
    refine ⟨(h x).2 hp, a, b, he, fun y hy => ?_⟩
    cases hq : q y with
    | false => rfl
    | true => exact absurd ((h y).1 hq) (hn y hy)

/-- **C236** (order). Of several nodes that fit, the search by name takes the first with the children of a node before
what is below them, the search by class the first with each node before its children, the search in scope the first of the
text. -/
theorem C236_order (part : Nat → Bool) (name : Bytes) (t x : Tree) :
    (name ≠ [] → (childByName part name true t = some x ↔ First (family t) (Fits part name) x)) ∧
    (childByClass part t = some x ↔ First (preorder t) (fun y => part y.cls = true) x) ∧
    (findChild name t = some x ↔ First (scope t) (fun y => ∃ s, y.name = some s ∧ SameName name s) x) := by
  refine ⟨fun hn => ?_, ?_, ?_⟩
  · unfold childByName
    rw [if_neg hn, if_pos rfl, name_order]
    exact find_first _ _ _ (hit_iff part name) x
  · rw [class_order]
    exact find_first _ _ _ (fun _ => Iff.rfl) x
  · rw [scope_order]
    exact find_first _ _ _ (named_iff name) x

example : (family sample).map Tree.id = [2, 4, 3, 5, 6] ∧ (preorder sample).map Tree.id = [1, 2, 3, 4, 5, 6] ∧
    (scope sample).map Tree.id = [2, 4] := by decide

/-- The search through the whole tree does not prefer what is nearer: here it finds 4 three levels down though 5 is two
levels down. -/
theorem C236_depth_counterexample : ∃ t : Tree, (childByName (fun _ => true) [0x61] true t).map Tree.id = some 4 ∧
    ∃ k ∈ t.kids, ∃ x ∈ k.kids, Fits (fun _ => true) [0x61] x ∧ x.id = 5 :=
  ⟨.node 1 0 none [.node 2 0 none [.node 3 0 none [.node 4 0 (some [0x61]) []]], .node 6 0 none [.node 5 0 (some [0x61]) []]], by decide,
    _, by simp [Tree.kids]; exact .inr rfl, _, by simp [Tree.kids]; rfl, ⟨rfl, _, rfl, rfl⟩, rfl⟩

end Verif.TreeFind
