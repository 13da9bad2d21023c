import Verif.Core.ClassesLemmas
import Verif.Props.Sort
/-!
Properties C191 and C192: registering classes of nodes in any order, and listing them.
-/
namespace Verif.Core.Classes
open Verif Verif.Core

/-! ### C191 -/

/-- C191. After any list of definitions that belong together has been registered, in whatever
order: looking up an ID finds the class with the definition of that ID, and nothing for an ID
that is not defined. The classes that have been initialised are exactly those with all their
ancestors among the definitions, and they have what their own and their ancestors' definitions
give them: own functions and attributes, else those of the nearest ancestor that has them. -/
theorem C191_registered (dv : Nat) (ds : List Def) (hf : Fits dv ds) (id : Nat) :
    (∀ d, (findClass (registerAll dv ds) id).map (·.d) = some d ↔ d ∈ ds ∧ d.id = id) ∧
    ∀ o, (findClass (registerAll dv ds) id).bind made = some o ↔ Built dv ds id o := by
  obtain ⟨h, hcl, hp⟩ := registerAll_spec ds hf
  generalize registerAll dv ds = cs at *
  rw [findClass_eq h.sorted h.zero]
  constructor
  · intro d
    constructor
    · intro e
      cases hc : find cs id with
      | none => rw [hc] at e; cases e
      | some c =>
        rw [hc] at e
        obtain ⟨h1, h2⟩ := find_mem hc
        cases e
        exact ⟨hp.mem_iff.1 (List.mem_map.2 ⟨c, h1, rfl⟩), h2⟩
    · rintro ⟨h1, rfl⟩
      obtain ⟨c, hc, rfl⟩ := List.mem_map.1 (hp.mem_iff.2 h1)
      rw [find_of_mem h.sorted hc]
      rfl
  · -- what can be made has been made
    have hmade : ∀ i o, Built dv ds i o → ∃ c ∈ cs, c.d.id = i ∧ c.inited = true := by
      intro i o hb
      induction hb with
      | root d h1 h2 =>
        obtain ⟨c, hc, rfl⟩ := List.mem_map.1 (hp.mem_iff.2 h1)
        refine ⟨c, hc, rfl, ?_⟩
        cases hi : c.inited with
        | true => rfl
        | false => exact absurd h2 (hcl c hc (fun k => k) hi).1
      | child d o h1 h2 _ ih =>
        obtain ⟨c, hc, rfl⟩ := List.mem_map.1 (hp.mem_iff.2 h1)
        obtain ⟨p, hpm, e1, e2⟩ := ih
        refine ⟨c, hc, rfl, ?_⟩
        cases hi : c.inited with
        | true => rfl
        | false =>
          have := (hcl c hc (fun k => k) hi).2 p hpm e1
          rw [e2] at this
          cases this
    have hobj : ∀ c ∈ cs, c.inited = true → ∃ o, Built dv ds c.d.id o ∧ made c = some o := by
      intro c hc hi
      obtain ⟨o, g1, g2, g3, g4, _⟩ := h.good c hc hi
      refine ⟨o, g1.mono (fun e he => hp.mem_iff.1 he), ?_⟩
      unfold made
      rw [if_pos hi, g2, g3, getAttr_tab g4]
    intro o
    constructor
    · intro e
      cases hc : find cs id with
      | none => rw [hc] at e; cases e
      | some c =>
        rw [hc] at e
        obtain ⟨h1, h2⟩ := find_mem hc
        have e : made c = some o := e
        have hi : c.inited = true := by
          cases hi : c.inited with
          | true => rfl
          | false => unfold made at e; rw [hi] at e; cases e
        obtain ⟨o', g1, g2⟩ := hobj c h1 hi
        rw [g2] at e
        cases e
        exact h2 ▸ g1
    · intro hb
      obtain ⟨c, hc, rfl, hi⟩ := hmade id o hb
      obtain ⟨o', g1, g2⟩ := hobj c hc hi
      rw [find_of_mem h.sorted hc]
      show made c = some o
      rw [g2, g1.unique hf.nodup hb]

theorem Fits.perm {dv ds ds'} (h : Fits dv ds) (hp : ds'.Perm ds) : Fits dv ds' :=
  h.of_subset (fun _ he => hp.mem_iff.1 he) ((hp.map (·.id)).nodup_iff.2 h.nodup)

/-- C191, order. Registering the same definitions in another order gives the same classes: the
same definition is found for every ID, and it is initialised, with the same size, functions and
attributes, or it is not, in both cases alike. -/
theorem C191_order (dv : Nat) (ds ds' : List Def) (hf : Fits dv ds) (hp : ds'.Perm ds) (id : Nat) :
    (findClass (registerAll dv ds') id).map (fun c => (c.d, made c)) =
      (findClass (registerAll dv ds) id).map fun c => (c.d, made c) := by
  have h1 := C191_registered dv ds hf id
  have h2 := C191_registered dv ds' (hf.perm hp) id
  have hb : ∀ o, Built dv ds' id o ↔ Built dv ds id o :=
    fun o => ⟨fun h => h.mono fun _ he => hp.mem_iff.1 he, fun h => h.mono fun _ he => hp.mem_iff.2 he⟩
  have hd : ∀ d, (findClass (registerAll dv ds') id).map (·.d) = some d ↔
      (findClass (registerAll dv ds) id).map (·.d) = some d := fun d => by rw [h1.1, h2.1, hp.mem_iff]
  have ho : ∀ o, (findClass (registerAll dv ds') id).bind made = some o ↔
      (findClass (registerAll dv ds) id).bind made = some o := fun o => by rw [h1.2, h2.2, hb]
  have hd := Option.ext hd
  have ho := Option.ext ho
  generalize findClass (registerAll dv ds') id = a at hd ho
  generalize findClass (registerAll dv ds) id = b at hd ho
  cases a with
  | none =>
    cases b with
    | none => rfl
    | some _ => cases hd
  | some x =>
    cases b with
    | none => cases hd
    | some y =>
      simp only [Option.map_some, Option.bind_some, Option.some.injEq] at hd ho ⊢
      rw [hd, ho]

/-- C191, once. Registering a class whose ID is taken changes nothing. -/
theorem C191_again (dv : Nat) (ds : List Def) (hf : Fits dv ds) (d : Def) (hd : d.id ∈ ds.map (·.id)) :
    register dv (registerAll dv ds) d = registerAll dv ds := by
  obtain ⟨e, he, hid⟩ := List.mem_map.1 hd
  obtain ⟨h, _, hp⟩ := registerAll_spec ds hf
  obtain ⟨c, hc, rfl⟩ := List.mem_map.1 (hp.mem_iff.2 he)
  unfold register
  rw [← hid, find_of_mem h.sorted hc]

/-- Four classes, each the parent of the next; the second has a larger table, the third, of the
default size, gets the size of the second. Class 9 waits for class 8, which is not defined. -/
def family : List Def :=
  [⟨4, 3, 2, [(1, 41)], [], false, 5⟩, ⟨9, 8, 2, [(0, 91)], [], true, 1⟩, ⟨3, 2, 2, [(2, 31), (2, 32)], [(7, 300)], false, 0⟩,
   ⟨1, 0, 2, [(0, 11), (1, 12)], [(7, 100), (5, 101)], true, 0⟩, ⟨2, 1, 4, [(3, 21)], [(6, 200), (6, 201)], false, 5⟩]

theorem not_built_of {dv ds i o} (h : Built dv ds i o) : ∃ d ∈ ds, d.id = i := by
  cases h with
  | root d h1 _ => exact ⟨d, h1, rfl⟩
  | child d _ h1 _ _ => exact ⟨d, h1, rfl⟩

/-- What is made of the family. -/
theorem family_built : ∀ i o, Built 2 family i o → i ≠ 9 ∧ (i = 1 → o.size = 2) ∧ (i ≠ 1 → o.size = 4) := by
  intro i o h
  induction h with
  | root d h1 h2 =>
    simp only [family, List.mem_cons, List.not_mem_nil, or_false] at h1
    rcases h1 with rfl | rfl | rfl | rfl | rfl <;> revert h2 <;> decide
  | child d o h1 h2 h3 ih =>
    simp only [family, List.mem_cons, List.not_mem_nil, or_false] at h1
    rcases h1 with rfl | rfl | rfl | rfl | rfl
    · exact ⟨by decide, fun e => absurd e (by decide), fun _ => ih.2.2 (by decide)⟩
    · obtain ⟨d, hd, e⟩ := not_built_of h3
      simp only [family, List.mem_cons, List.not_mem_nil, or_false] at hd
      rcases hd with rfl | rfl | rfl | rfl | rfl <;> cases e
    · exact ⟨by decide, fun e => absurd e (by decide), fun _ => ih.2.2 (by decide)⟩
    · exact absurd rfl h2
    · exact ⟨by decide, fun e => absurd e (by decide), fun _ => rfl⟩

theorem family_fits : Fits 2 family := by
  refine ⟨by decide, by decide, by decide, ?_, ?_⟩
  · intro d hd o h0 hb
    have := family_built _ o hb
    simp only [family, List.mem_cons, List.not_mem_nil, or_false] at hd
    rcases hd with rfl | rfl | rfl | rfl | rfl
    · exact Or.inl rfl
    · exact Or.inl rfl
    · exact Or.inl rfl
    · exact Or.inl rfl
    · right; rw [this.2.1 rfl]; decide
  · intro d hd o hb m hm
    have := family_built _ o hb
    simp only [family, List.mem_cons, List.not_mem_nil, or_false] at hd
    rcases hd with rfl | rfl | rfl | rfl | rfl
    · rw [this.2.2 (by decide)]; revert m; decide
    · exact absurd rfl this.1
    · rw [this.2.2 (by decide)]; revert m; decide
    · rw [this.2.1 rfl]; revert m; decide
    · rw [this.2.2 (by decide)]; revert m; decide

/-- The functions at places 0 to 3 and the attributes 5 to 8 of class 4. -/
def look (c : Cls) : Bool × Nat × List Nat × List (Option Nat) :=
  (c.inited, c.size, [0, 1, 2, 3].map c.vmt, [5, 6, 7, 8].map (getAttr c))

example : (findClass (registerAll 2 family) 4).map look =
    some (true, 4, [11, 41, 32, 21], [some 101, some 200, some 300, none]) := by decide +kernel
example : (findClass (registerAll 2 family.reverse) 4).map look =
    some (true, 4, [11, 41, 32, 21], [some 101, some 200, some 300, none]) := by decide +kernel
example : (findClass (registerAll 2 family) 9).map (·.inited) = some false ∧
    (findClass (registerAll 2 family) 8).isNone = true := by decide +kernel
example : Built 2 family 1 (derive 2 ⟨1, 0, 2, [(0, 11), (1, 12)], [(7, 100), (5, 101)], true, 0⟩ (base 2)) :=
  .root ⟨1, 0, 2, [(0, 11), (1, 12)], [(7, 100), (5, 101)], true, 0⟩ (by decide) rfl
/-- Two classes that are each other's parent are never initialised. -/
example : ((registerAll 2 [⟨1, 2, 2, [], [], false, 0⟩, ⟨2, 1, 2, [], [], false, 0⟩]).map fun c => c.inited) =
    [false, false] := by decide +kernel

/-! ### C192 -/

/-- What the registry shows of a class in a list. -/
theorem shown {dv : Nat} {ds : List Def} (hf : Fits dv ds) {c : Cls} (hc : c ∈ registerAll dv ds) :
    c.inited = true ∧ (∃ o, Built dv ds c.d.id o) ∨ c.inited = false ∧ ¬ ∃ o, Built dv ds c.d.id o := by
  obtain ⟨h, _, _⟩ := registerAll_spec ds hf
  have h2 := (C191_registered dv ds hf c.d.id).2
  rw [findClass_eq h.sorted h.zero, find_of_mem h.sorted hc] at h2
  cases hi : c.inited with
  | true => exact Or.inl ⟨rfl, _, (h2 _).1 (by show made c = _; unfold made; rw [if_pos hi])⟩
  | false =>
    refine Or.inr ⟨rfl, ?_⟩
    rintro ⟨o, ho⟩
    have := (h2 o).2 ho
    have : made c = some o := this
    unfold made at this
    rw [hi] at this
    cases this

/-- C192 for registries in which going from parent to parent ends (without that the search does
not end). With any rating of the classes, listing the classes of a kind ends, and gives, each
once, the IDs of exactly the classes that are of that kind by their definitions, rated above 0
and not abstract, ordered by falling rating, then falling priority, then rising ID. Asking for
the best class gives the first of that list, or 0 if it is empty. -/
theorem C192_list_partial (dv : Nat) (ds : List Def) (hf : Fits dv ds) (he : ∀ d ∈ ds, Ends ds d.id)
    (rate : Nat → Int) (id : Nat) :
    ∃ l : List (Def × Int), enumList (registerAll dv ds) rate id = some (l.map (·.1.id)) ∧
      enumBest (registerAll dv ds) rate id = some ((l.map (·.1.id)).headD 0) ∧
      (∀ d p, (d, p) ∈ l ↔ d ∈ ds ∧ IsA ds d.id id ∧ rate d.id > 0 ∧ Shown dv ds d false p) ∧
      l.Pairwise fun a b => rate a.1.id > rate b.1.id ∨
        rate a.1.id = rate b.1.id ∧ (a.2 > b.2 ∨ a.2 = b.2 ∧ a.1.id < b.1.id) := by
  obtain ⟨h, _, hp⟩ := registerAll_spec ds hf
  have hshown := @shown dv ds hf
  generalize registerAll dv ds = cs at *
  have hends : ∀ c ∈ cs, ∃ l, EndsL (cs.map (·.d)) c.d.id l ∧ l.length ≤ cs.length := by
    intro c hc
    obtain ⟨l, hl⟩ := (he c.d (hp.mem_iff.1 (List.mem_map.2 ⟨c, hc, rfl⟩))).list
    have hl' : EndsL (cs.map (·.d)) c.d.id l := by
      clear hc
      generalize c.d.id = i at hl
      induction hl with
      | missing i hm => exact .missing i fun d hd => hm d (hp.mem_iff.1 hd)
      | up d l h1 _ ih => exact .up d l (hp.mem_iff.2 h1) ih
    have := nodup_subset_length (hl'.nodup h.sorted.nodup) hl'.subset
    rw [List.length_map] at this
    exact ⟨l, hl', this⟩
  have hisA : ∀ i, IsA (cs.map (·.d)) i id ↔ IsA ds i id := by
    intro i
    constructor
    · intro k
      induction k with
      | self d h1 => exact .self d (hp.mem_iff.1 h1)
      | up d anc h1 h2 _ ih => exact .up d anc (hp.mem_iff.1 h1) h2 ih
    · intro k
      induction k with
      | self d h1 => exact .self d (hp.mem_iff.2 h1)
      | up d anc h1 h2 _ ih => exact .up d anc (hp.mem_iff.2 h1) h2 ih
  have hpart : ∀ c ∈ cs, ∃ b, isPartOf cs (cs.length + 1) (some c.d.id) id = some b ∧ (b = true ↔ IsA ds c.d.id id) := by
    intro c hc
    obtain ⟨l, hl, hlen⟩ := hends c hc
    refine ⟨_, isPartOf_spec h hl id _ (by omega), ?_⟩
    rw [decide_eq_true_iff, ← hisA, hl.isA h.sorted.nodup (fun d hd => h.fits.nonzero d hd)]
  have hcand := candidates_spec (all := cs) (rate := rate) (id := id) cs
    (fun c hc => by obtain ⟨b, hb, _⟩ := hpart c hc; exact ⟨b, hb⟩)
  generalize hl0 : cs.filter (fun c => !c.abstract_ && isPartOf cs (cs.length + 1) (some c.d.id) id == some true &&
    decide (rate c.d.id > 0)) = l0 at hcand
  have hmem0 : ∀ c, c ∈ l0 ↔ c ∈ cs ∧ c.abstract_ = false ∧ IsA ds c.d.id id ∧ rate c.d.id > 0 := by
    intro c
    rw [← hl0, List.mem_filter]
    constructor
    · rintro ⟨hc, e⟩
      obtain ⟨b, hb, hb2⟩ := hpart c hc
      simp only [hb, Bool.and_eq_true, Bool.not_eq_true', decide_eq_true_eq, beq_iff_eq, Option.some.injEq] at e
      exact ⟨hc, e.1.1, hb2.1 e.1.2, e.2⟩
    · rintro ⟨hc, e1, e2, e3⟩
      obtain ⟨b, hb, hb2⟩ := hpart c hc
      refine ⟨hc, ?_⟩
      simp only [hb, Bool.and_eq_true, Bool.not_eq_true', decide_eq_true_eq, beq_iff_eq, Option.some.injEq]
      exact ⟨⟨e1, hb2.2 e2⟩, e3⟩
  have hs0 : Sorted l0 := by rw [← hl0]; exact List.Pairwise.filter _ h.sorted
  obtain ⟨l1, hsort, hperm, hpw⟩ := (C48_sort_orders (cmpRated rate) (cmpRated_total rate) false l0).1
  have hmem1 : ∀ c, c ∈ l1 ↔ c ∈ cs ∧ c.abstract_ = false ∧ IsA ds c.d.id id ∧ rate c.d.id > 0 :=
    fun c => hperm.mem_iff.trans (hmem0 c)
  have hprio : ∀ c ∈ cs, Shown dv ds c.d c.abstract_ c.prio ∧ ∀ a p, Shown dv ds c.d a p → a = c.abstract_ ∧ p = c.prio := by
    intro c hc
    unfold Shown
    rcases hshown hc with ⟨hi, hb⟩ | ⟨hi, hb⟩
    · obtain ⟨_, _, _, _, _, g5, g6⟩ := h.good c hc hi
      rw [g5, g6]
      refine ⟨Or.inl ⟨hb, rfl, rfl⟩, ?_⟩
      rintro a p (⟨_, e1, e2⟩ | ⟨k, _⟩)
      · exact ⟨e1, e2⟩
      · exact absurd hb k
    · obtain ⟨g5, g6⟩ : c.abstract_ = false ∧ c.prio = 0 := h.idle c hc hi
      rw [g5, g6]
      refine ⟨Or.inr ⟨hb, rfl, rfl⟩, ?_⟩
      rintro a p (⟨k, _⟩ | ⟨_, e1, e2⟩)
      · exact absurd k hb
      · exact ⟨e1, e2⟩
  refine ⟨l1.map fun c => (c.d, c.prio), ?_, ?_, ?_, ?_⟩
  · unfold enumList
    rw [hcand]
    simp only
    rw [hsort, Option.map_some, List.map_map]
    rfl
  · unfold enumBest
    rw [hcand, Option.map_some, List.map_map]
    congr 1
    rcases better_spec rate l0 [] (0, 0, 0) hs0 (fun x hx => ((hmem0 x).1 hx).2.2.2) (Or.inl ⟨rfl, rfl⟩) _ rfl with
      ⟨e1, e2⟩ | ⟨c, hc, e1, e2⟩
    · rw [e2]
      have : l0 = [] := e1
      rw [this] at hperm
      rw [List.Perm.eq_nil hperm]
      rfl
    · rw [e1]
      simp only [List.nil_append] at hc e2
      cases hl1 : l1 with
      | nil =>
        have := hperm.mem_iff.2 hc
        rw [hl1] at this
        cases this
      | cons x r =>
        have hx : x ∈ l0 := hperm.mem_iff.1 (by rw [hl1]; exact List.mem_cons_self ..)
        have h1 := e2 x hx
        have h2 : cmpRated rate x c ≤ 0 := by
          have hc1 := hperm.mem_iff.2 hc
          rw [hl1] at hc1 hpw
          rcases List.mem_cons.1 hc1 with rfl | hc1
          · rw [(cmpRated_total rate).refl]; exact Int.le_refl _
          · exact (List.pairwise_cons.1 hpw).1 c hc1
        show c.d.id = x.d.id
        rw [cmpRated_le] at h1 h2
        omega
  · intro d p
    rw [List.mem_map]
    constructor
    · rintro ⟨c, hc, e⟩
      cases e
      obtain ⟨k1, k2, k3, k4⟩ := (hmem1 c).1 hc
      exact ⟨hp.mem_iff.1 (List.mem_map.2 ⟨c, k1, rfl⟩), k3, k4, k2 ▸ (hprio c k1).1⟩
    · rintro ⟨k1, k2, k3, k4⟩
      obtain ⟨c, hc, rfl⟩ := List.mem_map.1 (hp.mem_iff.2 k1)
      obtain ⟨e1, e2⟩ := (hprio c hc).2 _ _ k4
      exact ⟨c, (hmem1 c).2 ⟨hc, e1.symm, k2, k3⟩, by rw [e2]⟩
  · rw [List.pairwise_map]
    have hnd : l1.Pairwise fun a b => a.d.id ≠ b.d.id := by
      have : l0.Pairwise fun a b => a.d.id ≠ b.d.id := hs0.imp fun {a b} hab => by omega
      exact (hperm.pairwise_iff (fun {a b} hab => Ne.symm hab)).2 this
    refine (hpw.and hnd).imp fun {a b} hab => ?_
    have := cmpRated_le.1 hab.1
    have := hab.2
    simp only
    omega

/-- C192 is false in general: with two classes that are each other's parent, searching for
classes of another kind does not end within any number of steps. -/
theorem C192_counterexample (n : Nat) :
    isPartOf (registerAll 2 [⟨1, 2, 2, [], [], false, 0⟩, ⟨2, 1, 2, [], [], false, 0⟩]) n (some 1) 3 = none ∧
    isPartOf (registerAll 2 [⟨1, 2, 2, [], [], false, 0⟩, ⟨2, 1, 2, [], [], false, 0⟩]) n (some 2) 3 = none := by
  have h1 : ∀ c, find (registerAll 2 [⟨1, 2, 2, [], [], false, 0⟩, ⟨2, 1, 2, [], [], false, 0⟩]) 1 = some c →
      c.d.id = 1 ∧ c.parent = some 2 := by
    intro c hc
    have : (find (registerAll 2 [⟨1, 2, 2, [], [], false, 0⟩, ⟨2, 1, 2, [], [], false, 0⟩]) 1).map
      (fun c => (c.d.id, c.parent)) = some (1, some 2) := by decide +kernel
    rw [hc] at this
    simpa using this
  have h2 : ∀ c, find (registerAll 2 [⟨1, 2, 2, [], [], false, 0⟩, ⟨2, 1, 2, [], [], false, 0⟩]) 2 = some c →
      c.d.id = 2 ∧ c.parent = some 1 := by
    intro c hc
    have : (find (registerAll 2 [⟨1, 2, 2, [], [], false, 0⟩, ⟨2, 1, 2, [], [], false, 0⟩]) 2).map
      (fun c => (c.d.id, c.parent)) = some (2, some 1) := by decide +kernel
    rw [hc] at this
    simpa using this
  have f1 : (find (registerAll 2 [⟨1, 2, 2, [], [], false, 0⟩, ⟨2, 1, 2, [], [], false, 0⟩]) 1).isSome = true := by
    decide +kernel
  have f2 : (find (registerAll 2 [⟨1, 2, 2, [], [], false, 0⟩, ⟨2, 1, 2, [], [], false, 0⟩]) 2).isSome = true := by
    decide +kernel
  generalize registerAll 2 [⟨1, 2, 2, [], [], false, 0⟩, ⟨2, 1, 2, [], [], false, 0⟩] = cs at *
  obtain ⟨c1, e1⟩ := Option.isSome_iff_exists.1 f1
  obtain ⟨c2, e2⟩ := Option.isSome_iff_exists.1 f2
  obtain ⟨i1, p1⟩ := h1 c1 e1
  obtain ⟨i2, p2⟩ := h2 c2 e2
  induction n with
  | zero => exact ⟨rfl, rfl⟩
  | succ n ih =>
    constructor
    · unfold isPartOf
      simp only [Option.bind_some, e1, i1, p1]
      exact ih.2
    · unfold isPartOf
      simp only [Option.bind_some, e2, i2, p2]
      exact ih.1

example : enumList (registerAll 2 family) (fun _ => 1) 1 = some [2, 4, 3] ∧
    enumBest (registerAll 2 family) (fun _ => 1) 1 = some 2 ∧
    enumList (registerAll 2 family) (fun i => if i = 4 then 2 else 1) 2 = some [4, 2, 3] ∧
    enumList (registerAll 2 family) (fun _ => 1) 8 = some [] ∧
    enumBest (registerAll 2 family) (fun _ => 1) 8 = some 0 ∧
    enumList (registerAll 2 family) (fun _ => 1) 9 = some [9] := by decide +kernel
/-- Going from parent to parent ends in the family. -/
theorem family_ends : ∀ d ∈ family, Ends family d.id := by
  have h0 : Ends family 0 := .missing 0 (by decide)
  have h8 : Ends family 8 := .missing 8 (by decide)
  have h1 : Ends family 1 := .up ⟨1, 0, 2, [(0, 11), (1, 12)], [(7, 100), (5, 101)], true, 0⟩ (by decide) h0
  have h2 : Ends family 2 := .up ⟨2, 1, 4, [(3, 21)], [(6, 200), (6, 201)], false, 5⟩ (by decide) h1
  have h3 : Ends family 3 := .up ⟨3, 2, 2, [(2, 31), (2, 32)], [(7, 300)], false, 0⟩ (by decide) h2
  have h4 : Ends family 4 := .up ⟨4, 3, 2, [(1, 41)], [], false, 5⟩ (by decide) h3
  have h9 : Ends family 9 := .up ⟨9, 8, 2, [(0, 91)], [], true, 1⟩ (by decide) h8
  intro d hd
  simp only [family, List.mem_cons, List.not_mem_nil, or_false] at hd
  rcases hd with rfl | rfl | rfl | rfl | rfl <;> assumption

end Verif.Core.Classes
