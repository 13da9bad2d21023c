import Verif.Core.SortLemmas
import Verif.Mkv.Order
import Verif.Props.Order
/-!
Properties C47-C50 and C78-C80: sorting, searching, sorted sets; sorting the children of a
master element.
-/
namespace Verif.Core
open Verif

variable {α : Type}

/-! ### C47 -/

theorem sortEx_eq (cmp : α → α → Int) (hr : ∀ x, 0 ≤ cmp x x) (word unique : Bool) (a : List α) :
    ∃ b, b.Perm a ∧ (word = false ∨ a.length ≤ 17 → b = a) ∧
      sortEx cmp word unique a = some (if unique then uniq cmp (inSort cmp b) else inSort cmp b) := by
  unfold sortEx
  by_cases h : a.length ≤ 1
  · rw [if_pos h]
    refine ⟨a, List.Perm.refl _, fun _ => rfl, ?_⟩
    match a, h with
    | [], _ => cases unique <;> rfl
    | [x], _ => cases unique <;> rfl
  · rw [if_neg h]
    have hq : ∃ b, (if word then qsort cmp (a.length + 1) a 0 (a.length - 1) else some a) = some b ∧ b.Perm a ∧
        (word = false ∨ a.length ≤ 17 → b = a) := by
      cases word
      · exact ⟨a, rfl, List.Perm.refl _, fun _ => rfl⟩
      · by_cases h17 : a.length ≤ 17
        · refine ⟨a, ?_, List.Perm.refl _, fun _ => rfl⟩
          show qsort cmp (a.length + 1) a 0 (a.length - 1) = _
          unfold qsort
          rw [if_neg (by omega)]
        · obtain ⟨b, h1, h2⟩ := qsort_spec cmp hr (a.length + 1) a 0 (a.length - 1) (by omega) (by omega) (by omega)
          refine ⟨b, h1, h2, ?_⟩
          rintro (e | e)
          · cases e
          · exact absurd e h17
    obtain ⟨b, h1, h2, h3⟩ := hq
    refine ⟨b, h2, h3, ?_⟩
    rw [h1]
    simp only
    have hl := h2.length_eq
    have := insertLoop_eq cmp b (by intro e; rw [e] at hl; simp at hl; omega)
    rw [hl] at this
    rw [this]
    simp only
    cases unique <;> rfl

/-- C47. For every comparison that does not report an element as less than itself, consistent
or not, sorting stays within the array, ends, and gives a permutation of the elements; with the
unique option, some of the elements of a permutation. -/
theorem C47_sort_permutes (cmp : α → α → Int) (hr : ∀ x, 0 ≤ cmp x x) (word : Bool) (a : List α) :
    (∃ a', sortEx cmp word false a = some a' ∧ a'.Perm a) ∧
    (∃ a' b, sortEx cmp word true a = some a' ∧ b.Perm a ∧ a'.Sublist b) := by
  constructor
  · obtain ⟨b, h1, _, h2⟩ := sortEx_eq cmp hr word false a
    exact ⟨_, h2, (inSort_perm cmp b).trans h1⟩
  · obtain ⟨b, h1, _, h2⟩ := sortEx_eq cmp hr word true a
    refine ⟨_, inSort cmp b, h2, (inSort_perm cmp b).trans h1, ?_⟩
    show (uniq cmp (inSort cmp b)).Sublist _
    cases inSort cmp b with
    | nil => exact List.Sublist.refl _
    | cons x r => exact uniqLoop_sublist cmp x r

/-- The condition on the comparison is needed: with one that reports every element as less than
every other and itself, sorting 18 pointers reads before the array. -/
theorem C47_needs_reflexive : (sortEx (fun _ _ : Nat => -1) true false (List.range 18)).isNone = true := by
  decide +kernel

/-- An inconsistent comparison (rock, paper, scissors) on 20 elements. -/
example : (sortEx (fun a b : Nat => if a % 3 = b % 3 then 0 else if (a + 1) % 3 = b % 3 then -1 else 1) true false
    (List.range 20)).map List.length = some 20 := by decide +kernel

/-! ### C48 -/

/-- C48. With a total preorder, sorting gives a non-decreasing array; with the unique option a
strictly increasing one, made of elements of the array, with an equal one for each of them. -/
theorem C48_sort_orders (cmp : α → α → Int) (ht : Total cmp) (word : Bool) (a : List α) :
    (∃ a', sortEx cmp word false a = some a' ∧ a'.Perm a ∧ a'.Pairwise fun x y => cmp x y ≤ 0) ∧
    (∃ a', sortEx cmp word true a = some a' ∧ (a'.Pairwise fun x y => cmp x y < 0) ∧
      (∀ x ∈ a', x ∈ a) ∧ ∀ x ∈ a, ∃ y ∈ a', cmp x y = 0) := by
  have hr : ∀ x, 0 ≤ cmp x x := fun x => by rw [ht.refl]; exact Int.le_refl _
  constructor
  · obtain ⟨b, h1, _, h2⟩ := sortEx_eq cmp hr word false a
    exact ⟨_, h2, (inSort_perm cmp b).trans h1, inSort_sorted ht b⟩
  · obtain ⟨b, h1, _, h2⟩ := sortEx_eq cmp hr word true a
    have hs := inSort_sorted ht b
    have hp := (inSort_perm cmp b).trans h1
    refine ⟨_, h2, ?_⟩
    show (uniq cmp (inSort cmp b)).Pairwise _ ∧ _
    generalize inSort cmp b = c at hs hp
    cases c with
    | nil =>
      refine ⟨List.Pairwise.nil, fun x hx => (by cases hx), fun x hx => ?_⟩
      have := hp.mem_iff.2 hx
      cases this
    | cons x r =>
      refine ⟨uniqLoop_strict ht x r hs, ?_, ?_⟩
      · intro y hy
        exact hp.mem_iff.1 ((uniqLoop_sublist cmp x r).subset hy)
      · intro y hy
        exact uniqLoop_covers ht x r y (hp.mem_iff.2 hy)

/-- Comparison of numbers. -/
def natCmp (a b : Nat) : Int := (a : Int) - b

theorem natCmp_total : Total natCmp :=
  ⟨fun a b => by unfold natCmp; omega, fun a b c => by unfold natCmp; omega⟩

example : sortEx natCmp true false
    [5, 3, 9, 1, 7, 7, 2, 8, 0, 4, 6, 11, 19, 13, 12, 17, 15, 14, 10, 18, 16, 20] =
    some [0, 1, 2, 3, 4, 5, 6, 7, 7, 8, 9, 10, 11, 12, 13, 14, 15, 16, 17, 18, 19, 20] := by decide +kernel
example : sortEx natCmp false true [5, 3, 5, 1, 3] = some [1, 3, 5] := by decide +kernel

/-! ### C78 -/

/-- C78 without its large arrays of pointers: elements that compare equal keep their order when
the array has at most 17 elements or elements of another size than a pointer. -/
theorem C78_sort_is_stable_partial (cmp : α → α → Int) (ht : Total cmp) (word : Bool) (a : List α)
    (h : word = false ∨ a.length ≤ 17) (k : α) :
    ∃ a', sortEx cmp word false a = some a' ∧
      a'.filter (fun x => cmp x k = 0) = a.filter (fun x => cmp x k = 0) := by
  have hr : ∀ x, 0 ≤ cmp x x := fun x => by rw [ht.refl]; exact Int.le_refl _
  obtain ⟨b, _, h1, h2⟩ := sortEx_eq cmp hr word false a
  rw [h1 h] at h2
  exact ⟨_, h2, inSort_stable ht k a⟩

/-- Compare by the first component only. -/
def fstCmp (a b : Nat × Nat) : Int := (a.1 : Int) - b.1

/-- C78 is false for 18 pointers. -/
theorem C78_counterexample :
    Total fstCmp ∧
    (sortEx fstCmp true false ((List.range 18).map fun i => (0, i))).map
      (fun l => decide (l = (List.range 18).map fun i => (0, i))) = some false :=
  ⟨⟨fun a b => by unfold fstCmp; omega, fun a b c => by unfold fstCmp; omega⟩, by decide +kernel⟩

/-! ### C49 -/

/-- C49. On a sorted array the lookup finds an element equal to the key if there is one;
otherwise it gives the place before which all elements are less than the key and from which on
all are greater. -/
theorem C49_binary_search (cmp : α → α → Int) (ht : Total cmp) (a : List α)
    (hs : a.Pairwise fun x y => cmp x y ≤ 0) (k : α) :
    (∃ m : Nat, ∃ h : m < a.length, findEx (fun y => cmp y k) a = some (true, (m : Int)) ∧ cmp a[m] k = 0) ∨
    ((∀ x ∈ a, cmp x k ≠ 0) ∧
      ∃ p : Nat, findEx (fun y => cmp y k) a = some (false, (p : Int)) ∧ p ≤ a.length ∧
        (∀ x ∈ a.take p, cmp x k < 0) ∧ (∀ x ∈ a.drop p, cmp x k > 0) ∧
        (a.take p ++ k :: a.drop p).Pairwise fun x y => cmp x y ≤ 0) := by
  rcases findEx_spec ht a hs k with h | ⟨p, h1, h2, h3, h4⟩
  · exact Or.inl h
  · right
    have ht' : ∀ x ∈ a.take p, cmp x k < 0 := by
      intro x hx
      obtain ⟨i, hi, rfl⟩ := List.mem_iff_getElem.1 hx
      rw [List.length_take] at hi
      rw [List.getElem_take]
      exact h3 i (by omega) (by omega)
    have hd' : ∀ x ∈ a.drop p, cmp x k > 0 := by
      intro x hx
      obtain ⟨i, hi, rfl⟩ := List.mem_iff_getElem.1 hx
      rw [List.length_drop] at hi
      rw [List.getElem_drop]
      exact h4 (p + i) (by omega) (by omega)
    refine ⟨?_, p, h1, h2, ht', hd', ?_⟩
    · intro x hx
      rw [← List.take_append_drop p a, List.mem_append] at hx
      rcases hx with hx | hx
      · have := ht' x hx; omega
      · have := hd' x hx; omega
    · rw [← List.take_append_drop p a, List.pairwise_append] at hs
      rw [List.pairwise_append, List.pairwise_cons]
      refine ⟨hs.1, ⟨fun y hy => ?_, hs.2.1⟩, fun x hx y hy => ?_⟩
      · have := hd' y hy
        have := ht.flip k y
        omega
      · rcases List.mem_cons.1 hy with rfl | hy
        · have := ht' x hx; omega
        · exact hs.2.2 x hx y hy

/-- On every array, sorted or not, and for every comparison, the lookup stays within the array,
ends, and only reports elements equal to the key. -/
theorem C49_search_is_safe (c : α → Int) (a : List α) :
    (∃ m : Nat, ∃ h : m < a.length, findEx c a = some (true, (m : Int)) ∧ c a[m] = 0) ∨
    ∃ p : Nat, findEx c a = some (false, (p : Int)) ∧ p ≤ a.length := by
  unfold findEx
  by_cases h0 : a = []
  · right; subst h0; exact ⟨0, rfl, Nat.le_refl _⟩
  · rw [if_neg h0]
    have hlen : 0 < a.length := List.length_pos_iff.2 h0
    exact bsearch_safe c a _ _ _ _ (Int.le_refl _) (by omega) (by omega) (by omega)

theorem findEq_gen [DecidableEq α] (x : α) (a : List α) (n : Nat) :
    (x ∈ a ∧ findEq x a n = (true, n + a.idxOf x)) ∨ (x ∉ a ∧ findEq x a n = (false, n + a.length)) := by
  induction a generalizing n with
  | nil => exact Or.inr ⟨List.not_mem_nil, rfl⟩
  | cons y r ih =>
    unfold findEq
    by_cases h : y = x
    · left
      rw [if_pos h]
      refine ⟨by rw [h]; exact List.mem_cons_self, ?_⟩
      rw [h, List.idxOf_cons_self]; rfl
    · rw [if_neg h]
      rcases ih (n + 1) with ⟨h1, h2⟩ | ⟨h1, h2⟩
      · left
        refine ⟨List.mem_cons_of_mem _ h1, ?_⟩
        have e : (y :: r).idxOf x = r.idxOf x + 1 := by
          rw [List.idxOf_cons, beq_false_of_ne h]; rfl
        rw [h2, e]
        simp only [Prod.mk.injEq, true_and]
        omega
      · right
        refine ⟨?_, ?_⟩
        · intro hx
          rcases List.mem_cons.1 hx with e | e
          · exact h e.symm
          · exact h1 e
        · rw [h2, List.length_cons]
          simp only [Prod.mk.injEq, true_and]
          omega

/-- The lookup without a comparison function finds the first element with the same bytes, or
reports the end of the array. -/
theorem C49_linear_search [DecidableEq α] (x : α) (a : List α) :
    (x ∈ a ∧ findEq x a 0 = (true, a.idxOf x)) ∨ (x ∉ a ∧ findEq x a 0 = (false, a.length)) := by
  rcases findEq_gen x a 0 with ⟨h1, h2⟩ | ⟨h1, h2⟩
  · exact Or.inl ⟨h1, by rw [h2, Nat.zero_add]⟩
  · exact Or.inr ⟨h1, by rw [h2, Nat.zero_add]⟩

example : findEx (fun y => natCmp y 7) [1, 3, 7, 9] = some (true, 2) ∧
    findEx (fun y => natCmp y 8) [1, 3, 7, 9] = some (false, 3) ∧
    findEx (fun y => natCmp y 0) [1, 3, 7, 9] = some (false, 0) ∧
    findEq 7 [9, 7, 7] 0 = (true, 1) := by decide +kernel

/-! ### C50 -/

/-- The keys after a history of successful operations, as a predicate. -/
def keysAfter (cmp : α → α → Int) : List (SOp α) → List Bool → (α → Prop) → α → Prop
  | .add x :: ops, true :: fs, S => keysAfter cmp ops fs fun k => S k ∨ cmp x k = 0
  | .add _ :: ops, false :: fs, S => keysAfter cmp ops fs S
  | .remove x :: ops, _ :: fs, S => keysAfter cmp ops fs fun k => S k ∧ cmp x k ≠ 0
  | _, _, S => S

/-- There is an element equal to `k`. -/
def Has (cmp : α → α → Int) (a : List α) (k : α) : Prop := ∃ e ∈ a, cmp e k = 0

theorem Total.eqv_symm {cmp : α → α → Int} (h : Total cmp) {a b : α} (e : cmp a b = 0) : cmp b a = 0 := by
  have := h.flip a b; have := h.flip b a; omega

theorem Total.eqv_trans {cmp : α → α → Int} (h : Total cmp) {a b c : α} (e : cmp a b = 0) (f : cmp b c = 0) :
    cmp a c = 0 := by
  have h1 := h.trans a b c (by omega) (by omega)
  have e' := h.eqv_symm e
  have f' := h.eqv_symm f
  have h2 := h.trans c b a (by omega) (by omega)
  have := h.flip a c
  omega

theorem Total.lt_eqv {cmp : α → α → Int} (h : Total cmp) {a b c : α} (e : cmp a b < 0) (f : cmp b c = 0) :
    cmp a c < 0 := by
  have f' := h.eqv_symm f
  have h1 := h.trans a b c (by omega) (by omega)
  by_cases h2 : cmp a c = 0
  · have := h.eqv_trans h2 f'; omega
  · omega

theorem Total.eqv_lt {cmp : α → α → Int} (h : Total cmp) {a b c : α} (e : cmp a b = 0) (f : cmp b c < 0) :
    cmp a c < 0 := by
  have h1 := h.trans a b c (by omega) (by omega)
  by_cases h2 : cmp a c = 0
  · have := h.eqv_trans (h.eqv_symm e) h2; omega
  · omega

theorem weak {cmp : α → α → Int} {a : List α} (hs : a.Pairwise fun x y => cmp x y < 0) :
    a.Pairwise fun x y => cmp x y ≤ 0 := hs.imp (fun h => by omega)

/-- One addition to a strictly sorted array. -/
theorem addEx_spec {cmp : α → α → Int} (ht : Total cmp) (ok : Bool) (a : List α)
    (hs : a.Pairwise fun x y => cmp x y < 0) (x : α) :
    (ok = false ∧ ¬ Has cmp a x ∧ addEx cmp ok a x = some (-1, a)) ∨
    ∃ (p : Nat) (a' : List α), addEx cmp ok a x = some ((p : Int), a') ∧ a'[p]? = some x ∧
      (a'.Pairwise fun x y => cmp x y < 0) ∧ ∀ k, Has cmp a' k ↔ Has cmp a k ∨ cmp x k = 0 := by
  unfold addEx
  rcases findEx_spec ht a (weak hs) x with ⟨m, hm, h1, h2⟩ | ⟨p, h1, h2, h3, h4⟩
  · right
    rw [h1]
    simp only
    refine ⟨m, _, rfl, ?_, ?_, ?_⟩
    · rw [Int.toNat_natCast, List.getElem?_set_self hm]
    · rw [Int.toNat_natCast, List.pairwise_iff_getElem]
      intro i j hi hj hij
      rw [List.length_set] at hi hj
      rw [List.getElem_set, List.getElem_set]
      have := List.pairwise_iff_getElem.1 hs
      by_cases e1 : m = i
      · rw [if_pos e1, if_neg (by omega)]
        subst e1
        exact ht.eqv_lt (ht.eqv_symm h2) (this m j hm hj hij)
      · rw [if_neg e1]
        by_cases e2 : m = j
        · rw [if_pos e2]
          subst e2
          exact ht.lt_eqv (this i m hi hm hij) h2
        · rw [if_neg e2]; exact this i j hi hj hij
    · intro k
      rw [Int.toNat_natCast]
      constructor
      · rintro ⟨e, he, hek⟩
        rcases List.mem_or_eq_of_mem_set he with he | rfl
        · exact Or.inl ⟨e, he, hek⟩
        · exact Or.inr hek
      · have hx : x ∈ a.set m x := List.mem_set hm x
        rintro (⟨e, he, hek⟩ | hk)
        · obtain ⟨i, hi, rfl⟩ := List.mem_iff_getElem.1 he
          by_cases e1 : m = i
          · subst e1
            exact ⟨x, hx, ht.eqv_trans (ht.eqv_symm h2) hek⟩
          · refine ⟨a[i], List.mem_iff_getElem.2 ⟨i, by simpa using hi, ?_⟩, hek⟩
            rw [List.getElem_set_ne e1]
        · exact ⟨x, hx, hk⟩
  · rw [h1]
    simp only
    have ht' : ∀ y ∈ a.take p, cmp y x < 0 := by
      intro y hy
      obtain ⟨i, hi, rfl⟩ := List.mem_iff_getElem.1 hy
      rw [List.length_take] at hi
      rw [List.getElem_take]
      exact h3 i (by omega) (by omega)
    have hd' : ∀ y ∈ a.drop p, cmp y x > 0 := by
      intro y hy
      obtain ⟨i, hi, rfl⟩ := List.mem_iff_getElem.1 hy
      rw [List.length_drop] at hi
      rw [List.getElem_drop]
      exact h4 (p + i) (by omega) (by omega)
    cases ok
    · left
      refine ⟨rfl, ?_, rfl⟩
      rintro ⟨e, he, hek⟩
      rw [← List.take_append_drop p a, List.mem_append] at he
      rcases he with he | he
      · have := ht' e he; omega
      · have := hd' e he; omega
    · right
      rw [if_pos rfl]
      refine ⟨p, _, rfl, ?_, ?_, ?_⟩
      · rw [Int.toNat_natCast, List.getElem?_append_right (by rw [List.length_take]; omega), List.length_take,
          Nat.min_eq_left h2, Nat.sub_self]; rfl
      · rw [Int.toNat_natCast]
        have hs' := hs
        rw [← List.take_append_drop p a, List.pairwise_append] at hs'
        rw [List.pairwise_append, List.pairwise_cons]
        refine ⟨hs'.1, ⟨fun y hy => ?_, hs'.2.1⟩, fun y hy z hz => ?_⟩
        · have := hd' y hy
          have := ht.flip x y
          omega
        · rcases List.mem_cons.1 hz with rfl | hz
          · exact ht' y hy
          · exact hs'.2.2 y hy z hz
      · intro k
        rw [Int.toNat_natCast]
        unfold Has
        constructor
        · rintro ⟨e, he, hek⟩
          rw [List.mem_append, List.mem_cons] at he
          rcases he with he | rfl | he
          · exact Or.inl ⟨e, List.mem_of_mem_take he, hek⟩
          · exact Or.inr hek
          · exact Or.inl ⟨e, List.mem_of_mem_drop he, hek⟩
        · rintro (⟨e, he, hek⟩ | hk)
          · rw [← List.take_append_drop p a, List.mem_append] at he
            refine ⟨e, ?_, hek⟩
            rw [List.mem_append, List.mem_cons]
            rcases he with he | he
            · exact Or.inl he
            · exact Or.inr (Or.inr he)
          · exact ⟨x, by rw [List.mem_append, List.mem_cons]; exact Or.inr (Or.inl rfl), hk⟩

/-- One removal from a strictly sorted array. -/
theorem removeEx_spec {cmp : α → α → Int} (ht : Total cmp) (a : List α)
    (hs : a.Pairwise fun x y => cmp x y < 0) (x : α) :
    ∃ f a', removeEx cmp a x = some (f, a') ∧ (f = true ↔ Has cmp a x) ∧
      (a'.Pairwise fun x y => cmp x y < 0) ∧ (∀ k, Has cmp a' k ↔ Has cmp a k ∧ cmp x k ≠ 0) ∧
      (∀ e, e ∈ a' ↔ e ∈ a ∧ cmp e x ≠ 0) := by
  unfold removeEx
  have fin : ∀ a' : List α, (∀ e, e ∈ a' ↔ e ∈ a ∧ cmp e x ≠ 0) →
      ∀ k, Has cmp a' k ↔ Has cmp a k ∧ cmp x k ≠ 0 := by
    intro a' h k
    constructor
    · rintro ⟨e, he, hek⟩
      have := (h e).1 he
      refine ⟨⟨e, this.1, hek⟩, fun hx => this.2 ?_⟩
      exact ht.eqv_trans hek (ht.eqv_symm hx)
    · rintro ⟨⟨e, he, hek⟩, hx⟩
      refine ⟨e, (h e).2 ⟨he, fun hh => hx ?_⟩, hek⟩
      exact ht.eqv_trans (ht.eqv_symm hh) hek
  rcases findEx_spec ht a (weak hs) x with ⟨m, hm, h1, h2⟩ | ⟨p, h1, h2, h3, h4⟩
  · rw [h1]
    simp only
    have hmem : ∀ e, e ∈ a.take (m : Int).toNat ++ a.drop ((m : Int).toNat + 1) ↔ e ∈ a ∧ cmp e x ≠ 0 := by
      intro e
      rw [Int.toNat_natCast]
      have hsp := List.pairwise_iff_getElem.1 hs
      constructor
      · intro he
        rw [List.mem_append] at he
        rcases he with he | he
        · obtain ⟨i, hi, rfl⟩ := List.mem_iff_getElem.1 he
          rw [List.length_take] at hi
          rw [List.getElem_take]
          refine ⟨List.getElem_mem _, ?_⟩
          have := ht.lt_eqv (hsp i m (by omega) hm (by omega)) h2
          omega
        · obtain ⟨i, hi, rfl⟩ := List.mem_iff_getElem.1 he
          rw [List.length_drop] at hi
          rw [List.getElem_drop]
          refine ⟨List.getElem_mem _, ?_⟩
          intro hh
          have h5 := ht.lt_eqv (hsp m (m + 1 + i) hm (by omega) (by omega)) hh
          omega
      · rintro ⟨he, hne⟩
        obtain ⟨i, hi, rfl⟩ := List.mem_iff_getElem.1 he
        rw [List.mem_append]
        by_cases e1 : i < m
        · left
          exact List.mem_iff_getElem.2 ⟨i, by rw [List.length_take]; omega, by rw [List.getElem_take]⟩
        · by_cases e2 : i = m
          · subst e2; exact absurd h2 hne
          · right
            refine List.mem_iff_getElem.2 ⟨i - (m + 1), by rw [List.length_drop]; omega, ?_⟩
            rw [List.getElem_drop]
            congr 1
            omega
    refine ⟨true, _, rfl, ⟨fun _ => ⟨a[m], List.getElem_mem _, h2⟩, fun _ => rfl⟩, ?_, fin _ hmem, hmem⟩
    rw [Int.toNat_natCast]
    refine List.Pairwise.sublist ?_ hs
    have := List.take_append_drop m a
    conv => rhs; rw [← List.take_append_drop m a]
    refine List.Sublist.append_left ?_ _
    rw [← List.drop_drop]
    exact List.drop_sublist _ _
  · rw [h1]
    simp only
    have hno : ∀ e ∈ a, cmp e x ≠ 0 := by
      intro e he
      obtain ⟨i, hi, rfl⟩ := List.mem_iff_getElem.1 he
      by_cases e1 : i < p
      · have := h3 i hi e1; omega
      · have := h4 i hi (by omega); omega
    have hmem : ∀ e, e ∈ a ↔ e ∈ a ∧ cmp e x ≠ 0 := fun e => ⟨fun he => ⟨he, hno e he⟩, fun h => h.1⟩
    refine ⟨false, a, rfl, ⟨fun h => (by cases h), ?_⟩, hs, fin a hmem, hmem⟩
    rintro ⟨e, he, hek⟩
    exact absurd hek (hno e he)

theorem setRun_spec {cmp : α → α → Int} (ht : Total cmp) (ops : List (SOp α × Bool)) (a : List α)
    (hs : a.Pairwise fun x y => cmp x y < 0) (S : α → Prop) (hS : ∀ k, Has cmp a k ↔ S k) :
    ∃ fs a', setRun cmp ops a = some (fs, a') ∧ (a'.Pairwise fun x y => cmp x y < 0) ∧
      ∀ k, Has cmp a' k ↔ keysAfter cmp (ops.map (·.1)) fs S k := by
  induction ops generalizing a S with
  | nil => exact ⟨[], a, rfl, hs, hS⟩
  | cons q r ih =>
    obtain ⟨op, ok⟩ := q
    unfold setRun
    cases op with
    | add x =>
      rcases addEx_spec ht ok a hs x with ⟨h0, h1, h2⟩ | ⟨p, a', h1, h2, h3, h4⟩
      · obtain ⟨fs, a', i1, i2, i3⟩ := ih a hs S hS
        refine ⟨false :: fs, a', ?_, i2, i3⟩
        rw [setStep, h2]
        simp only [Option.map_some]
        rw [i1]; rfl
      · obtain ⟨fs, b, i1, i2, i3⟩ := ih a' h3 (fun k => S k ∨ cmp x k = 0) (fun k => by rw [h4, hS])
        refine ⟨true :: fs, b, ?_, i2, i3⟩
        rw [setStep, h1]
        simp only [Option.map_some]
        rw [i1]
        have : decide ((0 : Int) ≤ (p : Int)) = true := decide_eq_true (Int.natCast_nonneg p)
        rw [this]
    | remove x =>
      obtain ⟨f, a', h1, h2, h3, h4, h5⟩ := removeEx_spec ht a hs x
      obtain ⟨fs, b, i1, i2, i3⟩ := ih a' h3 (fun k => S k ∧ cmp x k ≠ 0) (fun k => by rw [h4, hS])
      refine ⟨f :: fs, b, ?_, i2, i3⟩
      rw [setStep, h1]
      simp only
      rw [i1]

/-- C50. Starting from an empty array, every history of additions and removals, with every
outcome of the allocations, stays within the array and leaves it strictly sorted, with the keys
that the successful operations have put in and not taken out. -/
theorem C50_sorted_set (cmp : α → α → Int) (ht : Total cmp) (ops : List (SOp α × Bool)) :
    ∃ fs a, setRun cmp ops [] = some (fs, a) ∧ (a.Pairwise fun x y => cmp x y < 0) ∧
      ∀ k, Has cmp a k ↔ keysAfter cmp (ops.map (·.1)) fs (fun _ => False) k :=
  setRun_spec ht ops [] List.Pairwise.nil _ (fun k => by simp [Has])

/-- C50, results. In a strictly sorted array: an addition fails, without effect, only without
memory and for a new key; otherwise it returns the place of the element. A removal tells if
there was such a key and takes out exactly the elements equal to it. -/
theorem C50_results (cmp : α → α → Int) (ht : Total cmp) (a : List α) (hs : a.Pairwise fun x y => cmp x y < 0)
    (x : α) (ok : Bool) :
    ((ok = false ∧ ¬ Has cmp a x ∧ addEx cmp ok a x = some (-1, a)) ∨
      ∃ (p : Nat) (a' : List α), addEx cmp ok a x = some ((p : Int), a') ∧ a'[p]? = some x) ∧
    ∃ f a', removeEx cmp a x = some (f, a') ∧ (f = true ↔ Has cmp a x) ∧
      ∀ e, e ∈ a' ↔ e ∈ a ∧ cmp e x ≠ 0 := by
  constructor
  · rcases addEx_spec ht ok a hs x with h | ⟨p, a', h1, h2, _⟩
    · exact Or.inl h
    · exact Or.inr ⟨p, a', h1, h2⟩
  · obtain ⟨f, a', h1, h2, _, _, h5⟩ := removeEx_spec ht a hs x
    exact ⟨f, a', h1, h2, h5⟩

theorem flat_length (enc : α → Bytes) (w : Nat) (hw : ∀ x, (enc x).length = w) (a : List α) :
    (a.flatMap enc).length = w * a.length := by
  induction a with
  | nil => rfl
  | cons x r ih => rw [List.flatMap_cons, List.length_append, hw, ih, List.length_cons, Nat.mul_succ, Nat.add_comm]

/-- C50, bytes. For elements of `w` bytes, inserting or deleting an element is inserting or
deleting its bytes at `w` times its position, which is what the array does (C45). -/
theorem C50_elements_as_bytes (enc : α → Bytes) (w : Nat) (hw : ∀ x, (enc x).length = w) (a : List α) (p : Nat)
    (x : α) (hp : p ≤ a.length) :
    (a.take p ++ x :: a.drop p).flatMap enc =
      (a.flatMap enc).take (w * p) ++ enc x ++ (a.flatMap enc).drop (w * p) ∧
    (p < a.length → (a.take p ++ a.drop (p + 1)).flatMap enc =
      (a.flatMap enc).take (p * w) ++ (a.flatMap enc).drop (p * w + w)) := by
  have split1 : ∀ q, q ≤ a.length → (a.flatMap enc).take (w * q) = (a.take q).flatMap enc ∧
      (a.flatMap enc).drop (w * q) = (a.drop q).flatMap enc := by
    intro q hq
    have e : a.flatMap enc = (a.take q).flatMap enc ++ (a.drop q).flatMap enc := by
      rw [← List.flatMap_append, List.take_append_drop]
    have hl : ((a.take q).flatMap enc).length = w * q := by
      rw [flat_length enc w hw, List.length_take, Nat.min_eq_left hq]
    rw [e]
    exact ⟨List.take_left' hl, List.drop_left' hl⟩
  constructor
  · obtain ⟨e1, e2⟩ := split1 p hp
    rw [e1, e2, List.flatMap_append, List.flatMap_cons, List.append_assoc]
  · intro hp'
    obtain ⟨e1, -⟩ := split1 p hp
    obtain ⟨-, e2⟩ := split1 (p + 1) hp'
    rw [Nat.mul_comm p w, e1, ← Nat.mul_succ, e2, List.flatMap_append]

example : setRun natCmp [(.add 5, true), (.add 3, true), (.add 5, false), (.add 4, false), (.add 9, true), (.remove 3, true),
    (.remove 7, true)] [] = some ([true, true, true, false, true, true, false], [5, 9]) := by decide +kernel

end Verif.Core

namespace Verif.Mkv
open Verif Verif.Core

/-! ### C79 -/

/-- C79 for cue points: sorting the children of a Cues element keeps exactly these children,
whatever other children there are, and stays within the list. -/
theorem C79_cues (scale : Int) (cs : List (Option Cue)) :
    ∃ cs', masterSort (ebmlCmp scale) cs = some cs' ∧ cs'.Perm cs := by
  refine (C47_sort_permutes (ebmlCmp scale) ?_ true cs).1
  intro x
  cases x with
  | none => exact Int.le_refl _
  | some c =>
    show 0 ≤ cmpCue scale c c
    rw [(C43_cue_order scale).1.1 c trivial]
    exact Int.le_refl _

/-- C79 for attachments and clusters, as far as it goes: with at most 17 children, or when no
child compares less than itself. -/
theorem C79_children_kept_partial {α : Type} (cmp : α → α → Int) (cs : List α)
    (h : cs.length ≤ 17 ∨ ∀ x, 0 ≤ cmp x x) : ∃ cs', masterSort cmp cs = some cs' ∧ cs'.Perm cs := by
  rcases h with h | h
  · unfold masterSort sortEx
    by_cases h1 : cs.length ≤ 1
    · rw [if_pos h1]; exact ⟨cs, rfl, List.Perm.refl _⟩
    · rw [if_neg h1]
      have : qsort cmp (cs.length + 1) cs 0 (cs.length - 1) = some cs := by
        unfold qsort; rw [if_neg (by omega)]
      rw [if_pos rfl, this]
      simp only
      rw [insertLoop_eq cmp cs (by intro e; rw [e] at h1; simp at h1)]
      exact ⟨_, rfl, inSort_perm cmp cs⟩
  · exact (C47_sort_permutes cmp h true cs).1

/-- C79 is false for 18 attachments without a file name and for a cluster with 18 Timestamp
elements: sorting reads before the list. -/
theorem C79_counterexample :
    (masterSort attachCmp (List.replicate 18 none)).isNone = true ∧
    (masterSort clusterCmp (List.replicate 18 CElt.timestamp)).isNone = true := by decide +kernel

/-! ### C80 -/

/-- C80. Sorting a Cues element whose children are all cue points puts them in ascending order
of time, and of track number for the same time. -/
theorem C80_cues_sorted (scale : Int) (cs : List Cue) :
    ∃ cs', masterSort (cmpCue scale) cs = some cs' ∧ cs'.Perm cs ∧
      cs'.Pairwise fun a b => cueTs scale a < cueTs scale b ∨
        (cueTs scale a = cueTs scale b ∧ cueTrack a ≤ cueTrack b) := by
  have ht : Total (cmpCue scale) := by
    obtain ⟨⟨_, h2, h3⟩, _⟩ := C43_cue_order scale
    exact ⟨fun a b => h2 a b trivial trivial, fun a b c => h3 a b c trivial trivial trivial⟩
  obtain ⟨cs', h1, h2, h3⟩ := (C48_sort_orders (cmpCue scale) ht true cs).1
  refine ⟨cs', h1, h2, h3.imp ?_⟩
  intro a b h
  exact ((C43_cue_order scale).2 a b).1 h

end Verif.Mkv
