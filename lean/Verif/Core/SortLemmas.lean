import Verif.Core.Sort
/-!
Lemmas about sorting and searching.
-/
set_option linter.unusedSimpArgs false
namespace Verif.Core
open Verif

variable {α : Type}

theorem cmpAt_some (cmp : α → α → Int) (a : List α) (i j : Nat) (hi : i < a.length) (hj : j < a.length) :
    cmpAt cmp a i j = some (cmp a[i] a[j]) := by
  unfold cmpAt
  rw [List.getElem?_eq_getElem hi, List.getElem?_eq_getElem hj]

theorem swapAt_some (a : List α) (i j : Nat) (hi : i < a.length) (hj : j < a.length) :
    swapAt a i j = some ((a.set i a[j]).set j a[i]) := by
  unfold swapAt
  rw [List.getElem?_eq_getElem hi, List.getElem?_eq_getElem hj]

theorem count_set [DecidableEq α] (a : List α) (i : Nat) (x y : α) (hi : i < a.length) :
    (a.set i x).count y + (if a[i] = y then 1 else 0) = a.count y + (if x = y then 1 else 0) := by
  induction a generalizing i with
  | nil => simp at hi
  | cons z r ih =>
    cases i with
    | zero =>
      simp only [List.set_cons_zero, List.getElem_cons_zero, List.count_cons, beq_iff_eq]
      omega
    | succ i =>
      simp only [List.set_cons_succ, List.getElem_cons_succ, List.count_cons]
      have := ih i (by simpa using hi)
      omega

theorem swap_perm (a : List α) (i j : Nat) (hi : i < a.length) (hj : j < a.length) :
    ((a.set i a[j]).set j a[i]).Perm a := by
  classical
  rw [List.perm_iff_count]
  intro y
  by_cases e : i = j
  · subst e
    have h1 := count_set a i a[i] y hi
    have h2 := count_set (a.set i a[i]) i a[i] y (by simpa using hi)
    rw [List.getElem_set_self] at h2
    omega
  · have h1 := count_set a i a[j] y hi
    have h2 := count_set (a.set i a[j]) j a[i] y (by simpa using hj)
    rw [List.getElem_set_ne e] at h2
    omega

theorem swapAt_spec (a : List α) (i j : Nat) (hi : i < a.length) (hj : j < a.length) :
    ∃ a', swapAt a i j = some a' ∧ a'.Perm a ∧ a'.length = a.length :=
  ⟨_, swapAt_some a i j hi hj, swap_perm a i j hi hj, by simp⟩

theorem pivotAt_spec (cmp : α → α → Int) (a : List α) (f m l : Nat) (hf : f < a.length) (hm : m < a.length)
    (hl : l < a.length) : ∃ r, pivotAt cmp a f m l = some r ∧ (r = f ∨ r = m ∨ r = l) := by
  unfold pivotAt
  rw [cmpAt_some cmp a f l hf hl, cmpAt_some cmp a l m hl hm, cmpAt_some cmp a f m hf hm]
  simp only
  split
  · split
    · exact ⟨_, rfl, by simp⟩
    · split
      · exact ⟨_, rfl, by simp⟩
      · exact ⟨_, rfl, by simp⟩
  · split
    · split
      · exact ⟨_, rfl, by simp⟩
      · exact ⟨_, rfl, by simp⟩
    · exact ⟨_, rfl, by simp⟩

theorem scanLeft_spec (cmp : α → α → Int) (a : List α) (f last : Nat) (hf : f < a.length)
    (hlast : last < a.length) (n left : Nat) (hn : last < n + left) (hl : left < last) :
    ∃ l, scanLeft cmp a f last n left = some l ∧ left < l ∧ l ≤ last := by
  induction n generalizing left with
  | zero => omega
  | succ n ih =>
    unfold scanLeft
    by_cases h : left + 1 < last
    · rw [if_pos h, cmpAt_some cmp a f (left + 1) hf (by omega)]
      simp only
      by_cases hc : cmp a[f] a[left + 1] > 0
      · rw [if_pos hc]
        obtain ⟨l, h1, h2, h3⟩ := ih (left + 1) (by omega) h
        exact ⟨l, h1, by omega, h3⟩
      · rw [if_neg hc]; exact ⟨_, rfl, by omega, by omega⟩
    · rw [if_neg h]; exact ⟨_, rfl, by omega, by omega⟩

theorem scanRight_spec (cmp : α → α → Int) (a : List α) (f p : Nat) (hf : f < a.length) (right : Nat)
    (hr : right ≤ a.length) (hp : p < right) (hc : 0 ≤ cmp a[f] (a[p]'(by omega))) :
    ∃ r, ∃ h : r < right, scanRight cmp a f right = some r ∧ p ≤ r ∧ 0 ≤ cmp a[f] (a[r]'(by omega)) := by
  induction right with
  | zero => omega
  | succ right ih =>
    unfold scanRight
    rw [cmpAt_some cmp a f right hf (by omega)]
    simp only
    by_cases h : cmp a[f] (a[right]'(by omega)) < 0
    · rw [if_pos h]
      have hne : p ≠ right := by
        intro e
        subst e
        omega
      obtain ⟨r, h0, h1, h2, h3⟩ := ih (by omega) (by omega) hc
      exact ⟨r, by omega, h1, h2, h3⟩
    · rw [if_neg h]
      exact ⟨right, by omega, rfl, by omega, by omega⟩

theorem part_spec (cmp : α → α → Int) (f last : Nat) (n : Nat) (a : List α) (left right : Nat)
    (hlast : last < a.length) (hfl : f ≤ left) (hl : left < last) (hlr : left < right) (hr : right ≤ last + 1)
    (hn : right ≤ n) (hc : 0 ≤ cmp (a[f]'(by omega)) (a[left]'(by omega))) :
    ∃ a' l r, part cmp f last n a left right = some (a', l, r) ∧ a'.Perm a ∧ f < l ∧ l ≤ last ∧
      f ≤ r ∧ r ≤ last := by
  induction n generalizing a left right with
  | zero => omega
  | succ n ih =>
    unfold part
    obtain ⟨l, s1, s2, s3⟩ := scanLeft_spec cmp a f last (by omega) hlast (last + 1) left (by omega) hl
    obtain ⟨r, t0, t1, t2, t3⟩ := scanRight_spec cmp a f left (by omega) right (by omega) hlr hc
    rw [s1, t1]
    simp only
    by_cases h : l ≥ r
    · rw [if_pos h]
      exact ⟨a, l, r, rfl, List.Perm.refl _, by omega, s3, by omega, by omega⟩
    · rw [if_neg h, swapAt_some a l r (by omega) (by omega)]
      simp only
      have hl' : ((a.set l (a[r]'(by omega))).set r (a[l]'(by omega))).length = a.length := by simp
      have hf' : ((a.set l (a[r]'(by omega))).set r (a[l]'(by omega)))[f]'(by omega) = a[f]'(by omega) := by
        rw [List.getElem_set_ne (by omega), List.getElem_set_ne (by omega)]
      have hll : ((a.set l (a[r]'(by omega))).set r (a[l]'(by omega)))[l]'(by omega) = a[r]'(by omega) := by
        rw [List.getElem_set_ne (by omega), List.getElem_set_self]
      obtain ⟨a', l', r', e1, e2, e3, e4, e5, e6⟩ := ih ((a.set l (a[r]'(by omega))).set r (a[l]'(by omega))) l r
        (by omega) (by omega) (by omega) (by omega) (by omega) (by omega)
        (by rw [hf', hll]; exact t3)
      exact ⟨a', l', r', e1, e2.trans (swap_perm a l r (by omega) (by omega)), e3, e4, e5, e6⟩

theorem qsort_spec (cmp : α → α → Int) (hrefl : ∀ x, 0 ≤ cmp x x) (n : Nat) (a : List α) (f last : Nat)
    (hlast : last < a.length) (hn : last < n + f) (hn' : 0 < n) :
    ∃ a', qsort cmp n a f last = some a' ∧ a'.Perm a := by
  induction n generalizing a f last with
  | zero => omega
  | succ n ih =>
    unfold qsort
    by_cases h : last > f + 16
    · rw [if_pos h]
      obtain ⟨ref, p1, p2⟩ := pivotAt_spec cmp a f (f + (last - f) / 2) last (by omega) (by omega) hlast
      rw [p1]
      simp only
      have hsw : ∃ a1, (if ref ≠ f then swapAt a f ref else some a) = some a1 ∧ a1.Perm a := by
        by_cases hrf : ref ≠ f
        · rw [if_pos hrf]
          obtain ⟨a1, q1, q2, _⟩ := swapAt_spec a f ref (by omega) (by omega)
          exact ⟨a1, q1, q2⟩
        · rw [if_neg hrf]; exact ⟨a, rfl, List.Perm.refl _⟩
      obtain ⟨a1, q1, q2⟩ := hsw
      rw [q1]
      simp only
      have l1 := q2.length_eq
      obtain ⟨a2, l, r, e1, e2, e3, e4, e5, e6⟩ := part_spec cmp f last (last + 2) a1 f (last + 1) (by omega)
        (Nat.le_refl _) (by omega) (by omega) (Nat.le_refl _) (by omega) (hrefl _)
      rw [e1]
      simp only
      have l2 := e2.length_eq
      by_cases hrf : r = f
      · rw [if_pos hrf]
        obtain ⟨a', g1, g2⟩ := ih a2 (f + 1) last (by omega) (by omega) (by omega)
        exact ⟨a', g1, g2.trans (e2.trans q2)⟩
      · rw [if_neg hrf]
        obtain ⟨a3, w1, w2, w3⟩ := swapAt_spec a2 f r (by omega) (by omega)
        rw [w1]
        simp only
        have base := w2.trans (e2.trans q2)
        by_cases hc : (r : Int) - 1 - f < (last : Int) - l
        · rw [if_pos hc]
          have hin : ∃ a4, (if r - 1 > 16 + f then qsort cmp n a3 f (r - 1) else some a3) = some a4 ∧ a4.Perm a3 := by
            by_cases hg : r - 1 > 16 + f
            · rw [if_pos hg]
              exact ih a3 f (r - 1) (by omega) (by omega) (by omega)
            · rw [if_neg hg]; exact ⟨a3, rfl, List.Perm.refl _⟩
          obtain ⟨a4, g1, g2⟩ := hin
          rw [g1]
          simp only
          have l4 := g2.length_eq
          obtain ⟨a', k1, k2⟩ := ih a4 l last (by omega) (by omega) (by omega)
          exact ⟨a', k1, k2.trans (g2.trans base)⟩
        · rw [if_neg hc]
          have hin : ∃ a4, (if last > 16 + l then qsort cmp n a3 l last else some a3) = some a4 ∧ a4.Perm a3 := by
            by_cases hg : last > 16 + l
            · rw [if_pos hg]
              exact ih a3 l last (by omega) (by omega) (by omega)
            · rw [if_neg hg]; exact ⟨a3, rfl, List.Perm.refl _⟩
          obtain ⟨a4, g1, g2⟩ := hin
          rw [g1]
          simp only
          have l4 := g2.length_eq
          obtain ⟨a', k1, k2⟩ := ih a4 f (r - 1) (by omega) (by omega) (by omega)
          exact ⟨a', k1, k2.trans (g2.trans base)⟩
    · rw [if_neg h]; exact ⟨a, rfl, List.Perm.refl _⟩

/-! ### Insertion sort -/

/-- Insertion from the back into a list given in reverse order. -/
def insR (cmp : α → α → Int) (x : α) : List α → List α
  | [] => [x]
  | y :: ys => if cmp x y < 0 then y :: insR cmp x ys else x :: y :: ys

theorem insR_perm (cmp : α → α → Int) (x : α) (l : List α) : (insR cmp x l).Perm (x :: l) := by
  induction l with
  | nil => exact List.Perm.refl _
  | cons y ys ih =>
    unfold insR
    split
    · exact (List.Perm.cons y ih).trans (List.Perm.swap x y ys)
    · exact List.Perm.refl _

theorem shiftUp_spec (cmp : α → α → Int) (x z : α) (p : List α) (y : α) (s : List α) (hy : cmp x y < 0) :
    shiftUp cmp x p.length (p.reverse ++ [y] ++ z :: s) = some ((insR cmp x (y :: p)).reverse ++ s) := by
  induction p generalizing y z s with
  | nil => simp [shiftUp, insR, hy]
  | cons w q ih =>
    have e1 : ((w :: q).reverse ++ [y] ++ z :: s)[q.length + 1]? = some y := by
      rw [List.append_assoc, List.getElem?_append_right (by simp)]
      simp
    have e2 : ((w :: q).reverse ++ [y] ++ z :: s).set (q.length + 2) y = (w :: q).reverse ++ [y] ++ y :: s := by
      rw [List.set_append_right _ _ (by simp)]
      simp
    have e3 : ((w :: q).reverse ++ [y] ++ y :: s)[q.length]? = some w := by
      rw [List.append_assoc, List.getElem?_append_left (by simp), List.reverse_cons,
        List.getElem?_append_right (by simp)]
      simp
    have e4 : ((w :: q).reverse ++ [y] ++ y :: s).set (q.length + 1) x = (w :: q).reverse ++ [x] ++ y :: s := by
      rw [List.append_assoc, List.set_append_right _ _ (by simp)]
      simp
    show shiftUp cmp x (q.length + 1) _ = _
    unfold shiftUp
    rw [e1]
    simp only
    rw [if_pos (by simp), e2, e3]
    simp only
    have hI : insR cmp x (y :: w :: q) = y :: insR cmp x (w :: q) := by
      rw [insR, if_pos hy]
    by_cases hc : cmp x w < 0
    · rw [if_pos hc]
      have := ih y w (y :: s) hc
      rw [List.reverse_cons, List.append_assoc (q.reverse ++ [w])]
      show shiftUp cmp x q.length (q.reverse ++ [w] ++ y :: y :: s) = _
      rw [this, hI]
      simp
    · rw [if_neg hc, e4, hI]
      rw [insR, if_neg hc]
      simp

theorem insertAt_spec (cmp : α → α → Int) (p : List α) (hp : p ≠ []) (x : α) (s : List α) :
    insertAt cmp (p.reverse ++ x :: s) p.length = some ((insR cmp x p).reverse ++ s) := by
  cases p with
  | nil => exact absurd rfl hp
  | cons y q =>
    have e1 : ((y :: q).reverse ++ x :: s)[(y :: q).length]? = some x := by
      rw [List.getElem?_append_right (by simp)]; simp
    have e2 : ((y :: q).reverse ++ x :: s)[(y :: q).length - 1]? = some y := by
      rw [List.getElem?_append_left (by simp), List.reverse_cons, List.getElem?_append_right (by simp)]; simp
    unfold insertAt cmpAt
    rw [e1, e2]
    simp only
    by_cases hc : cmp x y < 0
    · rw [if_pos hc]
      have := shiftUp_spec cmp x x q y s hc
      rw [List.reverse_cons]
      exact this
    · rw [if_neg hc]
      rw [insR, if_neg hc]
      simp

/-- The insertion sort, in reverse order. -/
def insAll (cmp : α → α → Int) : List α → List α → List α
  | p, [] => p
  | p, x :: s => insAll cmp (insR cmp x p) s

theorem insR_length (cmp : α → α → Int) (x : α) (l : List α) : (insR cmp x l).length = l.length + 1 := by
  rw [(insR_perm cmp x l).length_eq]; rfl

theorem insertLoop_spec (cmp : α → α → Int) (p : List α) (hp : p ≠ []) (s : List α) :
    insertLoop cmp s.length p.length (p.reverse ++ s) = some (insAll cmp p s).reverse := by
  induction s generalizing p with
  | nil => simp [insertLoop, insAll]
  | cons x s ih =>
    show insertLoop cmp (s.length + 1) p.length (p.reverse ++ x :: s) = _
    unfold insertLoop
    rw [insertAt_spec cmp p hp x s]
    simp only
    have := ih (insR cmp x p) (by intro e; have := insR_length cmp x p; rw [e] at this; simp at this)
    rw [insR_length] at this
    rw [this, insAll]

theorem insAll_perm (cmp : α → α → Int) (p s : List α) : (insAll cmp p s).Perm (p ++ s) := by
  induction s generalizing p with
  | nil => simp [insAll]
  | cons x s ih =>
    unfold insAll
    refine (ih _).trans ?_
    refine ((insR_perm cmp x p).append_right s).trans ?_
    exact List.perm_middle.symm

/-- The insertion sort of a non-empty array. -/
def inSort (cmp : α → α → Int) : List α → List α
  | [] => []
  | x :: s => (insAll cmp [x] s).reverse

theorem inSort_perm (cmp : α → α → Int) (a : List α) : (inSort cmp a).Perm a := by
  cases a with
  | nil => exact List.Perm.refl _
  | cons x s => exact (List.reverse_perm _).trans (insAll_perm cmp [x] s)

theorem insertLoop_eq (cmp : α → α → Int) (a : List α) (h : a ≠ []) :
    insertLoop cmp (a.length - 1) 1 a = some (inSort cmp a) := by
  cases a with
  | nil => exact absurd rfl h
  | cons x s =>
    have := insertLoop_spec cmp [x] (by simp) s
    simpa [inSort] using this

/-- A comparison that is a total preorder. -/
structure Total (cmp : α → α → Int) : Prop where
  flip : ∀ a b, cmp a b < 0 ↔ 0 < cmp b a
  trans : ∀ a b c, cmp a b ≤ 0 → cmp b c ≤ 0 → cmp a c ≤ 0

theorem Total.refl {cmp : α → α → Int} (h : Total cmp) (a : α) : cmp a a = 0 := by
  have := h.flip a a
  omega

/-- Descending, as the reversed prefix is. -/
theorem insR_sorted {cmp : α → α → Int} (ht : Total cmp) (x : α) (l : List α)
    (hl : l.Pairwise fun a b => cmp b a ≤ 0) : (insR cmp x l).Pairwise fun a b => cmp b a ≤ 0 := by
  induction l with
  | nil => simp [insR]
  | cons y ys ih =>
    rw [List.pairwise_cons] at hl
    unfold insR
    by_cases h : cmp x y < 0
    · rw [if_pos h, List.pairwise_cons]
      refine ⟨?_, ih hl.2⟩
      intro b hb
      rcases List.mem_cons.1 ((insR_perm cmp x ys).mem_iff.1 hb) with rfl | hb
      · omega
      · exact hl.1 b hb
    · rw [if_neg h, List.pairwise_cons]
      have hyx : cmp y x ≤ 0 := by
        have := ht.flip x y; have := ht.flip y x; omega
      refine ⟨?_, List.pairwise_cons.2 hl⟩
      intro b hb
      rcases List.mem_cons.1 hb with rfl | hb
      · exact hyx
      · exact ht.trans _ _ _ (hl.1 b hb) hyx

theorem insAll_sorted {cmp : α → α → Int} (ht : Total cmp) (p s : List α)
    (hp : p.Pairwise fun a b => cmp b a ≤ 0) : (insAll cmp p s).Pairwise fun a b => cmp b a ≤ 0 := by
  induction s generalizing p with
  | nil => exact hp
  | cons x s ih => exact ih _ (insR_sorted ht x p hp)

theorem inSort_sorted {cmp : α → α → Int} (ht : Total cmp) (a : List α) :
    (inSort cmp a).Pairwise fun a b => cmp a b ≤ 0 := by
  cases a with
  | nil => exact List.Pairwise.nil
  | cons x s =>
    unfold inSort
    rw [List.pairwise_reverse]
    exact insAll_sorted ht [x] s (List.pairwise_singleton ..)

/-- Stability: the insertion of `x` keeps the order among the elements equal to `k`, with `x`
as the last of them. -/
theorem insR_filter {cmp : α → α → Int} (ht : Total cmp) (x k : α) (l : List α) :
    (insR cmp x l).filter (fun y => cmp y k = 0) = (x :: l).filter (fun y => cmp y k = 0) := by
  induction l with
  | nil => rfl
  | cons y ys ih =>
    unfold insR
    by_cases h : cmp x y < 0
    · rw [if_pos h, List.filter_cons, ih, List.filter_cons]
      by_cases hx : cmp x k = 0
      · have hy : ¬ cmp y k = 0 := by
          intro hy
          have h1 := ht.flip x y
          have h2 := ht.flip y k
          have h3 := ht.flip k y
          have h5 := ht.flip x k
          have h6 := ht.flip k x
          have h4 := ht.trans y k x (by omega) (by omega)
          omega
        simp [hx, hy]
      · by_cases hy : cmp y k = 0 <;> simp [hx, hy]
    · rw [if_neg h]

theorem insAll_filter {cmp : α → α → Int} (ht : Total cmp) (k : α) (p s : List α) :
    (insAll cmp p s).filter (fun y => cmp y k = 0) = (s.reverse ++ p).filter (fun y => cmp y k = 0) := by
  induction s generalizing p with
  | nil => rfl
  | cons x s ih =>
    unfold insAll
    rw [ih, List.filter_append, insR_filter ht, ← List.filter_append, List.reverse_cons, List.append_assoc]
    rfl

theorem inSort_stable {cmp : α → α → Int} (ht : Total cmp) (k : α) (a : List α) :
    (inSort cmp a).filter (fun y => cmp y k = 0) = a.filter (fun y => cmp y k = 0) := by
  cases a with
  | nil => rfl
  | cons x s =>
    unfold inSort
    rw [List.filter_reverse, insAll_filter ht, ← List.filter_reverse]
    simp

/-! ### The pass that drops repeated elements -/

theorem uniqLoop_sublist (cmp : α → α → Int) (j : α) (l : List α) : (uniqLoop cmp j l).Sublist (j :: l) := by
  induction l generalizing j with
  | nil => exact List.Sublist.refl _
  | cons x r ih =>
    unfold uniqLoop
    split
    · exact List.Sublist.cons_cons _ (ih x)
    · refine (ih j).trans ?_
      exact List.Sublist.cons_cons _ (List.sublist_cons_self _ _)

theorem uniqLoop_head (cmp : α → α → Int) (j : α) (l : List α) : ∃ r, uniqLoop cmp j l = j :: r := by
  induction l generalizing j with
  | nil => exact ⟨[], rfl⟩
  | cons x r ih =>
    unfold uniqLoop
    split
    · exact ⟨_, rfl⟩
    · exact ih j

theorem uniqLoop_strict {cmp : α → α → Int} (ht : Total cmp) (j : α) (l : List α)
    (hs : (j :: l).Pairwise fun a b => cmp a b ≤ 0) :
    (uniqLoop cmp j l).Pairwise fun a b => cmp a b < 0 := by
  induction l generalizing j with
  | nil => simp [uniqLoop]
  | cons x r ih =>
    rw [List.pairwise_cons] at hs
    have hjx := hs.1 x List.mem_cons_self
    unfold uniqLoop
    by_cases h : cmp x j ≠ 0
    · rw [if_pos h, List.pairwise_cons]
      refine ⟨?_, ih x hs.2⟩
      intro b hb
      have hb' := (uniqLoop_sublist cmp x r).subset hb
      have hjx' : cmp j x < 0 := by
        have := ht.flip j x; have := ht.flip x j; omega
      rcases List.mem_cons.1 hb' with rfl | hb'
      · exact hjx'
      · have hxb := (List.pairwise_cons.1 hs.2).1 b hb'
        have h1 := hs.1 b (List.mem_cons_of_mem _ hb')
        have h2 := ht.flip j b; have h3 := ht.flip b j
        have h4 : ¬ cmp b j ≤ 0 := by
          intro h4
          have := ht.trans x b j hxb h4
          have := ht.flip j x; have := ht.flip x j; omega
        omega
    · rw [if_neg h]
      refine ih j ?_
      rw [List.pairwise_cons]
      exact ⟨fun b hb => hs.1 b (List.mem_cons_of_mem _ hb), (List.pairwise_cons.1 hs.2).2⟩

theorem uniqLoop_covers {cmp : α → α → Int} (ht : Total cmp) (j : α) (l : List α) :
    ∀ x ∈ j :: l, ∃ y ∈ uniqLoop cmp j l, cmp x y = 0 := by
  induction l generalizing j with
  | nil =>
    intro x hx
    rw [List.mem_singleton] at hx
    subst hx
    exact ⟨x, by simp [uniqLoop], ht.refl x⟩
  | cons z r ih =>
    intro x hx
    unfold uniqLoop
    by_cases h : cmp z j ≠ 0
    · rw [if_pos h]
      rcases List.mem_cons.1 hx with rfl | hx
      · exact ⟨x, List.mem_cons_self, ht.refl x⟩
      · obtain ⟨y, h1, h2⟩ := ih z x hx
        exact ⟨y, List.mem_cons_of_mem _ h1, h2⟩
    · rw [if_neg h]
      rcases List.mem_cons.1 hx with rfl | hx
      · exact ih x x List.mem_cons_self
      · rcases List.mem_cons.1 hx with rfl | hx
        · obtain ⟨q, hq⟩ := uniqLoop_head cmp j r
          exact ⟨j, by rw [hq]; exact List.mem_cons_self, by omega⟩
        · exact ih j x (List.mem_cons_of_mem _ hx)

/-! ### Binary search -/

/-- In bounds for every comparison; an element reported as found is equal to the key. -/
theorem bsearch_safe (c : α → Int) (a : List α) (n : Nat) (lower upper mid : Int) (h0 : 0 ≤ lower)
    (hu : upper < a.length) (hlu : lower ≤ upper + 1) (hn : upper - lower + 1 < n) :
    (∃ m : Nat, ∃ h : m < a.length, bsearch c a n lower upper mid = some (true, (m : Int)) ∧ c a[m] = 0) ∨
    ∃ p : Nat, bsearch c a n lower upper mid = some (false, (p : Int)) ∧ p ≤ a.length := by
  induction n generalizing lower upper mid with
  | zero => omega
  | succ n ih =>
    unfold bsearch
    by_cases h : upper ≥ lower
    · rw [if_pos h]
      simp only
      have hm : ((upper + lower) / 2).toNat < a.length := by omega
      rw [List.getElem?_eq_getElem hm]
      simp only
      by_cases h1 : c a[((upper + lower) / 2).toNat] > 0
      · rw [if_pos h1]
        exact ih _ _ _ h0 (by omega) (by omega) (by omega)
      · rw [if_neg h1]
        by_cases h2 : c a[((upper + lower) / 2).toNat] < 0
        · rw [if_pos h2]
          exact ih _ _ _ (by omega) hu (by omega) (by omega)
        · rw [if_neg h2]
          exact Or.inl ⟨_, hm, by rw [Int.toNat_of_nonneg (by omega)], by omega⟩
    · rw [if_neg h]
      right
      refine ⟨lower.toNat, ?_, by omega⟩
      rw [Int.toNat_of_nonneg h0]
      split
      · rename_i hh
        rw [show mid = lower by omega]
      · rfl

theorem bsearch_spec (c : α → Int) (a : List α)
    (s1 : ∀ i j (hi : i < a.length) (hj : j < a.length), i ≤ j → c a[j] < 0 → c a[i] < 0)
    (s2 : ∀ i j (hi : i < a.length) (hj : j < a.length), i ≤ j → c a[i] > 0 → c a[j] > 0)
    (n : Nat) (lower upper mid : Int) (h0 : 0 ≤ lower)
    (hu : upper < a.length) (hlu : lower ≤ upper + 1) (hn : upper - lower + 1 < n)
    (hl : ∀ i (hi : i < a.length), (i : Int) < lower → c a[i] < 0)
    (hg : ∀ i (hi : i < a.length), upper < (i : Int) → c a[i] > 0) :
    (∃ m : Nat, ∃ h : m < a.length, bsearch c a n lower upper mid = some (true, (m : Int)) ∧ c a[m] = 0) ∨
    ∃ p : Nat, bsearch c a n lower upper mid = some (false, (p : Int)) ∧ p ≤ a.length ∧
      (∀ i (hi : i < a.length), i < p → c a[i] < 0) ∧ (∀ i (hi : i < a.length), p ≤ i → c a[i] > 0) := by
  induction n generalizing lower upper mid with
  | zero => omega
  | succ n ih =>
    unfold bsearch
    by_cases h : upper ≥ lower
    · rw [if_pos h]
      simp only
      have hm : ((upper + lower) / 2).toNat < a.length := by omega
      rw [List.getElem?_eq_getElem hm]
      simp only
      by_cases h1 : c a[((upper + lower) / 2).toNat] > 0
      · rw [if_pos h1]
        refine ih _ _ _ h0 (by omega) (by omega) (by omega) hl ?_
        intro i hi hlt
        exact s2 _ i hm hi (by omega) h1
      · rw [if_neg h1]
        by_cases h2 : c a[((upper + lower) / 2).toNat] < 0
        · rw [if_pos h2]
          refine ih _ _ _ (by omega) hu (by omega) (by omega) ?_ hg
          intro i hi hlt
          exact s1 i _ hi hm (by omega) h2
        · rw [if_neg h2]
          exact Or.inl ⟨_, hm, by rw [Int.toNat_of_nonneg (by omega)], by omega⟩
    · rw [if_neg h]
      right
      refine ⟨lower.toNat, ?_, by omega, fun i hi hlt => hl i hi (by omega), fun i hi hlt => hg i hi (by omega)⟩
      rw [Int.toNat_of_nonneg h0]
      split
      · rename_i hh
        rw [show mid = lower by omega]
      · rfl

/-- `findEx` on a sorted array. -/
theorem findEx_spec {cmp : α → α → Int} (ht : Total cmp) (a : List α) (hs : a.Pairwise fun x y => cmp x y ≤ 0)
    (k : α) :
    (∃ m : Nat, ∃ h : m < a.length, findEx (fun y => cmp y k) a = some (true, (m : Int)) ∧ cmp a[m] k = 0) ∨
    ∃ p : Nat, findEx (fun y => cmp y k) a = some (false, (p : Int)) ∧ p ≤ a.length ∧
      (∀ i (hi : i < a.length), i < p → cmp a[i] k < 0) ∧ (∀ i (hi : i < a.length), p ≤ i → cmp a[i] k > 0) := by
  have mono : ∀ i j (hi : i < a.length) (hj : j < a.length), i ≤ j → cmp a[i] a[j] ≤ 0 := by
    intro i j hi hj hij
    by_cases e : i = j
    · subst e; rw [ht.refl]; exact Int.le_refl _
    · exact List.pairwise_iff_getElem.1 hs i j hi hj (by omega)
  unfold findEx
  by_cases h0 : a = []
  · right
    subst h0
    exact ⟨0, rfl, Nat.le_refl _, fun i hi => absurd hi (Nat.not_lt_zero _), fun i hi => absurd hi (Nat.not_lt_zero _)⟩
  · rw [if_neg h0]
    have hlen : 0 < a.length := List.length_pos_iff.2 h0
    refine bsearch_spec (fun y => cmp y k) a ?_ ?_ _ _ _ _ (Int.le_refl _) (by omega) (by omega) (by omega)
      (fun i hi h => by omega) (fun i hi h => by omega)
    · intro i j hi hj hij h
      have h1 := mono i j hi hj hij
      have h2 := ht.trans _ _ _ h1 (show cmp a[j] k ≤ 0 by omega)
      by_cases h3 : cmp a[i] k = 0
      · have h4 := ht.flip k a[i]; have h5 := ht.flip a[i] k
        have h6 := ht.trans k a[i] a[j] (by omega) h1
        have h7 := ht.flip a[j] k
        omega
      · omega
    · intro i j hi hj hij h
      have h1 := mono i j hi hj hij
      have h4 := ht.flip k a[i]
      by_cases h3 : cmp a[j] k ≤ 0
      · have := ht.trans _ _ _ h1 h3; omega
      · omega

end Verif.Core
