import Verif.Bzip.MtfLemmas
import Mathlib.Tactic.Ring
/-!
The symbols of a block: code words, groups of fifty, runs, and what is built up from them.
-/
namespace Verif.Bzip
open Verif Verif.Mkv

/-! ### Code words -/

theorem range_getD (lens : List Nat) : (List.range lens.length).map (fun k => lens.getD k 0) = lens := by
  apply List.ext_getElem?
  intro i
  rw [List.getElem?_map]
  by_cases h : i < lens.length
  · rw [List.getElem?_range h, List.getElem?_eq_getElem h]
    simp [List.getElem?_eq_getElem h]
  · rw [List.getElem?_eq_none (by simp; omega), List.getElem?_eq_none (by omega)]; rfl

theorem sum_add (l : List Nat) (f g : Nat → Nat) : (l.map fun k => f k + g k).sum = (l.map f).sum + (l.map g).sum := by
  induction l with
  | nil => rfl
  | cons x l ih => simp only [List.map_cons, List.sum_cons, ih]; omega

theorem sum_count (l : List Nat) (v : Nat) : (l.map fun x => if x = v then 1 else 0).sum = l.count v := by
  induction l with
  | nil => rfl
  | cons x l ih =>
    simp only [List.map_cons, List.sum_cons, ih, List.count_cons, beq_iff_eq]
    omega

theorem sum_zero (l : List Nat) (h : ∀ x ∈ l, x = 0) : l.sum = 0 := by
  induction l with
  | nil => rfl
  | cons x l ih => rw [List.sum_cons, ih fun y hy => h y (by simp [hy]), h x (by simp)]

theorem sum_rank (lens : List Nat) (l j : Nat) (hj : j ≤ lens.length) :
    ((List.range lens.length).map fun k => if lens.getD k 0 = l ∧ k < j then 1 else 0).sum = rank lens l j := by
  have hs : List.range lens.length = List.range j ++ List.range' j (lens.length - j) := by
    have := @List.range'_append_1 0 j (lens.length - j)
    rw [Nat.zero_add, show j + (lens.length - j) = lens.length from by omega] at this
    rw [List.range_eq_range', List.range_eq_range', this]
  rw [hs, List.map_append, List.sum_append]
  have h2 : ((List.range' j (lens.length - j)).map fun k => if lens.getD k 0 = l ∧ k < j then 1 else 0).sum = 0 := by
    apply sum_zero
    intro x hx
    obtain ⟨k, hk, rfl⟩ := List.mem_map.mp hx
    rw [List.mem_range'_1] at hk
    rw [if_neg (by omega)]
  have h1 : ((List.range j).map fun k => if lens.getD k 0 = l ∧ k < j then 1 else 0) = (lens.take j).map fun x => if x = l then 1 else 0 := by
    conv => rhs; rw [← range_getD (lens.take j)]
    rw [List.map_map, List.length_take, Nat.min_eq_left hj]
    apply List.map_congr_left
    intro k hk
    have hk : k < j := by simpa using hk
    simp only [Function.comp, hk, and_true]
    congr 1
    simp [List.getD_eq_getElem?_getD, List.getElem?_take_of_lt hk]
  rw [h2, h1, sum_count, Nat.add_zero, rank]

theorem code_eq (lens : List Nat) (j l : Nat) (hj : lens[j]? = some l) : Spec.code lens j = V lens l + rank lens l j := by
  obtain ⟨hlt, e⟩ := List.getElem?_eq_some_iff.mp hj
  have hg : lens.getD j 0 = l := by rw [List.getD_eq_getElem?_getD, hj]; rfl
  rw [Spec.code, hg, ← sum_rank lens l j (by omega)]
  have hV : V lens l = ((List.range lens.length).map fun k => if lens.getD k 0 < l then 2 ^ (l - lens.getD k 0) else 0).sum := by
    conv => lhs; rw [V, ← range_getD lens]
    rw [List.map_map]; rfl
  rw [hV, ← sum_add]
  congr 1
  apply List.map_congr_left
  intro k _
  generalize lens.getD k 0 = x
  by_cases h1 : x < l
  · rw [if_pos (Or.inl h1), if_pos h1, if_neg (by omega)]; rfl
  · rw [if_neg h1]
    by_cases h2 : x = l ∧ k < j
    · rw [if_pos (Or.inr h2), if_pos h2, h2.1, Nat.sub_self]
    · rw [if_neg (by omega), if_neg h2]

theorem code_lt (n : Nat) (lens : List Nat) (h : Spec.Lens n lens) (j l : Nat) (hj : lens[j]? = some l) : V lens l + rank lens l j < 2 ^ l := by
  have hl := h.range l (List.mem_of_getElem? hj)
  have hr := rank_lt lens l j hj
  have key : ∀ ls : List Nat, (V ls l + ls.count l) * 2 ^ (20 - l) ≤ (ls.map fun x => 2 ^ (20 - x)).sum := by
    intro ls
    induction ls with
    | nil => simp [V]
    | cons x ls ih =>
      simp only [V, List.map_cons, List.sum_cons, List.count_cons, beq_iff_eq] at ih ⊢
      have : ((if x < l then 2 ^ (l - x) else 0) + if x = l then 1 else 0) * 2 ^ (20 - l) ≤ 2 ^ (20 - x) := by
        by_cases h1 : x < l
        · rw [if_pos h1, if_neg (by omega), Nat.add_zero, ← Nat.pow_add, show l - x + (20 - l) = 20 - x from by omega]
        · rw [if_neg h1]
          by_cases h2 : x = l
          · rw [if_pos h2, h2]; omega
          · rw [if_neg h2]; simp
      generalize (if x < l then 2 ^ (l - x) else 0) = A at *
      generalize (if x = l then 1 else 0) = B at *
      generalize (ls.map fun l_1 => if l_1 < l then 2 ^ (l - l_1) else 0).sum = C at *
      calc (A + C + (List.count l ls + B)) * 2 ^ (20 - l) = (A + B) * 2 ^ (20 - l) + (C + List.count l ls) * 2 ^ (20 - l) := by
            rw [← Nat.add_mul]; congr 1; omega
        _ ≤ _ := Nat.add_le_add this ih
  have h1 := Nat.le_trans (key lens) h.kraft
  have h2 : (2 : Nat) ^ 20 = 2 ^ l * 2 ^ (20 - l) := by rw [← Nat.pow_add]; congr 1; omega
  rw [h2] at h1
  have h3 := Nat.le_of_mul_le_mul_right h1 (Nat.two_pow_pos _)
  omega

theorem Spec.Lens.ok {n : Nat} {lens : List Nat} (h : Spec.Lens (n + 2) lens) : LensOk lens :=
  ⟨by rintro rfl; have := h.length; simp at this, fun l hl => (h.range l hl).1, fun l hl => (h.range l hl).2⟩

/-! ### `getSym` -/

/-- Where the decoder stands after `t` symbols. -/
structure After (tabs : List (List Nat)) (sel : List Nat) (t : Nat) (g : Grp) : Prop where
  start : t % 50 = 0 → g.pos = 0 ∧ g.next = t / 50
  inside : t % 50 ≠ 0 → g.pos = 50 - t % 50 ∧ g.next = t / 50 + 1 ∧ g.tab = makeTab (tabs.getD (sel.getD (t / 50) 0) [])

theorem Reads.getSym (n : Nat) (hn : n ≤ 256) (tabs : List (List Nat)) (ht : ∀ x ∈ tabs, Spec.Lens (n + 2) x) (sel : List Nat)
    (hs : ∀ s ∈ sel, s < tabs.length) (t : Nat) (ht50 : t / 50 < sel.length) (g : Grp) (hg : After tabs sel t g) (s : Nat) (hsn : s < n + 2) :
    ∃ g', Reads (getSym (tabs.map makeTab) sel g) (Spec.word (tabs.getD (sel.getD (t / 50) 0) []) s) (s, g') ∧ After tabs sel (t + 1) g' := by
  have e1 : sel.getD (t / 50) 0 = sel[t / 50] := by rw [List.getD_eq_getElem?_getD, List.getElem?_eq_getElem ht50]; rfl
  have hlt := hs _ (List.getElem_mem ht50)
  have e2 : tabs.getD sel[t / 50] [] = tabs[sel[t / 50]] := by rw [List.getD_eq_getElem?_getD, List.getElem?_eq_getElem hlt]; rfl
  have hL := ht _ (List.getElem_mem hlt)
  have hi := hg.inside
  rw [e1, e2] at hi ⊢
  generalize hlens : tabs[sel[t / 50]] = lens at *
  have hok := hL.ok
  have hslen : s < lens.length := by rw [hL.length]; exact hsn
  have hj : lens[s]? = some lens[s] := List.getElem?_eq_getElem hslen
  have hcode := code_eq lens s _ hj
  have hclt := code_lt _ lens hL s _ hj
  have hw : Spec.word lens s = toBits lens[s] (V lens lens[s] + rank lens lens[s] s) := by
    rw [Spec.word, hcode, List.getD_eq_getElem?_getD, hj]; rfl
  rw [hw]
  generalize hl : lens[s] = l at *
  -- the table of this symbol
  have hnext : ∃ g1 : Grp, Reads (nextGroup (tabs.map makeTab) sel g) [] g1 ∧ g1.tab = makeTab lens ∧ g1.next = t / 50 + 1 ∧ g1.pos = 50 - t % 50 := by
    unfold nextGroup
    by_cases h0 : t % 50 = 0
    · obtain ⟨hp, hx⟩ := hg.start h0
      rw [if_pos hp, hx, List.getElem?_eq_getElem ht50]
      simp only [List.getElem?_map, List.getElem?_eq_getElem hlt, Option.map_some]
      exact ⟨_, Reads.pure _, by rw [hlens], rfl, by rw [h0]⟩
    · obtain ⟨hp, hx, htab⟩ := hi h0
      rw [if_neg (by omega)]
      exact ⟨g, Reads.pure _, htab, hx, hp⟩
  obtain ⟨g1, hr1, htab, hnx, hps⟩ := hnext
  obtain ⟨M, he, h1, hM, _, _, _, _⟩ := makeTab_spec lens hok
  have hmem := List.mem_of_getElem? hj
  have hml := he.ge _ hmem
  have hlM := he.le _ hmem
  refine ⟨{ g1 with pos := g1.pos - 1 }, ?_, ?_⟩
  · refine Reads.seq hr1 (y := toBits l (V lens l + rank lens l s)) ?_ (by simp)
    rw [htab]
    have hsplit : toBits l (V lens l + rank lens l s) = toBits (makeTab lens).minLen ((V lens l + rank lens l s) / 2 ^ (l - (makeTab lens).minLen))
        ++ toBits (l - (makeTab lens).minLen) (V lens l + rank lens l s) := by
      rw [← toBits_add, show (makeTab lens).minLen + (l - (makeTab lens).minLen) = l from by omega]
    rw [hsplit]
    refine Reads.bind (Reads.getBits _ _ (by omega) ?_) ?_
    · rw [Nat.div_lt_iff_lt_mul (Nat.two_pow_pos _), ← Nat.pow_add, show (makeTab lens).minLen + (l - (makeTab lens).minLen) = l from by omega]
      exact hclt
    · refine Reads.seq (Reads.zLoop lens hok (by rw [hL.length]; omega) s l hj (l - (makeTab lens).minLen) 22 _ (by omega) (Nat.le_refl _) (by omega))
        (Reads.pure _) (by simp)
  · constructor
    · intro h
      simp only
      constructor <;> omega
    · intro h
      simp only
      rw [show (t + 1) / 50 = t / 50 from by omega, e1, e2]
      exact ⟨by omega, by omega, htab⟩

/-- A group whose table is one of those read. -/
def GrpOk (n : Nat) (g : Grp) : Prop := g.pos = 0 ∨ ∃ lens, lens.length = n ∧ LensOk lens ∧ g.tab = makeTab lens

theorem Safe.getSym (n : Nat) (lens : List (List Nat)) (hl : ∀ x ∈ lens, x.length = n ∧ LensOk x) (sel : List Nat)
    (hs : ∀ s ∈ sel, s < lens.length) (g : Grp) (hg : GrpOk n g) : Safe 1 (getSym (lens.map makeTab) sel g) fun x => x.1 < n ∧ GrpOk n x.2 := by
  refine Safe.bind (i := 0) (j := 1) (Q := fun g => ∃ lens, lens.length = n ∧ LensOk lens ∧ g.tab = makeTab lens) ?_ ?_ (by omega)
  · unfold nextGroup
    by_cases h0 : g.pos = 0
    · rw [if_pos h0]
      cases e : sel[g.next]? with
      | none => exact Safe.fail
      | some s =>
        have hlt := hs s (List.mem_of_getElem? e)
        simp only [List.getElem?_map, List.getElem?_eq_getElem hlt, Option.map_some]
        have := hl _ (List.getElem_mem hlt)
        exact Safe.pure ⟨_, this.1, this.2, rfl⟩
    · rw [if_neg h0]
      rcases hg with h | h
      · exact absurd h h0
      · exact Safe.pure h
  · rintro g1 ⟨ls, hln, hok, htab⟩
    obtain ⟨M, he, h1, hM, _, _, _, _⟩ := makeTab_spec ls hok
    have := he.le _ he.minMem
    rw [htab]
    refine Safe.bind (i := 1) (j := 0) ((Safe.getBits _ (by omega)).weaken h1 fun _ h => h) ?_ (by omega)
    intro z _
    refine Safe.bind0 (Safe.zLoop ls hok 22 _ z (Nat.le_refl _) (by omega) (by omega) ?_ ?_) fun s hs => Safe.pure ⟨by rw [← hln]; exact hs, Or.inr ⟨ls, hln, hok, rfl⟩⟩
    · intro _; rw [V_eq_zero ls _ he.ge]; omega
    · intro h; have := h _ he.minMem; omega

/-! ### Symbols one after the other -/

/-- Reading symbols from a group on takes these bits. -/
inductive Feeds (sym : Grp → P (Nat × Grp)) : Grp → List Nat → List Bool → Grp → Prop
  | nil (g : Grp) : Feeds sym g [] [] g
  | cons {g g1 g2 : Grp} {s : Nat} {ss : List Nat} {b bs : List Bool} (h : Reads (sym g) b (s, g1)) (hb : 0 < b.length) (hr : Feeds sym g1 ss bs g2) :
      Feeds sym g (s :: ss) (b ++ bs) g2

theorem Feeds.split {sym : Grp → P (Nat × Grp)} {x y : List Nat} : ∀ {g g2 : Grp} {bits : List Bool}, Feeds sym g (x ++ y) bits g2 →
    ∃ b1 b2 g1, bits = b1 ++ b2 ∧ Feeds sym g x b1 g1 ∧ Feeds sym g1 y b2 g2 := by
  induction x with
  | nil => intro g g2 bits h; exact ⟨[], bits, g, rfl, .nil g, h⟩
  | cons s x ih =>
    intro g g2 bits h
    cases h with
    | cons h hb hr =>
      obtain ⟨b1, b2, g1, rfl, f1, f2⟩ := ih hr
      exact ⟨_, b2, g1, (List.append_assoc _ _ _).symm, .cons h hb f1, f2⟩

theorem word_length (n : Nat) (tabs : List (List Nat)) (ht : ∀ x ∈ tabs, Spec.Lens (n + 2) x) (i s : Nat) (hi : i < tabs.length) (hs : s < n + 2) :
    0 < (Spec.word (tabs.getD i []) s).length := by
  have hL := ht _ (List.getElem_mem hi)
  have e2 : tabs.getD i [] = tabs[i] := by rw [List.getD_eq_getElem?_getD, List.getElem?_eq_getElem hi]; rfl
  rw [e2, Spec.word, length_toBits, List.getD_eq_getElem?_getD, List.getElem?_eq_getElem (by rw [hL.length]; exact hs)]
  exact (hL.range _ (List.getElem_mem _)).1

theorem feeds_coded (n : Nat) (hn : n ≤ 256) (tabs : List (List Nat)) (ht : ∀ x ∈ tabs, Spec.Lens (n + 2) x) (sel : List Nat)
    (hs : ∀ s ∈ sel, s < tabs.length) (syms : List Nat) (hsy : ∀ s ∈ syms, s < n + 2) : ∀ t g, After tabs sel t g → t + syms.length ≤ 50 * sel.length →
    ∃ g', Feeds (getSym (tabs.map makeTab) sel) g syms ((syms.zipIdx t).flatMap fun x => Spec.word (tabs.getD (sel.getD (x.2 / 50) 0) []) x.1) g' := by
  induction syms with
  | nil => intro t g _ _; exact ⟨g, .nil g⟩
  | cons s syms ih =>
    intro t g hg hlen
    rw [List.length_cons] at hlen
    have h50 : t / 50 < sel.length := by omega
    obtain ⟨g1, hr, hg1⟩ := Reads.getSym n hn tabs ht sel hs t h50 g hg s (hsy s (by simp))
    obtain ⟨g2, hf⟩ := ih (fun x hx => hsy x (by simp [hx])) (t + 1) g1 hg1 (by omega)
    refine ⟨g2, ?_⟩
    rw [List.zipIdx_cons, List.flatMap_cons]
    refine .cons hr (word_length n tabs ht _ s ?_ (hsy s (by simp))) hf
    have e1 : sel.getD (t / 50) 0 = sel[t / 50] := by rw [List.getD_eq_getElem?_getD, List.getElem?_eq_getElem h50]; rfl
    rw [e1]
    exact hs _ (List.getElem_mem h50)

/-! ### Runs -/

/-- The number with these digits. -/
def value : List Nat → Nat
  | [] => 0
  | d :: ds => d + 1 + 2 * value ds

theorem digits_zero : Spec.digits 0 = [] := by rw [Spec.digits, dif_pos rfl]

theorem digits_spec (n : Nat) : value (Spec.digits n) = n ∧ (∀ d ∈ Spec.digits n, d = 0 ∨ d = 1) ∧ 2 ^ (Spec.digits n).length ≤ n + 1 := by
  induction n using Nat.strongRecOn with
  | _ n ih =>
    rw [Spec.digits]
    by_cases h : n = 0
    · simp [h, value]
    · rw [dif_neg h]
      by_cases ho : n % 2 = 1
      · rw [if_pos ho]
        obtain ⟨i1, i2, i3⟩ := ih ((n - 1) / 2) (by omega)
        refine ⟨by rw [value, i1]; omega, ?_, by rw [List.length_cons, Nat.pow_succ]; omega⟩
        intro d hd
        rcases List.mem_cons.mp hd with rfl | hd
        · exact Or.inl rfl
        · exact i2 d hd
      · rw [if_neg ho]
        obtain ⟨i1, i2, i3⟩ := ih ((n - 2) / 2) (by omega)
        refine ⟨by rw [value, i1]; omega, ?_, by rw [List.length_cons, Nat.pow_succ]; omega⟩
        intro d hd
        rcases List.mem_cons.mp hd with rfl | hd
        · exact Or.inr rfl
        · exact i2 d hd

theorem Reads.runLoop (sym : Grp → P (Nat × Grp)) (ds : List Nat) (s : Nat) (hs : 2 ≤ s) : ∀ (d : Nat) (f : Nat) (es : Int) (k : Nat) (g g2 : Grp) (bits : List Bool),
    (d = 0 ∨ d = 1) → (∀ x ∈ ds, x = 0 ∨ x = 1) → k + ds.length ≤ 20 → Feeds sym g (ds ++ [s]) bits g2 → ds.length < f →
    Reads (runLoop sym f es (2 ^ k) d g) bits (es + 2 ^ k * (value (d :: ds) : Nat), s, g2) := by
  induction ds with
  | nil =>
    intro d f es k g g2 bits hd _ hk hf hfuel
    obtain ⟨f, rfl⟩ : ∃ g, f = g + 1 := ⟨f - 1, by omega⟩
    have hn : ¬ 2 ^ k ≥ 2 * 1024 * 1024 := by
      have : 2 ^ k ≤ 2 ^ 20 := Nat.pow_le_pow_right (by omega) (by simpa using hk)
      simp only [Nat.reducePow] at this
      omega
    rw [Bzip.runLoop, if_neg hn]
    cases hf with
    | cons h hb hr =>
      cases hr with
      | nil =>
        refine Reads.seq h (y := []) ?_ (by simp)
        simp only
        rw [if_neg (show ¬ (s = 0 ∨ s = 1) by omega)]
        have e : (if d = 0 then es + (2 ^ k : Nat) else es + 2 * (2 ^ k : Nat)) = es + 2 ^ k * (value [d] : Nat) := by
          rcases hd with rfl | rfl
          · simp [value]
          · simp [value]; omega
        rw [e]
        exact Reads.pure _
  | cons x ds ih =>
    intro d f es k g g2 bits hd hx hk hf hfuel
    rw [List.length_cons] at hk hfuel
    obtain ⟨f, rfl⟩ : ∃ g, f = g + 1 := ⟨f - 1, by omega⟩
    have hn : ¬ 2 ^ k ≥ 2 * 1024 * 1024 := by
      have : 2 ^ k ≤ 2 ^ 20 := Nat.pow_le_pow_right (by omega) (by omega)
      simp only [Nat.reducePow] at this
      omega
    rw [Bzip.runLoop, if_neg hn]
    rw [List.cons_append] at hf
    cases hf with
    | cons h hb hr =>
      refine Reads.bind h ?_
      have hxx := hx x (by simp)
      simp only
      rw [if_pos hxx]
      have := ih x f (if d = 0 then es + (2 ^ k : Nat) else es + 2 * (2 ^ k : Nat)) (k + 1) _ g2 _ hxx (fun y hy => hx y (by simp [hy])) (by omega) hr (by omega)
      rw [← Nat.pow_succ]
      have e : (if d = 0 then es + (2 ^ k : Nat) else es + 2 * (2 ^ k : Nat)) + 2 ^ (k + 1) * (value (x :: ds) : Nat) = es + 2 ^ k * (value (d :: x :: ds) : Nat) := by
        rw [show value (d :: x :: ds) = d + 1 + 2 * value (x :: ds) from rfl]
        generalize value (x :: ds) = w
        rw [Int.pow_succ]
        push_cast
        rcases hd with rfl | rfl
        · rw [if_pos rfl]; ring
        · rw [if_neg (by omega)]; ring
      rw [e] at this
      exact this

theorem Safe.runLoop (n : Nat) (sym : Grp → P (Nat × Grp)) (hsym : ∀ g, GrpOk n g → Safe 1 (sym g) fun x => x.1 < n ∧ GrpOk n x.2) (f : Nat) :
    ∀ (es : Int) (k d : Nat) (g : Grp), GrpOk n g → ∀ r : Rd, r.Good → r.left < f →
      OkAt 1 (runLoop sym f es k d g r) r fun x => x.2.1 < n ∧ GrpOk n x.2.2 := by
  induction f with
  | zero => intro es k d g _ r _ h; omega
  | succ f ih =>
    intro es k d g hg r hr hf
    rw [Bzip.runLoop]
    by_cases h : k ≥ 2 * 1024 * 1024
    · rw [if_pos h]; trivial
    · rw [if_neg h]
      refine OkAt.bind (hsym g hg r hr) (j := 0) (fun x r1 g1 l1 hx => ?_) (by omega)
      obtain ⟨s, g2⟩ := x
      simp only
      by_cases h2 : s = 0 ∨ s = 1
      · rw [if_pos h2]
        exact (ih _ _ _ _ hx.2 r1 g1 (by omega)).weaken (by omega) fun _ h => h
      · rw [if_neg h2]
        exact Safe.pure hx r1 g1

/-! ### What is built up -/

/-- The block so far, and the table. -/
structure AccRep (a : Acc) (out : List Nat) (t : List Nat) : Prop where
  nblock : a.nblock = out.length
  ll16 : ∀ i, i < out.length → a.ll16 i = out.getD i 0
  tab : ∀ c, a.unzftab c = out.count c
  mtf : Rep a.mtf t

theorem pushRun_spec (max uc : Nat) (k : Nat) : ∀ (a : Acc) (out t : List Nat), a.nblock = out.length → (∀ i, i < out.length → a.ll16 i = out.getD i 0) →
    Rep a.mtf t → (∀ c, a.unzftab c = (out ++ List.replicate k uc).count c) → out.length ≤ max →
    (out.length + k ≤ max → ∃ a', pushRun max uc k a = .ok a' ∧ AccRep a' (out ++ List.replicate k uc) t) ∧
    (¬ out.length + k ≤ max → pushRun max uc k a = .err) := by
  induction k with
  | zero =>
    intro a out t h1 h2 h3 h4 h5
    refine ⟨fun _ => ⟨a, rfl, by simpa using h1, by simpa using h2, h4, h3⟩, fun h => by omega⟩
  | succ k ih =>
    intro a out t h1 h2 h3 h4 h5
    rw [pushRun]
    by_cases h : a.nblock ≥ max
    · rw [if_pos h]
      exact ⟨fun h => by omega, fun _ => rfl⟩
    · rw [if_neg h]
      have e : out ++ List.replicate (k + 1) uc = (out ++ [uc]) ++ List.replicate k uc := by simp [List.replicate_succ]
      have := ih { a with ll16 := upd a.ll16 a.nblock uc, nblock := a.nblock + 1 } (out ++ [uc]) t (by simp [h1]) ?_ h3 (by rw [← e]; exact h4)
        (by simp; omega)
      · rw [e]
        simp only [List.length_append, List.length_singleton] at this
        exact ⟨fun h => this.1 (by omega), fun h => this.2 (by omega)⟩
      · intro i hi
        simp only [List.length_append, List.length_singleton] at hi
        simp only
        rw [upd_get]
        by_cases hi2 : i = a.nblock
        · rw [if_pos hi2, hi2, h1, List.getD_eq_getElem?_getD, List.getElem?_append_right (by omega)]; simp
        · rw [if_neg hi2, h2 i (by omega), List.getD_eq_getElem?_getD, List.getD_eq_getElem?_getD, List.getElem?_append_left (by omega)]

/-- The values at these positions. -/
def unpos : List Nat → List Nat → List Nat
  | _, [] => []
  | t, p :: ps => t.getD p 0 :: unpos (toFront t p) ps

theorem unpos_positions (xs : List Nat) : ∀ t : List Nat, (∀ x ∈ xs, x ∈ t) → unpos t (Spec.positions t xs) = xs := by
  induction xs with
  | nil => intro t _; rfl
  | cons x xs ih =>
    intro t h
    have hx := h x (by simp)
    have hlt := List.idxOf_lt_length_of_mem hx
    have hd : t.getD (t.idxOf x) 0 = x := by rw [List.getD_eq_getElem?_getD, List.getElem?_eq_getElem hlt]; simp
    rw [Spec.positions, unpos, hd, toFront_idxOf t x hx, ih]
    intro y hy
    by_cases e : y = x
    · simp [e]
    · exact List.mem_cons_of_mem _ ((List.mem_erase_of_ne e).mpr (h y (by simp [hy])))

theorem toFront_zero (t : List Nat) (h : t ≠ []) : toFront t 0 = t := by
  obtain ⟨x, l, rfl⟩ := List.exists_cons_of_ne_nil h
  rfl

theorem unpos_zeros (t : List Nat) (h : t ≠ []) (k : Nat) (ps : List Nat) : unpos t (List.replicate k 0 ++ ps) = List.replicate k (t.getD 0 0) ++ unpos t ps := by
  induction k with
  | zero => rfl
  | succ k ih => rw [List.replicate_succ, List.cons_append, unpos, toFront_zero t h, ih, List.replicate_succ, List.cons_append]

theorem symbols_zeros (k : Nat) (ps : List Nat) : ∀ z, Spec.symbols z (List.replicate k 0 ++ ps) = Spec.symbols (z + k) ps := by
  induction k with
  | zero => intro z; rfl
  | succ k ih => intro z; rw [List.replicate_succ, List.cons_append, Spec.symbols, ih]; congr 1; omega

theorem symbols_digits (ps : List Nat) (h : ∀ p ∈ ps.head?, p ≠ 0) (z : Nat) : Spec.symbols z ps = Spec.digits z ++ Spec.symbols 0 ps := by
  cases ps with
  | nil => simp [Spec.symbols, digits_zero]
  | cons p ps =>
    cases p with
    | zero => exact absurd rfl (h 0 (by simp))
    | succ p => simp [Spec.symbols, digits_zero]

theorem split_zeros (ps : List Nat) : ∃ k ps', ps = List.replicate k 0 ++ ps' ∧ (∀ p ∈ ps'.head?, p ≠ 0) := by
  induction ps with
  | nil => exact ⟨0, [], rfl, by simp⟩
  | cons p ps ih =>
    by_cases h : p = 0
    · obtain ⟨k, ps', e, hh⟩ := ih
      exact ⟨k + 1, ps', by rw [h, e]; rfl, hh⟩
    · exact ⟨0, p :: ps, rfl, by simpa using h⟩

theorem toFront_mem (t : List Nat) (v : Nat) (hv : v < t.length) : ∀ x ∈ toFront t v, x ∈ t := by
  intro x hx
  rw [toFront] at hx
  rcases List.mem_cons.mp hx with rfl | h
  · rw [List.getD_eq_getElem?_getD, List.getElem?_eq_getElem hv]; exact List.getElem_mem hv
  · exact (List.eraseIdx_sublist t v).subset h

theorem rep_front {m : Mtf} {t : List Nat} (h : Rep m t) (ht : 0 < t.length) : m.base 0 < mtfaSize ∧ m.a (m.base 0) = t.getD 0 0 := by
  have hb := h.win.sep 0 15 (by omega) (by omega)
  have := h.win.room
  refine ⟨by show _ < 4096; omega, ?_⟩
  rw [← h.view 0 ht, view, Nat.zero_div, Nat.zero_mod, Nat.add_zero]

theorem push_one {a : Acc} {out t : List Nat} (h : AccRep a out t) (c : Nat) (m : Mtf) (t' : List Nat) (hm : Rep m t') :
    AccRep ⟨a.nblock + 1, upd a.ll16 a.nblock c, upd a.unzftab c (a.unzftab c + 1), m⟩ (out ++ [c]) t' := by
  refine ⟨by simp [h.nblock], ?_, ?_, hm⟩
  · intro i hi
    simp only [List.length_append, List.length_singleton] at hi
    simp only
    rw [upd_get]
    by_cases hi2 : i = a.nblock
    · rw [if_pos hi2, hi2, h.nblock, List.getD_eq_getElem?_getD, List.getElem?_append_right (by omega)]; simp
    · have := h.nblock
      rw [if_neg hi2, h.ll16 i (by omega), List.getD_eq_getElem?_getD, List.getD_eq_getElem?_getD, List.getElem?_append_left (by omega)]
  · intro x
    simp only
    rw [upd_get, List.count_append, List.count_singleton]
    by_cases hx : x = c
    · subst hx; rw [if_pos rfl, h.tab]; simp
    · rw [if_neg hx, h.tab]
      have : (c == x) = false := by simpa using fun e => hx e.symm
      simp [this]

theorem Reads.symLoop (sym : Grp → P (Nat × Grp)) (seq : List Nat) (max : Nat) (hmax : max ≤ 900000) : ∀ (len : Nat) (ps : List Nat), ps.length = len →
    ∀ (t : List Nat) (a : Acc) (out : List Nat) (g g2 : Grp) (s : Nat) (ss : List Nat) (bits : List Bool),
    t.length = seq.length → (∀ x ∈ t, x < seq.length) → 0 < seq.length → (∀ p ∈ ps, p < seq.length) → AccRep a out t → out.length + ps.length ≤ max →
    Spec.symbols 0 ps ++ [seq.length + 1] = s :: ss → Feeds sym g ss bits g2 →
    ∃ a' t', (∀ f, bits.length < f → Reads (symLoop sym seq max f s g a) bits a') ∧ AccRep a' (out ++ (unpos t ps).map fun i => seq.getD i 0) t' := by
  intro len
  induction len using Nat.strongRecOn with
  | _ len ih =>
    intro ps hlen t a out g g2 s ss bits htl htm hpos hps ha hout hsy hfeed
    have htne : t ≠ [] := by rintro rfl; simp at htl; omega
    obtain ⟨k, ps', e, hh⟩ := split_zeros ps
    by_cases hk : k = 0
    · subst hk
      have e : ps = ps' := by simpa using e
      subst e
      cases ps with
      | nil =>
        have hs : seq.length + 1 = s ∧ [] = ss := by simpa [Spec.symbols, digits_zero] using hsy
        obtain ⟨rfl, rfl⟩ := hs
        cases hfeed
        refine ⟨a, t, fun f hf => ?_, by simpa [unpos] using ha⟩
        obtain ⟨f, rfl⟩ : ∃ g, f = g + 1 := ⟨f - 1, by omega⟩
        rw [Bzip.symLoop, if_pos rfl]
        exact Reads.pure _
      | cons p ps =>
        have hp0 : p ≠ 0 := hh p (by simp)
        obtain ⟨q, rfl⟩ : ∃ q, p = q + 1 := ⟨p - 1, by omega⟩
        have hq := hps (q + 1) (by simp)
        have hs : q + 2 = s ∧ Spec.symbols 0 ps ++ [seq.length + 1] = ss := by simpa [Spec.symbols, digits_zero] using hsy
        obtain ⟨rfl, rfl⟩ := hs
        rw [List.length_cons] at hlen hout
        obtain ⟨m', hm, hrep⟩ := mtfStep_spec a.mtf t ha.mtf (q + 1) (by omega)
        have hmem : t.getD (q + 1) 0 ∈ t := by
          rw [List.getD_eq_getElem?_getD, List.getElem?_eq_getElem (by omega)]; exact List.getElem_mem _
        have hlt := htm _ hmem
        have hseq : seq[t.getD (q + 1) 0]? = some (seq.getD (t.getD (q + 1) 0) 0) := by
          rw [List.getD_eq_getElem?_getD (l := seq), List.getElem?_eq_getElem hlt]; rfl
        obtain ⟨s', ss', hs'⟩ := List.exists_cons_of_ne_nil (l := Spec.symbols 0 ps ++ [seq.length + 1]) (by simp)
        rw [hs'] at hfeed
        cases hfeed with
        | cons h hb hr =>
          rename_i g1 b bs
          obtain ⟨a', t', hR, hA⟩ := ih ps.length (by omega) ps rfl (toFront t (q + 1)) _ _ g1 g2 s' ss' bs (by rw [toFront_length _ _ (by omega)]; exact htl)
            (fun x hx => htm x (toFront_mem t _ (by omega) x hx)) hpos (fun x hx => hps x (by simp [hx]))
            (push_one ha (seq.getD (t.getD (q + 1) 0) 0) m' _ hrep) (by simp; omega) hs' hr
          refine ⟨a', t', fun f hf => ?_, by simpa [unpos] using hA⟩
          obtain ⟨f, rfl⟩ : ∃ g, f = g + 1 := ⟨f - 1, by omega⟩
          rw [List.length_append] at hf
          rw [Bzip.symLoop, if_neg (by omega), if_neg (by omega), if_neg (by have := ha.nblock; omega)]
          refine Reads.seq (Reads.lift hm) (y := b ++ bs) ?_ (by simp)
          simp only
          rw [hseq]
          exact Reads.bind h (hR f (by omega))
    · have hpsl : ps.length = k + ps'.length := by rw [e]; simp
      have hsy2 : Spec.digits k ++ (Spec.symbols 0 ps' ++ [seq.length + 1]) = s :: ss := by
        rw [← hsy, e, symbols_zeros, Nat.zero_add, symbols_digits ps' hh k, List.append_assoc]
      obtain ⟨v1, v2, v3⟩ := digits_spec k
      obtain ⟨d, ds, hd⟩ := List.exists_cons_of_ne_nil (l := Spec.digits k) (by intro h; rw [h] at v1; simp [value] at v1; omega)
      rw [hd] at hsy2 v1 v2 v3
      have hs : d = s ∧ ds ++ (Spec.symbols 0 ps' ++ [seq.length + 1]) = ss := by simpa using hsy2
      obtain ⟨rfl, rfl⟩ := hs
      obtain ⟨s', ss', hs'⟩ := List.exists_cons_of_ne_nil (l := Spec.symbols 0 ps' ++ [seq.length + 1]) (by simp)
      have hs2 : 2 ≤ s' := by
        cases ps' with
        | nil =>
          have := congrArg List.head? hs'
          simp [Spec.symbols, digits_zero] at this
          omega
        | cons p ps' =>
          have hp0 := hh p (by simp)
          obtain ⟨q, rfl⟩ : ∃ q, p = q + 1 := ⟨p - 1, by omega⟩
          have := congrArg List.head? hs'
          simp [Spec.symbols, digits_zero] at this
          omega
      rw [hs', show ds ++ s' :: ss' = (ds ++ [s']) ++ ss' from by simp] at hfeed
      obtain ⟨b1, b2, g1, rfl, hf1, hf2⟩ := hfeed.split
      have hdl : ds.length ≤ 20 := by
        rw [List.length_cons] at v3
        rcases Nat.lt_or_ge 20 ds.length with h | h
        · have : 2 ^ 21 ≤ 2 ^ (ds.length + 1) := Nat.pow_le_pow_right (by omega) (by omega)
          omega
        · exact h
      have hb1 : ds.length < b1.length := by
        have : ∀ (x : List Nat) (g : Grp) (b : List Bool) (g' : Grp), Feeds sym g x b g' → x.length ≤ b.length := by
          intro x
          induction x with
          | nil => intro g b g' _; simp
          | cons y x ih =>
            intro g b g' h
            cases h with
            | cons h hb hr => have := ih _ _ _ hr; simp only [List.length_cons, List.length_append]; omega
        have := this _ _ _ _ hf1
        simp at this; omega
      have hrun := fun f (hf : (b1 ++ b2).length < f + 1) => Reads.runLoop sym ds s' hs2 d (f + 1) (-1) 0 g g1 b1 (v2 d (by simp)) (fun x hx => v2 x (by simp [hx])) (by omega) hf1 (by rw [List.length_append] at hf; omega)
      simp only [v1] at hrun
      have hd01 := v2 d (by simp)
      -- the run itself
      obtain ⟨hfr1, hfr2⟩ := rep_front ha.mtf (by omega)
      have hlt : t.getD 0 0 < seq.length := htm _ (by
        rw [List.getD_eq_getElem?_getD, List.getElem?_eq_getElem (by omega)]; exact List.getElem_mem _)
      have hseq : seq[t.getD 0 0]? = some (seq.getD (t.getD 0 0) 0) := by
        rw [List.getD_eq_getElem?_getD (l := seq), List.getElem?_eq_getElem hlt]; rfl
      generalize hc : seq.getD (t.getD 0 0) 0 = c at *
      obtain ⟨a1, hp, hA1⟩ := (pushRun_spec max c k { a with unzftab := upd a.unzftab c (a.unzftab c + k) } out t ha.nblock ha.ll16 ha.mtf (by
        intro x
        simp only
        rw [upd_get, List.count_append, List.count_replicate]
        by_cases hx : x = c
        · subst hx; rw [if_pos rfl, ha.tab]; simp
        · rw [if_neg hx, ha.tab]
          have : (c == x) = false := by simpa using fun e => hx e.symm
          simp [this]) (by omega)).1 (by omega)
      obtain ⟨a', t', hR, hA⟩ := ih ps'.length (by omega) ps' rfl t a1 (out ++ List.replicate k c) g1 g2 s' ss' b2 htl htm hpos
        (fun x hx => hps x (by rw [e]; simp [hx])) hA1 (by simp; omega) hs' hf2
      refine ⟨a', t', fun f hf => ?_, ?_⟩
      · obtain ⟨f, rfl⟩ : ∃ g, f = g + 1 := ⟨f - 1, by omega⟩
        rw [Bzip.symLoop, if_neg (by omega), if_pos hd01]
        refine Reads.bind (hrun f hf) ?_
        rw [List.length_append] at hf
        simp only
        rw [if_pos hfr1, hfr2, hseq]
        simp only
        have hk2 : ((-1 : Int) + 2 ^ 0 * (k : Nat) + 1).toNat = k := by omega
        rw [hk2]
        exact Reads.seq (Reads.lift hp) (hR f (by omega)) (by simp)
      · rw [e, unpos_zeros t htne, List.map_append, List.map_replicate, hc, ← List.append_assoc]
        exact hA

theorem Safe.symLoop (n : Nat) (sym : Grp → P (Nat × Grp)) (hsym : ∀ g, GrpOk n g → Safe 1 (sym g) fun x => x.1 < n ∧ GrpOk n x.2) (seq : List Nat)
    (hn : n = seq.length + 2) (hpos : 0 < seq.length) (max : Nat) (f : Nat) :
    ∀ (s : Nat) (g : Grp) (a : Acc) (out t : List Nat), s < n → GrpOk n g → AccRep a out t → t.length = seq.length → (∀ x ∈ t, x < seq.length) →
      out.length ≤ max → (∀ c ∈ out, c ∈ seq) → ∀ r : Rd, r.Good → r.left < f →
      OkAt 0 (symLoop sym seq max f s g a r) r fun a' => ∃ out t, AccRep a' out t ∧ out.length ≤ max ∧ ∀ c ∈ out, c ∈ seq := by
  induction f with
  | zero => intro s g a out t _ _ _ _ _ _ _ r _ h; omega
  | succ f ih =>
    intro s g a out t hs hg ha htl htm hout hmem r hr hf
    rw [Bzip.symLoop]
    by_cases h1 : s = seq.length + 1
    · rw [if_pos h1]
      exact Safe.pure (Q := fun a' => ∃ out t, AccRep a' out t ∧ out.length ≤ max ∧ ∀ c ∈ out, c ∈ seq) ⟨out, t, ha, hout, hmem⟩ r hr
    · rw [if_neg h1]
      by_cases h2 : s = 0 ∨ s = 1
      · rw [if_pos h2]
        refine OkAt.bind (Safe.runLoop n sym hsym (f + 1) (-1) 1 s g hg r hr hf) (j := 0) (fun x r1 g1 l1 hx => ?_) (by omega)
        obtain ⟨es, s', g'⟩ := x
        obtain ⟨hfr1, hfr2⟩ := rep_front ha.mtf (by omega)
        have hlt : t.getD 0 0 < seq.length := htm _ (by
          rw [List.getD_eq_getElem?_getD, List.getElem?_eq_getElem (by omega)]; exact List.getElem_mem _)
        simp only
        rw [if_pos hfr1, hfr2, List.getElem?_eq_getElem hlt]
        simp only
        generalize hk : (es + 1).toNat = k
        have hcm := List.getElem_mem hlt
        generalize seq[t.getD 0 0] = c at *
        have hp := pushRun_spec max c k { a with unzftab := upd a.unzftab c (a.unzftab c + k) } out t ha.nblock ha.ll16 ha.mtf (by
          intro x
          simp only
          rw [upd_get, List.count_append, List.count_replicate]
          by_cases hx : x = c
          · subst hx; rw [if_pos rfl, ha.tab]; simp
          · rw [if_neg hx, ha.tab]
            have : (c == x) = false := by simpa using fun e => hx e.symm
            simp [this]) hout
        by_cases hfit : out.length + k ≤ max
        · obtain ⟨a1, e1, hA1⟩ := hp.1 hfit
          refine OkAt.bind (Q := fun x => x = a1) (Safe.lift (by rw [e1]) r1 g1) (j := 0) (fun x r2 g2 l2 hx2 => ?_) (by omega)
          subst hx2
          refine ih s' g' _ _ t hx.1 hx.2 hA1 htl htm (by simp; omega) ?_ r2 g2 (by omega)
          intro y hy
          rcases List.mem_append.mp hy with hy | hy
          · exact hmem y hy
          · rw [List.eq_of_mem_replicate hy]; exact hcm
        · have e1 := hp.2 hfit
          rw [e1]
          trivial
      · rw [if_neg h2]
        by_cases h3 : a.nblock ≥ max
        · rw [if_pos h3]; trivial
        · rw [if_neg h3]
          obtain ⟨m', hm, hrep⟩ := mtfStep_spec a.mtf t ha.mtf (s - 1) (by omega)
          have hmm : t.getD (s - 1) 0 ∈ t := by
            rw [List.getD_eq_getElem?_getD, List.getElem?_eq_getElem (by omega)]; exact List.getElem_mem _
          have hlt := htm _ hmm
          refine OkAt.bind (Q := fun x => x = (t.getD (s - 1) 0, m')) (Safe.lift (by rw [hm]) r hr) (j := 0) (fun x r1 g1 l1 hx => ?_) (by omega)
          subst hx
          simp only
          rw [List.getElem?_eq_getElem hlt]
          simp only
          have hcm := List.getElem_mem hlt
          refine OkAt.bind (hsym g hg r1 g1) (j := 0) (fun x r2 g2 l2 hx => ?_) (by omega)
          obtain ⟨s', g'⟩ := x
          simp only
          have hnb := ha.nblock
          refine ih s' g' _ _ _ hx.1 hx.2 (push_one ha _ m' _ hrep) (by rw [toFront_length _ _ (by omega)]; exact htl)
            (fun x hx => htm x (toFront_mem t _ (by omega) x hx)) (by simp; omega) ?_ r2 g2 (by omega)
          intro y hy
          rcases List.mem_append.mp hy with hy | hy
          · exact hmem y hy
          · rw [List.mem_singleton.mp hy]; exact hcm

end Verif.Bzip
