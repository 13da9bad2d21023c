import Verif.Core.Path
/-!
Lemmas on `ReduceLocalPath`.
-/
set_option linter.unusedSimpArgs false
namespace Verif.Path

theorem findSub_cons (pat : List Nat) (c : Nat) (s : List Nat) :
    findSub pat (c :: s) = if pat.isPrefixOf (c :: s) then some 0 else (findSub pat s).map (· + 1) := rfl

theorem findSub_some (pat : List Nat) : ∀ (s : List Nat) (p : Nat), findSub pat s = some p → pat.isPrefixOf (s.drop p) = true ∧ p ≤ s.length
  | [], p, h => by
    rw [findSub] at h
    by_cases c : pat.isPrefixOf [] = true
    · rw [if_pos c] at h
      have := Option.some.inj h
      subst this
      exact ⟨c, Nat.le_refl _⟩
    · rw [if_neg c] at h; cases h
  | c :: s, p, h => by
    rw [findSub_cons] at h
    by_cases hp : pat.isPrefixOf (c :: s) = true
    · rw [if_pos hp] at h
      have := Option.some.inj h
      subst this
      exact ⟨hp, Nat.zero_le _⟩
    · rw [if_neg hp] at h
      cases hf : findSub pat s with
      | none => rw [hf] at h; cases h
      | some q =>
        rw [hf, Option.map_some, Option.some.injEq] at h
        have ih := findSub_some pat s q hf
        rw [← h]
        exact ⟨ih.1, by rw [List.length_cons]; omega⟩

/-! ### Doubled delimiters -/

/-- Each run of `/` made one. -/
def collapse : List Nat → List Nat
  | [] => []
  | [c] => [c]
  | c :: d :: s => if c = 0x2F ∧ d = 0x2F then collapse (d :: s) else c :: collapse (d :: s)

theorem isPrefixOf_dbl (c d : Nat) (s : List Nat) : dbl.isPrefixOf (c :: d :: s) = true ↔ (c = 0x2F ∧ d = 0x2F) := by
  simp [dbl, List.isPrefixOf]; omega

theorem dbl_one (c : Nat) : dbl.isPrefixOf [c] = false := by
  simp [dbl, List.isPrefixOf]

theorem collapse_none : ∀ s, findSub dbl s = none → collapse s = s
  | [], _ => rfl
  | [_], _ => rfl
  | c :: d :: s, h => by
    rw [findSub_cons] at h
    by_cases hp : dbl.isPrefixOf (c :: d :: s) = true
    · rw [if_pos hp] at h; cases h
    · rw [if_neg hp, Option.map_eq_none_iff] at h
      rw [collapse, if_neg (fun x => hp ((isPrefixOf_dbl c d s).2 x)), collapse_none (d :: s) h]

theorem collapse_head (c d : Nat) (s : List Nat) : ∃ t, collapse (d :: s) = d :: t := by
  cases s with
  | nil => exact ⟨[], rfl⟩
  | cons e s =>
    induction s generalizing d e with
    | nil =>
      rw [collapse]
      by_cases h : d = 0x2F ∧ e = 0x2F
      · rw [if_pos h, h.1, h.2]; exact ⟨[], rfl⟩
      · rw [if_neg h]; exact ⟨_, rfl⟩
    | cons f s ih =>
      rw [collapse]
      by_cases h : d = 0x2F ∧ e = 0x2F
      · rw [if_pos h]
        obtain ⟨t, ht⟩ := ih e f
        exact ⟨t, by rw [ht, h.1, h.2]⟩
      · rw [if_neg h]; exact ⟨_, rfl⟩

theorem collapse_clean : ∀ s, findSub dbl (collapse s) = none
  | [] => rfl
  | [c] => by rw [collapse, findSub_cons, dbl_one]; rfl
  | c :: d :: s => by
    rw [collapse]
    have ih := collapse_clean (d :: s)
    by_cases h : c = 0x2F ∧ d = 0x2F
    · rw [if_pos h]; exact ih
    · rw [if_neg h, findSub_cons, ih]
      obtain ⟨t, ht⟩ := collapse_head c d s
      rw [ht, if_neg (fun x => h ((isPrefixOf_dbl c d t).1 x))]
      rfl

theorem dblStep_spec : ∀ (s s' : List Nat), dblStep s = some s' → collapse s' = collapse s ∧ s'.length + 1 = s.length
  | [], s', h => by cases h
  | [c], s', h => by
    rw [dblStep, findSub_cons, dbl_one] at h
    cases h
  | c :: d :: s, s', h => by
    by_cases hp : dbl.isPrefixOf (c :: d :: s) = true
    · rw [dblStep, findSub_cons, if_pos hp] at h
      have hs : s' = d :: s := (Option.some.inj h).symm
      have hc := (isPrefixOf_dbl c d s).1 hp
      rw [hs, collapse, if_pos hc]
      exact ⟨rfl, rfl⟩
    · rw [dblStep, findSub_cons, if_neg hp] at h
      cases hf : findSub dbl (d :: s) with
      | none => rw [hf] at h; cases h
      | some p =>
        rw [hf] at h
        have hs : s' = c :: ((d :: s).take p ++ (d :: s).drop (p + 1)) := (Option.some.inj h).symm
        obtain ⟨i1, i2⟩ := dblStep_spec (d :: s) ((d :: s).take p ++ (d :: s).drop (p + 1)) (by rw [dblStep, hf])
        have hh : ∃ t, (d :: s).take p ++ (d :: s).drop (p + 1) = d :: t := by
          cases p with
          | zero =>
            have := (findSub_some dbl _ _ hf).1
            cases s with
            | nil => rw [List.drop_zero, dbl_one] at this; cases this
            | cons e s =>
              have he := (isPrefixOf_dbl d e s).1 this
              exact ⟨s, by rw [he.1, he.2]; rfl⟩
          | succ p => exact ⟨_, rfl⟩
        obtain ⟨t, ht⟩ := hh
        rw [hs]
        rw [ht] at i1 i2 ⊢
        refine ⟨?_, by rw [List.length_cons, i2]; rfl⟩
        have hn : ¬ (c = 0x2F ∧ d = 0x2F) := fun x => hp ((isPrefixOf_dbl c d s).2 x)
        rw [collapse, if_neg hn, collapse, if_neg hn, i1]

theorem dblStep_none (s : List Nat) : dblStep s = none ↔ findSub dbl s = none := by
  unfold dblStep; cases findSub dbl s <;> simp

/-- The first loop ends, with the runs made one. -/
theorem dblLoop_ends : ∀ (n : Nat) (s : List Nat), s.length ≤ n → dblLoop n s = some (collapse s)
  | 0, s, h => by
    have : s = [] := List.length_eq_zero_iff.1 (by omega)
    subst this; rfl
  | n + 1, s, h => by
    rw [dblLoop]
    cases hd : dblStep s with
    | none => rw [collapse_none s ((dblStep_none s).1 hd)]
    | some s' =>
      obtain ⟨e1, e2⟩ := dblStep_spec s s' hd
      simp only
      rw [dblLoop_ends n s' (by omega), e1]

/-- Whenever the first loop has ended, the runs are made one. -/
theorem dblLoop_result : ∀ (n : Nat) (s r : List Nat), dblLoop n s = some r → r = collapse s
  | 0, s, r, h => by
    rw [dblLoop] at h
    by_cases c : dblStep s = none
    · rw [if_pos c] at h
      rw [collapse_none s ((dblStep_none s).1 c)]
      exact (Option.some.inj h).symm
    · rw [if_neg c] at h; cases h
  | n + 1, s, r, h => by
    rw [dblLoop] at h
    cases hd : dblStep s with
    | none =>
      rw [hd] at h
      rw [collapse_none s ((dblStep_none s).1 hd)]
      exact (Option.some.inj h).symm
    | some s' =>
      rw [hd] at h
      rw [dblLoop_result n s' r h, (dblStep_spec s s' hd).1]

/-! ### Parent references -/

theorem slashBefore_some (s : List Nat) : ∀ p q, slashBefore s p = some q → q < p ∧ s[q]? = some 0x2F
  | 0, _, h => by cases h
  | p + 1, q, h => by
    rw [slashBefore] at h
    by_cases c : s[p]? = some 0x2F
    · rw [if_pos c] at h
      have := Option.some.inj h
      subst this
      exact ⟨by omega, c⟩
    · rw [if_neg c] at h
      have := slashBefore_some s p q h
      exact ⟨by omega, this.2⟩

/-- A string whose first parent reference has no delimiter in front. -/
def stuck (s : List Nat) : Prop := ∃ p, findSub up s = some p ∧ slashBefore s p = none

theorem stuck_forever (s : List Nat) (h : stuck s) : ∀ n, upLoop n s = none := by
  obtain ⟨p, h1, h2⟩ := h
  have hs : upStep s = some s := by rw [upStep, h1]; simp only; rw [h2]
  intro n
  induction n with
  | zero => rw [upLoop, hs]; rfl
  | succ n ih => rw [upLoop, hs]; exact ih

/-- The string after `n` rounds that changed it. -/
def rounds : Nat → List Nat → List Nat
  | 0, s => s
  | n + 1, s => match upStep s with
    | none => s
    | some s' => rounds n s'

theorem upStep_none (s : List Nat) : upStep s = none ↔ findSub up s = none := by
  unfold upStep
  cases findSub up s with
  | none => simp
  | some p => simp only; cases slashBefore s p <;> simp

theorem up_ends_or_stuck : ∀ (n : Nat) (s : List Nat), s.length ≤ n →
    (∃ r, upLoop n s = some r) ∨ (∃ k, stuck (rounds k s) ∧ ∀ m, upLoop m s = none)
  | 0, s, h => by
    have : s = [] := List.length_eq_zero_iff.1 (by omega)
    subst this; exact .inl ⟨[], rfl⟩
  | n + 1, s, h => by
    cases hf : findSub up s with
    | none => exact .inl ⟨s, by rw [upLoop, (upStep_none s).2 hf]⟩
    | some p =>
      cases hs : slashBefore s p with
      | none => exact .inr ⟨0, ⟨p, hf, hs⟩, stuck_forever s ⟨p, hf, hs⟩⟩
      | some q =>
        have hst : upStep s = some (s.take q ++ s.drop (p + 3)) := by rw [upStep, hf]; simp only; rw [hs]
        have hq := slashBefore_some s p q hs
        have hp := (findSub_some up s p hf).2
        have hlen : (s.take q ++ s.drop (p + 3)).length ≤ n := by
          rw [List.length_append, List.length_take, List.length_drop]; omega
        rcases up_ends_or_stuck n _ hlen with ⟨r, hr⟩ | ⟨k, hk, hm⟩
        · exact .inl ⟨r, by rw [upLoop, hst]; exact hr⟩
        · refine .inr ⟨k + 1, by rw [rounds, hst]; exact hk, fun m => ?_⟩
          cases m with
          | zero => rw [upLoop, hst]; rfl
          | succ m => rw [upLoop, hst]; exact hm m

theorem upLoop_clean : ∀ (n : Nat) (s r : List Nat), upLoop n s = some r → findSub up r = none
  | 0, s, r, h => by
    rw [upLoop] at h
    by_cases c : upStep s = none
    · rw [if_pos c] at h
      rw [← Option.some.inj h]; exact (upStep_none s).1 c
    · rw [if_neg c] at h; cases h
  | n + 1, s, r, h => by
    rw [upLoop] at h
    cases hd : upStep s with
    | none =>
      rw [hd] at h
      rw [← Option.some.inj h]; exact (upStep_none s).1 hd
    | some s' => rw [hd] at h; exact upLoop_clean n s' r h

/-- No `//` in the sense of neighbours. -/
def noDbl (s : List Nat) : Prop := ∀ i : Nat, ¬ (s[i]? = some 0x2F ∧ s[i + 1]? = some 0x2F)

theorem noDbl_iff : ∀ s, findSub dbl s = none ↔ noDbl s
  | [] => ⟨fun _ i h => by simp at h, fun _ => rfl⟩
  | [c] => ⟨fun _ i h => by simp at h, fun _ => by rw [findSub_cons, dbl_one]; rfl⟩
  | c :: d :: s => by
    rw [findSub_cons]
    have ih := noDbl_iff (d :: s)
    constructor
    · intro h i hi
      by_cases hp : dbl.isPrefixOf (c :: d :: s) = true
      · rw [if_pos hp] at h; cases h
      · rw [if_neg hp, Option.map_eq_none_iff] at h
        cases i with
        | zero => exact hp ((isPrefixOf_dbl c d s).2 (by simpa using hi))
        | succ i => exact ih.1 h i (by simpa using hi)
    · intro h
      by_cases hp : dbl.isPrefixOf (c :: d :: s) = true
      · have := (isPrefixOf_dbl c d s).1 hp
        exact absurd ⟨by simp [this.1], by simp [this.2]⟩ (h 0)
      · rw [if_neg hp, Option.map_eq_none_iff]
        exact ih.2 fun i hi => h (i + 1) (by simpa using hi)

theorem noDbl_take (s : List Nat) (q : Nat) (h : noDbl s) : noDbl (s.take q) := by
  intro i hi
  rw [List.getElem?_take, List.getElem?_take] at hi
  by_cases c : i + 1 < q
  · rw [if_pos (by omega), if_pos c] at hi; exact h i hi
  · rw [if_neg c] at hi; cases hi.2

theorem noDbl_drop (s : List Nat) (q : Nat) (h : noDbl s) : noDbl (s.drop q) := by
  intro i hi
  rw [List.getElem?_drop, List.getElem?_drop] at hi
  exact h (q + i) (by rw [show q + i + 1 = q + (i + 1) by omega]; exact hi)

theorem noDbl_cut (s : List Nat) (q r : Nat) (h : noDbl s) (hq : s[q]? = some 0x2F) : noDbl (s.take q ++ s.drop r) := by
  have hlt : q < s.length := by
    rcases Nat.lt_or_ge q s.length with h' | h'
    · exact h'
    · rw [List.getElem?_eq_none h'] at hq; cases hq
  have hl : (s.take q).length = q := by rw [List.length_take]; omega
  intro i hi
  rcases Nat.lt_trichotomy (i + 1) q with c | c | c
  · rw [List.getElem?_append_left (by omega), List.getElem?_append_left (by omega)] at hi
    exact noDbl_take s q h i hi
  · rw [List.getElem?_append_left (by omega), List.getElem?_take, if_pos (by omega)] at hi
    exact h i ⟨hi.1, by rw [c]; exact hq⟩
  · rw [List.getElem?_append_right (by omega), List.getElem?_append_right (by omega), hl] at hi
    exact noDbl_drop s r h (i - q) (by rw [show i - q + 1 = i + 1 - q by omega]; exact hi)

theorem upLoop_noDbl : ∀ (n : Nat) (s r : List Nat), noDbl s → upLoop n s = some r → noDbl r
  | 0, s, r, hn, h => by
    rw [upLoop] at h
    by_cases c : upStep s = none
    · rw [if_pos c] at h
      rw [← Option.some.inj h]; exact hn
    · rw [if_neg c] at h; cases h
  | n + 1, s, r, hn, h => by
    rw [upLoop] at h
    cases hd : upStep s with
    | none =>
      rw [hd] at h
      rw [← Option.some.inj h]; exact hn
    | some s' =>
      rw [hd] at h
      refine upLoop_noDbl n s' r ?_ h
      unfold upStep at hd
      cases hf : findSub up s with
      | none => rw [hf] at hd; cases hd
      | some p =>
        rw [hf] at hd
        simp only at hd
        cases hs : slashBefore s p with
        | none =>
          rw [hs] at hd
          rw [← Option.some.inj hd]; exact hn
        | some q =>
          rw [hs] at hd
          rw [← Option.some.inj hd]
          exact noDbl_cut s q (p + 3) hn (slashBefore_some s p q hs).2

/-! ### Paths of components -/

def dotdot : List Nat := [0x2E, 0x2E]

/-- `/c1/c2/...`. -/
def path (cs : List (List Nat)) : List Nat := cs.flatMap (0x2F :: ·)

/-- A component that is not a parent reference and does not begin like one. -/
def isName (c : List Nat) : Prop := c ≠ [] ∧ 0x2F ∉ c ∧ ¬ dotdot.isPrefixOf c = true

/-- The usual meaning: a parent reference takes the name before it away; `none` when there is none. -/
def resolve : List (List Nat) → List (List Nat) → Option (List (List Nat))
  | st, [] => some st.reverse
  | st, c :: cs =>
    if c = dotdot then
      match st with
      | [] => none
      | _ :: st => resolve st cs
    else resolve (c :: st) cs

theorem resolve_up_nil (cs : List (List Nat)) : resolve [] (dotdot :: cs) = none := by simp [resolve]
theorem resolve_up_cons (c : List Nat) (st cs : List (List Nat)) : resolve (c :: st) (dotdot :: cs) = resolve st cs := by simp [resolve]
theorem resolve_name (st : List (List Nat)) (c : List Nat) (cs : List (List Nat)) (h : c ≠ dotdot) :
    resolve st (c :: cs) = resolve (c :: st) cs := by cases st <;> simp [resolve, h]

theorem findSub_skip (pat : List Nat) (x : Nat) (pt : List Nat) (hpat : pat = x :: pt) : ∀ (c t : List Nat), x ∉ c →
    findSub pat (c ++ t) = (findSub pat t).map (· + c.length)
  | [], t, _ => by simp
  | a :: c, t, h => by
    have hne : ¬ pat.isPrefixOf (a :: (c ++ t)) = true := by
      rw [hpat]; simp [List.isPrefixOf]; intro e; exact absurd (by rw [e]; exact List.mem_cons_self ..) h
    rw [List.cons_append, findSub_cons, if_neg hne, findSub_skip pat x pt hpat c t (fun hh => h (List.mem_cons_of_mem _ hh)),
      Option.map_map]
    congr 1

/-- A name is not the start of a parent reference. -/
theorem name_not_up (c t : List Nat) (hc : isName c) (ht : t = [] ∨ ∃ u, t = 0x2F :: u) : ¬ up.isPrefixOf (0x2F :: (c ++ t)) = true := by
  obtain ⟨h1, h2, h3⟩ := hc
  intro h
  rw [up, List.isPrefixOf_cons_cons] at h
  simp only [BEq.rfl, Bool.true_and] at h
  match c with
  | [] => exact h1 rfl
  | [a] =>
    rcases ht with e | ⟨u, e⟩
    · rw [e] at h; simp [List.isPrefixOf] at h
    · rw [e] at h; simp [List.isPrefixOf] at h
  | a :: b :: c =>
    apply h3
    simpa [dotdot, List.isPrefixOf] using h

/-- What may follow components. -/
def goodEnd (t : List Nat) : Prop := t = [] ∨ ∃ u, t = 0x2F :: u

theorem path_end : ∀ (cs : List (List Nat)) (t : List Nat), goodEnd t → goodEnd (path cs ++ t)
  | [], t, h => h
  | c :: cs, t, _ => .inr ⟨c ++ (path cs ++ t), by simp [path]⟩

theorem path_cons (c : List Nat) (cs : List (List Nat)) : path (c :: cs) = 0x2F :: (c ++ path cs) := by
  simp [path]

theorem path_append (a b : List (List Nat)) : path (a ++ b) = path a ++ path b := by simp [path]

theorem findSub_names : ∀ (ns : List (List Nat)) (t : List Nat), (∀ c ∈ ns, isName c) → goodEnd t →
    findSub up (path ns ++ t) = (findSub up t).map (· + (path ns).length)
  | [], t, _, _ => by simp [path]
  | c :: ns, t, h, ht => by
    have hc := h c (List.mem_cons_self ..)
    rw [path_cons, List.cons_append, List.append_assoc, findSub_cons,
      if_neg (name_not_up c _ hc (path_end ns t ht)), findSub_skip up 0x2F [0x2E, 0x2E] rfl c _ hc.2.1,
      findSub_names ns t (fun x hx => h x (List.mem_cons_of_mem _ hx)) ht, Option.map_map, Option.map_map]
    congr 1
    funext k
    simp only [Function.comp, List.length_cons, List.length_append]; omega

theorem findSub_up_here (t : List Nat) : findSub up (0x2F :: (dotdot ++ t)) = some 0 := by
  rw [findSub_cons, if_pos]
  simp [up, dotdot, List.isPrefixOf]

theorem slashBefore_skip (s c : List Nat) (n : Nat) (h : ∀ i, i < c.length → s[n + i]? = some (c.getD i 0)) (hc : 0x2F ∉ c) :
    ∀ k, k ≤ c.length → slashBefore s (n + k) = slashBefore s n
  | 0, _ => rfl
  | k + 1, hk => by
    have hi := h k (by omega)
    have hne : c.getD k 0 ≠ 0x2F := by
      rw [List.getD_eq_getElem?_getD, List.getElem?_eq_getElem (by omega), Option.getD_some]
      intro e
      exact hc (e ▸ List.getElem_mem _)
    rw [← Nat.add_assoc, slashBefore, hi, if_neg (fun e => hne (Option.some.inj e))]
    exact slashBefore_skip s c n h hc k (by omega)

theorem slashBefore_none (s c : List Nat) (hc : 0x2F ∉ c) (h : ∀ i, i < c.length → s[i]? = some (c.getD i 0)) :
    slashBefore s c.length = none := by
  have := slashBefore_skip s c 0 (by simpa using h) hc c.length (Nat.le_refl _)
  rw [Nat.zero_add] at this
  rw [this]; rfl

theorem getElem?_mid (a c b : List Nat) (i : Nat) (h : i < c.length) : (a ++ (c ++ b))[a.length + i]? = some (c.getD i 0) := by
  rw [List.getElem?_append_right (by omega), Nat.add_sub_cancel_left, List.getElem?_append_left h,
    List.getD_eq_getElem?_getD, List.getElem?_eq_getElem h]
  rfl

/-- A string of host, names, a parent reference and more. -/
theorem findSub_host (host : List Nat) (hh : 0x2F ∉ host) (ns : List (List Nat)) (hn : ∀ c ∈ ns, isName c) (t : List Nat) :
    findSub up (host ++ path ns ++ (0x2F :: (dotdot ++ t))) = some (host ++ path ns).length := by
  rw [List.append_assoc, findSub_skip up 0x2F [0x2E, 0x2E] rfl host _ hh, findSub_names ns _ hn (.inr ⟨_, rfl⟩), findSub_up_here]
  simp only [Option.map_some, List.length_append]
  congr 1; omega

/-- A round with a name in front takes both away. -/
theorem upStep_name (host : List Nat) (hh : 0x2F ∉ host) (ns : List (List Nat)) (hn : ∀ c ∈ ns, isName c) (c : List Nat) (hc : isName c)
    (t : List Nat) : upStep (host ++ path (ns ++ [c]) ++ (0x2F :: (dotdot ++ t))) = some (host ++ path ns ++ t) := by
  have hall : ∀ x ∈ ns ++ [c], isName x := fun x hx => by
    rcases List.mem_append.1 hx with h | h
    · exact hn x h
    · rw [List.mem_singleton.1 h]; exact hc
  rw [upStep, findSub_host host hh _ hall]
  simp only
  have e0 : host ++ path (ns ++ [c]) = (host ++ path ns) ++ (0x2F :: c) := by
    rw [path_append, List.append_assoc]; congr 2; simp [path]
  have hl : (host ++ path (ns ++ [c])).length = (host ++ path ns).length + 1 + c.length := by
    rw [e0, List.length_append, List.length_cons]; omega
  have hs : slashBefore (host ++ path (ns ++ [c]) ++ (0x2F :: (dotdot ++ t))) (host ++ path (ns ++ [c])).length =
      some (host ++ path ns).length := by
    rw [hl, slashBefore_skip _ c _ (fun i hi => ?_) hc.2.1 c.length (Nat.le_refl _), slashBefore, if_pos]
    · rw [e0, List.append_assoc, List.getElem?_append_right (Nat.le_refl _), Nat.sub_self]; rfl
    · rw [e0, show (host ++ path ns) ++ (0x2F :: c) ++ (0x2F :: (dotdot ++ t)) =
        (host ++ path ns ++ [0x2F]) ++ (c ++ (0x2F :: (dotdot ++ t))) by simp]
      have := getElem?_mid (host ++ path ns ++ [0x2F]) c (0x2F :: (dotdot ++ t)) i hi
      rw [List.length_append, List.length_singleton] at this
      exact this
  rw [hs]
  simp only
  congr 1
  rw [e0, List.append_assoc (host ++ path ns), List.take_left]
  congr 1
  rw [← List.append_assoc, List.drop_append]
  rw [List.drop_eq_nil_of_le (by omega), List.nil_append, Nat.add_sub_cancel_left]
  rfl

theorem stuck_host (host : List Nat) (hh : 0x2F ∉ host) (t : List Nat) : stuck (host ++ (0x2F :: (dotdot ++ t))) := by
  have := findSub_host host hh [] (fun _ h => absurd h (List.not_mem_nil)) t
  simp only [path, List.flatMap_nil, List.append_nil] at this
  refine ⟨_, this, slashBefore_none _ host hh fun i hi => ?_⟩
  have := getElem?_mid [] host (0x2F :: (dotdot ++ t)) i hi
  simpa using this

theorem findSub_tail (t : List Nat) (h : t = [] ∨ t = [0x2F]) : findSub up t = none := by
  rcases h with h | h <;> subst h <;> rfl

/-- The second loop on components: names seen so far, then the rest. -/
theorem upLoop_comps (host : List Nat) (hh : 0x2F ∉ host) (tail : List Nat) (ht : tail = [] ∨ tail = [0x2F]) :
    ∀ (cs st : List (List Nat)), (∀ c ∈ cs, c = dotdot ∨ isName c) → (∀ c ∈ st, isName c) →
    (∀ r, resolve st cs = some r → ∃ n, upLoop n (host ++ path (st.reverse ++ cs) ++ tail) = some (host ++ path r ++ tail)) ∧
    (resolve st cs = none → ∀ n, upLoop n (host ++ path (st.reverse ++ cs) ++ tail) = none)
  | [], st, _, hst => by
    refine ⟨fun r hr => ?_, fun h => by cases h⟩
    have : r = st.reverse := (Option.some.inj hr).symm
    subst this
    refine ⟨0, ?_⟩
    rw [List.append_nil, upLoop, if_pos]
    rw [upStep_none, List.append_assoc, findSub_skip up 0x2F [0x2E, 0x2E] rfl host _ hh,
      findSub_names _ _ (fun c hc => hst c (List.mem_reverse.1 hc)) (by rcases ht with h | h; exact .inl h; exact .inr ⟨[], h⟩),
      findSub_tail tail ht]
    rfl
  | c :: cs, st, hcs, hst => by
    by_cases hd : c = dotdot
    · subst hd
      cases st with
      | nil =>
        rw [resolve_up_nil]
        refine ⟨fun r hr => (by cases hr), fun _ => stuck_forever _ ?_⟩
        have := stuck_host host hh (path cs ++ tail)
        rw [List.reverse_nil, List.nil_append, path_cons, List.append_assoc, List.cons_append, List.append_assoc]
        exact this
      | cons c st =>
        rw [resolve_up_cons]
        have ih := upLoop_comps host hh tail ht cs st (fun x hx => hcs x (List.mem_cons_of_mem _ hx))
          (fun x hx => hst x (List.mem_cons_of_mem _ hx))
        have hstep : upStep (host ++ path ((c :: st).reverse ++ dotdot :: cs) ++ tail) = some (host ++ path (st.reverse ++ cs) ++ tail) := by
          have := upStep_name host hh st.reverse (fun x hx => hst x (List.mem_cons_of_mem _ (List.mem_reverse.1 hx))) c
            (hst c (List.mem_cons_self ..)) (path cs ++ tail)
          rw [List.reverse_cons, path_append, path_cons]
          rw [show host ++ (path (st.reverse ++ [c]) ++ 0x2F :: (dotdot ++ path cs)) ++ tail =
            host ++ path (st.reverse ++ [c]) ++ 0x2F :: (dotdot ++ (path cs ++ tail)) by simp, this, path_append]
          simp
        refine ⟨fun r hr => ?_, fun hr n => ?_⟩
        · obtain ⟨n, hn⟩ := ih.1 r hr
          exact ⟨n + 1, by rw [upLoop, hstep]; exact hn⟩
        · cases n with
          | zero => rw [upLoop, hstep]; rfl
          | succ n => rw [upLoop, hstep]; exact ih.2 hr n
    · rw [resolve_name _ _ _ hd]
      have hc : isName c := (hcs c (List.mem_cons_self ..)).resolve_left hd
      have ih := upLoop_comps host hh tail ht cs (c :: st) (fun x hx => hcs x (List.mem_cons_of_mem _ hx)) (fun x hx => by
        rcases List.mem_cons.1 hx with h | h
        · rw [h]; exact hc
        · exact hst x h)
      rw [show (c :: st).reverse ++ cs = st.reverse ++ c :: cs by simp] at ih
      exact ih

end Verif.Path
