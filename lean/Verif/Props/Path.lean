import Verif.Core.PathLemmas
/-!
Property of path reduction: C67.
-/
set_option linter.unusedSimpArgs false
namespace Verif.Path

theorem reduceBody_eq (n m : Nat) (s : List Nat) (h : s.length ≤ n) : reduceBody n m s = upLoop m (collapse s) := by
  rw [reduceBody, dblLoop_ends n s h]

theorem reduceBody_none (s : List Nat) (h : ∀ m, upLoop m (collapse s) = none) (n m : Nat) : reduceBody n m s = none := by
  unfold reduceBody
  cases hd : dblLoop n s with
  | none => rfl
  | some r => simp only; rw [dblLoop_result n s r hd, h]

theorem findSub_min (pat : List Nat) : ∀ (s : List Nat) (p : Nat), findSub pat s = some p → ∀ k < p, ¬ pat <+: s.drop k
  | [], p, h, k, hk => by
    rw [findSub] at h
    split at h
    · have := Option.some.inj h; omega
    · cases h
  | c :: s, p, h, k, hk => by
    rw [findSub_cons] at h
    by_cases hp : pat.isPrefixOf (c :: s) = true
    · rw [if_pos hp] at h
      have := Option.some.inj h; omega
    · rw [if_neg hp] at h
      cases hf : findSub pat s with
      | none => rw [hf] at h; cases h
      | some q =>
        rw [hf, Option.map_some, Option.some.injEq] at h
        cases k with
        | zero => rw [List.drop_zero, ← List.isPrefixOf_iff_prefix]; exact hp
        | succ k => exact findSub_min pat s q hf k (by omega)

theorem findSub_first (pat : List Nat) : ∀ (s : List Nat) (p : Nat), p ≤ s.length → pat <+: s.drop p → (∀ k < p, ¬ pat <+: s.drop k) →
    findSub pat s = some p
  | [], p, hp, h, _ => by
    have : p = 0 := by simpa using hp
    subst this
    rw [findSub, if_pos (show pat.isPrefixOf [] = true from List.isPrefixOf_iff_prefix.2 h)]
  | c :: s, 0, _, h, _ => by
    rw [findSub_cons, if_pos (show pat.isPrefixOf (c :: s) = true from List.isPrefixOf_iff_prefix.2 h)]
  | c :: s, p + 1, hp, h, hk => by
    rw [findSub_cons, if_neg (show ¬ pat.isPrefixOf (c :: s) = true from fun x => hk 0 (by omega) (List.isPrefixOf_iff_prefix.1 x)),
      findSub_first pat s p (by simpa using hp) h fun k hk' => hk (k + 1) (by omega)]
    rfl

theorem findSub_none (pat : List Nat) : ∀ (s : List Nat), (∀ k, ¬ pat <+: s.drop k) → findSub pat s = none
  | [], h => by rw [findSub, if_neg (show ¬ pat.isPrefixOf [] = true from fun x => h 0 (List.isPrefixOf_iff_prefix.1 x))]
  | c :: s, h => by
    rw [findSub_cons, if_neg (show ¬ pat.isPrefixOf (c :: s) = true from fun x => h 0 (List.isPrefixOf_iff_prefix.1 x)), findSub_none pat s fun k => h (k + 1)]
    rfl

/-- The part that stays and the part that is reduced: up to and with the first "://". -/
def splits (s pre body : List Nat) : Prop :=
  (pre = [] ∧ s = body ∧ ∀ k, ¬ proto <+: s.drop k) ∨
  ∃ pr, s = pr ++ proto ++ body ∧ pre = pr ++ proto ∧ ∀ k < pr.length, ¬ proto <+: s.drop k

theorem reduce_splits (s pre body : List Nat) (h : splits s pre body) (n m : Nat) :
    reduce n m s = (reduceBody n m body).map (pre ++ ·) := by
  rcases h with ⟨h1, h2, h3⟩ | ⟨pr, h1, h2, h3⟩
  · subst h1 h2
    rw [reduce, findSub_none proto s h3]
    simp
  · have hf : findSub proto s = some pr.length := by
      refine findSub_first proto s pr.length ?_ ?_ h3
      · rw [h1, List.append_assoc, List.length_append]; omega
      · rw [h1, List.append_assoc, List.drop_left]; exact ⟨body, rfl⟩
    have e : pr.length + 3 = (pr ++ proto).length := by rw [List.length_append]; rfl
    subst h2
    rw [reduce, hf]
    simp only [e]
    rw [h1, List.drop_left, List.take_left]

theorem splits_exists (s : List Nat) : ∃ pre body, splits s pre body := by
  cases hf : findSub proto s with
  | none =>
    refine ⟨[], s, .inl ⟨rfl, rfl, fun k hk => ?_⟩⟩
    have : ∀ (s : List Nat) (k : Nat), proto <+: s.drop k → findSub proto s ≠ none := by
      intro s
      induction s with
      | nil => intro k h; rw [List.drop_nil] at h; simp [proto] at h
      | cons c s ih =>
        intro k h
        rw [findSub_cons]
        by_cases hp : proto.isPrefixOf (c :: s) = true
        · rw [if_pos hp]; simp
        · rw [if_neg hp]
          cases k with
          | zero => exact absurd (List.isPrefixOf_iff_prefix.2 h) hp
          | succ k =>
            have := ih k h
            cases hq : findSub proto s with
            | none => exact absurd hq this
            | some q => simp
    exact this s k hk hf
  | some p =>
    obtain ⟨hpre, hl⟩ := findSub_some proto s p hf
    obtain ⟨t, ht⟩ := List.isPrefixOf_iff_prefix.1 hpre
    have hp : (s.take p).length = p := by rw [List.length_take]; omega
    refine ⟨s.take p ++ proto, t, .inr ⟨s.take p, ?_, rfl, fun k hk => findSub_min proto s p hf k (by omega)⟩⟩
    rw [List.append_assoc, ht, List.take_append_drop]

/-- C67, where it holds and where not: a path `prefix host/c1/c2/...` of names and parent references
(after making runs of delimiters one; names do not begin with two dots), with or without a protocol
in front and a delimiter at the end. When each parent reference has a name to go back over the call
ends and gives the resolved path; otherwise it does not end. -/
theorem C67_path_reduction_partial (s pre body host tail : List Nat) (cs : List (List Nat)) (hs : splits s pre body)
    (hb : collapse body = host ++ path cs ++ tail) (hh : 0x2F ∉ host) (hc : ∀ c ∈ cs, c = dotdot ∨ isName c)
    (ht : tail = [] ∨ tail = [0x2F]) :
    (∀ r, resolve [] cs = some r → ∃ n m, reduce n m s = some (pre ++ (host ++ path r ++ tail))) ∧
    (resolve [] cs = none → ∀ n m, reduce n m s = none) := by
  have key := upLoop_comps host hh tail ht cs [] hc (fun _ h => absurd h (List.not_mem_nil))
  rw [List.reverse_nil, List.nil_append, ← hb] at key
  refine ⟨fun r hr => ?_, fun hr n m => ?_⟩
  · obtain ⟨m, hm⟩ := key.1 r hr
    exact ⟨body.length, m, by rw [reduce_splits s pre body hs, reduceBody_eq _ _ _ (Nat.le_refl _), hm]; rfl⟩
  · rw [reduce_splits s pre body hs, reduceBody_none body (key.2 hr)]; rfl

/-- "http://h/a/../b//c" is reduced to "http://h/b/c". -/
def C67_url : List Nat := [0x68, 0x74, 0x74, 0x70, 0x3A, 0x2F, 0x2F, 0x68, 0x2F, 0x61, 0x2F, 0x2E, 0x2E, 0x2F, 0x62, 0x2F, 0x2F, 0x63]

example : splits C67_url [0x68, 0x74, 0x74, 0x70, 0x3A, 0x2F, 0x2F] (C67_url.drop 7) ∧
    collapse (C67_url.drop 7) = [0x68] ++ path [[0x61], dotdot, [0x62], [0x63]] ++ [] ∧
    resolve [] [[0x61], dotdot, [0x62], [0x63]] = some [[0x62], [0x63]] ∧
    reduce 18 9 C67_url = some [0x68, 0x74, 0x74, 0x70, 0x3A, 0x2F, 0x2F, 0x68, 0x2F, 0x62, 0x2F, 0x63] := by
  refine ⟨.inr ⟨[0x68, 0x74, 0x74, 0x70], by decide, rfl, by decide⟩, by decide, by decide, by decide⟩

/-- C67, for every string: the call ends, or it comes to a string whose first parent reference has no
delimiter in front and repeats the same step on it forever. -/
theorem C67_ends_or_repeats (s : List Nat) :
    (∃ n m r, reduce n m s = some r) ∨
    (∃ k body, (∃ pre, splits s pre body) ∧ stuck (rounds k (collapse body)) ∧
      upStep (rounds k (collapse body)) = some (rounds k (collapse body)) ∧ ∀ n m, reduce n m s = none) := by
  obtain ⟨pre, body, hsp⟩ := splits_exists s
  rcases up_ends_or_stuck _ (collapse body) (Nat.le_refl _) with ⟨r, hr⟩ | ⟨k, hk, hm⟩
  · exact .inl ⟨body.length, _, pre ++ r, by rw [reduce_splits s pre body hsp, reduceBody_eq _ _ _ (Nat.le_refl _), hr]; rfl⟩
  · refine .inr ⟨k, body, ⟨pre, hsp⟩, hk, ?_, fun n m => by rw [reduce_splits s pre body hsp, reduceBody_none body hm]; rfl⟩
    obtain ⟨p, h1, h2⟩ := hk
    rw [upStep, h1]; simp only; rw [h2]

/-- C67, for every string: when the call ends, the protocol is untouched and what follows it has
neither a parent reference nor a doubled delimiter left. -/
theorem C67_result_clean (s pre body r : List Nat) (n m : Nat) (hs : splits s pre body) (h : reduce n m s = some r) :
    ∃ t, r = pre ++ t ∧ (∀ k, ¬ up <+: t.drop k) ∧ ∀ k, ¬ dbl <+: t.drop k := by
  have none_iff : ∀ (pat : List Nat), pat ≠ [] → ∀ (s : List Nat), findSub pat s = none → ∀ k, ¬ pat <+: s.drop k := by
    intro pat hp s
    induction s with
    | nil => intro _ k hk; rw [List.drop_nil] at hk; exact hp (List.prefix_nil.1 hk)
    | cons c s ih =>
      intro hf k hk
      rw [findSub_cons] at hf
      by_cases hq : pat.isPrefixOf (c :: s) = true
      · rw [if_pos hq] at hf; cases hf
      · rw [if_neg hq, Option.map_eq_none_iff] at hf
        cases k with
        | zero => exact hq (List.isPrefixOf_iff_prefix.2 hk)
        | succ k => exact ih hf k hk
  rw [reduce_splits s pre body hs] at h
  cases hb : reduceBody n m body with
  | none => rw [hb] at h; cases h
  | some t =>
    rw [hb, Option.map_some] at h
    refine ⟨t, (Option.some.inj h).symm, ?_⟩
    unfold reduceBody at hb
    cases hd : dblLoop n body with
    | none => rw [hd] at hb; cases hb
    | some u =>
      rw [hd] at hb
      have hu := dblLoop_result n body u hd
      have c1 := upLoop_clean m u t hb
      have c2 := upLoop_noDbl m u t ((noDbl_iff u).1 (hu ▸ collapse_clean body)) hb
      exact ⟨none_iff up (by decide) t c1, none_iff dbl (by decide) t ((noDbl_iff t).2 c2)⟩

example : reduce 18 9 [0x2F, 0x61, 0x2F, 0x2E, 0x2E, 0x2F, 0x2F, 0x62] = some [0x2F, 0x62] := by decide

/-- C67 is false: reducing "/../a", or the relative path "a/../b", does not end. -/
theorem C67_path_reduction_counterexample : (∀ n m, reduce n m [0x2F, 0x2E, 0x2E, 0x2F, 0x61] = none) ∧
    ∀ n m, reduce n m [0x61, 0x2F, 0x2E, 0x2E, 0x2F, 0x62] = none := by
  have hno : ∀ s : List Nat, 0x3A ∉ s → splits s [] s := fun s h => .inl ⟨rfl, rfl, fun k hk => by
    obtain ⟨t, ht⟩ := hk
    have : 0x3A ∈ s.drop k := by rw [← ht]; simp [proto]
    exact h (List.mem_of_mem_drop this)⟩
  exact ⟨fun n m => (C67_path_reduction_partial _ [] _ [] [] [dotdot, [0x61]] (hno _ (by decide)) (by decide) (by decide)
      (by simp [isName, dotdot]) (.inl rfl)).2 (by decide) n m,
    fun n m => (C67_path_reduction_partial _ [] _ [0x61] [] [dotdot, [0x62]] (hno _ (by decide)) (by decide) (by decide)
      (by simp [isName, dotdot]) (.inl rfl)).2 (by decide) n m⟩

/-- C67 is false for names that begin with two dots: "/x/y/..b" becomes "/xb". -/
theorem C67_dots_counterexample : reduce 8 8 [0x2F, 0x78, 0x2F, 0x79, 0x2F, 0x2E, 0x2E, 0x62] = some [0x2F, 0x78, 0x62] := by decide

end Verif.Path
