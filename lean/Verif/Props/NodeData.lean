import Verif.Core.NodeData
/-!
C115: values stored in a node are read back and do not disturb each other.
-/
set_option linter.unusedSimpArgs false
namespace Verif.NodeData
open Verif Verif.Core

/-- Specification: the value given last under an id and a type. -/
def lastValue (ops : List Set) (id ty : Nat) : Option Bytes :=
  ((ops.filter fun o => o.id = id ∧ o.ty = ty).getLast?).map (·.data)

theorem shift_or (id ty : Nat) (h : ty < 256) : (id <<< 8 ||| ty) = id * 256 + ty := by
  rw [Nat.shiftLeft_eq, show (2 : Nat) ^ 8 = 256 from rfl, Nat.mul_comm]
  exact (Nat.two_pow_add_eq_or_of_lt (i := 8) h id).symm

theorem code_inj (w id ty id' ty' : Nat) (hw : 8 ≤ w) (h1 : id < 2 ^ (w - 8)) (h2 : ty < 256) (h3 : id' < 2 ^ (w - 8))
    (h4 : ty' < 256) (h : code w id ty = code w id' ty') : id = id' ∧ ty = ty' := by
  unfold code at h
  rw [shift_or id ty h2, shift_or id' ty' h4] at h
  have hp : 2 ^ w = 2 ^ (w - 8) * 256 := by
    rw [show (256 : Nat) = 2 ^ 8 from rfl, ← Nat.pow_add]; congr 1; omega
  rw [hp, Nat.mod_eq_of_lt (by omega), Nat.mod_eq_of_lt (by omega)] at h
  omega

theorem getCode_mem (c : Nat) : ∀ s : Store, getCode c s = none ↔ c ∉ s.map (·.1)
  | [] => by simp [getCode]
  | (k, v) :: s => by
    rw [getCode]
    by_cases h : k = c
    · simp [h]
    · rw [if_neg h, getCode_mem c s]; simp [Ne.symm h]

theorem getCode_remove (c c' : Nat) : ∀ s : Store, (s.map (·.1)).Nodup →
    getCode c' (removeCode c s) = if c' = c then none else getCode c' s
  | [], _ => by simp [removeCode, getCode]
  | (k, v) :: s, hn => by
    simp only [List.map_cons, List.nodup_cons] at hn
    rw [removeCode]
    by_cases h : k = c
    · rw [if_pos h]
      by_cases h' : c' = c
      · rw [if_pos h', h', getCode_mem, ← h]; exact hn.1
      · rw [if_neg h', getCode, if_neg (by omega)]
    · rw [if_neg h, getCode, getCode, getCode_remove c c' s hn.2]
      by_cases h1 : k = c'
      · rw [if_pos h1, if_neg (by omega), if_pos h1]
      · rw [if_neg h1, if_neg h1]

theorem getCode_overwrite (c c' : Nat) (d : Bytes) : ∀ s : Store,
    getCode c' (overwrite c d s) = if c' = c then (getCode c s).map (fun _ => d) else getCode c' s
  | [] => by simp [overwrite, getCode]
  | (k, v) :: s => by
    rw [overwrite]
    by_cases h : k = c
    · rw [if_pos h]
      by_cases h' : c' = c
      · rw [if_pos h', getCode, getCode, if_pos (by omega), if_pos h]; rfl
      · rw [if_neg h', getCode, getCode, if_neg (by omega), if_neg (by omega)]
    · rw [if_neg h, getCode, getCode_overwrite c c' d s]
      by_cases h1 : k = c'
      · rw [if_pos h1, if_neg (by omega), getCode, if_pos h1]
      · rw [if_neg h1, getCode, if_neg h, getCode, if_neg h1]

theorem mem_remove (c k : Nat) : ∀ s : Store, k ∈ (removeCode c s).map (·.1) → k ∈ s.map (·.1)
  | [], h => h
  | (a, v) :: s, h => by
    rw [removeCode] at h
    by_cases h1 : a = c
    · rw [if_pos h1] at h; simp at h ⊢; exact Or.inr h
    · rw [if_neg h1] at h
      simp only [List.map_cons, List.mem_cons] at h ⊢
      exact h.imp_right (mem_remove c k s)

theorem nodup_remove (c : Nat) : ∀ s : Store, (s.map (·.1)).Nodup → ((removeCode c s).map (·.1)).Nodup
  | [], h => h
  | (a, v) :: s, h => by
    simp only [List.map_cons, List.nodup_cons] at h
    rw [removeCode]
    by_cases h1 : a = c
    · rw [if_pos h1]; exact h.2
    · rw [if_neg h1]
      simp only [List.map_cons, List.nodup_cons]
      exact ⟨fun hm => h.1 (mem_remove c a s hm), nodup_remove c s h.2⟩

theorem codes_overwrite (c : Nat) (d : Bytes) : ∀ s : Store, (overwrite c d s).map (·.1) = s.map (·.1)
  | [] => rfl
  | (a, v) :: s => by
    rw [overwrite]
    by_cases h1 : a = c
    · rw [if_pos h1]; rfl
    · rw [if_neg h1]; simp [codes_overwrite c d s]

theorem set_nodup (w id ty : Nat) (d : Bytes) (s : Store) (hn : (s.map (·.1)).Nodup) :
    ((setData w id ty d s).map (·.1)).Nodup := by
  unfold setData
  by_cases hv : variableSize ty = true
  · rw [if_pos hv]
    by_cases hd : nonZero d = true
    · rw [if_pos hd, List.map_cons, List.nodup_cons]
      refine ⟨?_, nodup_remove _ s hn⟩
      rw [← getCode_mem, getCode_remove _ _ s hn, if_pos rfl]
    · rw [if_neg hd]; exact nodup_remove _ s hn
  · rw [if_neg hv]
    by_cases hd : nonZero d = true
    · rw [if_pos hd]
      cases hg : getCode (code w id ty) s with
      | none => simp only [List.map_cons, List.nodup_cons]; exact ⟨(getCode_mem _ s).1 hg, hn⟩
      | some v => simp only; rw [codes_overwrite]; exact hn
    · rw [if_neg hd]; exact nodup_remove _ s hn

theorem get_set (w id ty : Nat) (d : Bytes) (s : Store) (hn : (s.map (·.1)).Nodup) (c : Nat) :
    getCode c (setData w id ty d s) =
      if c = code w id ty then (if nonZero d then some d else none) else getCode c s := by
  unfold setData
  by_cases hv : variableSize ty = true
  · rw [if_pos hv]
    by_cases hd : nonZero d = true
    · rw [if_pos hd, if_pos hd, getCode]
      by_cases hc : c = code w id ty
      · rw [if_pos hc.symm, if_pos hc]
      · rw [if_neg (Ne.symm hc), if_neg hc, getCode_remove _ _ s hn, if_neg hc]
    · rw [if_neg hd, if_neg hd, getCode_remove _ _ s hn]
  · rw [if_neg hv]
    by_cases hd : nonZero d = true
    · rw [if_pos hd, if_pos hd]
      cases hg : getCode (code w id ty) s with
      | none =>
        simp only
        rw [getCode]
        by_cases hc : c = code w id ty
        · rw [if_pos hc.symm, if_pos hc]
        · rw [if_neg (Ne.symm hc), if_neg hc]
      | some v =>
        simp only
        rw [getCode_overwrite, hg]
        rfl
    · rw [if_neg hd, if_neg hd, getCode_remove _ _ s hn]

/-- Ids and types that fit the codes. -/
def Fits (w id ty : Nat) : Prop := id < 2 ^ (w - 8) ∧ ty < 256

theorem run_get (w : Nat) (hw : 8 ≤ w) (s : Store) (hn : (s.map (·.1)).Nodup) (id ty : Nat) (hf : Fits w id ty) :
    ∀ ops : List Set, (∀ o ∈ ops, Fits w o.id o.ty) →
      ((run w ops s).map (·.1)).Nodup ∧
      getData w id ty (run w ops s) = match lastValue ops id ty with
        | none => getData w id ty s
        | some d => if nonZero d then some d else none := by
  intro ops
  rw [← List.reverse_reverse ops]
  generalize ops.reverse = rops
  induction rops with
  | nil => intro _; exact ⟨hn, rfl⟩
  | cons o rs ih =>
    intro hops
    rw [List.reverse_cons] at hops ⊢
    obtain ⟨h1, h2⟩ := ih fun o ho => hops o (List.mem_append_left _ ho)
    have ho := hops o (by simp)
    have hrun : run w (rs.reverse ++ [o]) s = setData w o.id o.ty o.data (run w rs.reverse s) := by
      unfold run; rw [List.foldl_append]; rfl
    rw [hrun]
    refine ⟨set_nodup _ _ _ _ _ h1, ?_⟩
    unfold getData at h2 ⊢
    rw [get_set _ _ _ _ _ h1]
    unfold lastValue at h2 ⊢
    rw [List.filter_append]
    by_cases hk : o.id = id ∧ o.ty = ty
    · obtain ⟨rfl, rfl⟩ := hk
      simp
    · rw [if_neg, h2]
      · simp [hk]
      · intro hc
        obtain ⟨h3, h4⟩ := code_inj w _ _ _ _ hw hf.1 hf.2 ho.1 ho.2 hc
        exact hk ⟨h3.symm, h4.symm⟩

theorem zeros_of_nonZero (d : Bytes) (h : nonZero d = false) : d = List.replicate d.length 0 := by
  rw [List.eq_replicate_iff]
  refine ⟨rfl, fun b hb => ?_⟩
  unfold nonZero at h
  rw [List.any_eq_false] at h
  simpa using h b hb

/-- **C115.** Whatever values are stored in a node, under ids that fit, a value is read back as it was stored last under
its id and type: into a buffer of its size byte for byte (a value of zero bytes as well, though it is not kept), a
string as much of it as the buffer has room for; and what was never stored reads as before. -/
theorem C115_values_read_back (w : Nat) (hw : 8 ≤ w) (s : Store) (hn : (s.map (·.1)).Nodup) (ops : List Set)
    (hops : ∀ o ∈ ops, Fits w o.id o.ty) (id ty : Nat) (hf : Fits w id ty) (buf : Bytes) :
    (lastValue ops id ty = none → readData w id ty (run w ops s) buf = readData w id ty s buf) ∧
    (∀ d, lastValue ops id ty = some d → ty ≠ tyString → buf.length = d.length →
      readData w id ty (run w ops s) buf = some (true, d)) ∧
    (∀ str, lastValue ops id ty = some (str ++ [0]) → ty = tyString → 0 ∉ str → buf ≠ [] →
      ∃ out, readData w id ty (run w ops s) buf = some (true, out) ∧ out.length = buf.length ∧
        cstr out = str.take (buf.length - 1)) := by
  obtain ⟨_, hg⟩ := run_get w hw s hn id ty hf ops hops
  refine ⟨fun h => ?_, fun d h hs hb => ?_, fun str h hs h0 hb => ?_⟩
  · rw [h] at hg
    unfold readData
    rw [hg]
  · rw [h] at hg
    simp only at hg
    unfold readData
    rw [hg]
    cases hz : nonZero d with
    | true =>
      simp only [if_true]
      rw [if_neg hs, if_neg (by omega), List.drop_eq_nil_of_le (by omega), List.append_nil]
    | false =>
      simp only [Bool.false_eq_true, if_false]
      rw [if_neg hs, hb, ← zeros_of_nonZero d hz]
  · subst hs
    have hcs : ∀ (t : Bytes) (r : Bytes), 0 ∉ t → cstr (t ++ 0 :: r) = t := by
      intro t r ht
      unfold cstr
      rw [List.takeWhile_append_of_pos (by intro a ha; simp; rintro rfl; exact ht ha)]
      simp
    have hlen : 0 < buf.length := List.length_pos_iff.2 hb
    rw [h] at hg
    simp only at hg
    unfold readData
    rw [hg]
    cases hz : nonZero (str ++ [0]) with
    | true =>
      simp only [if_true]
      rw [hcs str [] h0]
      unfold strcpyS store
      rw [if_pos hlen]
      have hmin : min str.length (buf.length - 1) ≤ str.length := Nat.min_le_left _ _
      have hmin' : min str.length (buf.length - 1) ≤ buf.length - 1 := Nat.min_le_right _ _
      generalize hk : min str.length (buf.length - 1) = k at hmin hmin'
      simp only [List.length_take, Nat.min_eq_left hmin, Nat.zero_add, List.take_zero, List.nil_append]
      rw [if_pos (by omega)]
      simp only [Option.bind_some, List.length_append, List.length_take, List.length_drop, List.length_singleton]
      rw [if_pos (by omega), Option.map_some]
      refine ⟨_, rfl, by simp; omega, ?_⟩
      rw [List.append_assoc, List.take_left' (by simp; omega), List.singleton_append, hcs _ _ (fun hm => h0 (List.mem_of_mem_take hm)),
        ← hk, Nat.min_comm, ← List.take_eq_take_min]
    | false =>
      simp only [Bool.false_eq_true, if_false]
      have hnil : str = [] := by
        cases str with
        | nil => rfl
        | cons a t =>
          exfalso
          have := zeros_of_nonZero _ hz
          have ha : a = 0 := by
            have h2 : a ∈ List.replicate ((a :: t) ++ [0]).length (0 : UInt8) := this ▸ (by simp)
            exact List.eq_of_mem_replicate h2
          exact h0 (by simp [ha])
      subst hnil
      unfold store
      rw [if_pos trivial, if_pos (by simp; omega)]
      refine ⟨_, rfl, by simp; omega, ?_⟩
      simp [cstr]

/-- Stored, changed, put back to zero; and a string next to a number of the same id. -/
example : readData 32 0x65 2 (run 32 [⟨0x65, 2, [7, 0, 0, 0]⟩, ⟨0x65, tyString, [0x6D, 0x6B, 0x76, 0]⟩, ⟨0x66, 2, [1, 1, 1, 1]⟩,
      ⟨0x65, 2, [9, 0, 0, 0]⟩, ⟨0x66, 2, [0, 0, 0, 0]⟩] []) [1, 2, 3, 4] = some (true, [9, 0, 0, 0]) ∧
    readData 32 0x66 2 (run 32 [⟨0x66, 2, [1, 1, 1, 1]⟩, ⟨0x66, 2, [0, 0, 0, 0]⟩] []) [1, 2, 3, 4] = some (true, [0, 0, 0, 0]) ∧
    readData 32 0x65 tyString (run 32 [⟨0x65, tyString, [0x6D, 0x6B, 0x76, 0]⟩, ⟨0x65, 2, [9, 0, 0, 0]⟩] []) [1, 1, 1] =
      some (true, [0x6D, 0x6B, 0]) := by decide

/-- Where `uint_fast32_t` has 32 bits, ids from 2^24 up (four letter codes are) share a code: storing one changes the
other. -/
theorem C115_ids_collide_counterexample : ∃ (id id' : Nat), id ≠ id' ∧ id < 2 ^ 32 ∧ id' < 2 ^ 32 ∧
    readData 32 id 2 (run 32 [⟨id, 2, [1, 0, 0, 0]⟩, ⟨id', 2, [2, 0, 0, 0]⟩] []) [0, 0, 0, 0] = some (true, [2, 0, 0, 0]) :=
  ⟨0x41424344, 0x51424344, by decide, by decide, by decide, by decide⟩

/-- Specification: every node has as many references as there were outside of the store, plus one for each entry
that points at it. -/
def Balanced (outside : Nat → Int) (r : Refs) : Prop :=
  ∀ n, n ≠ 0 → r.count n = outside n + ((r.entries.filter fun e => e.2 = n).length : Int)

theorem lookup_split (c : Nat) : ∀ (l : List (Nat × Nat)) (old : Nat), (l.map (·.1)).Nodup → l.lookup c = some old →
    ∃ l1 l2, l = l1 ++ (c, old) :: l2 ∧ (∀ e ∈ l1, e.1 ≠ c) ∧ (∀ e ∈ l2, e.1 ≠ c)
  | [], old, _, h => by simp at h
  | (k, v) :: l, old, hn, h => by
    simp only [List.map_cons, List.nodup_cons] at hn
    by_cases hk : c = k
    · subst hk
      rw [List.lookup_cons_self, Option.some.injEq] at h
      subst h
      refine ⟨[], l, rfl, by simp, fun e he hc => hn.1 ?_⟩
      exact List.mem_map.2 ⟨e, he, hc⟩
    · rw [List.lookup_cons, (beq_eq_false_iff_ne.2 hk)] at h
      simp only at h
      obtain ⟨l1, l2, h1, h2, h3⟩ := lookup_split c l old hn.2 h
      refine ⟨(k, v) :: l1, l2, by rw [h1]; rfl, ?_, h3⟩
      intro e he
      rcases List.mem_cons.1 he with rfl | he
      · exact fun h => hk h.symm
      · exact h2 e he

/-- Storing references keeps the counts right as long as an id holding one is not given another: then the old node
keeps a reference nobody holds and the new one lacks it. -/
theorem C115_references_partial (outside : Nat → Int) (r : Refs) (c n : Nat) (hn : (r.entries.map (·.1)).Nodup)
    (hz : ∀ e ∈ r.entries, e.2 ≠ 0) (hb : Balanced outside r) :
    Balanced outside (setRef c n r) ↔ (r.entries.lookup c = none ∨ n = 0 ∨ r.entries.lookup c = some n) := by
  unfold setRef
  cases hl : r.entries.lookup c with
  | none =>
    simp only [true_or, iff_true]
    by_cases h0 : n = 0
    · rw [if_pos h0]; exact hb
    · rw [if_neg h0]
      intro m hm
      have := hb m hm
      simp only [bump, List.filter_cons]
      by_cases hmn : m = n
      · subst hmn; simp; omega
      · rw [if_neg hmn]
        have : ¬ n = m := fun h => hmn h.symm
        simp [this]; omega
  | some old =>
    obtain ⟨l1, l2, h1, h2, h3⟩ := lookup_split c r.entries old hn hl
    have hc : ∀ x : Nat, ((r.entries.filter fun e => e.2 = x).length : Int) =
        (l1.filter fun e => e.2 = x).length + (l2.filter fun e => e.2 = x).length + (if old = x then 1 else 0) := by
      intro x
      rw [h1, List.filter_append, List.filter_cons]
      by_cases ho : old = x
      · simp [ho]; omega
      · simp [ho]
    have hold : old ≠ 0 := hz (c, old) (by rw [h1]; simp)
    simp only [reduceCtorEq, false_or, Option.some.injEq]
    by_cases h0 : n = 0
    · rw [if_pos h0]
      simp only [h0, true_or, iff_true]
      intro m hm
      have hbm := hb m hm
      rw [hc m] at hbm
      have he : r.entries.eraseP (fun e => decide (e.1 = c)) = l1 ++ l2 := by
        rw [h1, List.eraseP_append_right _ (by intro e he; simp [h2 e he])]
        simp
      simp only [bump]
      rw [he, List.filter_append, List.length_append]
      by_cases hmo : m = old
      · rw [if_pos hmo, hbm, if_pos hmo.symm]; push_cast; omega
      · rw [if_neg hmo, hbm, if_neg (Ne.symm hmo)]; push_cast; omega
    · rw [if_neg h0]
      have he : (r.entries.map fun e => if e.1 = c then (c, n) else e) = l1 ++ (c, n) :: l2 := by
        rw [h1, List.map_append, List.map_cons, if_pos rfl]
        have hid : ∀ l : List (Nat × Nat), (∀ e ∈ l, e.1 ≠ c) → (l.map fun e => if e.1 = c then (c, n) else e) = l := by
          intro l hl
          rw [List.map_congr_left (g := id) fun e he => by rw [if_neg (hl e he)]; rfl, List.map_id]
        rw [hid l1 h2, hid l2 h3]
      show Balanced outside ⟨r.entries.map fun e => if e.1 = c then (c, n) else e, r.count⟩ ↔ _
      rw [he]
      constructor
      · intro hbal
        right
        have hx := hbal n h0
        have hbn := hb n h0
        rw [hc n] at hbn
        simp only [List.filter_append, List.filter_cons, decide_true, if_true, List.length_append, List.length_cons] at hx
        rw [hbn] at hx
        by_cases ho : old = n
        · exact ho
        · rw [if_neg ho] at hx; push_cast at hx; omega
      · rintro (h | h)
        · exact absurd h h0
        · subst h
          rw [← h1]; exact hb

/-- Two nodes, each held once outside: the first keeps its reference, the second gets none. -/
example : Balanced (fun _ => 1) (setRef 7 5 ⟨[], fun _ => 1⟩) ∧ (setRef 7 6 (setRef 7 5 ⟨[], fun _ => 1⟩)).count 5 = 2 ∧
    (setRef 7 6 (setRef 7 5 ⟨[], fun _ => 1⟩)).count 6 = 1 :=
  ⟨(C115_references_partial (fun _ => 1) ⟨[], fun _ => 1⟩ 7 5 (by simp) (by simp) (by intro n _; simp)).2 (Or.inl rfl),
    by decide, by decide⟩

end Verif.NodeData
