import Mathlib.Data.List.Induction
import Verif.Bzip.BitsLemmas
/-!
The decoding tables of the bzip2 decoder: what they hold, that a symbol's code word gives the symbol, and that no bits lead outside of the
tables.
-/
namespace Verif.Bzip
open Verif Verif.Mkv

/-- How much of the code space of length `i` the shorter codes take. -/
def V (lens : List Nat) (i : Nat) : Nat := (lens.map fun l => if l < i then 2 ^ (i - l) else 0).sum

/-- How many codes are shorter than `i`. -/
def lt (lens : List Nat) (i : Nat) : Nat := lens.countP (· < i)

theorem V_succ (lens : List Nat) (i : Nat) : V lens (i + 1) = 2 * (V lens i + lens.count i) := by
  induction lens with
  | nil => simp [V]
  | cons l ls ih =>
    simp only [V, List.map_cons, List.sum_cons, List.count_cons] at ih ⊢
    rw [ih]
    have : (if l < i + 1 then 2 ^ (i + 1 - l) else 0) = 2 * ((if l < i then 2 ^ (i - l) else 0) + if (l == i) = true then 1 else 0) := by
      by_cases h : l < i
      · have h2 : l ≠ i := by omega
        rw [if_pos (by omega), if_pos h, if_neg (by simpa using h2), show i + 1 - l = (i - l) + 1 from by omega, Nat.pow_succ]
        omega
      · by_cases h2 : l = i
        · subst h2; simp
        · rw [if_neg (by omega), if_neg h, if_neg (by simpa using h2)]
    omega

theorem lt_succ (lens : List Nat) (i : Nat) : lt lens (i + 1) = lt lens i + lens.count i := by
  induction lens with
  | nil => simp [lt]
  | cons l ls ih =>
    simp only [lt, List.countP_cons, List.count_cons] at ih ⊢
    rw [ih]
    by_cases h : l < i
    · have h2 : l ≠ i := by omega
      have h3 : l < i + 1 := by omega
      simp [h, h2, h3]; omega
    · by_cases h2 : l = i
      · subst h2; simp; omega
      · have h3 : ¬l < i + 1 := by omega
        simp [h, h2, h3]

theorem lt_add_count_le (lens : List Nat) (i : Nat) : lt lens i + lens.count i ≤ lens.length := by
  rw [← lt_succ]; exact List.countP_le_length

theorem V_le (lens : List Nat) (i d : Nat) (hd : 0 < d) : 2 ^ d * (V lens i + lens.count i) ≤ V lens (i + d) := by
  induction d with
  | zero => omega
  | succ d ih =>
    rw [← Nat.add_assoc, V_succ, Nat.pow_succ]
    rcases Nat.eq_zero_or_pos d with rfl | h
    · simp
    · have := ih h
      calc 2 ^ d * 2 * (V lens i + lens.count i) = 2 * (2 ^ d * (V lens i + lens.count i)) := by rw [Nat.mul_comm (2 ^ d) 2, Nat.mul_assoc]
        _ ≤ _ := Nat.mul_le_mul_left _ (by omega)

theorem V_eq_zero (lens : List Nat) (m : Nat) (h : ∀ l ∈ lens, m ≤ l) : V lens m = 0 := by
  induction lens with
  | nil => rfl
  | cons l ls ih =>
    have h1 := h l (by simp)
    have h2 := ih fun x hx => h x (by simp [hx])
    simp only [V, List.map_cons, List.sum_cons] at h2 ⊢
    rw [h2, if_neg (by omega)]

theorem lt_eq_zero (lens : List Nat) (m : Nat) (h : ∀ l ∈ lens, m ≤ l) : lt lens m = 0 := by
  simp only [lt, List.countP_eq_zero]
  intro l hl
  have := h l hl
  simp; omega

/-! ### What `shorter` holds -/

theorem accum_length (xs : List Int) : ∀ acc, (accum acc xs).length = xs.length := by
  induction xs with
  | nil => intro acc; rfl
  | cons x xs ih => intro acc; simp [accum, ih]

theorem accum_zero (xs : List Int) (acc : Int) (h : 0 < xs.length) : (accum acc xs).getD 0 0 = acc + xs.getD 0 0 := by
  cases xs with
  | nil => simp at h
  | cons x xs => simp [accum]

theorem accum_succ (xs : List Int) : ∀ acc i, i + 1 < xs.length →
    (accum acc xs).getD (i + 1) 0 = (accum acc xs).getD i 0 + xs.getD (i + 1) 0 := by
  induction xs with
  | nil => intro acc i h; simp at h
  | cons x xs ih =>
    intro acc i h
    cases i with
    | zero =>
      have := accum_zero xs (acc + x) (by simp at h; omega)
      simp only [accum, List.getD_cons_succ, List.getD_cons_zero]
      exact this
    | succ i =>
      simp only [accum, List.getD_cons_succ]
      exact ih (acc + x) i (by simp at h; omega)

theorem tally_length (lens : List Nat) : ∀ b : List Int, (lens.foldl (fun b l => b.modify (l + 1) (· + 1)) b).length = b.length := by
  induction lens with
  | nil => intro b; rfl
  | cons l ls ih => intro b; rw [List.foldl_cons, ih, List.length_modify]

theorem tally_getD (lens : List Nat) : ∀ (b : List Int) (k : Nat), k < b.length →
    (lens.foldl (fun b l => b.modify (l + 1) (· + 1)) b).getD k 0 = b.getD k 0 + (lens.countP (fun l => l + 1 = k) : Nat) := by
  induction lens with
  | nil => intro b k _; simp
  | cons l ls ih =>
    intro b k hk
    rw [List.foldl_cons, ih _ _ (by rw [List.length_modify]; exact hk), List.countP_cons]
    simp only [List.getD_eq_getElem?_getD, List.getElem?_modify]
    by_cases h : l + 1 = k
    · subst h
      rw [List.getElem?_eq_getElem hk]
      simp; omega
    · simp [h]

theorem shorter_length (lens : List Nat) : (shorter lens).length = 23 := by
  rw [shorter, accum_length, tally_length, List.length_replicate]; rfl

theorem shorter_getD (lens : List Nat) : ∀ i, i < 23 → (shorter lens).getD i 0 = (lt lens i : Nat) := by
  intro i
  induction i with
  | zero =>
    intro _
    rw [shorter, accum_zero _ _ (by rw [tally_length]; simp [maxCodeLen]), tally_getD _ _ _ (by simp [maxCodeLen])]
    simp [lt, maxCodeLen]
  | succ i ih =>
    intro hi
    rw [shorter, accum_succ _ _ _ (by rw [tally_length]; simpa [maxCodeLen] using hi), ← shorter, ih (by omega),
      tally_getD _ _ _ (by simpa [maxCodeLen] using hi), lt_succ]
    have : lens.countP (fun l => l + 1 = i + 1) = lens.count i := by
      rw [List.count]
      apply List.countP_congr
      intro l _
      simp
    rw [this]
    simp [List.getD_eq_getElem?_getD, List.getElem?_replicate]
    split <;> simp

theorem shorter_diff (lens : List Nat) (i : Nat) (hi : i + 1 < 23) :
    (shorter lens).getD (i + 1) 0 - (shorter lens).getD i 0 = (lens.count i : Nat) := by
  rw [shorter_getD _ _ hi, shorter_getD _ _ (by omega), lt_succ]
  omega

/-! ### What `limit` and `base` hold -/

theorem limitLoop_length (base : List Int) (k : Nat) : ∀ i vec limit, (limitLoop base k i vec limit).length = limit.length := by
  induction k with
  | zero => intro i vec limit; rfl
  | succ k ih => intro i vec limit; rw [limitLoop, ih, List.length_set]

theorem limitLoop_getD (lens : List Nat) (k : Nat) : ∀ i (limit : List Int), i + k ≤ 22 → limit.length = 23 → ∀ m, m < 23 →
    (limitLoop (shorter lens) k i (V lens i : Nat) limit).getD m 0
      = if i ≤ m ∧ m < i + k then ((V lens m + lens.count m : Nat) : Int) - 1 else limit.getD m 0 := by
  induction k with
  | zero => intro i limit _ _ m _; rw [if_neg (by omega)]; rfl
  | succ k ih =>
    intro i limit hik hl m hm
    rw [limitLoop]
    have e : ((V lens i : Nat) : Int) + ((shorter lens).getD (i + 1) 0 - (shorter lens).getD i 0) = ((V lens i + lens.count i : Nat) : Int) := by
      rw [shorter_diff lens i (by omega)]; omega
    have e2 : (((V lens i + lens.count i : Nat) : Int)) * 2 = (V lens (i + 1) : Nat) := by rw [V_succ]; omega
    simp only [e, e2]
    rw [ih _ _ (by omega) (by rw [List.length_set]; exact hl) m hm]
    by_cases h : m = i
    · subst h
      rw [if_neg (by omega), if_pos (by omega)]
      simp [List.getD_eq_getElem?_getD, List.getElem?_set, hl, hm]
    · by_cases h2 : i + 1 ≤ m ∧ m < i + 1 + k
      · rw [if_pos h2, if_pos (by omega)]
      · rw [if_neg h2, if_neg (by omega)]
        simp only [List.getD_eq_getElem?_getD, List.getElem?_set]
        rw [if_neg (by omega)]

theorem baseLoop_length (limit : List Int) (k : Nat) : ∀ i base, (baseLoop limit k i base).length = base.length := by
  induction k with
  | zero => intro i base; rfl
  | succ k ih => intro i base; rw [baseLoop, ih, List.length_set]

theorem baseLoop_getD (limit : List Int) (k : Nat) : ∀ i (base : List Int), i + k ≤ 23 → base.length = 23 → ∀ m, m < 23 →
    (baseLoop limit k i base).getD m 0
      = if i ≤ m ∧ m < i + k then (limit.getD (m - 1) 0 + 1) * 2 - base.getD m 0 else base.getD m 0 := by
  induction k with
  | zero => intro i base _ _ m _; rw [if_neg (by omega)]; rfl
  | succ k ih =>
    intro i base hik hl m hm
    rw [baseLoop, ih _ _ (by omega) (by rw [List.length_set]; exact hl) m hm]
    by_cases h : m = i
    · subst h
      rw [if_neg (by omega), if_pos (by omega)]
      simp [List.getD_eq_getElem?_getD, List.getElem?_set, hl, hm]
    · have e : (base.set i ((limit.getD (i - 1) 0 + 1) * 2 - base.getD i 0)).getD m 0 = base.getD m 0 := by
        simp only [List.getD_eq_getElem?_getD, List.getElem?_set]
        rw [if_neg (by omega)]
      rw [e]
      by_cases h2 : i + 1 ≤ m ∧ m < i + 1 + k
      · rw [if_pos h2, if_pos (by omega)]
      · rw [if_neg h2, if_neg (by omega)]

/-- Lengths as the decoder accepts them. -/
structure LensOk (lens : List Nat) : Prop where
  ne : lens ≠ []
  ge : ∀ l ∈ lens, 1 ≤ l
  le : ∀ l ∈ lens, l ≤ 20

theorem foldl_max_spec (lens : List Nat) : ∀ a, a ≤ lens.foldl max a ∧ (∀ l ∈ lens, l ≤ lens.foldl max a) ∧ (lens.foldl max a = a ∨ lens.foldl max a ∈ lens) := by
  induction lens with
  | nil => intro a; simp
  | cons l ls ih =>
    intro a
    obtain ⟨h1, h2, h3⟩ := ih (max a l)
    rw [List.foldl_cons]
    refine ⟨by omega, ?_, ?_⟩
    · intro x hx
      rcases List.mem_cons.mp hx with rfl | hx
      · omega
      · exact h2 x hx
    · rcases h3 with h3 | h3
      · by_cases h : a ≤ l
        · right; rw [h3, Nat.max_eq_right h]; simp
        · left; rw [h3]; omega
      · right; simp [h3]

theorem foldl_min_spec (lens : List Nat) : ∀ a, lens.foldl min a ≤ a ∧ (∀ l ∈ lens, lens.foldl min a ≤ l) ∧ (lens.foldl min a = a ∨ lens.foldl min a ∈ lens) := by
  induction lens with
  | nil => intro a; simp
  | cons l ls ih =>
    intro a
    obtain ⟨h1, h2, h3⟩ := ih (min a l)
    rw [List.foldl_cons]
    refine ⟨by omega, ?_, ?_⟩
    · intro x hx
      rcases List.mem_cons.mp hx with rfl | hx
      · omega
      · exact h2 x hx
    · rcases h3 with h3 | h3
      · by_cases h : a ≤ l
        · left; rw [h3]; omega
        · right; rw [h3, Nat.min_eq_right (by omega)]; simp
      · right; simp [h3]

/-- The shortest and the longest length. -/
structure Ends (lens : List Nat) (m M : Nat) : Prop where
  ge : ∀ l ∈ lens, m ≤ l
  le : ∀ l ∈ lens, l ≤ M
  minMem : m ∈ lens
  maxMem : M ∈ lens

theorem ends (lens : List Nat) (h : LensOk lens) : Ends lens (lens.foldl min 32) (lens.foldl max 0) := by
  obtain ⟨a1, a2, a3⟩ := foldl_max_spec lens 0
  obtain ⟨b1, b2, b3⟩ := foldl_min_spec lens 32
  obtain ⟨l, hl⟩ := List.exists_mem_of_ne_nil _ h.ne
  refine ⟨b2, a2, ?_, ?_⟩
  · rcases b3 with b3 | b3
    · have := b2 l hl; have := h.le l hl; omega
    · exact b3
  · rcases a3 with a3 | a3
    · have := a2 l hl; have := h.ge l hl; omega
    · exact a3

theorem getElem?_of_getD {l : List Int} {i : Nat} {x : Int} (hi : i < l.length) (h : l.getD i 0 = x) : l[i]? = some x := by
  rw [List.getD_eq_getElem?_getD, List.getElem?_eq_getElem hi] at h
  rw [List.getElem?_eq_getElem hi]
  simpa using h

theorem makeTab_spec (lens : List Nat) (h : LensOk lens) : ∃ M, Ends lens (makeTab lens).minLen M ∧ 1 ≤ (makeTab lens).minLen ∧ M ≤ 20 ∧
    (∀ m, (makeTab lens).minLen ≤ m → m ≤ M → (makeTab lens).limit[m]? = some (((V lens m + lens.count m : Nat) : Int) - 1)) ∧
    (∀ m, M < m → m < 23 → (makeTab lens).limit[m]? = some 0) ∧
    (∀ m, (makeTab lens).minLen ≤ m → m ≤ M → (makeTab lens).base[m]? = some (((V lens m : Nat) : Int) - (lt lens m : Nat))) ∧
    (makeTab lens).perm = permOf lens (makeTab lens).minLen M := by
  have e := ends lens h
  have h1 := h.ge _ e.minMem
  have h2 := h.le _ e.maxMem
  have h3 := e.le _ e.minMem
  refine ⟨lens.foldl max 0, e, h1, h2, ?_, ?_, ?_, rfl⟩
  all_goals simp only [makeTab]
  all_goals generalize lens.foldl max 0 = M at *
  all_goals generalize lens.foldl min 32 = a at *
  all_goals have hV : ((V lens a : Nat) : Int) = 0 := by rw [V_eq_zero lens a e.ge]; rfl
  all_goals have hL := limitLoop_getD lens (M + 1 - a) a (List.replicate maxCodeLen 0) (by omega) (by simp [maxCodeLen])
  all_goals rw [hV] at hL
  · intro m hm hM
    apply getElem?_of_getD (by rw [limitLoop_length]; simp [maxCodeLen]; omega)
    rw [hL _ (by omega), if_pos (by omega)]
  · intro m hm hM
    apply getElem?_of_getD (by rw [limitLoop_length]; simp [maxCodeLen]; omega)
    rw [hL _ (by omega), if_neg (by omega)]
    simp [List.getD_eq_getElem?_getD, List.getElem?_replicate]
    split <;> rfl
  · intro m hm hM
    apply getElem?_of_getD (by rw [baseLoop_length, shorter_length]; omega)
    rw [baseLoop_getD _ _ _ _ (by omega) (shorter_length _) _ (by omega)]
    by_cases hma : m = a
    · subst hma
      rw [if_neg (by omega), shorter_getD _ _ (by omega), lt_eq_zero _ _ e.ge, hV]
      rfl
    · rw [if_pos (by omega), shorter_getD _ _ (by omega), hL _ (by omega),
        if_pos (by omega)]
      obtain ⟨q, rfl⟩ : ∃ q, m = q + 1 := ⟨m - 1, by omega⟩
      rw [V_succ]
      simp only [Nat.add_sub_cancel]
      omega

/-! ### What `perm` holds -/

theorem filter_length (lens : List Nat) (i : Nat) : ((List.range lens.length).filter fun j => lens[j]? == some i).length = lens.count i := by
  induction lens using List.reverseRecOn with
  | nil => rfl
  | append_singleton ls l ih =>
    rw [List.length_append, List.length_singleton, List.range_succ, List.filter_append, List.length_append, List.count_append, ← ih]
    congr 1
    · congr 1
      apply List.filter_congr
      intro j hj
      rw [List.getElem?_append_left (by simpa using hj)]
    · simp [List.filter_cons, List.count_singleton]
      split <;> simp_all

theorem flat_length (lens : List Nat) (a k : Nat) (h : ∀ l ∈ lens, a ≤ l) :
    ((List.range' a k).flatMap fun i => (List.range lens.length).filter fun j => lens[j]? == some i).length = lt lens (a + k) := by
  induction k with
  | zero => simp [lt_eq_zero _ _ h]
  | succ k ih =>
    rw [List.range'_1_concat, List.flatMap_append, List.length_append, ih]
    simp only [List.flatMap_cons, List.flatMap_nil, List.append_nil]
    rw [filter_length, ← Nat.add_assoc, lt_succ]

theorem lt_all (lens : List Nat) (M : Nat) (h : ∀ l ∈ lens, l ≤ M) : lt lens (M + 1) = lens.length := by
  rw [lt, List.countP_eq_length]
  intro l hl
  have := h l hl
  simp; omega

theorem perm_length (lens : List Nat) (a M : Nat) (h : Ends lens a M) : (permOf lens a M).length = lens.length := by
  have := h.le _ h.minMem
  rw [permOf, flat_length _ _ _ h.ge, show a + (M + 1 - a) = M + 1 from by omega, lt_all _ _ h.le]

theorem perm_mem (lens : List Nat) (a M : Nat) : ∀ x ∈ permOf lens a M, x < lens.length := by
  intro x hx
  simp only [permOf, List.mem_flatMap, List.mem_filter, List.mem_range] at hx
  obtain ⟨_, _, h, _⟩ := hx
  exact h

/-- How many symbols in front of `j` have a code of length `l`. -/
def rank (lens : List Nat) (l j : Nat) : Nat := (lens.take j).count l

theorem rank_lt (lens : List Nat) (l j : Nat) (h : lens[j]? = some l) : rank lens l j < lens.count l := by
  obtain ⟨hj, e⟩ := List.getElem?_eq_some_iff.mp h
  have h2 : lens = lens.take j ++ lens[j] :: lens.drop (j + 1) := by simp
  rw [rank]
  conv => rhs; rw [h2]
  rw [List.count_append, e, List.count_cons_self]
  omega

theorem filter_rank (lens : List Nat) (l j : Nat) (h : lens[j]? = some l) :
    ((List.range lens.length).filter fun k => lens[k]? == some l)[rank lens l j]? = some j := by
  obtain ⟨hj, e⟩ := List.getElem?_eq_some_iff.mp h
  have hs : List.range lens.length = List.range j ++ List.range' j (lens.length - j) := by
    have := @List.range'_append_1 0 j (lens.length - j)
    rw [Nat.zero_add, show j + (lens.length - j) = lens.length from by omega] at this
    rw [List.range_eq_range', List.range_eq_range', this]
  have hl : ((List.range j).filter fun k => lens[k]? == some l).length = rank lens l j := by
    rw [rank, ← filter_length, List.length_take, Nat.min_eq_left (by omega)]
    congr 1
    apply List.filter_congr
    intro k hk
    rw [List.getElem?_take_of_lt (by simpa using hk)]
  rw [hs, List.filter_append, List.getElem?_append_right (by omega), hl, Nat.sub_self, show lens.length - j = (lens.length - j - 1) + 1 from by omega,
    List.range'_succ, List.filter_cons, if_pos (by simp [h])]
  rfl

theorem perm_get (lens : List Nat) (a M : Nat) (h : Ends lens a M) (j l : Nat) (hj : lens[j]? = some l) :
    (permOf lens a M)[lt lens l + rank lens l j]? = some j := by
  have hm := List.mem_of_getElem? hj
  have h1 := h.ge _ hm
  have h2 := h.le _ hm
  have hs : List.range' a (M + 1 - a) = List.range' a (l - a) ++ (l :: List.range' (l + 1) (M - l)) := by
    rw [← List.range'_succ, show List.range' l (M - l + 1) = List.range' (a + (l - a)) (M - l + 1) from by congr 1; omega,
      List.range'_append_1]
    congr 1; omega
  rw [permOf, hs, List.flatMap_append, List.getElem?_append_right (by rw [flat_length _ _ _ h.ge, show a + (l - a) = l from by omega]; omega),
    flat_length _ _ _ h.ge, show a + (l - a) = l from by omega, Nat.add_sub_cancel_left, List.flatMap_cons,
    List.getElem?_append_left (by rw [filter_length]; exact rank_lt lens l j hj)]
  exact filter_rank lens l j hj

/-! ### Reading a symbol -/

theorem Reads.pick (lens : List Nat) (h : LensOk lens) (hlen : lens.length ≤ 258) (j l : Nat) (hj : lens[j]? = some l) :
    Reads (pick (makeTab lens) l (V lens l + rank lens l j)) [] j := by
  obtain ⟨M, he, h1, hM, hlim, hlim0, hbase, hperm⟩ := makeTab_spec lens h
  have hm := List.mem_of_getElem? hj
  have hr := rank_lt lens l j hj
  have hlt := lt_add_count_le lens l
  unfold Bzip.pick
  rw [hbase l (he.ge _ hm) (he.le _ hm)]
  have e : ((V lens l + rank lens l j : Nat) : Int) - (((V lens l : Nat) : Int) - (lt lens l : Nat)) = ((lt lens l + rank lens l j : Nat) : Int) := by
    omega
  simp only [e, Int.toNat_natCast]
  rw [if_neg (by omega), hperm, perm_get lens _ M he j l hj]
  exact Reads.pure _

theorem Reads.zLoop (lens : List Nat) (h : LensOk lens) (hlen : lens.length ≤ 258) (j l : Nat) (hj : lens[j]? = some l) (d : Nat) :
    ∀ f zn, zn + d = l → (makeTab lens).minLen ≤ zn → d < f →
      Reads (zLoop (makeTab lens) f zn ((V lens l + rank lens l j) / 2 ^ d)) (toBits d (V lens l + rank lens l j)) j := by
  obtain ⟨M, he, h1, hM, hlim, hlim0, hbase, hperm⟩ := makeTab_spec lens h
  have hm := List.mem_of_getElem? hj
  have hlM := he.le _ hm
  have hr := rank_lt lens l j hj
  induction d with
  | zero =>
    intro f zn hz hmz hf
    obtain ⟨f, rfl⟩ : ∃ g, f = g + 1 := ⟨f - 1, by omega⟩
    have : zn = l := by omega
    subst this
    rw [Bzip.zLoop, if_neg (by omega), hlim zn hmz hlM]
    simp only [Nat.pow_zero, Nat.div_one]
    rw [if_pos (by omega)]
    exact Reads.pick lens h hlen j zn hj
  | succ d ih =>
    intro f zn hz hmz hf
    obtain ⟨f, rfl⟩ : ∃ g, f = g + 1 := ⟨f - 1, by omega⟩
    have hV := V_le lens zn (d + 1) (by omega)
    rw [hz] at hV
    have hge : V lens zn + lens.count zn ≤ (V lens l + rank lens l j) / 2 ^ (d + 1) := by
      rw [Nat.le_div_iff_mul_le (Nat.two_pow_pos _), Nat.mul_comm]
      omega
    rw [Bzip.zLoop, if_neg (by omega), hlim zn hmz (by omega)]
    simp only
    rw [if_neg (by omega), toBits]
    refine Reads.seq (Reads.getBit _) ?_ (by rfl : _ = [_] ++ _)
    have e : (V lens l + rank lens l j) / 2 ^ (d + 1) * 2 + ((V lens l + rank lens l j).testBit d).toNat = (V lens l + rank lens l j) / 2 ^ d := by
      rw [Nat.pow_succ, ← Nat.div_div_eq_div_mul, Nat.testBit_eq_decide_div_mod_eq]
      generalize (V lens l + rank lens l j) / 2 ^ d = x
      by_cases hx : x % 2 = 1
      · simp [hx]; omega
      · simp [hx]; omega
    rw [e]
    exact ih f (zn + 1) (by omega) (by omega) (by omega)

theorem Safe.pick (lens : List Nat) (h : LensOk lens) (zn zvec : Nat) (hz : (makeTab lens).minLen ≤ zn) (hV : V lens zn ≤ zvec)
    (hzM : zn ∈ lens ∨ ∃ l ∈ lens, zn ≤ l) (hl : zvec < V lens zn + lens.count zn) : Safe 0 (pick (makeTab lens) zn zvec) (· < lens.length) := by
  obtain ⟨M, he, h1, hM, hlim, hlim0, hbase, hperm⟩ := makeTab_spec lens h
  have hzM : zn ≤ M := by
    rcases hzM with hm | ⟨l, hm, hl⟩
    · exact he.le _ hm
    · have := he.le _ hm; omega
  have hlt := lt_add_count_le lens zn
  unfold Bzip.pick
  rw [hbase zn hz hzM]
  simp only
  refine Safe.ite (fun _ => Safe.fail) fun hn => ?_
  have hi : ((zvec : Int) - (((V lens zn : Nat) : Int) - (lt lens zn : Nat))).toNat < (makeTab lens).perm.length := by
    rw [hperm, perm_length lens _ M he]; omega
  have hmem : ∀ x ∈ (makeTab lens).perm, x < lens.length := fun x hx => perm_mem lens (makeTab lens).minLen M x (by rw [← hperm]; exact hx)
  rw [List.getElem?_eq_getElem hi]
  exact Safe.pure (hmem _ (List.getElem_mem hi))

theorem Safe.zLoop (lens : List Nat) (h : LensOk lens) : ∀ f zn zvec, (makeTab lens).minLen ≤ zn → zn ≤ 21 → 22 ≤ f + zn →
    ((∃ l ∈ lens, zn ≤ l) → V lens zn ≤ zvec) → ((∀ l ∈ lens, l < zn) → 0 < zvec) → Safe 0 (zLoop (makeTab lens) f zn zvec) (· < lens.length) := by
  obtain ⟨M, he, h1, hM, hlim, hlim0, hbase, hperm⟩ := makeTab_spec lens h
  intro f
  induction f with
  | zero => intro zn zvec _ _ _; omega
  | succ f ih =>
    intro zn zvec hz hz2 hf hV h0
    rw [Bzip.zLoop]
    refine Safe.ite (fun _ => Safe.fail) fun h20 => ?_
    by_cases hzM : zn ≤ M
    · have hV := hV ⟨M, he.maxMem, hzM⟩
      rw [hlim zn hz hzM]
      simp only
      refine Safe.ite (fun hle => Safe.pick lens h zn zvec hz hV (Or.inr ⟨M, he.maxMem, hzM⟩) (by omega)) fun hgt => ?_
      refine Safe.bind0 Safe.getBit.zero fun zj hzj => ih _ _ (by omega) (by omega) (by omega) (fun _ => ?_) fun hall => ?_
      · rw [V_succ]; omega
      · have := hall M he.maxMem
        have : zn = M := by omega
        subst this
        have := List.count_pos_iff.mpr he.maxMem
        omega
    · have h0 := h0 fun l hl => by have := he.le l hl; omega
      rw [hlim0 zn (by omega) (by omega)]
      simp only
      rw [if_neg (by omega)]
      refine Safe.bind0 Safe.getBit.zero fun zj hzj => ih _ _ (by omega) (by omega) (by omega) (fun hex => ?_) fun _ => by omega
      obtain ⟨l, hl, hh⟩ := hex
      have := he.le l hl
      omega

end Verif.Bzip
