import Verif.Mkclean.Remux
import Verif.Core.SortLemmas
/-! Lemmas about dealing out blocks to Clusters. -/
set_option linter.unusedSimpArgs false
namespace Verif.Mkclean
open Verif.Mkv Verif.Core

theorem timeCmp_total : Total timeCmp := by
  constructor
  · intro a b; unfold timeCmp; split <;> split <;> (try split) <;> (try split) <;> omega
  · intro a b c; unfold timeCmp; split <;> split <;> (try split) <;> (try split) <;> (try split) <;> (try split) <;> omega

theorem timeCmp_le (a b : Int) : timeCmp a b ≤ 0 ↔ a ≤ b := by unfold timeCmp; split <;> (try split) <;> omega
theorem timeCmp_zero (a b : Int) : timeCmp a b = 0 ↔ a = b := by unfold timeCmp; split <;> (try split) <;> omega
theorem timeCmp_pos (a b : Int) : timeCmp a b > 0 ↔ a > b := by unfold timeCmp; split <;> (try split) <;> omega
theorem timeCmp_neg (a b : Int) : timeCmp a b < 0 ↔ a < b := by unfold timeCmp; split <;> (try split) <;> omega

/-- Erasing any one of a run of equal entries gives the same array. -/
theorem erase_run (a : List Int) (hs : a.Pairwise (· ≤ ·)) : ∀ (m i : Nat) (hm : m < a.length) (hi : i < a.length),
    m ≤ i → a[m] = a[i] → a.eraseIdx m = a.eraseIdx i := by
  intro m i hm hi hmi he
  apply List.ext_getElem
  · rw [List.length_eraseIdx_of_lt hm, List.length_eraseIdx_of_lt hi]
  · intro k h1 h2
    rw [List.getElem_eraseIdx, List.getElem_eraseIdx]
    rw [List.length_eraseIdx_of_lt hm] at h1
    have mono : ∀ x y (hx : x < a.length) (hy : y < a.length), x ≤ y → a[x] ≤ a[y] := by
      intro x y hx hy hxy
      by_cases e : x = y
      · subst e; exact Int.le_refl _
      · exact List.pairwise_iff_getElem.1 hs x y hx hy (by omega)
    by_cases hk : k < m
    · rw [dif_pos hk, dif_pos (by omega)]
    · rw [dif_neg hk]
      by_cases hk' : k < i
      · rw [dif_pos hk']
        have h1 := mono m k hm (by omega) (by omega)
        have h2 := mono m (k+1) hm (by omega) (by omega)
        have h3 := mono k i (by omega) hi (by omega)
        have h4 := mono (k+1) i (by omega) hi (by omega)
        omega
      · rw [dif_neg hk']

/-- In an array in order the entry is found. -/
theorem remove_at (a : List Int) (hs : a.Pairwise (· ≤ ·)) (i : Nat) (hi : i < a.length) :
    removeEx timeCmp a a[i] = some (true, a.eraseIdx i) := by
  unfold removeEx
  have hs' : a.Pairwise fun x y => timeCmp x y ≤ 0 := hs.imp (fun h => (timeCmp_le _ _).2 h)
  rcases findEx_spec timeCmp_total a hs' a[i] with ⟨m, hm, h1, h2⟩ | ⟨p, h1, h2, h3, h4⟩
  · rw [h1]
    have he := (timeCmp_zero _ _).1 h2
    simp only [Int.toNat_natCast, Option.some.injEq, Prod.mk.injEq, true_and]
    rw [← List.eraseIdx_eq_take_drop_succ]
    by_cases h : m ≤ i
    · exact erase_run a hs m i hm hi h he
    · exact (erase_run a hs i m hi hm (by omega) he.symm).symm
  · exfalso
    by_cases h : i < p
    · have := (timeCmp_neg _ _).1 (h3 i hi h); omega
    · have := (timeCmp_pos _ _).1 (h4 i hi (by omega)); omega

/-- Specification: of the times that follow a boundary at `prev`, those that become boundaries. A time less than 1 s
behind the boundary is left out when the next one is less than 2 s behind it. -/
def boundaries (prev : Int) : List Int → List Int
  | [] => []
  | t :: rest =>
    if t < prev + 1000000000 ∧ (∃ n ∈ rest.head?, n < prev + 2000000000) then boundaries prev rest
    else t :: boundaries t rest

theorem thin_eq : ∀ (rest : List Int) (fuel : Nat) (pre : List Int) (prev : Int),
    (pre ++ rest).Pairwise (· ≤ ·) → rest.length < fuel → prev ≠ invalidTs → (∀ t ∈ rest, t ≠ invalidTs) →
    thin fuel (pre ++ rest) pre.length prev = some (pre ++ boundaries prev rest) := by
  intro rest
  induction rest with
  | nil =>
    intro fuel pre prev _ hf _ _
    obtain ⟨f, rfl⟩ : ∃ f, fuel = f + 1 := ⟨fuel - 1, by simp at hf; omega⟩
    simp [thin, boundaries]
  | cons t rest ih =>
    intro fuel pre prev hs hf hp hne
    obtain ⟨f, rfl⟩ : ∃ f, fuel = f + 1 := ⟨fuel - 1, by simp at hf; omega⟩
    have hget : (pre ++ t :: rest)[pre.length]? = some t := by simp
    have hget1 : (pre ++ t :: rest)[pre.length + 1]? = rest.head? := by
      rw [List.getElem?_append_right (by omega), List.head?_eq_getElem?]
      simp
    rw [thin, hget, hget1]
    simp only
    have hany : ((rest.head?).any (fun n => decide (n < prev + 2000000000)) = true) ↔
        (∃ n ∈ rest.head?, n < prev + 2000000000) := by
      cases rest <;> simp
    rw [boundaries]
    by_cases hc : t < prev + 1000000000 ∧ (∃ n ∈ rest.head?, n < prev + 2000000000)
    · rw [if_pos hc, if_pos ⟨hp, hc.1, hany.2 hc.2⟩]
      have hi : pre.length < (pre ++ t :: rest).length := by simp
      have := remove_at (pre ++ t :: rest) hs pre.length hi
      rw [List.getElem_append_right (by omega)] at this
      simp only [Nat.sub_self, List.getElem_cons_zero] at this
      rw [this]
      simp only
      have he : (pre ++ t :: rest).eraseIdx pre.length = pre ++ rest := by
        rw [List.eraseIdx_append_of_length_le (by omega)]; simp
      rw [he]
      exact ih f pre prev (by rw [← he]; exact hs.sublist (List.eraseIdx_sublist _ _)) (by simp at hf; omega) hp (fun u hu => hne u (by simp [hu]))
    · rw [if_neg hc, if_neg (fun h => hc ⟨h.2.1, hany.1 h.2.2⟩)]
      have := ih f (pre ++ [t]) t (by simpa using hs) (by simp at hf; omega) (hne t (by simp)) (fun u hu => hne u (by simp [hu]))
      simpa using this

theorem boundaries_sublist : ∀ (rest : List Int) (prev : Int), (boundaries prev rest).Sublist rest := by
  intro rest
  induction rest with
  | nil => intro _; simp [boundaries]
  | cons t rest ih =>
    intro prev
    rw [boundaries]
    split
    · exact (ih prev).cons t
    · exact (ih t).cons_cons t

/-- The frames still to be written. -/
def pending (t : Trk) : List RFrame := (t.todo.flatMap (·.frames)).drop t.from'

/-- A block that can be dealt out: it has frames, and where the frames have durations they have an end. -/
def Good (b : RBlk) : Prop :=
  b.frames ≠ [] ∧ (b.hasDur = true → ∀ f ∈ b.frames, f.finish < invalidTs) ∧ b.dt ≤ invalidTs

/-- State of a track: frames are left over from a block only when the block has durations. -/
def TrkOk (t : Trk) : Prop :=
  (∀ b ∈ t.todo, Good b) ∧
  (t.from' ≠ 0 → ∃ b rest, t.todo = b :: rest ∧ b.hasDur = true ∧ t.from' ≤ b.frames.length)

theorem fitting_le (m : Int) : ∀ fs, fitting m fs ≤ fs.length := by
  intro fs
  induction fs with
  | nil => simp [fitting]
  | cons f fs ih => simp only [fitting]; split <;> simp <;> omega

theorem fitting_all (m : Int) : ∀ fs : List RFrame, (∀ f ∈ fs, f.finish < m) → fitting m fs = fs.length := by
  intro fs
  induction fs with
  | nil => intro _; rfl
  | cons f fs ih =>
    intro h
    have h1 := h f (by simp)
    simp only [fitting]
    rw [if_neg (by omega), ih (fun g hg => h g (by simp [hg]))]; simp

theorem piece_flatten (fs : List RFrame) : (piece fs).flatten = fs := by
  unfold piece; split <;> simp_all

/-- Main track: exactly one block is put in the Cluster. -/
theorem dealTrack_main (fits : RBlk → Bool) (mainEnd master : Int) (b : RBlk) (rest : List RBlk) (hb : b.frames ≠ []) :
    dealTrack fits true mainEnd master 0 (b :: rest) =
      if fits b then .ok (⟨rest, 0⟩, [b.frames],
        decide (mainEnd = invalidTs ∨ blockEnd (b :: rest) = master))
      else .err := by
  simp only [dealTrack, ne_eq, not_true_eq_false, Bool.true_eq_false, and_false, false_and, if_false, hb,
    not_false_eq_true, if_true]
  cases fits b <;> rfl

/-- What a track loses is put in the Cluster, in order; other tracks do not end the Cluster. -/
theorem dealTrack_side (fits : RBlk → Bool) (mainEnd master : Int) : ∀ (todo : List RBlk) (start : Nat),
    TrkOk ⟨todo, start⟩ →
    (∃ t out, dealTrack fits false mainEnd master start todo = .ok (t, out, false) ∧
      out.flatten ++ pending t = pending ⟨todo, start⟩ ∧ TrkOk t ∧ t.todo <:+ todo) ∨
    (dealTrack fits false mainEnd master start todo = .err ∧ ∃ b ∈ todo, fits b = false) := by
  intro todo
  induction todo with
  | nil =>
    intro start h
    have : start = 0 := by
      by_cases hs : start = 0
      · exact hs
      · obtain ⟨b, rest, he, _⟩ := h.2 hs
        simp at he
    subst this
    exact Or.inl ⟨⟨[], 0⟩, [], by simp [dealTrack], by simp [pending], h, List.suffix_refl _⟩
  | cons b rest ih =>
    intro start h
    have hrest : TrkOk ⟨rest, 0⟩ := ⟨fun c hc => h.1 c (by simp [hc]), fun h0 => absurd rfl h0⟩
    have hb := h.1 b (by simp)
    rw [dealTrack]
    simp only
    by_cases hlate : b.dt > mainEnd
    · rw [if_pos ⟨hlate, trivial⟩]
      exact Or.inl ⟨_, _, rfl, by simp, h, List.suffix_refl _⟩
    rw [if_neg (fun hc => hlate hc.1)]
    by_cases hs : start = 0
    · subst hs
      rw [if_neg (by simp)]
      by_cases hsplit : mainEnd ≠ invalidTs ∧ blockEnd (b :: rest) > master ∧
          True ∧ b.laced = true ∧ b.readable = true
      · rw [if_pos hsplit]
        by_cases hk : (if b.hasDur then fitting master b.frames else b.frames.length) = b.frames.length
        · rw [if_pos hk]
          exact Or.inl ⟨_, _, rfl, by simp, ⟨h.1, fun h0 => absurd rfl h0⟩, List.suffix_refl _⟩
        · rw [if_neg hk]
          refine Or.inl ⟨_, _, rfl, ?_, ?_, List.suffix_refl _⟩
          · have hle := fitting_le master b.frames
            cases hd : b.hasDur with
            | false => rw [hd] at hk; simp at hk
            | true =>
              simp only [if_true, pending, List.flatMap_cons, piece_flatten, List.drop_zero]
              rw [List.drop_append_of_le_length hle, ← List.append_assoc, List.take_append_drop]
          · refine ⟨h.1, fun _ => ⟨b, rest, rfl, ?_, ?_⟩⟩
            · cases hd : b.hasDur with
              | false => rw [hd] at hk; simp at hk
              | true => rfl
            · have hle := fitting_le master b.frames
              simp only
              split <;> omega
      · rw [if_neg hsplit, if_pos hb.1]
        cases hf : fits b with
        | false => exact Or.inr ⟨by simp, b, by simp, hf⟩
        | true =>
          simp only [Bool.not_true, Bool.false_eq_true, if_false]
          rcases ih 0 hrest with ⟨t, out, he, h1, h2, h3⟩ | ⟨he, c, hc, hfc⟩
          · rw [he]
            refine Or.inl ⟨_, _, rfl, ?_, h2, h3.trans (List.suffix_cons b rest)⟩
            rw [List.flatten_cons, List.append_assoc, h1]
            simp [pending]
          · rw [he]
            exact Or.inr ⟨rfl, c, by simp [hc], hfc⟩
    · rw [if_pos hs]
      obtain ⟨b', rest', he, hdur, hle⟩ := h.2 hs
      simp only [List.cons.injEq] at he
      obtain ⟨rfl, rfl⟩ := he
      simp only at hle
      have hfl := fitting_le master (b.frames.drop start)
      rw [List.length_drop] at hfl
      by_cases hk : start + fitting master (b.frames.drop start) = b.frames.length
      · rw [if_neg (by simp [hk])]
        rcases ih 0 hrest with ⟨t, out, he, h1, h2, h3⟩ | ⟨he, c, hc, hfc⟩
        · rw [he]
          refine Or.inl ⟨_, _, rfl, ?_, h2, h3.trans (List.suffix_cons b rest)⟩
          rw [List.flatten_append, List.append_assoc, h1, piece_flatten]
          have : start + fitting master (b.frames.drop start) - start = (b.frames.drop start).length := by
            rw [List.length_drop]; omega
          rw [this, List.take_length]
          simp only [pending, List.flatMap_cons, List.drop_zero]
          rw [List.drop_append_of_le_length hle]
        · rw [he]
          exact Or.inr ⟨rfl, c, by simp [hc], hfc⟩
      · rw [if_pos hk]
        refine Or.inl ⟨_, _, rfl, ?_, ⟨h.1, fun _ => ⟨b, rest, rfl, hdur, by simp only; omega⟩⟩, List.suffix_refl _⟩
        simp only [piece_flatten, pending, List.flatMap_cons]
        rw [List.drop_append_of_le_length hle, List.drop_append_of_le_length (by omega), ← List.append_assoc]
        congr 1
        have : start + fitting master (b.frames.drop start) - start = fitting master (b.frames.drop start) := by omega
        rw [this, ← List.drop_drop, List.take_append_drop]

/-- With nothing left in the main track everything is dealt out. -/
theorem dealTrack_last (fits : RBlk → Bool) : ∀ (todo : List RBlk) (start : Nat) (t : Trk) (out : List (List RFrame))
    (r : Bool), TrkOk ⟨todo, start⟩ → dealTrack fits false invalidTs invalidTs start todo = .ok (t, out, r) →
    t = ⟨[], 0⟩ := by
  intro todo
  induction todo with
  | nil =>
    intro start t out r _ he
    simp only [dealTrack, Out.ok.injEq, Prod.mk.injEq] at he
    exact he.1.symm
  | cons b rest ih =>
    intro start t out r h he
    have hrest : TrkOk ⟨rest, 0⟩ := ⟨fun c hc => h.1 c (by simp [hc]), fun h0 => absurd rfl h0⟩
    have hb := h.1 b (by simp)
    have hdt := hb.2.2
    rw [dealTrack] at he
    simp only at he
    rw [if_neg (by omega)] at he
    by_cases hs : start = 0
    · subst hs
      rw [if_neg (by simp), if_neg (by simp), if_pos hb.1] at he
      cases hf : fits b with
      | false => rw [hf] at he; simp at he
      | true =>
        rw [hf] at he
        simp only [Bool.not_true, Bool.false_eq_true, if_false] at he
        cases hd : dealTrack fits false invalidTs invalidTs 0 rest with
        | ok x =>
          obtain ⟨t', out', r'⟩ := x
          rw [hd] at he
          simp only [Out.ok.injEq, Prod.mk.injEq] at he
          rw [← he.1]
          exact ih 0 t' out' r' hrest hd
        | err => rw [hd] at he; simp at he
        | bad => rw [hd] at he; simp at he
        | hang => rw [hd] at he; simp at he
    · rw [if_pos hs] at he
      obtain ⟨b', rest', he', hdur, hle⟩ := h.2 hs
      simp only [List.cons.injEq] at he'
      obtain ⟨rfl, rfl⟩ := he'
      simp only at hle
      have hall := fitting_all invalidTs (b.frames.drop start)
        (fun f hf => hb.2.1 hdur f (List.mem_of_mem_drop hf))
      rw [List.length_drop] at hall
      rw [if_neg (by rw [hall]; omega)] at he
      cases hd : dealTrack fits false invalidTs invalidTs 0 rest with
      | ok x =>
        obtain ⟨t', out', r'⟩ := x
        rw [hd] at he
        simp only [Out.ok.injEq, Prod.mk.injEq] at he
        rw [← he.1]
        exact ih 0 t' out' r' hrest hd
      | err => rw [hd] at he; simp at he
      | bad => rw [hd] at he; simp at he
      | hang => rw [hd] at he; simp at he

/-- The frames of a track in a Cluster. -/
def framesOf (t : Nat) (ps : List Piece) : List RFrame := (ps.filter (fun p => p.1 = t)).flatMap (·.2)

theorem framesOf_append (t : Nat) (a b : List Piece) : framesOf t (a ++ b) = framesOf t a ++ framesOf t b := by
  simp [framesOf]

theorem framesOf_map (t u : Nat) (out : List (List RFrame)) :
    framesOf t (out.map fun fs => (u, fs)) = if u = t then out.flatten else [] := by
  induction out with
  | nil => simp [framesOf]
  | cons x out ih =>
    rw [List.map_cons, ← List.singleton_append, framesOf_append, ih]
    by_cases h : u = t
    · simp [framesOf, h]
    · simp [framesOf, h]

/-- A round over tracks that are not the main track. -/
theorem dealRound_side (fits : Nat → RBlk → Bool) (main : Nat) (mainEnd master : Int) : ∀ (order : List Nat)
    (s : Nat → Trk), main ∉ order → (∀ t ∈ order, TrkOk (s t)) →
    (∃ s' out, dealRound fits main mainEnd master order s = .ok (s', out, false) ∧
      (∀ t, framesOf t out ++ pending (s' t) = pending (s t)) ∧ (∀ t ∈ order, TrkOk (s' t)) ∧
      (∀ t, t ∉ order → s' t = s t) ∧ (∀ t, (s' t).todo <:+ (s t).todo) ∧
      (mainEnd = invalidTs → master = invalidTs → ∀ t ∈ order, s' t = ⟨[], 0⟩)) ∨
    (dealRound fits main mainEnd master order s = .err ∧ ∃ t ∈ order, ∃ b ∈ (s t).todo, fits t b = false) := by
  intro order
  induction order with
  | nil =>
    intro s _ _
    exact Or.inl ⟨s, [], rfl, by simp [framesOf], by simp, by simp, fun _ => List.suffix_refl _, by simp⟩
  | cons t ts ih =>
    intro s hm hok
    have hne : (t == main) = false := by
      simp only [List.mem_cons, not_or] at hm
      simp only [beq_eq_false_iff_ne, ne_eq]
      exact fun h => hm.1 h.symm
    rw [dealRound, hne]
    rcases dealTrack_side (fits t) mainEnd master (s t).todo (s t).from' (hok t (by simp)) with
      ⟨tr, out, he, h1, h2, h3⟩ | ⟨he, hbad⟩
    · rw [he]
      simp only
      have hlast : mainEnd = invalidTs → master = invalidTs → tr = ⟨[], 0⟩ := by
        intro e1 e2
        rw [e1, e2] at he
        exact dealTrack_last (fits t) _ _ _ _ _ (hok t (by simp)) he
      rcases ih (fun u => if u = t then tr else s u) (by simp only [List.mem_cons, not_or] at hm; exact hm.2) (by
          intro u hu
          by_cases e : u = t
          · simp only [e, if_true]; exact h2
          · simp only [e, if_false]; exact hok u (by simp [hu])) with ⟨s', out', he', g1, g2, g3, g4, g5⟩ | ⟨he', u, hu, b, hb, hf⟩
      · rw [he']
        refine Or.inl ⟨s', _, rfl, ?_, ?_, ?_, ?_, ?_⟩
        · intro u
          rw [framesOf_append, framesOf_map, List.append_assoc, g1 u]
          by_cases e : u = t
          · subst e; simp only [if_true]; exact h1
          · have e' : ¬ t = u := fun h => e h.symm
            simp only [e, e', if_false, List.nil_append]
        · intro u hu
          by_cases hu' : u ∈ ts
          · exact g2 u hu'
          · rw [g3 u hu']
            simp only [List.mem_cons] at hu
            rcases hu with rfl | hu
            · simp only [if_true]; exact h2
            · exact absurd hu hu'
        · intro u hu
          simp only [List.mem_cons, not_or] at hu
          rw [g3 u hu.2, if_neg hu.1]
        · intro u
          have := g4 u
          by_cases e : u = t
          · subst e; simp only [if_true] at this; exact this.trans h3
          · simp only [e, if_false] at this; exact this
        · intro e1 e2 u hu
          by_cases hu' : u ∈ ts
          · exact g5 e1 e2 u hu'
          · rw [g3 u hu']
            simp only [List.mem_cons] at hu
            rcases hu with rfl | hu
            · simp only [if_true]; exact hlast e1 e2
            · exact absurd hu hu'
      · rw [he']
        refine Or.inr ⟨rfl, u, by simp [hu], b, ?_, hf⟩
        by_cases e : u = t
        · subst e; simp only [if_true] at hb; exact h3.subset hb
        · simp only [e, if_false] at hb; exact hb
    · rw [he]
      obtain ⟨b, hb, hf⟩ := hbad
      exact Or.inr ⟨rfl, t, by simp, b, hb, hf⟩

theorem dealRound_append (fits : Nat → RBlk → Bool) (main : Nat) (mainEnd master : Int) (b : List Nat) : ∀ (a : List Nat)
    (s : Nat → Trk), dealRound fits main mainEnd master (a ++ b) s =
      match dealRound fits main mainEnd master a s with
      | .ok (s', out, r) =>
        (match dealRound fits main mainEnd master b s' with
        | .ok (s'', out', r') => .ok (s'', out ++ out', r || r')
        | .err => .err | .bad => .bad | .hang => .hang)
      | .err => .err | .bad => .bad | .hang => .hang := by
  intro a
  induction a with
  | nil =>
    intro s
    simp only [List.nil_append, dealRound]
    cases dealRound fits main mainEnd master b s <;> simp
  | cons t ts ih =>
    intro s
    simp only [List.cons_append, dealRound]
    cases dealTrack (fits t) (t == main) mainEnd master (s t).from' (s t).todo with
    | ok x =>
      obtain ⟨tr, out, r⟩ := x
      simp only [ih]
      cases dealRound fits main mainEnd master ts (fun u => if u = t then tr else s u) with
      | ok y =>
        obtain ⟨s', out', r'⟩ := y
        simp only
        cases dealRound fits main mainEnd master b s' with
        | ok z => simp [Bool.or_assoc, List.append_assoc]
        | err => rfl
        | bad => rfl
        | hang => rfl
      | err => rfl
      | bad => rfl
      | hang => rfl
    | err => rfl
    | bad => rfl
    | hang => rfl

/-- A round with the main track last. -/
theorem dealRound_main (fits : Nat → RBlk → Bool) (main : Nat) (master : Int) (others : List Nat) (s : Nat → Trk)
    (b : RBlk) (rest : List RBlk) (hmain : s main = ⟨b :: rest, 0⟩) (hm : main ∉ others)
    (hok : ∀ t ∈ others ++ [main], TrkOk (s t)) :
    (∃ s' out, dealRound fits main (blockEnd (b :: rest)) master (others ++ [main]) s =
        .ok (s', out, decide (blockEnd (b :: rest) = invalidTs ∨ blockEnd (b :: rest) = master)) ∧
      (∀ t, framesOf t out ++ pending (s' t) = pending (s t)) ∧ (∀ t ∈ others ++ [main], TrkOk (s' t)) ∧
      s' main = ⟨rest, 0⟩ ∧ (∀ t, (s' t).todo <:+ (s t).todo) ∧
      (blockEnd (b :: rest) = invalidTs → master = invalidTs → ∀ t ∈ others, s' t = ⟨[], 0⟩)) ∨
    (dealRound fits main (blockEnd (b :: rest)) master (others ++ [main]) s = .err ∧
      ∃ t ∈ others ++ [main], ∃ b ∈ (s t).todo, fits t b = false) := by
  have hmo := hok main (by simp)
  rw [hmain] at hmo
  have hgb := hmo.1 b (by simp)
  rw [dealRound_append]
  rcases dealRound_side fits main (blockEnd (b :: rest)) master others s hm (fun t ht => hok t (by simp [ht])) with
    ⟨s', out, he, h1, h2, h3, h4, h5⟩ | ⟨he, t, ht, c, hc, hf⟩
  · rw [he]
    simp only [dealRound, beq_self_eq_true]
    rw [h3 main hm, hmain]
    simp only
    rw [dealTrack_main _ _ _ _ _ hgb.1]
    cases hfb : fits main b with
    | false =>
      refine Or.inr ⟨by simp, main, by simp, b, ?_, hfb⟩
      rw [hmain]; simp
    | true =>
      simp only [if_true]
      refine Or.inl ⟨(fun u => if u = main then ⟨rest, 0⟩ else s' u),
        out ++ ([b.frames].map (fun fs => (main, fs)) ++ []), ?_, ?_, ?_, ?_, ?_, ?_⟩
      · simp only [Bool.false_or, Bool.or_false]
      · intro t
        rw [List.append_nil, framesOf_append, List.append_assoc]
        by_cases e : t = main
        · subst e
          rw [framesOf_map]
          simp only [if_true, hmain]
          have := h1 t
          rw [h3 t hm, hmain] at this
          have hn : framesOf t out = [] := by
            have hl := congrArg List.length this
            rw [List.length_append] at hl
            exact List.eq_nil_of_length_eq_zero (by omega)
          rw [hn]
          simp [pending]
        · have e' : ¬ main = t := fun h => e h.symm
          rw [framesOf_map, if_neg e', List.nil_append]
          simp only [e, if_false]
          exact h1 t
      · intro t ht
        by_cases e : t = main
        · subst e
          simp only [if_true]
          exact ⟨fun c hc => hmo.1 c (by simp [hc]), fun h0 => absurd rfl h0⟩
        · simp only [e, if_false]
          simp only [List.mem_append, List.mem_singleton, e, or_false] at ht
          exact h2 t ht
      · simp
      · intro t
        by_cases e : t = main
        · subst e
          simp only [if_true, hmain]
          exact List.suffix_cons b rest
        · simp only [e, if_false]; exact h4 t
      · intro e1 e2 t ht
        have e : ¬ t = main := fun h => hm (h ▸ ht)
        simp only [e, if_false]
        exact h5 e1 e2 t ht
  · rw [he]
    exact Or.inr ⟨rfl, t, by simp [ht], c, hc, hf⟩

/-- One Cluster. -/
theorem dealCluster_spec (fits : Nat → RBlk → Bool) (main : Nat) (master : Int) (others : List Nat)
    (hm : main ∉ others) : ∀ (rest : List RBlk) (b : RBlk) (s : Nat → Trk) (fuel : Nat),
    s main = ⟨b :: rest, 0⟩ → (∀ t ∈ others ++ [main], TrkOk (s t)) → rest.length + 1 < fuel →
    (∀ c ∈ rest, c.dt < invalidTs) →
    (∃ s' out, dealCluster fits (others ++ [main]) main master fuel s = .ok (s', out) ∧
      (∀ t, framesOf t out ++ pending (s' t) = pending (s t)) ∧ (∀ t ∈ others ++ [main], TrkOk (s' t)) ∧
      (s' main).from' = 0 ∧ (∀ t, (s' t).todo <:+ (s t).todo) ∧
      (master = invalidTs → ∀ t ∈ others ++ [main], s' t = ⟨[], 0⟩) ∧
      (∀ ts, (master :: ts).Sublist (rest.map (·.dt)) →
        ∃ n ds, s' main = ⟨n :: ds, 0⟩ ∧ n.dt = master ∧ ts.Sublist (ds.map (·.dt)))) ∨
    (dealCluster fits (others ++ [main]) main master fuel s = .err ∧
      ∃ t ∈ others ++ [main], ∃ b ∈ (s t).todo, fits t b = false) := by
  intro rest
  induction rest with
  | nil =>
    intro b s fuel hs hok hf hdt
    obtain ⟨f, rfl⟩ : ∃ f, fuel = f + 1 := ⟨fuel - 1, by omega⟩
    rw [dealCluster, hs]
    simp only [reduceCtorEq, if_false]
    rcases dealRound_main fits main master others s b [] hs hm hok with
      ⟨s', out, he, h1, h2, h3, h4, h5⟩ | ⟨he, h⟩
    · rw [he]
      simp only [blockEnd, true_or, decide_true, if_true]
      refine Or.inl ⟨s', out, rfl, h1, h2, by rw [h3], h4, ?_, ?_⟩
      · intro hmas t ht
        simp only [List.mem_append, List.mem_singleton] at ht
        rcases ht with ht | rfl
        · exact h5 rfl hmas t ht
        · exact h3
      · intro ts h
        have := h.length_le
        simp at this
    · rw [he]; exact Or.inr ⟨rfl, h⟩
  | cons n ds ih =>
    intro b s fuel hs hok hf hdt
    obtain ⟨f, rfl⟩ : ∃ f, fuel = f + 1 := ⟨fuel - 1, by omega⟩
    have hn := hdt n (by simp)
    rw [dealCluster, hs]
    simp only [reduceCtorEq, if_false]
    rcases dealRound_main fits main master others s b (n :: ds) hs hm hok with
      ⟨s', out, he, h1, h2, h3, h4, h5⟩ | ⟨he, h⟩
    · rw [he]
      have hbe : blockEnd (b :: n :: ds) = n.dt := rfl
      simp only
      by_cases hend : n.dt = master
      · rw [if_pos (by rw [hbe]; simp [hend])]
        refine Or.inl ⟨s', out, rfl, h1, h2, by rw [h3], h4, ?_, ?_⟩
        · intro hmas; omega
        · intro ts h
          rw [List.map_cons, hend, List.cons_sublist_cons] at h
          exact ⟨n, ds, h3, hend, h⟩
      · rw [if_neg (by rw [hbe, decide_eq_true_eq]; omega)]
        rcases ih n s' f h3 h2 (by simp only [List.length_cons] at hf; omega) (fun c hc => hdt c (by simp [hc])) with
          ⟨s'', out', he', g1, g2, g3, g4, g5, g6⟩ | ⟨he', t, ht, c, hc, hfc⟩
        · rw [he']
          refine Or.inl ⟨s'', out ++ out', rfl, ?_, g2, g3, fun t => (g4 t).trans (h4 t), g5, ?_⟩
          · intro t
            rw [framesOf_append, List.append_assoc, g1, h1]
          · intro ts h
            refine g6 ts ?_
            rw [List.map_cons] at h
            cases h with
            | cons _ h => exact h
            | cons_cons _ h => exact absurd rfl hend
        · rw [he']
          exact Or.inr ⟨rfl, t, ht, c, (h4 t).subset hc, hfc⟩
    · rw [he]; exact Or.inr ⟨rfl, h⟩

/-- All Clusters. -/
theorem dealAll_spec (fits : Int → Nat → RBlk → Bool) (main : Nat) (others : List Nat) (fuel : Nat)
    (hm : main ∉ others) : ∀ (ts : List Int) (t0 : Int) (b : RBlk) (rest : List RBlk) (s : Nat → Trk),
    s main = ⟨b :: rest, 0⟩ → (∀ t ∈ others ++ [main], TrkOk (s t)) → rest.length + 1 < fuel →
    (∀ c ∈ rest, c.dt < invalidTs) → ts.Sublist (rest.map (·.dt)) →
    (∃ cl, dealAll fits (others ++ [main]) main fuel (t0 :: ts) s = .ok cl ∧ cl.length = ts.length + 1 ∧
      ∀ t ∈ others ++ [main], framesOf t cl.flatten = pending (s t)) ∨
    (dealAll fits (others ++ [main]) main fuel (t0 :: ts) s = .err ∧
      ∃ c, ∃ t ∈ others ++ [main], ∃ b ∈ (s t).todo, fits c t b = false) := by
  intro ts
  induction ts with
  | nil =>
    intro t0 b rest s hs hok hf hdt hsub
    rw [dealAll]
    rcases dealCluster_spec (fits t0) main invalidTs others hm rest b s fuel hs hok hf hdt with
      ⟨s', out, he, h1, h2, h3, h4, h5, h6⟩ | ⟨he, h⟩
    · rw [he]
      simp only [dealAll]
      refine Or.inl ⟨[out], rfl, rfl, ?_⟩
      intro t ht
      have := h1 t
      rw [h5 rfl t ht] at this
      simpa [pending] using this
    · rw [he]; exact Or.inr ⟨rfl, t0, h⟩
  | cons t1 ts ih =>
    intro t0 b rest s hs hok hf hdt hsub
    rw [dealAll]
    rcases dealCluster_spec (fits t0) main t1 others hm rest b s fuel hs hok hf hdt with
      ⟨s', out, he, h1, h2, h3, h4, h5, h6⟩ | ⟨he, h⟩
    · rw [he]
      simp only
      obtain ⟨n, ds, g1, g2, g3⟩ := h6 ts hsub
      have hsuf := h4 main
      rw [g1, hs] at hsuf
      simp only at hsuf
      have hds : ∀ c ∈ ds, c ∈ rest := by
        intro c hc
        rcases List.suffix_cons_iff.1 hsuf with h | h
        · simp only [List.cons.injEq] at h
          rw [← h.2]; exact hc
        · exact h.subset (by simp [hc])
      have hlen := hsuf.length_le
      simp only [List.length_cons] at hlen
      rcases ih t1 n ds s' g1 h2 (by omega) (fun c hc => hdt c (hds c hc)) g3 with
        ⟨cl, he', k1, k2⟩ | ⟨he', c, t, ht, b', hb', hfb⟩
      · rw [he']
        refine Or.inl ⟨out :: cl, rfl, by simp [k1], ?_⟩
        intro t ht
        rw [List.flatten_cons, framesOf_append, k2 t ht, h1]
      · rw [he']
        exact Or.inr ⟨rfl, c, t, ht, b', (h4 t).subset hb', hfb⟩
    · rw [he]; exact Or.inr ⟨rfl, t0, h⟩

end Verif.Mkclean
