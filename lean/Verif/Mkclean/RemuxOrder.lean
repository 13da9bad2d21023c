import Verif.Mkclean.RemuxLemmas
/-! Lemmas about the order in which remuxing puts unlaced blocks in Clusters. -/
set_option linter.unusedSimpArgs false
namespace Verif.Mkclean
open Verif.Mkv Verif.Core

/-- A block that is never divided. -/
def Plain (b : RBlk) : Prop := b.frames ≠ [] ∧ b.laced = false ∧ b.dt < invalidTs

/-- Is the block behind the time up to which blocks were dealt out? -/
def behind (lo : Option Int) (b : RBlk) : Bool :=
  match lo with
  | none => true
  | some e => decide (e < b.dt)

theorem dealTrack_plain (mainEnd master : Int) : ∀ (todo : List RBlk), (∀ b ∈ todo, Plain b) →
    (todo.map (·.dt)).Pairwise (· ≤ ·) →
    dealTrack (fun _ => true) false mainEnd master 0 todo =
      .ok (⟨todo.filter (fun b => decide (mainEnd < b.dt)), 0⟩,
        (todo.filter (fun b => decide (b.dt ≤ mainEnd))).map (·.frames), false) := by
  intro todo
  induction todo with
  | nil => intro _ _; rfl
  | cons b rest ih =>
    intro h hs
    have hb := h b (by simp)
    rw [List.map_cons, List.pairwise_cons] at hs
    have hrest : ∀ c ∈ rest, b.dt ≤ c.dt := fun c hc => hs.1 c.dt (List.mem_map.2 ⟨c, hc, rfl⟩)
    rw [dealTrack]
    by_cases hlate : b.dt > mainEnd
    · rw [if_pos ⟨hlate, rfl⟩]
      have h1 : (b :: rest).filter (fun b => decide (mainEnd < b.dt)) = b :: rest := by
        rw [List.filter_eq_self]
        intro c hc
        rw [List.mem_cons] at hc
        rcases hc with rfl | hc
        · simpa using hlate
        · have := hrest c hc
          simp only [decide_eq_true_eq]; omega
      have h2 : (b :: rest).filter (fun b => decide (b.dt ≤ mainEnd)) = [] := by
        rw [List.filter_eq_nil_iff]
        intro c hc
        rw [List.mem_cons] at hc
        rcases hc with rfl | hc
        · simp only [decide_eq_true_eq]; omega
        · have := hrest c hc
          simp only [decide_eq_true_eq]; omega
      rw [h1, h2]; rfl
    · rw [if_neg (fun hc => hlate hc.1), if_neg (by simp), if_neg (by rw [hb.2.1]; simp), if_pos hb.1]
      simp only [Bool.not_true, Bool.false_eq_true, if_false]
      rw [ih (fun c hc => h c (by simp [hc])) hs.2]
      simp only
      rw [List.filter_cons_of_neg (by simpa using hlate), List.filter_cons_of_pos (by simp only [decide_eq_true_eq]; omega)]
      rfl

/-- A round over tracks other than the main track. -/
theorem dealRound_plain (main : Nat) (mainEnd master : Int) : ∀ (others : List Nat) (s : Nat → Trk), main ∉ others →
    others.Nodup → (∀ t ∈ others, (s t).from' = 0 ∧ (∀ b ∈ (s t).todo, Plain b) ∧ ((s t).todo.map (·.dt)).Pairwise (· ≤ ·)) →
    dealRound (fun _ _ => true) main mainEnd master others s =
      .ok ((fun u => if u ∈ others then ⟨(s u).todo.filter (fun b => decide (mainEnd < b.dt)), 0⟩ else s u),
        others.flatMap (fun t => ((s t).todo.filter (fun b => decide (b.dt ≤ mainEnd))).map (fun b => (t, b.frames))), false) := by
  intro others
  induction others with
  | nil => intro s _ _ _; simp [dealRound]
  | cons t ts ih =>
    intro s hm hnd h
    have hne : (t == main) = false := by
      simp only [List.mem_cons, not_or] at hm
      simp only [beq_eq_false_iff_ne, ne_eq]
      exact fun h => hm.1 h.symm
    obtain ⟨h0, h1, h2⟩ := h t (by simp)
    rw [List.nodup_cons] at hnd
    rw [dealRound, hne, h0, dealTrack_plain mainEnd master _ h1 h2]
    simp only
    rw [ih _ (by simp only [List.mem_cons, not_or] at hm; exact hm.2) hnd.2 (by
      intro u hu
      have e : u ≠ t := fun e => hnd.1 (e ▸ hu)
      simp only [e, if_false]
      exact h u (by simp [hu]))]
    simp only [Bool.or_false, Out.ok.injEq, Prod.mk.injEq, and_true]
    constructor
    · funext u
      by_cases e : u = t
      · subst e; simp [hnd.1]
      · simp [e]
    · rw [List.flatMap_cons, List.map_map]
      congr 1
      rw [List.flatMap_def, List.flatMap_def]
      congr 1
      apply List.map_congr_left
      intro u hu
      have e : u ≠ t := fun e => hnd.1 (e ▸ hu)
      simp only [e, if_false]

/-- The state when everything up to `lo` was dealt out and `rest` is left of the main track. -/
def stateAt (d : Nat → List RBlk) (others : List Nat) (main : Nat) (lo : Option Int) (rest : List RBlk) : Nat → Trk :=
  fun u => if u = main then ⟨rest, 0⟩ else if u ∈ others then ⟨(d u).filter (behind lo), 0⟩ else ⟨d u, 0⟩

/-- What one block of the main track brings along, up to `hi`. -/
def turn (d : Nat → List RBlk) (others : List Nat) (main : Nat) (lo : Option Int) (hi : Int) (b : RBlk) : List Piece :=
  others.flatMap (fun t => ((d t).filter (fun c => behind lo c && decide (c.dt ≤ hi))).map (fun c => (t, c.frames))) ++
    [(main, b.frames)]

/-- All of it. -/
def turns (d : Nat → List RBlk) (others : List Nat) (main : Nat) : Option Int → List RBlk → List (List Piece)
  | _, [] => []
  | lo, b :: rest => turn d others main lo (blockEnd (b :: rest)) b :: turns d others main (some (blockEnd (b :: rest))) rest

/-- Times never go back. -/
def UpTo (lo : Option Int) (hi : Int) : Prop := ∀ e, lo = some e → e ≤ hi

theorem filter_behind (lo : Option Int) (hi : Int) (h : UpTo lo hi) (l : List RBlk) :
    (l.filter (behind lo)).filter (fun b => decide (hi < b.dt)) = l.filter (behind (some hi)) := by
  rw [List.filter_filter]
  apply List.filter_congr
  intro b _
  cases lo with
  | none => simp [behind]
  | some e =>
    have := h e rfl
    rw [Bool.eq_iff_iff]
    simp only [behind, Bool.and_eq_true, decide_eq_true_eq]
    omega

theorem dealRound_turn (d : Nat → List RBlk) (others : List Nat) (main : Nat) (hm : main ∉ others) (hnd : others.Nodup)
    (hd : ∀ t ∈ others, (∀ b ∈ d t, Plain b) ∧ ((d t).map (·.dt)).Pairwise (· ≤ ·)) (lo : Option Int) (master : Int)
    (b : RBlk) (rest : List RBlk) (hb : b.frames ≠ []) (hlo : UpTo lo (blockEnd (b :: rest))) :
    dealRound (fun _ _ => true) main (blockEnd (b :: rest)) master (others ++ [main]) (stateAt d others main lo (b :: rest)) =
      .ok (stateAt d others main (some (blockEnd (b :: rest))) rest, turn d others main lo (blockEnd (b :: rest)) b,
        decide (blockEnd (b :: rest) = invalidTs ∨ blockEnd (b :: rest) = master)) := by
  have hne : ∀ t ∈ others, t ≠ main := fun t ht e => hm (e ▸ ht)
  rw [dealRound_append, dealRound_plain main _ master others _ hm hnd (by
    intro t ht
    simp only [stateAt, hne t ht, if_false, ht, if_true]
    refine ⟨trivial, fun c hc => (hd t ht).1 c (List.mem_filter.1 hc).1, ?_⟩
    exact (hd t ht).2.sublist (List.Sublist.map _ List.filter_sublist))]
  simp only [dealRound, beq_self_eq_true, hm, if_false]
  have hsm : stateAt d others main lo (b :: rest) main = ⟨b :: rest, 0⟩ := by simp [stateAt]
  rw [hsm]
  simp only
  rw [dealTrack_main _ _ _ _ _ hb]
  simp only [if_true, Bool.false_or, Bool.or_false, Out.ok.injEq, Prod.mk.injEq, and_true, List.append_nil, List.map_cons,
    List.map_nil]
  constructor
  · funext u
    by_cases e : u = main
    · subst e; simp [stateAt]
    · by_cases hu : u ∈ others
      · simp only [stateAt, e, if_false, hu, if_true]
        rw [filter_behind lo _ hlo]
      · simp only [stateAt, e, if_false, hu]
  · unfold turn
    congr 1
    rw [List.flatMap_def, List.flatMap_def]
    congr 1
    apply List.map_congr_left
    intro t ht
    simp only [stateAt, hne t ht, if_false, ht, if_true]
    rw [List.filter_filter]
    congr 1
    apply List.filter_congr
    intro c _
    rw [Bool.and_comm]

theorem upTo_end (b n : RBlk) (ds : List RBlk) (hs : ((b :: n :: ds).map (·.dt)).Pairwise (· < ·))
    (hv : ∀ c ∈ b :: n :: ds, c.dt < invalidTs) : UpTo (some (blockEnd (b :: n :: ds))) (blockEnd (n :: ds)) := by
  intro e he
  simp only [blockEnd, Option.some.injEq] at he
  subst he
  cases ds with
  | nil => simp only [blockEnd]; have := hv n (by simp); omega
  | cons m ds =>
    simp only [blockEnd]
    simp only [List.map_cons, List.pairwise_cons] at hs
    have := hs.2.1 m.dt (by simp)
    omega

/-- One Cluster takes the blocks of the main track up to the one at the next boundary. -/
theorem dealCluster_turns (d : Nat → List RBlk) (others : List Nat) (main : Nat) (hm : main ∉ others) (hnd : others.Nodup)
    (hd : ∀ t ∈ others, (∀ b ∈ d t, Plain b) ∧ ((d t).map (·.dt)).Pairwise (· ≤ ·)) (master : Int) (post : List RBlk)
    (hpost : ∀ n ∈ post.head?, n.dt = master) (hlast : post = [] → master = invalidTs) :
    ∀ (pre : List RBlk) (b : RBlk) (lo : Option Int) (fuel : Nat),
      ((b :: pre ++ post).map (·.dt)).Pairwise (· < ·) → (∀ c ∈ b :: pre ++ post, c.dt < invalidTs ∧ c.frames ≠ []) →
      UpTo lo (blockEnd (b :: pre ++ post)) → (∀ c ∈ pre, c.dt < master) → pre.length + 1 < fuel →
      ∃ hi out, dealCluster (fun _ _ => true) (others ++ [main]) main master fuel (stateAt d others main lo (b :: pre ++ post)) =
          .ok (stateAt d others main (some hi) post, out) ∧
        turns d others main lo (b :: pre ++ post) = (turns d others main lo (b :: pre ++ post)).take (pre.length + 1) ++
          turns d others main (some hi) post ∧
        out = ((turns d others main lo (b :: pre ++ post)).take (pre.length + 1)).flatten ∧
        (post ≠ [] → UpTo (some hi) (blockEnd post)) := by
  intro pre
  induction pre with
  | nil =>
    intro b lo fuel hs hv hlo _ hf
    obtain ⟨f, rfl⟩ : ∃ f, fuel = f + 1 := ⟨fuel - 1, by omega⟩
    simp only [List.cons_append, List.nil_append] at hs hv hlo ⊢
    rw [dealCluster]
    have hsm : (stateAt d others main lo (b :: post) main).todo = b :: post := by simp [stateAt]
    rw [hsm]
    simp only [reduceCtorEq, if_false]
    rw [dealRound_turn d others main hm hnd hd lo master b post (hv b (by simp)).2 hlo]
    simp only
    have hend : blockEnd (b :: post) = master := by
      cases post with
      | nil => simp only [blockEnd]; exact (hlast rfl).symm
      | cons n ds => simp only [blockEnd]; exact hpost n (by simp)
    rw [if_pos (by simp [hend])]
    refine ⟨blockEnd (b :: post), _, rfl, ?_, ?_, ?_⟩
    · simp [turns]
    · simp [turns]
    · intro hne
      cases post with
      | nil => exact absurd rfl hne
      | cons n ds => exact upTo_end b n ds hs (fun c hc => (hv c hc).1)
  | cons n pre ih =>
    intro b lo fuel hs hv hlo hlt hf
    obtain ⟨f, rfl⟩ : ∃ f, fuel = f + 1 := ⟨fuel - 1, by omega⟩
    simp only [List.cons_append] at hs hv hlo ⊢
    rw [dealCluster]
    have hsm : (stateAt d others main lo (b :: n :: (pre ++ post)) main).todo = b :: n :: (pre ++ post) := by simp [stateAt]
    rw [hsm]
    simp only [reduceCtorEq, if_false]
    rw [dealRound_turn d others main hm hnd hd lo master b _ (hv b (by simp)).2 hlo]
    simp only
    have h1 := hlt n (by simp)
    have h2 := (hv n (by simp)).1
    rw [if_neg (by rw [decide_eq_true_eq]; simp only [blockEnd]; omega)]
    obtain ⟨hi, out, e1, e2, e3, e4⟩ := ih n (some (blockEnd (b :: n :: (pre ++ post)))) f
      (by rw [List.map_cons, List.pairwise_cons] at hs; exact hs.2)
      (fun c hc => hv c (List.mem_cons_of_mem _ hc))
      (upTo_end b n _ hs (fun c hc => (hv c hc).1))
      (fun c hc => hlt c (by simp [hc])) (by simp only [List.length_cons] at hf; omega)
    simp only [List.cons_append] at e1 e2 e3
    rw [e1]
    refine ⟨hi, _, rfl, ?_, ?_, e4⟩
    · rw [turns, List.length_cons, List.take_succ_cons, List.cons_append, ← e2]
    · rw [turns, List.length_cons, List.take_succ_cons, List.flatten_cons, ← e3]

/-- The main track's blocks in some turns. -/
theorem turn_main (d : Nat → List RBlk) (others : List Nat) (main : Nat) (hm : main ∉ others) (lo : Option Int) (hi : Int)
    (b : RBlk) : (turn d others main lo hi b).filter (fun p => p.1 = main) = [(main, b.frames)] := by
  unfold turn
  rw [List.filter_append]
  have : (others.flatMap (fun t => ((d t).filter (fun c => behind lo c && decide (c.dt ≤ hi))).map
      (fun c => (t, c.frames)))).filter (fun p => decide (p.1 = main)) = [] := by
    rw [List.filter_eq_nil_iff]
    intro p hp
    rw [List.mem_flatMap] at hp
    obtain ⟨t, ht, hp⟩ := hp
    rw [List.mem_map] at hp
    obtain ⟨c, _, rfl⟩ := hp
    simp only [decide_eq_true_eq]
    exact fun e => hm (e ▸ ht)
  rw [this]
  simp

theorem turn_other (d : Nat → List RBlk) (main : Nat) (lo : Option Int) (hi : Int)
    (b : RBlk) (t : Nat) (hne : main ≠ t) : ∀ (others : List Nat), others.Nodup → t ∈ others →
    (turn d others main lo hi b).filter (fun p => p.1 = t) =
      ((d t).filter (fun c => behind lo c && decide (c.dt ≤ hi))).map (fun c => (t, c.frames)) := by
  have key : ∀ (others : List Nat), others.Nodup → (others.flatMap (fun t => ((d t).filter (fun c => behind lo c && decide (c.dt ≤ hi))).map
      (fun c => (t, c.frames)))).filter (fun p => decide (p.1 = t)) = if t ∈ others then
        ((d t).filter (fun c => behind lo c && decide (c.dt ≤ hi))).map (fun c => (t, c.frames)) else [] := by
    intro others
    induction others with
    | nil => intro _; rfl
    | cons u us ih =>
      intro hnd
      rw [List.nodup_cons] at hnd
      rw [List.flatMap_cons, List.filter_append, ih hnd.2]
      by_cases e : u = t
      · subst e
        simp only [hnd.1, if_false, List.append_nil, List.mem_cons, true_or, if_true]
        rw [List.filter_eq_self]
        intro p hp
        rw [List.mem_map] at hp
        obtain ⟨c, _, rfl⟩ := hp
        simp
      · have e' : ¬ t = u := fun h => e h.symm
        have : ((((d u).filter (fun c => behind lo c && decide (c.dt ≤ hi))).map (fun c => (u, c.frames))).filter
            (fun p => decide (p.1 = t))) = [] := by
          rw [List.filter_eq_nil_iff]
          intro p hp
          rw [List.mem_map] at hp
          obtain ⟨c, _, rfl⟩ := hp
          simp [e]
        rw [this]
        simp [e']
  intro others hnd ht
  unfold turn
  rw [List.filter_append, key others hnd, if_pos ht]
  simp [hne]

theorem turns_length (d : Nat → List RBlk) (others : List Nat) (main : Nat) : ∀ (l : List RBlk) (lo : Option Int),
    (turns d others main lo l).length = l.length := by
  intro l
  induction l with
  | nil => intro _; rfl
  | cons b l ih => intro lo; simp [turns, ih]

theorem turns_take_main (d : Nat → List RBlk) (others : List Nat) (main : Nat) (hm : main ∉ others) : ∀ (l : List RBlk)
    (k : Nat) (lo : Option Int), (((turns d others main lo l).take k).flatten.filter (fun p => p.1 = main)).map (·.2) =
      (l.take k).map (·.frames) := by
  intro l
  induction l with
  | nil => intro k lo; simp [turns]
  | cons b l ih =>
    intro k lo
    cases k with
    | zero => simp
    | succ k =>
      rw [turns, List.take_succ_cons, List.flatten_cons, List.filter_append, turn_main d others main hm, List.map_append, ih]
      simp

/-- In a list in order, what is up to a time stands before what is behind it. -/
theorem filter_split (p : RBlk → Bool) (e : Int) : ∀ (l : List RBlk), (l.map (·.dt)).Pairwise (· ≤ ·) →
    l.filter (fun c => p c && decide (c.dt ≤ e)) ++ l.filter (fun c => p c && decide (e < c.dt)) = l.filter p := by
  intro l
  induction l with
  | nil => intro _; rfl
  | cons b l ih =>
    intro hs
    rw [List.map_cons, List.pairwise_cons] at hs
    have hge : ∀ c ∈ l, b.dt ≤ c.dt := fun c hc => hs.1 c.dt (List.mem_map.2 ⟨c, hc, rfl⟩)
    by_cases h : b.dt ≤ e
    · have hn : ¬ e < b.dt := by omega
      cases hp : p b with
      | true => simp only [List.filter_cons, hp, h, hn, decide_true, decide_false, Bool.and_true, Bool.and_false, if_true, Bool.false_eq_true, if_false, List.cons_append, ih hs.2]
      | false => simp only [List.filter_cons, hp, Bool.false_and, Bool.false_eq_true, if_false, ih hs.2]
    · have h1 : (b :: l).filter (fun c => p c && decide (c.dt ≤ e)) = [] := by
        rw [List.filter_eq_nil_iff]
        intro c hc
        have : b.dt ≤ c.dt := by
          rw [List.mem_cons] at hc
          rcases hc with rfl | hc
          · exact Int.le_refl _
          · exact hge c hc
        simp only [Bool.and_eq_true, decide_eq_true_eq, not_and]
        omega
      rw [h1, List.nil_append]
      apply List.filter_congr
      intro c hc
      have : b.dt ≤ c.dt := by
        rw [List.mem_cons] at hc
        rcases hc with rfl | hc
        · exact Int.le_refl _
        · exact hge c hc
      have h3 : e < c.dt := by omega
      simp [h3]

/-- What stands before a block of the main track. -/
theorem turns_at (d : Nat → List RBlk) (others : List Nat) (main : Nat) (hm : main ∉ others) (hnd : others.Nodup)
    (hd : ∀ t ∈ others, ((d t).map (·.dt)).Pairwise (· ≤ ·)) : ∀ (l : List RBlk) (lo : Option Int) (j : Nat) (b : RBlk),
    (l.map (·.dt)).Pairwise (· < ·) → (∀ c ∈ l, c.dt < invalidTs) → UpTo lo (blockEnd l) → l[j]? = some b →
    ∃ before after, (turns d others main lo l).flatten = before ++ (main, b.frames) :: after ∧
      (before.filter (fun p => p.1 = main)).map (·.2) = (l.take j).map (·.frames) ∧
      ∀ t ∈ others, (before.filter (fun p => p.1 = t)).map (·.2) =
        ((d t).filter (fun c => behind lo c && decide (c.dt ≤ blockEnd (l.drop j)))).map (·.frames) := by
  intro l
  induction l with
  | nil => intro lo j b _ _ _ h; simp at h
  | cons x l ih =>
    intro lo j b hs hv hlo hj
    have hne : ∀ t ∈ others, main ≠ t := fun t ht e => hm (e ▸ ht)
    cases j with
    | zero =>
      simp only [List.getElem?_cons_zero, Option.some.injEq] at hj
      subst hj
      have hf := turn_main d others main hm lo (blockEnd (x :: l)) x
      refine ⟨others.flatMap (fun t => ((d t).filter (fun c => behind lo c && decide (c.dt ≤ blockEnd (x :: l)))).map (fun c => (t, c.frames))),
        (turns d others main (some (blockEnd (x :: l))) l).flatten, ?_, ?_, ?_⟩
      · rw [turns, List.flatten_cons, turn, List.append_assoc]; rfl
      · unfold turn at hf
        rw [List.filter_append] at hf
        have hl := congrArg List.length hf
        simp only [List.filter_cons, decide_true, if_true, List.filter_nil, List.length_append, List.length_cons, List.length_nil] at hl
        have hnil : ∀ l : List Piece, l.length + 1 = 1 → l = [] := fun l h => List.eq_nil_of_length_eq_zero (by omega)
        rw [hnil _ hl]; rfl
      · intro t ht
        have ho := turn_other d main lo (blockEnd (x :: l)) x t (hne t ht) others hnd ht
        unfold turn at ho
        rw [List.filter_append] at ho
        simp only [List.filter_cons, hne t ht, decide_false, Bool.false_eq_true, if_false, List.filter_nil, List.append_nil] at ho
        rw [ho, List.map_map]; rfl
    | succ j =>
      simp only [List.getElem?_cons_succ] at hj
      cases l with
      | nil => simp at hj
      | cons y l =>
      obtain ⟨before, after, h1, h2, h3⟩ := ih (some (blockEnd (x :: y :: l))) j b
        (by rw [List.map_cons, List.pairwise_cons] at hs; exact hs.2) (fun c hc => hv c (by simp [hc]))
        (upTo_end x y l hs hv) hj
      refine ⟨turn d others main lo (blockEnd (x :: y :: l)) x ++ before, after, ?_, ?_, ?_⟩
      · rw [turns, List.flatten_cons, h1, List.append_assoc]
      · rw [List.filter_append, turn_main d others main hm, List.map_append, h2]
        simp
      · intro t ht
        rw [List.filter_append, turn_other d main _ _ _ t (hne t ht) others hnd ht, List.map_append, h3 t ht, List.drop_succ_cons,
          List.map_map]
        have hle : y.dt ≤ blockEnd ((y :: l).drop j) := by
          clear ih h1 h2 h3
          have hj' : j < (y :: l).length := (List.getElem?_eq_some_iff.1 hj).1
          rw [List.drop_eq_getElem_cons hj']
          by_cases hj2 : j + 1 < (y :: l).length
          · rw [List.drop_eq_getElem_cons hj2]
            simp only [blockEnd]
            rw [List.map_cons, List.pairwise_cons] at hs
            have := (List.pairwise_iff_getElem.1 hs.2) 0 (j+1) (by simp) (by simpa using hj2) (by omega)
            simp at this ⊢
            omega
          · rw [List.drop_eq_nil_of_le (by omega)]
            simp only [blockEnd]
            have := hv y (by simp)
            omega
        rw [← filter_split (fun c => behind lo c && decide (c.dt ≤ blockEnd ((y :: l).drop j))) y.dt (d t) (hd t ht), List.map_append]
        have hly := hlo
        simp only [blockEnd] at hly
        congr 1
        · show List.map RBlk.frames _ = _
          congr 1
          apply List.filter_congr
          intro c _
          rw [Bool.eq_iff_iff]
          simp only [Bool.and_eq_true, decide_eq_true_eq]
          have hxy : blockEnd (x :: y :: l) = y.dt := rfl
          rw [hxy]
          constructor
          · rintro ⟨h, h'⟩; exact ⟨⟨h, by omega⟩, h'⟩
          · rintro ⟨⟨h, _⟩, h'⟩; exact ⟨h, h'⟩
        · congr 1
          apply List.filter_congr
          intro c _
          rw [Bool.eq_iff_iff]
          have hxy : blockEnd (x :: y :: l) = y.dt := rfl
          simp only [hxy]
          rw [Bool.and_eq_true, Bool.and_eq_true, Bool.and_eq_true]
          simp only [behind, decide_eq_true_eq]
          constructor
          · rintro ⟨h, h'⟩
            refine ⟨⟨?_, h'⟩, h⟩
            cases lo with
            | none => rfl
            | some e => have := hly e rfl; simp only [behind, decide_eq_true_eq]; omega
          · rintro ⟨⟨_, h'⟩, h⟩; exact ⟨h, h'⟩

end Verif.Mkclean
