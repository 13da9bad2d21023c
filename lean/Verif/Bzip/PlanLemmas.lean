import Verif.Bzip.TripLemmas
/-!
Any data can be written as a stream of the format.
-/
namespace Verif.Bzip
open Verif Verif.Mkv

/-- One byte in front of pieces. -/
def addPiece (x : Nat) : List (Nat × Nat) → List (Nat × Nat)
  | [] => [(x, 1)]
  | (y, n) :: ps => if x = y then if n < 259 then (y, n + 1) :: ps else (y, 4) :: (y, 256) :: ps else (x, 1) :: (y, n) :: ps

/-- Data in pieces. -/
def pieces (data : List Nat) : List (Nat × Nat) := data.foldr addPiece []

theorem addPiece_spec (x : Nat) (hx : x < 256) (ps : List (Nat × Nat)) (h : Spec.RunsOk ps) :
    Spec.RunsOk (addPiece x ps) ∧ (addPiece x ps).flatMap Spec.unrun = x :: ps.flatMap Spec.unrun := by
  match ps, h with
  | [], _ => exact ⟨⟨hx, by simp, by simp, by simp, trivial⟩, rfl⟩
  | (y, n) :: ps, h =>
    obtain ⟨h1, h2, h3, h4, h5⟩ := h
    simp only at h1 h2 h3 h4
    rw [addPiece]
    by_cases e : x = y
    · subst e
      rw [if_pos rfl]
      by_cases hn : n < 259
      · rw [if_pos hn]
        refine ⟨⟨h1, by simp, by simp only; omega, fun h => h4 (by simp only at h; omega), h5⟩, ?_⟩
        simp only [List.flatMap_cons, Spec.unrun, List.replicate_succ, List.cons_append]
      · rw [if_neg hn]
        refine ⟨⟨h1, by simp, by simp, by simp, h1, by simp, by simp, by simp, h5⟩, ?_⟩
        have : n = 259 := by omega
        subst this
        simp only [List.flatMap_cons, Spec.unrun]
        rw [← List.append_assoc, List.replicate_append_replicate, ← List.cons_append, ← List.replicate_succ]
    · rw [if_neg e]
      refine ⟨⟨hx, by simp, by simp, fun _ q hq => ?_, h1, h2, h3, h4, h5⟩, ?_⟩
      · simp only [List.head?_cons, Option.mem_def, Option.some.injEq] at hq
        rw [← hq]
        exact fun h => e h.symm
      · simp only [List.flatMap_cons, Spec.unrun, List.replicate_succ, List.replicate_zero, List.cons_append, List.nil_append]

theorem pieces_spec (data : List Nat) (h : ∀ b ∈ data, b < 256) : Spec.RunsOk (pieces data) ∧ (pieces data).flatMap Spec.unrun = data := by
  induction data with
  | nil => exact ⟨trivial, rfl⟩
  | cons x xs ih =>
    obtain ⟨h1, h2⟩ := ih fun b hb => h b (by simp [hb])
    obtain ⟨h3, h4⟩ := addPiece_spec x (h x (by simp)) (pieces xs) h1
    exact ⟨h3, by show (addPiece x (pieces xs)).flatMap Spec.unrun = _; rw [h4, h2]⟩

theorem run_length_le (p : Nat × Nat) : 4 * (Spec.run p).length ≤ 5 * (Spec.unrun p).length := by
  rw [Spec.run, Spec.unrun]
  split <;> simp only [List.length_append, List.length_replicate, List.length_cons, List.length_nil] <;> omega

theorem runs_length_le (ps : List (Nat × Nat)) : 4 * (ps.flatMap Spec.run).length ≤ 5 * (ps.flatMap Spec.unrun).length := by
  induction ps with
  | nil => simp
  | cons p ps ih =>
    rw [List.flatMap_cons, List.flatMap_cons, List.length_append, List.length_append]
    have := run_length_le p
    omega

theorem runs_text_lt (ps : List (Nat × Nat)) (h : Spec.RunsOk ps) : ∀ x ∈ ps.flatMap Spec.run, x < 256 := by
  induction ps with
  | nil => simp
  | cons p ps ih =>
    intro x hx
    rw [List.flatMap_cons] at hx
    obtain ⟨h1, h2, h3, h4, h5⟩ := h
    rcases List.mem_append.mp hx with hx | hx
    · rw [Spec.run] at hx
      split at hx
      · rw [(List.mem_replicate.mp hx).2]; exact h1
      · rcases List.mem_append.mp hx with hx | hx
        · rw [(List.mem_replicate.mp hx).2]; exact h1
        · rw [List.mem_singleton.mp hx]; omega
    · exact ih h5 x hx

theorem digits_length (n : Nat) : (Spec.digits n).length ≤ n := by
  induction n using Nat.strongRecOn with
  | _ n ih =>
    rw [Spec.digits]
    split
    · simp
    · split
      · have := ih ((n - 1) / 2) (by omega)
        simp only [List.length_cons]; omega
      · have := ih ((n - 2) / 2) (by omega)
        simp only [List.length_cons]; omega

theorem symbols_length (ps : List Nat) : ∀ z, (Spec.symbols z ps).length ≤ z + ps.length := by
  induction ps with
  | nil => intro z; exact digits_length z
  | cons p ps ih =>
    intro z
    cases p with
    | zero =>
      have := ih (z + 1)
      rw [Spec.symbols, List.length_cons]; omega
    | succ p =>
      have h1 := ih 0
      have h2 := digits_length z
      rw [Spec.symbols, List.length_append, List.length_cons, List.length_cons]; omega

/-- Numbers below. -/
@[irreducible] def upto (n : Nat) : List Nat := List.range n

/-- Nine bits for every symbol. -/
@[irreducible] def nines : List Nat := List.replicate 258 9

/-- A block for any data: all bytes in the map, two tables with all codes of nine bits. -/
def plainBlock (data : List Nat) : Spec.Block :=
  let t := (pieces data).flatMap Spec.run
  { runs := pieces data
    rand := false
    rows := (List.range t.length).mergeSort fun i j => decide (Spec.rot t i ≤ Spec.rot t j)
    used := upto 256
    tabs := [nines, nines]
    sel := List.replicate (t.length / 50 + 1) 0 }

theorem plainBlock_text (data : List Nat) : (plainBlock data).text = (pieces data).flatMap Spec.run := rfl

theorem plainBlock_used (data : List Nat) : (plainBlock data).used = upto 256 := rfl

theorem plainBlock_tabs (data : List Nat) : (plainBlock data).tabs = [nines, nines] := rfl

theorem plainBlock_sel (data : List Nat) : (plainBlock data).sel = List.replicate (((pieces data).flatMap Spec.run).length / 50 + 1) 0 := rfl

theorem upto_length (n : Nat) : (upto n).length = n := by rw [upto]; exact List.length_range

theorem upto_pairwise (n : Nat) : (upto n).Pairwise (· < ·) := by rw [upto]; exact List.pairwise_lt_range

theorem mem_upto (n u : Nat) : u ∈ upto n ↔ u < n := by rw [upto]; exact List.mem_range

theorem nines_lens : Spec.Lens 258 nines :=
  ⟨by rw [nines]; exact List.length_replicate, fun l hl => by rw [nines] at hl; rw [(List.mem_replicate.mp hl).2]; omega, by rw [nines]; decide +kernel⟩

theorem plainBlock_sorted (data : List Nat) : Spec.Sorted (plainBlock data).text (plainBlock data).rows := by
  rw [plainBlock_text]
  refine ⟨List.mergeSort_perm _ _, ?_⟩
  have := List.pairwise_mergeSort (le := fun i j => decide (Spec.rot ((pieces data).flatMap Spec.run) i ≤ Spec.rot ((pieces data).flatMap Spec.run) j))
    (fun a b c h1 h2 => by simp only [decide_eq_true_eq] at *; exact List.le_trans h1 h2)
    (fun a b => by simp only [Bool.or_eq_true, decide_eq_true_eq]; exact List.le_total _ _) (List.range ((pieces data).flatMap Spec.run).length)
  exact this.imp fun h => by simpa using h

theorem plainBlock_ok (size : Nat) (h9 : size ≤ 9) (data : List Nat) (h : ∀ b ∈ data, b < 256) (hne : data ≠ []) (hlen : data.length ≤ 80000 * size) :
    (plainBlock data).Ok size ∧ (plainBlock data).data = data := by
  obtain ⟨hr, hd⟩ := pieces_spec data h
  have hl := runs_length_le (pieces data)
  rw [hd] at hl
  have hpos : 0 < ((pieces data).flatMap Spec.run).length := by
    cases hp : pieces data with
    | nil => rw [hp] at hd; exact absurd hd.symm hne
    | cons p ps =>
      rw [hp] at hr
      rw [List.flatMap_cons, run_ne p hr.2.1]; simp
  have hsyms : (plainBlock data).syms.length ≤ ((pieces data).flatMap Spec.run).length + 1 := by
    rw [Spec.Block.syms, List.length_append, List.length_singleton]
    have h1 := symbols_length (Spec.positions (List.range (plainBlock data).used.length) ((Spec.lastColumn (plainBlock data).text (plainBlock data).rows).map
      fun c => (plainBlock data).used.idxOf c)) 0
    have h2 := (plainBlock_sorted data).perm.length_eq
    rw [List.length_range, plainBlock_text] at h2
    have h3 : (Spec.lastColumn (plainBlock data).text (plainBlock data).rows).length = (plainBlock data).rows.length := List.length_map _
    rw [positions_length, List.length_map, h3, h2] at h1
    omega
  have hsel : (plainBlock data).sel.length = ((pieces data).flatMap Spec.run).length / 50 + 1 := by rw [plainBlock_sel, List.length_replicate]
  constructor
  · constructor
    · exact hr
    · rw [plainBlock_text]; exact hpos
    · rw [plainBlock_text]
      generalize ((pieces data).flatMap Spec.run).length = a at *
      clear hsyms hr hd
      omega
    · exact plainBlock_sorted data
    · rw [plainBlock_used]; exact upto_pairwise 256
    · intro u hu; rw [plainBlock_used] at hu; exact (mem_upto 256 u).mp hu
    · intro c hc
      rw [plainBlock_text] at hc
      rw [plainBlock_used]
      exact (mem_upto 256 c).mpr (runs_text_lt _ hr c hc)
    · rw [plainBlock_tabs]; exact Nat.le_refl 2
    · rw [plainBlock_tabs]; exact Nat.le_add_left 2 4
    · intro t ht
      rw [plainBlock_tabs] at ht
      rw [plainBlock_used, upto_length]
      rcases List.mem_cons.mp ht with rfl | ht
      · exact nines_lens
      · rw [List.mem_singleton.mp ht]; exact nines_lens
    · intro s hs
      rw [plainBlock_sel] at hs
      rw [(List.mem_replicate.mp hs).2, plainBlock_tabs]; exact Nat.zero_lt_two
    · rw [hsel]; omega
    · rw [hsel]; omega
  · exact hd

theorem blocks_exist (size : Nat) (h1 : 1 ≤ size) (h9 : size ≤ 9) (n : Nat) : ∀ data : List Nat, data.length < n → (∀ b ∈ data, b < 256) →
    ∃ bs : List Spec.Block, (∀ b ∈ bs, b.Ok size) ∧ bs.flatMap Spec.Block.data = data := by
  induction n with
  | zero => intro data h; omega
  | succ n ih =>
    intro data hn h
    by_cases hne : data = []
    · exact ⟨[], by simp, by rw [hne]; rfl⟩
    · have hpos := List.length_pos_iff.mpr hne
      obtain ⟨bs, hb, hd⟩ := ih (data.drop (80000 * size)) (by rw [List.length_drop]; omega) fun b hb => h b (List.mem_of_mem_drop hb)
      obtain ⟨hok, hdata⟩ := plainBlock_ok size h9 (data.take (80000 * size)) (fun b hb => h b (List.mem_of_mem_take hb))
        (fun e => by have := congrArg List.length e; rw [List.length_take, List.length_nil] at this; omega) (by rw [List.length_take]; omega)
      refine ⟨plainBlock (data.take (80000 * size)) :: bs, fun b hb' => ?_, ?_⟩
      · rcases List.mem_cons.mp hb' with rfl | hb'
        · exact hok
        · exact hb b hb'
      · rw [List.flatMap_cons, hdata, hd, List.take_append_drop]

end Verif.Bzip
