import Verif.Vorbis.BookLemmas

/-! Lemmas on floors, residues, mappings: what reading them can end in, and what is accepted. -/

namespace Verif.Vorbis

open Verif

/-- The ways floors are not read. -/
def FloorCrash (c : Crash) : Prop := c = .posts ∨ c = .partition ∨ c = .maskIndex ∨ c = .shift

theorem floorBook_sat (C : Crash → Prop) (books : Int) (j : Nat) (h : j < 16) :
    Sat C (floorBook books j) (fun b => In b 0 books) fun _ => True :=
  Sat.bind (Sat.chk (Or.inl (by simpa using h))) fun _ _ => Sat.bind (Sat.rd _ 8) fun _ _ =>
    Sat.bind (Sat.need _ _) fun _ h => Sat.pure (of_decide_eq_true h) fun _ _ _ => trivial

theorem unpackFloor0_sat (C : Crash → Prop) (books : Nat) : Sat C (unpackFloor0 books) (fun _ => True) fun f => f.Ok books := by
  refine Sat.bind (Sat.rd _ 8) fun order h1 => Sat.bind (Sat.rd _ 16) fun rate h2 => Sat.bind (Sat.rd _ 16) fun barkmap h3 =>
    Sat.bind (Sat.rd _ 6) fun ampbits h4 => Sat.bind (Sat.rd _ 8) fun ampdB h5 => Sat.bind (Sat.rd _ 4) fun numbooks h6 =>
    Sat.bind (Sat.need _ _) fun _ h7 => ?_
  have h7 := of_decide_eq_true h7
  refine Sat.bind (Sat.each _ _ fun k _ hk => floorBook_sat C books k (by omega)) fun l h8 => Sat.pure trivial ?_
  intro _ _ g6 g5 g4 g3 g2 g1
  exact ⟨⟨h7.1, h1.2⟩, ⟨h7.2.1, h2.2⟩, ⟨h7.2.2.1, h3.2⟩, ⟨g4, h4.2⟩, ⟨g5, h5.2⟩, ⟨by simp only; omega, by simp only; omega⟩, h8.2⟩

theorem subBook_sat (C : Crash → Prop) (books : Int) (k : Nat) (h : k < 8) :
    Sat C (subBook books k) (fun b => In b (-1) (min books 255)) fun _ => True := by
  refine Sat.bind (Sat.chk (Or.inl (by simpa using h))) fun _ _ => Sat.bind (Sat.rd _ 8) fun _ h1 =>
    Sat.bind (Sat.need _ _) fun _ h => Sat.pure ?_ fun _ _ _ => trivial
  have h := of_decide_eq_true h
  exact ⟨h.1, by omega⟩

theorem unpackClass_sat (C : Crash → Prop) (books : Nat) (j : Nat) (h : j < 16) :
    Sat C (unpackClass books j) (fun c => 0 ≤ c.dim) fun c => c.Ok books := by
  refine Sat.bind (Sat.chk (Or.inl (by simpa using h))) fun _ _ => Sat.bind (Sat.rd _ 3) fun dim h1 =>
    Sat.bind (Sat.rd _ 2) fun subs h2 => Sat.bind (Sat.need _ _) fun _ h3 => ?_
  have h3 := of_decide_eq_true h3
  refine Sat.bind (Q := fun b => subs = 0 → b = 0) (R := fun _ => True) (Sat.ite (fun h => ?_) fun h => ?_) fun book h4 => ?_
  · exact Sat.mono (Sat.rd _ 8) (fun _ h => h) (fun a _ e => absurd e h) fun _ _ _ => trivial
  · exact Sat.pure (fun _ => rfl) trivial
  · refine Sat.bind (Sat.need _ _) fun _ h5 => Sat.bind (Sat.each _ _ fun k _ hk => subBook_sat C books k ?_) fun l h6 =>
      Sat.pure (by simp only; omega) ?_
    · have : subs.toNat ≤ 3 := by omega
      have := Nat.pow_le_pow_right (show 0 < 2 by decide) this
      omega
    · intro _ _ _ _ g2 g1 _
      exact ⟨⟨by simp only; omega, by simp only; omega⟩, ⟨h3, by simp only; omega⟩, of_decide_eq_true h5, h4, h6.1, h6.2⟩

theorem unpackPart_sat (C : Crash → Prop) (j : Nat) (h : j < 31) :
    Sat C (unpackPart j) (fun c => -1 ≤ c ∧ c < 16) fun c => 0 ≤ c :=
  Sat.bind (Sat.chk (Or.inl (by simpa using h))) fun _ _ => Sat.mono (Sat.rd _ 4) (fun _ h => h) (fun _ h => by simpa using h)
    fun _ _ h _ => h

theorem unpackPost_sat (C : Crash → Prop) (hC : ∀ c, FloorCrash c → C c) (rangebits : Int) (k : Nat) :
    Sat C (unpackPost rangebits k) (fun t => In t 0 (2 ^ rangebits.toNat) ∧ k < 63) fun _ => True := by
  refine Sat.bind (Sat.rdI (hC _ (by simp [FloorCrash]))) fun t _ => Sat.bind (Sat.chk (Or.inr (hC _ (by simp [FloorCrash])))) fun _ h1 =>
    Sat.bind (Sat.need _ _) fun _ h2 => Sat.pure ⟨of_decide_eq_true h2, ?_⟩ fun _ _ _ => trivial
  have := of_decide_eq_true h1
  omega

theorem eachPost_sat (C : Crash → Prop) (hC : ∀ c, FloorCrash c → C c) (rangebits : Int) (n : Nat) : ∀ k, k ≤ 63 →
    Sat C (each (unpackPost rangebits) n k) (fun l => l.length = n ∧ k + n ≤ 63 ∧ ∀ t ∈ l, In t 0 (2 ^ rangebits.toNat)) fun _ => True := by
  induction n with
  | zero => intro k hk; exact Sat.pure ⟨rfl, by omega, by simp⟩ trivial
  | succ n ih =>
    intro k hk
    refine Sat.bind (unpackPost_sat C hC rangebits k) fun t ht => Sat.bind (ih (k + 1) (by omega)) fun l hl =>
      Sat.pure ⟨by simp [hl.1], by omega, ?_⟩ fun _ _ => trivial
    simpa using ⟨ht.1, hl.2.2⟩

theorem unpackPosts_sat (C : Crash → Prop) (hC : ∀ c, FloorCrash c → C c) (classes : List PClass) (rangebits : Int)
    : ∀ (parts : List Int) (k : Nat), k ≤ 63 →
    Sat C (unpackPosts classes rangebits parts k) (fun l => l.length = postCount classes parts ∧ k + l.length ≤ 63 ∧
      (∀ t ∈ l, In t 0 (2 ^ rangebits.toNat)) ∧ ∀ c ∈ parts, 0 ≤ c) fun _ => True := by
  intro parts
  induction parts with
  | nil => intro k hk; exact Sat.pure ⟨rfl, by simpa using hk, by simp, by simp⟩ trivial
  | cons c cs ih =>
    intro k hk
    refine Sat.bind (Sat.chk (Or.inr (hC _ (by simp [FloorCrash])))) fun _ h1 =>
      Sat.bind (eachPost_sat C hC rangebits _ k hk) fun here h2 =>
      Sat.bind (ih (k + here.length) (by omega)) fun rest h3 => Sat.pure ⟨?_, ?_, ?_, ?_⟩ fun _ _ _ => trivial
    · rw [List.length_append, h2.1, h3.1, postCount, postCount, List.map_cons, List.sum_cons]
      congr 1
      cases classes[c.toNat]? <;> rfl
    · rw [List.length_append]; omega
    · intro t ht
      rw [List.mem_append] at ht
      exact ht.elim (h2.2.2 t) (h3.2.2.1 t)
    · have := of_decide_eq_true h1
      simpa using ⟨this.1, h3.2.2.2⟩

theorem foldl_max (l : List Int) : ∀ a, a ≤ l.foldl max a ∧ (∀ c ∈ l, c ≤ l.foldl max a) ∧ (l.foldl max a = a ∨ l.foldl max a ∈ l) := by
  induction l with
  | nil => intro a; simp
  | cons c l ih =>
    intro a
    obtain ⟨h1, h2, h3⟩ := ih (max a c)
    refine ⟨by simp only [List.foldl_cons]; omega, ?_, ?_⟩
    · intro d hd
      simp only [List.foldl_cons]
      rcases List.mem_cons.1 hd with rfl | hd
      · omega
      · exact h2 d hd
    · simp only [List.foldl_cons]
      rcases h3 with h3 | h3
      · rw [h3]
        by_cases h : a ≤ c
        · exact Or.inr (by rw [Int.max_eq_right h]; simp)
        · exact Or.inl (by omega)
      · exact Or.inr (by simp [h3])

theorem unpackFloor1_sat (C : Crash → Prop) (hC : ∀ c, FloorCrash c → C c) (books : Nat) :
    Sat C (unpackFloor1 books) (fun _ => True) fun f => f.Ok books := by
  refine Sat.bind (Sat.rd _ 5) fun partitions h1 => Sat.bind (Sat.each _ _ fun k _ hk => unpackPart_sat C k (by omega)) fun parts h2 => ?_
  obtain ⟨m1, m2, m3⟩ := foldl_max parts (-1)
  have m4 : parts.foldl max (-1) < 16 := by
    rcases m3 with m3 | m3
    · omega
    · exact (h2.2 _ m3).2
  refine Sat.bind (Sat.each _ _ fun k _ hk => unpackClass_sat C books k (by omega)) fun classes h3 =>
    Sat.bind (Sat.rd _ 2) fun mult h4 => Sat.bind (Sat.rd _ 4) fun rangebits h5 =>
    Sat.bind (unpackPosts_sat C hC classes rangebits parts 0 (by omega)) fun posts h6 =>
    Sat.bind (Sat.chk (Or.inr (hC _ (by simp [FloorCrash])))) fun _ _ => Sat.pure trivial ?_
  intro _ _ g5 g4 g3 g2 g1
  refine ⟨by simp only; omega, ?_, ?_, by simp only; omega, g3, ⟨by simp only; omega, by simp only; omega⟩, ⟨g5, by simpa using h5.2⟩, h6.1,
    by simp only; omega, h6.2.2.1⟩
  · intro c hc
    have := m2 c hc
    exact ⟨h6.2.2.2 c hc, by simp only; omega⟩
  · intro hne
    simp only at hne ⊢
    have : 0 < classes.length := List.length_pos_iff.2 hne
    rcases m3 with m3 | m3
    · omega
    · rwa [show (classes.length : Int) - 1 = parts.foldl max (-1) by omega]

/-! ## Residues -/

theorem icount_zero : icount 0 = 0 := by rw [icount]

theorem icount_eq (n : Nat) : icount n = n % 2 + icount (n / 2) := by
  cases n with
  | zero => simp [icount_zero]
  | succ n => rw [icount]

theorem icount_ones (n : Nat) (h : n < 256) : icount n = ones n := by
  have hd : ∀ m : Fin 256, icount m.val = ones m.val := by decide +kernel
  exact hd ⟨n, h⟩

/-- The ways residues are not read. -/
def ResidueCrash (c : Crash) : Prop := c = .booklist

theorem unpackStage_sat (C : Crash → Prop) (j : Nat) (h : j < 64) : Sat C (unpackStage j) (fun _ => True) fun s => s < 256 := by
  refine Sat.bind (Sat.rd _ 3) fun low h1 => Sat.bind (Sat.rd _ 1) fun tag _ =>
    Sat.bind (Q := fun v => -1 ≤ v ∧ v < 32) (R := fun v => 0 ≤ v) (Sat.ite (fun _ => ?_) fun _ => Sat.pure (by omega) (by omega)) fun high h3 =>
    Sat.bind (Sat.chk (Or.inl (by simpa using h))) fun _ _ => Sat.pure trivial ?_
  · exact Sat.mono (Sat.rd _ 5) (fun _ h => h) (fun _ h => by simpa using h) fun _ _ h => h
  · intro _ g3 _ g1
    rw [if_neg (by omega), if_neg (by omega)]
    omega

theorem residueBook_sat (C : Crash → Prop) (hC : ∀ c, ResidueCrash c → C c) (j : Nat) :
    Sat C (residueBook j) (fun b => j < 256 ∧ -1 ≤ b ∧ b < 256) fun b => 0 ≤ b := by
  refine Sat.bind (Sat.rd _ 8) fun b h1 => Sat.bind (Sat.chk (Or.inr (hC _ rfl))) fun _ h2 => Sat.pure ⟨of_decide_eq_true h2, ?_⟩ fun _ h => h
  simpa using h1

theorem eachResidueBook_sat (C : Crash → Prop) (hC : ∀ c, ResidueCrash c → C c) (n : Nat) : ∀ i, i ≤ 256 →
    Sat C (each residueBook n i) (fun l => l.length = n ∧ i + n ≤ 256 ∧ ∀ b ∈ l, -1 ≤ b ∧ b < 256) fun l => ∀ b ∈ l, 0 ≤ b := by
  induction n with
  | zero => intro i hi; exact Sat.pure ⟨rfl, by omega, by simp⟩ (by simp)
  | succ n ih =>
    intro i hi
    refine Sat.bind (residueBook_sat C hC i) fun b hb => Sat.bind (ih (i + 1) (by omega)) fun l hl =>
      Sat.pure ⟨by simp [hl.1], by omega, ?_⟩ ?_
    · simpa using ⟨hb.2, hl.2.2⟩
    · intro h1 h2; simpa using ⟨h2, h1⟩

theorem unpackResidue_sat (C : Crash → Prop) (hC : ∀ c, ResidueCrash c → C c) (books : Nat) :
    Sat C (unpackResidue books) (fun _ => True) fun r => r.Ok books := by
  refine Sat.bind (Sat.rd _ 24) fun begin_ h1 => Sat.bind (Sat.rd _ 24) fun end_ h2 => Sat.bind (Sat.rd _ 24) fun grouping h3 =>
    Sat.bind (Sat.rd _ 6) fun partitions h4 => Sat.bind (Sat.rd _ 8) fun groupbook h5 =>
    Sat.bind (Sat.each _ _ fun k _ hk => unpackStage_sat C k (by omega)) fun stages h6 =>
    Sat.bind (eachResidueBook_sat C hC _ 0 (by omega)) fun l h7 => Sat.bind (Sat.need _ _) fun _ h8 => Sat.bind (Sat.need _ _) fun _ h9 =>
    Sat.pure trivial ?_
  have h8 := of_decide_eq_true h8
  intro _ _ g7 g6 g5 g4 g3 g2 g1
  refine ⟨⟨g1, h1.2⟩, ⟨g2, h2.2⟩, ⟨by simp only; omega, by simp only; omega⟩, ⟨g5, h8⟩, ⟨by simp only; omega, by simp only; omega⟩, g6, ?_,
    by simp only; omega, ?_⟩
  · simp only
    rw [h7.1]
    congr 1
    exact List.map_congr_left fun s hs => icount_ones s (g6 s hs)
  · intro b hb
    exact ⟨g7 b hb, of_decide_eq_true (List.all_eq_true.1 h9 b hb)⟩

/-! ## Mappings -/

theorem unpackCoupling_sat (C : Crash → Prop) (channels : Int) (i : Nat) (h : i < 256) :
    Sat C (unpackCoupling channels i) (fun c => In c.1 0 channels ∧ In c.2 0 channels ∧ c.1 ≠ c.2) fun _ => True := by
  refine Sat.bind (Sat.rd _ _) fun m _ => Sat.bind (Sat.chk (Or.inl (by simpa using h))) fun _ _ => Sat.bind (Sat.rd _ _) fun a _ =>
    Sat.bind (Sat.need _ _) fun _ h => Sat.pure ?_ fun _ _ _ _ => trivial
  have := of_decide_eq_true h
  exact ⟨⟨this.1, this.2.2.2.1⟩, ⟨this.2.1, this.2.2.2.2⟩, this.2.2.1⟩

theorem unpackMux_sat (C : Crash → Prop) (submaps : Int) (i : Nat) (h : i < 256) :
    Sat C (unpackMux submaps i) (fun c => c < submaps) fun c => 0 ≤ c :=
  Sat.bind (Sat.rd _ _) fun m _ => Sat.bind (Sat.chk (Or.inl (by simpa using h))) fun _ _ =>
    Sat.bind (Sat.need _ _) fun _ h => Sat.pure (of_decide_eq_true h) fun _ _ h => h

theorem unpackSubmap_sat (C : Crash → Prop) (times floors residues : Int) (i : Nat) (h : i < 16) :
    Sat C (unpackSubmap times floors residues i) (fun _ => True) fun f => In f.1 0 floors ∧ In f.2 0 residues :=
  Sat.bind (Sat.rd _ _) fun _ _ => Sat.bind (Sat.need _ _) fun _ _ => Sat.bind (Sat.rd _ _) fun _ _ =>
    Sat.bind (Sat.chk (Or.inl (by simpa using h))) fun _ _ => Sat.bind (Sat.need _ _) fun _ h1 => Sat.bind (Sat.rd _ _) fun _ _ =>
    Sat.bind (Sat.need _ _) fun _ h2 => Sat.pure trivial fun _ g2 _ _ g1 _ _ => ⟨⟨g1, of_decide_eq_true h1⟩, ⟨g2, of_decide_eq_true h2⟩⟩

theorem unpackSubmaps_sat (C : Crash → Prop) : Sat C unpackSubmaps (fun n => 0 ≤ n ∧ n ≤ 16) fun n => 1 ≤ n :=
  Sat.bind (Sat.rd _ 1) fun _ _ => Sat.ite
    (fun _ => Sat.bind (Sat.rd _ 4) fun _ _ => Sat.pure ⟨by omega, by omega⟩ fun _ _ => by omega)
    fun _ => Sat.pure ⟨by omega, by omega⟩ fun _ => by omega

theorem unpackSteps_sat (C : Crash → Prop) : Sat C unpackSteps (fun n => 0 ≤ n ∧ n ≤ 256) fun _ => True :=
  Sat.bind (Sat.rd _ 1) fun _ _ => Sat.ite
    (fun _ => Sat.bind (Sat.rd _ 8) fun _ _ => Sat.pure ⟨by omega, by omega⟩ fun _ _ => trivial)
    fun _ => Sat.pure ⟨by omega, by omega⟩ fun _ => trivial

theorem unpackMapping_sat (C : Crash → Prop) (channels : Nat) (hc : channels < 256) (times : Int) (floors residues : Nat) :
    Sat C (unpackMapping channels times floors residues) (fun _ => True) fun m => m.Ok channels floors residues := by
  refine Sat.bind (unpackSubmaps_sat C) fun submaps h1 => Sat.bind (unpackSteps_sat C) fun steps h2 =>
    Sat.bind (Sat.each _ _ fun k _ hk => unpackCoupling_sat C channels k (by omega)) fun coupling h3 =>
    Sat.bind (Sat.rd _ 2) fun _ _ => Sat.bind (Sat.need _ _) fun _ _ =>
    Sat.bind (Q := fun l => (∀ c ∈ l, c < submaps) ∧ l.length = if submaps > 1 then channels else 0) (R := fun l => ∀ c ∈ l, 0 ≤ c)
      (Sat.ite (fun h => ?_) fun h => Sat.pure ⟨by simp, by rw [if_neg h]; rfl⟩ (by simp)) fun mux h4 =>
    Sat.bind (Sat.each _ _ fun k _ hk => unpackSubmap_sat C times floors residues k (by omega)) fun l h5 => Sat.pure trivial ?_
  · exact Sat.mono (Sat.each _ _ fun k _ hk => unpackMux_sat C submaps k (by omega)) (fun _ h => h)
      (fun l hl => ⟨hl.2, by rw [if_pos h, hl.1]; simp⟩) fun _ _ h => h
  · intro g5 g4 _ _ _ _ g1
    refine ⟨⟨g1, by simp only; omega⟩, by simp only; omega, h3.2, ?_, fun c hc => ⟨g4 c hc, h4.1 c hc⟩, h5.1, g5⟩
    simp only
    rw [h4.2]
    by_cases h : submaps = 1
    · rw [if_pos h, if_neg (by omega)]
    · rw [if_neg h, if_pos (by omega)]

end Verif.Vorbis
