import Verif.Core.ClassTables
/-!
Property C247: the lookup tables of classes are freed exactly once.
-/
namespace Verif.ClassTables

/-- The parents form a forest among the classes. -/
def Forest (S : Sys) : Prop :=
  ∃ rank : Nat → Nat, ∀ c p, S.par c = some p → c < S.n ∧ p < S.n ∧ rank c < S.n ∧ rank p < rank c

/-- `d` is `a` or derived from it. -/
inductive Derived (S : Sys) (a : Nat) : Nat → Prop
  | self : Derived S a a
  | up (d p : Nat) (h : S.par d = some p) (hp : Derived S a p) : Derived S a d

/-- The allocator gives addresses that are not in use, and no plugin has classes with something derived from them that is a
part of the class for modules. -/
def ValidOp (S : Sys) : Op → Prop
  | .init _ _ alloc _ => ∀ heap id, alloc heap = some id → id ∉ heap
  | .unregister M incl => incl = true ∨ ∀ c d, S.mod c = M → Derived S c d → S.isMod d = false
  | .register _ => True

/-- The class has a table that is not the one of its parent. -/
def Owns (S : Sys) (st : St) (c : Nat) (k : Fin 3) (id : Nat) : Prop :=
  st.tab c k = some id ∧ ∀ p, S.par c = some p → st.tab p k ≠ some id

/-- Nothing dangles, nothing leaks and nothing has two owners. -/
structure Sound (S : Sys) (st : St) : Prop where
  /-- A table of a class is allocated. -/
  valid : ∀ c k id, st.tab c k = some id → id ∈ st.heap
  /-- Each is allocated once. -/
  once : st.heap.Nodup
  /-- What is allocated belongs to an initialised class. -/
  owned : ∀ id ∈ st.heap, ∃ c k, Owns S st c k id ∧ st.inited c = true
  /-- It has only one owner. -/
  single : ∀ c k c' k' id, Owns S st c k id → Owns S st c' k' id → c = c' ∧ k = k'
  /-- Only initialised classes have tables. -/
  unused : ∀ c, st.inited c = false → ∀ k, st.tab c k = none
  /-- Initialised classes are registered, and their parents are initialised. -/
  above : ∀ c, st.inited c = true → c < S.n ∧ st.known c = true ∧ ∀ p, S.par c = some p → st.inited p = true

/-! ### Helpers -/

/-- `Sound` without what follows. -/
structure Inv (S : Sys) (st : St) : Prop where
  once : st.heap.Nodup
  owned : ∀ id, id ∈ st.heap ↔ ∃ c k, Owns S st c k id
  single : ∀ c k c' k' id, Owns S st c k id → Owns S st c' k' id → c = c' ∧ k = k'
  unused : ∀ c, st.inited c = false → ∀ k, st.tab c k = none
  above : ∀ c, st.inited c = true → c < S.n ∧ st.known c = true ∧ ∀ p, S.par c = some p → st.inited p = true

theorem sound_of {S : Sys} (hF : Forest S) {st : St} (h : Inv S st) : Sound S st := by
  obtain ⟨rank, hr⟩ := hF
  refine ⟨?_, h.once, ?_, h.single, h.unused, h.above⟩
  · have key : ∀ m c k id, rank c < m → st.tab c k = some id → id ∈ st.heap := by
      intro m
      induction m with
      | zero => intro c k id hm; omega
      | succ m ih =>
        intro c k id hm ht
        by_cases ho : Owns S st c k id
        · exact (h.owned id).2 ⟨c, k, ho⟩
        · have : ∃ p, S.par c = some p ∧ st.tab p k = some id := by
            refine Classical.byContradiction fun hc => ho ⟨ht, fun p hp hpt => hc ⟨p, hp, hpt⟩⟩
          obtain ⟨p, hp, hpt⟩ := this
          exact ih p k id (by have := hr c p hp; omega) hpt
    intro c k id ht
    exact key (rank c + 1) c k id (by omega) ht
  · intro id hm
    obtain ⟨c, k, ho⟩ := (h.owned id).1 hm
    refine ⟨c, k, ho, ?_⟩
    cases hi : st.inited c with
    | true => rfl
    | false => have := ho.1; rw [h.unused c hi k] at this; cases this

theorem par_ne {S : Sys} (hF : Forest S) {c p : Nat} (h : S.par c = some p) : p ≠ c := by
  obtain ⟨rank, hr⟩ := hF
  have := (hr c p h).2.2.2
  rintro rfl
  omega

theorem setTab_tab (st : St) (c : Nat) (k : Fin 3) (v : Option Nat) (d : Nat) (j : Fin 3) :
    (setTab st c k v).tab d j = if d = c ∧ j = k then v else st.tab d j := rfl

/-- The class has no initialised child. -/
def NoKids (S : Sys) (st : St) (c : Nat) : Prop := ∀ d, S.par d = some c → st.inited d = false

/-- Owners after a table was forgotten. -/
theorem owns_forget {S : Sys} {st : St} (h : Inv S st) {c : Nat} (hk : NoKids S st c) (k : Fin 3) (heap : List Nat)
    (d : Nat) (j : Fin 3) (id : Nat) :
    Owns S { setTab st c k none with heap := heap } d j id ↔ Owns S st d j id ∧ ¬ (d = c ∧ j = k) := by
  unfold Owns
  simp only [setTab_tab]
  constructor
  · rintro ⟨h1, h2⟩
    by_cases hdc : d = c ∧ j = k
    · rw [if_pos hdc] at h1; cases h1
    · rw [if_neg hdc] at h1
      refine ⟨⟨h1, fun p hp => ?_⟩, hdc⟩
      have := h2 p hp
      by_cases hpc : p = c ∧ j = k
      · have hd := h.unused d (hk d (by rw [hp, hpc.1])) j
        rw [hd] at h1; cases h1
      · rwa [if_neg hpc] at this
  · rintro ⟨⟨h1, h2⟩, hdc⟩
    rw [if_neg hdc]
    refine ⟨h1, fun p hp => ?_⟩
    split
    · intro h; cases h
    · exact h2 p hp

/-- Releasing one table. -/
theorem release1_spec {S : Sys} {st : St} (h : Inv S st) {c : Nat} (hk : NoKids S st c) (k : Fin 3) :
    ∃ st', release1 S c k st = some st' ∧ Inv S st' ∧ st'.known = st.known ∧ st'.inited = st.inited ∧
      (∀ d j, st'.tab d j = if d = c ∧ j = k then none else st.tab d j) := by
  unfold release1
  by_cases hs : parentTab S st c k = some (st.tab c k)
  · rw [if_pos hs]
    have hno : ∀ id, ¬ Owns S st c k id := by
      rintro id ⟨h1, h2⟩
      unfold parentTab at hs
      cases hp : S.par c with
      | none => rw [hp] at hs; cases hs
      | some p =>
        rw [hp] at hs
        have : st.tab p k = st.tab c k := Option.some.inj hs
        exact h2 p hp (by rw [this, h1])
    have ho := owns_forget h hk k st.heap
    refine ⟨_, rfl, ⟨h.once, fun id => ?_, ?_, ?_, h.above⟩, rfl, rfl, fun d j => rfl⟩
    · show id ∈ st.heap ↔ _
      rw [h.owned]
      constructor
      · rintro ⟨d, j, hd⟩
        exact ⟨d, j, (ho d j id).2 ⟨hd, by rintro ⟨rfl, rfl⟩; exact hno id hd⟩⟩
      · rintro ⟨d, j, hd⟩
        exact ⟨d, j, ((ho d j id).1 hd).1⟩
    · intro d j d' j' id h1 h2
      exact h.single d j d' j' id ((ho d j id).1 h1).1 ((ho d' j' id).1 h2).1
    · intro d hd j
      rw [setTab_tab]
      split
      · rfl
      · exact h.unused d hd j
  · rw [if_neg hs]
    cases ht : st.tab c k with
    | none =>
      refine ⟨st, rfl, h, rfl, rfl, fun d j => ?_⟩
      split
      · rename_i hd; rw [hd.1, hd.2, ht]
      · rfl
    | some id =>
      have hown : Owns S st c k id := by
        refine ⟨ht, fun p hp hpt => hs ?_⟩
        unfold parentTab
        rw [hp, ht, ← hpt]; rfl
      have hm : id ∈ st.heap := (h.owned id).2 ⟨c, k, hown⟩
      simp only [if_pos hm]
      have ho := owns_forget h hk k (st.heap.erase id)
      refine ⟨_, rfl, ⟨h.once.erase id, fun id' => ?_, ?_, ?_, h.above⟩, rfl, rfl, fun d j => rfl⟩
      · show id' ∈ st.heap.erase id ↔ _
        rw [h.once.mem_erase_iff, h.owned]
        constructor
        · rintro ⟨hne, d, j, hd⟩
          refine ⟨d, j, (ho d j id').2 ⟨hd, ?_⟩⟩
          rintro ⟨rfl, rfl⟩
          exact hne (Option.some.inj (hd.1.symm.trans ht))
        · rintro ⟨d, j, hd⟩
          obtain ⟨hd', hne⟩ := (ho d j id').1 hd
          refine ⟨?_, d, j, hd'⟩
          intro e
          rw [e] at hd'
          exact hne (h.single d j c k _ hd' hown)
      · intro d j d' j' id h1 h2
        exact h.single d j d' j' id ((ho d j id).1 h1).1 ((ho d' j' id).1 h2).1
      · intro d hd j
        show (setTab st c k none).tab d j = none
        rw [setTab_tab]
        split
        · rfl
        · exact h.unused d hd j

/-- Releasing all three. -/
theorem releaseTabs_spec {S : Sys} {st : St} (h : Inv S st) {c : Nat} (hk : NoKids S st c) :
    ∃ st', releaseTabs S c st = some st' ∧ Inv S st' ∧ st'.known = st.known ∧ st'.inited = st.inited ∧
      (∀ d j, st'.tab d j = if d = c then none else st.tab d j) := by
  obtain ⟨s1, e1, i1, k1, n1, t1⟩ := release1_spec h hk 0
  have hk1 : NoKids S s1 c := by intro d hd; rw [n1]; exact hk d hd
  obtain ⟨s2, e2, i2, k2, n2, t2⟩ := release1_spec i1 hk1 1
  have hk2 : NoKids S s2 c := by intro d hd; rw [n2]; exact hk1 d hd
  obtain ⟨s3, e3, i3, k3, n3, t3⟩ := release1_spec i2 hk2 2
  refine ⟨s3, ?_, i3, k3.trans (k2.trans k1), n3.trans (n2.trans n1), fun d j => ?_⟩
  · unfold releaseTabs
    rw [e1, Option.bind_some, e2, Option.bind_some, e3]
  · rw [t3, t2, t1]
    by_cases hd : d = c
    · have : j = 0 ∨ j = 1 ∨ j = 2 := by omega
      rcases this with rfl | rfl | rfl <;> simp [hd]
    · simp [hd]

/-- The class is no longer initialised. -/
theorem inv_off {S : Sys} {st : St} (h : Inv S st) {c : Nat} (hk : NoKids S st c) (ht : ∀ j, st.tab c j = none) :
    Inv S (setInited st c false) := by
  refine ⟨h.once, h.owned, h.single, ?_, ?_⟩
  · intro d hd j
    show st.tab d j = none
    by_cases hdc : d = c
    · rw [hdc]; exact ht j
    · exact h.unused d (by simpa [setInited, hdc] using hd) j
  · intro d hd
    have hdc : d ≠ c := by rintro rfl; simp [setInited] at hd
    have hd' : st.inited d = true := by simpa [setInited, hdc] using hd
    obtain ⟨a1, a2, a3⟩ := h.above d hd'
    refine ⟨a1, a2, fun p hp => ?_⟩
    have hpc : p ≠ c := by
      rintro rfl
      rw [hk d hp] at hd'; cases hd'
    simpa [setInited, hpc] using a3 p hp

theorem derived_inited {S : Sys} {st : St} (h : Inv S st) {a d : Nat} (hd : Derived S a d) : st.inited d = true → st.inited a = true := by
  induction hd with
  | self => exact id
  | up d p hp _ ih => exact fun hi => ih ((h.above d hi).2.2 p hp)

theorem derived_rank {S : Sys} {rank : Nat → Nat} (hr : ∀ c p, S.par c = some p → c < S.n ∧ p < S.n ∧ rank c < S.n ∧ rank p < rank c)
    {a d : Nat} (hd : Derived S a d) : rank a ≤ rank d := by
  induction hd with
  | self => exact Nat.le_refl _
  | up d p hp _ ih => have := hr d p hp; omega

theorem derived_step {S : Sys} {a d : Nat} (hd : Derived S a d) : d = a ∨ ∃ i, S.par i = some a ∧ Derived S i d := by
  induction hd with
  | self => exact .inl rfl
  | up d p hp h ih =>
    rcases ih with rfl | ⟨i, hi, hid⟩
    · exact .inr ⟨d, hp, .self⟩
    · exact .inr ⟨i, hi, .up d p hp hid⟩

theorem derived_trans {S : Sys} {a b d : Nat} (h : Derived S a b) (h' : Derived S b d) : Derived S a d := by
  induction h' with
  | self => exact h
  | up d p hp _ ih => exact .up d p hp ih

/-- What becomes of the classes when those derived from `c` go. -/
def Gone (S : Sys) (st st' : St) (gone : Nat → Prop) : Prop :=
  Inv S st' ∧ st'.known = st.known ∧ (∀ d, st'.inited d = true ↔ st.inited d = true ∧ ¬ gone d) ∧
    ∀ d, ¬ gone d → ∀ j, st'.tab d j = st.tab d j

theorem kidsLoop_spec {S : Sys} (f : Nat → St → Option St) (c : Nat)
    (hf : ∀ i st, Inv S st → st.inited i = true → S.par i = some c → ∃ st', f i st = some st' ∧ Gone S st st' (Derived S i)) :
    ∀ (l : List Nat) (st : St), Inv S st →
      ∃ st', kidsLoop S f c l st = some st' ∧ Gone S st st' (fun d => ∃ i ∈ l, S.par i = some c ∧ Derived S i d) := by
  intro l
  induction l with
  | nil =>
    intro st h
    refine ⟨st, rfl, h, rfl, fun d => ?_, fun d _ j => rfl⟩
    simp
  | cons i l ih =>
    intro st h
    rw [kidsLoop]
    by_cases hc : st.inited i = true ∧ S.par i = some c
    · rw [if_pos hc]
      obtain ⟨s1, e1, g1, g2, g3, g4⟩ := hf i st h hc.1 hc.2
      obtain ⟨s2, e2, k1, k2, k3, k4⟩ := ih s1 g1
      refine ⟨s2, by rw [e1, Option.bind_some, e2], k1, k2.trans g2, fun d => ?_, fun d hd j => ?_⟩
      · rw [k3, g3]
        constructor
        · rintro ⟨⟨a, b⟩, e⟩
          refine ⟨a, ?_⟩
          rintro ⟨x, hx, hp, hd⟩
          rcases List.mem_cons.1 hx with rfl | hx
          · exact b hd
          · exact e ⟨x, hx, hp, hd⟩
        · rintro ⟨a, b⟩
          exact ⟨⟨a, fun hd => b ⟨i, List.mem_cons_self, hc.2, hd⟩⟩, fun ⟨x, hx, hp, hd⟩ => b ⟨x, List.mem_cons_of_mem _ hx, hp, hd⟩⟩
      · rw [k4 d (fun ⟨x, hx, hp, hd'⟩ => hd ⟨x, List.mem_cons_of_mem _ hx, hp, hd'⟩) j,
          g4 d (fun hd' => hd ⟨i, List.mem_cons_self, hc.2, hd'⟩) j]
    · rw [if_neg hc]
      obtain ⟨s2, e2, k1, k2, k3, k4⟩ := ih st h
      refine ⟨s2, e2, k1, k2, fun d => ?_, fun d hd j => ?_⟩
      · rw [k3]
        constructor
        · rintro ⟨a, b⟩
          refine ⟨a, ?_⟩
          rintro ⟨x, hx, hp, hd⟩
          rcases List.mem_cons.1 hx with rfl | hx
          · exact hc ⟨derived_inited h hd a, hp⟩
          · exact b ⟨x, hx, hp, hd⟩
        · rintro ⟨a, b⟩
          exact ⟨a, fun ⟨x, hx, hp, hd⟩ => b ⟨x, List.mem_cons_of_mem _ hx, hp, hd⟩⟩
      · exact k4 d (fun ⟨x, hx, hp, hd'⟩ => hd ⟨x, List.mem_cons_of_mem _ hx, hp, hd'⟩) j

theorem unInit_spec {S : Sys} (incl : Bool) (rank : Nat → Nat)
    (hr : ∀ c p, S.par c = some p → c < S.n ∧ p < S.n ∧ rank c < S.n ∧ rank p < rank c) :
    ∀ (fuel c : Nat) (st : St), Inv S st → st.inited c = true → (incl = true ∨ ∀ d, Derived S c d → S.isMod d = false) →
      S.n ≤ fuel - 1 + rank c → 1 ≤ fuel →
      ∃ st', unInit S incl fuel c st = some st' ∧ Gone S st st' (Derived S c) := by
  intro fuel
  induction fuel with
  | zero => intro c st _ _ _ _ h; omega
  | succ fuel ih =>
    intro c st h hi hm hf _
    rw [unInit, if_neg (by
      rintro ⟨a, b⟩
      rcases hm with hm | hm
      · rw [a] at hm; cases hm
      · rw [hm c .self] at b; cases b)]
    obtain ⟨s1, e1, g1, g2, g3, g4⟩ := kidsLoop_spec (unInit S incl fuel) c (fun i st' h' hi' hp => by
      have := hr i c hp
      exact ih i st' h' hi' (hm.imp id fun hm d hd => hm d (derived_trans (.up i c hp .self) hd)) (by omega) (by omega)) (List.range S.n) st h
    have hself : ∀ i, S.par i = some c → ¬ Derived S i c := by
      intro i hp hd
      have := derived_rank hr hd
      have := hr i c hp
      omega
    have hc1 : s1.inited c = true := (g3 c).2 ⟨hi, fun ⟨i, _, hp, hd⟩ => hself i hp hd⟩
    have hk1 : s1.known c = true := (g1.above c hc1).2.1
    have hno : NoKids S s1 c := by
      intro d hd
      cases hx : s1.inited d with
      | false => rfl
      | true => exact absurd ⟨d, List.mem_range.2 (hr d c hd).1, hd, .self⟩ ((g3 d).1 hx).2
    obtain ⟨s2, e2, k1, k2, k3, k4⟩ := releaseTabs_spec g1 hno
    refine ⟨setInited s2 c false, ?_, ?_, ?_, fun d => ?_, fun d hd j => ?_⟩
    · rw [e1, Option.bind_some, if_pos hk1, e2]; rfl
    · exact inv_off k1 (by intro d hd; rw [k3]; exact hno d hd) (fun j => by rw [k4, if_pos rfl])
    · exact k2.trans g2
    · show (if d = c then false else s2.inited d) = true ↔ _
      by_cases hdc : d = c
      · rw [if_pos hdc, hdc]
        constructor
        · intro h; cases h
        · rintro ⟨_, h⟩; exact absurd .self h
      · rw [if_neg hdc, k3, g3]
        constructor
        · rintro ⟨a, b⟩
          refine ⟨a, fun hd => ?_⟩
          rcases derived_step hd with e | ⟨i, hp, hd⟩
          · exact hdc e
          · exact b ⟨i, List.mem_range.2 (hr i c hp).1, hp, hd⟩
        · rintro ⟨a, b⟩
          exact ⟨a, fun ⟨i, _, hp, hd⟩ => b (derived_trans (.up i c hp .self) hd)⟩
    · show s2.tab d j = _
      rw [k4, if_neg (by rintro rfl; exact hd .self)]
      exact g4 d (fun ⟨i, _, hp, hd'⟩ => hd (derived_trans (.up i c hp .self) hd')) j

theorem inv_unknown {S : Sys} {st : St} (h : Inv S st) {c : Nat} (hi : st.inited c = false) : Inv S (setKnown st c false) := by
  refine ⟨h.once, h.owned, h.single, h.unused, fun d hd => ?_⟩
  obtain ⟨a, b, e⟩ := h.above d hd
  refine ⟨a, ?_, e⟩
  have : d ≠ c := by rintro rfl; have : st.inited d = true := hd; rw [hi] at this; cases this
  simpa [setKnown, this] using b

theorem unregLoop_spec {S : Sys} (hF : Forest S) (incl : Bool) (M : Nat)
    (hm : incl = true ∨ ∀ c d, S.mod c = M → Derived S c d → S.isMod d = false) : ∀ (l : List Nat) (st : St), Inv S st →
    ∃ st', unregLoop S incl M l st = some st' ∧ Inv S st' ∧
      (∀ d, st'.known d = true ↔ st.known d = true ∧ ¬ (d ∈ l ∧ S.mod d = M)) ∧
      (∀ d, st'.inited d = true ↔ st.inited d = true ∧ ¬ ∃ i ∈ l, S.mod i = M ∧ Derived S i d) ∧
      ∀ d, (¬ ∃ i ∈ l, S.mod i = M ∧ Derived S i d) → ∀ j, st'.tab d j = st.tab d j := by
  obtain ⟨rank, hr⟩ := hF
  intro l
  induction l with
  | nil =>
    intro st h
    exact ⟨st, rfl, h, fun d => by simp, fun d => by simp, fun d _ j => rfl⟩
  | cons i l ih =>
    intro st h
    rw [unregLoop]
    by_cases hc : st.known i = true ∧ S.mod i = M
    · rw [if_pos hc]
      have key : ∃ s1, (if st.inited i = true then unInit S incl (S.n + 1) i st else some st) = some s1 ∧ Gone S st s1 (Derived S i) := by
        by_cases hi : st.inited i = true
        · rw [if_pos hi]
          exact unInit_spec incl rank hr (S.n + 1) i st h hi (hm.imp id fun hm d hd => hm i d hc.2 hd) (by omega) (by omega)
        · rw [if_neg hi]
          refine ⟨st, rfl, h, rfl, fun d => ⟨fun hd => ⟨hd, fun hx => hi (derived_inited h hx hd)⟩, fun hd => hd.1⟩, fun d _ j => rfl⟩
      obtain ⟨s1, e1, g1, g2, g3, g4⟩ := key
      have hi1 : s1.inited i = false := by
        cases hx : s1.inited i with
        | false => rfl
        | true => exact absurd .self ((g3 i).1 hx).2
      obtain ⟨s2, e2, k1, k2, k3, k4⟩ := ih (setKnown s1 i false) (inv_unknown g1 hi1)
      refine ⟨s2, by rw [e1, Option.bind_some, e2], k1, fun d => ?_, fun d => ?_, fun d hd j => ?_⟩
      · rw [k2]
        show (if d = i then false else s1.known d) = true ∧ _ ↔ _
        rw [g2]
        by_cases hdi : d = i
        · rw [if_pos hdi, hdi]
          constructor
          · rintro ⟨a, _⟩; cases a
          · rintro ⟨_, b⟩; exact absurd ⟨List.mem_cons_self, hc.2⟩ b
        · rw [if_neg hdi]
          simp only [List.mem_cons, hdi, false_or]
      · rw [k3]
        show s1.inited d = true ∧ _ ↔ _
        rw [g3]
        constructor
        · rintro ⟨⟨a, b⟩, e⟩
          refine ⟨a, ?_⟩
          rintro ⟨x, hx, hp, hd⟩
          rcases List.mem_cons.1 hx with rfl | hx
          · exact b hd
          · exact e ⟨x, hx, hp, hd⟩
        · rintro ⟨a, b⟩
          exact ⟨⟨a, fun hd => b ⟨i, List.mem_cons_self, hc.2, hd⟩⟩, fun ⟨x, hx, hp, hd⟩ => b ⟨x, List.mem_cons_of_mem _ hx, hp, hd⟩⟩
      · rw [k4 d (fun ⟨x, hx, hp, hd'⟩ => hd ⟨x, List.mem_cons_of_mem _ hx, hp, hd'⟩) j]
        exact g4 d (fun hd' => hd ⟨i, List.mem_cons_self, hc.2, hd'⟩) j
    · rw [if_neg hc]
      obtain ⟨s2, e2, k1, k2, k3, k4⟩ := ih st h
      refine ⟨s2, e2, k1, fun d => ?_, fun d => ?_, fun d hd j => ?_⟩
      · rw [k2]
        constructor
        · rintro ⟨a, b⟩
          refine ⟨a, ?_⟩
          rintro ⟨hx, hp⟩
          rcases List.mem_cons.1 hx with rfl | hx
          · exact hc ⟨a, hp⟩
          · exact b ⟨hx, hp⟩
        · rintro ⟨a, b⟩
          exact ⟨a, fun ⟨hx, hp⟩ => b ⟨List.mem_cons_of_mem _ hx, hp⟩⟩
      · rw [k3]
        constructor
        · rintro ⟨a, b⟩
          refine ⟨a, ?_⟩
          rintro ⟨x, hx, hp, hd⟩
          rcases List.mem_cons.1 hx with rfl | hx
          · exact hc ⟨(h.above x (derived_inited h hd a)).2.1, hp⟩
          · exact b ⟨x, hx, hp, hd⟩
        · rintro ⟨a, b⟩
          exact ⟨a, fun ⟨x, hx, hp, hd⟩ => b ⟨x, List.mem_cons_of_mem _ hx, hp, hd⟩⟩
      · exact k4 d (fun ⟨x, hx, hp, hd'⟩ => hd ⟨x, List.mem_cons_of_mem _ hx, hp, hd'⟩) j

/-- A table is built for a class that counts as initialised and has no child. -/
theorem build1_inv {S : Sys} (hF : Forest S) {st : St} (h : Inv S st) {c : Nat} (hi : st.inited c = true) (hk : NoKids S st c) (k : Fin 3)
    (ht : st.tab c k = none) (need : Bool) (alloc : List Nat → Option Nat) (ha : ∀ heap id, alloc heap = some id → id ∉ heap) :
    Inv S (build1 S c k need alloc st) ∧ (build1 S c k need alloc st).inited = st.inited ∧
      (build1 S c k need alloc st).known = st.known ∧ ∀ d j, ¬ (d = c ∧ j = k) → (build1 S c k need alloc st).tab d j = st.tab d j := by
  have hsound := sound_of hF h
  unfold build1
  cases need with
  | true =>
    simp only [if_true]
    cases hal : alloc st.heap with
    | none => exact ⟨h, rfl, rfl, fun d j _ => rfl⟩
    | some id =>
      have hfresh := ha st.heap id hal
      have ho : ∀ d j x, Owns S { setTab st c k (some id) with heap := id :: st.heap } d j x ↔
          (Owns S st d j x ∨ (d = c ∧ j = k ∧ x = id)) := by
        intro d j x
        unfold Owns
        simp only [setTab_tab]
        by_cases hdc : d = c ∧ j = k
        · obtain ⟨rfl, rfl⟩ := hdc
          simp only [and_self, if_true, true_and]
          constructor
          · rintro ⟨hx, _⟩; exact .inr (Option.some.inj hx).symm
          · rintro (⟨hx, _⟩ | rfl)
            · rw [ht] at hx; cases hx
            · refine ⟨rfl, fun p hp => ?_⟩
              rw [if_neg (fun e => par_ne hF hp e.1)]
              intro e
              exact hfresh (hsound.valid p j _ e)
        · rw [if_neg hdc]
          constructor
          · rintro ⟨hx, hp⟩
            refine .inl ⟨hx, fun p hpp => ?_⟩
            have := hp p hpp
            by_cases hpc : p = c ∧ j = k
            · rw [h.unused d (hk d (by rw [hpp, hpc.1])) j] at hx; cases hx
            · rwa [if_neg hpc] at this
          · rintro (⟨hx, hp⟩ | ⟨a, b, _⟩)
            · refine ⟨hx, fun p hpp => ?_⟩
              by_cases hpc : p = c ∧ j = k
              · rw [h.unused d (hk d (by rw [hpp, hpc.1])) j] at hx; cases hx
              · rw [if_neg hpc]; exact hp p hpp
            · exact absurd ⟨a, b⟩ hdc
      refine ⟨⟨List.nodup_cons.2 ⟨hfresh, h.once⟩, fun x => ?_, ?_, ?_, h.above⟩, rfl, rfl, fun d j hd => ?_⟩
      · show x ∈ id :: st.heap ↔ _
        rw [List.mem_cons, h.owned]
        constructor
        · rintro (rfl | ⟨d, j, hd⟩)
          · exact ⟨c, k, (ho c k x).2 (.inr ⟨rfl, rfl, rfl⟩)⟩
          · exact ⟨d, j, (ho d j x).2 (.inl hd)⟩
        · rintro ⟨d, j, hd⟩
          rcases (ho d j x).1 hd with hd | ⟨_, _, e⟩
          · exact .inr ⟨d, j, hd⟩
          · exact .inl e
      · intro d j d' j' x h1 h2
        rcases (ho d j x).1 h1 with h1 | ⟨a1, a2, a3⟩
        · rcases (ho d' j' x).1 h2 with h2 | ⟨b1, b2, b3⟩
          · exact h.single d j d' j' x h1 h2
          · exact absurd ((h.owned x).2 ⟨d, j, h1⟩) (by rw [b3]; exact hfresh)
        · rcases (ho d' j' x).1 h2 with h2 | ⟨b1, b2, b3⟩
          · exact absurd ((h.owned x).2 ⟨d', j', h2⟩) (by rw [a3]; exact hfresh)
          · exact ⟨a1.trans b1.symm, a2.trans b2.symm⟩
      · intro d hd j
        show (setTab st c k (some id)).tab d j = none
        rw [setTab_tab, if_neg]
        · exact h.unused d hd j
        · rintro ⟨rfl, _⟩
          have : st.inited d = false := hd
          rw [hi] at this; cases this
      · show (setTab st c k (some id)).tab d j = _
        rw [setTab_tab, if_neg hd]
  | false =>
    simp only [Bool.false_eq_true, if_false]
    cases hp : S.par c with
    | none => exact ⟨h, rfl, rfl, fun d j _ => rfl⟩
    | some p =>
      have hpc := par_ne hF hp
      have ho : ∀ d j x, Owns S (setTab st c k (st.tab p k)) d j x ↔ Owns S st d j x := by
        intro d j x
        unfold Owns
        simp only [setTab_tab]
        by_cases hdc : d = c ∧ j = k
        · obtain ⟨rfl, rfl⟩ := hdc
          simp only [and_self, if_true]
          constructor
          · rintro ⟨hx, hq⟩
            have := hq p hp
            rw [if_neg (fun e => hpc e.1)] at this
            exact absurd hx this
          · rintro ⟨hx, _⟩
            rw [ht] at hx; cases hx
        · rw [if_neg hdc]
          constructor
          · rintro ⟨hx, hq⟩
            refine ⟨hx, fun q hqq => ?_⟩
            have := hq q hqq
            by_cases hqc : q = c ∧ j = k
            · rw [h.unused d (hk d (by rw [hqq, hqc.1])) j] at hx; cases hx
            · rwa [if_neg hqc] at this
          · rintro ⟨hx, hq⟩
            refine ⟨hx, fun q hqq => ?_⟩
            by_cases hqc : q = c ∧ j = k
            · rw [h.unused d (hk d (by rw [hqq, hqc.1])) j] at hx; cases hx
            · rw [if_neg hqc]; exact hq q hqq
      refine ⟨⟨h.once, fun x => ?_, ?_, ?_, h.above⟩, rfl, rfl, fun d j hd => ?_⟩
      · show x ∈ st.heap ↔ _
        rw [h.owned]
        constructor
        · rintro ⟨d, j, hd⟩; exact ⟨d, j, (ho d j x).2 hd⟩
        · rintro ⟨d, j, hd⟩; exact ⟨d, j, (ho d j x).1 hd⟩
      · intro d j d' j' x h1 h2
        exact h.single d j d' j' x ((ho d j x).1 h1) ((ho d' j' x).1 h2)
      · intro d hd j
        rw [setTab_tab, if_neg]
        · exact h.unused d hd j
        · rintro ⟨rfl, _⟩
          have : st.inited d = false := hd
          rw [hi] at this; cases this
      · rw [setTab_tab, if_neg hd]

theorem build1_setInited (S : Sys) (c : Nat) (k : Fin 3) (need : Bool) (alloc : List Nat → Option Nat) (st : St) (b : Bool) :
    build1 S c k need alloc (setInited st c b) = setInited (build1 S c k need alloc st) c b := by
  unfold build1
  cases need with
  | true =>
    simp only [if_true]
    show (match alloc st.heap with | some id => _ | none => _) = _
    cases alloc st.heap <;> rfl
  | false =>
    simp only [Bool.false_eq_true, if_false]
    cases S.par c <;> rfl

theorem release1_setInited (S : Sys) (c : Nat) (k : Fin 3) (st : St) (b : Bool) :
    release1 S c k (setInited st c b) = (release1 S c k st).map fun s => setInited s c b := by
  unfold release1
  have e : parentTab S (setInited st c b) c k = parentTab S st c k := rfl
  have e2 : (setInited st c b).tab c k = st.tab c k := rfl
  rw [e, e2]
  by_cases h : parentTab S st c k = some (st.tab c k)
  · rw [if_pos h, if_pos h]; rfl
  · rw [if_neg h, if_neg h]
    cases st.tab c k with
    | none => rfl
    | some id =>
      show (if id ∈ st.heap then _ else _) = _
      by_cases hm : id ∈ st.heap
      · simp only [if_pos hm]; rfl
      · simp only [if_neg hm]; rfl

theorem releaseTabs_setInited (S : Sys) (c : Nat) (st : St) (b : Bool) :
    releaseTabs S c (setInited st c b) = (releaseTabs S c st).map fun s => setInited s c b := by
  unfold releaseTabs
  rw [release1_setInited]
  cases release1 S c 0 st with
  | none => rfl
  | some s =>
    simp only [Option.map_some, Option.bind_some]
    rw [release1_setInited]
    cases release1 S c 1 s with
    | none => rfl
    | some s =>
      simp only [Option.map_some, Option.bind_some]
      rw [release1_setInited]

theorem setInited_id (st : St) (c : Nat) (b : Bool) (h : st.inited c = b) : setInited st c b = st := by
  obtain ⟨kn, ini, tb, hp⟩ := st
  unfold setInited
  congr 1
  funext d
  by_cases hd : d = c
  · rw [if_pos hd, hd]; exact h.symm
  · rw [if_neg hd]

theorem setInited_twice (st : St) (c : Nat) (b b' : Bool) : setInited (setInited st c b) c b' = setInited st c b' := by
  obtain ⟨kn, ini, tb, hp⟩ := st
  unfold setInited
  congr 1
  funext d
  by_cases hd : d = c
  · rw [if_pos hd, if_pos hd]
  · simp only [if_neg hd]

theorem build1_inited (S : Sys) (c : Nat) (k : Fin 3) (need : Bool) (alloc : List Nat → Option Nat) (st : St) :
    (build1 S c k need alloc st).inited = st.inited := by
  unfold build1
  cases need with
  | true =>
    simp only [if_true]
    cases alloc st.heap <;> rfl
  | false =>
    simp only [Bool.false_eq_true, if_false]
    cases S.par c <;> rfl

theorem release1_inited {S : Sys} {c : Nat} {k : Fin 3} {st st' : St} (h : release1 S c k st = some st') : st'.inited = st.inited := by
  unfold release1 at h
  by_cases hs : parentTab S st c k = some (st.tab c k)
  · rw [if_pos hs] at h; cases h; rfl
  · rw [if_neg hs] at h
    cases ht : st.tab c k with
    | none => rw [ht] at h; cases h; rfl
    | some id =>
      simp only [ht] at h
      by_cases hm : id ∈ st.heap
      · rw [if_pos hm] at h; cases h; rfl
      · rw [if_neg hm] at h; cases h

theorem releaseTabs_inited {S : Sys} {c : Nat} {st st' : St} (h : releaseTabs S c st = some st') : st'.inited = st.inited := by
  unfold releaseTabs at h
  cases h1 : release1 S c 0 st with
  | none => rw [h1] at h; cases h
  | some s1 =>
    rw [h1, Option.bind_some] at h
    cases h2 : release1 S c 1 s1 with
    | none => rw [h2] at h; cases h
    | some s2 =>
      rw [h2, Option.bind_some] at h
      rw [release1_inited h, release1_inited h2, release1_inited h1]

theorem init_inv {S : Sys} (hF : Forest S) {st : St} (h : Inv S st) (hn : ∀ c, st.known c = true → c < S.n) (c : Nat) (need : Fin 3 → Bool)
    (alloc : List Nat → Option Nat) (ha : ∀ heap id, alloc heap = some id → id ∉ heap) (ok : Bool) :
    ∃ st', initClass S c need alloc ok st = some st' ∧ Inv S st' ∧ st'.known = st.known := by
  unfold initClass
  by_cases hc : st.inited c = false ∧ st.known c = true ∧ (∀ p ∈ S.par c, st.inited p = true)
  · simp only [if_pos hc]
    obtain ⟨c1, c2, c3⟩ := hc
    have hno : ∀ s : St, s.inited = (setInited st c true).inited → NoKids S s c := by
      intro s hs d hd
      rw [hs]
      have hdc : d ≠ c := fun e => par_ne hF hd e.symm
      show (if d = c then true else st.inited d) = false
      rw [if_neg hdc]
      cases hx : st.inited d with
      | false => rfl
      | true => rw [(h.above d hx).2.2 c hd] at c1; cases c1
    have i0 : Inv S (setInited st c true) := by
      refine ⟨h.once, h.owned, h.single, ?_, ?_⟩
      · intro d hd j
        have hdc : d ≠ c := by rintro rfl; simp [setInited] at hd
        exact h.unused d (by simpa [setInited, hdc] using hd) j
      · intro d hd
        by_cases hdc : d = c
        · refine ⟨by rw [hdc]; exact hn c c2, by rw [hdc]; exact c2, fun p hp => ?_⟩
          rw [hdc] at hp
          show (if p = c then true else st.inited p) = true
          rw [if_neg (par_ne hF hp)]
          exact c3 p hp
        · have hd' : st.inited d = true := by simpa [setInited, hdc] using hd
          obtain ⟨a1, a2, a3⟩ := h.above d hd'
          refine ⟨a1, a2, fun p hp => ?_⟩
          show (if p = c then true else st.inited p) = true
          split
          · rfl
          · exact a3 p hp
    have t0 : ∀ j, (setInited st c true).tab c j = none := h.unused c c1
    have hic : (setInited st c true).inited c = true := by simp [setInited]
    obtain ⟨i1, n1, k1, t1⟩ := build1_inv hF i0 hic (hno _ rfl) 0 (t0 0) (need 0) alloc ha
    obtain ⟨i2, n2, k2, t2⟩ := build1_inv hF i1 (by rw [n1]; exact hic) (hno _ n1) 1 (by rw [t1 c 1 (by simp)]; exact t0 1) (need 1) alloc ha
    obtain ⟨i3, n3, k3, t3⟩ := build1_inv hF i2 (by rw [n2, n1]; exact hic) (hno _ (n2.trans n1)) 2
      (by rw [t2 c 2 (by simp), t1 c 2 (by simp)]; exact t0 2) (need 2) alloc ha
    have hnk := hno _ (n3.trans (n2.trans n1))
    have hkn := k3.trans (k2.trans k1)
    have hoff : (build1 S c 2 (need 2) alloc (build1 S c 1 (need 1) alloc (build1 S c 0 (need 0) alloc st))).inited c = false := by
      rw [build1_inited, build1_inited, build1_inited]; exact c1
    simp only [build1_setInited] at i3 hnk hkn
    generalize build1 S c 2 (need 2) alloc (build1 S c 1 (need 1) alloc (build1 S c 0 (need 0) alloc st)) = s at *
    cases ok with
    | true => exact ⟨_, rfl, i3, hkn⟩
    | false =>
      obtain ⟨s4, e4, i4, k4, n4, t4⟩ := releaseTabs_spec i3 hnk
      rw [releaseTabs_setInited] at e4
      cases hs : releaseTabs S c s with
      | none => rw [hs] at e4; cases e4
      | some s5 =>
        rw [hs] at e4
        have e5 : setInited s5 c true = s4 := Option.some.inj e4
        have hinv : Inv S (setInited s5 c false) := by
          have := inv_off i4 (c := c) (by intro d hd; rw [n4]; exact hnk d hd) (fun j => by rw [t4, if_pos rfl])
          rw [← e5, setInited_twice] at this
          exact this
        have hkeep : s5.inited c = false := by rw [releaseTabs_inited hs]; exact hoff
        rw [setInited_id s5 c false hkeep] at hinv
        refine ⟨s5, by simp only [Bool.false_eq_true, if_false], hinv, ?_⟩
        have : s4.known = s5.known := by rw [← e5]; rfl
        rw [← this, k4]; exact hkn
  · simp only [if_neg hc]
    exact ⟨st, rfl, h, rfl⟩

theorem inv_of {S : Sys} {st : St} (h : Sound S st) : Inv S st := by
  refine ⟨h.once, fun id => ⟨fun hm => ?_, ?_⟩, h.single, h.unused, h.above⟩
  · obtain ⟨c, k, ho, _⟩ := h.owned id hm
    exact ⟨c, k, ho⟩
  · rintro ⟨c, k, ho⟩
    exact h.valid c k id ho.1

theorem step_inv {S : Sys} (hF : Forest S) {st : St} (h : Inv S st) (hn : ∀ c, st.known c = true → c < S.n) (o : Op) (ho : ValidOp S o) :
    ∃ st', step S st o = some st' ∧ Inv S st' ∧ ∀ c, st'.known c = true → c < S.n := by
  cases o with
  | register c =>
    refine ⟨_, rfl, ⟨h.once, h.owned, h.single, h.unused, fun d hd => ?_⟩, fun d hd => ?_⟩
    · obtain ⟨a, b, e⟩ := h.above d hd
      refine ⟨a, ?_, e⟩
      show (if d = c then (st.known c || decide (c < S.n)) else st.known d) = true
      split
      · rename_i e; rw [← e, b]; rfl
      · exact b
    · have hd' : (if d = c then (st.known c || decide (c < S.n)) else st.known d) = true := hd
      by_cases hdc : d = c
      · rw [if_pos hdc, Bool.or_eq_true, decide_eq_true_eq] at hd'
        rw [hdc]
        exact hd'.elim (hn c) id
      · rw [if_neg hdc] at hd'
        exact hn d hd'
  | init c need alloc ok =>
    obtain ⟨st', e, i, k⟩ := init_inv hF h hn c need alloc ho ok
    exact ⟨st', e, i, fun c hc => hn c (by rw [← k]; exact hc)⟩
  | unregister M incl =>
    obtain ⟨st', e, i, k, _⟩ := unregLoop_spec hF incl M ho (List.range S.n) st h
    exact ⟨st', e, i, fun c hc => hn c ((k c).1 hc).1⟩

theorem run_inv {S : Sys} (hF : Forest S) : ∀ (ops : List Op) (st : St), Inv S st → (∀ c, st.known c = true → c < S.n) →
    (∀ o ∈ ops, ValidOp S o) → ∃ st', run S ops st = some st' ∧ Inv S st' ∧ ∀ c, st'.known c = true → c < S.n := by
  intro ops
  induction ops with
  | nil => intro st h hn _; exact ⟨st, rfl, h, hn⟩
  | cons o r ih =>
    intro st h hn ho
    obtain ⟨s1, e1, i1, n1⟩ := step_inv hF h hn o (ho o List.mem_cons_self)
    obtain ⟨s2, e2, i2, n2⟩ := ih s1 i1 n1 (fun x hx => ho x (List.mem_cons_of_mem _ hx))
    exact ⟨s2, by rw [run, e1, Option.bind_some, e2], i2, n2⟩

theorem start_inv (S : Sys) : Inv S start := by
  refine ⟨List.nodup_nil, fun id => ⟨fun h => (nomatch h), ?_⟩, ?_, fun _ _ _ => rfl, fun c h => (nomatch h)⟩
  · rintro ⟨c, k, h, _⟩; cases h
  · rintro c k c' k' id ⟨h, _⟩; cases h

theorem run_gone {S : Sys} (hF : Forest S) : ∀ (Ms : List (Nat × Bool)) (st : St), Inv S st →
    (∀ m ∈ Ms, ValidOp S (.unregister m.1 m.2)) →
    ∃ st', run S (Ms.map fun m => .unregister m.1 m.2) st = some st' ∧ Inv S st' ∧
      ∀ d, st'.inited d = true → st.inited d = true ∧ S.mod d ∉ Ms.map (·.1) := by
  intro Ms
  induction Ms with
  | nil => intro st h _; exact ⟨st, rfl, h, fun d hd => ⟨hd, by simp⟩⟩
  | cons m r ih =>
    intro st h ho
    obtain ⟨s1, e1, i1, _, n1, _⟩ := unregLoop_spec hF m.2 m.1 (ho m List.mem_cons_self) (List.range S.n) st h
    obtain ⟨s2, e2, i2, n2⟩ := ih s1 i1 (fun x hx => ho x (List.mem_cons_of_mem _ hx))
    refine ⟨s2, ?_, i2, fun d hd => ?_⟩
    · rw [List.map_cons, run]
      show (unregister S m.2 m.1 st).bind _ = _
      rw [unregister, e1, Option.bind_some, e2]
    · obtain ⟨a, b⟩ := n2 d hd
      obtain ⟨a1, a2⟩ := (n1 d).1 a
      refine ⟨a1, ?_⟩
      rw [List.map_cons, List.mem_cons]
      rintro (hm | hm)
      · exact a2 ⟨d, List.mem_range.2 (h.above d a1).1, hm, .self⟩
      · exact b hm

/-! ### The property -/

/-- Whatever is registered, initialised and unregistered, in any order, nothing is freed twice and no null pointer is read.
Every table a class has is allocated, every allocated table has exactly one owner, and this owner is initialised. -/
theorem C247_sound_partial (S : Sys) (hF : Forest S) (ops : List Op) (ho : ∀ o ∈ ops, ValidOp S o) :
    ∃ st, run S ops start = some st ∧ Sound S st := by
  obtain ⟨st, e, i, _⟩ := run_inv hF ops start (start_inv S) (fun c h => nomatch h) ho
  exact ⟨st, e, sound_of hF i⟩

/-- Unregistering a module takes exactly its classes and all that is derived from them, from any sound state. The others keep
their tables. -/
theorem C247_unregister_partial (S : Sys) (hF : Forest S) (st : St) (h : Sound S st) (M : Nat) (incl : Bool)
    (ho : ValidOp S (.unregister M incl)) :
    ∃ st', unregister S incl M st = some st' ∧ Sound S st' ∧
      (∀ d < S.n, st'.known d = true ↔ st.known d = true ∧ S.mod d ≠ M) ∧
      (∀ d, st'.inited d = true ↔ st.inited d = true ∧ ¬ ∃ c, S.mod c = M ∧ Derived S c d) ∧
      ∀ d, st'.inited d = true → ∀ k, st'.tab d k = st.tab d k := by
  have hi := inv_of h
  obtain ⟨st', e, i, k, n, t⟩ := unregLoop_spec hF incl M ho (List.range S.n) st hi
  refine ⟨st', e, sound_of hF i, fun d hd => ?_, fun d => ?_, fun d hd => t d ((n d).1 hd).2⟩
  · rw [k, List.mem_range]
    exact ⟨fun ⟨a, b⟩ => ⟨a, fun c => b ⟨hd, c⟩⟩, fun ⟨a, b⟩ => ⟨a, fun c => b c.2⟩⟩
  · rw [n]
    constructor
    · rintro ⟨a, b⟩
      exact ⟨a, fun ⟨c, hc, hd⟩ => b ⟨c, List.mem_range.2 (hi.above c (derived_inited hi hd a)).1, hc, hd⟩⟩
    · rintro ⟨a, b⟩
      exact ⟨a, fun ⟨c, _, hc, hd⟩ => b ⟨c, hc, hd⟩⟩

/-- When all modules were unregistered nothing is allocated any more, whatever happened before. -/
theorem C247_all_freed_partial (S : Sys) (hF : Forest S) (ops : List Op) (ho : ∀ o ∈ ops, ValidOp S o) (Ms : List (Nat × Bool))
    (hM : ∀ m ∈ Ms, ValidOp S (.unregister m.1 m.2)) (hall : ∀ c < S.n, S.mod c ∈ Ms.map (·.1)) :
    ∃ st st', run S ops start = some st ∧ run S (Ms.map fun m => .unregister m.1 m.2) st = some st' ∧
      st'.heap = [] ∧ ∀ c k, st'.tab c k = none := by
  obtain ⟨st, e, i, _⟩ := run_inv hF ops start (start_inv S) (fun c h => nomatch h) ho
  obtain ⟨st', e', i', n'⟩ := run_gone hF Ms st i hM
  have hoff : ∀ c, st'.inited c = false := by
    intro c
    cases hc : st'.inited c with
    | false => rfl
    | true => exact absurd (hall c (i'.above c hc).1) (n' c hc).2
  refine ⟨st, st', e, e', ?_, fun c k => i'.unused c (hoff c) k⟩
  cases hh : st'.heap with
  | nil => rfl
  | cons x r =>
    obtain ⟨c, k, ho⟩ := (i'.owned x).1 (by rw [hh]; exact List.mem_cons_self)
    have := ho.1
    rw [i'.unused c (hoff c) k] at this
    cases this

/-- Class 0 is the class for modules, in the program; class 1, derived from it, is in a plugin. -/
def modSys : Sys := ⟨2, fun c => if c = 1 then some 0 else none, fun c => c, fun c => c == 0 || c == 1⟩

/-- An allocator: one more than the sum of all in use. -/
def bump (h : List Nat) : Option Nat := some (h.foldl (· + ·) 0 + 1)

/-- A plugin with a class derived from the one for modules: the class keeps its tables when the plugin goes, and a null pointer
is read when the program unregisters its own classes. -/
theorem C247_module_counterexample : Forest modSys ∧
    run modSys [.register 0, .init 0 (fun _ => true) bump true, .register 1, .init 1 (fun k => k == 0) bump true,
      .unregister 1 false] start ≠ none ∧
    run modSys [.register 0, .init 0 (fun _ => true) bump true, .register 1, .init 1 (fun k => k == 0) bump true,
      .unregister 1 false, .unregister 0 true] start = none := by
  refine ⟨⟨id, ?_⟩, ?_, rfl⟩
  · intro c p h
    simp only [modSys] at h ⊢
    split at h
    · cases h; subst c; decide
    · cases h
  · intro h
    cases h

/-- Three classes, one below the other, in three modules. -/
def demoSys : Sys := ⟨3, fun c => if c = 1 then some 0 else if c = 2 then some 1 else none, fun c => c, fun _ => false⟩

example : Forest demoSys := by
  refine ⟨id, ?_⟩
  intro c p h
  simp only [demoSys] at h ⊢
  split at h
  · cases h; subst c; decide
  · split at h
    · cases h; subst c; decide
    · cases h

/-- The second class shares two tables with the first and has one of its own, the third shares all. Unregistering the module of
the second frees just its own. -/
example : (run demoSys [.register 0, .register 1, .register 2, .init 0 (fun _ => true) bump true,
      .init 1 (fun k => k == 1) bump true, .init 2 (fun _ => false) bump true] start).map
        (fun st => (st.heap, st.tab 1 0, st.tab 1 1, st.tab 2 1)) = some ([8, 4, 2, 1], some 1, some 8, some 8) ∧
    (run demoSys [.register 0, .register 1, .register 2, .init 0 (fun _ => true) bump true,
      .init 1 (fun k => k == 1) bump true, .init 2 (fun _ => false) bump true, .unregister 1 false] start).map
        (fun st => (st.heap, st.tab 1 0, st.tab 1 1, st.tab 2 1)) = some ([4, 2, 1], none, none, none) := ⟨rfl, rfl⟩

example : ∀ heap id, bump heap = some id → id ∉ heap := by
  intro heap id h hm
  cases h
  have key : ∀ (l : List Nat) (a x : Nat), x ∈ l → x ≤ l.foldl (· + ·) a := by
    intro l
    induction l with
    | nil => intro a x hx; cases hx
    | cons y r ih =>
      intro a x hx
      rw [List.foldl_cons]
      have mono : ∀ (l : List Nat) (b : Nat), b ≤ l.foldl (· + ·) b := by
        intro l
        induction l with
        | nil => intro b; exact Nat.le_refl _
        | cons z l ih => intro b; rw [List.foldl_cons]; have := ih (b + z); omega
      rcases List.mem_cons.1 hx with rfl | hx
      · have := mono r (a + x); omega
      · exact ih _ x hx
  have := key heap 0 _ hm
  omega

end Verif.ClassTables
