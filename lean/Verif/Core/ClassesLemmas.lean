import Verif.Core.ClassesSpec
import Verif.Core.SortLemmas
/-!
Lemmas on the registry of node classes.
-/
namespace Verif.Core.Classes
open Verif Verif.Core

/-! ### Tables of attributes -/

theorem cmpLookup_total : Total cmpLookup :=
  ⟨fun a b => by unfold cmpLookup; (repeat' split) <;> omega,
   fun a b c => by unfold cmpLookup; (repeat' split) <;> omega⟩

theorem cmpLookup_zero {a b : Nat × Nat} : cmpLookup a b = 0 ↔ a.1 = b.1 := by
  unfold cmpLookup; (repeat' split) <;> omega

theorem cmpLookup_neg {a b : Nat × Nat} : cmpLookup a b < 0 ↔ a.1 < b.1 := by
  unfold cmpLookup; (repeat' split) <;> omega

/-- A table says what `f` says. -/
structure Tab (t : List (Nat × Nat)) (f : Nat → Option Nat) : Prop where
  sorted : t.Pairwise fun x y => x.1 < y.1
  mem : ∀ a v, (a, v) ∈ t ↔ f a = some v

theorem Tab.le {t f} (h : Tab t f) : t.Pairwise fun x y => cmpLookup x y ≤ 0 :=
  h.sorted.imp fun {a b} hab => by have := cmpLookup_neg.2 hab; omega

theorem Tab.find {t f} (h : Tab t f) (m : Nat × Nat) :
    (∃ (i : Nat) (hi : i < t.length), findEx (fun y => cmpLookup y m) t = some (true, (i : Int)) ∧
      f m.1 = some t[i].2) ∨
    (f m.1 = none ∧ ∃ p : Nat, findEx (fun y => cmpLookup y m) t = some (false, (p : Int)) ∧
      (∀ x ∈ t.take p, x.1 < m.1) ∧ (∀ x ∈ t.drop p, m.1 < x.1)) := by
  rcases findEx_spec cmpLookup_total t h.le m with ⟨i, hi, h1, h2⟩ | ⟨p, h1, h2, h3, h4⟩
  · left
    refine ⟨i, hi, h1, ?_⟩
    rw [← cmpLookup_zero.1 h2]
    exact (h.mem _ _).1 (List.getElem_mem hi)
  · right
    have ht : ∀ x ∈ t.take p, x.1 < m.1 := by
      intro x hx
      obtain ⟨i, hi, rfl⟩ := List.mem_iff_getElem.1 hx
      rw [List.length_take] at hi
      rw [List.getElem_take]
      exact cmpLookup_neg.1 (h3 i (by omega) (by omega))
    have hd : ∀ x ∈ t.drop p, m.1 < x.1 := by
      intro x hx
      obtain ⟨i, hi, rfl⟩ := List.mem_iff_getElem.1 hx
      rw [List.length_drop] at hi
      rw [List.getElem_drop]
      have := h4 (p + i) (by omega) (by omega)
      exact cmpLookup_neg.1 ((cmpLookup_total.flip _ _).2 (by omega))
    refine ⟨?_, p, h1, ht, hd⟩
    cases hf : f m.1 with
    | none => rfl
    | some v =>
      have := (h.mem _ _).2 hf
      rw [← List.take_append_drop p t, List.mem_append] at this
      rcases this with hx | hx
      · have := ht _ hx; simp at this
      · have := hd _ hx; simp at this

theorem addLookup_tab {t f} (h : Tab t f) (m : Nat × Nat) :
    Tab (addLookup t m) fun a => (f a).or (if a = m.1 then some m.2 else none) := by
  unfold addLookup
  rcases h.find m with ⟨i, hi, h1, h2⟩ | ⟨h0, p, h1, h2, h3⟩
  · rw [h1]
    refine ⟨h.sorted, fun a v => ?_⟩
    show (a, v) ∈ t ↔ _
    rw [h.mem]
    by_cases e : a = m.1
    · rw [e, h2]; simp
    · rw [if_neg e, Option.or_none]
  · rw [h1]
    simp only
    unfold addEx
    rw [h1]
    simp only [if_true, Int.toNat_natCast]
    have hs := h.sorted
    rw [← List.take_append_drop p t, List.pairwise_append] at hs
    constructor
    · rw [List.pairwise_append, List.pairwise_cons]
      refine ⟨hs.1, ⟨h3, hs.2.1⟩, fun x hx y hy => ?_⟩
      rcases List.mem_cons.1 hy with rfl | hy
      · exact h2 x hx
      · exact hs.2.2 x hx y hy
    · intro a v
      have : (a, v) ∈ t.take p ++ m :: t.drop p ↔ (a, v) = m ∨ (a, v) ∈ t := by
        conv => rhs; rw [← List.take_append_drop p t]
        simp only [List.mem_append, List.mem_cons]
        constructor
        · rintro (x | x | x) <;> simp [x]
        · rintro (x | x | x) <;> simp [x]
      rw [this, h.mem]
      by_cases e : a = m.1
      · rw [e, h0, if_pos rfl, Option.none_or]
        constructor
        · rintro (x | x)
          · rw [← x]
          · cases x
        · intro x
          left
          cases m; cases x; rfl
      · rw [if_neg e, Option.or_none]
        constructor
        · rintro (x | x)
          · exact absurd (by rw [← x]) e
          · exact x
        · exact Or.inr

theorem addLookups_tab (l : List (Nat × Nat)) {t f} (h : Tab t f) :
    Tab (l.foldl addLookup t) fun a => (f a).or (l.lookup a) := by
  induction l generalizing t f with
  | nil => simpa using h
  | cons m r ih =>
    have := ih (addLookup_tab h m)
    rw [List.foldl_cons]
    refine ⟨this.sorted, fun a v => (this.mem a v).trans ?_⟩
    rw [List.lookup_cons]
    by_cases e : a = m.1
    · subst e
      simp [Option.or_assoc]
    · have : (a == m.1) = false := by simpa using e
      rw [if_neg e, Option.or_none, this]

theorem build_tab (l : List (Nat × Nat)) : Tab (l.foldl addLookup []) fun a => l.lookup a := by
  have h0 : Tab [] fun _ => none := ⟨List.Pairwise.nil, fun a v => by simp⟩
  simpa using addLookups_tab l h0

theorem getAttr_tab {c : Cls} {f} (h : Tab c.get f) : getAttr c = f := by
  funext a
  unfold getAttr
  rcases h.find (a, 0) with ⟨i, hi, h1, h2⟩ | ⟨h0, p, h1, _⟩
  · rw [h1]
    simp only [Int.toNat_natCast]
    rw [List.getElem?_eq_getElem hi]
    exact h2.symm
  · rw [h1]
    exact h0.symm

/-! ### Functions -/

theorem setSlots (l : List (Nat × Nat)) (t : Nat → Nat) (s : Nat) :
    (l.foldl setSlot t) s = (l.reverse.lookup s).getD (t s) := by
  induction l generalizing t with
  | nil => rfl
  | cons m r ih =>
    rw [List.foldl_cons, ih, List.reverse_cons, List.lookup_append]
    cases h : r.reverse.lookup s with
    | some v => rfl
    | none =>
      simp only [Option.none_or, Option.getD_none]
      unfold setSlot
      rw [List.lookup_cons]
      by_cases e : s = m.1
      · simp [e]
      · have : (s == m.1) = false := by simpa using e
        rw [if_neg e, this]
        rfl

/-! ### What can be made -/

theorem Built.mono {dv ds ds' id o} (hs : ds ⊆ ds') (h : Built dv ds id o) : Built dv ds' id o := by
  induction h with
  | root d h1 h2 => exact .root d (hs h1) h2
  | child d o h1 h2 _ ih => exact .child d o (hs h1) h2 ih

theorem Fits.of_subset {dv ds ds'} (h : Fits dv ds') (hs : ds ⊆ ds') (hn : (ds.map (·.id)).Nodup) : Fits dv ds :=
  ⟨hn, fun d hd => h.nonzero d (hs hd), fun d hd => h.least d (hs hd),
   fun d hd o h0 hb => h.grows d (hs hd) o h0 (hb.mono hs), fun d hd o hb => h.within d (hs hd) o (hb.mono hs)⟩

theorem unique_def {ds : List Def} (hn : (ds.map (·.id)).Nodup) {d e : Def} (hd : d ∈ ds) (he : e ∈ ds) (h : d.id = e.id) :
    d = e := by
  induction ds with
  | nil => cases hd
  | cons x r ih =>
    rw [List.map_cons, List.nodup_cons] at hn
    rcases List.mem_cons.1 hd with rfl | hd1 <;> rcases List.mem_cons.1 he with rfl | he1
    · rfl
    · exact absurd (List.mem_map.2 ⟨e, he1, h.symm⟩) hn.1
    · exact absurd (List.mem_map.2 ⟨d, hd1, h⟩) hn.1
    · exact ih hn.2 hd1 he1

theorem Built.size_ge {dv ds id o} (hf : Fits dv ds) (h : Built dv ds id o) : dv ≤ o.size := by
  induction h with
  | root d h1 h2 =>
    have := hf.least d h1
    simp only [derive, base]
    split <;> omega
  | child d o h1 h2 h3 ih =>
    have := hf.least d h1
    simp only [derive]
    split <;> omega

theorem lookup_none_of {l : List (Nat × Nat)} {s : Nat} (h : ∀ m ∈ l, m.1 ≠ s) : l.lookup s = none := by
  induction l with
  | nil => rfl
  | cons m r ih =>
    have h1 := h m (List.mem_cons_self ..)
    rw [List.lookup_cons, show (s == m.1) = false by simpa using fun e => h1 e.symm]
    exact ih fun x hx => h x (List.mem_cons_of_mem _ hx)

theorem Built.outside {dv ds id o} (hf : Fits dv ds) (h : Built dv ds id o) : ∀ s, o.size ≤ s → o.call s = 0 := by
  induction h with
  | root d h1 h2 =>
    intro s hs
    have hw := hf.within d h1 _ (.root d h1 h2)
    show (d.vmt.reverse.lookup s).getD 0 = 0
    rw [lookup_none_of]
    · rfl
    · intro m hm e
      have := hw m (List.mem_reverse.1 hm)
      omega
  | child d o h1 h2 h3 ih =>
    intro s hs
    have hw := hf.within d h1 _ (.child d o h1 h2 h3)
    show (d.vmt.reverse.lookup s).getD (o.call s) = 0
    rw [lookup_none_of]
    · rw [Option.getD_none]
      apply ih
      have hg := hf.grows d h1 o h2 h3
      simp only [derive] at hs
      split at hs <;> omega
    · intro m hm e
      have := hw m (List.mem_reverse.1 hm)
      omega

/-- As `Built`, with the definitions used. -/
inductive BuiltL (dv : Nat) (ds : List Def) : Nat → Obj → List Def → Prop
  | root (d : Def) : d ∈ ds → d.parent = 0 → BuiltL dv ds d.id (derive dv d (base dv)) [d]
  | child (d : Def) (o : Obj) (l : List Def) : d ∈ ds → d.parent ≠ 0 → BuiltL dv ds d.parent o l →
      BuiltL dv ds d.id (derive dv d o) (d :: l)

theorem Built.list {dv ds id o} (h : Built dv ds id o) : ∃ l, BuiltL dv ds id o l := by
  induction h with
  | root d h1 h2 => exact ⟨_, .root d h1 h2⟩
  | child d o h1 h2 _ ih =>
    obtain ⟨l, ih⟩ := ih
    exact ⟨_, .child d o l h1 h2 ih⟩

theorem BuiltL.unique {dv ds id o l} (hn : (ds.map (·.id)).Nodup) (h : BuiltL dv ds id o l) :
    ∀ {o' l'}, BuiltL dv ds id o' l' → o = o' ∧ l = l' := by
  induction h with
  | root d h1 h2 =>
    intro o' l' h'
    generalize hi : d.id = i at h'
    cases h' with
    | root e g1 g2 => cases unique_def hn h1 g1 hi; exact ⟨rfl, rfl⟩
    | child e _ _ g1 g2 => cases unique_def hn h1 g1 hi; exact absurd h2 g2
  | child d o l h1 h2 h3 ih =>
    intro o' l' h'
    generalize hi : d.id = i at h'
    cases h' with
    | root e g1 g2 => cases unique_def hn h1 g1 hi; exact absurd g2 h2
    | child e _ _ g1 g2 g3 =>
      cases unique_def hn h1 g1 hi
      obtain ⟨rfl, rfl⟩ := ih g3
      exact ⟨rfl, rfl⟩

theorem Built.unique {dv ds id o o'} (hn : (ds.map (·.id)).Nodup) (h : Built dv ds id o) (h' : Built dv ds id o') :
    o = o' := by
  obtain ⟨l, h⟩ := h.list
  obtain ⟨l', h'⟩ := h'.list
  exact (h.unique hn h').1

theorem BuiltL.subset {dv ds id o l} (h : BuiltL dv ds id o l) : l ⊆ ds := by
  induction h with
  | root d h1 h2 => intro x hx; rw [List.mem_singleton] at hx; exact hx ▸ h1
  | child d o l h1 h2 _ ih =>
    intro x hx
    rcases List.mem_cons.1 hx with rfl | hx
    · exact h1
    · exact ih hx

theorem BuiltL.part {dv ds id o l} (h : BuiltL dv ds id o l) :
    ∀ d ∈ l, ∃ o' l', BuiltL dv ds d.id o' l' ∧ l'.length ≤ l.length := by
  induction h with
  | root d h1 h2 =>
    intro x hx
    rw [List.mem_singleton] at hx
    subst hx
    exact ⟨_, _, .root x h1 h2, Nat.le_refl _⟩
  | child d o l h1 h2 h3 ih =>
    intro x hx
    rcases List.mem_cons.1 hx with rfl | hx
    · exact ⟨_, _, .child x o l h1 h2 h3, Nat.le_refl _⟩
    · obtain ⟨o', l', h4, h5⟩ := ih x hx
      exact ⟨o', l', h4, by rw [List.length_cons]; omega⟩

theorem BuiltL.nodup {dv ds id o l} (hn : (ds.map (·.id)).Nodup) (h : BuiltL dv ds id o l) : l.Nodup := by
  induction h with
  | root d h1 h2 => simp
  | child d o l h1 h2 h3 ih =>
    rw [List.nodup_cons]
    refine ⟨fun hd => ?_, ih⟩
    obtain ⟨o', l', h4, h5⟩ := h3.part d hd
    obtain ⟨_, e⟩ := h4.unique hn (.child d o l h1 h2 h3)
    rw [e, List.length_cons] at h5
    omega

theorem nodup_subset_length {α : Type} [DecidableEq α] {l m : List α} (hn : l.Nodup) (hs : l ⊆ m) : l.length ≤ m.length := by
  induction l generalizing m with
  | nil => exact Nat.zero_le _
  | cons x r ih =>
    rw [List.nodup_cons] at hn
    have hx : x ∈ m := hs (List.mem_cons_self ..)
    have : r ⊆ m.erase x := by
      intro y hy
      have hne : y ≠ x := fun e => hn.1 (e ▸ hy)
      exact (List.mem_erase_of_ne hne).2 (hs (List.mem_cons_of_mem _ hy))
    have h1 := ih hn.2 this
    rw [List.length_erase_of_mem hx] at h1
    have : 0 < m.length := List.length_pos_of_mem hx
    rw [List.length_cons]
    omega

theorem BuiltL.length_le {dv ds id o l} (hn : (ds.map (·.id)).Nodup) (h : BuiltL dv ds id o l) : l.length ≤ ds.length :=
  nodup_subset_length (h.nodup hn) h.subset

theorem BuiltL.attr {dv ds id o l} (h : BuiltL dv ds id o l) : o.attr = fun a => (l.flatMap (·.get)).lookup a := by
  induction h with
  | root d h1 h2 => funext a; simp [derive, base]
  | child d o l h1 h2 h3 ih =>
    funext a
    rw [List.flatMap_cons, List.lookup_append]
    show (d.get.lookup a).or (o.attr a) = _
    rw [ih]

/-! ### The registry -/

/-- Sorted by ID. -/
def Sorted (cs : List Cls) : Prop := cs.Pairwise fun x y => x.d.id < y.d.id

theorem Sorted.nodup {cs} (h : Sorted cs) : ((cs.map (·.d)).map (·.id)).Nodup := by
  rw [List.map_map]
  unfold List.Nodup
  rw [List.pairwise_map]
  exact h.imp fun {a b} hab => by simp only [Function.comp_apply]; omega

theorem find_mem {cs id c} (h : find cs id = some c) : c ∈ cs ∧ c.d.id = id := by
  unfold find at h
  exact ⟨List.mem_of_find?_eq_some h, by simpa using List.find?_some h⟩

theorem find_of_mem {cs c} (hs : Sorted cs) (hc : c ∈ cs) : find cs c.d.id = some c := by
  unfold find
  induction cs with
  | nil => cases hc
  | cons x r ih =>
    rw [List.find?_cons]
    have hs' := List.pairwise_cons.1 hs
    rcases List.mem_cons.1 hc with rfl | hc1
    · simp
    · have := hs'.1 c hc1
      rw [show decide (x.d.id = c.d.id) = false by simp; omega]
      exact ih hs'.2 hc1

theorem find_none {cs id} (h : find cs id = none) : ∀ c ∈ cs, c.d.id ≠ id := by
  unfold find at h
  intro c hc
  simpa using List.find?_eq_none.1 h c hc

theorem mem_unique {cs c c'} (hs : Sorted cs) (hc : c ∈ cs) (hc' : c' ∈ cs) (h : c.d.id = c'.d.id) : c = c' := by
  have h1 := find_of_mem hs hc
  have h2 := find_of_mem hs hc'
  rw [h, h2] at h1
  exact (Option.some.inj h1).symm

theorem cmpClass_total : Total cmpClass :=
  ⟨fun a b => by unfold cmpClass; (repeat' split) <;> omega,
   fun a b c => by unfold cmpClass; (repeat' split) <;> omega⟩

theorem cmpClass_zero {a b : Cls} : cmpClass a b = 0 ↔ a.d.id = b.d.id := by
  unfold cmpClass; (repeat' split) <;> omega

theorem cmpClass_neg {a b : Cls} : cmpClass a b < 0 ↔ a.d.id < b.d.id := by
  unfold cmpClass; (repeat' split) <;> omega

theorem findClass_eq {cs} (hs : Sorted cs) (hz : ∀ c ∈ cs, c.d.id ≠ 0) (id : Nat) : findClass cs id = find cs id := by
  unfold findClass
  by_cases h0 : id = 0
  · rw [if_pos h0]
    cases h : find cs id with
    | none => rfl
    | some c =>
      have := find_mem h
      exact absurd (this.2.trans h0) (hz c this.1)
  · rw [if_neg h0]
    have hl : cs.Pairwise fun x y => cmpClass x y ≤ 0 :=
      hs.imp fun {a b} hab => by have := cmpClass_neg.2 hab; omega
    let k : Cls := ⟨⟨id, 0, 0, [], [], false, 0⟩, none, false, 0, fun _ => 0, [], false, 0⟩
    have hk : cmpId id = fun y => cmpClass y k := rfl
    rw [hk]
    rcases findEx_spec cmpClass_total cs hl k with ⟨m, hm, h1, h2⟩ | ⟨p, h1, h2, h3, h4⟩
    · rw [h1]
      simp only [Int.toNat_natCast]
      have e := cmpClass_zero.1 h2
      have := find_of_mem hs (List.getElem_mem hm)
      rw [e] at this
      exact (List.getElem?_eq_getElem hm).trans this.symm
    · rw [h1]
      simp only
      cases h : find cs id with
      | none => rfl
      | some c =>
        obtain ⟨hc, e⟩ := find_mem h
        obtain ⟨i, hi, rfl⟩ := List.mem_iff_getElem.1 hc
        have e' : cmpClass cs[i] k = 0 := cmpClass_zero.2 e
        by_cases hip : i < p
        · have := h3 i hi hip; omega
        · have := h4 i hi (by omega); omega

theorem findClassEx_eq {cs} (hs : Sorted cs) (hz : ∀ c ∈ cs, c.d.id ≠ 0) (id : Nat) : findClassEx cs id = find cs id := by
  unfold findClassEx
  by_cases h0 : id = 0
  · rw [if_pos h0]
    have := findClass_eq hs hz id
    unfold findClass at this
    rw [if_pos h0] at this
    exact this
  · rw [if_neg h0]
    cases h : find cs id with
    | some c => rfl
    | none => simp only; rw [findClass_eq hs hz, h]

/-! ### Invariants -/

/-- An initialised class is what its definitions say. -/
def Good (dv : Nat) (cs : List Cls) (c : Cls) : Prop :=
  ∃ o, Built dv (cs.map (·.d)) c.d.id o ∧ c.size = o.size ∧ c.vmt = o.call ∧ Tab c.get o.attr ∧
    c.abstract_ = c.d.abstract_ ∧ c.prio = c.d.prio

/-- What holds of the registry all the time. -/
structure Inv (dv : Nat) (cs : List Cls) : Prop where
  sorted : Sorted cs
  fits : Fits dv (cs.map (·.d))
  par : ∀ c ∈ cs, ∀ p, c.parent = some p ↔ p = c.d.parent ∧ c.d.parent ≠ c.d.id ∧ ∃ q ∈ cs, q.d.id = p
  waits : ∀ c ∈ cs, c.inited = false → c.vmt = (fun _ => 0) ∧
    (c.size = c.d.size ∨ c.d.size = dv ∧ ∃ p ∈ cs, p.d.id = c.d.parent ∧ c.size = p.size ∧ p.size ≠ dv)
  good : ∀ c ∈ cs, c.inited = true → Good dv cs c
  idle : ∀ c ∈ cs, c.inited = false → c.abstract_ = false ∧ c.prio = 0

/-- No class but those in `S` could be initialised and is not. -/
def Closed (cs : List Cls) (S : Nat → Prop) : Prop :=
  ∀ c ∈ cs, ¬ S c.d.id → c.inited = false →
    c.d.parent ≠ 0 ∧ ∀ p ∈ cs, p.d.id = c.d.parent → p.inited = false

theorem Inv.zero {dv cs} (h : Inv dv cs) : ∀ c ∈ cs, c.d.id ≠ 0 :=
  fun c hc => h.fits.nonzero c.d (List.mem_map.2 ⟨c, hc, rfl⟩)

/-- The parent of a class, as `InitClass` sees it. -/
theorem Inv.parent {dv cs} (h : Inv dv cs) {c} (hc : c ∈ cs) {q} (hq : c.parent.bind (find cs) = some q) :
    q ∈ cs ∧ q.d.id = c.d.parent ∧ c.d.parent ≠ c.d.id := by
  cases hp : c.parent with
  | none => rw [hp] at hq; cases hq
  | some p =>
    rw [hp] at hq
    obtain ⟨h1, h2, _⟩ := (h.par c hc p).1 hp
    obtain ⟨h3, h4⟩ := find_mem (show find cs p = some q from hq)
    exact ⟨h3, h4.trans h1, h2⟩

theorem chain_built {dv cs} (h : Inv dv cs) {id o l} (hb : BuiltL dv (cs.map (·.d)) id o l) :
    ∀ n, l.length ≤ n → chain cs n id = l := by
  induction hb with
  | root d h1 h2 =>
    intro n hn
    obtain ⟨m, rfl⟩ : ∃ m, n = m + 1 := ⟨n - 1, by simp at hn; omega⟩
    obtain ⟨c, hc, rfl⟩ := List.mem_map.1 h1
    unfold chain
    rw [find_of_mem h.sorted hc]
    simp only
    cases hp : c.parent with
    | none => rfl
    | some p =>
      obtain ⟨e, _, q, hq, e2⟩ := (h.par c hc p).1 hp
      exact absurd (e2.trans (e.trans h2)) (h.zero q hq)
  | child d o l h1 h2 h3 ih =>
    intro n hn
    rw [List.length_cons] at hn
    obtain ⟨m, rfl⟩ : ∃ m, n = m + 1 := ⟨n - 1, by omega⟩
    obtain ⟨c, hc, rfl⟩ := List.mem_map.1 h1
    unfold chain
    rw [find_of_mem h.sorted hc]
    simp only
    have hq : ∃ q ∈ cs, q.d.id = c.d.parent := by
      generalize hi : c.d.parent = i at h3
      cases h3 with
      | root e g1 _ => obtain ⟨q, hq, rfl⟩ := List.mem_map.1 g1; exact ⟨q, hq, rfl⟩
      | child e _ _ g1 _ _ => obtain ⟨q, hq, rfl⟩ := List.mem_map.1 g1; exact ⟨q, hq, rfl⟩
    have hself : c.d.parent ≠ c.d.id := by
      intro e
      have h4 := BuiltL.child c.d o l h1 h2 h3
      rw [e] at h3
      have := (h3.unique h.sorted.nodup h4).2
      have := congrArg List.length this
      simp at this
    rw [(h.par c hc c.d.parent).2 ⟨rfl, hself, hq⟩]
    simp only
    rw [ih m (by omega)]

/-- Initialising one class that is ready for it. -/
theorem initOne_good {dv cs} (h : Inv dv cs) {c} (hc : c ∈ cs) (hr : ready c (c.parent.bind (find cs)) = true) :
    Good dv cs (initOne dv cs c (c.parent.bind (find cs))) := by
  unfold ready at hr
  rw [Bool.and_eq_true] at hr
  have hi : c.inited = false := by simpa using hr.1
  obtain ⟨hv, hsz⟩ := h.waits c hc hi
  have hm : c.d ∈ cs.map (·.d) := List.mem_map.2 ⟨c, hc, rfl⟩
  by_cases h0 : c.d.parent = 0
  · have hp : c.parent = none := by
      cases hp : c.parent with
      | none => rfl
      | some p =>
        obtain ⟨e, _, q, hq, e2⟩ := (h.par c hc p).1 hp
        exact absurd (e2.trans (e.trans h0)) (h.zero q hq)
    rw [hp]
    have hsz' : c.size = c.d.size := by
      rcases hsz with e | ⟨_, p, hp, e, _⟩
      · exact e
      · exact absurd (e.trans h0) (h.zero p hp)
    have hb := BuiltL.root (dv := dv) c.d hm h0
    refine ⟨_, .root c.d hm h0, ?_, ?_, ?_, rfl, rfl⟩
    · show c.size = if c.d.size = dv then dv else c.d.size
      rw [hsz']
      split
      · assumption
      · rfl
    · funext s
      show (c.d.vmt.foldl setSlot c.vmt) s = _
      rw [setSlots, hv]
      rfl
    · show Tab (buildGet cs c none) _
      unfold buildGet
      split
      · rw [chain_built h hb _ (by simp), hb.attr]
        exact build_tab _
      · rename_i e
        have e : c.d.get = [] := by simpa using e
        rw [hb.attr]
        have := build_tab ([c.d].flatMap (·.get))
        simpa [e] using this
  · cases hq : c.parent.bind (find cs) with
    | none =>
      rw [hq] at hr
      simp [h0] at hr
    | some q =>
      rw [hq] at hr
      have hqi : q.inited = true := by simpa [h0] using hr.2
      obtain ⟨hqc, hqid, hself⟩ := h.parent hc hq
      obtain ⟨o, hb, e1, e2, e3, _⟩ := h.good q hqc hqi
      rw [hqid] at hb
      have hge := hb.size_ge h.fits
      have hgr := h.fits.grows c.d hm o h0 hb
      have hsize : (if c.size = dv ∧ q.size > dv then q.size else c.size) = if c.d.size = dv then o.size else c.d.size := by
        rcases hsz with e | ⟨e, p, hp, ep, es, en⟩
        · rw [e]
          by_cases e' : c.d.size = dv
          · rw [if_pos e']
            by_cases e'' : q.size > dv
            · rw [if_pos ⟨e', e''⟩, e1]
            · rw [if_neg (fun x => e'' x.2)]; omega
          · rw [if_neg e', if_neg (fun x => e' x.1)]
        · have : p = q := mem_unique h.sorted hp hqc (by omega)
          subst this
          rw [if_pos e, if_neg (fun x => by omega), es, e1]
      obtain ⟨l, hbl⟩ := hb.list
      have hbl' := BuiltL.child (dv := dv) c.d o l hm h0 hbl
      refine ⟨_, .child c.d o hm h0 hb, hsize, ?_, ?_, rfl, rfl⟩
      · funext s
        show (c.d.vmt.foldl setSlot fun s => if s < min (if c.size = dv ∧ q.size > dv then q.size else c.size) q.size
          then q.vmt s else c.vmt s) s = _
        rw [setSlots, hsize, hv, e2, e1]
        show _ = (c.d.vmt.reverse.lookup s).getD (o.call s)
        congr 1
        by_cases hlt : s < o.size
        · rw [if_pos]
          split
          · omega
          · omega
        · rw [hb.outside h.fits s (by omega)]
          (repeat' split) <;> rfl
      · show Tab (buildGet cs c (some q)) _
        unfold buildGet
        split
        · have hlen := hbl'.length_le h.sorted.nodup
          rw [List.length_map] at hlen
          rw [chain_built h hbl' _ (by omega), hbl'.attr]
          exact build_tab _
        · rename_i e
          have e : c.d.get = [] := by simpa using e
          show Tab q.get _
          rw [show (derive dv c.d o).attr = o.attr by funext a; simp [derive, e]]
          exact e3

/-! ### The recursion -/

/-- What `InitClass` does not change. -/
def frame (cs : List Cls) : List (Def × Option Nat) := cs.map fun c => (c.d, c.parent)

theorem frame_ds {cs cs'} (h : frame cs' = frame cs) : cs'.map (·.d) = cs.map (·.d) := by
  have := congrArg (List.map Prod.fst) h
  simpa [frame, List.map_map, Function.comp_def] using this

theorem frame_find {cs cs'} (h : frame cs' = frame cs) (k : Nat) :
    (find cs' k).bind (·.parent) = (find cs k).bind (·.parent) := by
  have key : ∀ l : List Cls, (find l k).bind (·.parent) =
      ((frame l).find? fun x => x.1.id = k).bind (·.2) := by
    intro l
    unfold frame find
    rw [List.find?_map]
    cases h : l.find? fun c => decide (c.d.id = k) with
    | none =>
      have : List.find? ((fun x : Def × Option Nat => decide (x.1.id = k)) ∘ fun c : Cls => (c.d, c.parent)) l = none := h
      rw [this]; rfl
    | some c =>
      have : List.find? ((fun x : Def × Option Nat => decide (x.1.id = k)) ∘ fun c : Cls => (c.d, c.parent)) l = some c := h
      rw [this]; rfl
  rw [key, key, h]

/-- The number of classes that wait. -/
def waiting (cs : List Cls) : Nat := (cs.filter fun c => !c.inited).length

theorem mem_put {cs c c'} (hc : c ∈ cs) (hd : c'.d = c.d) {x} :
    x ∈ put cs c' ↔ x = c' ∨ (x ∈ cs ∧ x.d.id ≠ c.d.id) := by
  unfold put
  rw [List.mem_map]
  constructor
  · rintro ⟨y, hy, rfl⟩
    by_cases e : y.d.id = c'.d.id
    · rw [if_pos e]; exact Or.inl rfl
    · rw [if_neg e]; exact Or.inr ⟨hy, hd ▸ e⟩
  · rintro (rfl | ⟨hx, hn⟩)
    · exact ⟨c, hc, by rw [if_pos (by rw [hd])]⟩
    · exact ⟨x, hx, by rw [if_neg (by rw [hd]; exact hn)]⟩

theorem put_frame {cs c c'} (hs : Sorted cs) (hc : c ∈ cs) (hd : c'.d = c.d) (hp : c'.parent = c.parent) :
    frame (put cs c') = frame cs := by
  unfold frame put
  rw [List.map_map]
  apply List.map_congr_left
  intro x hx
  simp only [Function.comp_apply]
  split
  · rename_i e
    have : x = c := mem_unique hs hx hc (by rw [e, hd])
    rw [this, hd, hp]
  · rfl

theorem put_waiting {cs c c'} (hc : c ∈ cs) (hd : c'.d = c.d) (hi : c.inited = false) (hi' : c'.inited = true) :
    waiting (put cs c') < waiting cs := by
  have le : ∀ l : List Cls, waiting (put l c') ≤ waiting l := by
    intro l
    induction l with
    | nil => exact Nat.le_refl _
    | cons x r ih =>
      unfold waiting put at *
      rw [List.map_cons, List.filter_cons, List.filter_cons]
      by_cases e : x.d.id = c'.d.id
      · rw [if_pos e, hi']
        simp only [Bool.not_true, Bool.false_eq_true, if_false]
        split
        · rw [List.length_cons]; omega
        · exact ih
      · rw [if_neg e]
        split
        · rw [List.length_cons, List.length_cons]; omega
        · exact ih
  induction cs with
  | nil => cases hc
  | cons x r ih =>
    have hle := le r
    by_cases hx : x = c
    · subst hx
      unfold waiting put at *
      have e : x.d.id = c'.d.id := by rw [hd]
      rw [List.map_cons, List.filter_cons, List.filter_cons, if_pos e, hi', hi]
      simp only [Bool.not_true, Bool.not_false, Bool.false_eq_true, if_false, if_true]
      rw [List.length_cons]
      omega
    · have hr : c ∈ r := by
        rcases List.mem_cons.1 hc with e | h
        · exact absurd e.symm hx
        · exact h
      have := ih hr
      unfold waiting put at *
      rw [List.map_cons, List.filter_cons, List.filter_cons]
      by_cases e : x.d.id = c'.d.id
      · rw [if_pos e, hi']
        simp only [Bool.not_true, Bool.false_eq_true, if_false]
        split
        · rw [List.length_cons]; omega
        · exact this
      · rw [if_neg e]
        split
        · rw [List.length_cons, List.length_cons]; omega
        · exact this

theorem Sorted.of_ds {cs cs'} (h : cs'.map (·.d) = cs.map (·.d)) (hs : Sorted cs) : Sorted cs' := by
  have h1 : (cs.map (·.d)).Pairwise fun x y => x.id < y.id := by rw [List.pairwise_map]; exact hs
  rw [← h, List.pairwise_map] at h1
  exact h1

theorem put_inv {dv cs} (h : Inv dv cs) {c} (hc : c ∈ cs) (hr : ready c (c.parent.bind (find cs)) = true) :
    Inv dv (put cs (initOne dv cs c (c.parent.bind (find cs)))) := by
  generalize hc' : initOne dv cs c (c.parent.bind (find cs)) = c'
  have hd : c'.d = c.d := by rw [← hc']; rfl
  have hp : c'.parent = c.parent := by rw [← hc']; rfl
  have hi' : c'.inited = true := by rw [← hc']; rfl
  have hg : Good dv cs c' := hc' ▸ initOne_good h hc hr
  have hf := put_frame h.sorted hc hd hp
  have hds := frame_ds hf
  have hkeep : ∀ q ∈ cs, ∃ q' ∈ put cs c', q'.d = q.d := by
    intro q hq
    have : q.d ∈ (put cs c').map (·.d) := by rw [hds]; exact List.mem_map.2 ⟨q, hq, rfl⟩
    obtain ⟨q', h1, h2⟩ := List.mem_map.1 this
    exact ⟨q', h1, h2⟩
  have hback : ∀ q ∈ put cs c', ∃ q' ∈ cs, q'.d = q.d ∧ q'.parent = q.parent := by
    intro q hq
    rcases (mem_put hc hd).1 hq with rfl | ⟨hq, _⟩
    · exact ⟨c, hc, hd.symm, hp.symm⟩
    · exact ⟨q, hq, rfl, rfl⟩
  refine ⟨h.sorted.of_ds hds, by rw [hds]; exact h.fits, ?_, ?_, ?_, ?_⟩
  · intro x hx p
    obtain ⟨y, hy, e1, e2⟩ := hback x hx
    rw [← e1, ← e2, h.par y hy p]
    constructor
    · rintro ⟨a1, a2, q, hq, a3⟩
      obtain ⟨q', h1, h2⟩ := hkeep q hq
      exact ⟨a1, a2, q', h1, by rw [h2]; exact a3⟩
    · rintro ⟨a1, a2, q, hq, a3⟩
      obtain ⟨q', h1, h2, _⟩ := hback q hq
      exact ⟨a1, a2, q', h1, by rw [h2]; exact a3⟩
  · intro x hx hi
    rcases (mem_put hc hd).1 hx with rfl | ⟨hx', _⟩
    · rw [hi'] at hi; cases hi
    · obtain ⟨h1, h2⟩ := h.waits x hx' hi
      refine ⟨h1, ?_⟩
      rcases h2 with h2 | ⟨h2, p, hpm, h3, h4, h5⟩
      · exact Or.inl h2
      · right
        refine ⟨h2, ?_⟩
        by_cases e : p.d.id = c.d.id
        · have e' : p = c := mem_unique h.sorted hpm hc e
          subst e'
          refine ⟨c', (mem_put hpm hd).2 (Or.inl rfl), by rw [hd]; exact h3, ?_⟩
          have hsz : c'.size = p.size := by
            rw [← hc']
            unfold initOne
            simp only
            split
            · rw [if_neg (fun x => h5 x.1)]
            · rfl
          rw [hsz]
          exact ⟨h4, h5⟩
        · exact ⟨p, (mem_put hc hd).2 (Or.inr ⟨hpm, e⟩), h3, h4, h5⟩
  · intro x hx hi
    unfold Good
    rw [hds]
    rcases (mem_put hc hd).1 hx with rfl | ⟨hx', _⟩
    · exact hg
    · exact h.good x hx' hi
  · intro x hx hi
    rcases (mem_put hc hd).1 hx with rfl | ⟨hx', _⟩
    · rw [hi'] at hi; cases hi
    · exact h.idle x hx' hi

theorem initClass_spec (dv : Nat) : ∀ (n : Nat) (id : Nat) (cs : List Cls) (S : Nat → Prop), Inv dv cs →
    Closed cs (fun k => S k ∨ k = id) → waiting cs < n →
    Inv dv (initClass dv n id cs) ∧ Closed (initClass dv n id cs) S ∧
      frame (initClass dv n id cs) = frame cs ∧ waiting (initClass dv n id cs) ≤ waiting cs := by
  intro n
  induction n with
  | zero => intro id cs S _ _ h; omega
  | succ n ih =>
    intro id cs S h hcl hw
    unfold initClass
    cases hfd : find cs id with
    | none =>
      refine ⟨h, fun c hc hS hi => hcl c hc ?_ hi, rfl, Nat.le_refl _⟩
      rintro (e | e)
      · exact hS e
      · exact find_none hfd c hc e
    | some c =>
      simp only
      obtain ⟨hc, hid⟩ := find_mem hfd
      cases hr : ready c (c.parent.bind (find cs)) with
      | false =>
        simp only [Bool.false_eq_true, if_false]
        refine ⟨h, fun x hx hS hi => ?_, trivial, Nat.le_refl _⟩
        by_cases e : x.d.id = id
        · have e' : x = c := mem_unique h.sorted hx hc (by omega)
          subst e'
          unfold ready at hr
          rw [hi] at hr
          simp only [Bool.not_false, Bool.true_and, Bool.or_eq_false_iff, beq_eq_false_iff_ne] at hr
          refine ⟨hr.1, fun p hp hpe => ?_⟩
          by_cases hse : x.d.parent = x.d.id
          · have : p = x := mem_unique h.sorted hp hx (by omega)
            rw [this]; exact hi
          · have hxp := (h.par x hx x.d.parent).2 ⟨rfl, hse, p, hp, hpe⟩
            have hpf : find cs x.d.parent = some p := hpe ▸ find_of_mem h.sorted hp
            have := hr.2
            rw [hxp] at this
            simp only [Option.bind_some, hpf] at this
            exact this
        · exact hcl x hx (fun k => by rcases k with k | k; exact hS k; exact e k) hi
      | true =>
        simp only [if_true]
        have hinv := put_inv h hc hr
        generalize hc' : initOne dv cs c (c.parent.bind (find cs)) = c' at *
        have hd : c'.d = c.d := by rw [← hc']; rfl
        have hp : c'.parent = c.parent := by rw [← hc']; rfl
        have hi' : c'.inited = true := by rw [← hc']; rfl
        have hi : c.inited = false := by
          unfold ready at hr
          rw [Bool.and_eq_true] at hr
          simpa using hr.1
        have hfr := put_frame h.sorted hc hd hp
        have hwt := put_waiting hc hd hi hi'
        generalize hcs1 : put cs c' = cs1 at *
        -- the loop over the children
        have loop : ∀ (ks : List Nat) (acc : List Cls), Inv dv acc → frame acc = frame cs1 → waiting acc < n →
            Closed acc (fun k => S k ∨ (k ∈ ks ∧ (find cs1 k).bind (·.parent) = some id)) →
            ∀ r, r = ks.foldl (fun acc k => if (find acc k).bind (·.parent) = some id then initClass dv n k acc else acc) acc →
            Inv dv r ∧ Closed r S ∧ frame r = frame cs1 ∧ waiting r ≤ waiting acc := by
          intro ks
          induction ks with
          | nil =>
            intro acc h1 h2 h3 h4 r hr
            rw [List.foldl_nil] at hr
            subst hr
            refine ⟨h1, fun x hx hS hi => h4 x hx ?_ hi, h2, Nat.le_refl _⟩
            rintro (e | ⟨e, _⟩)
            · exact hS e
            · cases e
          | cons k ks ihk =>
            intro acc h1 h2 h3 h4 r hr
            rw [List.foldl_cons] at hr
            have hff := frame_find h2 k
            by_cases e : (find cs1 k).bind (·.parent) = some id
            · rw [if_pos (hff.trans e)] at hr
              obtain ⟨g1, g2, g3, g4⟩ := ih k acc (fun j => S j ∨ (j ∈ ks ∧ (find cs1 j).bind (·.parent) = some id)) h1
                (fun x hx hS hi => h4 x hx (by
                  rintro (a | ⟨a, b⟩)
                  · exact hS (Or.inl (Or.inl a))
                  · rcases List.mem_cons.1 a with a | a
                    · exact hS (Or.inr a)
                    · exact hS (Or.inl (Or.inr ⟨a, b⟩))) hi) h3
              obtain ⟨k1, k2, k3, k4⟩ := ihk _ g1 (g3.trans h2) (by omega) g2 r hr
              exact ⟨k1, k2, k3, by omega⟩
            · rw [if_neg (fun x => e (hff.symm.trans x))] at hr
              exact ihk acc h1 h2 h3 (fun x hx hS hi => h4 x hx (by
                rintro (a | ⟨a, b⟩)
                · exact hS (Or.inl a)
                · rcases List.mem_cons.1 a with a | a
                  · exact e (a ▸ b)
                  · exact hS (Or.inr ⟨a, b⟩)) hi) r hr
        have hcl1 : Closed cs1 (fun k => S k ∨ (k ∈ cs1.map (·.d.id) ∧ (find cs1 k).bind (·.parent) = some id)) := by
          intro x hx hS hxi
          have hx2 := hx
          rw [← hcs1] at hx2
          rcases (mem_put hc hd).1 hx2 with rfl | ⟨hx', hne⟩
          · rw [hi'] at hxi; cases hxi
          · obtain ⟨b1, b2⟩ := hcl x hx' (by
              rintro (a | a)
              · exact hS (Or.inl a)
              · exact hne (a.trans hid.symm)) hxi
            refine ⟨b1, fun p hp hpe => ?_⟩
            have hp2 := hp
            rw [← hcs1] at hp2
            rcases (mem_put hc hd).1 hp2 with hpc | ⟨hp', _⟩
            · exfalso
              apply hS
              right
              refine ⟨List.mem_map.2 ⟨x, hx, rfl⟩, ?_⟩
              rw [find_of_mem hinv.sorted hx]
              show x.parent = some id
              have hpid : p.d.id = id := by rw [hpc, hd]; exact hid
              refine (hinv.par x hx id).2 ⟨by omega, ?_, p, hp, hpid⟩
              intro e
              exact hne (by rw [← e, ← hpe, hpid, hid])
            · exact b2 p hp' hpe
        obtain ⟨l1, l2, l3, l4⟩ := loop (cs1.map (·.d.id)) cs1 hinv rfl (by omega) hcl1 _ rfl
        exact ⟨l1, l2, l3.trans hfr, by omega⟩

/-! ### Registering -/

theorem add_new {cs : List Cls} (hs : Sorted cs) (x : Cls) (hx : ∀ c ∈ cs, c.d.id ≠ x.d.id) :
    ∃ p cs1, addEx cmpClass true cs x = some (p, cs1) ∧ Sorted cs1 ∧ cs1.Perm (x :: cs) := by
  have hl : cs.Pairwise fun x y => cmpClass x y ≤ 0 :=
    hs.imp fun {a b} hab => by have := cmpClass_neg.2 hab; omega
  unfold addEx
  rcases findEx_spec cmpClass_total cs hl x with ⟨m, hm, h1, h2⟩ | ⟨p, h1, h2, h3, h4⟩
  · exact absurd (cmpClass_zero.1 h2) (hx _ (List.getElem_mem hm))
  · rw [h1]
    simp only [if_true, Int.toNat_natCast]
    refine ⟨_, _, rfl, ?_, ?_⟩
    · have hs' := hs
      unfold Sorted at hs' ⊢
      rw [← List.take_append_drop p cs, List.pairwise_append] at hs'
      have ht : ∀ y ∈ cs.take p, y.d.id < x.d.id := by
        intro y hy
        obtain ⟨i, hi, rfl⟩ := List.mem_iff_getElem.1 hy
        rw [List.length_take] at hi
        rw [List.getElem_take]
        exact cmpClass_neg.1 (h3 i (by omega) (by omega))
      have hd : ∀ y ∈ cs.drop p, x.d.id < y.d.id := by
        intro y hy
        obtain ⟨i, hi, rfl⟩ := List.mem_iff_getElem.1 hy
        rw [List.length_drop] at hi
        rw [List.getElem_drop]
        have := h4 (p + i) (by omega) (by omega)
        exact cmpClass_neg.1 ((cmpClass_total.flip _ _).2 (by omega))
      rw [List.pairwise_append, List.pairwise_cons]
      refine ⟨hs'.1, ⟨hd, hs'.2.1⟩, fun y hy z hz => ?_⟩
      rcases List.mem_cons.1 hz with rfl | hz
      · exact ht y hy
      · exact hs'.2.2 y hy z hz
    · have := (List.perm_middle (a := x) (l₁ := cs.take p) (l₂ := cs.drop p))
      rwa [List.take_append_drop] at this

/-- Registering one class. -/
theorem register_spec {dv cs} (h : Inv dv cs) (hcl : Closed cs fun _ => False) (d : Def)
    (hf : Fits dv (d :: cs.map (·.d))) :
    Inv dv (register dv cs d) ∧ Closed (register dv cs d) (fun _ => False) ∧
      ((register dv cs d).map (·.d)).Perm (d :: cs.map (·.d)) := by
  have hnew : ∀ c ∈ cs, c.d.id ≠ d.id := by
    intro c hc e
    have := hf.nodup
    rw [List.map_cons, List.nodup_cons] at this
    exact this.1 (List.mem_map.2 ⟨c.d, List.mem_map.2 ⟨c, hc, rfl⟩, e⟩)
  have hnone : find cs d.id = none := by
    cases e : find cs d.id with
    | none => rfl
    | some c => exact absurd (find_mem e).2 (hnew c (find_mem e).1)
  unfold register
  rw [findClassEx_eq h.sorted h.zero, hnone]
  simp only
  generalize hsz : startSize dv d (find cs d.parent) = size
  generalize hx : (⟨d, (find cs d.parent).map (·.d.id), false, size, fun _ => 0, [], false, 0⟩ : Cls) = x
  have hxd : x.d = d := by rw [← hx]
  have hxi : x.inited = false := by rw [← hx]
  have hxp : x.parent = (find cs d.parent).map (·.d.id) := by rw [← hx]
  have hxs : x.size = size := by rw [← hx]
  have hxv : x.vmt = fun _ => 0 := by rw [← hx]
  obtain ⟨pos, cs1, hadd, hs1, hperm⟩ := add_new h.sorted x (by rw [hxd]; exact hnew)
  rw [hadd]
  simp only
  generalize hfu : (fun c : Cls => if c.d.parent = d.id ∧ c.d.id ≠ d.id then { c with parent := some d.id } else c) = f
  have f_d : ∀ c, (f c).d = c.d := by intro c; rw [← hfu]; simp only; split <;> rfl
  have f_i : ∀ c, (f c).inited = c.inited := by intro c; rw [← hfu]; simp only; split <;> rfl
  have f_s : ∀ c, (f c).size = c.size := by intro c; rw [← hfu]; simp only; split <;> rfl
  have f_v : ∀ c, (f c).vmt = c.vmt := by intro c; rw [← hfu]; simp only; split <;> rfl
  have f_g : ∀ c, (f c).get = c.get := by intro c; rw [← hfu]; simp only; split <;> rfl
  have f_a : ∀ c, (f c).abstract_ = c.abstract_ := by intro c; rw [← hfu]; simp only; split <;> rfl
  have f_pr : ∀ c, (f c).prio = c.prio := by intro c; rw [← hfu]; simp only; split <;> rfl
  have f_p : ∀ c, (f c).parent = if c.d.parent = d.id ∧ c.d.id ≠ d.id then some d.id else c.parent := by
    intro c; rw [← hfu]; simp only; split <;> rfl
  generalize hcs2 : cs1.map f = cs2
  have hds2 : cs2.map (·.d) = cs1.map (·.d) := by
    rw [← hcs2, List.map_map]
    exact List.map_congr_left fun c _ => f_d c
  have hdsp : (cs2.map (·.d)).Perm (d :: cs.map (·.d)) := by
    rw [hds2]
    have := hperm.map (·.d)
    rwa [List.map_cons, hxd] at this
  have mem2 : ∀ y, y ∈ cs2 → y = f x ∨ ∃ c ∈ cs, y = f c := by
    intro y hy
    rw [← hcs2] at hy
    obtain ⟨c, hc, rfl⟩ := List.mem_map.1 hy
    rcases List.mem_cons.1 (hperm.mem_iff.1 hc) with rfl | hc
    · exact Or.inl rfl
    · exact Or.inr ⟨c, hc, rfl⟩
  have mem2x : f x ∈ cs2 := by
    rw [← hcs2]
    exact List.mem_map.2 ⟨x, hperm.mem_iff.2 (List.mem_cons_self ..), rfl⟩
  have mem2c : ∀ c ∈ cs, f c ∈ cs2 := by
    intro c hc
    rw [← hcs2]
    exact List.mem_map.2 ⟨c, hperm.mem_iff.2 (List.mem_cons_of_mem _ hc), rfl⟩
  have hsub : cs.map (·.d) ⊆ cs2.map (·.d) := fun e he => hdsp.mem_iff.2 (List.mem_cons_of_mem _ he)
  have hs2 : Sorted cs2 := hs1.of_ds hds2
  have hinv : Inv dv cs2 := by
    refine ⟨hs2, hf.of_subset (fun e he => hdsp.mem_iff.1 he) hs2.nodup, ?_, ?_, ?_, ?_⟩
    · intro y hy p
      rcases mem2 y hy with rfl | ⟨c, hc, rfl⟩
      · rw [f_d, f_p, hxd, if_neg (fun e => e.2 rfl), hxp]
        constructor
        · intro e
          cases hfp : find cs d.parent with
          | none => rw [hfp] at e; cases e
          | some q =>
            rw [hfp] at e
            obtain ⟨hq, hqe⟩ := find_mem hfp
            have e : q.d.id = p := by simpa using e
            exact ⟨by omega, by rw [← hqe]; exact hnew q hq, f q, mem2c q hq, by rw [f_d]; exact e⟩
        · rintro ⟨e1, e2, q, hq, e3⟩
          rcases mem2 q hq with rfl | ⟨q', hq', rfl⟩
          · rw [f_d, hxd] at e3; omega
          · rw [f_d] at e3
            have := find_of_mem h.sorted hq'
            rw [e3, e1] at this
            rw [this, Option.map_some, e3]
      · rw [f_d, f_p]
        by_cases e : c.d.parent = d.id
        · rw [if_pos ⟨e, hnew c hc⟩]
          constructor
          · intro e'
            have e' : d.id = p := by simpa using e'
            exact ⟨by omega, fun k => hnew c hc (by omega), f x, mem2x, by rw [f_d, hxd]; exact e'⟩
          · rintro ⟨e1, _, _⟩
            rw [e1, e]
        · rw [if_neg (fun k => e k.1), h.par c hc p]
          constructor
          · rintro ⟨e1, e2, q, hq, e3⟩
            exact ⟨e1, e2, f q, mem2c q hq, by rw [f_d]; exact e3⟩
          · rintro ⟨e1, e2, q, hq, e3⟩
            rcases mem2 q hq with rfl | ⟨q', hq', rfl⟩
            · rw [f_d, hxd] at e3; omega
            · rw [f_d] at e3
              exact ⟨e1, e2, q', hq', e3⟩
    · intro y hy hi
      rcases mem2 y hy with rfl | ⟨c, hc, rfl⟩
      · rw [f_v, f_s, f_d, hxd, hxs]
        refine ⟨hxv, ?_⟩
        cases hfp : find cs d.parent with
        | none => rw [hfp] at hsz; exact Or.inl hsz.symm
        | some q =>
          rw [hfp] at hsz
          simp only [startSize] at hsz
          obtain ⟨hq, hqe⟩ := find_mem hfp
          by_cases e : d.size = dv
          · rw [if_pos e] at hsz
            by_cases e2 : q.size = dv
            · left; omega
            · right
              exact ⟨e, f q, mem2c q hq, by rw [f_d]; exact hqe, by rw [f_s]; exact hsz.symm, by rw [f_s]; exact e2⟩
          · rw [if_neg e] at hsz
            exact Or.inl hsz.symm
      · rw [f_i] at hi
        obtain ⟨h1, h2⟩ := h.waits c hc hi
        rw [f_v, f_s, f_d]
        refine ⟨h1, ?_⟩
        rcases h2 with h2 | ⟨h2, q, hq, h3, h4, h5⟩
        · exact Or.inl h2
        · exact Or.inr ⟨h2, f q, mem2c q hq, by rw [f_d]; exact h3, by rw [f_s]; exact h4, by rw [f_s]; exact h5⟩
    · intro y hy hi
      rcases mem2 y hy with rfl | ⟨c, hc, rfl⟩
      · rw [f_i, hxi] at hi; cases hi
      · rw [f_i] at hi
        obtain ⟨o, g1, g2, g3, g4, g5, g6⟩ := h.good c hc hi
        unfold Good
        rw [f_d, f_s, f_v, f_g, f_a, f_pr]
        exact ⟨o, g1.mono hsub, g2, g3, g4, g5, g6⟩
    · intro y hy hi
      rcases mem2 y hy with rfl | ⟨c, hc, rfl⟩
      · rw [f_a, f_pr, ← hx]; exact ⟨rfl, rfl⟩
      · rw [f_i] at hi
        rw [f_a, f_pr]
        exact h.idle c hc hi
  have hcl2 : Closed cs2 (fun k => False ∨ k = d.id) := by
    intro y hy hS hi
    rcases mem2 y hy with rfl | ⟨c, hc, rfl⟩
    · exact absurd (Or.inr (by rw [f_d, hxd])) hS
    · rw [f_i] at hi
      obtain ⟨h1, h2⟩ := hcl c hc (fun k => k) hi
      rw [f_d]
      refine ⟨h1, fun p hp hpe => ?_⟩
      rcases mem2 p hp with rfl | ⟨q, hq, rfl⟩
      · rw [f_i]; exact hxi
      · rw [f_i]
        rw [f_d] at hpe
        exact h2 q hq hpe
  have hwt : waiting cs2 < cs2.length + 1 := by
    have := List.length_filter_le (fun c : Cls => !c.inited) cs2
    unfold waiting
    omega
  obtain ⟨r1, r2, r3, _⟩ := initClass_spec dv (cs2.length + 1) d.id cs2 (fun _ => False) hinv hcl2 hwt
  exact ⟨r1, r2, by rw [frame_ds r3]; exact hdsp⟩

theorem registerAll_spec {dv} (ds : List Def) (hf : Fits dv ds) :
    Inv dv (registerAll dv ds) ∧ Closed (registerAll dv ds) (fun _ => False) ∧
      ((registerAll dv ds).map (·.d)).Perm ds := by
  have key : ∀ (todo : List Def) (cs : List Cls) (done : List Def), Inv dv cs → Closed cs (fun _ => False) →
      (cs.map (·.d)).Perm done → Fits dv (done ++ todo) → ∀ r, r = todo.foldl (register dv) cs →
      Inv dv r ∧ Closed r (fun _ => False) ∧ (r.map (·.d)).Perm (done ++ todo) := by
    intro todo
    induction todo with
    | nil =>
      intro cs done h1 h2 h3 _ r hr
      rw [List.foldl_nil] at hr
      subst hr
      rw [List.append_nil]
      exact ⟨h1, h2, h3⟩
    | cons d todo ih =>
      intro cs done h1 h2 h3 h4 r hr
      rw [List.foldl_cons] at hr
      have hp : (d :: cs.map (·.d)).Perm (done ++ [d]) :=
        (List.Perm.cons d h3).trans (List.perm_append_comm (l₁ := [d]) (l₂ := done))
      have hsub : (d :: cs.map (·.d)) ⊆ done ++ d :: todo := by
        intro e he
        have := hp.mem_iff.1 he
        rw [List.mem_append] at this ⊢
        rcases this with k | k
        · exact Or.inl k
        · rw [List.mem_singleton] at k; exact Or.inr (k ▸ List.mem_cons_self ..)
      have hn : ((d :: cs.map (·.d)).map (·.id)).Nodup := by
        have hn := h4.nodup
        rw [show done ++ d :: todo = (done ++ [d]) ++ todo by simp, List.map_append, List.nodup_append] at hn
        exact (hp.map (·.id)).nodup_iff.2 hn.1
      obtain ⟨g1, g2, g3⟩ := register_spec h1 h2 d (h4.of_subset hsub hn)
      have := ih _ (done ++ [d]) g1 g2 (g3.trans hp) (by rw [List.append_assoc]; exact h4) r hr
      rw [List.append_assoc] at this
      exact this
  have h0 : Inv dv [] := ⟨List.Pairwise.nil, hf.of_subset (List.nil_subset _) List.nodup_nil,
    fun c hc => absurd hc List.not_mem_nil, fun c hc => absurd hc List.not_mem_nil,
    fun c hc => absurd hc List.not_mem_nil, fun c hc => absurd hc List.not_mem_nil⟩
  exact key ds [] [] h0 (fun c hc => absurd hc List.not_mem_nil) (List.Perm.refl _) hf _ rfl

/-! ### Ancestors -/

/-- As `Ends`, with the definitions on the way. -/
inductive EndsL (ds : List Def) : Nat → List Def → Prop
  | missing (i : Nat) : (∀ d ∈ ds, d.id ≠ i) → EndsL ds i []
  | up (d : Def) (l : List Def) : d ∈ ds → EndsL ds d.parent l → EndsL ds d.id (d :: l)

theorem Ends.list {ds i} (h : Ends ds i) : ∃ l, EndsL ds i l := by
  induction h with
  | missing i h => exact ⟨_, .missing i h⟩
  | up d h1 _ ih => obtain ⟨l, ih⟩ := ih; exact ⟨_, .up d l h1 ih⟩

theorem EndsL.unique {ds i l} (hn : (ds.map (·.id)).Nodup) (h : EndsL ds i l) : ∀ {l'}, EndsL ds i l' → l = l' := by
  induction h with
  | missing i h =>
    intro l' h'
    cases h' with
    | missing _ _ => rfl
    | up d _ h1 _ => exact absurd rfl (h d h1)
  | up d l h1 h2 ih =>
    intro l' h'
    generalize hi : d.id = i at h'
    cases h' with
    | missing _ h => exact absurd hi (h d h1)
    | up e _ g1 g2 =>
      cases unique_def hn h1 g1 hi
      rw [ih g2]

theorem EndsL.subset {ds i l} (h : EndsL ds i l) : l ⊆ ds := by
  induction h with
  | missing => exact List.nil_subset _
  | up d l h1 _ ih =>
    intro x hx
    rcases List.mem_cons.1 hx with rfl | hx
    · exact h1
    · exact ih hx

theorem EndsL.part {ds i l} (h : EndsL ds i l) : ∀ d ∈ l, ∃ l', EndsL ds d.id l' ∧ l'.length ≤ l.length := by
  induction h with
  | missing => intro d hd; cases hd
  | up d l h1 h2 ih =>
    intro x hx
    rcases List.mem_cons.1 hx with rfl | hx
    · exact ⟨_, .up x l h1 h2, Nat.le_refl _⟩
    · obtain ⟨l', h4, h5⟩ := ih x hx
      exact ⟨l', h4, by rw [List.length_cons]; omega⟩

theorem EndsL.nodup {ds i l} (hn : (ds.map (·.id)).Nodup) (h : EndsL ds i l) : l.Nodup := by
  induction h with
  | missing => exact List.nodup_nil
  | up d l h1 h2 ih =>
    rw [List.nodup_cons]
    refine ⟨fun hd => ?_, ih⟩
    obtain ⟨l', h4, h5⟩ := h2.part d hd
    have e := h4.unique hn (.up d l h1 h2)
    rw [e, List.length_cons] at h5
    omega

theorem EndsL.isA {ds i l} (hn : (ds.map (·.id)).Nodup) (hz : ∀ d ∈ ds, d.id ≠ 0) (h : EndsL ds i l) (anc : Nat) :
    IsA ds i anc ↔ ∃ d ∈ l, d.id = anc := by
  induction h with
  | missing i h =>
    constructor
    · intro k
      cases k with
      | self d h1 => exact absurd rfl (h d h1)
      | up d _ h1 => exact absurd rfl (h d h1)
    · rintro ⟨d, hd, _⟩; cases hd
  | up d l h1 h2 ih =>
    constructor
    · intro k
      generalize hi : d.id = i at k
      cases k with
      | self e g1 => cases unique_def hn h1 g1 hi; exact ⟨d, List.mem_cons_self .., rfl⟩
      | up e _ g1 g2 g3 =>
        cases unique_def hn h1 g1 hi
        obtain ⟨x, hx, e⟩ := ih.1 g3
        exact ⟨x, List.mem_cons_of_mem _ hx, e⟩
    · rintro ⟨x, hx, e⟩
      rcases List.mem_cons.1 hx with rfl | hx
      · exact e ▸ .self x h1
      · have := ih.2 ⟨x, hx, e⟩
        refine .up d anc h1 ?_ this
        intro h0
        rw [h0] at this
        generalize hi : 0 = i at this
        cases this with
        | self y g1 => exact hz y g1 hi.symm
        | up y _ g1 => exact hz y g1 hi.symm

theorem isPartOf_spec {dv cs} (h : Inv dv cs) {i l} (hl : EndsL (cs.map (·.d)) i l) (anc : Nat) :
    ∀ n, l.length < n → isPartOf cs n (some i) anc = some (decide (∃ d ∈ l, d.id = anc)) := by
  induction hl with
  | missing i hm =>
    intro n hn
    obtain ⟨m, rfl⟩ : ∃ m, n = m + 1 := ⟨n - 1, by simp at hn; omega⟩
    unfold isPartOf
    have : find cs i = none := by
      cases e : find cs i with
      | none => rfl
      | some c => exact absurd (find_mem e).2 (hm c.d (List.mem_map.2 ⟨c, (find_mem e).1, rfl⟩))
    simp [this]
  | up d l h1 h2 ih =>
    intro n hn
    rw [List.length_cons] at hn
    obtain ⟨m, rfl⟩ : ∃ m, n = m + 1 := ⟨n - 1, by omega⟩
    obtain ⟨c, hc, rfl⟩ := List.mem_map.1 h1
    unfold isPartOf
    simp only [Option.bind_some, find_of_mem h.sorted hc]
    by_cases e : c.d.id = anc
    · rw [if_pos e]
      simp [e]
    · rw [if_neg e]
      have hdec : decide (∃ d ∈ c.d :: l, d.id = anc) = decide (∃ d ∈ l, d.id = anc) := by
        simp [e]
      rw [hdec]
      cases hp : c.parent with
      | some p =>
        obtain ⟨e1, _, _⟩ := (h.par c hc p).1 hp
        rw [e1]
        exact ih m (by omega)
      | none =>
        have hself : c.d.parent ≠ c.d.id := by
          intro e'
          have h4 := EndsL.up c.d l h1 h2
          rw [e'] at h2
          have := congrArg List.length (h2.unique h.sorted.nodup h4)
          simp at this
        have hlnil : l = [] := by
          refine h2.unique h.sorted.nodup (.missing _ fun q hq e2 => ?_)
          obtain ⟨q', hq', rfl⟩ := List.mem_map.1 hq
          have := (h.par c hc c.d.parent).2 ⟨rfl, hself, q', hq', e2⟩
          rw [hp] at this
          cases this
        rw [hlnil]
        obtain ⟨k, rfl⟩ : ∃ k, m = k + 1 := ⟨m - 1, by omega⟩
        simp [isPartOf]

/-! ### Lists of classes -/

theorem cmpRated_le {rate : Nat → Int} {a b : Cls} : cmpRated rate a b ≤ 0 ↔ rate a.d.id > rate b.d.id ∨
    rate a.d.id = rate b.d.id ∧ (a.prio > b.prio ∨ a.prio = b.prio ∧ a.d.id ≤ b.d.id) := by
  unfold cmpRated cmpClass
  (repeat' split) <;> omega

theorem cmpRated_neg {rate : Nat → Int} {a b : Cls} : cmpRated rate a b < 0 ↔ rate a.d.id > rate b.d.id ∨
    rate a.d.id = rate b.d.id ∧ (a.prio > b.prio ∨ a.prio = b.prio ∧ a.d.id < b.d.id) := by
  unfold cmpRated cmpClass
  (repeat' split) <;> omega

theorem cmpRated_pos {rate : Nat → Int} {a b : Cls} : 0 < cmpRated rate a b ↔ rate a.d.id < rate b.d.id ∨
    rate a.d.id = rate b.d.id ∧ (a.prio < b.prio ∨ a.prio = b.prio ∧ b.d.id < a.d.id) := by
  unfold cmpRated cmpClass
  (repeat' split) <;> omega

theorem cmpRated_total (rate : Nat → Int) : Total (cmpRated rate) :=
  ⟨fun a b => by rw [cmpRated_neg, cmpRated_pos]; omega,
   fun a b c => by rw [cmpRated_le, cmpRated_le, cmpRated_le]; omega⟩

theorem cmpRated_zero {rate : Nat → Int} {a b : Cls} (h : cmpRated rate a b = 0) : a.d.id = b.d.id := by
  unfold cmpRated cmpClass at h
  (repeat' split at h) <;> omega

theorem candidates_spec {all : List Cls} {rate : Nat → Int} {id : Nat} (cs : List Cls)
    (h : ∀ c ∈ cs, ∃ b, isPartOf all (all.length + 1) (some c.d.id) id = some b) :
    candidates all rate id cs = some (cs.filter fun c =>
      !c.abstract_ && isPartOf all (all.length + 1) (some c.d.id) id == some true && decide (rate c.d.id > 0)) := by
  induction cs with
  | nil => rfl
  | cons c r ih =>
    have ih := ih fun x hx => h x (List.mem_cons_of_mem _ hx)
    obtain ⟨b, hb⟩ := h c (List.mem_cons_self ..)
    unfold candidates
    rw [List.filter_cons, hb, ih]
    by_cases ha : c.abstract_ = true
    · rw [if_pos ha]; simp [ha]
    · rw [if_neg ha]
      cases b with
      | false => simp
      | true =>
        by_cases hr : rate c.d.id > 0
        · simp [hr, ha]
        · simp [hr]

theorem better_spec (rate : Nat → Int) (todo : List Cls) :
    ∀ (pre : List Cls) (st : Nat × Int × Int), Sorted (pre ++ todo) → (∀ x ∈ todo, rate x.d.id > 0) →
      (pre = [] ∧ st = (0, 0, 0) ∨ ∃ c ∈ pre, st = (c.d.id, c.prio, rate c.d.id) ∧ ∀ x ∈ pre, cmpRated rate c x ≤ 0) →
      ∀ r, r = todo.foldl (better rate) st →
      (pre ++ todo = [] ∧ r = (0, 0, 0) ∨
        ∃ c ∈ pre ++ todo, r = (c.d.id, c.prio, rate c.d.id) ∧ ∀ x ∈ pre ++ todo, cmpRated rate c x ≤ 0) := by
  induction todo with
  | nil =>
    intro pre st _ _ h r hr
    rw [List.foldl_nil] at hr
    subst hr
    rw [List.append_nil]
    exact h
  | cons y todo ih =>
    intro pre st hs hp h r hr
    rw [List.foldl_cons] at hr
    have hassoc : pre ++ y :: todo = (pre ++ [y]) ++ todo := by simp
    rw [hassoc]
    refine ih (pre ++ [y]) (better rate st y) (by rw [← hassoc]; exact hs)
      (fun x hx => hp x (List.mem_cons_of_mem _ hx)) (Or.inr ?_) r hr
    have hy := hp y (List.mem_cons_self ..)
    have ht := cmpRated_total rate
    have hlt : ∀ x ∈ pre, x.d.id < y.d.id := by
      intro x hx
      unfold Sorted at hs
      rw [List.pairwise_append] at hs
      exact hs.2.2 x hx y (List.mem_cons_self ..)
    rcases h with ⟨rfl, rfl⟩ | ⟨c, hc, rfl, hmin⟩
    · refine ⟨y, by simp, ?_, ?_⟩
      · unfold better
        rw [if_pos (Or.inl (by simpa using hy))]
      · intro x hx
        simp at hx
        subst hx
        rw [ht.refl]; exact Int.le_refl _
    · unfold better
      simp only
      have hcy := hlt c hc
      by_cases e : rate c.d.id < rate y.d.id ∨ rate c.d.id = rate y.d.id ∧ c.prio < y.prio
      · rw [if_pos e]
        refine ⟨y, by simp, rfl, ?_⟩
        have hyc : cmpRated rate y c ≤ 0 := by
          unfold cmpRated
          (repeat' split) <;> omega
        intro x hx
        rcases List.mem_append.1 hx with hx | hx
        · exact ht.trans _ _ _ hyc (hmin x hx)
        · rw [List.mem_singleton] at hx
          subst hx
          rw [ht.refl]; exact Int.le_refl _
      · rw [if_neg e]
        refine ⟨c, by simp [hc], rfl, ?_⟩
        intro x hx
        rcases List.mem_append.1 hx with hx | hx
        · exact hmin x hx
        · rw [List.mem_singleton] at hx
          subst hx
          unfold cmpRated cmpClass
          (repeat' split) <;> omega

end Verif.Core.Classes
