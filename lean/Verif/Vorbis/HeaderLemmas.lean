import Verif.Vorbis.BackendLemmas

/-! Lemmas on headers: what reading them can end in, and what is accepted. -/

namespace Verif.Vorbis

open Verif

/-- The ways a setup header is not read. -/
def SetupCrash (c : Crash) : Prop := BookCrash c ∨ FloorCrash c ∨ ResidueCrash c ∨ c = .freeType

theorem unpackTime_sat (C : Crash → Prop) (i : Nat) (h : i < 64) : Sat C (unpackTime i) (fun _ => True) fun _ => True :=
  Sat.bind (Sat.rd _ _) fun _ _ => Sat.bind (Sat.chk (Or.inl (by simpa using h))) fun _ _ =>
    Sat.mono (Sat.need _ _) (fun _ h => h) (fun _ _ => trivial) fun _ _ _ _ _ => trivial

theorem unpackBookAt_sat (i : Nat) (h : i < 256) : Sat SetupCrash (unpackBookAt i) (fun _ => True) fun b => b.Read :=
  Sat.bind (Sat.chk (Or.inl (by simpa using h))) fun _ _ =>
    Sat.mono unpackBook_sat (fun _ h => Or.inl h) (fun _ _ => trivial) fun _ _ h _ => h

theorem unpackFloor_sat (books : Nat) (old i : Nat) (h : i < 64) :
    Sat SetupCrash (unpackFloor books old i) (fun _ => True) fun f => f.Ok books := by
  refine Sat.bind (Sat.rd _ _) fun type _ => Sat.bind (Sat.chk (Or.inl (by simpa using h))) fun _ _ =>
    Sat.bind (Sat.goodType (Or.inr (Or.inr (Or.inr rfl)))) fun _ _ => Sat.ite (fun _ => ?_) fun _ => ?_
  · exact Sat.bind (unpackFloor0_sat _ _) fun f _ => Sat.pure trivial fun h _ _ _ => h
  · exact Sat.bind (unpackFloor1_sat _ (fun _ h => Or.inr (Or.inl h)) _) fun f _ => Sat.pure trivial fun h _ _ _ => h

theorem unpackResidueAt_sat (books : Nat) (old i : Nat) (h : i < 64) :
    Sat SetupCrash (unpackResidueAt books old i) (fun _ => True) fun r => In r.1 0 3 ∧ r.2.Ok books :=
  Sat.bind (Sat.rd _ _) fun type _ => Sat.bind (Sat.chk (Or.inl (by simpa using h))) fun _ _ =>
    Sat.bind (Sat.goodType (Or.inr (Or.inr (Or.inr rfl)))) fun _ ht =>
    Sat.bind (unpackResidue_sat _ (fun _ h => Or.inr (Or.inr (Or.inl h))) _) fun f _ =>
    Sat.pure trivial fun h _ _ _ => ⟨of_decide_eq_true ht, h⟩

theorem unpackMap_sat (channels : Nat) (hc : channels < 256) (times : Int) (floors residues old i : Nat) (h : i < 64) :
    Sat SetupCrash (unpackMap channels times floors residues old i) (fun _ => True) fun m => m.Ok channels floors residues :=
  Sat.bind (Sat.rd _ _) fun type _ => Sat.bind (Sat.chk (Or.inl (by simpa using h))) fun _ _ =>
    Sat.bind (Sat.goodType (Or.inr (Or.inr (Or.inr rfl)))) fun _ _ =>
    Sat.mono (unpackMapping_sat _ channels hc times floors residues) (fun _ h => h) (fun _ _ => trivial) fun _ _ h _ _ _ => h

theorem unpackMode_sat (C : Crash → Prop) (maps : Nat) (i : Nat) (h : i < 64) :
    Sat C (unpackMode maps i) (fun _ => True) fun m => m.Ok maps := by
  refine Sat.bind (Sat.chk (Or.inl (by simpa using h))) fun _ _ => Sat.bind (Sat.rd _ 1) fun blockflag h1 =>
    Sat.bind (Sat.rd _ _) fun windowtype h2 => Sat.bind (Sat.rd _ _) fun transformtype h3 => Sat.bind (Sat.rd _ _) fun mapping h4 =>
    Sat.bind (Sat.need _ _) fun _ h5 => Sat.pure trivial ?_
  have h5 := of_decide_eq_true h5
  intro _ g4 g3 g2 g1 _
  exact ⟨⟨g1, by simpa using h1.2⟩, by simp only; omega, by simp only; omega, ⟨g4, h5.2.2⟩⟩

/-- What an accepted setup header is. -/
structure Setup.Read (channels : Nat) (p : Setup) : Prop extends Setup.Sound channels p where
  count : ∀ b ∈ p.books, b.Read

theorem unpackSetup_sat (channels : Nat) (hc : channels < 256) (old : Old) :
    Sat SetupCrash (unpackSetup channels old) (fun _ => True) fun p => p.Read channels := by
  refine Sat.bind (Sat.rd _ 8) fun nb h1 => Sat.bind (Sat.each _ _ fun k _ hk => unpackBookAt_sat k (by omega)) fun books h2 =>
    Sat.bind (Sat.rd _ 6) fun nt h3 => Sat.bind (Sat.each _ _ fun k _ hk => unpackTime_sat _ k (by omega)) fun _ _ =>
    Sat.bind (Sat.rd _ 6) fun nf h4 => ?_
  rw [show nb + 1 = ((books.length : Nat) : Int) by omega]
  refine Sat.bind (Sat.each _ _ fun k _ hk => unpackFloor_sat books.length old.floors k (by omega)) fun floors h5 => ?_
  refine Sat.bind (Sat.rd _ 6) fun nr h6 =>
    Sat.bind (Sat.each _ _ fun k _ hk => unpackResidueAt_sat books.length old.residues k (by omega)) fun residues h7 =>
    Sat.bind (Sat.rd _ 6) fun nm h8 => ?_
  rw [show nf + 1 = ((floors.length : Nat) : Int) by omega, show nr + 1 = ((residues.length : Nat) : Int) by omega]
  refine Sat.bind (Sat.each _ _ fun k _ hk => unpackMap_sat channels hc (nt + 1) floors.length residues.length old.maps k (by omega))
    fun maps h9 => Sat.bind (Sat.rd _ 6) fun nd h10 => ?_
  rw [show nm + 1 = ((maps.length : Nat) : Int) by omega]
  refine Sat.bind (Sat.each _ _ fun k _ hk => unpackMode_sat _ maps.length k (by omega)) fun modes h11 =>
    Sat.bind (Sat.rd _ 1) fun _ _ => Sat.bind (Sat.need _ _) fun _ _ => Sat.pure trivial ?_
  intro _ _ g11 g10 g9 g8 g7 g6 g5 g4 _ g3 g2 g1
  exact ⟨⟨⟨by simp only; omega, by simp only; omega⟩, fun b hb => (g2 b hb).toSound, ⟨by simp only; omega, by simp only; omega⟩,
    ⟨by simp only; omega, by simp only; omega⟩, g5, ⟨by simp only; omega, by simp only; omega⟩, g7,
    ⟨by simp only; omega, by simp only; omega⟩, g9, ⟨by simp only; omega, by simp only; omega⟩, g11⟩, g2⟩

/-! ## The other headers -/

theorem unpackSize_sat (C : Crash → Prop) (h : C .shift) : Sat C unpackSize (fun n => ∃ e, e < 16 ∧ n = 2 ^ e) fun _ => True := by
  refine Sat.bind (Sat.rd _ 4) fun e h1 => Sat.bind (Sat.chk (Or.inr h)) fun _ h2 => Sat.pure ⟨e.toNat, ?_, rfl⟩ fun _ _ => trivial
  have := of_decide_eq_true h2
  omega

theorem unpackInfo_sat (C : Crash → Prop) (h : C .shift) : Sat C unpackInfo (fun i => In i.channels 1 256) fun i => i.Ok := by
  refine Sat.bind (Sat.rd _ 32) fun version _ => Sat.bind (Sat.need _ _) fun _ _ => Sat.bind (Sat.rd _ 8) fun channels h1 =>
    Sat.bind (Sat.rd _ 32) fun rate h2 => Sat.bind (Sat.rd _ 32) fun upper h3 => Sat.bind (Sat.rd _ 32) fun nominal h4 =>
    Sat.bind (Sat.rd _ 32) fun lower h5 => Sat.bind (unpackSize_sat _ h) fun short h6 => Sat.bind (unpackSize_sat _ h) fun long h7 =>
    Sat.bind (Sat.need _ _) fun _ h8 => Sat.bind (Sat.rd _ 1) fun _ _ => Sat.bind (Sat.need _ _) fun _ _ => ?_
  have h8 := of_decide_eq_true h8
  refine Sat.pure ⟨h8.2.1, h1.2⟩ ?_
  intro _ _ _ _ _ g5 g4 g3 g2 g1 _ _
  refine ⟨⟨h8.2.1, h1.2⟩, ⟨h8.1, h2.2⟩, ⟨g3, h3.2⟩, ⟨g4, h4.2⟩, ⟨g5, h5.2⟩, ?_, ?_, h8.2.2.2.1⟩
  · obtain ⟨e, _, he⟩ := h6
    refine ⟨e, ?_, he⟩
    by_cases hlt : 6 ≤ e
    · exact hlt
    · have := Nat.pow_le_pow_right (show 0 < 2 by decide) (show e ≤ 5 by omega)
      omega
  · obtain ⟨e, _, he⟩ := h7
    refine ⟨e, ?_, he⟩
    by_cases hlt : e ≤ 13
    · exact hlt
    · have := Nat.pow_le_pow_right (show 0 < 2 by decide) (show 14 ≤ e by omega)
      omega

theorem unpackString_sat (C : Crash → Prop) (h : C .comment) : Sat C unpackString (fun _ => True) fun _ => True :=
  Sat.bind (Sat.rd _ 32) fun _ _ => Sat.bind (Sat.need _ _) fun _ _ => Sat.bind (Sat.chk (Or.inr h)) fun _ _ =>
    Sat.mono (Sat.many (Sat.rd _ 8) _) (fun _ h => h) (fun _ _ => trivial) fun _ _ _ _ _ _ => trivial

theorem unpackComment_sat (C : Crash → Prop) (h : C .comment) : Sat C unpackComment (fun _ => True) fun _ => True :=
  Sat.bind (unpackString_sat _ h) fun _ _ => Sat.bind (Sat.rd _ 32) fun _ _ => Sat.bind (Sat.need _ _) fun _ _ =>
    Sat.bind (Sat.chk (Or.inr h)) fun _ _ => Sat.bind (Sat.many (unpackString_sat _ h) _) fun _ _ => Sat.bind (Sat.rd _ 1) fun _ _ =>
    Sat.bind (Sat.need _ _) fun _ _ => Sat.pure trivial fun _ _ _ _ _ _ _ => trivial

/-! ## All headers -/

/-- The ways headers are not read. -/
def HeaderCrash (c : Crash) : Prop := SetupCrash c ∨ c = .comment ∨ c = .shift

/-- What the headers set is in range. The setup header ends with a bit that is set, so nothing was read beyond its end. -/
structure Hdr.Sound (h : Hdr) : Prop where
  info : ∀ i, h.info = some i → i.Ok
  setup : ∀ i p, h.info = some i → h.setup = some p → p.Read i.channels.toNat
  cleared : h.info = none → h.setup = none
  slots : ∀ m ∈ h.slots, In m.blockflag 0 2
  modes : ∀ p, h.setup = some p → p.modes.length ≤ h.slots.length

/-- How a call ends. -/
def Ends {α : Type} (C : Crash → Prop) (x : Res α) (Q : α → Prop) : Prop :=
  match x with
  | .ok a => Q a
  | .err => True
  | .crash c => C c
  | .hang => False

theorem Ends.bind {α β : Type} {C : Crash → Prop} {x : Res α} {f : α → Res β} {Q : α → Prop} {Q' : β → Prop}
    (h1 : Ends C x Q) (h2 : ∀ a, Q a → Ends C (f a) Q') : Ends C (x.bind f) Q' := by
  cases x with
  | ok a => exact h2 a h1
  | err => trivial
  | crash c => exact h1
  | hang => exact h1

/-- A step that ends with a bit that is set has not read beyond the end. -/
def Whole {α : Type} (p : P α) : Prop := ∀ s a, p s ≠ .ok (a, none)

theorem Whole.bind {α β : Type} {p : P α} {f : α → P β} (h : ∀ a, Whole (f a)) : Whole (p >>= f) := by
  intro s b
  rw [bind_apply]
  cases hp : p s with
  | ok x => exact h x.1 x.2 b
  | err => simp [Res.bind]
  | crash c => simp [Res.bind]
  | hang => simp [Res.bind]

theorem Whole.last {β : Type} (b : β) : Whole (do
    let last ← rd 1
    need (decide (last = 1))
    pure b) := by
  intro s a
  rw [bind_apply]
  cases s with
  | none => simp [rd, Res.bind, bind_apply, need]
  | some bs =>
    simp only [rd]
    by_cases h : 1 ≤ bs.length
    · rw [if_pos h]
      simp only [Res.bind, bind_apply, need]
      by_cases hv : decide (((value (bs.take 1) : Nat) : Int) = 1) = true
      · rw [if_pos hv]; simp [pure_apply]
      · rw [if_neg hv]; simp
    · rw [if_neg h]
      simp [Res.bind, bind_apply, need]

theorem unpackSetup_whole (channels : Int) (old : Old) : Whole (unpackSetup channels old) :=
  Whole.bind fun _ => Whole.bind fun _ => Whole.bind fun _ => Whole.bind fun _ => Whole.bind fun _ => Whole.bind fun _ =>
    Whole.bind fun _ => Whole.bind fun _ => Whole.bind fun _ => Whole.bind fun _ => Whole.bind fun _ => Whole.bind fun _ => Whole.last _

theorem unpackInfo_whole : Whole unpackInfo :=
  Whole.bind fun _ => Whole.bind fun _ => Whole.bind fun _ => Whole.bind fun _ => Whole.bind fun _ => Whole.bind fun _ =>
    Whole.bind fun _ => Whole.bind fun _ => Whole.bind fun _ => Whole.bind fun _ => Whole.last _

theorem attempt_ends {α : Type} {C : Crash → Prop} {p : P α} {Q R : α → Prop} (h : Sat C p Q R) (s : St) :
    Ends C (attempt p s) fun x => ∀ a, x.1 = some a → Q a := by
  have := h s
  unfold attempt
  cases hp : p s with
  | ok x =>
    obtain ⟨a, s1⟩ := x
    rw [hp] at this
    intro b hb
    simp only [Option.some.injEq] at hb
    exact hb ▸ this.1
  | err => intro a h; simp at h
  | crash c => rw [hp] at this; exact this
  | hang => rw [hp] at this; exact this

theorem attempt_whole {α : Type} {C : Crash → Prop} {p : P α} {Q R : α → Prop} (h : Sat C p Q R) (w : Whole p) (s : St) :
    Ends C (attempt p s) fun x => ∀ a, x.1 = some a → R a := by
  have := h s
  unfold attempt
  cases hp : p s with
  | ok x =>
    obtain ⟨a, s1⟩ := x
    rw [hp] at this
    intro b hb
    simp only [Option.some.injEq] at hb
    cases s1 with
    | none => exact absurd hp (w s a)
    | some bs => exact hb ▸ (this.2 rfl).2
  | err => intro a h; simp at h
  | crash c => rw [hp] at this; exact this
  | hang => rw [hp] at this; exact this

theorem Sat.ends {α : Type} {C : Crash → Prop} {p : P α} {Q R : α → Prop} (h : Sat C p Q R) (s : St) : Ends C (p s) fun x => Q x.1 := by
  have := h s
  cases hp : p s with
  | ok x => obtain ⟨a, s1⟩ := x; rw [hp] at this; exact this.1
  | err => trivial
  | crash c => rw [hp] at this; exact this
  | hang => rw [hp] at this; exact this

theorem headerIn_ends (first : Bool) (bits : List Bool) (h : Hdr) (hs : h.Sound) :
    Ends HeaderCrash (headerIn first bits h) fun x => x.2.Sound := by
  unfold headerIn
  refine Ends.bind (Q := fun _ => True) ?_ fun x _ => ?_
  · refine Sat.ends (R := fun _ => True) (Q := fun _ => True) (Sat.bind (Sat.rd _ 8) fun _ _ => Sat.bind (Sat.many (Sat.rd _ 8) _) fun _ _ =>
      Sat.pure trivial fun _ _ => trivial) _
  · obtain ⟨⟨type, tag⟩, s⟩ := x
    have clear : Hdr.Sound { h with info := none, setup := none, slots := [] } := ⟨by simp, by simp, by simp, by simp, by simp⟩
    simp only
    split
    · exact hs
    · split
      · split
        · exact hs
        · rename_i hi
          refine Ends.bind (attempt_whole (unpackInfo_sat HeaderCrash (Or.inr (Or.inr rfl))) unpackInfo_whole s) fun x hx => ?_
          obtain ⟨r, s'⟩ := x
          cases r with
          | none => exact clear
          | some i =>
            have hn : h.info = none := by
              cases hh : h.info with
              | none => rfl
              | some j => simp [hh] at hi
            have hp := hs.cleared hn
            refine ⟨?_, ?_, by simp, hs.slots, hs.modes⟩
            · intro j hj
              simp only [Option.some.injEq] at hj
              exact hj ▸ hx i rfl
            · intro j p _ hj
              rw [hp] at hj
              simp at hj
      · split
        · cases hh : h.info with
          | none => exact hs
          | some i =>
            simp only
            refine Ends.bind (attempt_ends (unpackComment_sat HeaderCrash (Or.inr (Or.inl rfl))) s) fun x _ => ?_
            exact ⟨fun j hj => hs.info j (by simpa [hh] using hj), fun j p hj hp => hs.setup j p (by simpa [hh] using hj) hp,
              by simp, hs.slots, hs.modes⟩
        · split
          · cases hh : h.info with
            | none => exact hs
            | some i =>
              simp only
              split
              · exact hs
              · have hi := hs.info i hh
                have hch : i.channels = ((i.channels.toNat : Nat) : Int) := by have := hi.channels.1; omega
                have hlt : i.channels.toNat < 256 := by have := hi.channels.2; omega
                refine Ends.bind (C := HeaderCrash) (Q := fun x => ∀ p, x.1 = some p → p.Read i.channels.toNat) ?_ fun x hx => ?_
                · conv => arg 2; rw [hch]
                  have := attempt_whole (unpackSetup_sat i.channels.toNat hlt (match h.setup with
                    | none => ⟨0, 0, 0⟩
                    | some p => ⟨p.floors.length, p.residues.length, p.maps.length⟩)) (unpackSetup_whole _ _) s
                  revert this
                  generalize attempt (unpackSetup _ _) s = y
                  cases y with
                  | crash c => exact Or.inl
                  | ok _ => exact id
                  | err => exact id
                  | hang => exact id
                · obtain ⟨r, s'⟩ := x
                  cases r with
                  | none => exact clear
                  | some p =>
                    have hp := hx p rfl
                    refine ⟨fun j hj => hs.info j (by simpa [hh] using hj), ?_, by simp, ?_, ?_⟩
                    · intro j q hj hq
                      simp only [Option.some.injEq] at hj hq
                      rw [← hj, ← hq]; exact hp
                    · intro m hm
                      rw [List.mem_append] at hm
                      rcases hm with hm | hm
                      · exact (hp.modes m hm).blockflag
                      · exact hs.slots m (List.mem_of_mem_drop hm)
                    · intro q hq
                      simp only [Option.some.injEq] at hq
                      rw [← hq]
                      simp
          · exact hs

end Verif.Vorbis
