import Verif.Core.Singletons
import Verif.Core.SortLemmas
/-!
Property C248: singletons.
-/
namespace Verif.Singletons
open Verif.Core

/-- What holds at every time. -/
structure Good (st : St) : Prop where
  /-- There is one singleton for each ID at most. -/
  ids : st.singles.Pairwise fun a b => a.id < b.id
  /-- A node is in the array once at most. -/
  ptrs : (st.singles.map (·.ptr)).Nodup
  /-- A singleton has one reference more than the program holds. -/
  listed : ∀ e ∈ st.singles, st.refs e.ptr = st.held e.ptr + 1
  /-- Others have as many. -/
  others : ∀ p, (∀ e ∈ st.singles, e.ptr ≠ p) → st.refs p = st.held p
  /-- What has references is in memory, and nothing else. -/
  alive : ∀ p, p ∈ st.alive ↔ 0 < st.refs p
  once : st.alive.Nodup
  fresh : ∀ p ∈ st.alive, p < st.next

/-- Singletons are made for classes with the flag only, and there is memory for their place in the array. -/
def ValidOp : Op → Prop
  | .create sing _ _ singleton _ _ ins _ => singleton = true → sing = true ∧ ins = true
  | _ => True

/-! ### Helpers -/

theorem cmpId_total : Total cmpId := by
  constructor
  · intro a b
    unfold cmpId
    (repeat' split) <;> omega
  · intro a b c
    unfold cmpId
    (repeat' split) <;> omega

theorem cmpEnt_total : Total cmpEnt := by
  constructor
  · intro a b
    unfold cmpEnt
    (repeat' split) <;> omega
  · intro a b c
    unfold cmpEnt
    (repeat' split) <;> omega

theorem lookup_spec {st : St} (h : Good st) (id : Nat) :
    (∃ e, lookup id st = some (some e) ∧ e ∈ st.singles ∧ e.id = id) ∨
    (lookup id st = some none ∧ ∀ e ∈ st.singles, e.id ≠ id) := by
  have hs : st.singles.Pairwise fun a b => cmpId a b ≤ 0 := h.ids.imp (fun {a b} hab => by
    unfold cmpId; rw [if_neg (by omega), if_pos hab]; omega)
  unfold lookup
  rcases findEx_spec cmpId_total st.singles hs ⟨id, 0, 0⟩ with ⟨m, hm, h1, h2⟩ | ⟨p, h1, h2, h3, h4⟩
  · left
    rw [h1]
    refine ⟨st.singles[m], ?_, List.getElem_mem hm, ?_⟩
    · simp only [Int.toNat_natCast, List.getElem?_eq_getElem hm, Option.map_some]
    · unfold cmpId at h2
      (repeat' split at h2) <;> simp_all <;> omega
  · right
    rw [h1]
    refine ⟨rfl, fun e he hid => ?_⟩
    obtain ⟨i, hi, rfl⟩ := List.mem_iff_getElem.1 he
    have h0 : cmpId st.singles[i] ⟨id, 0, 0⟩ = 0 := by
      unfold cmpId
      rw [if_neg (by show ¬ _ > id; omega), if_neg (by show ¬ _ < id; omega)]
    by_cases hip : i < p
    · have := h3 i hi hip; omega
    · have := h4 i hi (by omega); omega

theorem good_of_perm_free {st : St} (h : Good st) : ∀ e ∈ st.singles, e.ptr < st.next := by
  intro e he
  exact h.fresh _ ((h.alive _).2 (by rw [h.listed e he]; omega))

theorem fresh_refs {st : St} (h : Good st) : st.refs st.next = 0 := by
  cases hr : st.refs st.next with
  | zero => rfl
  | succ n =>
    have := h.fresh st.next ((h.alive _).2 (by omega))
    omega

theorem fresh_held {st : St} (h : Good st) : st.held st.next = 0 := by
  have := h.others st.next (fun e he hp => by have := good_of_perm_free h e he; omega)
  rw [fresh_refs h] at this
  omega

theorem upd_self (f : Nat → Nat) (p v : Nat) : upd f p v p = v := if_pos rfl
theorem upd_ne (f : Nat → Nat) {p q : Nat} (v : Nat) (h : q ≠ p) : upd f p v q = f q := if_neg h

/-- Inserting a singleton for an ID that has none. -/
theorem add_spec {st : St} (h : Good st) (x : Ent) (hx : ∀ e ∈ st.singles, e.id ≠ x.id) :
    ∃ p : Nat, addEx cmpEnt true st.singles x = some ((p : Int), st.singles.take p ++ x :: st.singles.drop p) ∧
      (st.singles.take p ++ x :: st.singles.drop p).Pairwise fun a b => a.id < b.id := by
  have hs : st.singles.Pairwise fun a b => cmpEnt a b ≤ 0 := h.ids.imp (fun {a b} hab => by
    unfold cmpEnt; rw [if_neg (by omega), if_pos hab]; omega)
  unfold addEx
  rcases findEx_spec cmpEnt_total st.singles hs x with ⟨m, hm, h1, h2⟩ | ⟨p, h1, h2, h3, h4⟩
  · exfalso
    have := hx _ (List.getElem_mem hm)
    unfold cmpEnt at h2
    (repeat' split at h2) <;> omega
  · rw [h1]
    refine ⟨p, by simp only [if_true, Int.toNat_natCast], ?_⟩
    have ha : ∀ a ∈ st.singles.take p, a.id < x.id := by
      intro a ha
      have hne := hx a (List.mem_of_mem_take ha)
      obtain ⟨i, hi, rfl⟩ := List.mem_iff_getElem.1 ha
      rw [List.length_take] at hi
      have := h3 i (by omega) (by omega)
      rw [List.getElem_take] at hne ⊢
      unfold cmpEnt at this
      (repeat' split at this) <;> omega
    have hb : ∀ a ∈ st.singles.drop p, x.id < a.id := by
      intro a ha
      have hne := hx a (List.mem_of_mem_drop ha)
      obtain ⟨i, hi, rfl⟩ := List.mem_iff_getElem.1 ha
      rw [List.length_drop] at hi
      have := h4 (p + i) (by omega) (by omega)
      rw [List.getElem_drop] at hne ⊢
      unfold cmpEnt at this
      (repeat' split at this) <;> omega
    have hp := h.ids
    rw [← List.take_append_drop p st.singles, List.pairwise_append] at hp
    rw [List.pairwise_append, List.pairwise_cons]
    refine ⟨hp.1, ⟨hb, hp.2.1⟩, fun a haa b hbb => ?_⟩
    rcases List.mem_cons.1 hbb with rfl | hbb
    · exact ha a haa
    · exact hp.2.2 a haa b hbb

/-- The state after creating a node; which cases there are. -/
inductive Created (st : St) (sing : Bool) (id mod : Nat) (singleton lock mem ok : Bool) : St → Option Nat → Prop
  /-- The singleton that is there. -/
  | same (e : Ent) (he : e ∈ st.singles) (hid : e.id = id) (hs : sing = true) (h : singleton = true) :
      Created st sing id mod singleton lock mem ok st (some e.ptr)
  | shared (e : Ent) (he : e ∈ st.singles) (hid : e.id = id) (hs : sing = true) (h : singleton = false) :
      Created st sing id mod singleton lock mem ok
        { st with refs := upd st.refs e.ptr (st.refs e.ptr + 1), held := upd st.held e.ptr (st.held e.ptr + 1) } (some e.ptr)
  /-- A new node. -/
  | plain (hno : sing = true → ∀ e ∈ st.singles, e.id ≠ id) (h : singleton = false) (hm : lock = true ∧ mem = true ∧ ok = true) :
      Created st sing id mod singleton lock mem ok
        { st with refs := upd st.refs st.next 1, alive := st.next :: st.alive, next := st.next + 1, held := upd st.held st.next 1 }
        (some st.next)
  | listed (l : List Ent) (hno : ∀ e ∈ st.singles, e.id ≠ id) (h : singleton = true) (hm : lock = true ∧ mem = true ∧ ok = true)
      (hl : l.Perm (⟨id, mod, st.next⟩ :: st.singles)) (hp : l.Pairwise fun a b => a.id < b.id) :
      Created st sing id mod singleton lock mem ok
        { st with singles := l, refs := upd st.refs st.next 1, alive := st.next :: st.alive, next := st.next + 1 } (some st.next)
  /-- Nothing. -/
  | failed (n : Nat) (hn : st.next ≤ n) (hno : sing = true → ∀ e ∈ st.singles, e.id ≠ id)
      (hm : ¬ (lock = true ∧ mem = true ∧ ok = true)) :
      Created st sing id mod singleton lock mem ok { st with next := n } none

theorem upd_upd (f : Nat → Nat) (p v w : Nat) : upd (upd f p v) p w = upd f p w := by
  funext q
  unfold upd
  split <;> rfl

theorem upd_same (f : Nat → Nat) (p v : Nat) (h : f p = v) : upd f p v = f := by
  funext q
  unfold upd
  split
  · rename_i e; rw [e, h]
  · rfl

theorem create_spec {st : St} (h : Good st) (sing : Bool) (id mod : Nat) (singleton lock mem ins ok : Bool)
    (hv : singleton = true → sing = true ∧ ins = true) :
    ∃ st' r, create sing id mod singleton lock mem ins ok st = some (st', r) ∧
      Created st sing id mod singleton lock mem ok st' r := by
  have key : (∃ e, (if sing then lookup id st else some none) = some (some e) ∧ sing = true ∧ e ∈ st.singles ∧ e.id = id) ∨
      ((if sing then lookup id st else some none) = some none ∧ (sing = true → ∀ e ∈ st.singles, e.id ≠ id)) := by
    cases sing with
    | false => exact .inr ⟨rfl, fun h => nomatch h⟩
    | true =>
      rcases lookup_spec h id with ⟨e, h1, h2, h3⟩ | ⟨h1, h2⟩
      · exact .inl ⟨e, by simpa using h1, rfl, h2, h3⟩
      · exact .inr ⟨by simpa using h1, fun _ => h2⟩
  unfold create
  rcases key with ⟨e, h1, hs, he, hid⟩ | ⟨h1, hno⟩
  · simp only [h1]
    cases singleton with
    | true => exact ⟨_, _, rfl, .same e he hid hs rfl⟩
    | false => exact ⟨_, _, rfl, .shared e he hid hs rfl⟩
  · simp only [h1]
    by_cases hlm : (lock && mem) = true
    · simp only [if_pos hlm]
      have hlm' : lock = true ∧ mem = true := by simpa using hlm
      cases singleton with
      | false =>
        cases ok with
        | true => exact ⟨_, _, rfl, .plain hno rfl ⟨hlm'.1, hlm'.2, rfl⟩⟩
        | false =>
          refine ⟨_, _, rfl, ?_⟩
          have := Created.failed (st := st) (sing := sing) (id := id) (mod := mod) (singleton := false) (lock := lock) (mem := mem)
            (ok := false) (st.next + 1) (by omega) hno (by simp)
          simpa only [upd_upd, upd_same st.refs st.next 0 (fresh_refs h), List.erase_cons_head] using this
      | true =>
        obtain ⟨hs, hins⟩ := hv rfl
        obtain ⟨p, h2, h3⟩ := add_spec h ⟨id, mod, st.next⟩ (hno hs)
        rw [hins]
        simp only [if_true, h2]
        rw [if_neg (by omega)]
        cases ok with
        | true =>
          refine ⟨_, _, rfl, .listed _ (hno hs) rfl ⟨hlm'.1, hlm'.2, rfl⟩ ?_ h3⟩
          refine List.perm_middle.trans ?_
          rw [List.take_append_drop]
        | false =>
          refine ⟨_, _, rfl, ?_⟩
          have hne : ∀ e ∈ st.singles, ¬ (e.ptr == st.next) = true := by
            intro e he hc
            have := good_of_perm_free h e he
            rw [beq_iff_eq] at hc
            omega
          have he : (st.singles.take p ++ ⟨id, mod, st.next⟩ :: st.singles.drop p).eraseP (fun e => e.ptr == st.next) = st.singles := by
            rw [List.eraseP_append_right _ (fun b hb => hne b (List.mem_of_mem_take hb)), List.eraseP_cons_of_pos (by simp),
              List.take_append_drop]
          have := Created.failed (st := st) (sing := sing) (id := id) (mod := mod) (singleton := true) (lock := lock) (mem := mem)
            (ok := false) (st.next + 1) (by omega) hno (by simp)
          simpa only [he, upd_upd, upd_same st.refs st.next 0 (fresh_refs h), List.erase_cons_head] using this
    · simp only [if_neg hlm]
      refine ⟨st, none, rfl, ?_⟩
      exact .failed st.next (Nat.le_refl _) hno (fun hc => hlm (by simp [hc.1, hc.2.1]))

theorem created_good {st st' : St} (h : Good st) {sing : Bool} {id mod : Nat} {singleton lock mem ok : Bool} {r : Option Nat}
    (hc : Created st sing id mod singleton lock mem ok st' r) : Good st' := by
  have hfr := fresh_refs h
  have hfh := fresh_held h
  have hlt := good_of_perm_free h
  cases hc with
  | same e => exact h
  | shared e he =>
    refine ⟨h.ids, h.ptrs, fun d hd => ?_, fun p hp => ?_, fun p => ?_, h.once, h.fresh⟩
    · show upd st.refs e.ptr (st.refs e.ptr + 1) d.ptr = upd st.held e.ptr (st.held e.ptr + 1) d.ptr + 1
      by_cases hde : d.ptr = e.ptr
      · rw [hde, upd_self, upd_self, h.listed e he]
      · rw [upd_ne _ _ hde, upd_ne _ _ hde]; exact h.listed d hd
    · have hpe : p ≠ e.ptr := fun hx => hp e he hx.symm
      show upd st.refs e.ptr _ p = upd st.held e.ptr _ p
      rw [upd_ne _ _ hpe, upd_ne _ _ hpe]; exact h.others p hp
    · show p ∈ st.alive ↔ 0 < upd st.refs e.ptr _ p
      rw [h.alive]
      by_cases hpe : p = e.ptr
      · rw [hpe, upd_self, h.listed e he]; omega
      · rw [upd_ne _ _ hpe]
  | plain =>
    refine ⟨h.ids, h.ptrs, fun d hd => ?_, fun p hp => ?_, fun p => ?_, ?_, fun p hp => ?_⟩
    · have : d.ptr ≠ st.next := by have := hlt d hd; omega
      show upd st.refs st.next 1 d.ptr = upd st.held st.next 1 d.ptr + 1
      rw [upd_ne _ _ this, upd_ne _ _ this]; exact h.listed d hd
    · show upd st.refs st.next 1 p = upd st.held st.next 1 p
      by_cases hpn : p = st.next
      · rw [hpn, upd_self, upd_self]
      · rw [upd_ne _ _ hpn, upd_ne _ _ hpn]; exact h.others p hp
    · show p ∈ st.next :: st.alive ↔ 0 < upd st.refs st.next 1 p
      rw [List.mem_cons, h.alive]
      by_cases hpn : p = st.next
      · rw [hpn, upd_self]; simp
      · rw [upd_ne _ _ hpn]; simp [hpn]
    · refine List.nodup_cons.2 ⟨fun hm => ?_, h.once⟩
      have := h.fresh _ hm; omega
    · show p < st.next + 1
      rcases List.mem_cons.1 hp with rfl | hp
      · omega
      · have := h.fresh p hp; omega
  | listed l hno hs hm hl hp =>
    have hmem : ∀ d, d ∈ l ↔ d = ⟨id, mod, st.next⟩ ∨ d ∈ st.singles := fun d => by rw [hl.mem_iff, List.mem_cons]
    refine ⟨hp, ?_, fun d hd => ?_, fun p hpp => ?_, fun p => ?_, ?_, fun p hp => ?_⟩
    · refine (hl.map (·.ptr)).nodup_iff.2 ?_
      rw [List.map_cons, List.nodup_cons]
      refine ⟨fun hx => ?_, h.ptrs⟩
      obtain ⟨d, hd, he⟩ := List.mem_map.1 hx
      have := hlt d hd
      have he' : d.ptr = st.next := he
      omega
    · show upd st.refs st.next 1 d.ptr = st.held d.ptr + 1
      rcases (hmem d).1 hd with rfl | hd
      · show upd st.refs st.next 1 st.next = st.held st.next + 1
        rw [upd_self, hfh]
      · have : d.ptr ≠ st.next := by have := hlt d hd; omega
        rw [upd_ne _ _ this]; exact h.listed d hd
    · show upd st.refs st.next 1 p = st.held p
      have hpn : p ≠ st.next := fun hx => hpp ⟨id, mod, st.next⟩ ((hmem _).2 (.inl rfl)) hx.symm
      rw [upd_ne _ _ hpn]
      exact h.others p (fun e he => hpp e ((hmem e).2 (.inr he)))
    · show p ∈ st.next :: st.alive ↔ 0 < upd st.refs st.next 1 p
      rw [List.mem_cons, h.alive]
      by_cases hpn : p = st.next
      · rw [hpn, upd_self]; simp
      · rw [upd_ne _ _ hpn]; simp [hpn]
    · refine List.nodup_cons.2 ⟨fun hm => ?_, h.once⟩
      have := h.fresh _ hm; omega
    · show p < st.next + 1
      rcases List.mem_cons.1 hp with rfl | hp
      · omega
      · have := h.fresh p hp; omega
  | failed n hn =>
    exact ⟨h.ids, h.ptrs, h.listed, h.others, h.alive, h.once, fun p hp => Nat.lt_of_lt_of_le (h.fresh p hp) hn⟩

theorem takeFirst_spec (M : Nat) : ∀ l : List Ent,
    (takeFirst M l = none ∧ ∀ e ∈ l, e.mod ≠ M) ∨
    ∃ e l', takeFirst M l = some (e, l') ∧ e.mod = M ∧ l.Perm (e :: l') ∧ l'.Sublist l ∧
      l'.filter (fun e => e.mod ≠ M) = l.filter (fun e => e.mod ≠ M) := by
  intro l
  induction l with
  | nil => exact .inl ⟨rfl, fun e he => nomatch he⟩
  | cons d r ih =>
    rw [takeFirst]
    by_cases hd : d.mod = M
    · rw [if_pos hd]
      refine .inr ⟨d, r, rfl, hd, List.Perm.refl _, List.sublist_cons_self _ _, ?_⟩
      rw [List.filter_cons_of_neg (by simpa using hd)]
    · rw [if_neg hd]
      rcases ih with ⟨h1, h2⟩ | ⟨e, l', h1, h2, h3, h4, h5⟩
      · rw [h1]
        refine .inl ⟨rfl, fun e he => ?_⟩
        rcases List.mem_cons.1 he with rfl | he
        · exact hd
        · exact h2 e he
      · rw [h1]
        refine .inr ⟨e, d :: l', rfl, h2, (h3.cons d).trans (List.Perm.swap _ _ _), h4.cons_cons d, ?_⟩
        rw [List.filter_cons_of_pos (by simpa using hd), List.filter_cons_of_pos (by simpa using hd), h5]

/-- Releasing one reference: of a singleton that was taken out of the array, or of the program. -/
theorem release_ok {st : St} (p : Nat) (h1 : p ∈ st.alive) (h2 : ∀ q, q ∈ st.alive ↔ 0 < st.refs q) (h3 : st.alive.Nodup) :
    ∃ al, release st p = some { st with refs := upd st.refs p (st.refs p - 1), alive := al } ∧ al.Nodup ∧
      (∀ q, q ∈ al ↔ 0 < upd st.refs p (st.refs p - 1) q) ∧ ∀ q ∈ al, q ∈ st.alive := by
  unfold release
  rw [if_pos h1]
  refine ⟨_, rfl, ?_, fun q => ?_, fun q hq => ?_⟩
  · split
    · exact h3.erase p
    · exact h3
  · have hp := (h2 p).1 h1
    split
    · rename_i hr
      rw [h3.mem_erase_iff, h2]
      by_cases hqp : q = p
      · rw [hqp, upd_self, hr]; simp
      · rw [upd_ne _ _ hqp]; simp [hqp]
    · rw [h2]
      by_cases hqp : q = p
      · rw [hqp, upd_self]; omega
      · rw [upd_ne _ _ hqp]
  · split at hq
    · exact List.mem_of_mem_erase hq
    · exact hq

/-- Whether a node is a singleton of the module. -/
def ofModule (st : St) (M p : Nat) : Prop := ∃ e ∈ st.singles, e.mod = M ∧ e.ptr = p

theorem unreg_spec (M : Nat) : ∀ (fuel : Nat) (st : St), Good st → st.singles.length < fuel →
    ∃ st', unregSingles M fuel st = some st' ∧ Good st' ∧ st'.singles = st.singles.filter (fun e => e.mod ≠ M) ∧
      st'.held = st.held ∧ (∀ p, ofModule st M p → st'.refs p = st.refs p - 1) ∧ (∀ p, ¬ ofModule st M p → st'.refs p = st.refs p) := by
  intro fuel
  induction fuel with
  | zero => intro st _ h; omega
  | succ fuel ih =>
    intro st h hf
    rw [unregSingles]
    rcases takeFirst_spec M st.singles with ⟨h1, h2⟩ | ⟨e, l, h1, h2, h3, h4, h5⟩
    · rw [h1]
      refine ⟨st, rfl, h, ?_, rfl, ?_, fun _ _ => rfl⟩
      · rw [List.filter_eq_self.2]
        intro e he
        simpa using h2 e he
      · rintro p ⟨e, he, hm, _⟩
        exact absurd hm (h2 e he)
    · rw [h1]
      have he : e ∈ st.singles := h3.mem_iff.2 List.mem_cons_self
      have hsub : ∀ d ∈ l, d ∈ st.singles := fun d hd => h4.subset hd
      have hnd : ∀ d ∈ l, d.ptr ≠ e.ptr := by
        have := (h3.map (·.ptr)).nodup_iff.1 h.ptrs
        rw [List.map_cons, List.nodup_cons] at this
        intro d hd hx
        exact this.1 (List.mem_map.2 ⟨d, hd, hx⟩)
      have hle := h.listed e he
      obtain ⟨al, r1, r2, r3, r4⟩ := release_ok (st := { st with singles := l }) e.ptr ((h.alive _).2 (by omega)) h.alive h.once
      have hg : Good { st with singles := l, refs := upd st.refs e.ptr (st.refs e.ptr - 1), alive := al } := by
        refine ⟨h.ids.sublist h4, (h4.map _).nodup h.ptrs, fun d hd => ?_, fun p hp => ?_, r3, r2, fun p hp => h.fresh p (r4 p hp)⟩
        · show upd st.refs e.ptr _ d.ptr = _
          rw [upd_ne _ _ (hnd d hd)]
          exact h.listed d (hsub d hd)
        · show upd st.refs e.ptr _ p = st.held p
          by_cases hpe : p = e.ptr
          · rw [hpe, upd_self, hle]; omega
          · rw [upd_ne _ _ hpe]
            refine h.others p (fun d hd => ?_)
            rcases List.mem_cons.1 (h3.mem_iff.1 hd) with rfl | hd
            · exact fun hx => hpe hx.symm
            · exact hp d hd
      have hlen := h3.length_eq
      rw [List.length_cons] at hlen
      obtain ⟨st', e1, g1, g2, g3, g4, g5⟩ := ih _ hg (by show l.length < fuel; omega)
      refine ⟨st', ?_, g1, ?_, g3, ?_, ?_⟩
      · show (release { st with singles := l } e.ptr).bind _ = _
        rw [r1, Option.bind_some, e1]
      · rw [g2]; exact h5
      · rintro p ⟨d, hd, hm, rfl⟩
        rcases List.mem_cons.1 (h3.mem_iff.1 hd) with rfl | hd
        · rw [g5 d.ptr (by rintro ⟨c, hc, _, hx⟩; exact hnd c hc hx)]
          exact upd_self _ _ _
        · rw [g4 d.ptr ⟨d, hd, hm, rfl⟩]
          show upd st.refs e.ptr _ d.ptr - 1 = _
          rw [upd_ne _ _ (hnd d hd)]
      · intro p hp
        rw [g5 p (by rintro ⟨c, hc, hm, hx⟩; exact hp ⟨c, hsub c hc, hm, hx⟩)]
        exact upd_ne _ _ (fun hx => hp ⟨e, he, h2, hx.symm⟩)

theorem drop_good {st : St} (h : Good st) (p : Nat) (hh : st.held p ≠ 0) :
    ∃ st', release { st with held := upd st.held p (st.held p - 1) } p = some st' ∧ Good st' := by
  have hp : 0 < st.refs p ∧ (∀ e ∈ st.singles, e.ptr = p → st.refs p = st.held p + 1) := by
    refine ⟨?_, fun e he hx => by rw [← hx]; exact h.listed e he⟩
    by_cases hl : ∃ e ∈ st.singles, e.ptr = p
    · obtain ⟨e, he, rfl⟩ := hl
      rw [h.listed e he]; omega
    · rw [h.others p (fun e he hx => hl ⟨e, he, hx⟩)]; omega
  obtain ⟨al, r1, r2, r3, r4⟩ := release_ok (st := { st with held := upd st.held p (st.held p - 1) }) p ((h.alive p).2 hp.1) h.alive h.once
  refine ⟨_, r1, h.ids, h.ptrs, fun d hd => ?_, fun q hq => ?_, r3, r2, fun q hq => h.fresh q (r4 q hq)⟩
  · show upd st.refs p (st.refs p - 1) d.ptr = upd st.held p (st.held p - 1) d.ptr + 1
    by_cases hdp : d.ptr = p
    · rw [hdp, upd_self, upd_self, hp.2 d hd hdp]; omega
    · rw [upd_ne _ _ hdp, upd_ne _ _ hdp]; exact h.listed d hd
  · show upd st.refs p (st.refs p - 1) q = upd st.held p (st.held p - 1) q
    by_cases hqp : q = p
    · rw [hqp, upd_self, upd_self, ← h.others p (by rw [← hqp]; exact hq)]
    · rw [upd_ne _ _ hqp, upd_ne _ _ hqp]; exact h.others q hq

/-! ### The property -/

/-- Whatever nodes are created, given back and whichever modules are unregistered: nothing outside of memory is released, there is
one singleton for each ID at most, and every singleton and everything the program holds is in memory, and nothing else is. -/
theorem C248_sound_partial (ops : List Op) (ho : ∀ o ∈ ops, ValidOp o) : ∃ st, run ops start = some st ∧ Good st := by
  have key : ∀ (ops : List Op) (st : St), Good st → (∀ o ∈ ops, ValidOp o) → ∃ st', run ops st = some st' ∧ Good st' := by
    intro ops
    induction ops with
    | nil => intro st h _; exact ⟨st, rfl, h⟩
    | cons o r ih =>
      intro st h ho
      have hstep : ∃ st', step st o = some st' ∧ Good st' := by
        have hv := ho o List.mem_cons_self
        cases o with
        | create sing id mod singleton lock mem ins ok =>
          obtain ⟨st', r, e, hc⟩ := create_spec h sing id mod singleton lock mem ins ok hv
          exact ⟨st', by rw [step, e]; rfl, created_good h hc⟩
        | drop p =>
          rw [step]
          by_cases hh : st.held p = 0
          · rw [if_pos hh]; exact ⟨st, rfl, h⟩
          · rw [if_neg hh]; exact drop_good h p hh
        | unregister M =>
          obtain ⟨st', e, g, _⟩ := unreg_spec M (st.singles.length + 1) st h (by omega)
          exact ⟨st', e, g⟩
      obtain ⟨s1, e1, g1⟩ := hstep
      obtain ⟨s2, e2, g2⟩ := ih s1 g1 (fun x hx => ho x (List.mem_cons_of_mem _ hx))
      exact ⟨s2, by rw [run, e1, Option.bind_some, e2], g2⟩
  refine key ops start ⟨List.Pairwise.nil, List.nodup_nil, fun e he => (nomatch he), fun _ _ => rfl, fun p => ?_, List.nodup_nil,
    fun p hp => (nomatch hp)⟩ ho
  exact ⟨fun h => (nomatch h), fun h => absurd h (Nat.lt_irrefl 0)⟩

/-- A singleton is found by the ID of its class, and nothing else is. -/
theorem C248_found (st : St) (h : Good st) (id : Nat) (r : Option Ent) :
    lookup id st = some r ↔ (∃ e ∈ st.singles, e.id = id ∧ r = some e) ∨ (r = none ∧ ∀ e ∈ st.singles, e.id ≠ id) := by
  rcases lookup_spec h id with ⟨e, h1, h2, h3⟩ | ⟨h1, h2⟩
  · rw [h1]
    constructor
    · intro hr
      exact .inl ⟨e, h2, h3, (Option.some.inj hr).symm⟩
    · rintro (⟨d, hd, hid, rfl⟩ | ⟨_, hn⟩)
      · have : d = e := by
          refine Classical.byContradiction fun hne => ?_
          obtain ⟨i, hi, rfl⟩ := List.mem_iff_getElem.1 hd
          obtain ⟨j, hj, rfl⟩ := List.mem_iff_getElem.1 h2
          have hp := List.pairwise_iff_getElem.1 h.ids
          rcases Nat.lt_trichotomy i j with hij | hij | hij
          · have := hp i j hi hj hij; omega
          · exact hne (by simp only [hij])
          · have := hp j i hj hi hij; omega
        rw [this]
      · exact absurd h3 (hn e h2)
  · rw [h1]
    constructor
    · intro hr
      exact .inr ⟨(Option.some.inj hr).symm, h2⟩
    · rintro (⟨d, hd, hid, rfl⟩ | ⟨rfl, _⟩)
      · exact absurd hid (h2 d hd)
      · rfl

/-- Creating a node of a class with a singleton gives that singleton, whatever else; the program gets a reference. -/
theorem C248_again (st : St) (h : Good st) (e : Ent) (he : e ∈ st.singles) (mod : Nat) (lock mem ins ok : Bool) :
    ∃ st', create true e.id mod false lock mem ins ok st = some (st', some e.ptr) ∧ st'.singles = st.singles ∧
      st'.alive = st.alive ∧ st'.refs e.ptr = st.refs e.ptr + 1 ∧ ∀ p, p ≠ e.ptr → st'.refs p = st.refs p := by
  have := (C248_found st h e.id (some e)).2 (.inl ⟨e, he, rfl, rfl⟩)
  unfold create
  simp only [if_true, this, Bool.false_eq_true, if_false]
  exact ⟨_, rfl, rfl, rfl, upd_self _ _ _, fun p hp => upd_ne _ _ hp⟩

/-- A new singleton is found from then on, and those of other classes as before. -/
theorem C248_new (st : St) (h : Good st) (id mod : Nat) (hno : ∀ e ∈ st.singles, e.id ≠ id) :
    ∃ st', create true id mod true true true true true st = some (st', some st.next) ∧ Good st' ∧ st.next ∉ st.alive ∧
      lookup id st' = some (some ⟨id, mod, st.next⟩) ∧ ∀ id', id' ≠ id → lookup id' st' = lookup id' st := by
  obtain ⟨st', r, e, hc⟩ := create_spec h true id mod true true true true true (fun _ => ⟨rfl, rfl⟩)
  have hg := created_good h hc
  have hna : st.next ∉ st.alive := fun hm => by have := h.fresh _ hm; omega
  cases hc with
  | same d hd hid => exact absurd hid (hno d hd)
  | shared _ _ _ _ hx => cases hx
  | plain _ hx => cases hx
  | failed _ _ _ hm => exact absurd ⟨rfl, rfl, rfl⟩ hm
  | listed l _ _ _ hl hp =>
    have hmem : ∀ d, d ∈ l ↔ d = ⟨id, mod, st.next⟩ ∨ d ∈ st.singles := fun d => by rw [hl.mem_iff, List.mem_cons]
    refine ⟨_, e, hg, hna, ?_, fun id' hne => ?_⟩
    · rw [C248_found _ hg]
      exact .inl ⟨_, (hmem _).2 (.inl rfl), rfl, rfl⟩
    · rcases lookup_spec h id' with ⟨d, h1, h2, h3⟩ | ⟨h1, h2⟩
      · rw [h1, C248_found _ hg]
        exact .inl ⟨d, (hmem d).2 (.inr h2), h3, rfl⟩
      · rw [h1, C248_found _ hg]
        refine .inr ⟨rfl, fun d hd => ?_⟩
        rcases (hmem d).1 hd with rfl | hd
        · exact fun hx => hne hx.symm
        · exact h2 d hd

/-- Unregistering a module ends; it takes exactly its singletons out of the array and releases each of them once. -/
theorem C248_unregister (st : St) (h : Good st) (M : Nat) :
    ∃ st', step st (.unregister M) = some st' ∧ Good st' ∧ st'.singles = st.singles.filter (fun e => e.mod ≠ M) ∧
      (∀ p, (∃ e ∈ st.singles, e.mod = M ∧ e.ptr = p) → st'.refs p = st.refs p - 1) ∧
      (∀ p, (¬ ∃ e ∈ st.singles, e.mod = M ∧ e.ptr = p) → st'.refs p = st.refs p) ∧
      ∀ p, p ∈ st'.alive ↔ p ∈ st.alive ∧ ¬ ((∃ e ∈ st.singles, e.mod = M ∧ e.ptr = p) ∧ st.held p = 0) := by
  obtain ⟨st', e, g, g1, g2, g3, g4⟩ := unreg_spec M (st.singles.length + 1) st h (by omega)
  refine ⟨st', e, g, g1, g3, g4, fun p => ?_⟩
  rw [g.alive, h.alive]
  by_cases hp : ofModule st M p
  · have hp' := hp
    obtain ⟨d, hd, hm, rfl⟩ := hp'
    rw [g3 _ hp, h.listed d hd]
    constructor
    · intro h1; exact ⟨by omega, fun h2 => by omega⟩
    · rintro ⟨_, h2⟩
      refine Classical.byContradiction fun h3 => h2 ⟨hp, by omega⟩
  · rw [g4 p hp]
    exact ⟨fun h1 => ⟨h1, fun h2 => hp h2.1⟩, fun h1 => h1.1⟩

/-- When there is no memory for its place in the array, the node of the singleton stays in memory, and nobody has it. -/
theorem C248_leak_counterexample :
    ∃ st, run [.create true 5 0 true true true false true] start = some st ∧ st.alive = [1] ∧ st.singles = [] ∧ st.held 1 = 0 ∧
      st.refs 1 = 1 := ⟨_, rfl, rfl, rfl, rfl, rfl⟩

/-- Two singletons of two modules; the program holds the second, so it outlives its module. -/
example : (run [.create true 7 2 true true true true true, .create true 5 1 true true true true true,
      .create true 5 1 false true true true true] start).map (fun st => (st.singles, st.alive, st.refs 2)) =
    some ([⟨5, 1, 2⟩, ⟨7, 2, 1⟩], [2, 1], 2) ∧
    (run [.create true 7 2 true true true true true, .create true 5 1 true true true true true,
      .create true 5 1 false true true true true, .unregister 1, .unregister 2] start).map
        (fun st => (st.singles, st.alive, st.refs 2, st.refs 1)) = some ([], [2], 1, 0) := ⟨rfl, rfl⟩

end Verif.Singletons
