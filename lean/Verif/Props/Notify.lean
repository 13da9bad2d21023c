import Verif.Core.NotifyLemmas
/-!
C116: an event reaches everyone registered for it.
-/
set_option linter.unusedSimpArgs false
namespace Verif.Notify

/-- What a program does: registers and unregisters, or raises the event, with callbacks acting as `script` says. -/
inductive Act where
  | op (o : Op)
  | raise (script : List (Nat × Nat) → List Op)

/-- The calls made, event by event; `none` is undefined behaviour. -/
def perform : List Act → State → Option (State × List (List (Nat × Nat)))
  | [], s => some (s, [])
  | .op o :: acts, s =>
    match runOps [o] s with
    | none => none
    | some s' => perform acts s'
  | .raise script :: acts, s =>
    match notify script s with
    | none => none
    | some (s', calls, _) =>
      match perform acts s' with
      | none => none
      | some (s'', more) => some (s'', calls :: more)

/-- Specification of the same, on lists of registrations. -/
def performSpec : List Act → Spec → Spec × List (List (Nat × Nat))
  | [], p => (p, [])
  | .op o :: acts, p => performSpec acts (specOp o p)
  | .raise script :: acts, p =>
    let r := specCalls script p.list p []
    let q := performSpec acts r.1
    (q.1, r.2 :: q.2)

/-- No callback, having unregistered itself, unregisters the one behind it in the same call. -/
def carefulActs : List Act → Spec → Prop
  | [], _ => True
  | .op o :: acts, p => carefulActs acts (specOp o p)
  | .raise script :: acts, p => carefulCalls script p.list p [] ∧ carefulActs acts (specCalls script p.list p []).1

/-- A node nobody has registered with. -/
def start : State := ⟨fun _ => none, 1, none⟩

/-- Nobody is being notified. -/
def Idle (s : State) : Prop := ∀ t, s.top = some t → t.busy = false

theorem settle_idle (old : Mark) (s : State) (h : Idle s) : Idle (settle old s) := by
  unfold settle
  cases ht : s.top with
  | none => exact h
  | some t =>
    simp only
    have hb := h t ht
    by_cases hc : t.next = 0 ∧ old = t.mark
    · rw [if_pos hc, if_neg (by rw [hb]; simp)]
      intro t' h'; cases h'
    · rw [if_neg hc]; exact h

theorem op_idle (o : Op) (s s' : State) (h : Idle s) (hr : runOps [o] s = some s') : Idle s' := by
  cases o with
  | notify => cases hr; exact h
  | add f x =>
    cases hr
    intro t ht
    simp only [add, Option.some.injEq] at ht
    subst ht
    cases hs : s.top with
    | none => rfl
    | some t => exact h t hs
  | remove f x =>
    simp only [runOps] at hr
    unfold remove at hr
    cases ht : s.top with
    | none => rw [ht] at hr; cases hr; exact h
    | some t =>
      rw [ht] at hr
      simp only at hr
      have hb := h t ht
      cases hf : find s.heap f x (s.fresh + 1) 0 t.next with
      | bad => rw [hf] at hr; cases hr
      | none => rw [hf] at hr; cases hr; exact settle_idle _ _ h
      | «at» prev a c =>
        rw [hf] at hr
        simp only at hr
        by_cases hm : t.mark = .item a
        · rw [if_pos hm] at hr
          cases hr
          refine settle_idle _ _ ?_
          intro t' ht'
          simp only [Option.some.injEq] at ht'
          subst ht'
          by_cases hp : prev = 0
          · rw [if_pos hp]; exact hb
          · rw [if_neg hp]; exact hb
        · rw [if_neg hm] at hr
          cases hr
          refine settle_idle _ _ ?_
          intro t' ht'
          simp only [Option.some.injEq] at ht'
          subst ht'
          by_cases hp : prev = 0
          · rw [if_pos hp]; exact hb
          · rw [if_neg hp]; exact hb

theorem op_rep (o : Op) (s : State) (p : Spec) (r : Rep s p) : ∃ s', runOps [o] s = some s' ∧ Rep s' (specOp o p) := by
  cases o with
  | notify => exact ⟨s, rfl, r⟩
  | add f x => exact ⟨_, rfl, add_rep r f x⟩
  | remove f x =>
    obtain ⟨s', h1, h2⟩ := remove_rep r f x
    exact ⟨s', by simp only [runOps, h1], h2⟩

theorem notify_between (s : State) (p : Spec) (r : Rep s p) (t : Top) (ht : s.top = some t) :
    Between p.list t.next { s with top := some { t with busy := true } } p := by
  have hseg := r.seg
  rw [ht] at hseg
  exact ⟨⟨r.fresh, r.pos, r.live, r.nodup, hseg⟩, fun d hd => (r.lt d hd).2, r.nodup, ⟨_, rfl, rfl⟩, [], p.list, rfl, hseg,
    by simp, List.Sublist.refl _⟩

theorem notify_spec (script : List (Nat × Nat) → List Op) (s : State) (p : Spec) (r : Rep s p) (hi : Idle s) :
    (carefulCalls script p.list p [] → ∃ s' b, notify script s = some (s', (specCalls script p.list p []).2, b) ∧
      Rep s' (specCalls script p.list p []).1 ∧ Idle s') ∧
    (¬ carefulCalls script p.list p [] → notify script s = none) := by
  unfold notify
  cases ht : s.top with
  | none =>
    have hseg := r.seg
    rw [ht] at hseg
    simp only at hseg
    rw [hseg]
    exact ⟨fun _ => ⟨s, false, rfl, r, hi⟩, fun hc => absurd trivial hc⟩
  | some t =>
    simp only
    have hlen := r.len
    have hbt := notify_between s p r t ht
    rw [if_neg (by rw [hi t ht]; simp)]
    constructor
    · intro hc
      obtain ⟨s', pd', t', h1, h2, h3⟩ := loop_spec script p.list (s.fresh + 1) t.next [] false _ p (by omega) hbt hc
      rw [h1]
      simp only
      rw [h3]
      have hseg := h2.seg
      rw [h3] at hseg
      refine ⟨_, _, rfl, ⟨h2.fresh, h2.pos, h2.live, h2.nodup, hseg⟩, ?_⟩
      intro t'' h
      cases h
      rfl
    · intro hc
      rw [loop_careless script p.list (s.fresh + 1) t.next [] false _ p (by omega) hbt hc]

theorem perform_spec : ∀ (acts : List Act) (s : State) (p : Spec), Rep s p → Idle s →
    (carefulActs acts p → ∃ s', perform acts s = some (s', (performSpec acts p).2) ∧ Rep s' (performSpec acts p).1) ∧
    (¬ carefulActs acts p → perform acts s = none)
  | [], s, p, r, _ => ⟨fun _ => ⟨s, rfl, r⟩, fun h => absurd trivial h⟩
  | .op o :: acts, s, p, r, hi => by
    obtain ⟨s', h1, h2⟩ := op_rep o s p r
    have ih := perform_spec acts s' (specOp o p) h2 (op_idle o s s' hi h1)
    simp only [perform, h1]
    exact ih
  | .raise script :: acts, s, p, r, hi => by
    obtain ⟨hn1, hn2⟩ := notify_spec script s p r hi
    constructor
    · intro hc
      obtain ⟨s', b, h1, h2, h3⟩ := hn1 hc.1
      obtain ⟨s'', h4, h5⟩ := (perform_spec acts s' _ h2 h3).1 hc.2
      refine ⟨s'', ?_, h5⟩
      simp only [perform, h1, h4]
      rfl
    · intro hc
      by_cases hc1 : carefulCalls script p.list p []
      · obtain ⟨s', b, h1, h2, h3⟩ := hn1 hc1
        have h4 := (perform_spec acts s' _ h2 h3).2 fun h => hc ⟨hc1, h⟩
        simp only [perform, h1, h4]
      · simp only [perform, hn2 hc1]

/-- **C116.** Whatever is registered and unregistered, by whom and when, also by the callbacks while the event is being
delivered: each event calls everyone registered when it is raised exactly once, the latest first, except those unregistered
before their turn; and records are touched after their release exactly when a callback unregisters itself and then, in the same
call, the listener behind it. -/
theorem C116_notification_partial (acts : List Act) :
    (carefulActs acts ⟨[], 1⟩ → ∃ s, perform acts start = some (s, (performSpec acts ⟨[], 1⟩).2)) ∧
    (¬ carefulActs acts ⟨[], 1⟩ → perform acts start = none) := by
  have r : Rep start ⟨[], 1⟩ := ⟨rfl, by decide, by simp [start], by simp [keys], rfl⟩
  obtain ⟨h1, h2⟩ := perform_spec acts start _ r (by intro t h; cases h)
  exact ⟨fun h => by obtain ⟨s, hs, _⟩ := h1 h; exact ⟨s, hs⟩, h2⟩

/-- Is it an unregistration? -/
def Op.isRemove : Op → Bool
  | .remove _ _ => true
  | _ => false

theorem careful_one (e : Entry) : ∀ (ops : List Op) (watch : Option Entry) (p : Spec),
    (∀ d, watch = some d → d ∈ p.list) →
    (watch = none ∧ (ops.filter Op.isRemove).length ≤ 1 ∨ (ops.filter Op.isRemove).length = 0) → careful e watch p ops
  | [], _, _, _, _ => trivial
  | .add f x :: ops, watch, p, hd, h => by
    have hkeep : ¬ (e ∈ p.list ∧ e ∉ (specOp (.add f x) p).list) := by
      intro hh; exact hh.2 (by simp only [specOp]; exact List.mem_cons_of_mem _ hh.1)
    have hd' : ∀ d, watch = some d → d ∈ (specOp (.add f x) p).list := by
      intro d hw; simp only [specOp]; exact List.mem_cons_of_mem _ (hd d hw)
    refine ⟨hd', ?_⟩
    rw [if_neg hkeep]
    exact careful_one e ops watch _ hd' h
  | .notify :: ops, watch, p, hd, h => by
    have hkeep : ¬ (e ∈ p.list ∧ e ∉ (specOp .notify p).list) := fun hh => hh.2 hh.1
    refine ⟨hd, ?_⟩
    rw [if_neg hkeep]
    exact careful_one e ops watch _ hd h
  | .remove f x :: ops, watch, p, hd, h => by
    have h1 : ((Op.remove f x :: ops).filter Op.isRemove).length = (ops.filter Op.isRemove).length + 1 := by
      rw [List.filter_cons_of_pos rfl]; rfl
    rw [h1] at h
    rcases h with ⟨hw, h⟩ | h
    · subst hw
      refine ⟨(by intro d h; cases h), ?_⟩
      have h0 : (ops.filter Op.isRemove).length = 0 := by omega
      have key : ∀ w : Option Entry, (∀ d, w = some d → d ∈ (specOp (.remove f x) p).list) → careful e w (specOp (.remove f x) p) ops :=
        fun w hw => careful_one e ops w _ hw (Or.inr h0)
      by_cases hg : e ∈ p.list ∧ e ∉ (specOp (.remove f x) p).list
      · rw [if_pos hg]
        apply key
        intro d hdf
        -- the follower is another registration and stays
        rcases eraseP_split f x p.list with ⟨e1, _⟩ | ⟨a, m, b, e1, _, _, e4⟩
        · exfalso; apply hg.2; simp only [specOp]; rw [e1]; exact hg.1
        · have hp : (specOp (.remove f x) p).list = a ++ b := by simp only [specOp]; rw [e4]
          have hme : m = e := by
            have h2 := hg.1
            have h3 := hg.2
            rw [hp] at h3
            rw [e1] at h2
            simp only [List.mem_append, List.mem_cons] at h2 h3
            rcases h2 with h2 | h2 | h2
            · exact absurd (Or.inl h2) h3
            · exact h2.symm
            · exact absurd (Or.inr h2) h3
          subst hme
          have hna : m ∉ a := by
            have h3 := hg.2
            rw [hp] at h3
            exact fun h => h3 (List.mem_append_left _ h)
          rw [e1, follower_eq m b a hna] at hdf
          rw [hp]
          exact List.mem_append_right _ (List.mem_of_mem_head? hdf)
      · rw [if_neg hg]
        exact key none (by intro d h; cases h)
    · omega

/-- Callbacks that unregister at most one listener per call are careful. -/
theorem C116_one_removal_is_careful (script : List (Nat × Nat) → List Op) (h : ∀ hist, ((script hist).filter Op.isRemove).length ≤ 1) :
    ∀ (todo : List Entry) (p : Spec) (hist : List (Nat × Nat)), carefulCalls script todo p hist
  | [], _, _ => trivial
  | e :: todo, p, hist => by
    rw [carefulCalls]
    by_cases hm : e ∈ p.list
    · rw [if_pos hm]
      exact ⟨careful_one e _ none p (by intro d h; cases h) (Or.inl ⟨rfl, h _⟩), C116_one_removal_is_careful script h todo _ _⟩
    · rw [if_neg hm]
      exact C116_one_removal_is_careful script h todo p hist

/-- Three listeners; the first one called takes itself off and registers another, which is not called this time. -/
example : (∃ s, perform [.op (.add 1 0), .op (.add 2 0), .op (.add 3 0),
      .raise fun h => if h.length = 1 then [.remove 3 0, .add 4 0, .notify] else [], .raise fun _ => []] start =
        some (s, [[(3, 0), (2, 0), (1, 0)], [(4, 0), (2, 0), (1, 0)]])) ∧
    (performSpec [.op (.add 1 0), .op (.add 2 0), .op (.add 3 0),
      .raise fun h => if h.length = 1 then [.remove 3 0, .add 4 0, .notify] else [], .raise fun _ => []] ⟨[], 1⟩).2 =
        [[(3, 0), (2, 0), (1, 0)], [(4, 0), (2, 0), (1, 0)]] :=
  ⟨⟨_, rfl⟩, by decide⟩

/-- A callback that unregisters itself and the next listener: the released record is read. -/
theorem C116_release_counterexample : ∃ acts : List Act, perform acts start = none :=
  ⟨[.op (.add 1 0), .op (.add 2 0), .raise fun _ => [.remove 2 0, .remove 1 0]], rfl⟩

/-- When the last listener unregisters itself while being called, the list stays behind: the next event claims to have
had receivers although nobody is called. (With assertions enabled the program stops there, node.c:1734.) -/
theorem C116_receivers_counterexample : ∃ (script : List (Nat × Nat) → List Op) (s s' : State),
    perform [.op (.add 1 0), .raise script] start = some (s, [[(1, 0)]]) ∧
    (performSpec [.op (.add 1 0), .raise script] ⟨[], 1⟩).1.list = [] ∧
    notify script s = some (s', [], true) :=
  ⟨fun _ => [.remove 1 0], _, _, rfl, by decide, rfl⟩

/-- A callback that unregisters itself, the last in line, and then everyone before it: its own record is never released. -/
theorem C116_leak_counterexample : ∃ (acts : List Act) (s : State) (calls : List (List (Nat × Nat))) (c : Cell),
    perform acts start = some (s, calls) ∧ (performSpec acts ⟨[], 1⟩).1.list = [] ∧ s.heap 1 = some c :=
  ⟨[.op (.add 1 0), .op (.add 2 0), .raise fun h => if h.length = 2 then [.remove 1 0, .remove 2 0] else []], _, _, _, rfl, by decide, rfl⟩

end Verif.Notify
