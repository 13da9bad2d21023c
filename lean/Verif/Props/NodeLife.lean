import Verif.Core.NodeLife
/-!
C194: creation and deletion of a node go through its classes in order and in pairs; modules in use are kept.
-/
namespace Verif.Core.NodeLife

/-! ### Specification -/

/-- What the creation of a node does for one class, in the order of the definition. -/
def ups (c : Cls) (l : List Item) : List Ev :=
  l.flatMap fun
    | .create f => [.create c.id f]
    | .array i => [.init c.id i]
    | .delete _ => []

/-- What its deletion does. -/
def downs (c : Cls) : List Ev :=
  c.items.flatMap fun
    | .delete f => [.delete c.id f]
    | .array i => [.clear c.id i]
    | .create _ => []

/-- The root class first. -/
def built (cs : List Cls) : List Ev := cs.reverse.flatMap fun c => ups c c.items

/-- The class of the node first. -/
def unbuilt (cs : List Cls) : List Ev := cs.flatMap downs

/-- What was done to a node. -/
def history (s : State) (a : Nat) : List Ev := (s.log.filter fun e => e.1 == a).map (·.2)

/-- How many classes of the nodes that exist are from a module. -/
def users (s : State) (k : Nat) : Int := ((s.nodes.flatMap (·.2)).filter fun c => c.module == k).length

/-- A program; nodes get names of their own. -/
inductive Run (m0 : Mods) : State → Prop where
  | start : Run m0 ⟨[], m0, []⟩
  | create {s : State} (a : Nat) (cs : List Cls) (ok : Nat → Nat → Bool) : Run m0 s → (∀ x ∈ s.nodes, x.1 ≠ a) → history s a = [] →
      Run m0 (create s a cs ok true).1
  | delete {s : State} (a : Nat) : Run m0 s → Run m0 (delete s a)

/-- The possible histories of a node. -/
inductive Told (s : State) (a : Nat) : Prop where
  /-- It was never there. -/
  | never : (∀ x ∈ s.nodes, x.1 ≠ a) → history s a = [] → Told s a
  /-- It exists and is built. -/
  | exists_ (cs : List Cls) : (a, cs) ∈ s.nodes → history s a = built cs → Told s a
  /-- It was built and then taken apart, each class once. -/
  | gone (cs : List Cls) : (∀ x ∈ s.nodes, x.1 ≠ a) → history s a = built cs ++ unbuilt cs → Told s a
  /-- Function `f` of class `c` failed; the classes above it were built before and are taken apart, each once. -/
  | failed (c : Cls) (above : List Cls) (pre post : List Item) (f : Nat) : (∀ x ∈ s.nodes, x.1 ≠ a) →
      c.items = pre ++ .create f :: post →
      history s a = built above ++ ups c pre ++ [.create c.id f] ++ unbuilt above → Told s a

/-! ### Proofs -/

theorem callDelete_eq (cs : List Cls) : callDelete cs = unbuilt cs := by
  induction cs with
  | nil => rfl
  | cons c r ih =>
    simp only [callDelete, unbuilt, List.flatMap_cons, ih, downs]
    congr 1
    induction c.items with
    | nil => rfl
    | cons x l ih2 => cases x <;> simp_all [List.filterMap_cons, List.flatMap_cons]

theorem createItems_ok {ok : Nat → Nat → Bool} {c : Cls} {l : List Item} (h : (createItems ok c.id l).2 = true) :
    (createItems ok c.id l).1 = ups c l := by
  induction l with
  | nil => rfl
  | cons x l ih =>
    cases x with
    | create f =>
      simp only [createItems] at h ⊢
      split at h
      · rename_i hk
        simp only [hk, if_true, ih h, ups, List.flatMap_cons]; rfl
      · cases h
    | array i => simp only [createItems] at h ⊢; simp only [ih h, ups, List.flatMap_cons]; rfl
    | delete f => simp only [createItems] at h ⊢; simp only [ih h, ups, List.flatMap_cons]; rfl

theorem createItems_fail {ok : Nat → Nat → Bool} {c : Cls} {l : List Item} (h : (createItems ok c.id l).2 = false) :
    ∃ pre post f, l = pre ++ .create f :: post ∧ ok c.id f = false ∧ (∀ g, .create g ∈ pre → ok c.id g = true) ∧
      (createItems ok c.id l).1 = ups c pre ++ [.create c.id f] := by
  induction l with
  | nil => cases h
  | cons x l ih =>
    cases x with
    | create f =>
      simp only [createItems] at h ⊢
      split at h
      · rename_i hk
        obtain ⟨pre, post, g, h1, h2, h3, h4⟩ := ih h
        refine ⟨.create f :: pre, post, g, by rw [h1]; rfl, h2, ?_, by simp only [hk, if_true, h4]; rfl⟩
        intro g' hg
        rcases List.mem_cons.1 hg with h | h
        · cases h; exact hk
        · exact h3 g' h
      · rename_i hk
        refine ⟨[], l, f, rfl, by simpa using hk, by simp, by simp only [hk]; rfl⟩
    | array i =>
      simp only [createItems] at h ⊢
      obtain ⟨pre, post, g, h1, h2, h3, h4⟩ := ih h
      refine ⟨.array i :: pre, post, g, by rw [h1]; rfl, h2, ?_, by rw [h4]; rfl⟩
      intro g' hg
      rcases List.mem_cons.1 hg with h | h
      · cases h
      · exact h3 g' h
    | delete f =>
      simp only [createItems] at h ⊢
      obtain ⟨pre, post, g, h1, h2, h3, h4⟩ := ih h
      refine ⟨.delete f :: pre, post, g, by rw [h1]; rfl, h2, ?_, by rw [h4]; rfl⟩
      intro g' hg
      rcases List.mem_cons.1 hg with h | h
      · cases h
      · exact h3 g' h

theorem built_cons (c : Cls) (r : List Cls) : built (c :: r) = built r ++ ups c c.items := by
  simp [built]

theorem callCreate_ok {ok : Nat → Nat → Bool} {cs : List Cls} (h : (callCreate ok cs).2 = true) :
    (callCreate ok cs).1 = built cs := by
  induction cs with
  | nil => rfl
  | cons c r ih =>
    simp only [callCreate] at h ⊢
    cases hx : (callCreate ok r).2 with
    | false => simp [hx] at h
    | true =>
      cases hy : (createItems ok c.id c.items).2 with
      | false => simp [hx, hy] at h
      | true =>
        simp only [hx, hy, Bool.not_true, Bool.false_eq_true, if_false, if_true]
        rw [ih hx, createItems_ok hy, built_cons]

theorem callCreate_fail {ok : Nat → Nat → Bool} {cs : List Cls} (h : (callCreate ok cs).2 = false) :
    ∃ below c above pre post f, cs = below ++ c :: above ∧ c.items = pre ++ .create f :: post ∧ ok c.id f = false ∧
      (∀ g, .create g ∈ pre → ok c.id g = true) ∧ (∀ d ∈ above, ∀ g, .create g ∈ d.items → ok d.id g = true) ∧
      (callCreate ok cs).1 = built above ++ ups c pre ++ [.create c.id f] ++ unbuilt above := by
  induction cs with
  | nil => cases h
  | cons c r ih =>
    simp only [callCreate] at h ⊢
    cases hx : (callCreate ok r).2 with
    | false =>
      obtain ⟨below, d, above, pre, post, f, h1, h2, h3, h4, h5, h6⟩ := ih hx
      refine ⟨c :: below, d, above, pre, post, f, by rw [h1]; rfl, h2, h3, h4, h5, ?_⟩
      simp [h6]
    | true =>
      cases hy : (createItems ok c.id c.items).2 with
      | true => simp [hx, hy] at h
      | false =>
        obtain ⟨pre, post, f, h1, h2, h3, h4⟩ := createItems_fail hy
        refine ⟨[], c, r, pre, post, f, rfl, h1, h2, h3, ?_, ?_⟩
        · clear ih h hy h1 h2 h3 h4
          induction r with
          | nil => simp
          | cons d r ih =>
            simp only [callCreate] at hx
            cases hx1 : (callCreate ok r).2 with
            | false => simp [hx1] at hx
            | true =>
              cases hx2 : (createItems ok d.id d.items).2 with
              | false => simp [hx1, hx2] at hx
              | true =>
                intro e he g hg
                rcases List.mem_cons.1 he with rfl | he
                · exact items_ok hx2 g hg
                · exact ih hx1 e he g hg
        · simp only [hx, Bool.not_true, Bool.false_eq_true, if_false]
          rw [h4, callCreate_ok hx, callDelete_eq]
          simp [List.append_assoc]
where
  items_ok {ok : Nat → Nat → Bool} {c : Nat} {l : List Item} (h : (createItems ok c l).2 = true) :
      ∀ g, .create g ∈ l → ok c g = true := by
    induction l with
    | nil => simp
    | cons x l ih =>
      intro g hg
      cases x with
      | create f =>
        simp only [createItems] at h
        split at h
        · rename_i hk
          rcases List.mem_cons.1 hg with e | e
          · cases e; exact hk
          · exact ih h g e
        · cases h
      | array i =>
        rcases List.mem_cons.1 hg with e | e
        · cases e
        · exact ih h g e
      | delete i =>
        rcases List.mem_cons.1 hg with e | e
        · cases e
        · exact ih h g e

def inMod (cs : List Cls) (k : Nat) : Int := (cs.filter fun c => c.module == k).length

theorem inMod_cons (c : Cls) (r : List Cls) (k : Nat) : inMod (c :: r) k = (if k = c.module then 1 else 0) + inMod r k := by
  simp only [inMod, List.filter_cons]
  by_cases h : c.module = k
  · subst h; simp; omega
  · have h2 : ¬ k = c.module := fun e => h e.symm
    simp [h, h2]

theorem unlock_eq (cs : List Cls) : ∀ (m : Mods) (k : Nat), unlock m cs k = m k - inMod cs k := by
  induction cs with
  | nil => intro m k; simp [unlock, inMod]
  | cons c r ih =>
    intro m k
    simp only [unlock, ih, inMod_cons, bump]
    split <;> omega

theorem lock_eq (m : Mods) (cs : List Cls) (k : Nat) :
    (lock m cs).1 k = if (lock m cs).2 then m k + inMod cs k else m k := by
  induction cs with
  | nil => simp [lock, inMod]
  | cons c r ih =>
    simp only [lock]
    cases hx : (lock m r).2 with
    | false => simpa [hx] using ih
    | true =>
      simp only [hx, if_true] at ih
      simp only [Bool.not_true, Bool.false_eq_true, if_false]
      cases hc : c.inited with
      | true => simp only [if_true, bump, inMod_cons, ih]; split <;> omega
      | false => simp only [Bool.false_eq_true, if_false, unlock_eq, bump, inMod_cons, ih]; split <;> omega

theorem lock_ok (m : Mods) (cs : List Cls) : (lock m cs).2 = cs.all (·.inited) := by
  induction cs with
  | nil => rfl
  | cons c r ih =>
    simp only [lock, List.all_cons]
    cases hx : (lock m r).2 <;> cases hc : c.inited <;> simp [← ih, hx]

theorem users_cons (s : State) (a : Nat) (cs : List Cls) (m : Mods) (l : List (Nat × Ev)) (k : Nat) :
    users ⟨(a, cs) :: s.nodes, m, l⟩ k = inMod cs k + users s k := by
  simp [users, inMod]

theorem history_append (n : List (Nat × List Cls)) (m : Mods) (s : State) (a b : Nat) (l : List Ev) :
    history ⟨n, m, s.log ++ l.map fun e => (a, e)⟩ b = history s b ++ if b = a then l else [] := by
  simp only [history, List.filter_append, List.map_append]
  congr 1
  induction l with
  | nil => simp
  | cons e l ih =>
    by_cases h : a = b
    · subst h; simp_all [List.filter_cons]
    · have h2 : ¬ b = a := fun x => h x.symm
      simp_all [List.filter_cons]

theorem lookup_mem {l : List (Nat × List Cls)} {a : Nat} {cs : List Cls} (h : l.lookup a = some cs) : (a, cs) ∈ l := by
  induction l with
  | nil => cases h
  | cons e l ih =>
    obtain ⟨k, v⟩ := e
    simp only [List.lookup_cons] at h
    split at h
    · rename_i hk; cases h; rw [show a = k from eq_of_beq hk]; exact List.mem_cons_self
    · exact List.mem_cons_of_mem _ (ih h)

theorem users_erase {l : List (Nat × List Cls)} {a : Nat} {cs : List Cls} (h : l.lookup a = some cs) (m : Mods) (g : List (Nat × Ev))
    (k : Nat) : users ⟨l.eraseP fun x => x.1 == a, m, g⟩ k + inMod cs k = users ⟨l, m, g⟩ k := by
  induction l with
  | nil => cases h
  | cons e l ih =>
    obtain ⟨b, v⟩ := e
    simp only [List.lookup_cons] at h
    split at h
    · rename_i hk
      have : (b == a) = true := by simp only [beq_iff_eq] at hk ⊢; omega
      cases h
      simp [this, users, inMod]; omega
    · rename_i hk
      have hk : (b == a) = false := by simp only [beq_eq_false_iff_ne, ne_eq] at hk ⊢; omega
      have := ih h
      simp only [users, List.eraseP_cons, hk, cond_false, List.flatMap_cons, List.filter_append, List.length_append] at this ⊢
      omega

theorem run_users {m0 : Mods} {s : State} (r : Run m0 s) (k : Nat) : s.mods k = m0 k + users s k := by
  induction r with
  | start => simp [users]
  | @create s a cs ok r _ _ ih =>
    have hl := lock_eq s.mods cs k
    simp only [create]
    cases h1 : (lock s.mods cs).2 with
    | false => simp only [h1, Bool.false_eq_true, if_false] at hl; simp [hl, ih, users]
    | true =>
      simp only [h1, if_true] at hl
      by_cases h2 : nodeSize cs = 0
      · simp only [h2, Bool.not_true, Bool.false_eq_true, if_false, if_true, unlock_eq, hl, ih]; simp only [users]; omega
      · cases h3 : (callCreate ok cs).2 with
        | true =>
          simp only [h2, h3, Bool.not_true, Bool.false_eq_true, if_false, if_true, users_cons, hl, ih]; omega
        | false =>
          simp only [h2, h3, Bool.not_true, Bool.false_eq_true, if_false, unlock_eq, hl, ih]; simp only [users]; omega
  | @delete s a r ih =>
    simp only [delete]
    split
    · exact ih
    · rename_i cs h
      have := users_erase h s.mods s.log k
      simp only [unlock_eq, ih]
      simp only [users] at this ⊢
      omega

theorem names_nodup {m0 : Mods} {s : State} (r : Run m0 s) : (s.nodes.map (·.1)).Nodup := by
  induction r with
  | start => exact List.nodup_nil
  | @create s a cs ok r hf _ ih =>
    have hc : ((a, cs) :: s.nodes).map (·.1) |>.Nodup := by
      simp only [List.map_cons, List.nodup_cons]
      refine ⟨?_, ih⟩
      intro h
      obtain ⟨x, hx, e⟩ := List.mem_map.1 h
      exact hf x hx e
    simp only [create]
    repeat' split
    all_goals first | exact ih | exact hc
  | @delete s a r ih =>
    simp only [delete]
    split
    · exact ih
    · exact List.Nodup.sublist ((List.eraseP_sublist).map _) ih

theorem mem_eraseP_ne {l : List (Nat × List Cls)} {a b : Nat} {cs : List Cls} (h : b ≠ a) :
    (b, cs) ∈ l.eraseP (fun x => x.1 == a) ↔ (b, cs) ∈ l := by
  have : ¬ ((b, cs).1 == a) = true := by simpa using h
  exact List.mem_eraseP_of_neg this

theorem not_mem_eraseP {l : List (Nat × List Cls)} {a : Nat} (h : (l.map (·.1)).Nodup) :
    ∀ x ∈ l.eraseP (fun e => e.1 == a), x.1 ≠ a := by
  induction l with
  | nil => simp
  | cons e l ih =>
    obtain ⟨k, v⟩ := e
    simp only [List.map_cons, List.nodup_cons] at h
    simp only [List.eraseP_cons]
    by_cases hk : k = a
    · subst hk
      simp only [BEq.rfl, cond_true]
      intro x hx e
      exact h.1 (e ▸ List.mem_map_of_mem hx)
    · have : (k == a) = false := by simpa using hk
      simp only [this, cond_false, List.mem_cons]
      rintro x (rfl | hx)
      · exact hk
      · exact ih h.2 x hx

/-- The history of a node does not change with those of others. -/
theorem Told.other {s s' : State} {b : Nat} (h : Told s b) (hh : history s' b = history s b)
    (hn : ∀ cs, (b, cs) ∈ s'.nodes ↔ (b, cs) ∈ s.nodes) : Told s' b := by
  have hno : (∀ x ∈ s.nodes, x.1 ≠ b) → ∀ x ∈ s'.nodes, x.1 ≠ b := by
    rintro h ⟨y, cs⟩ hx rfl
    exact h _ ((hn cs).1 hx) rfl
  cases h with
  | never h1 h2 => exact .never (hno h1) (hh.trans h2)
  | exists_ cs h1 h2 => exact .exists_ cs ((hn cs).2 h1) (hh.trans h2)
  | gone cs h1 h2 => exact .gone cs (hno h1) (hh.trans h2)
  | failed c above pre post f h1 h2 h3 => exact .failed c above pre post f (hno h1) h2 (hh.trans h3)

/-! ### C194 -/

/-- C194: at any time every node has one of these histories: it was never there; or it exists and the functions and arrays of all
its classes were called and set up, root first; or it is gone, and the same was undone, once, in the opposite order of the classes; or a function failed
and exactly the classes above were undone. -/
theorem C194_history {m0 : Mods} {s : State} (r : Run m0 s) (b : Nat) : Told s b := by
  induction r with
  | start => exact .never (by simp) rfl
  | @create s a cs ok r hf hh ih =>
    simp only [create]
    by_cases h1 : (lock s.mods cs).2 = true
    · by_cases h2 : nodeSize cs = 0
      · simp only [h1, h2, Bool.not_true, Bool.false_eq_true, if_false, if_true]
        exact ih.other rfl fun _ => Iff.rfl
      · cases h3 : (callCreate ok cs).2 with
        | true =>
          simp only [h1, h2, Bool.not_true, Bool.false_eq_true, if_false, if_true]
          by_cases hb : b = a
          · subst hb
            refine .exists_ cs List.mem_cons_self ?_
            rw [history_append, hh, callCreate_ok h3]; simp
          · refine ih.other (by rw [history_append]; simp [hb]) fun ds => ?_
            simp only [List.mem_cons, Prod.mk.injEq, hb, false_and, false_or]
        | false =>
          simp only [h1, h2, Bool.not_true, Bool.false_eq_true, if_false]
          by_cases hb : b = a
          · subst hb
            obtain ⟨below, c, above, pre, post, f, _, h5, _, _, _, h6⟩ := callCreate_fail h3
            refine .failed c above pre post f hf h5 ?_
            rw [history_append, hh, h6]; simp
          · exact ih.other (by rw [history_append]; simp [hb]) fun ds => Iff.rfl
    · simp only [h1, Bool.not_false, if_true]
      exact ih.other rfl fun _ => Iff.rfl
  | @delete s a r ih =>
    simp only [delete]
    split
    · exact ih
    · rename_i cs h
      by_cases hb : b = a
      · subst hb
        have hm := lookup_mem h
        have hnd := names_nodup r
        cases ih with
        | exists_ ds h1 h2 =>
          have : ds = cs := by
            clear h2
            generalize s.nodes = l at *
            induction l with
            | nil => cases hm
            | cons e l ih =>
              obtain ⟨k, v⟩ := e
              simp only [List.map_cons, List.nodup_cons] at hnd
              rcases List.mem_cons.1 h1 with e1 | e1 <;> rcases List.mem_cons.1 hm with e2 | e2
              · cases e1; cases e2; rfl
              · cases e1; exact absurd (List.mem_map_of_mem (f := (·.1)) e2) hnd.1
              · cases e2; exact absurd (List.mem_map_of_mem (f := (·.1)) e1) hnd.1
              · refine ih ?_ e2 hnd.2 e1
                simp only [List.lookup_cons] at h
                have : (b == k) = false := by
                  simp only [beq_eq_false_iff_ne, ne_eq]
                  rintro rfl
                  exact hnd.1 (List.mem_map_of_mem (f := (·.1)) e1)
                simpa [this] using h
          subst this
          refine .gone ds (not_mem_eraseP hnd) ?_
          rw [history_append, h2, callDelete_eq]; simp
        | never h1 _ => exact absurd rfl (h1 _ hm)
        | gone _ h1 _ => exact absurd rfl (h1 _ hm)
        | failed _ _ _ _ _ h1 _ _ => exact absurd rfl (h1 _ hm)
      · exact ih.other (by rw [history_append]; simp [hb]) fun ds => mem_eraseP_ne hb

/-- C194: a node comes to be exactly if all its classes are initialised, one of them tells a size, and all functions for creation
succeed. -/
theorem C194_created (s : State) (a : Nat) (cs : List Cls) (ok : Nat → Nat → Bool) :
    (create s a cs ok true).2 = true ↔
      (∀ c ∈ cs, c.inited = true) ∧ (∃ c ∈ cs, c.size ≠ 0) ∧ ∀ c ∈ cs, ∀ f, .create f ∈ c.items → ok c.id f = true := by
  have hs : nodeSize cs = 0 ↔ ¬ ∃ c ∈ cs, c.size ≠ 0 := by
    induction cs with
    | nil => simp [nodeSize]
    | cons c r ih =>
      simp only [nodeSize]
      by_cases hc : c.size = 0
      · simp only [hc, ne_eq, not_true, if_false, ih]
        simp [hc]
      · simp only [ne_eq, hc, not_false_eq_true, if_true, false_iff]
        exact fun h => h ⟨c, List.mem_cons_self, hc⟩
  have hall : (callCreate ok cs).2 = true ↔ ∀ c ∈ cs, ∀ f, .create f ∈ c.items → ok c.id f = true := by
    constructor
    · intro h
      clear hs
      induction cs with
      | nil => simp
      | cons d r ih =>
        simp only [callCreate] at h
        cases hx1 : (callCreate ok r).2 with
        | false => simp [hx1] at h
        | true =>
          cases hx2 : (createItems ok d.id d.items).2 with
          | false => simp [hx1, hx2] at h
          | true =>
            intro e he g hg
            rcases List.mem_cons.1 he with rfl | he
            · exact callCreate_fail.items_ok hx2 g hg
            · exact ih hx1 e he g hg
    · intro h
      cases h3 : (callCreate ok cs).2 with
      | true => rfl
      | false =>
        obtain ⟨below, c, above, pre, post, f, h4, h5, h6, _⟩ := callCreate_fail h3
        have := h c (by rw [h4]; simp) f (by rw [h5]; simp)
        rw [this] at h6; cases h6
  have hl : (lock s.mods cs).2 = true ↔ ∀ c ∈ cs, c.inited = true := by rw [lock_ok, List.all_eq_true]
  rw [← hl, ← hall]
  simp only [create]
  cases h1 : (lock s.mods cs).2 <;> cases h3 : (callCreate ok cs).2 <;> by_cases h2 : nodeSize cs = 0
  all_goals simp only [h2, Bool.not_true, Bool.not_false, Bool.false_eq_true, if_false, if_true]
  all_goals first
    | (have := (not_congr hs).1 h2; simpa using this)
    | (have := hs.1 h2; simpa using this)
    | simp

/-- C194: if creation succeeds there is one node more, otherwise nodes and counts are as before; deletion takes away that one node. -/
theorem C194_nodes (s : State) (a : Nat) (cs : List Cls) (ok : Nat → Nat → Bool) :
    ((create s a cs ok true).2 = true → (create s a cs ok true).1.nodes = (a, cs) :: s.nodes) ∧
    ((create s a cs ok true).2 = false → (create s a cs ok true).1.nodes = s.nodes ∧ (create s a cs ok true).1.mods = s.mods) ∧
    ((∀ x ∈ s.nodes, x.1 ≠ a) → (delete ⟨(a, cs) :: s.nodes, s.mods, s.log⟩ a).nodes = s.nodes) := by
  have hl := fun k => lock_eq s.mods cs k
  refine ⟨?_, ?_, ?_⟩
  · simp only [create]
    repeat' split
    all_goals simp
  · intro h
    cases h1 : (lock s.mods cs).2 with
    | false =>
      have hm : (lock s.mods cs).1 = s.mods := funext fun k => by simpa [h1] using hl k
      simp [create, h1, hm]
    | true =>
      have hm : unlock (lock s.mods cs).1 cs = s.mods := funext fun k => by
        have := hl k
        rw [unlock_eq, this, h1, if_pos rfl]; omega
      by_cases h2 : nodeSize cs = 0
      · simp [create, h1, h2, hm]
      · cases h3 : (callCreate ok cs).2 with
        | true => simp [create, h1, h2, h3] at h
        | false => simp [create, h1, h2, h3, hm]
  · intro _
    simp [delete]

/-- C194: the count of a module is that at the start plus one for each class of each node that exists. -/
theorem C194_counts {m0 : Mods} {s : State} (r : Run m0 s) (k : Nat) :
    s.mods k = m0 k + ((s.nodes.flatMap (·.2)).filter fun c => c.module == k).length := run_users r k

/-- C194: cleaning up gives up exactly the loaded modules, without a configuration, that no node that exists has a class from. -/
theorem C194_cleanup {m0 : Mods} {s : State} (r : Run m0 s) (loaded config : Nat → Bool) (modules : List Nat) (k : Nat)
    (h0 : m0 k = 1) :
    k ∈ cleanup s.mods loaded config modules ↔
      k ∈ modules ∧ loaded k = true ∧ config k = false ∧ ∀ x ∈ s.nodes, ∀ c ∈ x.2, c.module ≠ k := by
  have h := run_users r k
  have hz : users s k = 0 ↔ ∀ x ∈ s.nodes, ∀ c ∈ x.2, c.module ≠ k := by
    simp only [users, Int.natCast_eq_zero, List.length_eq_zero_iff, List.filter_eq_nil_iff, List.mem_flatMap, beq_iff_eq]
    exact ⟨fun h x hx c hc => h c ⟨x, hx, hc⟩, fun h c ⟨x, hx, hc⟩ => h x hx c hc⟩
  simp only [cleanup, List.mem_filter, Bool.and_eq_true, Bool.not_eq_true', beq_iff_eq, ← hz]
  constructor
  · rintro ⟨h1, h2, h3, h4⟩; exact ⟨h1, h2, h3, by omega⟩
  · rintro ⟨h1, h2, h3, h4⟩; exact ⟨h1, h2, h3, by omega⟩

/-! ### Cases -/

/-- A root class of module 0, one derived from it in module 7, and one of module 7 again. -/
def c1 : Cls := ⟨1, 0, true, 40, [.create 10, .delete 11]⟩
def c2 : Cls := ⟨2, 7, true, 0, [.array 20, .create 21, .delete 22]⟩
def c3 : Cls := ⟨3, 7, true, 64, [.create 30, .create 31, .delete 32]⟩

def one : Mods := fun _ => 1

example : (create ⟨[], one, []⟩ 5 [c3, c2, c1] (fun _ _ => true) true).1.log =
    [(5, .create 1 10), (5, .init 2 20), (5, .create 2 21), (5, .create 3 30), (5, .create 3 31)] := by decide

/-- The last function fails: the two classes above are undone. The first function of the class itself is not, nothing of that class is. -/
example : (create ⟨[], one, []⟩ 5 [c3, c2, c1] (fun _ f => f != 31) true).1.log =
    [(5, .create 1 10), (5, .init 2 20), (5, .create 2 21), (5, .create 3 30), (5, .create 3 31),
     (5, .clear 2 20), (5, .delete 2 22), (5, .delete 1 11)] := by decide

/-- With a node of the second class the module is kept, without it is not. -/
example : 7 ∉ cleanup (create ⟨[], one, []⟩ 5 [c2, c1] (fun _ _ => true) true).1.mods (fun _ => true) (fun _ => false) [7] ∧
    7 ∈ cleanup (delete (create ⟨[], one, []⟩ 5 [c2, c1] (fun _ _ => true) true).1 5).mods (fun _ => true) (fun _ => false) [7] := by
  have r : Run one (create ⟨[], one, []⟩ 5 [c2, c1] (fun _ _ => true) true).1 := .create 5 _ _ .start (by simp) rfl
  refine ⟨fun h => ?_, (C194_cleanup (r.delete 5) _ _ _ 7 rfl).2 ⟨by decide, rfl, rfl, by decide⟩⟩
  exact ((C194_cleanup r _ _ _ 7 rfl).1 h).2.2.2 (5, [c2, c1]) (by decide) c2 (by decide) rfl

example : (create ⟨[], one, []⟩ 5 [c3, c2, c1] (fun _ _ => true) true).2 = true :=
  (C194_created _ _ _ _).2 ⟨by decide, ⟨c1, by decide, by decide⟩, fun _ _ _ _ => rfl⟩

/-- Without memory the modules stay locked: no node exists, and the module is never given up. -/
theorem C194_memory_counterexample :
    let x := create ⟨[], one, []⟩ 5 [c2, c1] (fun _ _ => true) false
    x.2 = false ∧ x.1.nodes = [] ∧ x.1.mods 7 = 2 ∧ 7 ∉ cleanup x.1.mods (fun _ => true) (fun _ => false) [7] := by
  refine ⟨by decide, by decide, by decide, by decide⟩

end Verif.Core.NodeLife
