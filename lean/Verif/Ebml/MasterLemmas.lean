import Verif.Ebml.MasterSpec
set_option linter.unusedSimpArgs false
namespace Verif.Ebml.Master

/-! ### Lookup -/

/-- Positions, counting from `i`. -/
def posFrom (S : Schema) (id : Nat) : List T → Nat → List Nat
  | [], _ => []
  | k :: ks, i => if k.id S = id then i :: posFrom S id ks (i + 1) else posFrom S id ks (i + 1)

theorem findFrom_eq (S : Schema) (id : Nat) : ∀ (ks : List T) (i : Nat), findFrom S id ks i = (posFrom S id ks i).head?
  | [], i => rfl
  | k :: ks, i => by
    rw [findFrom, posFrom]
    by_cases h : k.id S = id
    · rw [if_pos h, if_pos h]; rfl
    · rw [if_neg h, if_neg h]; exact findFrom_eq S id ks (i + 1)

theorem posFrom_head (S : Schema) (id : Nat) (kids : List T) : ∀ (m n j : Nat), kids.length - n = m →
    (posFrom S id (kids.drop n) n).head? = some j →
    (∃ c, kids[j]? = some c ∧ c.id S = id) ∧ n ≤ j ∧ j < kids.length ∧
      posFrom S id (kids.drop n) n = j :: posFrom S id (kids.drop (j + 1)) (j + 1)
  | 0, n, j, hm, h => by
    have : kids.drop n = [] := List.drop_eq_nil_of_le (by omega)
    rw [this] at h; simp [posFrom] at h
  | m + 1, n, j, hm, h => by
    have hlt : n < kids.length := by omega
    rw [List.drop_eq_getElem_cons hlt] at h ⊢
    rw [posFrom] at h ⊢
    by_cases hk : kids[n].id S = id
    · rw [if_pos hk] at h ⊢
      obtain rfl : n = j := by simpa using h
      exact ⟨⟨kids[n], by simp [hlt], hk⟩, Nat.le_refl _, hlt, rfl⟩
    · rw [if_neg hk] at h ⊢
      obtain ⟨h1, h2, h3, h4⟩ := posFrom_head S id kids m (n + 1) j (by omega) h
      exact ⟨h1, by omega, h3, h4⟩

theorem walkFrom_eq (S : Schema) (id : Nat) (kids : List T) : ∀ (fuel n : Nat), kids.length + 1 - n ≤ fuel →
    walkFrom S kids fuel (findFrom S id (kids.drop n) n) = posFrom S id (kids.drop n) n
  | 0, n, h => by
    have : kids.drop n = [] := List.drop_eq_nil_of_le (by omega)
    rw [this]; simp [walkFrom, posFrom]
  | fuel + 1, n, h => by
    rw [findFrom_eq]
    cases hh : (posFrom S id (kids.drop n) n).head? with
    | none =>
      rw [walkFrom]
      · exact (List.head?_eq_none_iff.1 hh).symm
      · simp
    | some j =>
      obtain ⟨⟨c, hc, hid⟩, h2, h3, h4⟩ := posFrom_head S id kids _ n j rfl hh
      rw [walkFrom, h4, findNext, hc]
      simp only [hid]
      rw [walkFrom_eq S id kids fuel (j + 1) (by omega)]

theorem posFrom_positions (S : Schema) (id : Nat) : ∀ (ks : List T) (i : Nat),
    posFrom S id ks i = (positions S id ks).map (· + i)
  | [], i => rfl
  | k :: ks, i => by
    have ih := posFrom_positions S id ks (i + 1)
    rw [posFrom, ih]
    simp only [positions, List.length_cons, List.range_succ_eq_map, List.filter_cons, List.map_cons, List.getElem?_cons_zero,
      List.filter_map, Function.comp_def, List.getElem?_cons_succ, Nat.succ_eq_add_one]
    by_cases h : k.id S = id
    · simp [h, List.map_map, Function.comp_def, Nat.add_assoc, Nat.add_comm]
      intros; omega
    · have h' : ((some (k.id S) == some id) = false) := by simp [h]
      simp [h, h', List.map_map, Function.comp_def, Nat.add_assoc, Nat.add_comm]
      intros; omega

theorem findFrom_none (S : Schema) (id : Nat) : ∀ (ks : List T) (i : Nat), findFrom S id ks i = none ↔ ∀ k ∈ ks, k.id S ≠ id
  | [], i => by simp [findFrom]
  | k :: ks, i => by
    rw [findFrom]
    by_cases h : k.id S = id
    · rw [if_pos h]; simp [h]
    · rw [if_neg h, findFrom_none S id ks (i + 1)]; simp [h]

theorem findFirst_none (S : Schema) (id : Nat) (ks : List T) : (findFirst S id ks).isNone = true ↔ ∀ k ∈ ks, k.id S ≠ id := by
  rw [Option.isNone_iff_eq_none, findFirst, findFrom_none]

theorem nodup_map_inj {α β : Type} (f : α → β) : ∀ (l : List α), (l.map f).Nodup → ∀ a b, a ∈ l → b ∈ l → f a = f b → a = b
  | [], _, a, b, ha, _, _ => by simp at ha
  | x :: l, h, a, b, ha, hb, he => by
    rw [List.map_cons, List.nodup_cons] at h
    rcases List.mem_cons.1 ha with rfl | ha'
    · rcases List.mem_cons.1 hb with rfl | hb'
      · rfl
      · exact absurd (List.mem_map.2 ⟨b, hb', he.symm⟩) h.1
    · rcases List.mem_cons.1 hb with rfl | hb'
      · exact absurd (List.mem_map.2 ⟨a, ha', he⟩) h.1
      · exact nodup_map_inj f l h.2 a b ha' hb' he

/-! ### Mandatory children -/

/-- The entries `EBML_MasterAddMandatory` acts on. -/
def wanted (S : Schema) (p : Nat) (kids : List T) (s : Sem) : Bool :=
  s.mandatory && s.unique && s.enabled p && (findFirst S (S.ctx s.ref).id kids).isNone

theorem addMand_eq (S : Schema) (p : Nat) (mk : Nat → Option T) (f : Nat → T) : ∀ (ss : List Sem) (kids : List T),
    (ss.map (fun s => (S.ctx s.ref).id)).Nodup →
    (∀ s ∈ ss, s.mandatory = true → s.unique = true → mk s.ref = some (f s.ref) ∧ (f s.ref).id S = (S.ctx s.ref).id) →
    addMand S p mk ss kids = some (kids ++ (ss.filter (wanted S p kids)).map (fun s => f s.ref))
  | [], kids, _, _ => by simp [addMand]
  | s :: ss, kids, hn, hm => by
    rw [List.map_cons, List.nodup_cons] at hn
    have hm' := fun s' hs' => hm s' (List.mem_cons_of_mem _ hs')
    rw [addMand]
    by_cases hw : wanted S p kids s = true
    · have hw' := hw
      unfold wanted at hw'
      rw [if_pos hw']
      simp only [Bool.and_eq_true] at hw'
      obtain ⟨h1, h2⟩ := hm s List.mem_cons_self hw'.1.1.1 hw'.1.1.2
      rw [h1]
      simp only []
      rw [addMand_eq S p mk f ss (kids ++ [f s.ref]) hn.2 hm', List.filter_cons, if_pos hw, List.map_cons, List.append_assoc]
      have : ss.filter (wanted S p (kids ++ [f s.ref])) = ss.filter (wanted S p kids) := by
        apply List.filter_congr
        intro s' hs'
        unfold wanted
        congr 1
        have hne : (f s.ref).id S ≠ (S.ctx s'.ref).id := by
          rw [h2]
          intro he
          exact hn.1 (List.mem_map.2 ⟨s', hs', he.symm⟩)
        rw [Bool.eq_iff_iff, findFirst_none, findFirst_none]
        simp only [List.mem_append, List.mem_singleton]
        constructor
        · intro h k hk; exact h k (Or.inl hk)
        · rintro h k (hk | rfl)
          · exact h k hk
          · exact hne
      rw [this]
      simp
    · have hw' := hw
      unfold wanted at hw'
      rw [if_neg hw', addMand_eq S p mk f ss kids hn.2 hm', List.filter_cons, if_neg hw]

theorem create_succ (S : Schema) (p : Nat) (d : Bool) (fuel r : Nat) :
    create S p d (fuel + 1) r =
      if d && (S.ctx r).cls == .master then (addMand S p (create S p d fuel) (S.ctx r).sem []).map (.node r)
      else some (.node r []) := rfl

theorem create_node (S : Schema) (p : Nat) (d : Bool) (fuel r : Nat) (t : T) (h : create S p d fuel r = some t) :
    ∃ ks, t = .node r ks := by
  cases fuel with
  | zero => simp [create] at h
  | succ fuel =>
    rw [create_succ] at h
    split at h
    · rw [Option.map_eq_some_iff] at h
      obtain ⟨ks, _, rfl⟩ := h
      exact ⟨ks, rfl⟩
    · exact ⟨[], by simpa using h.symm⟩

/-- The created element, whatever the fuel. -/
def made (S : Schema) (p : Nat) (d : Bool) (fuel r : Nat) : T := (create S p d fuel r).getD (.node r [])

theorem made_id (S : Schema) (p : Nat) (d : Bool) (fuel r : Nat) : (made S p d fuel r).id S = (S.ctx r).id := by
  unfold made
  cases h : create S p d fuel r with
  | none => rfl
  | some t => obtain ⟨ks, rfl⟩ := create_node S p d fuel r t h; rfl

theorem filter_wanted_nil (S : Schema) (p : Nat) (ss : List Sem) :
    ss.filter (wanted S p []) = ss.filter (fun s => s.mandatory && s.unique && s.enabled p) := by
  apply List.filter_congr
  intro s _
  simp [wanted, findFirst, findFrom]

theorem create_total (S : Schema) (p : Nat) (d : Bool) (rank : Nat → Nat) (hd : DistinctIds S) (hr : Ranked S rank) :
    ∀ (fuel r : Nat), rank r < fuel → create S p d fuel r = some (made S p d fuel r) ∧
      (made S p d fuel r = if d = true ∧ (S.ctx r).cls = .master then
        .node r (((S.ctx r).sem.filter (fun s => s.mandatory && s.unique && s.enabled p)).map (fun s => made S p d (fuel - 1) s.ref))
        else .node r [])
  | 0, r, h => by omega
  | fuel + 1, r, h => by
    have hmk : ∀ s ∈ (S.ctx r).sem, s.mandatory = true → s.unique = true →
        create S p d fuel s.ref = some (made S p d fuel s.ref) ∧ (made S p d fuel s.ref).id S = (S.ctx s.ref).id := by
      intro s hs h1 h2
      have := hr r s hs h1 h2
      exact ⟨(create_total S p d rank hd hr fuel s.ref (by omega)).1, made_id _ _ _ _ _⟩
    have hadd := addMand_eq S p (create S p d fuel) (made S p d fuel) (S.ctx r).sem [] (hd r) hmk
    rw [filter_wanted_nil, List.nil_append] at hadd
    unfold made
    rw [create_succ]
    by_cases hc : d = true ∧ (S.ctx r).cls = .master
    · have hc' : (d && (S.ctx r).cls == .master) = true := by simp [hc.1, hc.2]
      rw [if_pos hc', if_pos hc, hadd]
      simp [made]
    · have hc' : ¬ (d && (S.ctx r).cls == .master) = true := by simpa using hc
      rw [if_neg hc', if_neg hc]
      simp

theorem enabled_iff (s : Sem) (p : Nat) : s.enabled p = true ↔ s.disabled &&& p = 0 := by simp [Sem.enabled]

/-! ### The mandatory check -/

/-- The condition on one element. -/
def Own (S : Schema) (d : Bool) (p : Nat) (r : Nat) (kids : List T) : Prop :=
  ∀ s ∈ (S.ctx r).sem, s.mandatory = true → s.disabled &&& p = 0 → (d = true ∨ (S.ctx s.ref).hasDefault = false) →
      ∃ k ∈ kids, k.id S = (S.ctx s.ref).id

theorem checkOwn_iff (S : Schema) (d : Bool) (p : Nat) (r : Nat) (kids : List T) : checkOwn S d p r kids = true ↔ Own S d p r kids := by
  rw [checkOwn, List.all_eq_true, Own]
  apply forall_congr'; intro s
  apply forall_congr'; intro hs
  rw [Bool.not_eq_true', ← Bool.not_eq_true]
  simp only [Bool.and_eq_true, enabled_iff, findFirst_none, Bool.or_eq_true, Bool.not_eq_true']
  constructor
  · intro h h1 h2 h3
    apply Classical.byContradiction
    intro h4
    exact h ⟨⟨⟨h1, h2⟩, h3⟩, fun k hk he => h4 ⟨k, hk, he⟩⟩
  · rintro h ⟨⟨⟨h1, h2⟩, h3⟩, h4⟩
    obtain ⟨k, hk, he⟩ := h h1 h2 h3
    exact h4 k hk he

/-- `Complete` one level at a time. -/
theorem complete_node (S : Schema) (d : Bool) (p : Nat) (r : Nat) (kids : List T) (hc : (S.ctx r).cls = .master) :
    Complete S d p (.node r kids) ↔ Own S d p r kids ∧ ∀ k ∈ kids, Complete S d p k := by
  constructor
  · intro h
    exact ⟨h r kids (.refl _) hc, fun k hk r' kids' hb => h r' kids' (.step r kids k _ hc hk hb)⟩
  · rintro ⟨h1, h2⟩ r' kids' hb hc'
    generalize hu : T.node r' kids' = u at hb
    cases hb with
    | refl => cases hu; exact h1
    | step _ _ k _ hm hk hb => subst hu; exact h2 k hk r' kids' hb hc'

theorem complete_leaf (S : Schema) (d : Bool) (p : Nat) (r : Nat) (kids : List T) (hc : (S.ctx r).cls ≠ .master) :
    Complete S d p (.node r kids) := by
  intro r' kids' hb hc'
  generalize hu : T.node r' kids' = u at hb
  cases hb with
  | refl => cases hu; exact absurd hc' hc
  | step _ _ k _ hm hk hb => exact absurd hm hc

theorem complete_dummy (S : Schema) (d : Bool) (p : Nat) (i : Nat) : Complete S d p (.dummy i) := by
  intro r' kids' hb
  cases hb

mutual
theorem checkMandatory_iff (S : Schema) (d : Bool) (p : Nat) : ∀ (t : T), t.cls S = .master →
    (checkMandatory S d p t = true ↔ Complete S d p t)
  | .dummy i, h => by cases h
  | .node r kids, h => by
    rw [checkMandatory, Bool.and_eq_true, checkOwn_iff, checkKids_iff S d p kids, complete_node S d p r kids h]
theorem checkKids_iff (S : Schema) (d : Bool) (p : Nat) : ∀ (ks : List T), checkKids S d p ks = true ↔ ∀ k ∈ ks, Complete S d p k
  | [] => by simp [checkKids]
  | .dummy i :: ks => by
    rw [checkKids, checkKids_iff S d p ks, List.forall_mem_cons]
    simp [complete_dummy]
  | .node r kids :: ks => by
    rw [checkKids, Bool.and_eq_true, checkKids_iff S d p ks, List.forall_mem_cons]
    by_cases hc : (S.ctx r).cls = .master
    · rw [Bool.or_eq_true, checkMandatory_iff S d p (.node r kids) hc]
      simp [hc]
    · simp [hc, complete_leaf S d p r kids hc]
end

/-- Creation gives complete elements exactly if nothing mandatory can be repeated. -/
theorem made_complete (S : Schema) (p : Nat) (d : Bool) (rank : Nat → Nat) (hd : DistinctIds S) (hr : Ranked S rank) :
    ∀ (fuel r : Nat), rank r < fuel → (Complete S d p (made S p true fuel r) ↔
      ∀ r', Nests S p r r' → (S.ctx r').cls = .master → ∀ s ∈ (S.ctx r').sem, s.mandatory = true → s.disabled &&& p = 0 →
        (d = true ∨ (S.ctx s.ref).hasDefault = false) → s.unique = true)
  | 0, r, h => by omega
  | fuel + 1, r, h => by
    have heq := (create_total S p true rank hd hr (fuel + 1) r h).2
    by_cases hc : (S.ctx r).cls = .master
    · rw [if_pos ⟨rfl, hc⟩, Nat.add_sub_cancel] at heq
      rw [heq, complete_node S d p r _ hc]
      have hown : Own S d p r (((S.ctx r).sem.filter (fun s => s.mandatory && s.unique && s.enabled p)).map
          (fun s => made S p true fuel s.ref)) ↔ ∀ s ∈ (S.ctx r).sem, s.mandatory = true → s.disabled &&& p = 0 →
          (d = true ∨ (S.ctx s.ref).hasDefault = false) → s.unique = true := by
        constructor
        · intro ho s hs h1 h2 h3
          obtain ⟨k, hk, he⟩ := ho s hs h1 h2 h3
          obtain ⟨s', hs', rfl⟩ := List.mem_map.1 hk
          rw [made_id] at he
          rw [List.mem_filter] at hs'
          have : s' = s := by
            have hnd := hd r
            exact nodup_map_inj _ _ hnd s' s hs'.1 hs he
          subst this
          have := hs'.2
          simp only [Bool.and_eq_true] at this
          exact this.1.2
        · intro ho s hs h1 h2 h3
          refine ⟨_, List.mem_map.2 ⟨s, List.mem_filter.2 ⟨hs, ?_⟩, rfl⟩, made_id _ _ _ _ _⟩
          simp only [Bool.and_eq_true]
          exact ⟨⟨h1, ho s hs h1 h2 h3⟩, (enabled_iff s p).2 h2⟩
      rw [hown]
      constructor
      · rintro ⟨h1, h2⟩ r' hn
        cases hn with
        | refl => intro _; exact h1
        | step _ s _ hm hs h3 h4 h5 hn =>
          have hlt := hr r s hs h3 h4
          have := h2 (made S p true fuel s.ref) (List.mem_map.2 ⟨s, List.mem_filter.2 ⟨hs, by simp [h3, h4, Sem.enabled, h5]⟩, rfl⟩)
          exact (made_complete S p d rank hd hr fuel s.ref (by omega)).1 this r' hn
      · intro hall
        refine ⟨hall r (.refl r) hc, ?_⟩
        intro k hk
        obtain ⟨s, hs, rfl⟩ := List.mem_map.1 hk
        rw [List.mem_filter] at hs
        have h3 := hs.2
        simp only [Bool.and_eq_true] at h3
        have hlt := hr r s hs.1 h3.1.1 h3.1.2
        refine (made_complete S p d rank hd hr fuel s.ref (by omega)).2 ?_
        intro r' hn
        exact hall r' (.step r s r' hc hs.1 h3.1.1 h3.1.2 ((enabled_iff s p).1 h3.2) hn)
    · rw [if_neg (fun h => hc h.2)] at heq
      rw [heq]
      refine ⟨fun _ r' hn => ?_, fun _ => complete_leaf S d p r [] hc⟩
      cases hn with
      | refl => intro h'; exact absurd h' hc
      | step _ s _ hm => exact absurd hm hc

end Verif.Ebml.Master
