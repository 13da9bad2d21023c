import Verif.Mkv.SchemaFacts
import Verif.Props.Parse
/-!
Property theorems C95-C104: masters and the schema.
-/
set_option linter.unusedSimpArgs false
namespace Verif.Ebml.Master

/-! ### C95: lookup -/

/-- C95. Finding the first child of a type and then the next one until there is none visits exactly the
children with its ID, each once and in order; asking for a child that may be created returns the first
one if there is one and leaves the children alone, and else appends a new element of that type. -/
theorem C95_visits_every_child (S : Schema) (kids : List T) (c : Nat) :
    walk S (S.ctx c).id kids = positions S (S.ctx c).id kids ∧
    ∀ p fuel, ((positions S (S.ctx c).id kids).head? = none →
        ∀ t, create S p true fuel c = some t → getChild S p fuel c kids = some (kids ++ [t], kids.length)) ∧
      ∀ i, (positions S (S.ctx c).id kids).head? = some i → getChild S p fuel c kids = some (kids, i) := by
  have hpos : posFrom S (S.ctx c).id kids 0 = positions S (S.ctx c).id kids := by
    rw [posFrom_positions]; simp
  have hff : findFirst S (S.ctx c).id kids = (positions S (S.ctx c).id kids).head? := by
    rw [findFirst, findFrom_eq, hpos]
  refine ⟨?_, fun p fuel => ⟨fun h t ht => ?_, fun i h => ?_⟩⟩
  · have := walkFrom_eq S (S.ctx c).id kids (kids.length + 1) 0 (by omega)
    rw [List.drop_zero] at this
    rw [walk, findFirst, this, hpos]
  · rw [getChild, hff, h, ht]; rfl
  · rw [getChild, hff, h]

example : walk mkv (mkv.ctx rTagEditionUID).id
    [.node rTagEditionUID [], .node rTargetTypeValue [], .dummy 0x63C9, .node rTagEditionUID []] = [0, 2, 3] := by decide +kernel

/-! ### C96: creation -/

/-- C96 as hoped for: an element created with its defaults has all mandatory children of its profile. -/
def CreationCompletes : Prop :=
  ∀ (p r : Nat) (t : T), (mkv.ctx r).cls = .master → (∃ fuel, create mkv p true fuel r = some t) → Complete mkv true p t

/-- C96 fails: a SeekHead created with its defaults has no Seek, though one is mandatory: only mandatory
children that are also unique are added. -/
theorem C96_created_complete_counterexample : ¬ CreationCompletes := by
  intro h
  have := h 32 rSeekHead (.node rSeekHead []) (by decide +kernel) ⟨3, by rfl⟩
  rw [← checkMandatory_iff mkv true 32 _ (by decide +kernel)] at this
  exact absurd this (by decide +kernel)

/-- C96, what holds, for every schema whose mandatory children do not nest for ever: creation ends, and
what it makes is complete exactly if no type that is mandatory in the profile and may be repeated occurs
in the element or in the children created along. -/
theorem C96_created_complete_partial (S : Schema) (rank : Nat → Nat) (hd : DistinctIds S) (hr : Ranked S rank)
    (p fuel r : Nat) (hf : rank r < fuel) :
    ∃ t, create S p true fuel r = some t ∧ ∀ d, Complete S d p t ↔
      ∀ r', Nests S p r r' → (S.ctx r').cls = .master → ∀ s ∈ (S.ctx r').sem, s.mandatory = true → s.disabled &&& p = 0 →
        (d = true ∨ (S.ctx s.ref).hasDefault = false) → s.unique = true :=
  ⟨_, (create_total S p true rank hd hr fuel r hf).1, fun d => made_complete S p d rank hd hr fuel r hf⟩

/-- C96 for Matroska: creating any element ends after three levels at most, in every profile. -/
theorem C96_creation_ends (p r : Nat) (d : Bool) : ∃ t, create mkv p d 3 r = some t :=
  ⟨_, (create_total mkv p d mkvRank mkv_distinct mkv_ranked 3 r (Nat.lt_succ_of_le (mkvRank_le r))).1⟩

example : create mkv 32 true 3 rTag = some (.node rTag [.node rTargets [.node rTargetTypeValue []]]) := by rfl

example : checkMandatory mkv true 32 (made mkv 32 true 3 rTrackEntry) = true := by decide +kernel

/-! ### C97: adding mandatory children -/

/-- C97. Adding the mandatory children keeps the children there are, in place and unchanged, and appends
new elements of exactly the types that are mandatory, unique, enabled in the profile and missing, in
schema order; a second call changes nothing. -/
theorem C97_adds_exactly_missing (S : Schema) (rank : Nat → Nat) (hd : DistinctIds S) (hr : Ranked S rank)
    (p fuel r : Nat) (d : Bool) (hf : rank r ≤ fuel) (kids : List T) :
    ∃ new, addMandatory S p d fuel r kids = some (kids ++ new) ∧
      (∀ s ∈ (S.ctx r).sem, (∃ t ∈ new, t.id S = (S.ctx s.ref).id) ↔
        s.mandatory = true ∧ s.unique = true ∧ s.disabled &&& p = 0 ∧ ∀ k ∈ kids, k.id S ≠ (S.ctx s.ref).id) ∧
      (new.map (·.id S)).Sublist ((S.ctx r).sem.map (fun s => (S.ctx s.ref).id)) ∧
      (∀ t ∈ new, ∃ s ∈ (S.ctx r).sem, create S p d fuel s.ref = some t) ∧
      addMandatory S p d fuel r (kids ++ new) = some (kids ++ new) := by
  have hmem : ∀ s ∈ (S.ctx r).sem, s.mandatory = true → s.unique = true → create S p d fuel s.ref = some (made S p d fuel s.ref) :=
    fun s hs h1 h2 => (create_total S p d rank hd hr fuel s.ref (by have := hr r s hs h1 h2; omega)).1
  refine ⟨_, addMandatory_eq S p d rank hd hr fuel r hf kids, ?_, ?_, ?_, ?_⟩
  · intro s hs
    constructor
    · rintro ⟨t, ht, he⟩
      obtain ⟨s', hs', rfl⟩ := List.mem_map.1 ht
      rw [List.mem_filter] at hs'
      rw [made_id] at he
      obtain rfl := nodup_map_inj _ _ (hd r) s' s hs'.1 hs he
      have h2 := hs'.2
      simp only [wanted, Bool.and_eq_true, findFirst_none, enabled_iff] at h2
      exact ⟨h2.1.1.1, h2.1.1.2, h2.1.2, h2.2⟩
    · rintro ⟨h1, h2, h3, h4⟩
      refine ⟨_, List.mem_map.2 ⟨s, List.mem_filter.2 ⟨hs, ?_⟩, rfl⟩, made_id _ _ _ _ _⟩
      simp only [wanted, Bool.and_eq_true, findFirst_none, enabled_iff]
      exact ⟨⟨⟨h1, h2⟩, h3⟩, h4⟩
  · rw [List.map_map]
    have : ((fun t => T.id S t) ∘ fun s => made S p d fuel s.ref) = fun (s : Sem) => (S.ctx s.ref).id := by
      funext s; exact made_id _ _ _ _ _
    rw [this]
    exact List.Sublist.map _ List.filter_sublist
  · intro t ht
    obtain ⟨s, hs, rfl⟩ := List.mem_map.1 ht
    rw [List.mem_filter] at hs
    have h2 := hs.2
    simp only [wanted, Bool.and_eq_true] at h2
    exact ⟨s, hs.1, hmem s hs.1 h2.1.1.1 h2.1.1.2⟩
  · rw [addMandatory_eq S p d rank hd hr fuel r hf]
    have : (S.ctx r).sem.filter (wanted S p (kids ++ ((S.ctx r).sem.filter (wanted S p kids)).map (fun s => made S p d fuel s.ref))) = [] := by
      rw [List.filter_eq_nil_iff]
      intro s hs hw
      simp only [wanted, Bool.and_eq_true, findFirst_none] at hw
      refine hw.2 (made S p d fuel s.ref) (List.mem_append_right _ (List.mem_map.2 ⟨s, List.mem_filter.2 ⟨hs, ?_⟩, rfl⟩)) (made_id _ _ _ _ _)
      simp only [wanted, Bool.and_eq_true, findFirst_none]
      exact ⟨hw.1, fun k hk => hw.2 k (List.mem_append_left _ hk)⟩
    rw [this]; simp

example : addMandatory mkv 8 true 3 rBlockGroup [.node rReferencePriority []] =
    some [.node rReferencePriority [], .node rBlock []] := by rfl

/-! ### C98: the mandatory check -/

/-- C98. The mandatory check succeeds exactly on the elements that have, at every depth, every child that
is mandatory and enabled in the profile (those with a default value only if asked for). -/
theorem C98_check_is_exact (S : Schema) (d : Bool) (p : Nat) (t : T) (h : t.cls S = .master) :
    checkMandatory S d p t = true ↔ Complete S d p t := checkMandatory_iff S d p t h

example : checkMandatory mkv false 32 (.node rTags [.node rTag [.node rTargets [], .node rSimpleTag []]]) = false := by decide +kernel
example : checkMandatory mkv false 32 (.node rSeekHead [.node rSeek [.node rSeekID [], .node 12 []]]) = true := by decide +kernel

/-! ### C99: the profile check -/

/-- What a tree has to be in a profile: at every depth nothing disabled, nothing unique twice, and nothing
missing that is mandatory *in the profile*. -/
def RightFor (S : Schema) (p : Nat) (t : T) : Prop :=
  ∀ r kids, Below S t (.node r kids) → (S.ctx r).cls = .master →
    (∀ k ∈ kids, k.known S → ∀ s ∈ (S.ctx r).sem, (S.ctx s.ref).id = k.id S → s.disabled &&& p = 0) ∧
    (∀ k ∈ kids, k.known S → ∀ s ∈ (S.ctx r).sem, (S.ctx s.ref).id = k.id S → s.unique = true →
      (kids.filter (fun k' => k'.id S == k.id S)).length = 1) ∧
    (∀ s ∈ (S.ctx r).sem, s.mandatory = true → s.disabled &&& p = 0 → (S.ctx s.ref).hasDefault = false →
      ∃ k ∈ kids, k.id S = (S.ctx s.ref).id)

/-- C99 as hoped for: the check is silent exactly on the trees that are right for the profile. -/
def ProfileCheckExact : Prop := ∀ (p : Nat) (t : T), violations mkv p t = some [] ↔ RightFor mkv p t

theorem cueReference_sem : (mkv.ctx rCueReference).sem.map (fun s => (s.mandatory, s.ref, s.disabled)) =
    [(true, 201, 25), (true, 202, 127), (false, 203, 127), (false, 204, 127)] := by decide +kernel

/-- C99 fails: the check asks for elements that are mandatory but not part of the profile. -/
theorem C99_profile_check_counterexample : ¬ ProfileCheckExact := by
  intro h
  have hv : violations mkv 32 (.node rCueReference [.node rCueRefTime []]) = some [.missing rCueRefCluster] := by rfl
  have hr : RightFor mkv 32 (.node rCueReference [.node rCueRefTime []]) := by
    intro r kids hb hc
    generalize hu : T.node r kids = u at hb
    cases hb with
    | refl =>
      cases hu
      have key : (∀ k ∈ [rCueRefTime], ∀ s ∈ (mkv.ctx rCueReference).sem, (mkv.ctx s.ref).id = (mkv.ctx k).id → s.disabled &&& 32 = 0) ∧
        (∀ s ∈ (mkv.ctx rCueReference).sem, s.mandatory = true → s.disabled &&& 32 = 0 → (mkv.ctx s.ref).hasDefault = false →
          (mkv.ctx rCueRefTime).id = (mkv.ctx s.ref).id) := by decide +kernel
      refine ⟨?_, ?_, ?_⟩
      · intro k hk _ s hs he
        rw [List.mem_singleton] at hk; subst hk
        exact key.1 _ List.mem_cons_self s hs he
      · intro k hk _ s hs he _
        rw [List.mem_singleton] at hk; subst hk
        simp
      · intro s hs h1 h2 h3
        exact ⟨_, List.mem_singleton.2 rfl, key.2 s hs h1 h2 h3⟩
    | step _ _ k _ hm hk hb =>
      rw [List.mem_singleton] at hk
      subst hk
      subst hu
      cases hb with
      | refl => exact absurd hc (by decide +kernel)
      | step _ _ _ _ hm' => exact absurd hm' (by decide +kernel)
  have := (h 32 _).2 hr
  rw [hv] at this
  cases this

/-- So no CueReference at all passes the check, whatever it contains, in any of the profiles: without a
CueRefCluster it is missing, with one it is not allowed. -/
theorem C99_no_cue_reference_passes (p : Nat) (hp : p &&& 127 ≠ 0) (kids : List T) (hk : ∀ k ∈ kids, k.known mkv) :
    violations mkv p (.node rCueReference kids) ≠ some [] := by
  obtain ⟨l, h1, h2⟩ := violations_iff mkv mkv_distinct p (.node rCueReference kids)
  rw [h1]
  intro he
  obtain ⟨g1, _, g3⟩ := h2.1 (by simpa using he) rCueReference kids (.refl _) (by decide +kernel)
  have key : ∃ s ∈ (mkv.ctx rCueReference).sem, s.mandatory = true ∧ s.disabled = 127 ∧ (mkv.ctx s.ref).hasDefault = false := by
    decide +kernel
  obtain ⟨s, hs, a1, a2, a3⟩ := key
  obtain ⟨k, hkm, hke⟩ := g3 s hs a1 a3
  have := g1 k hkm (hk k hkm) s hs hke.symm
  rw [a2, Nat.and_comm] at this
  exact hp this

/-- C99, what holds, for every schema: the check ends and is silent exactly on the trees in which, at every
depth, nothing is disabled, nothing unique occurs twice, and nothing mandatory is missing, in the profile or
not; and what it reports for the children of one element is, in order, for each child that it is disabled
and that it is not alone, and each missing type. -/
theorem C99_profile_check_partial (S : Schema) (hd : DistinctIds S) (p : Nat) :
    (∀ t, ∃ l, violations S p t = some l ∧
      (l = [] ↔ ∀ r kids, Below S t (.node r kids) → (S.ctx r).cls = .master → Proper S p r kids)) ∧
    ∀ r kids, checkContext S p (fun _ => false) (kids.length + 1) r kids =
      some (kids, kids.flatMap (kidReports S p r kids) ++
        ((S.ctx r).sem.filter (fun s => s.mandatory && !(S.ctx s.ref).hasDefault &&
          kids.all (fun k => k.id S != (S.ctx s.ref).id))).map (fun s => Report.missing s.ref)) := by
  refine ⟨fun t => violations_iff S hd p t, fun r kids => ?_⟩
  rw [checkContext_false S p r kids _ (Nat.lt_succ_self _), ownReports, missingReports]
  congr 4
  refine List.filter_congr fun s _ => ?_
  congr 1
  rw [Bool.eq_iff_iff, findFirst_none, List.all_eq_true]
  simp

example : violations mkv 8 (.node rTag [.node rTargets [.node rTagEditionUID []], .node rTargets []]) =
    some [.multiple rTargets (.node rTargets []), .multiple rTargets (.node rTargets []), .missing rSimpleTag,
      .invalid rTagEditionUID (.node rTagEditionUID [])] := by rfl

/-! ### C100: removing what is not allowed -/

/-- C100 as hoped for: checking with a callback that asks for removal leaves only acceptable children. -/
def RemovesAll : Prop :=
  ∀ (p r : Nat) (kids kids' : List T) (fuel : Nat) (log : List Report),
    checkContext mkv p (fun _ => true) fuel r kids = some (kids', log) → ∀ k ∈ kids', Acceptable mkv p r kids' k

/-- C100 fails: of the two elements WebM does not allow at the start of a Targets element the second
stays, because the walk restarts at the first child and steps over it. -/
theorem C100_removal_counterexample : ¬ RemovesAll := by
  intro h
  have := h 8 rTargets [.node rTagEditionUID [], .node rTagChapterUID []] [.node rTagChapterUID []] 100
    [.invalid rTagEditionUID (.node rTagEditionUID [])] (by rfl) _ List.mem_cons_self (by decide +kernel : (mkv.ctx rTagChapterUID).cls ≠ .dummy)
  have key : ∃ s ∈ (mkv.ctx rTargets).sem, (mkv.ctx s.ref).id = (mkv.ctx rTagChapterUID).id ∧ s.disabled &&& 8 ≠ 0 := by decide +kernel
  obtain ⟨s, hs, h1, h2⟩ := key
  exact h2 (this s hs h1).1

/-- C100, what holds, for every schema and every list of children: the check ends; what stays is a part of
the children in their order; every child except perhaps the first is acceptable; if the first child was
acceptable all are; children that are enabled and may be repeated, and those not in the table, all stay;
and of every enabled type that was there one stays. -/
theorem C100_removal_partial (S : Schema) (hd : DistinctIds S) (p r : Nat) (kids : List T) :
    ∃ kids' log, checkContext S p (fun _ => true) (kids.length * kids.length + kids.length + 1) r kids = some (kids', log) ∧
      kids'.Sublist kids ∧
      (∀ j k, 1 ≤ j → kids'[j]? = some k → Acceptable S p r kids' k) ∧
      ((∀ k, kids[0]? = some k → Acceptable S p r kids k) → ∀ k ∈ kids', Acceptable S p r kids' k) ∧
      (let stays := fun k => decide (∀ s, entry S r k = some s → s.disabled &&& p = 0 ∧ s.unique = false)
       kids'.filter stays = kids.filter stays) ∧
      ∀ s ∈ (S.ctx r).sem, s.disabled &&& p = 0 → (∃ k ∈ kids, k.id S = (S.ctx s.ref).id) → ∃ k ∈ kids', k.id S = (S.ctx s.ref).id := by
  obtain ⟨⟨kids', log⟩, ho⟩ := contextLoop_total S p (fun _ => true) r (kids.length * kids.length + kids.length + 1) kids 0 []
    (by rw [Nat.sub_zero]; exact Nat.le_refl _)
  have hcc : checkContext S p (fun _ => true) (kids.length * kids.length + kids.length + 1) r kids =
      some (kids', log ++ missingReports S r kids') := by rw [checkContext, ho]
  have htail := contextLoop_true S hd p r _ kids 0 [] _ (fun j k h1 h2 => by omega) ho
  refine ⟨kids', _, hcc, checkContext_sub S p _ _ r kids _ hcc, htail, ?_, ?_, ?_⟩
  · intro hfirst k hk
    -- the first child stays where it is
    cases kids with
    | nil =>
      have := checkContext_sub S p _ _ r [] _ hcc
      simp at this; subst this; simp at hk
    | cons a l =>
      have hacc := hfirst a rfl
      have hacc' : ∀ log, (visit S p (fun _ => true) r (a :: l) a log).2 = false := fun log => (visit_good S hd p r _ a log).2 hacc
      -- invariant: the list still starts with a, and a is still acceptable
      have hinv : ∀ (fuel : Nat) (ks : List T) (i : Nat) (lg : List Report) (out : List T × List Report),
          (∃ l', ks = a :: l') → Acceptable S p r ks a → 1 ≤ i → contextLoop S p (fun _ => true) r fuel ks i lg = some out →
          (∃ l', out.1 = a :: l') ∧ Acceptable S p r out.1 a := by
        intro fuel
        induction fuel with
        | zero => intro ks i lg out _ _ _ h; simp [contextLoop] at h
        | succ fuel ih =>
          intro ks i lg out hks hac hi h
          rw [contextLoop] at h
          cases hki : ks[i]? with
          | none => rw [hki] at h; simp only [Option.some.injEq] at h; rw [← h]; exact ⟨hks, hac⟩
          | some k =>
            rw [hki] at h
            simp only [] at h
            by_cases hv : (visit S p (fun _ => true) r ks k lg).2 = true
            · rw [if_pos hv] at h
              refine ih _ 1 _ out ?_ ?_ (Nat.le_refl _) h
              · obtain ⟨l', rfl⟩ := hks
                obtain ⟨m, rfl⟩ : ∃ m, i = m + 1 := ⟨i - 1, by omega⟩
                exact ⟨l'.eraseIdx m, rfl⟩
              · intro hkn s hs he
                obtain ⟨g1, g2⟩ := hac hkn s hs he
                refine ⟨g1, fun hu => Nat.le_trans ?_ (g2 hu)⟩
                exact ((List.eraseIdx_sublist ks i).filter _).length_le
            · rw [if_neg hv] at h
              exact ih ks (i + 1) _ out hks hac (by omega) h
      rw [contextLoop] at ho
      simp only [List.getElem?_cons_zero, hacc'] at ho
      obtain ⟨⟨l', hl'⟩, hA⟩ := hinv _ _ _ _ _ ⟨l, rfl⟩ hacc (Nat.le_refl 1) ho
      simp only at hl'
      obtain ⟨j, hj⟩ := List.getElem?_of_mem hk
      by_cases hj0 : j = 0
      · subst hj0
        rw [hl'] at hj
        simp at hj
        rw [← hj]; exact hA
      · exact htail j k (by omega) hj
  · simp only []
    refine contextLoop_inv S p (fun _ => true) r (fun ks => ks.filter _ = kids.filter _) ?_ _ kids 0 [] (kids', log) rfl ho
    intro ks i k lg h hk hv
    rw [← h]
    apply filter_eraseIdx _ ks i k hk
    obtain ⟨s, hs, hb⟩ := visit_bad S p _ r ks k lg hv
    rw [decide_eq_false_iff_not]
    intro hall
    obtain ⟨g1, g2⟩ := hall s hs
    rcases hb with hb | ⟨hb, _⟩
    · exact hb g1
    · rw [hb] at g2; cases g2
  · intro s hs hen hex
    refine contextLoop_inv S p (fun _ => true) r (fun ks => ∃ k ∈ ks, k.id S = (S.ctx s.ref).id) ?_ _ kids 0 [] (kids', log) hex ho
    intro ks i k lg ⟨k0, hk0, he0⟩ hk hv
    obtain ⟨s', hs', hb⟩ := visit_bad S p _ r ks k lg hv
    by_cases hid : k.id S = (S.ctx s.ref).id
    · obtain rfl := entry_unique S hd r k s' s hs' hs hid.symm
      rcases hb with hb | ⟨_, hb⟩
      · exact absurd hen hb
      · have := length_filter_eraseIdx (fun k' => k'.id S == k.id S) ks i k hk (by simp)
        have hpos : 0 < ((ks.eraseIdx i).filter (fun k' => k'.id S == k.id S)).length := by omega
        obtain ⟨x, hx⟩ := List.exists_mem_of_length_pos hpos
        rw [List.mem_filter] at hx
        exact ⟨x, hx.1, by rw [← hid]; simpa using hx.2⟩
    · have hf := filter_eraseIdx (fun k' => k'.id S == (S.ctx s.ref).id) ks i k hk (by simpa using hid)
      have : k0 ∈ (ks.eraseIdx i).filter (fun k' => k'.id S == (S.ctx s.ref).id) := by
        rw [hf]; exact List.mem_filter.2 ⟨hk0, by simpa using he0⟩
      exact ⟨k0, (List.mem_filter.1 this).1, he0⟩

example : (checkContext mkv 8 (fun _ => true) 13 rTargets
    [.node rTargetTypeValue [], .node rTagEditionUID [], .node rTagChapterUID []]).map (·.1.length) = some 1 := by decide +kernel

/-- C102. The check ends after a bounded number of turns whatever the callback answers, and removes only
children it reported. -/
theorem C102_check_ends (S : Schema) (p r : Nat) (ans : Nat → Bool) (kids : List T) :
    ∃ kids' log, checkContext S p ans (kids.length * kids.length + kids.length + 1) r kids = some (kids', log) ∧
      kids'.Sublist kids ∧ kids.length ≤ kids'.length + log.length := by
  obtain ⟨⟨kids', log⟩, ho⟩ := contextLoop_total S p ans r (kids.length * kids.length + kids.length + 1) kids 0 []
    (by rw [Nat.sub_zero]; exact Nat.le_refl _)
  have hcc : checkContext S p ans (kids.length * kids.length + kids.length + 1) r kids =
      some (kids', log ++ missingReports S r kids') := by rw [checkContext, ho]
  refine ⟨kids', _, hcc, checkContext_sub S p _ _ r kids _ hcc, ?_⟩
  have hgrow : ∀ (ks : List T) (k : T) (lg : List Report), lg.length ≤ (visit S p ans r ks k lg).1.length ∧
      ((visit S p ans r ks k lg).2 = true → lg.length + 1 ≤ (visit S p ans r ks k lg).1.length) := by
    intro ks k lg
    have hvu : ∀ (s : Sem) (lg : List Report), lg.length ≤ (visitUnique S ans ks s lg).1.length ∧
        ((visitUnique S ans ks s lg).2 = true → lg.length + 1 ≤ (visitUnique S ans ks s lg).1.length) := by
      intro s lg
      rw [visitUnique]
      split
      · cases second S (S.ctx s.ref).id ks <;> simp
      · simp
    rw [visit]
    cases entry S r k with
    | none => simp
    | some s =>
      simp only []
      split
      · exact hvu s lg
      · split
        · simp
        · have := hvu s (lg ++ [Report.invalid s.ref k])
          simp only [List.length_append, List.length_singleton] at this
          exact ⟨by omega, fun h => by omega⟩
  have hcount : ∀ (fuel : Nat) (ks : List T) (i : Nat) (lg : List Report) (out : List T × List Report),
      contextLoop S p ans r fuel ks i lg = some out → ks.length + lg.length ≤ out.1.length + out.2.length := by
    intro fuel
    induction fuel with
    | zero => intro ks i lg out h; simp [contextLoop] at h
    | succ fuel ih =>
      intro ks i lg out h
      rw [contextLoop] at h
      cases hk : ks[i]? with
      | none => rw [hk] at h; simp only [Option.some.injEq] at h; rw [← h]; exact Nat.le_refl _
      | some k =>
        rw [hk] at h
        simp only [] at h
        obtain ⟨hlt, _⟩ := List.getElem?_eq_some_iff.1 hk
        by_cases hv : (visit S p ans r ks k lg).2 = true
        · rw [if_pos hv] at h
          have h1 := ih _ _ _ out h
          have h2 := (hgrow ks k lg).2 hv
          rw [List.length_eraseIdx_of_lt hlt] at h1
          omega
        · rw [if_neg hv] at h
          have h1 := ih _ _ _ out h
          have h2 := (hgrow ks k lg).1
          omega
  have := hcount _ _ _ _ _ ho
  simp only [List.length_nil, List.length_append] at this ⊢
  omega

example : checkContext mkv 8 (fun n => n == 1) 13 rTargets
    [.node rTagEditionUID [], .node rTagChapterUID [], .node rTargetTypeValue []] =
    some ([.node rTagEditionUID [], .node rTargetTypeValue []],
      [.invalid rTagEditionUID (.node rTagEditionUID []), .invalid rTagChapterUID (.node rTagChapterUID [])]) := by rfl

/-! ### C101: mkclean's reduction -/

/-- C101. mkclean's reduction of any Matroska tree, in any profile, ends, and in what remains no master has
a Void, a CRC-32 or an unrecognised element as a child, at any depth. -/
theorem C101_no_filler_left (p : Nat) (t : T) (h : t.cls mkv = .master) :
    ∃ ts, reduce mkv rBlockGroup p 3 t = some ts ∧ ts.length ≤ 1 ∧
      ∀ t' ∈ ts, ∀ r kids, Below mkv t' (.node r kids) → (mkv.ctx r).cls = .master →
        ∀ k ∈ kids, k.cls mkv ≠ .void ∧ k.cls mkv ≠ .crc ∧ k.cls mkv ≠ .dummy := by
  obtain ⟨ts, h1, h2⟩ := reduce_plain mkv rBlockGroup p mkvRank mkv_distinct mkv_ranked mkv_plain 3
    (fun r => Nat.le_trans (mkvRank_le r) (by decide)) t (by simp [isFiller, h])
  refine ⟨ts, h1, ?_, fun t' ht => (h2 t' ht).2⟩
  cases t with
  | dummy i => cases h
  | node r kids =>
    rw [reduce] at h1
    split at h1
    · cases h1; simp
    · split at h1
      · cases h1; simp
      · cases hl : reduceList mkv rBlockGroup p 3 kids with
        | none => rw [hl] at h1; cases h1
        | some ks =>
          rw [hl] at h1
          simp only [reduceEnd] at h1
          split at h1
          · cases h1; simp
          · cases ha : addMandatory mkv p true 3 r ks with
            | none => rw [ha] at h1; cases h1
            | some ks2 =>
              rw [ha] at h1
              simp only [] at h1
              cases hc : checkContext mkv p (fun _ => true) (ks2.length * ks2.length + ks2.length + 1) r ks2 with
              | none => rw [hc] at h1; cases h1
              | some o => rw [hc] at h1; cases h1; simp

example : reduce mkv rBlockGroup 32 3 (.node rTag [.node 9 [], .node rTargets [.node 9 [], .dummy 0x4444], .node rSimpleTag []]) =
    some [.node rTag [.node rTargets [.node rTargetTypeValue []]]] := by rfl

end Verif.Ebml.Master
