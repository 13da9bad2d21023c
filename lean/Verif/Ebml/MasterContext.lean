import Verif.Ebml.MasterLemmas
set_option linter.unusedSimpArgs false
namespace Verif.Ebml.Master

/-! ### The context check -/

theorem findFrom_filter (S : Schema) (id : Nat) : ∀ (ks : List T) (n : Nat),
    match findFrom S id ks n with
    | none => ks.filter (fun k => k.id S == id) = []
    | some i => ∃ c, n ≤ i ∧ ks[i - n]? = some c ∧ c.id S = id ∧
        ks.filter (fun k => k.id S == id) = c :: (ks.drop (i - n + 1)).filter (fun k => k.id S == id)
  | [], n => by simp [findFrom]
  | k :: ks, n => by
    rw [findFrom]
    by_cases h : k.id S = id
    · rw [if_pos h]
      exact ⟨k, Nat.le_refl _, by simp, h, by simp [List.filter_cons, h]⟩
    · rw [if_neg h]
      have ih := findFrom_filter S id ks (n + 1)
      cases hf : findFrom S id ks (n + 1) with
      | none => rw [hf] at ih; simp only [] at ih ⊢; simp [List.filter_cons, h, ih]
      | some i =>
        rw [hf] at ih
        obtain ⟨c, h1, h2, h3, h4⟩ := ih
        have e : i - n = (i - (n + 1)) + 1 := by omega
        refine ⟨c, by omega, by rw [e, List.getElem?_cons_succ]; exact h2, h3, ?_⟩
        rw [e, List.drop_succ_cons, ← h4, List.filter_cons, if_neg (by simp [h])]

theorem second_eq (S : Schema) (id : Nat) (kids : List T) : second S id kids = (kids.filter (fun k => k.id S == id))[1]? := by
  rw [second]
  have h := findFrom_filter S id kids 0
  rw [findFirst]
  cases hf : findFrom S id kids 0 with
  | none => rw [hf] at h; simp only [] at h ⊢; rw [h]; rfl
  | some i =>
    rw [hf] at h
    obtain ⟨c, h1, h2, h3, h4⟩ := h
    rw [Nat.sub_zero] at h2 h4
    simp only []
    rw [h4, List.getElem?_cons_succ, findNext, h2]
    simp only [h3]
    have h' := findFrom_filter S id (kids.drop (i + 1)) (i + 1)
    cases hf' : findFrom S id (kids.drop (i + 1)) (i + 1) with
    | none => rw [hf'] at h'; simp only [] at h' ⊢; rw [h']; rfl
    | some j =>
      rw [hf'] at h'
      obtain ⟨c', g1, g2, g3, g4⟩ := h'
      simp only []
      rw [g4, List.getElem?_cons_zero, ← g2, List.getElem?_drop]
      congr 1; omega

theorem entry_some (S : Schema) (r : Nat) (k : T) (s : Sem) (h : entry S r k = some s) :
    s ∈ (S.ctx r).sem ∧ (S.ctx s.ref).id = k.id S ∧ k.known S := by
  cases k with
  | dummy i => simp [entry] at h
  | node c ks =>
    rw [entry] at h
    by_cases hc : (S.ctx c).cls = .dummy
    · simp [hc] at h
    · rw [if_neg (by simpa using hc)] at h
      exact ⟨List.mem_of_find?_eq_some h, by simpa using List.find?_some h, hc⟩

theorem entry_none (S : Schema) (r : Nat) (k : T) (h : entry S r k = none) (hk : k.known S) :
    ∀ s ∈ (S.ctx r).sem, (S.ctx s.ref).id ≠ k.id S := by
  cases k with
  | dummy i => cases hk
  | node c ks =>
    rw [entry, if_neg (by simpa [T.known] using hk), List.find?_eq_none] at h
    intro s hs
    simpa using h s hs

theorem entry_unique (S : Schema) (hd : DistinctIds S) (r : Nat) (k : T) (s s' : Sem) (h : entry S r k = some s)
    (hs : s' ∈ (S.ctx r).sem) (he : (S.ctx s'.ref).id = k.id S) : s' = s := by
  obtain ⟨h1, h2, _⟩ := entry_some S r k s h
  exact nodup_map_inj _ _ (hd r) s' s hs h1 (he.trans h2.symm)

theorem visitUnique_eq (S : Schema) (ans : Nat → Bool) (kids : List T) (s : Sem) (k : T) (he : (S.ctx s.ref).id = k.id S)
    (log : List Report) :
    visitUnique S ans kids s log =
      if s.unique then
        match kids.filter (fun k' => k'.id S == k.id S) with
        | _ :: e :: _ => (log ++ [.multiple s.ref e], ans log.length)
        | _ => (log, false)
      else (log, false) := by
  rw [visitUnique, second_eq, he]
  by_cases hu : s.unique = true
  · rw [if_pos hu, if_pos hu]
    cases kids.filter (fun k' => k'.id S == k.id S) with
    | nil => rfl
    | cons a l => cases l <;> rfl
  · rw [if_neg hu, if_neg hu]

theorem visit_false (S : Schema) (p : Nat) (r : Nat) (kids : List T) (k : T) (log : List Report) :
    visit S p (fun _ => false) r kids k log = (log ++ kidReports S p r kids k, false) := by
  rw [visit, kidReports]
  cases h : entry S r k with
  | none => simp
  | some s =>
    obtain ⟨h1, h2, h3⟩ := entry_some S r k s h
    simp only [visitUnique_eq S _ kids s k h2]
    by_cases he : s.disabled &&& p = 0
    · rw [if_pos ((enabled_iff s p).2 he), if_pos he, List.nil_append]
      by_cases hu : s.unique = true
      · rw [if_pos hu, if_pos hu]
        split <;> simp_all
      · simp [hu]
    · rw [if_neg (by rw [enabled_iff]; exact he), if_neg he]
      simp only [Bool.false_eq_true, if_false]
      by_cases hu : s.unique = true
      · rw [if_pos hu, if_pos hu]
        split <;> simp_all
      · simp [hu]

theorem contextLoop_false (S : Schema) (p : Nat) (r : Nat) (kids : List T) : ∀ (fuel i : Nat) (log : List Report),
    kids.length - i < fuel →
    contextLoop S p (fun _ => false) r fuel kids i log = some (kids, log ++ (kids.drop i).flatMap (kidReports S p r kids))
  | 0, i, log, h => by omega
  | fuel + 1, i, log, h => by
    rw [contextLoop]
    cases hk : kids[i]? with
    | none =>
      have : kids.drop i = [] := List.drop_eq_nil_of_le (List.getElem?_eq_none_iff.1 hk)
      simp [this]
    | some k =>
      obtain ⟨hlt, hg⟩ := List.getElem?_eq_some_iff.1 hk
      simp only [visit_false, Bool.false_eq_true, if_false]
      rw [contextLoop_false S p r kids fuel (i + 1) _ (by omega), List.drop_eq_getElem_cons hlt, List.flatMap_cons, hg,
        List.append_assoc]

/-- The loop ends, whatever the callback answers. -/
theorem contextLoop_total (S : Schema) (p : Nat) (ans : Nat → Bool) (r : Nat) : ∀ (fuel : Nat) (kids : List T) (i : Nat) (log : List Report),
    kids.length * kids.length + (kids.length - i) + 1 ≤ fuel → ∃ out, contextLoop S p ans r fuel kids i log = some out
  | 0, kids, i, log, h => by omega
  | fuel + 1, kids, i, log, h => by
    rw [contextLoop]
    cases hk : kids[i]? with
    | none => exact ⟨_, rfl⟩
    | some k =>
      obtain ⟨hlt, hg⟩ := List.getElem?_eq_some_iff.1 hk
      simp only []
      by_cases hv : (visit S p ans r kids k log).2 = true
      · rw [if_pos hv]
        apply contextLoop_total
        rw [List.length_eraseIdx_of_lt hlt]
        clear hg hk hv
        generalize kids.length = n at *
        obtain ⟨m, rfl⟩ : ∃ m, n = m + 1 := ⟨n - 1, by omega⟩
        have hsq : (m + 1) * (m + 1) = m * m + 2 * m + 1 := by
          rw [Nat.add_mul, Nat.mul_add]; omega
        rw [hsq] at h
        simp only [Nat.add_sub_cancel]
        omega
      · rw [if_neg hv]
        apply contextLoop_total
        omega

/-- What the loop keeps for every callback. -/
theorem contextLoop_inv (S : Schema) (p : Nat) (ans : Nat → Bool) (r : Nat) (P : List T → Prop)
    (hstep : ∀ kids i k log, P kids → kids[i]? = some k → (visit S p ans r kids k log).2 = true → P (kids.eraseIdx i)) :
    ∀ (fuel : Nat) (kids : List T) (i : Nat) (log : List Report) (out : List T × List Report),
    P kids → contextLoop S p ans r fuel kids i log = some out → P out.1
  | 0, kids, i, log, out, _, h => by simp [contextLoop] at h
  | fuel + 1, kids, i, log, out, hP, h => by
    rw [contextLoop] at h
    cases hk : kids[i]? with
    | none => rw [hk] at h; simp only [Option.some.injEq] at h; rw [← h]; exact hP
    | some k =>
      rw [hk] at h
      simp only [] at h
      by_cases hv : (visit S p ans r kids k log).2 = true
      · rw [if_pos hv] at h
        exact contextLoop_inv S p ans r P hstep fuel _ _ _ out (hstep kids i k log hP hk hv) h
      · rw [if_neg hv] at h
        exact contextLoop_inv S p ans r P hstep fuel _ _ _ out hP h

/-- A child that is deleted was not acceptable. -/
theorem visit_bad (S : Schema) (p : Nat) (ans : Nat → Bool) (r : Nat) (kids : List T) (k : T) (log : List Report)
    (h : (visit S p ans r kids k log).2 = true) :
    ∃ s, entry S r k = some s ∧ (s.disabled &&& p ≠ 0 ∨
      s.unique = true ∧ 2 ≤ (kids.filter (fun k' => k'.id S == k.id S)).length) := by
  rw [visit] at h
  cases he : entry S r k with
  | none => rw [he] at h; simp at h
  | some s =>
    rw [he] at h
    obtain ⟨h1, h2, h3⟩ := entry_some S r k s he
    refine ⟨s, rfl, ?_⟩
    by_cases hd : s.disabled &&& p = 0
    · right
      simp only [if_pos ((enabled_iff s p).2 hd), visitUnique_eq S _ kids s k h2] at h
      by_cases hu : s.unique = true
      · rw [if_pos hu] at h
        refine ⟨hu, ?_⟩
        cases hf : kids.filter (fun k' => k'.id S == k.id S) with
        | nil => simp [hf] at h
        | cons a l =>
          cases l with
          | nil => simp [hf] at h
          | cons b l => simp
      · rw [if_neg hu] at h; simp at h
    · left; exact hd

/-- With a callback that always answers 1, a child that stays is acceptable. -/
theorem visit_good (S : Schema) (hd : DistinctIds S) (p : Nat) (r : Nat) (kids : List T) (k : T) (log : List Report) :
    (visit S p (fun _ => true) r kids k log).2 = false ↔ Acceptable S p r kids k := by
  constructor
  · intro h hk s hs he
    rw [visit] at h
    cases hen : entry S r k with
    | none => exact absurd he (entry_none S r k hen hk s hs)
    | some s' =>
      obtain rfl := entry_unique S hd r k s' s hen hs he
      rw [hen] at h
      by_cases hdis : s.disabled &&& p = 0
      · refine ⟨hdis, fun hu => ?_⟩
        simp only [if_pos ((enabled_iff s p).2 hdis), visitUnique_eq S _ kids s k he, if_pos hu] at h
        cases hf : kids.filter (fun k' => k'.id S == k.id S) with
        | nil => simp
        | cons a l =>
          cases l with
          | nil => simp
          | cons b l => rw [hf] at h; simp at h
      · simp [if_neg (fun h' => hdis ((enabled_iff s p).1 h'))] at h
  · intro h
    rw [← Bool.not_eq_true]
    intro hv
    obtain ⟨s, he, hb⟩ := visit_bad S p _ r kids k log hv
    obtain ⟨h1, h2, h3⟩ := entry_some S r k s he
    obtain ⟨g1, g2⟩ := h h3 s h1 h2
    rcases hb with hb | ⟨hu, hb⟩
    · exact hb g1
    · have := g2 hu; omega

/-- The loop ends with every child from position 1 on acceptable. -/
theorem contextLoop_true (S : Schema) (hd : DistinctIds S) (p : Nat) (r : Nat) :
    ∀ (fuel : Nat) (kids : List T) (i : Nat) (log : List Report) (out : List T × List Report),
    (∀ j k, 1 ≤ j → j < i → kids[j]? = some k → Acceptable S p r kids k) →
    contextLoop S p (fun _ => true) r fuel kids i log = some out →
    ∀ j k, 1 ≤ j → out.1[j]? = some k → Acceptable S p r out.1 k
  | 0, kids, i, log, out, _, h => by simp [contextLoop] at h
  | fuel + 1, kids, i, log, out, hI, h => by
    rw [contextLoop] at h
    cases hk : kids[i]? with
    | none =>
      rw [hk] at h; simp only [Option.some.injEq] at h; rw [← h]
      intro j k hj hjk
      obtain ⟨hlt, _⟩ := List.getElem?_eq_some_iff.1 hjk
      have := List.getElem?_eq_none_iff.1 hk
      exact hI j k hj (by simp only at hlt; omega) hjk
    | some k =>
      rw [hk] at h
      simp only [] at h
      by_cases hv : (visit S p (fun _ => true) r kids k log).2 = true
      · rw [if_pos hv] at h
        exact contextLoop_true S hd p r fuel _ 1 _ out (fun j k h1 h2 => by omega) h
      · rw [if_neg hv] at h
        refine contextLoop_true S hd p r fuel _ (i + 1) _ out ?_ h
        intro j k' h1 h2 hjk
        by_cases hji : j = i
        · subst hji
          rw [hk] at hjk; cases hjk
          exact (visit_good S hd p r kids k log).1 (by simpa using hv)
        · exact hI j k' h1 (by omega) hjk

theorem filter_eraseIdx {α : Type} (q : α → Bool) : ∀ (l : List α) (i : Nat) (a : α), l[i]? = some a → q a = false →
    (l.eraseIdx i).filter q = l.filter q
  | [], i, a, h, _ => by simp at h
  | x :: l, 0, a, h, hq => by
    simp only [List.getElem?_cons_zero, Option.some.injEq] at h
    subst h
    simp [List.filter_cons, hq]
  | x :: l, i + 1, a, h, hq => by
    rw [List.getElem?_cons_succ] at h
    rw [List.eraseIdx_cons_succ, List.filter_cons, List.filter_cons, filter_eraseIdx q l i a h hq]

theorem length_filter_eraseIdx {α : Type} (q : α → Bool) : ∀ (l : List α) (i : Nat) (a : α), l[i]? = some a → q a = true →
    ((l.eraseIdx i).filter q).length + 1 = (l.filter q).length
  | [], i, a, h, _ => by simp at h
  | x :: l, 0, a, h, hq => by
    simp only [List.getElem?_cons_zero, Option.some.injEq] at h
    subst h
    simp [List.filter_cons, hq]
  | x :: l, i + 1, a, h, hq => by
    rw [List.getElem?_cons_succ] at h
    rw [List.eraseIdx_cons_succ, List.filter_cons, List.filter_cons]
    have ih := length_filter_eraseIdx q l i a h hq
    by_cases hx : q x = true
    · rw [if_pos hx, if_pos hx, List.length_cons, List.length_cons, ih]
    · rw [if_neg hx, if_neg hx, ih]

/-! ### mkclean's reduction -/

/-- No Void, CRC-32 or unrecognised element is a child of a master at or below `t`. -/
def NoFiller (S : Schema) (t : T) : Prop :=
  ∀ r kids, Below S t (.node r kids) → (S.ctx r).cls = .master →
    ∀ k ∈ kids, k.cls S ≠ .void ∧ k.cls S ≠ .crc ∧ k.cls S ≠ .dummy

/-- No Void, CRC-32 or dummy type is mandatory. -/
def PlainMandatory (S : Schema) : Prop :=
  ∀ r, ∀ s ∈ (S.ctx r).sem, s.mandatory = true → s.unique = true →
    (S.ctx s.ref).cls ≠ .void ∧ (S.ctx s.ref).cls ≠ .crc ∧ (S.ctx s.ref).cls ≠ .dummy

/-- Not filler, and none below. -/
def Plain (S : Schema) (t : T) : Prop := (t.cls S ≠ .void ∧ t.cls S ≠ .crc ∧ t.cls S ≠ .dummy) ∧ NoFiller S t

theorem noFiller_node (S : Schema) (r : Nat) (kids : List T) (h : ∀ k ∈ kids, Plain S k) : NoFiller S (.node r kids) := by
  intro r' kids' hb hc
  generalize hu : T.node r' kids' = u at hb
  cases hb with
  | refl => cases hu; intro k hk; exact (h k hk).1
  | step _ _ k _ hm hk hb => subst hu; exact (h k hk).2 r' kids' hb hc

theorem made_cls (S : Schema) (p : Nat) (d : Bool) (fuel r : Nat) : (made S p d fuel r).cls S = (S.ctx r).cls := by
  unfold made
  cases h : create S p d fuel r with
  | none => rfl
  | some t => obtain ⟨ks, rfl⟩ := create_node S p d fuel r t h; rfl

theorem made_plain (S : Schema) (p : Nat) (d : Bool) (rank : Nat → Nat) (hd : DistinctIds S) (hr : Ranked S rank)
    (hp : PlainMandatory S) : ∀ (fuel r : Nat), rank r < fuel → NoFiller S (made S p d fuel r)
  | 0, r, h => by omega
  | fuel + 1, r, h => by
    rw [(create_total S p d rank hd hr (fuel + 1) r h).2]
    split
    · apply noFiller_node
      intro k hk
      obtain ⟨s, hs, rfl⟩ := List.mem_map.1 hk
      rw [List.mem_filter] at hs
      have h2 := hs.2
      simp only [Bool.and_eq_true] at h2
      have hlt := hr r s hs.1 h2.1.1 h2.1.2
      refine ⟨?_, made_plain S p d rank hd hr hp fuel s.ref (by omega)⟩
      rw [made_cls]
      exact hp r s hs.1 h2.1.1 h2.1.2
    · exact noFiller_node S r [] (by simp)

theorem addMandatory_eq (S : Schema) (p : Nat) (d : Bool) (rank : Nat → Nat) (hd : DistinctIds S) (hr : Ranked S rank)
    (fuel r : Nat) (hf : rank r ≤ fuel) (kids : List T) :
    addMandatory S p d fuel r kids =
      some (kids ++ ((S.ctx r).sem.filter (wanted S p kids)).map (fun s => made S p d fuel s.ref)) := by
  refine addMand_eq S p _ _ _ kids (hd r) ?_
  intro s hs h1 h2
  have := hr r s hs h1 h2
  exact ⟨(create_total S p d rank hd hr fuel s.ref (by omega)).1, made_id _ _ _ _ _⟩

theorem checkContext_sub (S : Schema) (p : Nat) (ans : Nat → Bool) (fuel r : Nat) (kids : List T) (out : List T × List Report)
    (h : checkContext S p ans fuel r kids = some out) : out.1.Sublist kids := by
  rw [checkContext] at h
  cases hl : contextLoop S p ans r fuel kids 0 [] with
  | none => rw [hl] at h; cases h
  | some o =>
    rw [hl] at h
    simp only [Option.some.injEq] at h
    subst h
    exact contextLoop_inv S p ans r (fun ks => ks.Sublist kids)
      (fun ks i k log hs _ _ => (List.eraseIdx_sublist ks i).trans hs) fuel kids 0 [] o (List.Sublist.refl _) hl

theorem reduceEnd_plain (S : Schema) (p : Nat) (rank : Nat → Nat) (hd : DistinctIds S) (hr : Ranked S rank)
    (hp : PlainMandatory S) (fuel r : Nat) (hf : rank r ≤ fuel) (kids : List T) (hk : ∀ k ∈ kids, Plain S k) :
    ∃ ts, reduceEnd S p fuel r kids = some ts ∧ ∀ t ∈ ts, (∃ ks, t = .node r ks) ∧ NoFiller S t := by
  rw [reduceEnd]
  split
  · exact ⟨[], rfl, by simp⟩
  · rw [addMandatory_eq S p true rank hd hr fuel r hf kids]
    simp only []
    generalize hks : kids ++ ((S.ctx r).sem.filter (wanted S p kids)).map (fun s => made S p true fuel s.ref) = ks
    have hall : ∀ k ∈ ks, Plain S k := by
      rw [← hks]
      intro k hk'
      rcases List.mem_append.1 hk' with h | h
      · exact hk k h
      · obtain ⟨s, hs, rfl⟩ := List.mem_map.1 h
        rw [List.mem_filter] at hs
        have h2 := hs.2
        simp only [wanted, Bool.and_eq_true] at h2
        have hlt := hr r s hs.1 h2.1.1.1 h2.1.1.2
        refine ⟨?_, made_plain S p true rank hd hr hp fuel s.ref (by omega)⟩
        rw [made_cls]
        exact hp r s hs.1 h2.1.1.1 h2.1.1.2
    obtain ⟨out, ho⟩ := contextLoop_total S p (fun _ => true) r (ks.length * ks.length + ks.length + 1) ks 0 []
      (by rw [Nat.sub_zero]; exact Nat.le_refl _)
    have hcc : checkContext S p (fun _ => true) (ks.length * ks.length + ks.length + 1) r ks =
        some (out.1, out.2 ++ missingReports S r out.1) := by rw [checkContext, ho]
    have hsub := checkContext_sub S p _ _ r ks _ hcc
    rw [hcc]
    refine ⟨_, rfl, ?_⟩
    intro t ht
    rw [List.mem_singleton] at ht
    subst ht
    exact ⟨⟨_, rfl⟩, noFiller_node S r _ (fun k hk' => hall k (hsub.subset hk'))⟩

mutual
theorem reduce_plain (S : Schema) (bg p : Nat) (rank : Nat → Nat) (hd : DistinctIds S) (hr : Ranked S rank)
    (hp : PlainMandatory S) (fuel : Nat) (hf : ∀ r, rank r ≤ fuel) : ∀ (t : T), isFiller S t = false →
    ∃ ts, reduce S bg p fuel t = some ts ∧ ∀ t' ∈ ts, Plain S t'
  | .dummy i, h => by simp [isFiller, T.cls] at h
  | .node r kids, h => by
    have hcls : ∀ ks : List T, (T.node r ks).cls S ≠ .void ∧ (T.node r ks).cls S ≠ .crc ∧ (T.node r ks).cls S ≠ .dummy := by
      intro ks
      simp only [isFiller, Bool.or_eq_false_iff] at h
      simp only [T.cls] at h ⊢
      simpa [and_assoc, and_comm] using h
    rw [reduce]
    by_cases hm : (S.ctx r).cls = .master
    · rw [if_neg (by simp [hm])]
      split
      · exact ⟨[], rfl, by simp⟩
      · obtain ⟨ks, h1, h2⟩ := reduceList_plain S bg p rank hd hr hp fuel hf kids
        rw [h1]
        obtain ⟨ts, h3, h4⟩ := reduceEnd_plain S p rank hd hr hp fuel r (hf r) ks h2
        refine ⟨ts, h3, ?_⟩
        intro t' ht
        obtain ⟨⟨ks', rfl⟩, hn⟩ := h4 t' ht
        exact ⟨hcls ks', hn⟩
    · rw [if_pos (by simp [hm])]
      refine ⟨_, rfl, ?_⟩
      intro t' ht
      rw [List.mem_singleton] at ht
      subst ht
      refine ⟨hcls kids, ?_⟩
      intro r' kids' hb hc
      generalize hu : T.node r' kids' = u at hb
      cases hb with
      | refl => cases hu; exact absurd hc hm
      | step _ _ k _ hm' => exact absurd hm' hm
theorem reduceList_plain (S : Schema) (bg p : Nat) (rank : Nat → Nat) (hd : DistinctIds S) (hr : Ranked S rank)
    (hp : PlainMandatory S) (fuel : Nat) (hf : ∀ r, rank r ≤ fuel) : ∀ (ks : List T),
    ∃ ts, reduceList S bg p fuel ks = some ts ∧ ∀ t' ∈ ts, Plain S t'
  | [] => ⟨[], rfl, by simp⟩
  | k :: ks => by
    obtain ⟨b, h1, h2⟩ := reduceList_plain S bg p rank hd hr hp fuel hf ks
    rw [reduceList]
    by_cases hk : isFiller S k = true
    · rw [if_pos hk]; exact ⟨b, h1, h2⟩
    · rw [if_neg hk]
      obtain ⟨a, h3, h4⟩ := reduce_plain S bg p rank hd hr hp fuel hf k (by simpa using hk)
      rw [h3, h1]
      refine ⟨_, rfl, ?_⟩
      intro t' ht
      rcases List.mem_append.1 ht with h | h
      · exact h4 t' h
      · exact h2 t' h
end

/-! ### mkvalidator's check -/

/-- The reports for the children of one element. -/
def ownReports (S : Schema) (p r : Nat) (kids : List T) : List Report :=
  kids.flatMap (kidReports S p r kids) ++ missingReports S r kids

theorem checkContext_false (S : Schema) (p r : Nat) (kids : List T) (fuel : Nat) (hf : kids.length < fuel) :
    checkContext S p (fun _ => false) fuel r kids = some (kids, ownReports S p r kids) := by
  rw [checkContext, contextLoop_false S p r kids fuel 0 [] (by omega)]
  rfl

theorem kidReports_nil (S : Schema) (hd : DistinctIds S) (p r : Nat) (kids : List T) (k : T) :
    kidReports S p r kids k = [] ↔ Acceptable S p r kids k := by
  rw [kidReports]
  cases he : entry S r k with
  | none => exact ⟨fun _ hk s hs h => absurd h (entry_none S r k he hk s hs), fun _ => rfl⟩
  | some s =>
    obtain ⟨h1, h2, h3⟩ := entry_some S r k s he
    simp only [List.append_eq_nil_iff]
    constructor
    · rintro ⟨g1, g2⟩ hk s' hs' he'
      obtain rfl := entry_unique S hd r k s s' he hs' he'
      refine ⟨?_, fun hu => ?_⟩
      · by_cases hx : s'.disabled &&& p = 0
        · exact hx
        · rw [if_neg hx] at g1; cases g1
      · rw [if_pos hu] at g2
        cases hf : kids.filter (fun k' => k'.id S == k.id S) with
        | nil => simp
        | cons a l =>
          cases l with
          | nil => simp
          | cons b l => rw [hf] at g2; simp at g2
    · intro h
      obtain ⟨g1, g2⟩ := h h3 s h1 h2
      refine ⟨if_pos g1, ?_⟩
      by_cases hu : s.unique = true
      · rw [if_pos hu]
        have := g2 hu
        cases hf : kids.filter (fun k' => k'.id S == k.id S) with
        | nil => rfl
        | cons a l =>
          cases l with
          | nil => rfl
          | cons b l => rw [hf] at this; simp at this
      · rw [if_neg hu]

theorem ownReports_nil (S : Schema) (hd : DistinctIds S) (p r : Nat) (kids : List T) :
    ownReports S p r kids = [] ↔ Proper S p r kids := by
  rw [ownReports, List.append_eq_nil_iff, List.flatMap_eq_nil_iff]
  have hm : missingReports S r kids = [] ↔ ∀ s ∈ (S.ctx r).sem, s.mandatory = true → (S.ctx s.ref).hasDefault = false →
      ∃ k ∈ kids, k.id S = (S.ctx s.ref).id := by
    rw [missingReports, List.map_eq_nil_iff, List.filter_eq_nil_iff]
    apply forall_congr'; intro s
    apply forall_congr'; intro hs
    simp only [Bool.and_eq_true, findFirst_none, Bool.not_eq_true']
    constructor
    · intro h h1 h2
      apply Classical.byContradiction
      intro h3
      exact h ⟨⟨h1, h2⟩, fun k hk he => h3 ⟨k, hk, he⟩⟩
    · rintro h ⟨⟨h1, h2⟩, h3⟩
      obtain ⟨k, hk, he⟩ := h h1 h2
      exact h3 k hk he
  rw [hm]
  simp only [kidReports_nil S hd]
  constructor
  · rintro ⟨h1, h2⟩
    refine ⟨fun k hk hkn s hs he => (h1 k hk hkn s hs he).1, fun k hk hkn s hs he hu => ?_, h2⟩
    have := (h1 k hk hkn s hs he).2 hu
    have hpos : 0 < (kids.filter (fun k' => k'.id S == k.id S)).length :=
      List.length_pos_of_mem (List.mem_filter.2 ⟨hk, by simp⟩)
    omega
  · rintro ⟨h1, h2, h3⟩
    exact ⟨fun k hk hkn s hs he => ⟨h1 k hk hkn s hs he, fun hu => Nat.le_of_eq (h2 k hk hkn s hs he hu)⟩, h3⟩

mutual
theorem violations_iff (S : Schema) (hd : DistinctIds S) (p : Nat) : ∀ (t : T), ∃ l, violations S p t = some l ∧
    (l = [] ↔ ∀ r kids, Below S t (.node r kids) → (S.ctx r).cls = .master → Proper S p r kids)
  | .dummy i => ⟨[], rfl, by simp; intro r kids hb; cases hb⟩
  | .node r kids => by
    rw [violations]
    by_cases hm : (S.ctx r).cls = .master
    · rw [if_pos (by simp [hm])]
      obtain ⟨l', h1, h2⟩ := violationsList_iff S hd p kids
      rw [checkContext_false S p r kids _ (Nat.lt_succ_self _), h1]
      refine ⟨_, rfl, ?_⟩
      rw [List.append_eq_nil_iff, ownReports_nil S hd, h2]
      constructor
      · rintro ⟨g1, g2⟩ r' kids' hb hc
        generalize hu : T.node r' kids' = u at hb
        cases hb with
        | refl => cases hu; exact g1
        | step _ _ k _ _ hk hb => subst hu; exact g2 k hk r' kids' hb hc
      · intro h
        exact ⟨h r kids (.refl _) hm, fun k hk r' kids' hb => h r' kids' (.step r kids k _ hm hk hb)⟩
    · rw [if_neg (by simp [hm])]
      refine ⟨[], rfl, iff_of_true rfl ?_⟩
      intro r' kids' hb hc
      generalize hu : T.node r' kids' = u at hb
      cases hb with
      | refl => cases hu; exact absurd hc hm
      | step _ _ k _ hm' => exact absurd hm' hm
theorem violationsList_iff (S : Schema) (hd : DistinctIds S) (p : Nat) : ∀ (ks : List T), ∃ l, violationsList S p ks = some l ∧
    (l = [] ↔ ∀ k ∈ ks, ∀ r kids, Below S k (.node r kids) → (S.ctx r).cls = .master → Proper S p r kids)
  | [] => ⟨[], rfl, by simp⟩
  | k :: ks => by
    obtain ⟨l, h1, h2⟩ := violations_iff S hd p k
    obtain ⟨l', h3, h4⟩ := violationsList_iff S hd p ks
    rw [violationsList, h1, h3]
    refine ⟨_, rfl, ?_⟩
    rw [List.append_eq_nil_iff, h2, h4, List.forall_mem_cons]
end

end Verif.Ebml.Master
