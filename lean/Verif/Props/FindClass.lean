import Verif.Core.FindClass
import Verif.Core.SortLemmas
/-!
Property C249: looking up classes that several modules may provide.
-/
namespace Verif.FindClass
open Verif.Core

/-- A registered class with this ID. -/
def Registered (st : St) (id : Nat) (c : Cls) : Prop := c ∈ st.classes ∧ c.id = id ∧ 0 ≤ c.state

/-- The array is ordered, with one class for each ID and module, and the cache is empty or a registered class. -/
structure Good (st : St) : Prop where
  sorted : st.classes.Pairwise fun a b => a.id < b.id ∨ (a.id = b.id ∧ a.mod < b.mod)
  cached : ∀ a, st.cache = some a → ∃ c ∈ st.classes, c.addr = a ∧ 0 ≤ c.state
  addrs : (st.classes.map (·.addr)).Nodup

/-- Where classes are put and moved to nothing else is. -/
def ValidOp (st : St) : Op → Prop
  | .register _ _ addr _ move => (∀ a b, move a = move b → a = b) ∧ ∀ c ∈ st.classes, c.addr ≠ addr
  | _ => True

/-- `ValidOp` along a run. -/
def ValidRun : List Op → St → Prop
  | [], _ => True
  | o :: r, st => ValidOp st o ∧ ∀ st', step st o = some st' → ValidRun r st'

/-! ### Helpers -/

theorem cmpId_total : Total cmpId := by
  constructor
  · intro a b
    unfold cmpId
    (repeat' split) <;> omega
  · intro a b c
    unfold cmpId
    (repeat' split) <;> omega

theorem cmpCls_total : Total cmpCls := by
  constructor
  · intro a b
    unfold cmpCls
    (repeat' split) <;> omega
  · intro a b c
    unfold cmpCls
    (repeat' split) <;> omega

theorem forth_some (id : Nat) : ∀ (l : List Cls) (c : Cls), forth id l = some c → c ∈ l ∧ c.id = id ∧ 0 ≤ c.state := by
  intro l
  induction l with
  | nil => intro c h; cases h
  | cons d r ih =>
    intro c h
    rw [forth] at h
    by_cases h1 : d.id = id
    · rw [if_pos h1] at h
      by_cases h2 : d.state ≥ 0
      · rw [if_pos h2] at h
        cases h
        exact ⟨List.mem_cons_self, h1, h2⟩
      · rw [if_neg h2] at h
        obtain ⟨a, b⟩ := ih c h
        exact ⟨List.mem_cons_of_mem _ a, b⟩
    · rw [if_neg h1] at h; cases h

theorem forth_none (id : Nat) : ∀ l : List Cls, l.Pairwise (fun a b => a.id ≤ b.id) → (∀ c ∈ l, id ≤ c.id) →
    forth id l = none → ∀ c ∈ l, c.id = id → c.state < 0 := by
  intro l
  induction l with
  | nil => intro _ _ _ c hc; cases hc
  | cons d r ih =>
    intro hs hge h c hc hid
    obtain ⟨hs1, hs2⟩ := List.pairwise_cons.1 hs
    rw [forth] at h
    by_cases h1 : d.id = id
    · rw [if_pos h1] at h
      by_cases h2 : d.state ≥ 0
      · rw [if_pos h2] at h; cases h
      · rw [if_neg h2] at h
        rcases List.mem_cons.1 hc with rfl | hc
        · omega
        · exact ih hs2 (fun x hx => hge x (List.mem_cons_of_mem _ hx)) h c hc hid
    · have hd := hge d List.mem_cons_self
      rcases List.mem_cons.1 hc with rfl | hc
      · exact absurd hid h1
      · have := hs1 c hc
        omega

theorem back_spec (l : List Cls) (id : Nat) : ∀ p, back l id p ≤ p ∧
    (∀ i c, back l id p ≤ i → i < p → l[i]? = some c → c.id = id) ∧
    (∀ c, 0 < back l id p → l[back l id p - 1]? = some c → c.id ≠ id) := by
  intro p
  induction p with
  | zero => exact ⟨Nat.le_refl _, fun i c _ h => by omega, fun c h => by rw [back] at h; omega⟩
  | succ p ih =>
    rw [back]
    by_cases h : (l[p]?).map (·.id) = some id
    · rw [if_pos h]
      refine ⟨by omega, fun i c h1 h2 hc => ?_, ih.2.2⟩
      by_cases hip : i = p
      · rw [hip] at hc
        rw [hc] at h
        simpa using h
      · exact ih.2.1 i c h1 (by omega) hc
    · rw [if_neg h]
      refine ⟨Nat.le_refl _, fun i c _ _ => by omega, fun c _ hc hid => h ?_⟩
      rw [Nat.add_sub_cancel] at hc
      rw [hc, Option.map_some, hid]

theorem search_spec {l : List Cls} (hs : l.Pairwise fun a b => a.id ≤ b.id) (id : Nat) :
    ∃ r u, search l id = some (r, u) ∧ (∀ c, r = some c → c ∈ l ∧ c.id = id ∧ 0 ≤ c.state) ∧
      (r = none → ∀ c ∈ l, c.id = id → c.state < 0) ∧ (u = none ∨ u = some (r.map (·.addr))) := by
  have hs' : l.Pairwise fun a b => cmpId a b ≤ 0 := hs.imp (fun {a b} hab => by
    unfold cmpId; rw [if_neg (by omega)]; split <;> omega)
  unfold search
  rcases findEx_spec cmpId_total l hs' ⟨id, 0, 0, 0⟩ with ⟨m, hm, h1, h2⟩ | ⟨p, h1, h2, h3, h4⟩
  · rw [h1]
    simp only [Int.toNat_natCast, List.getElem?_eq_getElem hm]
    have hid : l[m].id = id := by
      unfold cmpId at h2
      (repeat' split at h2) <;> simp_all <;> omega
    refine ⟨_, _, rfl, ?_, ?_, .inr rfl⟩
    · intro c hc
      split at hc
      · obtain ⟨a, b⟩ := forth_some id _ c hc
        exact ⟨List.mem_of_mem_drop a, b⟩
      · cases hc
        exact ⟨List.getElem_mem hm, hid, by omega⟩
    · intro hr
      split at hr
      · obtain ⟨b1, b2, b3⟩ := back_spec l id m
        have hmono := List.pairwise_iff_getElem.1 hs
        have hge : ∀ c ∈ l.drop (back l id m), id ≤ c.id := by
          intro c hc
          obtain ⟨i, hi, rfl⟩ := List.mem_iff_getElem.1 hc
          rw [List.length_drop] at hi
          rw [List.getElem_drop]
          by_cases hlt : back l id m + i < m
          · rw [b2 (back l id m + i) _ (by omega) hlt (List.getElem?_eq_getElem (by omega))]
            exact Nat.le_refl _
          · by_cases heq : m = back l id m + i
            · simp only [← heq]; omega
            · have := hmono m (back l id m + i) hm (by omega) (by omega); omega
        intro c hc hcid
        have hdrop := forth_none id _ (hs.sublist (List.drop_sublist _ _)) hge hr
        rw [← List.take_append_drop (back l id m) l, List.mem_append] at hc
        rcases hc with hc | hc
        · exfalso
          obtain ⟨i, hi, rfl⟩ := List.mem_iff_getElem.1 hc
          rw [List.length_take] at hi
          rw [List.getElem_take] at hcid
          have hb0 : 0 < back l id m := by omega
          have hlast := b3 _ hb0 (List.getElem?_eq_getElem (show back l id m - 1 < l.length by omega))
          by_cases hil : i = back l id m - 1
          · simp only [hil] at hcid; exact hlast hcid
          · have g1 := hmono i (back l id m - 1) (by omega) (by omega) (by omega)
            have g2 := hmono (back l id m - 1) m (by omega) hm (by omega)
            omega
        · exact hdrop c hc hcid
      · cases hr
  · rw [h1]
    refine ⟨none, none, rfl, fun c h => (nomatch h), fun _ c hc hid => ?_, .inl rfl⟩
    exfalso
    obtain ⟨i, hi, rfl⟩ := List.mem_iff_getElem.1 hc
    have h0 : cmpId l[i] ⟨id, 0, 0, 0⟩ = 0 := by
      unfold cmpId
      rw [if_neg (by show ¬ _ > id; omega), if_neg (by show ¬ _ < id; omega)]
    by_cases hip : i < p
    · have := h3 i hi hip; omega
    · have := h4 i hi (by omega); omega

theorem good_le {st : St} (h : Good st) : st.classes.Pairwise fun a b => a.id ≤ b.id := h.sorted.imp (fun {a b} hab => by omega)

theorem find_addr {st : St} (h : Good st) {a : Nat} (ha : st.cache = some a) :
    ∃ c, (st.classes.find? fun c => c.addr == a) = some c ∧ c ∈ st.classes ∧ c.addr = a ∧ 0 ≤ c.state := by
  obtain ⟨c, hc, he, hst⟩ := h.cached a ha
  cases hf : st.classes.find? fun c => c.addr == a with
  | none =>
    have := List.find?_eq_none.1 hf c hc
    simp [he] at this
  | some d =>
    have hd := List.mem_of_find?_eq_some hf
    have hda : d.addr = a := by simpa using List.find?_some hf
    refine ⟨d, rfl, hd, hda, ?_⟩
    have : d = c := by
      refine Classical.byContradiction fun hne => ?_
      obtain ⟨i, hi, rfl⟩ := List.mem_iff_getElem.1 hd
      obtain ⟨j, hj, rfl⟩ := List.mem_iff_getElem.1 hc
      have hp := List.pairwise_iff_getElem.1 h.addrs
      rcases Nat.lt_trichotomy i j with hij | hij | hij
      · have := hp i j (by simpa using hi) (by simpa using hj) hij
        rw [List.getElem_map, List.getElem_map] at this
        exact this (hda.trans he.symm)
      · exact hne (by simp only [hij])
      · have := hp j i (by simpa using hj) (by simpa using hi) hij
        rw [List.getElem_map, List.getElem_map] at this
        exact this (he.trans hda.symm)
    rw [this]; exact hst

theorem findClass_spec {st : St} (h : Good st) (id : Nat) :
    ∃ r st', findClass id st = some (r, st') ∧ st'.classes = st.classes ∧ Good st' ∧
      (∀ c, r = some c → Registered st id c) ∧ (r = none → id = 0 ∨ ∀ c, ¬ Registered st id c) := by
  unfold findClass
  by_cases h0 : id = 0
  · rw [if_pos h0]
    exact ⟨none, st, rfl, rfl, h, fun c hc => (nomatch hc), fun _ => .inl h0⟩
  · simp only [if_neg h0]
    have hgo : ∃ r st', (search st.classes id).map (fun x => (x.1, { st with cache := x.2.getD st.cache })) = some (r, st') ∧
        st'.classes = st.classes ∧ Good st' ∧ (∀ c, r = some c → Registered st id c) ∧
        (r = none → id = 0 ∨ ∀ c, ¬ Registered st id c) := by
      obtain ⟨r, u, e, h1, h2, h3⟩ := search_spec (good_le h) id
      rw [e]
      refine ⟨r, _, rfl, rfl, ⟨h.sorted, fun a ha => ?_, h.addrs⟩, h1, fun hr => .inr fun c hc => ?_⟩
      · rcases h3 with h3 | h3
        · rw [h3] at ha
          exact h.cached a ha
        · rw [h3] at ha
          have ha' : r.map (·.addr) = some a := ha
          cases r with
          | none => cases ha'
          | some c =>
            obtain ⟨m, _, s⟩ := h1 c rfl
            exact ⟨c, m, Option.some.inj ha', s⟩
      · have := h2 hr c hc.1 hc.2.1
        have := hc.2.2
        omega
    cases hca : st.cache with
    | none => simpa only [hca] using hgo
    | some a =>
      obtain ⟨c, hf, hm, _, hs⟩ := find_addr h hca
      simp only [hf]
      by_cases hid : c.id = id
      · rw [if_pos hid]
        refine ⟨some c, st, rfl, rfl, h, ?_, fun hr => (nomatch hr)⟩
        rintro _ ⟨⟩
        exact ⟨hm, hid, hs⟩
      · rw [if_neg hid]
        simpa only [hca] using hgo

theorem good_map {st : St} (h : Good st) (f : Cls → Cls) (hid : ∀ c, (f c).id = c.id) (hmod : ∀ c, (f c).mod = c.mod)
    (g : Nat → Nat) (hg : ∀ a b, g a = g b → a = b) (ha : ∀ c, (f c).addr = g c.addr) : Good ⟨st.classes.map f, none⟩ := by
  refine ⟨?_, fun a hc => (nomatch hc), ?_⟩
  · show (st.classes.map f).Pairwise _
    rw [List.pairwise_map]
    exact h.sorted.imp (fun {a b} hab => by rw [hid, hid, hmod, hmod]; exact hab)
  · show ((st.classes.map f).map (·.addr)).Nodup
    rw [List.map_map]
    have : (fun c : Cls => c.addr) ∘ f = g ∘ (fun c => c.addr) := by funext c; exact ha c
    rw [this, ← List.map_map]
    exact List.pairwise_map.2 (h.addrs.imp (fun {a b} hab hx => hab (hg a b hx)))

theorem step_good {st : St} (h : Good st) (o : Op) (ho : ValidOp st o) : ∃ st', step st o = some st' ∧ Good st' := by
  cases o with
  | find id =>
    obtain ⟨r, st', e, _, g, _⟩ := findClass_spec h id
    exact ⟨st', by rw [step, e]; rfl, g⟩
  | findEx id mod =>
    rw [step, findClassEx]
    by_cases h0 : id = 0
    · rw [if_pos h0]; exact ⟨st, rfl, h⟩
    · rw [if_neg h0]
      cases findModule id mod st.classes with
      | some c => exact ⟨st, rfl, h⟩
      | none =>
        obtain ⟨r, st', e, _, g, _⟩ := findClass_spec h id
        exact ⟨st', by simp only [e, Option.map_some], g⟩
  | fail addr =>
    refine ⟨_, rfl, good_map h _ ?_ ?_ (fun a => a) (fun a b hab => hab) ?_⟩ <;> intro c <;> split <;> rfl
  | register id mod addr ok move =>
    obtain ⟨hinj, hfree⟩ := ho
    rw [step, register]
    by_cases hany : (st.classes.any fun c => c.id == id && c.mod == mod) = true
    · rw [if_pos hany]
      refine ⟨_, rfl, ?_⟩
      rw [List.map_map]
      refine good_map h _ ?_ ?_ move hinj ?_ <;> intro c <;> simp only [Function.comp_apply] <;> split <;> rfl
    · rw [if_neg hany]
      have hno : ∀ c ∈ st.classes, ¬ (c.id = id ∧ c.mod = mod) := by
        intro c hc hx
        exact hany (List.any_eq_true.2 ⟨c, hc, by simp [hx.1, hx.2]⟩)
      have hs : st.classes.Pairwise fun a b => cmpCls a b ≤ 0 := h.sorted.imp (fun {a b} hab => by
        unfold cmpCls
        (repeat' split) <;> omega)
      unfold addEx
      rcases findEx_spec cmpCls_total st.classes hs ⟨id, mod, 0, addr⟩ with ⟨m, hm, h1, h2⟩ | ⟨p, h1, h2, h3, h4⟩
      · exfalso
        have hne := hno _ (List.getElem_mem hm)
        obtain ⟨x, hx, hxi, hxm⟩ : ∃ x : Cls, x = ⟨id, mod, 0, addr⟩ ∧ x.id = id ∧ x.mod = mod := ⟨_, rfl, rfl, rfl⟩
        rw [← hx] at h2
        unfold cmpCls at h2
        (repeat' split at h2) <;> omega
      · rw [h1]
        simp only [Int.toNat_natCast]
        cases ok with
        | false =>
          simp only [Bool.false_eq_true, if_false]
          rw [if_pos (by omega)]
          exact ⟨_, rfl, h.sorted, fun a ha => (nomatch ha), h.addrs⟩
        | true =>
          simp only [if_true]
          rw [if_neg (by omega)]
          have hperm : (st.classes.take p ++ ⟨id, mod, 0, addr⟩ :: st.classes.drop p).Perm (⟨id, mod, 0, addr⟩ :: st.classes) := by
            refine List.perm_middle.trans ?_
            rw [List.take_append_drop]
          have hg : Good ⟨st.classes.take p ++ ⟨id, mod, 0, addr⟩ :: st.classes.drop p, none⟩ := by
            refine ⟨?_, fun a ha => (nomatch ha), ?_⟩
            · have hp := h.sorted
              rw [← List.take_append_drop p st.classes, List.pairwise_append] at hp
              show (st.classes.take p ++ _).Pairwise _
              rw [List.pairwise_append, List.pairwise_cons]
              have ha : ∀ a ∈ st.classes.take p, a.id < id ∨ (a.id = id ∧ a.mod < mod) := by
                intro a ha
                obtain ⟨i, hi, rfl⟩ := List.mem_iff_getElem.1 ha
                rw [List.length_take] at hi
                have := h3 i (by omega) (by omega)
                rw [List.getElem_take]
                unfold cmpCls at this
                (repeat' split at this) <;> simp_all <;> omega
              refine ⟨hp.1, ⟨fun b hb => ?_, hp.2.1⟩, fun a haa b hbb => ?_⟩
              · obtain ⟨i, hi, rfl⟩ := List.mem_iff_getElem.1 hb
                rw [List.length_drop] at hi
                have := h4 (p + i) (by omega) (by omega)
                rw [List.getElem_drop]
                unfold cmpCls at this
                (repeat' split at this) <;> simp_all <;> omega
              · rcases List.mem_cons.1 hbb with rfl | hbb
                · exact ha a haa
                · exact hp.2.2 a haa b hbb
            · show (List.map _ _).Nodup
              refine (hperm.map (·.addr)).nodup_iff.2 ?_
              rw [List.map_cons, List.nodup_cons]
              refine ⟨fun hx => ?_, h.addrs⟩
              obtain ⟨c, hc, hcx⟩ := List.mem_map.1 hx
              exact hfree c hc hcx
          exact ⟨_, rfl, good_map hg _ (fun _ => rfl) (fun _ => rfl) move hinj (fun _ => rfl)⟩

/-! ### The property -/

/-- Along every history no lookup leaves the array or goes through a stale cache. -/
theorem C249_sound (ops : List Op) (ho : ValidRun ops start) : ∃ st, run ops start = some st ∧ Good st := by
  have key : ∀ (ops : List Op) (st : St), Good st → ValidRun ops st → ∃ st', run ops st = some st' ∧ Good st' := by
    intro ops
    induction ops with
    | nil => intro st h _; exact ⟨st, rfl, h⟩
    | cons o r ih =>
      intro st h ho
      obtain ⟨s1, e1, g1⟩ := step_good h o ho.1
      obtain ⟨s2, e2, g2⟩ := ih s1 g1 (ho.2 s1 e1)
      exact ⟨s2, by rw [run, e1, Option.bind_some, e2], g2⟩
  exact key ops start ⟨List.Pairwise.nil, fun a h => (nomatch h), List.nodup_nil⟩ ho

/-- A lookup finds a registered class with the ID exactly if some module has one, whatever was looked up before. -/
theorem C249_found (st : St) (h : Good st) (id : Nat) (h0 : id ≠ 0) :
    ∃ r st', findClass id st = some (r, st') ∧ st'.classes = st.classes ∧ Good st' ∧
      (∀ c, r = some c → Registered st id c) ∧ (r = none ↔ ¬ ∃ c, Registered st id c) := by
  obtain ⟨r, st', e, h1, h2, h3, h4⟩ := findClass_spec h id
  refine ⟨r, st', e, h1, h2, h3, fun hr => ?_, fun hn => ?_⟩
  · rintro ⟨c, hc⟩
    exact (h4 hr).elim h0 (fun hx => hx c hc)
  · cases r with
    | none => rfl
    | some c => exact absurd ⟨c, h3 c rfl⟩ hn

/-- A second lookup gives the same class. -/
theorem C249_again (st st' : St) (h : Good st) (id : Nat) (c : Cls) (hf : findClass id st = some (some c, st')) :
    ∃ st'', findClass id st' = some (some c, st'') := by
  have hsound := findClass_spec h id
  obtain ⟨r, s, e, hc, hg, h3, _⟩ := hsound
  rw [hf] at e
  cases e
  have hreg := h3 c rfl
  by_cases h0 : id = 0
  · unfold findClass at hf
    rw [if_pos h0] at hf
    cases hf
  · have hcache : st'.cache = some c.addr := by
      have hgo : ∀ x, (search st.classes id).map (fun x => (x.1, { st with cache := x.2.getD st.cache })) = some (some c, x) →
          x.cache = some c.addr := by
        intro x hx
        unfold search at hx
        cases hfe : findEx (fun y => cmpId y ⟨id, 0, 0, 0⟩) st.classes with
        | none => rw [hfe] at hx; cases hx
        | some bp =>
          obtain ⟨b, pos⟩ := bp
          rw [hfe] at hx
          cases b with
          | false => cases hx
          | true =>
            simp only at hx
            cases hl : st.classes[pos.toNat]? with
            | none => rw [hl] at hx; cases hx
            | some d =>
              rw [hl] at hx
              simp only [Option.map_some, Option.some.injEq, Prod.mk.injEq] at hx
              obtain ⟨e1, e2⟩ := hx
              rw [← e2, e1]
              rfl
      unfold findClass at hf
      simp only [if_neg h0] at hf
      cases hca : st.cache with
      | none =>
        rw [hca] at hf
        simp only at hf
        exact hgo st' (by rw [hca]; exact hf)
      | some a =>
        rw [hca] at hf
        simp only at hf
        cases hfi : st.classes.find? fun c => c.addr == a with
        | none => rw [hfi] at hf; cases hf
        | some d =>
          rw [hfi] at hf
          simp only at hf
          by_cases hid : d.id = id
          · rw [if_pos hid] at hf
            cases hf
            have : c.addr = a := by simpa using List.find?_some hfi
            rw [hca, this]
          · rw [if_neg hid] at hf
            exact hgo st' (by rw [hca]; exact hf)
    obtain ⟨d, hf', hm, hda, _⟩ := find_addr hg hcache
    have hdc : d = c := by
      refine Classical.byContradiction fun hne => ?_
      have hm' : c ∈ st'.classes := by rw [hc]; exact hreg.1
      obtain ⟨i, hi, rfl⟩ := List.mem_iff_getElem.1 hm
      obtain ⟨j, hj, rfl⟩ := List.mem_iff_getElem.1 hm'
      have hp := List.pairwise_iff_getElem.1 hg.addrs
      rcases Nat.lt_trichotomy i j with hij | hij | hij
      · have := hp i j (by simpa using hi) (by simpa using hj) hij
        rw [List.getElem_map, List.getElem_map] at this
        exact this hda
      · exact hne (by simp only [hij])
      · have := hp j i (by simpa using hj) (by simpa using hi) hij
        rw [List.getElem_map, List.getElem_map] at this
        exact this hda.symm
    refine ⟨st', ?_⟩
    unfold findClass
    simp only [if_neg h0, hcache, hf', hdc, if_pos hreg.2.1]

/-- The class of the module is preferred. -/
theorem C249_module_first (st : St) (h : Good st) (id mod : Nat) (h0 : id ≠ 0) :
    ∃ r st', findClassEx id mod st = some (r, st') ∧ (∀ c, r = some c → Registered st id c) ∧
      (r = none ↔ ¬ ∃ c, Registered st id c) ∧ ∀ c, Registered st id c → c.mod = mod → r = some c := by
  unfold findClassEx
  rw [if_neg h0]
  cases hf : findModule id mod st.classes with
  | some d =>
    have hd := List.mem_of_find?_eq_some hf
    have hp := List.find?_some hf
    simp only [Bool.and_eq_true, beq_iff_eq, decide_eq_true_eq] at hp
    have hreg : Registered st id d := ⟨hd, hp.1.1, hp.2⟩
    refine ⟨some d, st, rfl, ?_, ⟨fun hx => (nomatch hx), fun hx => absurd ⟨d, hreg⟩ hx⟩, fun c hc hm => ?_⟩
    · rintro _ ⟨⟩
      exact hreg
    · have : c = d := by
        refine Classical.byContradiction fun hne => ?_
        obtain ⟨i, hi, rfl⟩ := List.mem_iff_getElem.1 hd
        obtain ⟨hc1, hc2, hc3⟩ := hc
        obtain ⟨j, hj, rfl⟩ := List.mem_iff_getElem.1 hc1
        have hs := List.pairwise_iff_getElem.1 h.sorted
        rcases Nat.lt_trichotomy i j with hij | hij | hij
        · have := hs i j hi hj hij; omega
        · exact hne (by simp only [hij])
        · have := hs j i hj hi hij; omega
      rw [this]
  | none =>
    obtain ⟨r, st', e, _, _, h3, h4⟩ := C249_found st h id h0
    refine ⟨r, st', e, h3, h4, fun c hc hm => ?_⟩
    have := List.find?_eq_none.1 hf c hc.1
    simp [hc.2.1, hm, hc.2.2] at this

/-- Class 5 in three modules; the search meets the one that failed, and gives the first of the others. -/
example : (run [.register 5 1 10 true id, .register 5 2 20 true id, .register 5 3 30 true id, .register 9 1 40 true id, .fail 20] start).bind
      (findClass 5) = some (some ⟨5, 1, 0, 10⟩, ⟨[⟨5, 1, 0, 10⟩, ⟨5, 2, -2, 20⟩, ⟨5, 3, 0, 30⟩, ⟨9, 1, 0, 40⟩], some 10⟩) := rfl

/-- If nothing but the failed one is left nothing is found. -/
example : ((run [.register 5 1 10 true id, .fail 10, .find 5] start).bind (findClass 5)).map (·.1) = some none := rfl

end Verif.FindClass
