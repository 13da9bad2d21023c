import Verif.Core.Refs
/-!
Lemmas about counted references: the count of a node is the number of references to it, before and after a release.
-/
namespace Verif.Core.Refs

/-- The references a node holds. -/
def refs (c : Cell) : List Nat := c.fields ++ c.data.map (·.2)

/-- How many references to a node the nodes hold. -/
def refsTo (l : List Cell) (a : Nat) : Nat := (l.map fun c => (refs c).count a).sum

def addrs (s : State) : List Nat := s.heap.map (·.addr)

structure Inv (s : State) (ext : List Nat) : Prop where
  nd : (addrs s).Nodup
  nz : ∀ c ∈ s.heap, c.addr ≠ 0
  cnt : ∀ c ∈ s.heap, c.rc = ext.count c.addr + refsTo s.heap c.addr
  live : ∀ c ∈ s.heap, ∀ v ∈ refs c, v ≠ 0 → v ∈ addrs s
  elive : ∀ v ∈ ext, v ∈ addrs s

theorem cell_mem {s : State} {a : Nat} {c : Cell} (h : cell s a = some c) : c ∈ s.heap ∧ c.addr = a := by
  unfold cell at h
  exact ⟨List.mem_of_find?_eq_some h, by simpa using List.find?_some h⟩

theorem find_of_mem {l : List Cell} (nd : (l.map (·.addr)).Nodup) {c : Cell} (h : c ∈ l) :
    l.find? (fun x => x.addr = c.addr) = some c := by
  induction l with
  | nil => cases h
  | cons x l ih =>
    simp only [List.map_cons, List.nodup_cons] at nd
    simp only [List.find?_cons]
    cases h with
    | head => simp
    | tail _ h =>
      have : x.addr ≠ c.addr := fun e => nd.1 (e ▸ List.mem_map_of_mem h)
      simp only [this, decide_false]
      exact ih nd.2 h

theorem mem_cell {s : State} (nd : (addrs s).Nodup) {c : Cell} (h : c ∈ s.heap) : cell s c.addr = some c :=
  find_of_mem nd h

theorem cell_of_addr {s : State} {a : Nat} (h : a ∈ addrs s) : ∃ c, cell s a = some c := by
  simp only [addrs, List.mem_map] at h
  obtain ⟨c, hc, rfl⟩ := h
  cases e : cell s c.addr with
  | some d => exact ⟨d, rfl⟩
  | none =>
    unfold cell at e
    simp only [List.find?_eq_none] at e
    exact absurd (e c hc) (by simp)

theorem addr_of_cell {s : State} {a : Nat} {c : Cell} (h : cell s a = some c) : a ∈ addrs s := by
  obtain ⟨h1, h2⟩ := cell_mem h
  exact h2 ▸ List.mem_map_of_mem h1

theorem addrs_put (s : State) (c : Cell) : addrs (put s c) = addrs s := by
  simp only [addrs, put, List.map_map]
  apply List.map_congr_left
  intro x _
  simp only [Function.comp]
  split <;> simp_all

theorem mem_put {s : State} {c x : Cell} (h : x ∈ (put s c).heap) : x = c ∨ (x ∈ s.heap ∧ x.addr ≠ c.addr) := by
  simp only [put, List.mem_map] at h
  obtain ⟨y, hy, e⟩ := h
  split at e
  · exact Or.inl e.symm
  · subst e; rename_i h; exact Or.inr ⟨hy, h⟩

theorem find_put (l : List Cell) (c : Cell) (b : Nat) :
    (l.map fun x => if x.addr = c.addr then c else x).find? (fun x => x.addr = b) =
      if b = c.addr then (l.find? (fun x => x.addr = b)).map (fun _ => c) else l.find? (fun x => x.addr = b) := by
  induction l with
  | nil => simp
  | cons x l ih =>
    simp only [List.map_cons, List.find?_cons]
    by_cases h : x.addr = c.addr
    · simp only [h, if_true]
      by_cases h2 : c.addr = b
      · simp [h2]
      · simp only [h2, decide_false, ih]
    · simp only [h, if_false]
      by_cases h2 : x.addr = b
      · have : ¬ b = c.addr := fun e => h (h2.trans e)
        simp [h2, this]
      · simp only [h2, decide_false, ih]

theorem cell_put (s : State) (c : Cell) (b : Nat) :
    cell (put s c) b = if b = c.addr then (cell s b).map (fun _ => c) else cell s b := find_put s.heap c b

theorem sum_put (f : Cell → Nat) (l : List Cell) (nd : (l.map (·.addr)).Nodup) {o c : Cell} (ho : o ∈ l)
    (e : o.addr = c.addr) :
    ((l.map fun x => if x.addr = c.addr then c else x).map f).sum + f o = (l.map f).sum + f c := by
  induction l with
  | nil => cases ho
  | cons x l ih =>
    simp only [List.map_cons, List.nodup_cons] at nd
    simp only [List.map_cons, List.sum_cons]
    cases ho with
    | head =>
      have : (l.map fun x => if x.addr = c.addr then c else x) = l := by
        conv => rhs; rw [← List.map_id l]
        apply List.map_congr_left
        intro y hy
        have : y.addr ≠ c.addr := fun h => nd.1 (e ▸ h ▸ List.mem_map_of_mem hy)
        simp [this]
      rw [this]
      simp only [e, if_true]; omega
    | tail _ ho =>
      have h : x.addr ≠ c.addr := fun h => nd.1 (h ▸ e ▸ List.mem_map_of_mem ho)
      have := ih nd.2 ho
      simp only [h, if_false]; omega

theorem sum_erase (f : Cell → Nat) (l : List Cell) (nd : (l.map (·.addr)).Nodup) {o : Cell} (ho : o ∈ l) :
    ((l.filter fun c => c.addr ≠ o.addr).map f).sum + f o = (l.map f).sum := by
  induction l with
  | nil => cases ho
  | cons x l ih =>
    simp only [List.map_cons, List.nodup_cons] at nd
    simp only [List.map_cons, List.sum_cons, List.filter_cons]
    cases ho with
    | head =>
      have : (l.filter fun c => c.addr ≠ o.addr) = l := by
        rw [List.filter_eq_self]
        intro y hy
        have : y.addr ≠ o.addr := fun h => nd.1 (h ▸ List.mem_map_of_mem hy)
        simp [this]
      simp only [this, ne_eq, not_true, decide_false, Bool.false_eq_true, if_false]; omega
    | tail _ ho =>
      have h : x.addr ≠ o.addr := fun h => nd.1 (h ▸ List.mem_map_of_mem ho)
      have := ih nd.2 ho
      simp only [ne_eq, h, not_false_eq_true, decide_true, if_true, List.map_cons, List.sum_cons] at *
      omega

theorem le_sum {l : List Nat} {a : Nat} (h : a ∈ l) : a ≤ l.sum := by
  induction l with
  | nil => cases h
  | cons x l ih =>
    simp only [List.sum_cons]
    cases h with
    | head => omega
    | tail _ h => have := ih h; omega

/-- How many nodes have a count that is not 0. -/
def alive (s : State) : Nat := (s.heap.map fun c => if c.rc = 0 then 0 else 1).sum

theorem alive_le (s : State) : alive s ≤ s.heap.length := by
  unfold alive
  induction s.heap with
  | nil => simp
  | cons x l ih => simp only [List.map_cons, List.sum_cons, List.length_cons]; split <;> omega

/-- A node is written to: what becomes of the counts. -/
theorem inv_put {s : State} {ext ext' : List Nat} {o c : Cell} (hi : Inv s ext) (ho : cell s c.addr = some o)
    (hc : ∀ b, b ≠ 0 → b ∈ addrs s →
      ext'.count b + (refs c).count b + (if b = c.addr then o.rc else 0) =
        ext.count b + (refs o).count b + (if b = c.addr then c.rc else 0))
    (hl : ∀ v ∈ refs c, v ≠ 0 → v ∈ addrs s) (he : ∀ v ∈ ext', v ∈ addrs s) : Inv (put s c) ext' := by
  obtain ⟨hm, ha⟩ := cell_mem ho
  have key : ∀ b, refsTo (put s c).heap b + (refs o).count b = refsTo s.heap b + (refs c).count b := fun b =>
    sum_put (fun c => (refs c).count b) s.heap hi.nd hm ha
  refine ⟨addrs_put s c ▸ hi.nd, ?_, ?_, ?_, ?_⟩
  · intro x hx
    rcases mem_put hx with rfl | ⟨h, _⟩
    · exact ha ▸ hi.nz o hm
    · exact hi.nz x h
  · intro x hx
    rcases mem_put hx with rfl | ⟨h, hne⟩
    · have h0 := hi.cnt o hm
      have h1 := hc x.addr (ha ▸ hi.nz o hm) (addr_of_cell ho)
      have h2 := key x.addr
      rw [ha] at h0
      simp only [if_true] at h1
      omega
    · have h0 := hi.cnt x h
      have h1 := hc x.addr (hi.nz x h) (List.mem_map_of_mem h)
      have h2 := key x.addr
      simp only [hne, if_false] at h1
      omega
  · intro x hx v hv hv0
    rw [addrs_put]
    rcases mem_put hx with rfl | ⟨h, _⟩
    · exact hl v hv hv0
    · exact hi.live x h v hv hv0
  · intro v hv; rw [addrs_put]; exact he v hv

/-- What a release leaves as it was. -/
structure Frame (s s' : State) : Prop where
  zero : ∀ b c, cell s b = some c → c.rc = 0 → cell s' b = some c
  zero' : ∀ b c, cell s' b = some c → c.rc = 0 → cell s b = some c
  same : ∀ b c, cell s' b = some c → ∃ d, cell s b = some d ∧ c.fields = d.fields ∧ c.data = d.data
  perm : (addrs s' ++ s'.freed).Perm (addrs s ++ s.freed)
  fewer : alive s' ≤ alive s

theorem Frame.refl (s : State) : Frame s s :=
  ⟨fun _ _ h _ => h, fun _ _ h _ => h, fun _ c h => ⟨c, h, rfl, rfl⟩, List.Perm.refl _, Nat.le_refl _⟩

/-- The same during the deletion of node `a`. -/
structure FrameAt (a : Nat) (s s' : State) : Prop where
  zero : ∀ b c, b ≠ a → cell s b = some c → c.rc = 0 → cell s' b = some c
  zero' : ∀ b c, b ≠ a → cell s' b = some c → c.rc = 0 → cell s b = some c
  same : ∀ b c, b ≠ a → cell s' b = some c → ∃ d, cell s b = some d ∧ c.fields = d.fields ∧ c.data = d.data
  perm : (addrs s' ++ s'.freed).Perm (addrs s ++ s.freed)
  fewer : alive s' ≤ alive s

theorem FrameAt.refl (a : Nat) (s : State) : FrameAt a s s :=
  ⟨fun _ _ _ h _ => h, fun _ _ _ h _ => h, fun _ c _ h => ⟨c, h, rfl, rfl⟩, List.Perm.refl _, Nat.le_refl _⟩

theorem FrameAt.trans {a : Nat} {s t u : State} (h : FrameAt a s t) (k : FrameAt a t u) : FrameAt a s u := by
  refine ⟨fun b c hb h1 h2 => k.zero b c hb (h.zero b c hb h1 h2) h2,
    fun b c hb h1 h2 => h.zero' b c hb (k.zero' b c hb h1 h2) h2, ?_, k.perm.trans h.perm, Nat.le_trans k.fewer h.fewer⟩
  intro b c hb h1
  obtain ⟨d, h2, h3, h4⟩ := k.same b c hb h1
  obtain ⟨e, h5, h6, h7⟩ := h.same b d hb h2
  exact ⟨e, h5, h3.trans h6, h4.trans h7⟩

theorem Frame.at {s s' : State} (h : Frame s s') (a : Nat) : FrameAt a s s' :=
  ⟨fun b c _ => h.zero b c, fun b c _ => h.zero' b c, fun b c _ => h.same b c, h.perm, h.fewer⟩

theorem alive_put {s : State} {o c : Cell} (nd : (addrs s).Nodup) (ho : cell s c.addr = some o) :
    alive (put s c) + (if o.rc = 0 then 0 else 1) = alive s + (if c.rc = 0 then 0 else 1) :=
  sum_put (fun c => if c.rc = 0 then 0 else 1) s.heap nd (cell_mem ho).1 (cell_mem ho).2

/-- Writing to node `a` with the count as it was. -/
theorem frameAt_put {s : State} {o c : Cell} (nd : (addrs s).Nodup) (ho : cell s c.addr = some o)
    (hle : c.rc ≤ o.rc) : FrameAt c.addr s (put s c) := by
  have key : ∀ b, b ≠ c.addr → cell (put s c) b = cell s b := fun b hb => by rw [cell_put, if_neg hb]
  refine ⟨fun b d hb h _ => by rw [key b hb]; exact h, fun b d hb h _ => by rw [key b hb] at h; exact h,
    fun b d hb h => ⟨d, by rw [key b hb] at h; exact h, rfl, rfl⟩, by rw [addrs_put]; exact List.Perm.refl _, ?_⟩
  have := alive_put nd ho
  split at this <;> split at this <;> omega

/-- What a release has to do with a budget. -/
def RelSpec (n : Nat) (rel : Nat → State → Option State) : Prop :=
  ∀ v s ext, Inv s (v :: ext) → alive s ≤ n → ∃ s', rel v s = some s' ∧ Inv s' ext ∧ Frame s s'

theorem clearField_spec {n : Nat} {rel : Nat → State → Option State} (hr : RelSpec n rel) {s : State} {ext : List Nat}
    {c : Cell} (hi : Inv s ext) (hc : cell s c.addr = some c) (h0 : c.rc = 0) (hn : alive s ≤ n) (i : Nat) :
    ∃ s', clearField rel c.addr s i = some s' ∧ Inv s' ext ∧
      cell s' c.addr = some { c with fields := c.fields.set i 0 } ∧ FrameAt c.addr s s' := by
  obtain ⟨hm, _⟩ := cell_mem hc
  simp only [clearField, hc]
  by_cases hv : c.fields[i]?.getD 0 = 0
  · rw [if_pos hv]
    refine ⟨s, rfl, hi, ?_, FrameAt.refl _ _⟩
    have : c.fields.set i 0 = c.fields := by
      apply List.ext_getElem?
      intro j
      rw [List.getElem?_set]
      by_cases hj : i = j
      · subst hj
        by_cases hl : i < c.fields.length
        · simp only [if_true, hl]
          rw [List.getElem?_eq_getElem hl] at hv ⊢
          simp only [Option.getD_some] at hv
          rw [hv]
        · simp [hl]
      · simp [hj]
    rw [this, hc]
  · rw [if_neg hv]
    have hl : i < c.fields.length := by
      apply Decidable.byContradiction
      intro h
      rw [List.getElem?_eq_none (by omega)] at hv
      exact hv rfl
    have hg : c.fields[i]?.getD 0 = c.fields[i] := by simp [hl]
    rw [hg] at hv ⊢
    have hv' : c.fields[i] ∈ addrs s :=
      hi.live c hm _ (List.mem_append_left _ (List.getElem_mem hl)) hv
    have hI : Inv (put s { c with fields := c.fields.set i 0 }) (c.fields[i] :: ext) := by
      refine inv_put (c := { c with fields := c.fields.set i 0 }) hi hc ?_ ?_ ?_
      · intro b hb _
        simp only [refs, List.count_append, List.count_cons]
        have := List.count_set (a := 0) (b := b) hl
        have h1 : (if c.fields[i] == b then 1 else 0) ≤ c.fields.count b := by
          split
          · rename_i h
            have : b ∈ c.fields := by rw [← (eq_of_beq h)]; exact List.getElem_mem hl
            exact List.count_pos_iff.2 this
          · omega
        have h2 : (0 == b) = false := by simp; omega
        rw [h2] at this
        simp only [Bool.false_eq_true, if_false, Nat.add_zero] at this
        omega
      · intro v hv hv0
        simp only [refs, List.mem_append] at hv
        rcases hv with hv | hv
        · rcases List.mem_or_eq_of_mem_set hv with h | h
          · exact hi.live c hm v (List.mem_append_left _ h) hv0
          · exact absurd h hv0
        · exact hi.live c hm v (List.mem_append_right _ hv) hv0
      · intro v hv
        rcases List.mem_cons.1 hv with rfl | h
        · exact hv'
        · exact hi.elive v h
    have hF := frameAt_put (c := { c with fields := c.fields.set i 0 }) hi.nd hc (Nat.le_refl _)
    obtain ⟨s', h1, h2, h3⟩ := hr _ _ _ hI (Nat.le_trans hF.fewer hn)
    refine ⟨s', h1, h2, ?_, hF.trans (h3.at _)⟩
    refine h3.zero _ _ ?_ h0
    rw [cell_put]; simp [hc]

theorem clearFields_spec {n : Nat} {rel : Nat → State → Option State} (hr : RelSpec n rel) {ext : List Nat}
    (l : List Nat) : ∀ {s : State} {c : Cell}, Inv s ext → cell s c.addr = some c → c.rc = 0 → alive s ≤ n →
    ∃ s', clearFields rel c.addr l s = some s' ∧ Inv s' ext ∧
      cell s' c.addr = some { c with fields := l.foldl (fun f i => f.set i 0) c.fields } ∧ FrameAt c.addr s s' := by
  induction l with
  | nil => intro s c hi hc _ _; exact ⟨s, rfl, hi, hc, FrameAt.refl _ _⟩
  | cons i l ih =>
    intro s c hi hc h0 hn
    obtain ⟨s1, h1, h2, h3, h4⟩ := clearField_spec hr hi hc h0 hn i
    obtain ⟨s2, h5, h6, h7, h8⟩ :=
      ih (c := { c with fields := c.fields.set i 0 }) h2 h3 h0 (Nat.le_trans h4.fewer hn)
    refine ⟨s2, ?_, h6, h7, h4.trans h8⟩
    simp only [clearFields, h1, Option.bind_some]
    exact h5

theorem clearData_spec {n : Nat} {rel : Nat → State → Option State} (hr : RelSpec n rel) {s : State} {ext : List Nat}
    {c : Cell} (hi : Inv s ext) (hc : cell s c.addr = some c) (h0 : c.rc = 0) (hn : alive s ≤ n) :
    ∃ s', clearData rel c.addr s = some s' ∧ Inv s' ext ∧
      cell s' c.addr = some { c with data := c.data.tail } ∧ FrameAt c.addr s s' := by
  obtain ⟨hm, _⟩ := cell_mem hc
  simp only [clearData, hc]
  cases hd : c.data with
  | nil =>
    refine ⟨s, rfl, hi, ?_, FrameAt.refl _ _⟩
    rw [hc]; cases c; simp_all
  | cons e r =>
    obtain ⟨id, v⟩ := e
    simp only [List.tail_cons]
    have hF := frameAt_put (c := { c with data := r }) hi.nd hc (Nat.le_refl _)
    have hcell : cell (put s { c with data := r }) c.addr = some { c with data := r } := by
      rw [cell_put]; simp [hc]
    have hlv : ∀ w ∈ refs { c with data := r }, w ≠ 0 → w ∈ addrs s := by
      intro w hw hw0
      refine hi.live c hm w ?_ hw0
      simp only [refs, hd, List.map_cons, List.mem_append, List.mem_cons] at hw ⊢
      rcases hw with h | h
      · exact Or.inl h
      · exact Or.inr (Or.inr h)
    by_cases hv : v = 0
    · rw [if_pos hv]
      refine ⟨_, rfl, ?_, hcell, hF⟩
      refine inv_put (c := { c with data := r }) hi hc ?_ hlv hi.elive
      intro b hb _
      have : (0 == b) = false := by simp; omega
      simp only [refs, hd, List.map_cons, List.count_append, List.count_cons, hv, this]
      simp
    · rw [if_neg hv]
      have hI : Inv (put s { c with data := r }) (v :: ext) := by
        refine inv_put (c := { c with data := r }) hi hc ?_ hlv ?_
        · intro b hb _
          simp only [refs, hd, List.map_cons, List.count_append, List.count_cons]
          omega
        · intro w hw
          rcases List.mem_cons.1 hw with rfl | h
          · refine hi.live c hm w ?_ hv
            simp [refs, hd]
          · exact hi.elive w h
      obtain ⟨s', h1, h2, h3⟩ := hr _ _ _ hI (Nat.le_trans hF.fewer hn)
      exact ⟨s', h1, h2, h3.zero _ _ hcell h0, hF.trans (h3.at _)⟩

theorem clearDatas_spec {n : Nat} {rel : Nat → State → Option State} (hr : RelSpec n rel) {ext : List Nat}
    (k : Nat) : ∀ {s : State} {c : Cell}, Inv s ext → cell s c.addr = some c → c.rc = 0 → alive s ≤ n →
    ∃ s', clearDatas rel c.addr k s = some s' ∧ Inv s' ext ∧
      cell s' c.addr = some { c with data := c.data.drop k } ∧ FrameAt c.addr s s' := by
  induction k with
  | zero => intro s c hi hc _ _; exact ⟨s, rfl, hi, hc, FrameAt.refl _ _⟩
  | succ k ih =>
    intro s c hi hc h0 hn
    obtain ⟨s1, h1, h2, h3, h4⟩ := clearData_spec hr hi hc h0 hn
    obtain ⟨s2, h5, h6, h7, h8⟩ :=
      ih (c := { c with data := c.data.tail }) h2 h3 h0 (Nat.le_trans h4.fewer hn)
    refine ⟨s2, ?_, h6, ?_, h4.trans h8⟩
    · simp only [clearDatas, h1, Option.bind_some]
      exact h5
    · rw [h7]; simp [List.drop_tail]

theorem foldl_set_get (l : List Nat) (f : List Nat) (j : Nat) :
    (l.foldl (fun f i => f.set i 0) f)[j]? = if j ∈ l ∧ j < f.length then some 0 else f[j]? := by
  induction l generalizing f with
  | nil => simp
  | cons i l ih =>
    simp only [List.foldl_cons, ih, List.length_set, List.mem_cons, List.getElem?_set]
    by_cases h1 : j ∈ l <;> by_cases h2 : j < f.length <;> by_cases h3 : i = j
    all_goals simp [h1, h2, h3]
    all_goals try (subst h3)
    all_goals simp_all
    all_goals (intro h; exact absurd h.symm h3)

theorem cleared (f : List Nat) : ∀ v ∈ (List.range f.length).foldl (fun f i => f.set i 0) f, v = 0 := by
  intro v hv
  obtain ⟨j, hj⟩ := List.mem_iff_getElem?.1 hv
  rw [foldl_set_get] at hj
  split at hj
  · simpa using hj.symm
  · rename_i h
    simp only [List.mem_range, and_self, Nat.not_lt] at h
    rw [List.getElem?_eq_none h] at hj
    cases hj

theorem cell_erase (s : State) (a b : Nat) : cell (erase s a) b = if b = a then none else cell s b := by
  simp only [cell, erase]
  rw [List.find?_filter]
  by_cases h : b = a
  · subst h; simp only [if_true, List.find?_eq_none]; intro x _; simp
  · rw [if_neg h]
    congr 1
    funext x
    by_cases h2 : x.addr = b
    · have : x.addr ≠ a := by omega
      simp [h2, h]
    · simp [h2]

theorem inv_erase {s : State} {ext : List Nat} {c : Cell} (hi : Inv s ext) (hc : cell s c.addr = some c) (h0 : c.rc = 0)
    (hz : ∀ v ∈ refs c, v = 0) : Inv (erase s c.addr) ext := by
  obtain ⟨hm, _⟩ := cell_mem hc
  have hs : ∀ b, refsTo (erase s c.addr).heap b + (refs c).count b = refsTo s.heap b := fun b =>
    sum_erase (fun c => (refs c).count b) s.heap hi.nd hm
  have hc0 := hi.cnt c hm
  have hmem : ∀ v, v ∈ addrs s → v ≠ c.addr → v ∈ addrs (erase s c.addr) := by
    intro v hv hne
    simp only [addrs, List.mem_map, erase, List.mem_filter] at hv ⊢
    obtain ⟨x, hx, rfl⟩ := hv
    exact ⟨x, ⟨hx, by simpa using hne⟩, rfl⟩
  have hsub : ∀ x ∈ (erase s c.addr).heap, x ∈ s.heap ∧ x.addr ≠ c.addr := by
    intro x hx
    simp only [erase, List.mem_filter] at hx
    exact ⟨hx.1, by simpa using hx.2⟩
  refine ⟨?_, fun x hx => hi.nz x (hsub x hx).1, ?_, ?_, ?_⟩
  · simp only [addrs, erase]
    exact List.Nodup.sublist ((List.filter_sublist).map _) hi.nd
  · intro x hx
    have h1 := hi.cnt x (hsub x hx).1
    have h2 := hs x.addr
    have h3 : (refs c).count x.addr = 0 := by
      rw [List.count_eq_zero]
      intro h
      exact hi.nz x (hsub x hx).1 (hz _ h)
    omega
  · intro x hx v hv hv0
    refine hmem v (hi.live x (hsub x hx).1 v hv hv0) ?_
    rintro rfl
    have h1 : 0 < (refs x).count c.addr := List.count_pos_iff.2 hv
    have h2 : (refs x).count c.addr ≤ refsTo s.heap c.addr := by
      unfold refsTo
      exact le_sum (List.mem_map_of_mem (f := fun y => (refs y).count c.addr) (hsub x hx).1)
    omega
  · intro v hv
    refine hmem v (hi.elive v hv) ?_
    rintro rfl
    have : 0 < ext.count c.addr := List.count_pos_iff.2 hv
    omega

theorem perm_erase {s : State} {c : Cell} (nd : (addrs s).Nodup) (hc : cell s c.addr = some c) :
    (addrs (erase s c.addr) ++ (erase s c.addr).freed).Perm (addrs s ++ s.freed) := by
  have h : ((s.heap.filter fun x => x.addr ≠ c.addr).map (·.addr)).Perm ((addrs s).erase c.addr) := by
    rw [nd.erase_eq_filter]
    simp only [addrs, List.filter_map]
    have : (s.heap.filter fun x => decide (x.addr ≠ c.addr)) =
        s.heap.filter ((fun x => x != c.addr) ∘ fun x => x.addr) := by
      apply List.filter_congr
      intro x _
      simp only [Function.comp, bne]
      by_cases h : x.addr = c.addr <;> simp [h]
    rw [this]
  have h2 : (addrs s).Perm (c.addr :: (addrs s).erase c.addr) := List.perm_cons_erase (addr_of_cell hc)
  simp only [addrs, erase] at *
  refine (List.perm_middle).trans ?_
  rw [← List.cons_append]
  exact ((h.cons _).trans h2.symm).append_right _

theorem release_spec : ∀ n, RelSpec n (release (n + 1)) := by
  intro n
  induction n with
  | zero =>
    intro v s ext hi hn
    exfalso
    obtain ⟨c, hc⟩ := cell_of_addr (hi.elive v List.mem_cons_self)
    obtain ⟨hm, ha⟩ := cell_mem hc
    have := hi.cnt c hm
    rw [ha] at this
    simp only [List.count_cons_self] at this
    have h1 : (fun c : Cell => if c.rc = 0 then 0 else 1) c ≤ alive s :=
      le_sum (List.mem_map_of_mem (f := fun c : Cell => if c.rc = 0 then 0 else 1) hm)
    simp only at h1
    split at h1 <;> omega
  | succ n ih =>
    intro v s ext hi hn
    obtain ⟨c, hc⟩ := cell_of_addr (hi.elive v List.mem_cons_self)
    obtain ⟨hm, rfl⟩ := cell_mem hc
    have hcnt := hi.cnt c hm
    simp only [List.count_cons_self] at hcnt
    have hpos : c.rc ≠ 0 := by omega
    rw [release]
    simp only [hc, hpos, if_false]
    have hI : Inv (put s { c with rc := c.rc - 1 }) ext := by
      refine inv_put (c := { c with rc := c.rc - 1 }) hi hc ?_ (hi.live c hm) (fun w hw => hi.elive w (List.mem_cons_of_mem _ hw))
      intro b hb _
      simp only [refs, List.count_cons]
      by_cases h : b = c.addr
      · subst h; simp; omega
      · have : ¬ c.addr = b := fun e => h e.symm
        simp [h, this]
    have hF := frameAt_put (c := { c with rc := c.rc - 1 }) hi.nd hc (Nat.sub_le _ _)
    have hcell : cell (put s { c with rc := c.rc - 1 }) c.addr = some { c with rc := c.rc - 1 } := by
      rw [cell_put]; simp [hc]
    have hal := alive_put (c := { c with rc := c.rc - 1 }) hi.nd hc
    simp only [hpos, if_false] at hal
    by_cases h0 : c.rc - 1 = 0
    · rw [if_pos h0]
      rw [if_pos (show ({ c with rc := c.rc - 1 } : Cell).rc = 0 from h0)] at hal
      obtain ⟨s2, e1, i2, c2, f2⟩ := clearFields_spec ih (List.range c.fields.length)
        (c := { c with rc := c.rc - 1 }) hI hcell h0 (by omega)
      simp only at e1 c2
      obtain ⟨s3, e3, i3, c3, f3⟩ := clearDatas_spec ih c.data.length
        (c := { c with rc := c.rc - 1, fields := (List.range c.fields.length).foldl (fun f i => f.set i 0) c.fields })
        i2 c2 h0 (by have := f2.fewer; omega)
      simp only at e3 c3
      rw [e1, Option.bind_some, e3, Option.bind_some]
      have c3' : cell s3 c.addr = some ⟨c.addr, c.rc - 1,
          (List.range c.fields.length).foldl (fun f i => f.set i 0) c.fields, []⟩ := by
        rw [c3]; simp
      have fA : FrameAt c.addr s s3 := (hF.trans f2).trans f3
      refine ⟨_, rfl, ?_, ?_⟩
      · refine inv_erase (c := ⟨c.addr, c.rc - 1,
          (List.range c.fields.length).foldl (fun f i => f.set i 0) c.fields, []⟩) i3 c3' h0 ?_
        intro w hw
        simp only [refs, List.map_nil, List.append_nil] at hw
        exact cleared _ w hw
      · refine ⟨?_, ?_, ?_, ?_, ?_⟩
        · intro b d hb hd
          have hne : b ≠ c.addr := by
            rintro rfl
            rw [hc] at hb; cases hb; exact hpos hd
          rw [cell_erase, if_neg hne]
          exact fA.zero b d hne hb hd
        · intro b d hb hd
          rw [cell_erase] at hb
          split at hb
          · cases hb
          · rename_i hne
            exact fA.zero' b d hne hb hd
        · intro b d hb
          rw [cell_erase] at hb
          split at hb
          · cases hb
          · rename_i hne
            exact fA.same b d hne hb
        · exact (perm_erase (c := ⟨c.addr, c.rc - 1,
            (List.range c.fields.length).foldl (fun f i => f.set i 0) c.fields, []⟩) i3.nd c3').trans fA.perm
        · have h1 : alive (erase s3 c.addr) + _ = alive s3 :=
            sum_erase (o := ⟨c.addr, c.rc - 1, (List.range c.fields.length).foldl (fun f i => f.set i 0) c.fields, []⟩)
              (fun c : Cell => if c.rc = 0 then 0 else 1) s3.heap i3.nd (cell_mem c3').1
          have := fA.fewer
          omega
    · rw [if_neg h0]
      refine ⟨_, rfl, hI, ?_, ?_, ?_, hF.perm, hF.fewer⟩
      · intro b d hb hd
        have hne : b ≠ c.addr := by
          rintro rfl
          rw [hc] at hb; cases hb; exact hpos hd
        exact hF.zero b d hne hb hd
      · intro b d hb hd
        by_cases hne : b = c.addr
        · subst hne; rw [hcell] at hb; cases hb; exact absurd hd h0
        · exact hF.zero' b d hne hb hd
      · intro b d hb
        by_cases hne : b = c.addr
        · subst hne; rw [hcell] at hb; cases hb; exact ⟨c, hc, rfl, rfl⟩
        · exact hF.same b d hne hb

theorem release_ok {s : State} {v : Nat} {ext : List Nat} (hi : Inv s (v :: ext)) :
    ∃ s', release (budget s) v s = some s' ∧ Inv s' ext ∧ Frame s s' :=
  release_spec s.heap.length v s ext hi (alive_le s)

end Verif.Core.Refs
