import Verif.Core.RefsLemmas
/-!
C193: nodes that refer to each other are kept as long as they can be reached, and freed once.
-/
namespace Verif.Core.Refs

/-! ### Specification: programs, and what they may do -/

/-- What a program does with nodes. -/
inductive Op where
  /-- A node with `k` attributes for references is created at `a`; the program holds it. -/
  | create (a k : Nat)
  /-- The program takes one more reference. -/
  | hold (a : Nat)
  /-- The program gives one of its references back. -/
  | drop (a : Nat)
  /-- Attribute `i` of node `p` is set. -/
  | set (p i v : Nat)
  /-- An attribute of node `p` kept in its dynamic data is set. -/
  | setDyn (p id v : Nat)

/-- The nodes, and the references the program holds. -/
structure World where
  nodes : State
  held : List Nat
deriving DecidableEq

/-- A node can be reached from those held. -/
inductive Reach (w : World) : Nat → Prop where
  | held {a : Nat} : a ∈ w.held → Reach w a
  | step {a b : Nat} {c : Cell} : Reach w b → cell w.nodes b = some c → a ∈ c.fields ++ c.data.map (·.2) → a ≠ 0 → Reach w a

/-- The program may use only what it can reach, gives back only what it holds, writes only to nodes it holds. The last case: a dynamic
attribute is set to a node only while it has no value. -/
def Legal (w : World) : Op → Prop
  | .create a _ => a ≠ 0 ∧ cell w.nodes a = none ∧ a ∉ w.nodes.freed
  | .hold a => Reach w a
  | .drop a => a ∈ w.held
  | .set p i v => p ∈ w.held ∧ (∀ c, cell w.nodes p = some c → i < c.fields.length) ∧ (v = 0 ∨ Reach w v)
  | .setDyn p id v => p ∈ w.held ∧ (v = 0 ∨ Reach w v ∧ ∀ c, cell w.nodes p = some c → c.data.lookup id = none)

def step (w : World) : Op → Option World
  | .create a k => some ⟨create w.nodes a k, a :: w.held⟩
  | .hold a => (addRef w.nodes a).map fun s => ⟨s, a :: w.held⟩
  | .drop a => (release (budget w.nodes) a w.nodes).map fun s => ⟨s, w.held.erase a⟩
  | .set p i v => (setField w.nodes p i v).map fun s => ⟨s, w.held⟩
  | .setDyn p id v => (setData w.nodes p id v).map fun s => ⟨s, w.held⟩

/-- A run of a program that keeps to the rules. -/
inductive Run : World → List Op → World → Prop where
  | nil (w : World) : Run w [] w
  | cons {w w1 w2 : World} {op : Op} {l : List Op} : Legal w op → step w op = some w1 → Run w1 l w2 → Run w (op :: l) w2

def empty : World := ⟨⟨[], []⟩, []⟩

/-- The nodes a program created. -/
def created : List Op → List Nat
  | [] => []
  | .create a _ :: l => a :: created l
  | _ :: l => created l

/-- Attribute `i` of node `p`. -/
def field (w : World) (p i : Nat) : Option Nat := (cell w.nodes p).bind fun c => c.fields[i]?

/-- Attribute `id` of node `p` in its dynamic data, 0 where there is none. -/
def dyn (w : World) (p id : Nat) : Option Nat := (cell w.nodes p).map fun c => (c.data.lookup id).getD 0

/-! ### Proofs -/

/-- Between two steps. -/
structure Good (w : World) : Prop where
  inv : Inv w.nodes w.held
  pos : ∀ c ∈ w.nodes.heap, c.rc ≠ 0
  once : (addrs w.nodes ++ w.nodes.freed).Nodup

theorem reach_live {w : World} (h : Good w) {a : Nat} (r : Reach w a) : a ∈ addrs w.nodes ∧ a ≠ 0 := by
  induction r with
  | held h1 =>
    have := h.inv.elive _ h1
    refine ⟨this, ?_⟩
    obtain ⟨c, hc⟩ := cell_of_addr this
    obtain ⟨h2, h3⟩ := cell_mem hc
    exact h3 ▸ h.inv.nz c h2
  | step _ hc hm h0 _ => exact ⟨h.inv.live _ (cell_mem hc).1 _ hm h0, h0⟩

theorem Frame.pos {s s' : State} (hf : Frame s s') (h : ∀ c ∈ s.heap, c.rc ≠ 0) (nd : (addrs s').Nodup) :
    ∀ c ∈ s'.heap, c.rc ≠ 0 := fun c hc h0 => h c (cell_mem (hf.zero' _ c (mem_cell nd hc) h0)).1 h0

theorem addRef_spec {s : State} {ext : List Nat} {a : Nat} (hi : Inv s ext) (ha : a ∈ addrs s) :
    ∃ c, cell s a = some c ∧ addRef s a = some (put s { c with rc := c.rc + 1 }) ∧ Inv (put s { c with rc := c.rc + 1 }) (a :: ext) := by
  obtain ⟨c, hc⟩ := cell_of_addr ha
  obtain ⟨hm, rfl⟩ := cell_mem hc
  refine ⟨c, hc, by simp only [addRef, hc, Option.map_some], ?_⟩
  refine inv_put (c := { c with rc := c.rc + 1 }) hi hc ?_ (hi.live c hm) ?_
  · intro b _ _
    simp only [refs, List.count_cons]
    by_cases h : b = c.addr
    · subst h; simp; omega
    · have : ¬ c.addr = b := fun e => h e.symm
      simp [h, this]
  · intro v hv
    rcases List.mem_cons.1 hv with rfl | h
    · exact ha
    · exact hi.elive v h

theorem pos_put {s : State} {c : Cell} (h : ∀ c ∈ s.heap, c.rc ≠ 0) (hc : c.rc ≠ 0) : ∀ x ∈ (put s c).heap, x.rc ≠ 0 := by
  intro x hx
  rcases mem_put hx with rfl | ⟨h1, _⟩
  · exact hc
  · exact h x h1

theorem cell_pos {s : State} {a : Nat} {c : Cell} (h : ∀ c ∈ s.heap, c.rc ≠ 0) (hc : cell s a = some c) : c.rc ≠ 0 :=
  h c (cell_mem hc).1

/-- What a step does to the values of the attributes. -/
structure Values (w w' : World) (op : Op) : Prop where
  fields : ∀ b c', cell w'.nodes b = some c' → (∃ k, op = .create b k ∧ c'.fields = List.replicate k 0 ∧ c'.data = []) ∨
    ∃ c, cell w.nodes b = some c ∧
      (c'.fields = match op with | .set p i v => if b = p then c.fields.set i v else c.fields | _ => c.fields) ∧
      (c'.data = match op with
        | .setDyn p id v => if b = p then (if v = 0 then c.data.eraseP (fun e => e.1 == id) else (id, v) :: c.data) else c.data
        | _ => c.data)

theorem put_cell_fields {s : State} {c : Cell} {b : Nat} {x : Cell} (h : cell (put s c) b = some x) :
    (b = c.addr ∧ x = c) ∨ (b ≠ c.addr ∧ cell s b = some x) := by
  rw [cell_put] at h
  split at h
  · rename_i hb
    refine Or.inl ⟨hb, ?_⟩
    cases h1 : cell s b with
    | none => rw [h1] at h; cases h
    | some y => rw [h1] at h; cases h; rfl
  · rename_i hb; exact Or.inr ⟨hb, h⟩

def opt (v : Nat) : List Nat := if v = 0 then [] else [v]

theorem count_opt {v b : Nat} (hb : b ≠ 0) : (opt v).count b = if v = b then 1 else 0 := by
  unfold opt
  split
  · subst v; have : ¬ 0 = b := fun e => hb e.symm
    simp [this]
  · simp [List.count_cons]

theorem inv_setField {s : State} {ext : List Nat} {c : Cell} {i v : Nat} (hi : Inv s (opt v ++ ext))
    (hc : cell s c.addr = some c) (hl : i < c.fields.length) :
    Inv (put s { c with fields := c.fields.set i v }) (opt c.fields[i] ++ ext) := by
  obtain ⟨hm, _⟩ := cell_mem hc
  refine inv_put (c := { c with fields := c.fields.set i v }) hi hc ?_ ?_ ?_
  · intro b hb _
    simp only [refs, List.count_append, count_opt hb]
    have := List.count_set (a := v) (b := b) hl
    have h1 : (if c.fields[i] == b then 1 else 0) ≤ c.fields.count b := by
      split
      · rename_i h
        have : b ∈ c.fields := by rw [← (eq_of_beq h)]; exact List.getElem_mem hl
        exact List.count_pos_iff.2 this
      · omega
    simp only [beq_iff_eq] at this h1
    omega
  · intro w hw hw0
    simp only [refs, List.mem_append] at hw
    rcases hw with hw | hw
    · rcases List.mem_or_eq_of_mem_set hw with h | h
      · exact hi.live c hm w (List.mem_append_left _ h) hw0
      · subst h
        exact hi.elive w (by simp [opt, hw0])
    · exact hi.live c hm w (List.mem_append_right _ hw) hw0
  · intro w hw
    rcases List.mem_append.1 hw with h | h
    · unfold opt at h
      split at h
      · cases h
      · simp only [List.mem_singleton] at h
        subst h
        exact hi.live c hm _ (List.mem_append_left _ (List.getElem_mem hl)) (by assumption)
    · exact hi.elive w (List.mem_append_right _ h)

theorem releaseOpt {s : State} {v : Nat} {ext : List Nat} (hi : Inv s (opt v ++ ext)) :
    ∃ s', (if v = 0 then some s else release (budget s) v s) = some s' ∧ Inv s' ext ∧ Frame s s' := by
  unfold opt at hi
  split
  · rename_i h; rw [if_pos h] at hi; exact ⟨s, rfl, hi, Frame.refl s⟩
  · rename_i h; rw [if_neg h] at hi; exact release_ok hi

theorem addRefOpt {s : State} {v : Nat} {ext : List Nat} (hi : Inv s ext) (hv : v = 0 ∨ v ∈ addrs s)
    (hp : ∀ c ∈ s.heap, c.rc ≠ 0) :
    ∃ s', (if v = 0 then some s else addRef s v) = some s' ∧ Inv s' (opt v ++ ext) ∧ addrs s' = addrs s ∧ s'.freed = s.freed ∧
      (∀ b c', cell s' b = some c' → ∃ c, cell s b = some c ∧ c'.fields = c.fields ∧ c'.data = c.data) ∧
      (∀ c ∈ s'.heap, c.rc ≠ 0) := by
  unfold opt
  split
  · exact ⟨s, rfl, hi, rfl, rfl, fun b c h => ⟨c, h, rfl, rfl⟩, hp⟩
  · rename_i h
    obtain ⟨c, hc, h1, h2⟩ := addRef_spec hi (hv.resolve_left h)
    obtain ⟨hm, rfl⟩ := cell_mem hc
    refine ⟨_, h1, h2, addrs_put _ _, rfl, ?_, pos_put hp (by simp)⟩
    intro b c' hb
    rcases put_cell_fields hb with ⟨rfl, rfl⟩ | ⟨_, h3⟩
    · exact ⟨c, hc, rfl, rfl⟩
    · exact ⟨c', h3, rfl, rfl⟩

theorem lookup_none {l : List (Nat × Nat)} {id : Nat} (h : l.lookup id = none) : l.eraseP (fun e => e.1 == id) = l := by
  induction l with
  | nil => rfl
  | cons e l ih =>
    obtain ⟨k, v⟩ := e
    simp only [List.lookup_cons] at h
    split at h
    · cases h
    · rename_i hk
      have : (k == id) = false := by
        simp only [beq_eq_false_iff_ne, ne_eq] at hk ⊢; omega
      simp [this, ih h]

theorem lookup_some {l : List (Nat × Nat)} {id v : Nat} (h : l.lookup id = some v) :
    v ∈ l.map (·.2) ∧ ∀ b, (l.map (·.2)).count b =
      ((l.eraseP (fun e => e.1 == id)).map (·.2)).count b + if v = b then 1 else 0 := by
  induction l with
  | nil => cases h
  | cons e l ih =>
    obtain ⟨k, u⟩ := e
    simp only [List.lookup_cons] at h
    split at h
    · rename_i hk
      have : (k == id) = true := by simp only [beq_iff_eq] at hk ⊢; omega
      cases h
      simp [this, List.count_cons]
    · rename_i hk
      have : (k == id) = false := by
        simp only [beq_eq_false_iff_ne, ne_eq] at hk ⊢; omega
      obtain ⟨h1, h2⟩ := ih h
      refine ⟨List.mem_cons_of_mem _ h1, ?_⟩
      intro b
      simp only [this, List.map_cons, List.count_cons, List.eraseP_cons, cond_false, h2 b]
      omega

theorem put_same (s : State) (c d : Cell) (h : c.addr = d.addr) : put (put s c) d = put s d := by
  simp only [put, List.map_map]
  congr 1
  apply List.map_congr_left
  intro x _
  simp only [Function.comp]
  rw [h]
  by_cases hx : x.addr = d.addr <;> simp [hx, h]

theorem put_comm (s : State) (c d : Cell) (h : c.addr ≠ d.addr) : put (put s c) d = put (put s d) c := by
  simp only [put, List.map_map]
  congr 1
  apply List.map_congr_left
  intro x _
  simp only [Function.comp]
  by_cases hx : x.addr = c.addr
  · have : ¬ x.addr = d.addr := fun e => h (hx.symm.trans e)
    simp [hx, h]
  · by_cases hx2 : x.addr = d.addr
    · have : ¬ d.addr = c.addr := fun e => h e.symm
      simp [hx2, this]
    · simp [hx, hx2]

theorem step_good {w : World} {op : Op} (h : Good w) (hl : Legal w op) :
    ∃ w', step w op = some w' ∧ Good w' ∧
      (addrs w'.nodes ++ w'.nodes.freed).Perm (created [op] ++ (addrs w.nodes ++ w.nodes.freed)) ∧ Values w w' op := by
  obtain ⟨hi, hp, hn⟩ := h
  have hG : Good w := ⟨hi, hp, hn⟩
  cases op with
  | create a k =>
    obtain ⟨h0, h1, h2⟩ := hl
    have ha : a ∉ addrs w.nodes := fun hm => by
      obtain ⟨c, hc⟩ := cell_of_addr hm
      rw [h1] at hc; cases hc
    have hrefs : ∀ b, b ≠ 0 → (refs ⟨a, 1, List.replicate k 0, []⟩).count b = 0 := by
      intro b hb
      simp only [refs, List.map_nil, List.append_nil, List.count_replicate]
      have : (0 == b) = false := by simp; omega
      simp [this]
    refine ⟨_, rfl, ⟨⟨?_, ?_, ?_, ?_, ?_⟩, ?_, ?_⟩, ?_, ⟨?_⟩⟩
    · simp only [addrs, create, List.map_cons, List.nodup_cons]
      exact ⟨ha, hi.nd⟩
    · intro c hc
      rcases List.mem_cons.1 hc with rfl | hc
      · exact h0
      · exact hi.nz c hc
    · intro c hc
      simp only [create, refsTo, List.map_cons, List.sum_cons]
      rcases List.mem_cons.1 hc with rfl | hc
      · have h3 := hrefs a h0
        have h4 : w.held.count a = 0 := List.count_eq_zero.2 fun hm => ha (hi.elive a hm)
        have h5 : refsTo w.nodes.heap a = 0 := by
          unfold refsTo
          apply Nat.eq_zero_of_not_pos
          intro hpos
          have : ∃ c ∈ w.nodes.heap, a ∈ refs c := by
            apply Decidable.byContradiction
            intro hno
            have : (w.nodes.heap.map fun c => (refs c).count a).sum = 0 := by
              rw [List.sum_eq_zero_iff_forall_eq_nat]
              intro x hx
              obtain ⟨c, hc, rfl⟩ := List.mem_map.1 hx
              exact List.count_eq_zero.2 fun hm => hno ⟨c, hc, hm⟩
            omega
          obtain ⟨c, hc, hm⟩ := this
          exact ha (hi.live c hc a hm h0)
        simp only [List.count_cons_self, h4, h3]
        unfold refsTo at h5
        omega
      · have h3 := hrefs c.addr (hi.nz c hc)
        have h4 : ¬ a = c.addr := fun e => ha (e ▸ List.mem_map_of_mem hc)
        have := hi.cnt c hc
        simp only [h3, List.count_cons, h4, beq_iff_eq, if_false]
        unfold refsTo at this
        omega
    · intro c hc v hv hv0
      simp only [addrs, create, List.map_cons]
      rcases List.mem_cons.1 hc with rfl | hc
      · simp only [refs, List.map_nil, List.append_nil, List.mem_replicate] at hv
        exact absurd hv.2 hv0
      · exact List.mem_cons_of_mem _ (hi.live c hc v hv hv0)
    · intro v hv
      simp only [addrs, create, List.map_cons]
      rcases List.mem_cons.1 hv with rfl | hv
      · exact List.mem_cons_self
      · exact List.mem_cons_of_mem _ (hi.elive v hv)
    · intro c hc
      rcases List.mem_cons.1 hc with rfl | hc
      · simp
      · exact hp c hc
    · simp only [addrs, create, List.map_cons, List.cons_append, List.nodup_cons, List.mem_append, not_or]
      exact ⟨⟨ha, h2⟩, hn⟩
    · exact List.Perm.refl _
    · intro b c' hb
      simp only [cell, create, List.find?_cons] at hb
      split at hb
      · rename_i hab
        have hab : a = b := by simpa using hab
        cases hb
        subst hab
        exact Or.inl ⟨k, rfl, rfl, rfl⟩
      · exact Or.inr ⟨c', hb, rfl, rfl⟩
  | hold a =>
    obtain ⟨c, hc, h1, h2⟩ := addRef_spec hi (reach_live hG hl).1
    obtain ⟨hm, rfl⟩ := cell_mem hc
    refine ⟨⟨put w.nodes { c with rc := c.rc + 1 }, c.addr :: w.held⟩, by simp only [step, h1, Option.map_some],
      ⟨h2, pos_put hp (by simp), ?_⟩, ?_, ⟨?_⟩⟩
    · rw [addrs_put]; exact hn
    · rw [addrs_put]; exact List.Perm.refl _
    · intro b c' hb
      rcases put_cell_fields hb with ⟨rfl, rfl⟩ | ⟨_, h3⟩
      · exact Or.inr ⟨c, hc, rfl, rfl⟩
      · exact Or.inr ⟨c', h3, rfl, rfl⟩
  | drop a =>
    have hi' : Inv w.nodes (a :: w.held.erase a) := by
      have hperm : w.held.Perm (a :: w.held.erase a) := List.perm_cons_erase hl
      refine ⟨hi.nd, hi.nz, fun c hc => ?_, hi.live, fun v hv => hi.elive v (hperm.mem_iff.2 hv)⟩
      rw [← hperm.count_eq]; exact hi.cnt c hc
    obtain ⟨s', h1, h2, h3⟩ := release_ok hi'
    refine ⟨⟨s', w.held.erase a⟩, by simp only [step, h1, Option.map_some],
      ⟨h2, h3.pos hp h2.nd, h3.perm.nodup_iff.2 hn⟩, h3.perm, ⟨?_⟩⟩
    intro b c' hb
    obtain ⟨d, h4, h5, h6⟩ := h3.same b c' hb
    exact Or.inr ⟨d, h4, h5, h6⟩
  | set p i v =>
    obtain ⟨hpe, hlen, hv⟩ := hl
    obtain ⟨c, hc⟩ := cell_of_addr (hi.elive p hpe)
    obtain ⟨hm, rfl⟩ := cell_mem hc
    have hlen := hlen c hc
    have hg : c.fields[i]?.getD 0 = c.fields[i] := by simp [hlen]
    simp only [step, setField, hc, hg]
    by_cases hsame : c.fields[i] = v
    · rw [if_pos hsame]
      refine ⟨_, rfl, hG, List.Perm.refl _, ⟨?_⟩⟩
      intro b c' hb
      refine Or.inr ⟨c', hb, ?_, rfl⟩
      simp only
      split
      · rename_i e
        subst e
        have hb : cell w.nodes c.addr = some c' := hb
        rw [hc] at hb; cases hb
        subst hsame
        exact (List.set_getElem_self hlen).symm
      · rfl
    · rw [if_neg hsame]
      obtain ⟨s1, e1, i1, a1, f1, v1, p1⟩ := addRefOpt hi (hv.imp id fun h => (reach_live hG h).1) hp
      rw [e1]
      simp only [Option.bind_some]
      obtain ⟨c1, hc1⟩ := cell_of_addr (s := s1) (a := c.addr) (a1 ▸ hi.elive _ hpe)
      obtain ⟨hm1, ha1⟩ := cell_mem hc1
      obtain ⟨d, hd, hd1, hd2⟩ := v1 _ _ hc1
      rw [hc] at hd; cases hd
      simp only [hc1]
      have hlen1 : i < c1.fields.length := by rw [hd1]; exact hlen
      have hget : c1.fields[i] = c.fields[i] := by simp only [hd1]
      have i2 := inv_setField (c := c1) i1 (by rw [ha1]; exact hc1) hlen1
      rw [hget] at i2
      have p2 := pos_put (c := { c1 with fields := c1.fields.set i v }) p1 (p1 c1 hm1)
      obtain ⟨s3, e3, i3, f3⟩ := releaseOpt i2
      rw [e3]
      simp only [Option.bind_some]
      obtain ⟨c3, hc3⟩ := cell_of_addr (i3.elive _ hpe)
      simp only [hc3, Option.map_some]
      have hperm : (addrs s3 ++ s3.freed).Perm (addrs w.nodes ++ w.nodes.freed) := by
        refine f3.perm.trans ?_
        rw [addrs_put, a1]
        exact List.Perm.of_eq (by rw [← f1]; rfl)
      refine ⟨_, rfl, ⟨i3, f3.pos p2 i3.nd, hperm.nodup_iff.2 hn⟩, hperm, ⟨?_⟩⟩
      intro b c' hb
      obtain ⟨d, h4, h5, h6⟩ := f3.same b c' hb
      rcases put_cell_fields h4 with ⟨hb1, rfl⟩ | ⟨hb1, h7⟩
      · simp only at hb1 h5 h6
        rw [ha1] at hb1
        subst hb1
        refine Or.inr ⟨c, hc, ?_, ?_⟩
        · simp only [if_true]; rw [h5, hd1]
        · simp only; rw [h6, hd2]
      · simp only [ha1] at hb1
        obtain ⟨e, h8, h9, h10⟩ := v1 b d h7
        refine Or.inr ⟨e, h8, ?_, ?_⟩
        · simp only [hb1, if_false]; rw [h5, h9]
        · simp only; rw [h6, h10]
  | setDyn p id v =>
    obtain ⟨hpe, hv⟩ := hl
    obtain ⟨c, hc⟩ := cell_of_addr (hi.elive p hpe)
    obtain ⟨hm, rfl⟩ := cell_mem hc
    simp only [step, setData]
    by_cases h0 : v = 0
    · rw [if_pos h0]
      simp only [removeData, hc]
      cases hd : c.data.lookup id with
      | none =>
        refine ⟨_, rfl, hG, List.Perm.refl _, ⟨?_⟩⟩
        intro b c' hb
        refine Or.inr ⟨c', hb, rfl, ?_⟩
        simp only [h0, if_true]
        split
        · rename_i e
          subst e
          have hb : cell w.nodes c.addr = some c' := hb
          rw [hc] at hb; cases hb
          exact (lookup_none hd).symm
        · rfl
      | some u =>
        obtain ⟨hu, hcount⟩ := lookup_some hd
        simp only
        have i1 : Inv (put w.nodes { c with data := c.data.eraseP fun e => e.1 == id }) (opt u ++ w.held) := by
          refine inv_put (c := { c with data := c.data.eraseP fun e => e.1 == id }) hi hc ?_ ?_ ?_
          · intro b hb _
            have := hcount b
            simp only [refs, List.count_append, count_opt hb]
            omega
          · intro x hx hx0
            refine hi.live c hm x ?_ hx0
            simp only [refs, List.mem_append] at hx ⊢
            refine hx.imp (fun h => h) fun h => ?_
            exact ((List.eraseP_sublist).map _).subset h
          · intro x hx
            rcases List.mem_append.1 hx with h | h
            · unfold opt at h
              split at h
              · cases h
              · simp only [List.mem_singleton] at h
                subst h
                exact hi.live c hm _ (List.mem_append_right _ hu) (by assumption)
            · exact hi.elive x h
        obtain ⟨s3, e3, i3, f3⟩ := releaseOpt i1
        rw [e3]
        have p2 := pos_put (c := { c with data := c.data.eraseP fun e => e.1 == id }) hp (hp c hm)
        have hperm : (addrs s3 ++ s3.freed).Perm (addrs w.nodes ++ w.nodes.freed) := by
          refine f3.perm.trans ?_
          rw [addrs_put]
          exact List.Perm.refl _
        refine ⟨_, rfl, ⟨i3, f3.pos p2 i3.nd, hperm.nodup_iff.2 hn⟩, hperm, ⟨?_⟩⟩
        intro b c' hb
        obtain ⟨d, h4, h5, h6⟩ := f3.same b c' hb
        rcases put_cell_fields h4 with ⟨hb1, rfl⟩ | ⟨hb1, h7⟩
        · simp only at hb1 h5 h6
          subst hb1
          refine Or.inr ⟨c, hc, h5, ?_⟩
          simp only [if_true, h0]; exact h6
        · simp only at hb1
          refine Or.inr ⟨d, h7, h5, ?_⟩
          simp only [hb1, if_false]; exact h6
    · rw [if_neg h0]
      obtain ⟨hr, hno⟩ := hv.resolve_left h0
      have hno := hno c hc
      simp only [hc, hno]
      have hv' : v ∈ addrs (put w.nodes { c with data := (id, v) :: c.data }) := by
        rw [addrs_put]; exact (reach_live hG hr).1
      obtain ⟨e, he⟩ := cell_of_addr hv'
      obtain ⟨hem, hea⟩ := cell_mem he
      have hadd : addRef (put w.nodes { c with data := (id, v) :: c.data }) v =
          some (put (put w.nodes { c with data := (id, v) :: c.data }) { e with rc := e.rc + 1 }) := by
        simp only [addRef, he, Option.map_some]
      rw [hadd]
      simp only [Option.map_some]
      refine ⟨_, rfl, ⟨?_, ?_, ?_⟩, ?_, ⟨?_⟩⟩
      · by_cases hvp : v = c.addr
        · subst hvp
          have he2 := he
          rw [cell_put] at he2
          simp only [if_true, hc, Option.map_some, Option.some.injEq] at he2
          subst he2
          have hps := put_same w.nodes { c with data := (id, c.addr) :: c.data }
            { c with data := (id, c.addr) :: c.data, rc := c.rc + 1 } rfl
          show Inv (put (put w.nodes { c with data := (id, c.addr) :: c.data })
            { c with data := (id, c.addr) :: c.data, rc := c.rc + 1 }) w.held
          rw [hps]
          refine inv_put (c := { c with data := (id, c.addr) :: c.data, rc := c.rc + 1 }) hi hc ?_ ?_ hi.elive
          · intro b hb _
            simp only [refs, List.map_cons, List.count_append, List.count_cons]
            by_cases h : b = c.addr
            · subst h; simp; omega
            · have : ¬ c.addr = b := fun e => h e.symm
              simp [h, this]
          · intro x hx hx0
            simp only [refs, List.map_cons, List.mem_append, List.mem_cons] at hx
            rcases hx with h | rfl | h
            · exact hi.live c hm x (List.mem_append_left _ h) hx0
            · exact (reach_live hG hr).1
            · exact hi.live c hm x (List.mem_append_right _ h) hx0
        · have he2 := he
          rw [cell_put, if_neg hvp] at he2
          obtain ⟨e', h1, h2, h3⟩ := addRef_spec hi (reach_live hG hr).1
          rw [he2] at h1
          cases h1
          rw [put_comm _ _ _ (by simp only [hea]; exact fun x => hvp x.symm)]
          have hc2 : cell (put w.nodes { e with rc := e.rc + 1 }) c.addr = some c := by
            rw [cell_put, if_neg (by simp only [hea]; exact fun x => hvp x.symm)]; exact hc
          refine inv_put (c := { c with data := (id, v) :: c.data }) h3 hc2 ?_ ?_ ?_
          · intro b hb _
            simp only [refs, List.map_cons, List.count_append, List.count_cons]
            omega
          · intro x hx hx0
            rw [addrs_put]
            simp only [refs, List.map_cons, List.mem_append, List.mem_cons] at hx
            rcases hx with h | rfl | h
            · exact hi.live c hm x (List.mem_append_left _ h) hx0
            · exact (reach_live hG hr).1
            · exact hi.live c hm x (List.mem_append_right _ h) hx0
          · intro x hx; rw [addrs_put]; exact hi.elive x hx
      · refine pos_put (pos_put hp (hp c hm)) (by simp)
      · simp only [addrs_put]; exact hn
      · simp only [addrs_put]; exact List.Perm.refl _
      · intro b c' hb
        rcases put_cell_fields hb with ⟨hb1, rfl⟩ | ⟨hb1, h7⟩
        · simp only at hb1
          rw [hea] at hb1
          rcases put_cell_fields he with ⟨h8, h9⟩ | ⟨h8, h9⟩
          · simp only at h8
            rw [hb1, h8]
            rw [h8] at h9 h0
            exact Or.inr ⟨c, hc, by simp [h9], by simp [h9, h0]⟩
          · simp only at h8
            rw [hb1]
            exact Or.inr ⟨e, h9, rfl, by simp [h8]⟩
        · rcases put_cell_fields h7 with ⟨h8, h9⟩ | ⟨h8, h9⟩
          · simp only at h8
            rw [h8]
            exact Or.inr ⟨c, hc, by simp [h9], by simp [h9, h0]⟩
          · simp only at h8
            exact Or.inr ⟨c', h9, rfl, by simp [h8]⟩

theorem lookup_eraseP_ne (l : List (Nat × Nat)) {id j : Nat} (h : ¬ j = id) :
    (l.eraseP (fun e => e.1 == id)).lookup j = l.lookup j := by
  induction l with
  | nil => rfl
  | cons e l ih =>
    obtain ⟨k, v⟩ := e
    simp only [List.eraseP_cons, List.lookup_cons]
    by_cases hk : k = id
    · subst hk
      have : (j == k) = false := by simpa using h
      simp [this]
    · have : (k == id) = false := by simpa using hk
      simp only [this, cond_false, List.lookup_cons, ih]

theorem dyn_ne {l : List (Nat × Nat)} {id j v x : Nat} (hne : ¬ j = id)
    (hx : (((if v = 0 then l.eraseP (fun e => e.1 == id) else (id, v) :: l) : List (Nat × Nat)).lookup j).getD 0 = x) :
    (l.lookup j).getD 0 = x := by
  split at hx
  · rw [lookup_eraseP_ne _ hne] at hx; exact hx
  · have : (j == id) = false := by simpa using hne
    simp only [List.lookup_cons, this] at hx
    exact hx

theorem exists_ref {l : List Cell} {a : Nat} (h : 0 < refsTo l a) : ∃ c ∈ l, a ∈ refs c := by
  apply Decidable.byContradiction
  intro hno
  have : refsTo l a = 0 := by
    unfold refsTo
    rw [List.sum_eq_zero_iff_forall_eq_nat]
    intro x hx
    obtain ⟨c, hc, rfl⟩ := List.mem_map.1 hx
    exact List.count_eq_zero.2 fun hm => hno ⟨c, hc, hm⟩
  omega

theorem run_good {w w' : World} {l : List Op} (h : Good w) (r : Run w l w') :
    Good w' ∧ (addrs w'.nodes ++ w'.nodes.freed).Perm (created l ++ (addrs w.nodes ++ w.nodes.freed)) := by
  induction r with
  | nil w => exact ⟨h, List.Perm.refl _⟩
  | @cons w w1 w2 op l hl hs hr ih =>
    obtain ⟨w', h1, h2, h3, _⟩ := step_good h hl
    rw [hs] at h1; cases h1
    obtain ⟨h4, h5⟩ := ih h2
    refine ⟨h4, h5.trans ((h3.append_left _).trans ?_)⟩
    have : created (op :: l) = created [op] ++ created l := by cases op <;> rfl
    rw [this, ← List.append_assoc]
    exact (List.perm_append_comm).append_right _

theorem good_empty : Good empty :=
  ⟨⟨List.nodup_nil, by simp [empty], by simp [empty], by simp [empty], by simp [empty]⟩, by simp [empty], by simp [empty, addrs]⟩

theorem lookup_none_iff {l : List (Nat × Nat)} {id : Nat} : l.lookup id = none ↔ id ∉ l.map (·.1) := by
  induction l with
  | nil => simp
  | cons e l ih =>
    obtain ⟨k, v⟩ := e
    simp only [List.lookup_cons, List.map_cons, List.mem_cons, not_or]
    by_cases h : id = k
    · subst h; simp
    · have : (id == k) = false := by simpa using h
      simp only [this, ih]
      exact ⟨fun x => ⟨h, x⟩, fun x => x.2⟩

theorem not_mem_eraseP {l : List (Nat × Nat)} {id : Nat} (h : (l.map (·.1)).Nodup) :
    id ∉ (l.eraseP (fun e => e.1 == id)).map (·.1) := by
  induction l with
  | nil => simp
  | cons e l ih =>
    obtain ⟨k, v⟩ := e
    simp only [List.map_cons, List.nodup_cons] at h
    simp only [List.eraseP_cons]
    by_cases hk : k = id
    · subst hk; simpa using h.1
    · have : (k == id) = false := by simpa using hk
      simp only [this, cond_false, List.map_cons, List.mem_cons, not_or]
      exact ⟨fun e => hk e.symm, ih h.2⟩

/-- A dynamic attribute is kept once. -/
theorem keys_step {w w' : World} {op : Op} (hg : Good w') (hv : Values w w' op) (hl : Legal w op)
    (h : ∀ b c, cell w.nodes b = some c → (c.data.map (·.1)).Nodup) :
    ∀ b c, cell w'.nodes b = some c → (c.data.map (·.1)).Nodup := by
  intro b c' hc'
  rcases hv.fields b c' hc' with ⟨k, _, _, h1⟩ | ⟨c, h1, _, h2⟩
  · rw [h1]; exact List.nodup_nil
  · have h3 := h b c h1
    rw [h2]
    cases op with
    | setDyn p id v =>
      simp only
      split
      · rename_i e
        subst e
        split
        · exact List.Nodup.sublist ((List.eraseP_sublist).map _) h3
        · rename_i h0
          have := (hl.2.resolve_left h0).2 c h1
          rw [lookup_none_iff] at this
          simp only [List.map_cons, List.nodup_cons]
          exact ⟨this, h3⟩
      · exact h3
    | _ => exact h3

theorem run_keys {w w' : World} {l : List Op} (h : Good w) (r : Run w l w')
    (hk : ∀ b c, cell w.nodes b = some c → (c.data.map (·.1)).Nodup) :
    ∀ b c, cell w'.nodes b = some c → (c.data.map (·.1)).Nodup := by
  induction r with
  | nil w => exact hk
  | @cons w w1 w2 op l hl hs hr ih =>
    obtain ⟨w', h1, h2, h3, h4⟩ := step_good h hl
    rw [hs] at h1; cases h1
    exact ih h2 (keys_step h2 h4 hl hk)

/-! ### C193 -/

/-- C193: a program that keeps to the rules never makes the library touch a node that has been freed: whatever it has done and whatever
legal thing it does next, that is carried out. -/
theorem C193_safe {l : List Op} {w : World} {op : Op} (r : Run empty l w) (h : Legal w op) : ∃ w', step w op = some w' := by
  obtain ⟨w', h1, _⟩ := step_good (run_good good_empty r).1 h
  exact ⟨w', h1⟩

/-- C193: what can be reached from a reference the program holds exists. -/
theorem C193_kept {l : List Op} {w : World} {a : Nat} (r : Run empty l w) (h : Reach w a) : ∃ c, cell w.nodes a = some c :=
  cell_of_addr (reach_live (run_good good_empty r).1 h).1

/-- C193: every node that was created either exists or was freed, once. -/
theorem C193_once {l : List Op} {w : World} (r : Run empty l w) :
    (w.nodes.heap.map (·.addr) ++ w.nodes.freed).Perm (created l) ∧ (w.nodes.heap.map (·.addr) ++ w.nodes.freed).Nodup := by
  obtain ⟨h1, h2⟩ := run_good good_empty r
  exact ⟨by simpa [empty, addrs] using h2, h1.once⟩

/-- C193: the count of a node is the number of references the program and other nodes have to it, and at least 1. -/
theorem C193_count {l : List Op} {w : World} {a : Nat} {c : Cell} (r : Run empty l w) (h : cell w.nodes a = some c) :
    c.rc = w.held.count a + (w.nodes.heap.map fun d => d.fields.count a + (d.data.map (·.2)).count a).sum ∧ 1 ≤ c.rc := by
  have hg := (run_good good_empty r).1
  obtain ⟨hm, rfl⟩ := cell_mem h
  refine ⟨?_, Nat.one_le_iff_ne_zero.2 (hg.pos c hm)⟩
  have := hg.inv.cnt c hm
  unfold refsTo refs at this
  simpa only [List.count_append] using this

/-- C193: an attribute that is set has its value, and others keep theirs on all nodes that are left. -/
theorem C193_values {l : List Op} {w w' : World} {op : Op} (r : Run empty l w) (h : Legal w op) (hs : step w op = some w') :
    (∀ p i v, op = .set p i v → field w' p i = some v) ∧
    (∀ p id v, op = .setDyn p id v → dyn w' p id = some v) ∧
    (∀ b j x, (∀ k, op ≠ .create b k) → (∀ v, op ≠ .set b j v) → field w' b j = some x → field w b j = some x) ∧
    (∀ b j x, (∀ k, op ≠ .create b k) → (∀ v, op ≠ .setDyn b j v) → dyn w' b j = some x → dyn w b j = some x) := by
  obtain ⟨w1, h1, h2, _, ⟨h3⟩⟩ := step_good (run_good good_empty r).1 h
  rw [hs] at h1; cases h1
  refine ⟨?_, ?_, ?_, ?_⟩
  · rintro p i v rfl
    obtain ⟨hp, hl, _⟩ := h
    have hw' : p ∈ w'.held := by
      simp only [step, Option.map_eq_some_iff] at hs
      obtain ⟨s, _, rfl⟩ := hs
      exact hp
    obtain ⟨c', hc'⟩ := cell_of_addr (h2.inv.elive p hw')
    rcases h3 p c' hc' with ⟨k, h4, _⟩ | ⟨c, h4, h5, _⟩
    · cases h4
    · simp only [if_true] at h5
      simp only [field, hc', Option.bind_some, h5]
      rw [List.getElem?_set]
      simp [hl c h4]
  · rintro p id v rfl
    obtain ⟨hp, _⟩ := h
    have hw' : p ∈ w'.held := by
      simp only [step, Option.map_eq_some_iff] at hs
      obtain ⟨s, _, rfl⟩ := hs
      exact hp
    obtain ⟨c', hc'⟩ := cell_of_addr (h2.inv.elive p hw')
    rcases h3 p c' hc' with ⟨k, h4, _⟩ | ⟨c, h4, _, h5⟩
    · cases h4
    · have hk := run_keys good_empty r (by simp [empty, cell]) p c h4
      simp only [if_true] at h5
      split at h5
      · rename_i h0
        have := lookup_none_iff.2 (not_mem_eraseP (id := id) hk)
        simp [dyn, hc', h5, this, h0]
      · simp [dyn, hc', h5]
  · intro b j x hcr hset hf
    simp only [field, Option.bind_eq_some_iff] at hf ⊢
    obtain ⟨c', hc', hx⟩ := hf
    rcases h3 b c' hc' with ⟨k, h4, _⟩ | ⟨c, h4, h5, _⟩
    · exact absurd h4 (hcr k)
    · refine ⟨c, h4, ?_⟩
      rw [h5] at hx
      cases op <;> simp only at hx <;> try exact hx
      split at hx
      · rename_i e
        subst e
        rw [List.getElem?_set] at hx
        split at hx
        · rename_i e; subst e; exact absurd rfl (hset _)
        · exact hx
      · exact hx
  · intro b j x hcr hset hf
    simp only [dyn, Option.map_eq_some_iff] at hf ⊢
    obtain ⟨c', hc', hx⟩ := hf
    rcases h3 b c' hc' with ⟨k, h4, _⟩ | ⟨c, h4, _, h5⟩
    · exact absurd h4 (hcr k)
    · refine ⟨c, h4, ?_⟩
      rw [h5] at hx
      cases op <;> simp only at hx <;> try exact hx
      split at hx
      · rename_i e
        subst e
        refine dyn_ne (fun e => ?_) hx
        subst e; exact absurd rfl (hset _)
      · exact hx

/-- C193: where no node refers to itself in a circle, a node exists only if it can be reached: nothing is left behind. `rank` is the
witness that there is no circle. -/
theorem C193_no_leak_partial {l : List Op} {w : World} {rank : Nat → Nat} (r : Run empty l w)
    (hr : ∀ a c v, cell w.nodes a = some c → v ∈ c.fields ++ c.data.map (·.2) → v ≠ 0 → rank v < rank a) {a : Nat} {c : Cell}
    (hc : cell w.nodes a = some c) : Reach w a := by
  have hg := (run_good good_empty r).1
  have hmax : ∀ b ∈ addrs w.nodes, rank b ≤ ((addrs w.nodes).map rank).sum := fun b hb =>
    le_sum (List.mem_map_of_mem hb)
  generalize hM : ((addrs w.nodes).map rank).sum = M at hmax
  have key : ∀ n b d, M - rank b ≤ n → cell w.nodes b = some d → Reach w b := by
    intro n
    induction n with
    | zero =>
      intro b d hn hb
      obtain ⟨hm, rfl⟩ := cell_mem hb
      apply Classical.byContradiction
      intro hno
      have h1 : w.held.count d.addr = 0 := List.count_eq_zero.2 fun h => hno (.held h)
      have h2 := hg.inv.cnt d hm
      have h3 := hg.pos d hm
      obtain ⟨e, he, hin⟩ := exists_ref (l := w.nodes.heap) (a := d.addr) (by omega)
      have h4 := hr e.addr e d.addr (mem_cell hg.inv.nd he) hin (hg.inv.nz d hm)
      have h5 := hmax e.addr (List.mem_map_of_mem he)
      omega
    | succ n ih =>
      intro b d hn hb
      obtain ⟨hm, rfl⟩ := cell_mem hb
      by_cases h1 : d.addr ∈ w.held
      · exact .held h1
      · have h1 : w.held.count d.addr = 0 := List.count_eq_zero.2 h1
        have h2 := hg.inv.cnt d hm
        have h3 := hg.pos d hm
        obtain ⟨e, he, hin⟩ := exists_ref (l := w.nodes.heap) (a := d.addr) (by omega)
        have h4 := hr e.addr e d.addr (mem_cell hg.inv.nd he) hin (hg.inv.nz d hm)
        have h5 := hmax e.addr (List.mem_map_of_mem he)
        have h6 := hmax d.addr (List.mem_map_of_mem hm)
        exact .step (ih e.addr e (by omega) (mem_cell hg.inv.nd he)) (mem_cell hg.inv.nd he) hin (hg.inv.nz d hm)
  exact key _ a c (Nat.le_refl _) hc

/-- C193: with all references given back and no circle, all nodes are freed. -/
theorem C193_all_freed_partial {l : List Op} {w : World} {rank : Nat → Nat} (r : Run empty l w) (h0 : w.held = [])
    (hr : ∀ a c v, cell w.nodes a = some c → v ∈ c.fields ++ c.data.map (·.2) → v ≠ 0 → rank v < rank a) :
    w.nodes.heap = [] ∧ w.nodes.freed.Perm (created l) := by
  have hnil : w.nodes.heap = [] := by
    cases hh : w.nodes.heap with
    | nil => rfl
    | cons c t =>
      exfalso
      have hg := (run_good good_empty r).1
      have hm : c ∈ w.nodes.heap := by rw [hh]; exact List.mem_cons_self
      have := C193_no_leak_partial r hr (mem_cell hg.inv.nd hm)
      clear hr
      generalize c.addr = a at this
      induction this with
      | held h => rw [h0] at h; cases h
      | step _ _ _ _ ih => exact ih
  have := (C193_once r).1
  rw [hnil] at this
  exact ⟨hnil, by simpa using this⟩

/-! ### Cases -/

/-- A program, without regard to the rules. -/
def exec : List Op → World → Option World
  | [], w => some w
  | op :: l, w => (step w op).bind (exec l)

theorem run_of {w w' : World} : ∀ (l : List Op), exec l w = some w' →
    (∀ k u, exec (l.take k) w = some u → ∀ op, l[k]? = some op → Legal u op) → Run w l w'
  | [], h, _ => by cases h; exact .nil w
  | op :: l, h, hl => by
    simp only [exec, Option.bind_eq_some_iff] at h
    obtain ⟨u, h1, h2⟩ := h
    refine .cons (hl 0 w rfl op rfl) h1 (run_of l h2 ?_)
    intro k x hx op' ho
    refine hl (k + 1) x ?_ op' (by simpa using ho)
    simp [exec, h1, hx]

/-- A block (1) refers to a track (2) and to a Segment Info (3), and a cue point (4) to the block; the program lets go of all but the
cue point. -/
def demo : List Op :=
  [.create 1 2, .create 2 0, .set 1 0 2, .create 3 0, .setDyn 1 7 3, .create 4 1, .set 4 0 1, .drop 1, .drop 2, .drop 3]

def demoEnd : World := ⟨⟨[⟨4, 1, [1], []⟩, ⟨3, 1, [], []⟩, ⟨2, 1, [], []⟩, ⟨1, 1, [2, 0], [(7, 3)]⟩], []⟩, [4]⟩

theorem demo_run : Run empty demo demoEnd := by
  refine run_of demo (by decide) ?_
  intro k u hu op ho
  match k, hu, ho with
  | 0, hu, ho => cases hu; cases ho; exact ⟨by decide, rfl, by decide⟩
  | 1, hu, ho => cases hu; cases ho; exact ⟨by decide, rfl, by decide⟩
  | 2, hu, ho =>
    cases hu; cases ho
    exact ⟨by decide, fun c hc => by cases hc; decide, Or.inr (.held (by decide))⟩
  | 3, hu, ho => cases hu; cases ho; exact ⟨by decide, rfl, by decide⟩
  | 4, hu, ho =>
    cases hu; cases ho
    exact ⟨by decide, Or.inr ⟨.held (by decide), fun c hc => by cases hc; rfl⟩⟩
  | 5, hu, ho => cases hu; cases ho; exact ⟨by decide, rfl, by decide⟩
  | 6, hu, ho =>
    cases hu; cases ho
    exact ⟨by decide, fun c hc => by cases hc; decide, Or.inr (.held (by decide))⟩
  | 7, hu, ho => cases hu; cases ho; exact (by decide : 1 ∈ [4, 3, 2, 1])
  | 8, hu, ho => cases hu; cases ho; exact (by decide : 2 ∈ [4, 3, 2])
  | 9, hu, ho => cases hu; cases ho; exact (by decide : 3 ∈ [4, 3])
  | k + 10, _, ho => simp [demo] at ho

/-- The Segment Info is still there, through the block. -/
example : ∃ c, cell demoEnd.nodes 3 = some c :=
  C193_kept demo_run (.step (b := 1) (c := ⟨1, 1, [2, 0], [(7, 3)]⟩)
    (.step (b := 4) (c := ⟨4, 1, [1], []⟩) (.held (by decide)) rfl (by decide) (by decide)) rfl (by decide) (by decide))

/-- Letting go of the cue point frees all of them. -/
example : (step demoEnd (.drop 4)).map (fun w => (w.nodes, w.held)) = some (⟨[], [4, 1, 3, 2]⟩, []) := by decide

example : ∃ w', step demoEnd (.drop 4) = some w' := C193_safe demo_run (by decide : 4 ∈ [4])

example : 1 ≤ (⟨2, 1, [], []⟩ : Cell).rc := (C193_count (a := 2) demo_run rfl).2

example : (demoEnd.nodes.heap.map (·.addr) ++ demoEnd.nodes.freed).Perm (created demo) := (C193_once demo_run).1

/-- An attribute is replaced: the track goes, the block stays. -/
example : (step demoEnd (.set 4 0 0)).map (fun w => (w.nodes, w.held)) = some (⟨[⟨4, 1, [0], []⟩], [1, 3, 2]⟩, [4]) := by decide

example : ∀ w', step demoEnd (.set 4 0 4) = some w' → field w' 4 0 = some 4 := fun w' hs =>
  (C193_values demo_run (op := .set 4 0 4)
    ⟨by decide, fun c hc => by cases hc; decide, Or.inr (.held (by decide))⟩ hs).1 4 0 4 rfl

/-- There is no circle: the cue point comes before the block, the block before the others. -/
example : Reach demoEnd 2 := by
  refine C193_no_leak_partial (rank := fun a => if a = 4 then 2 else if a = 1 then 1 else 0) (c := ⟨2, 1, [], []⟩) demo_run ?_ rfl
  intro a c v hc hv h0
  obtain ⟨hm, rfl⟩ := cell_mem hc
  simp only [demoEnd, List.mem_cons, List.not_mem_nil, or_false] at hm
  have hv : v = 0 ∨ c.addr = 4 ∧ v = 1 ∨ c.addr = 1 ∧ (v = 2 ∨ v = 3) := by
    rcases hm with rfl | rfl | rfl | rfl <;> simp at hv ⊢ <;> omega
  rcases hv with h | ⟨h1, rfl⟩ | ⟨h1, rfl | rfl⟩
  · exact absurd h h0
  all_goals rw [h1]; decide

/-! ### Where the claim fails -/

/-- Two nodes that refer to each other are never freed: the program has given both back, and they are still there. -/
theorem C193_circle_counterexample : ∃ l w, Run empty l w ∧ w.held = [] ∧ w.nodes.heap.length = 2 ∧ w.nodes.freed = [] := by
  refine ⟨[.create 1 1, .create 2 1, .set 1 0 2, .set 2 0 1, .drop 1, .drop 2],
    ⟨⟨[⟨2, 1, [1], []⟩, ⟨1, 1, [2], []⟩], []⟩, []⟩, run_of _ (by decide) ?_, rfl, rfl, rfl⟩
  intro k u hu op ho
  match k, hu, ho with
  | 0, hu, ho => cases hu; cases ho; exact ⟨by decide, rfl, by decide⟩
  | 1, hu, ho => cases hu; cases ho; exact ⟨by decide, rfl, by decide⟩
  | 2, hu, ho =>
    cases hu; cases ho
    exact ⟨by decide, fun c hc => by cases hc; decide, Or.inr (.held (by decide))⟩
  | 3, hu, ho =>
    cases hu; cases ho
    exact ⟨by decide, fun c hc => by cases hc; decide, Or.inr (.held (by decide))⟩
  | 4, hu, ho => cases hu; cases ho; exact (by decide : 1 ∈ [2, 1])
  | 5, hu, ho => cases hu; cases ho; exact (by decide : 2 ∈ [2])
  | k + 6, _, ho => simp at ho

/-- A dynamic attribute that has a node for its value is set to another one: that is not counted. Node 1 holds 2, then 3 in its place; the program gives
2 and 3 back: 3 is freed although 1 refers to it, 2 is still there although nothing does, and deleting 1 touches 3. -/
theorem C193_replace_counterexample :
    ∃ w, exec [.create 1 0, .create 2 0, .create 3 0, .setDyn 1 7 2, .setDyn 1 7 3, .drop 2, .drop 3] empty = some w ∧
      dyn w 1 7 = some 3 ∧ w.nodes.freed = [3] ∧ (cell w.nodes 2).isSome ∧ w.held = [1] ∧ step w (.drop 1) = none :=
  ⟨⟨⟨[⟨2, 1, [], []⟩, ⟨1, 1, [], [(7, 3)]⟩], [3]⟩, [1]⟩, by decide, by decide, by decide, by decide, by decide, by decide⟩

end Verif.Core.Refs
