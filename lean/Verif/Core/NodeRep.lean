import Verif.Core.NodeLemmas
/-!
The invariant of the node tree, and what attaching and detaching do to the lists of children.
-/
set_option linter.unusedSimpArgs false
namespace Verif.NodeTree
open Verif

/-- The heap represents the lists of children `K`. -/
structure Rep (h : Heap) (K : Nat → List Nat) : Prop where
  null : ¬ h.live 0
  top : ∀ p, h.live p → p ≤ h.top
  chain : ∀ p, h.live p → ChainAt h (.kids p) (K p)
  up : ∀ p c, c ∈ K p → h.par c = some p
  down : ∀ c q, h.par c = some q → q ≠ 0 → h.live q ∧ c ∈ K q
  nodup : ∀ p, (K p).Nodup
  loose : ∀ c, h.par c = some 0 → h.get (.next c) = some 0
  dead : ∀ p, ¬ h.live p → K p = []

/-- Another list for one node. -/
def upd (K : Nat → List Nat) (p : Nat) (l : List Nat) : Nat → List Nat := fun q => if q = p then l else K q

/-- `c` put in front of `b`, or at the end if `b` is not in the list. -/
def insertB (c b : Nat) (l : List Nat) : List Nat := l.takeWhile (· ≠ b) ++ c :: l.dropWhile (· ≠ b)

theorem par_live (h : Heap) (c q : Nat) (hp : h.par c = some q) : h.live c := by
  rw [live_iff]
  unfold Heap.par at hp
  cases hc : h.at_ c with
  | none => rw [hc] at hp; cases hp
  | some n => exact ⟨n, rfl⟩

theorem live_par (h : Heap) (c : Nat) (hc : h.live c) : ∃ q, h.par c = some q := by
  obtain ⟨n, hn⟩ := (live_iff h c).1 hc
  exact ⟨n.parent, by rw [Heap.par, hn]; rfl⟩

theorem live_get (h : Heap) (c : Nat) (hc : h.live c) : ∃ q, h.get (.next c) = some q := by
  obtain ⟨n, hn⟩ := (live_iff h c).1 hc
  exact ⟨n.next, by rw [Heap.get, hn]; rfl⟩

theorem ChainAt.reroot {h h' : Heap} {i j : Cell} {l : List Nat} (hc : ChainAt h i l) (hi : h'.get j = h.get i)
    (hl : ∀ c ∈ l, h'.get (.next c) = h.get (.next c)) : ChainAt h' j l := by
  cases l with
  | nil => rw [ChainAt] at hc ⊢; rw [hi]; exact hc
  | cons c r =>
    rw [ChainAt] at hc ⊢
    exact ⟨hc.1, by rw [hi]; exact hc.2.1, hc.2.2.congr (hl c List.mem_cons_self) fun d hd => hl d (List.mem_cons_of_mem _ hd)⟩

theorem ChainAt.head {h : Heap} {i : Cell} {l : List Nat} (hc : ChainAt h i l) : h.get i = some (l.headD 0) := by
  cases l with
  | nil => exact hc
  | cons c r => exact hc.2.1

namespace Rep
variable {h : Heap} {K : Nat → List Nat}

theorem ne_zero (r : Rep h K) {p c : Nat} (hc : c ∈ K p) : c ≠ 0 := by
  rintro rfl
  exact r.null (par_live h 0 p (r.up p 0 hc))

theorem owner (r : Rep h K) {p c : Nat} (hc : c ∈ K p) : h.live p ∧ p ≠ 0 := by
  have hl : h.live p := by
    by_cases hl : h.live p
    · exact hl
    · rw [r.dead p hl] at hc; cases hc
  refine ⟨hl, ?_⟩
  rintro rfl
  exact r.null hl

theorem length (r : Rep h K) (p : Nat) : (K p).length ≤ h.top := by
  have hs : K p ⊆ List.range' 1 h.top := by
    intro c hc
    rw [List.mem_range'_1]
    have := r.top c (par_live h c p (r.up p c hc))
    have := r.ne_zero hc
    omega
  have := List.Nodup.length_le_of_subset (r.nodup p) hs
  rwa [List.length_range'] at this

theorem owner_unique (r : Rep h K) {p q c : Nat} (hp : c ∈ K p) (hq : c ∈ K q) : p = q := by
  have h1 := r.up p c hp
  have h2 := r.up q c hq
  rw [h1] at h2
  exact Option.some.inj h2

theorem loose_mem (r : Rep h K) {c : Nat} (hc : h.par c = some 0) (p : Nat) : c ∉ K p := by
  intro hm
  have := r.up p c hm
  rw [hc] at this
  exact (r.owner hm).2 (Option.some.inj this).symm

/-- Same pointers, same lists. -/
theorem congr {h' : Heap} (r : Rep h K) (h1 : h'.top = h.top) (h2 : ∀ x, h'.get x = h.get x)
    (h3 : ∀ x, h'.par x = h.par x) (h4 : ∀ x, h'.live x ↔ h.live x) : Rep h' K where
  null := fun hl => r.null ((h4 0).1 hl)
  top := fun p hp => by rw [h1]; exact r.top p ((h4 p).1 hp)
  chain := fun p hp => (r.chain p ((h4 p).1 hp)).congr (h2 _) fun c _ => h2 _
  up := fun p c hc => by rw [h3]; exact r.up p c hc
  down := fun c q hc hq => by
    rw [h3] at hc
    rw [h4]
    exact r.down c q hc hq
  nodup := r.nodup
  loose := fun c hc => by
    rw [h3] at hc
    rw [h2]
    exact r.loose c hc
  dead := fun p hp => r.dead p fun hl => hp ((h4 p).2 hl)

end Rep

theorem dropWhile_mem {c : Nat} : ∀ {l : List Nat}, c ∈ l → ∃ post, l.dropWhile (· ≠ c) = c :: post
  | [], h => by cases h
  | d :: r, h => by
    by_cases hd : d = c
    · exact ⟨r, by rw [List.dropWhile_cons_of_neg (by simp [hd]), hd]⟩
    · obtain ⟨post, hp⟩ := dropWhile_mem (l := r) (by rcases List.mem_cons.1 h with h | h; exact absurd h.symm hd; exact h)
      exact ⟨post, by rw [List.dropWhile_cons_of_pos (by simp [hd]), hp]⟩

theorem takeWhile_notMem {c : Nat} : ∀ {l : List Nat}, c ∉ l.takeWhile (· ≠ c)
  | [] => by simp
  | d :: r => by
    by_cases hd : d = c
    · rw [List.takeWhile_cons_of_neg (by simp [hd])]; simp
    · rw [List.takeWhile_cons_of_pos (by simp [hd])]
      intro h
      rcases List.mem_cons.1 h with h | h
      · exact hd h.symm
      · exact takeWhile_notMem (l := r) h

theorem dropWhile_none {c : Nat} : ∀ {l : List Nat}, c ∉ l → l.dropWhile (· ≠ c) = []
  | [], _ => rfl
  | d :: r, h => by
    rw [List.dropWhile_cons_of_pos (by
      simp only [ne_eq, decide_eq_true_eq]
      rintro rfl
      exact h List.mem_cons_self)]
    exact dropWhile_none fun hr => h (List.mem_cons_of_mem _ hr)

theorem mem_takeWhile {c d : Nat} {l : List Nat} (h : d ∈ l.takeWhile (· ≠ c)) : d ∈ l :=
  (List.takeWhile_sublist _).subset h

theorem split_at (c : Nat) (l : List Nat) : l.takeWhile (· ≠ c) ++ l.dropWhile (· ≠ c) = l := List.takeWhile_append_dropWhile

/-- `RemoveChild` takes the child out of the list. -/
theorem removeChildPlain_spec {h : Heap} {K : Nat → List Nat} (r : Rep h K) (q c : Nat) (hc : c ∈ K q) :
    ∃ h', removeChildPlain h q c = some h' ∧ Rep h' (upd K q ((K q).erase c)) ∧ h'.top = h.top ∧
      (∀ x, h'.par x = if x = c then some 0 else h.par x) ∧ (∀ x, h'.live x ↔ h.live x) ∧
      (∀ x, (h'.at_ x).map (fun n => (n.refs, n.dirty)) = (h.at_ x).map (fun n => (n.refs, n.dirty))) := by
  obtain ⟨hq, hq0⟩ := r.owner hc
  have hch := r.chain q hq
  have hfind := findCell_spec c h (h.top + 1) (.kids q) (K q) hch (by have := r.length q; omega)
  obtain ⟨post, hpost⟩ := dropWhile_mem hc
  have hsplit := split_at c (K q)
  have hpre : c ∉ (K q).takeWhile (· ≠ c) := takeWhile_notMem
  rw [hpost] at hsplit
  rw [hpost] at hfind
  generalize hpr : (K q).takeWhile (· ≠ c) = pre at *
  have hnd := r.nodup q
  rw [← hsplit] at hnd hch
  have hnd1 := List.nodup_append.1 hnd
  have hnd2 := List.nodup_cons.1 hnd1.2.1
  have herase : (K q).erase c = pre ++ post := by
    rw [← hsplit, List.erase_append_right _ hpre, List.erase_cons_head]
  have hcell := hch.drop
  rw [ChainAt] at hcell
  obtain ⟨hc0, hcell1, hcell2⟩ := hcell
  have hnext := hcell2.head
  -- the places concerned
  have hin : ∀ d ∈ pre, d ∈ K q := fun d hd => by rw [← hsplit]; exact List.mem_append_left _ hd
  have hin2 : ∀ d ∈ post, d ∈ K q := fun d hd => by rw [← hsplit]; exact List.mem_append_right _ (List.mem_cons_of_mem _ hd)
  have hne : endCell (.kids q) pre ≠ .next c := by
    rcases endCell_mem (.kids q) pre with ⟨h1, _⟩ | ⟨d, hd, he⟩
    · rw [h1]; exact fun h => by cases h
    · rw [he]; intro hh; cases hh; exact hpre hd
  obtain ⟨h1, e1, t1, g1, p1, l1, x1⟩ := put_spec h (post.headD 0) _ _ hcell1
  obtain ⟨h2, e2, t2, g2, p2, l2, x2⟩ := link_spec h1 c 0 0 ((l1 c).2 (par_live h c q (r.up q c hc)))
  have hget : ∀ x, h2.get x = if x = .next c then some 0 else if x = endCell (.kids q) pre then some (post.headD 0) else h.get x := by
    intro x; rw [g2, g1]
  have hpar : ∀ x, h2.par x = if x = c then some 0 else h.par x := by
    intro x; rw [p2, p1]
  have hlive : ∀ x, h2.live x ↔ h.live x := fun x => (l2 x).trans (l1 x)
  refine ⟨h2, ?_, ?_, by rw [t2, t1], hpar, hlive, fun x => by rw [x2, x1]⟩
  · rw [removeChildPlain, hfind]
    simp only [List.headD_cons]
    rw [unlink, if_pos ⟨rfl, hc0⟩, hnext]
    simp only
    rw [e1]
    simp only
    exact e2
  · rw [herase]
    refine ⟨fun hl => r.null ((hlive 0).1 hl), fun p hp => by rw [t2, t1]; exact r.top p ((hlive p).1 hp), ?_, ?_, ?_, ?_, ?_, ?_⟩
    · intro p hp
      have hp' := (hlive p).1 hp
      by_cases hpq : p = q
      · subst hpq
        rw [upd, if_pos rfl]
        refine hch.splice (post' := post) hnd1.1 (fun d _ => by intro hh; cases hh) ?_ ?_
        · intro x hx hx2
          rw [hget, if_neg ?_, if_neg hx2]
          rintro rfl
          rcases hx with hx | ⟨d, hd, hx⟩
          · cases hx
          · cases hx; exact hpre hd
        · refine hcell2.reroot ?_ ?_
          · rw [hget, if_neg hne, if_pos rfl, hnext]
          · intro d hd
            rw [hget, if_neg ?_, if_neg ?_]
            · intro hh
              rcases endCell_mem (.kids p) pre with ⟨h1, _⟩ | ⟨e, he, h1⟩
              · rw [h1] at hh; cases hh
              · rw [h1] at hh; cases hh
                exact hnd1.2.2 d he d (List.mem_cons_of_mem _ hd) rfl
            · intro hh; cases hh; exact hnd2.1 hd
      · rw [upd, if_neg hpq]
        refine (r.chain p hp').congr ?_ ?_
        · rw [hget, if_neg (by intro hh; cases hh), if_neg ?_]
          intro hh
          rcases endCell_mem (.kids q) pre with ⟨h1, _⟩ | ⟨e, he, h1⟩
          · rw [h1] at hh; cases hh; exact hpq rfl
          · rw [h1] at hh; cases hh
        · intro d hd
          rw [hget, if_neg ?_, if_neg ?_]
          · intro hh
            rcases endCell_mem (.kids q) pre with ⟨h1, _⟩ | ⟨e, he, h1⟩
            · rw [h1] at hh; cases hh
            · rw [h1] at hh; cases hh
              exact hpq (r.owner_unique hd (hin d he))
          · intro hh; cases hh; exact hpq (r.owner_unique hd hc)
    · intro p d hd
      rw [hpar]
      unfold upd at hd
      by_cases hpq : p = q
      · subst hpq
        rw [if_pos rfl] at hd
        rw [if_neg ?_]
        · rcases List.mem_append.1 hd with hd | hd
          · exact r.up p d (hin d hd)
          · exact r.up p d (hin2 d hd)
        · rintro rfl
          rcases List.mem_append.1 hd with hd | hd
          · exact hpre hd
          · exact hnd2.1 hd
      · rw [if_neg hpq] at hd
        rw [if_neg ?_]
        · exact r.up p d hd
        · rintro rfl
          exact hpq (r.owner_unique hd hc)
    · intro d p hd hp0
      rw [hpar] at hd
      by_cases hdc : d = c
      · rw [if_pos hdc] at hd
        exact absurd (Option.some.inj hd).symm hp0
      · rw [if_neg hdc] at hd
        obtain ⟨k1, k2⟩ := r.down d p hd hp0
        refine ⟨(hlive p).2 k1, ?_⟩
        unfold upd
        by_cases hpq : p = q
        · subst hpq
          rw [if_pos rfl, ← herase]
          exact (List.mem_erase_of_ne hdc).2 k2
        · rw [if_neg hpq]; exact k2
    · intro p
      unfold upd
      by_cases hpq : p = q
      · rw [if_pos hpq, ← herase]; exact (r.nodup q).erase c
      · rw [if_neg hpq]; exact r.nodup p
    · intro d hd
      rw [hpar] at hd
      rw [hget]
      by_cases hdc : d = c
      · rw [hdc, if_pos rfl]
      · rw [if_neg hdc] at hd
        rw [if_neg (by intro hh; cases hh; exact hdc rfl), if_neg ?_]
        · exact r.loose d hd
        · intro hh
          rcases endCell_mem (.kids q) pre with ⟨h1, _⟩ | ⟨e, he, h1⟩
          · rw [h1] at hh; cases hh
          · rw [h1] at hh; cases hh
            exact r.loose_mem hd q (hin d he)
    · intro p hp
      have hp' : ¬ h.live p := fun hl => hp ((hlive p).2 hl)
      unfold upd
      by_cases hpq : p = q
      · subst hpq; exact absurd hq hp'
      · rw [if_neg hpq]; exact r.dead p hp'

/-- `AddChild` puts the child in front of `Before`. -/
theorem addChildPlain_spec {h : Heap} {K : Nat → List Nat} (r : Rep h K) (q c b : Nat) (hq : h.live q)
    (hc : h.par c = some 0) (hb : b = 0 ∨ b ∈ K q) :
    ∃ h', addChildPlain h q c b = some h' ∧ Rep h' (upd K q (insertB c b (K q))) ∧ h'.top = h.top ∧
      (∀ x, h'.par x = if x = c then some q else h.par x) ∧ (∀ x, h'.live x ↔ h.live x) ∧
      (∀ x, (h'.at_ x).map (fun n => (n.refs, n.dirty)) = (h.at_ x).map (fun n => (n.refs, n.dirty))) := by
  have hq0 : q ≠ 0 := by rintro rfl; exact r.null hq
  have hch := r.chain q hq
  have hfind := findCell_spec b h (h.top + 1) (.kids q) (K q) hch (by have := r.length q; omega)
  have hsplit := split_at b (K q)
  have hhead : ((K q).dropWhile (· ≠ b)).headD 0 = b := by
    rcases hb with rfl | hb
    · rw [dropWhile_none fun hm => r.ne_zero hm rfl]; rfl
    · obtain ⟨post, hp⟩ := dropWhile_mem hb
      rw [hp]; rfl
  unfold insertB
  generalize hpr : (K q).takeWhile (· ≠ b) = pre at *
  generalize hpo : (K q).dropWhile (· ≠ b) = post at *
  have hcl := par_live h c 0 hc
  have hcn : ∀ p, c ∉ K p := r.loose_mem hc
  have hc0 : c ≠ 0 := by rintro rfl; exact r.null hcl
  have hnd := r.nodup q
  rw [← hsplit] at hnd hch
  have hnd1 := List.nodup_append.1 hnd
  have hcell := hch.drop
  have hcell1 := hcell.head
  have hin : ∀ d ∈ pre, d ∈ K q := fun d hd => by rw [← hsplit]; exact List.mem_append_left _ hd
  have hin2 : ∀ d ∈ post, d ∈ K q := fun d hd => by rw [← hsplit]; exact List.mem_append_right _ hd
  have hne : endCell (.kids q) pre ≠ .next c := by
    rcases endCell_mem (.kids q) pre with ⟨h1, _⟩ | ⟨d, hd, he⟩
    · rw [h1]; exact fun h => by cases h
    · rw [he]; intro hh; cases hh; exact hcn q (hin c hd)
  obtain ⟨h1, e1, t1, g1, p1, l1, x1⟩ := link_spec h c q b hcl
  obtain ⟨h2, e2, t2, g2, p2, l2, x2⟩ := put_spec h1 c (endCell (.kids q) pre) (post.headD 0) (by rw [g1, if_neg hne, hcell1])
  have hget : ∀ x, h2.get x = if x = endCell (.kids q) pre then some c else if x = .next c then some b else h.get x := by
    intro x; rw [g2, g1]
  have hpar : ∀ x, h2.par x = if x = c then some q else h.par x := by
    intro x; rw [p2, p1]
  have hlive : ∀ x, h2.live x ↔ h.live x := fun x => (l2 x).trans (l1 x)
  refine ⟨h2, ?_, ?_, by rw [t2, t1], hpar, hlive, fun x => by rw [x2, x1]⟩
  · rw [addChildPlain, hfind]
    simp only
    rw [e1]
    simp only
    exact e2
  · refine ⟨fun hl => r.null ((hlive 0).1 hl), fun p hp => by rw [t2, t1]; exact r.top p ((hlive p).1 hp), ?_, ?_, ?_, ?_, ?_, ?_⟩
    · intro p hp
      have hp' := (hlive p).1 hp
      by_cases hpq : p = q
      · subst hpq
        rw [upd, if_pos rfl]
        refine hch.splice (post' := c :: post) hnd1.1 (fun d _ => by intro hh; cases hh) ?_ ?_
        · intro x hx hx2
          rw [hget, if_neg hx2, if_neg ?_]
          rintro rfl
          rcases hx with hx | ⟨d, hd, hx⟩
          · cases hx
          · cases hx; exact hcn p (hin c hd)
        · rw [ChainAt]
          refine ⟨hc0, by rw [hget, if_pos rfl], hcell.reroot ?_ ?_⟩
          · rw [hget, if_neg (Ne.symm hne), if_pos rfl, hcell1, hhead]
          · intro d hd
            rw [hget, if_neg ?_, if_neg ?_]
            · intro hh; cases hh; exact hcn p (hin2 c hd)
            · intro hh
              rcases endCell_mem (.kids p) pre with ⟨h1, _⟩ | ⟨e, he, h1⟩
              · rw [h1] at hh; cases hh
              · rw [h1] at hh; cases hh
                exact hnd1.2.2 d he d hd rfl
      · rw [upd, if_neg hpq]
        refine (r.chain p hp').congr ?_ ?_
        · rw [hget, if_neg ?_, if_neg (by intro hh; cases hh)]
          intro hh
          rcases endCell_mem (.kids q) pre with ⟨h1, _⟩ | ⟨e, he, h1⟩
          · rw [h1] at hh; cases hh; exact hpq rfl
          · rw [h1] at hh; cases hh
        · intro d hd
          rw [hget, if_neg ?_, if_neg ?_]
          · intro hh; cases hh; exact hcn p hd
          · intro hh
            rcases endCell_mem (.kids q) pre with ⟨h1, _⟩ | ⟨e, he, h1⟩
            · rw [h1] at hh; cases hh
            · rw [h1] at hh; cases hh
              exact hpq (r.owner_unique hd (hin d he))
    · intro p d hd
      rw [hpar]
      unfold upd at hd
      by_cases hpq : p = q
      · subst hpq
        rw [if_pos rfl] at hd
        by_cases hdc : d = c
        · rw [if_pos hdc]
        · rw [if_neg hdc]
          rcases List.mem_append.1 hd with hd | hd
          · exact r.up p d (hin d hd)
          · rcases List.mem_cons.1 hd with hd | hd
            · exact absurd hd hdc
            · exact r.up p d (hin2 d hd)
      · rw [if_neg hpq] at hd
        rw [if_neg ?_]
        · exact r.up p d hd
        · rintro rfl
          exact hcn p hd
    · intro d p hd hp0
      rw [hpar] at hd
      by_cases hdc : d = c
      · rw [if_pos hdc] at hd
        cases hd
        refine ⟨(hlive q).2 hq, ?_⟩
        unfold upd
        rw [if_pos rfl, hdc]
        exact List.mem_append_right _ List.mem_cons_self
      · rw [if_neg hdc] at hd
        obtain ⟨k1, k2⟩ := r.down d p hd hp0
        refine ⟨(hlive p).2 k1, ?_⟩
        unfold upd
        by_cases hpq : p = q
        · subst hpq
          rw [if_pos rfl]
          rw [← hsplit] at k2
          rcases List.mem_append.1 k2 with k2 | k2
          · exact List.mem_append_left _ k2
          · exact List.mem_append_right _ (List.mem_cons_of_mem _ k2)
        · rw [if_neg hpq]; exact k2
    · intro p
      unfold upd
      by_cases hpq : p = q
      · rw [if_pos hpq, List.nodup_append]
        refine ⟨hnd1.1, List.nodup_cons.2 ⟨fun hm => hcn q (hin2 c hm), hnd1.2.1⟩, ?_⟩
        intro d hd e he
        rcases List.mem_cons.1 he with he | he
        · rintro rfl; rw [he] at hd; exact hcn q (hin c hd)
        · exact hnd1.2.2 d hd e he
      · rw [if_neg hpq]; exact r.nodup p
    · intro d hd
      rw [hpar] at hd
      rw [hget]
      by_cases hdc : d = c
      · rw [if_pos hdc] at hd
        exact absurd (Option.some.inj hd) hq0
      · rw [if_neg hdc] at hd
        rw [if_neg ?_, if_neg (by intro hh; cases hh; exact hdc rfl)]
        · exact r.loose d hd
        · intro hh
          rcases endCell_mem (.kids q) pre with ⟨h1, _⟩ | ⟨e, he, h1⟩
          · rw [h1] at hh; cases hh
          · rw [h1] at hh; cases hh
            exact r.loose_mem hd q (hin d he)
    · intro p hp
      have hp' : ¬ h.live p := fun hl => hp ((hlive p).2 hl)
      unfold upd
      by_cases hpq : p = q
      · subst hpq; exact absurd hq hp'
      · rw [if_neg hpq]; exact r.dead p hp'

end Verif.NodeTree
