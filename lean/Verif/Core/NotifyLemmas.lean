import Verif.Core.Notify
import Mathlib.Data.List.Nodup
/-!
Specification of notification lists and the invariants behind C116.
-/
set_option linter.unusedSimpArgs false
namespace Verif.Notify

/-- A registration: a number of its own, the function and its argument. -/
structure Entry where
  key : Nat
  func : Nat
  arg : Nat
deriving DecidableEq

/-- Specification: the registrations, the latest first, and the number of the next. -/
structure Spec where
  list : List Entry
  fresh : Nat

/-- Specification of what callbacks do: registering puts in front, unregistering takes the latest one of that function
and argument. -/
def specOp : Op → Spec → Spec
  | .add f x, p => ⟨⟨p.fresh, f, x⟩ :: p.list, p.fresh + 1⟩
  | .remove f x, p => ⟨p.list.eraseP (fun e => e.func = f ∧ e.arg = x), p.fresh⟩
  | .notify, p => p

def specOps (ops : List Op) (p : Spec) : Spec := ops.foldl (fun p o => specOp o p) p

/-- Specification of a notification: everyone registered when it starts is called, the latest first, unless
unregistered before its turn. -/
def specCalls (script : List (Nat × Nat) → List Op) : List Entry → Spec → List (Nat × Nat) → Spec × List (Nat × Nat)
  | [], p, hist => (p, hist)
  | e :: todo, p, hist =>
    if e ∈ p.list then
      let hist' := hist ++ [(e.func, e.arg)]
      specCalls script todo (specOps (script hist') p) hist'
    else specCalls script todo p hist

/-- The registration behind `e`. -/
def follower (e : Entry) : List Entry → Option Entry
  | [] => none
  | a :: l => if a = e then l.head? else follower e l

/-- A callback called for `e` that, once it has unregistered `e`, leaves the registration behind it alone. -/
def careful (e : Entry) : Option Entry → Spec → List Op → Prop
  | _, _, [] => True
  | watch, p, o :: ops =>
    let p' := specOp o p
    (∀ d, watch = some d → d ∈ p'.list) ∧
      careful e (if e ∈ p.list ∧ e ∉ p'.list then follower e p.list else watch) p' ops

/-- All callbacks of a notification are careful. -/
def carefulCalls (script : List (Nat × Nat) → List Op) : List Entry → Spec → List (Nat × Nat) → Prop
  | [], _, _ => True
  | e :: todo, p, hist =>
    if e ∈ p.list then
      let hist' := hist ++ [(e.func, e.arg)]
      careful e none p (script hist') ∧ carefulCalls script todo (specOps (script hist') p) hist'
    else carefulCalls script todo p hist

/-- The records from address `n` on are those of `l`. -/
def Seg (h : Nat → Option Cell) : Nat → List Entry → Prop
  | n, [] => n = 0
  | n, e :: l => n = e.key ∧ e.key ≠ 0 ∧ ∃ nx, h e.key = some ⟨e.func, e.arg, nx⟩ ∧ Seg h nx l

def keys (l : List Entry) : List Nat := l.map (·.key)

theorem seg_congr {h h' : Nat → Option Cell} : ∀ {n : Nat} {l : List Entry}, (∀ e ∈ l, h' e.key = h e.key) → Seg h n l → Seg h' n l
  | _, [], _, hs => hs
  | n, e :: l, hc, hs => by
    obtain ⟨h1, h2, nx, h3, h4⟩ := hs
    exact ⟨h1, h2, nx, by rw [hc e (by simp)]; exact h3, seg_congr (fun e he => hc e (by simp [he])) h4⟩

theorem seg_split {h : Nat → Option Cell} : ∀ {n : Nat} {a b : List Entry}, Seg h n (a ++ b) → ∃ nx, Seg h nx b
  | n, [], b, hs => ⟨n, hs⟩
  | n, e :: a, b, hs => by
    obtain ⟨_, _, nx, _, h4⟩ := hs
    exact seg_split h4

theorem seg_nz {h : Nat → Option Cell} : ∀ {n : Nat} {l : List Entry}, Seg h n l → ∀ e ∈ l, e.key ≠ 0 ∧ ∃ nx, h e.key = some ⟨e.func, e.arg, nx⟩
  | _, [], _, e, he => by simp at he
  | n, d :: l, hs, e, he => by
    obtain ⟨_, h2, nx, h3, h4⟩ := hs
    rcases List.mem_cons.1 he with rfl | he
    · exact ⟨h2, nx, h3⟩
    · exact seg_nz h4 e he

theorem seg_zero {h : Nat → Option Cell} {l : List Entry} {n : Nat} (hs : Seg h n l) : n = 0 ↔ l = [] := by
  cases l with
  | nil => exact ⟨fun _ => rfl, fun _ => hs⟩
  | cons e l =>
    obtain ⟨h1, h2, _⟩ := hs
    constructor
    · intro h; exact absurd (h1 ▸ h) h2
    · intro h; cases h

/-- Address of the last record of `a`, or `p`. -/
def lastKey (p : Nat) : List Entry → Nat
  | [] => p
  | e :: l => lastKey e.key l

theorem lastKey_append (p : Nat) : ∀ (a b : List Entry), lastKey p (a ++ b) = lastKey (lastKey p a) b
  | [], _ => rfl
  | e :: a, b => by simp only [List.cons_append, lastKey]; exact lastKey_append e.key a b

theorem lastKey_mem (p : Nat) : ∀ (a : List Entry), a ≠ [] → lastKey p a ∈ keys a
  | [], h => absurd rfl h
  | [e], _ => by simp [lastKey, keys]
  | e :: d :: l, _ => by
    have := lastKey_mem e.key (d :: l) (by simp)
    simp only [lastKey] at this ⊢
    simp only [keys, List.map_cons, List.mem_cons] at this ⊢
    exact Or.inr this

theorem lastKey_ne (p q : Nat) : ∀ (a : List Entry), a ≠ [] → lastKey p a = lastKey q a
  | [], h => absurd rfl h
  | _ :: _, _ => rfl

theorem find_none {h : Nat → Option Cell} (f x : Nat) : ∀ (l : List Entry) (k prev n : Nat), l.length < k → Seg h n l →
    (∀ e ∈ l, ¬ (e.func = f ∧ e.arg = x)) → find h f x k prev n = .none
  | [], k + 1, prev, n, _, hs, _ => by
    have hz : n = 0 := hs
    rw [find, if_pos hz]
  | e :: l, k + 1, prev, n, hk, hs, hno => by
    obtain ⟨h1, h2, nx, h3, h4⟩ := hs
    rw [find, if_neg (by rw [h1]; exact h2), h1, h3]
    simp only
    rw [if_neg (hno e (by simp))]
    exact find_none f x l k e.key nx (by simp at hk; omega) h4 (fun e he => hno e (by simp [he]))

theorem find_at {h : Nat → Option Cell} (f x : Nat) (m : Entry) (b : List Entry) (hm : m.func = f ∧ m.arg = x) :
    ∀ (a : List Entry) (k prev n : Nat), a.length < k → Seg h n (a ++ m :: b) →
    (∀ e ∈ a, ¬ (e.func = f ∧ e.arg = x)) →
    ∃ nx, h m.key = some ⟨m.func, m.arg, nx⟩ ∧ Seg h nx b ∧ find h f x k prev n = .at (lastKey prev a) m.key ⟨m.func, m.arg, nx⟩
  | [], k + 1, prev, n, _, hs, _ => by
    obtain ⟨h1, h2, nx, h3, h4⟩ := hs
    refine ⟨nx, h3, h4, ?_⟩
    rw [find, if_neg (by rw [h1]; exact h2), h1, h3]
    simp only
    rw [if_pos hm]; rfl
  | e :: l, k + 1, prev, n, hk, hs, hno => by
    obtain ⟨h1, h2, nx, h3, h4⟩ := hs
    obtain ⟨nx', g1, g2, g3⟩ := find_at f x m b hm l k e.key nx (by simp at hk; omega) h4 (fun e he => hno e (by simp [he]))
    refine ⟨nx', g1, g2, ?_⟩
    rw [find, if_neg (by rw [h1]; exact h2), h1, h3]
    simp only
    rw [if_neg (hno e (by simp)), g3]
    rfl

/-- The heap after unlinking the record behind address `prev`. -/
def relink (h : Nat → Option Cell) (prev nx : Nat) : Nat → Option Cell :=
  if prev = 0 then h else set h prev ((h prev).map fun p => { p with next := nx })

theorem relink_ne (h : Nat → Option Cell) (prev nx k : Nat) (hk : k ≠ prev) : relink h prev nx k = h k := by
  unfold relink
  by_cases h0 : prev = 0
  · rw [if_pos h0]
  · rw [if_neg h0]; unfold set; rw [if_neg hk]

theorem relink_last (h : Nat → Option Cell) (nx' : Nat) : ∀ (a : List Entry) (n p : Nat) (m : Entry) (b : List Entry), a ≠ [] →
    (keys (a ++ m :: b)).Nodup → Seg h n (a ++ m :: b) → Seg h nx' b →
    Seg (relink h (lastKey p a) nx') n (a ++ b)
  | [], _, _, _, _, ha, _, _, _ => absurd rfl ha
  | [e], n, p, m, b, _, hn, hs, hb => by
    obtain ⟨h1, h2, nx, h3, h4⟩ := hs
    simp only [keys, List.cons_append, List.nil_append, List.map_cons, List.nodup_cons, List.mem_cons, not_or] at hn
    have hlk : lastKey p [e] = e.key := rfl
    rw [hlk]
    refine ⟨h1, h2, nx', ?_, seg_congr (fun d hd => relink_ne _ _ _ _ ?_) hb⟩
    · unfold relink; rw [if_neg h2]; unfold set; rw [if_pos rfl, h3]; rfl
    · intro hc
      exact hn.1.2 (List.mem_map.2 ⟨d, hd, hc⟩)
  | e :: d :: l, n, p, m, b, _, hn, hs, hb => by
    obtain ⟨h1, h2, nx, h3, h4⟩ := hs
    have hn' : (keys ((d :: l) ++ m :: b)).Nodup := by
      simp only [keys, List.cons_append, List.map_cons, List.nodup_cons] at hn ⊢; exact hn.2
    have ih := relink_last h nx' (d :: l) nx e.key m b (by simp) hn' h4 hb
    have hlk : lastKey p (e :: d :: l) = lastKey e.key (d :: l) := rfl
    rw [hlk]
    refine ⟨h1, h2, nx, ?_, ih⟩
    rw [relink_ne]
    · exact h3
    · intro hc
      have h5 := lastKey_mem e.key (d :: l) (by simp)
      rw [← hc] at h5
      rw [keys, List.cons_append, List.map_cons, List.nodup_cons] at hn
      exact hn.1 (by
        simp only [keys, List.cons_append, List.map_cons, List.map_append, List.mem_cons, List.mem_append] at h5 ⊢
        rcases h5 with h5 | h5
        · exact Or.inl h5
        · exact Or.inr (Or.inl h5))

/-- A state represents a list of registrations. -/
structure Rep (s : State) (p : Spec) : Prop where
  fresh : s.fresh = p.fresh
  pos : 0 < s.fresh
  live : ∀ a, s.heap a ≠ none → a < s.fresh
  nodup : (keys p.list).Nodup
  seg : match s.top with | none => p.list = [] | some t => Seg s.heap t.next p.list

theorem Rep.lt {s : State} {p : Spec} (r : Rep s p) (e : Entry) (he : e ∈ p.list) : e.key ≠ 0 ∧ e.key < s.fresh := by
  have hseg := r.seg
  cases ht : s.top with
  | none => rw [ht] at hseg; simp only at hseg; rw [hseg] at he; simp at he
  | some t =>
    rw [ht] at hseg
    obtain ⟨h1, nx, h2⟩ := seg_nz hseg e he
    exact ⟨h1, r.live _ (by rw [h2]; simp)⟩

theorem Rep.len {s : State} {p : Spec} (r : Rep s p) : p.list.length ≤ s.fresh := by
  have hs : keys p.list ⊆ List.range s.fresh := by
    intro k hk
    obtain ⟨e, he, rfl⟩ := List.mem_map.1 hk
    exact List.mem_range.2 (r.lt e he).2
  have := List.Nodup.length_le_of_subset r.nodup hs
  simpa [keys] using this

theorem add_rep {s : State} {p : Spec} (r : Rep s p) (f x : Nat) : Rep (add f x s) (specOp (.add f x) p) := by
  unfold add specOp
  refine ⟨by simp [r.fresh], by simp, ?_, ?_, ?_⟩
  · intro a ha
    simp only [set] at ha
    by_cases h : a = s.fresh
    · simp [h]
    · rw [if_neg h] at ha
      have := r.live a ha
      simp; omega
  · simp only [keys, List.map_cons, List.nodup_cons]
    refine ⟨fun hm => ?_, r.nodup⟩
    obtain ⟨e, he, hk⟩ := List.mem_map.1 hm
    have := (r.lt e he).2
    rw [r.fresh] at this
    omega
  · simp only
    refine ⟨r.fresh, by have := r.pos; have := r.fresh; simp; omega, (s.top.getD ⟨false, .null, 0⟩).next, ?_, ?_⟩
    · simp only [set]; rw [if_pos r.fresh.symm]
    · refine seg_congr (h := s.heap) (fun e he => ?_) ?_
      · simp only [set]
        rw [if_neg]
        have := (r.lt e he).2
        omega
      · have := r.seg
        cases ht : s.top with
        | none => rw [ht] at this; simp only at this; rw [this]; rfl
        | some t => rw [ht] at this; exact this

/-- How the first registration of a function and argument is found in a list. -/
theorem eraseP_split (f x : Nat) (l : List Entry) :
    (l.eraseP (fun e => e.func = f ∧ e.arg = x) = l ∧ ∀ e ∈ l, ¬ (e.func = f ∧ e.arg = x)) ∨
    ∃ a m b, l = a ++ m :: b ∧ (m.func = f ∧ m.arg = x) ∧ (∀ e ∈ a, ¬ (e.func = f ∧ e.arg = x)) ∧
      l.eraseP (fun e => e.func = f ∧ e.arg = x) = a ++ b := by
  induction l with
  | nil => left; simp
  | cons e l ih =>
    by_cases h : e.func = f ∧ e.arg = x
    · right
      exact ⟨[], e, l, rfl, h, by simp, by rw [List.eraseP_cons_of_pos (by simpa using h)]; rfl⟩
    · rw [List.eraseP_cons_of_neg (by simpa using h)]
      rcases ih with ⟨h1, h2⟩ | ⟨a, m, b, h1, h2, h3, h4⟩
      · left
        exact ⟨by rw [h1], by intro d hd; rcases List.mem_cons.1 hd with rfl | hd; exact h; exact h2 d hd⟩
      · right
        exact ⟨e :: a, m, b, by rw [h1]; rfl, h2,
          by intro d hd; rcases List.mem_cons.1 hd with rfl | hd; exact h; exact h3 d hd, by rw [h4]; rfl⟩


theorem settle_rep {s : State} {p : Spec} (r : Rep s p) (old : Mark) : Rep (settle old s) p := by
  unfold settle
  have hseg := r.seg
  cases ht : s.top with
  | none => exact r
  | some t =>
    simp only
    rw [ht] at hseg
    simp only at hseg
    by_cases h : t.next = 0 ∧ old = t.mark
    · rw [if_pos h]
      by_cases hb : t.busy = true
      · rw [if_pos hb]; exact ⟨r.fresh, r.pos, r.live, r.nodup, hseg⟩
      · rw [if_neg hb]; exact ⟨r.fresh, r.pos, r.live, r.nodup, (seg_zero hseg).1 h.1⟩
    · rw [if_neg h]; exact r

/-- What unregistering does when there is something to unregister. -/
theorem remove_at {s : State} {p : Spec} (r : Rep s p) (t : Top) (ht : s.top = some t) (f x : Nat) (a b : List Entry) (m : Entry)
    (hl : p.list = a ++ m :: b) (hm : m.func = f ∧ m.arg = x) (ha : ∀ e ∈ a, ¬ (e.func = f ∧ e.arg = x)) :
    ∃ nx, s.heap m.key = some ⟨m.func, m.arg, nx⟩ ∧ Seg s.heap nx b ∧
      remove f x s = some (settle t.mark
        { s with
          heap := if t.mark = .item m.key then relink s.heap (lastKey 0 a) nx else set (relink s.heap (lastKey 0 a) nx) m.key none
          top := some { busy := t.busy, mark := if t.mark = .item m.key then .null else t.mark,
                        next := if a = [] then nx else t.next } }) := by
  have hseg := r.seg
  rw [ht] at hseg
  simp only at hseg
  rw [hl] at hseg
  have hlen := r.len
  rw [hl] at hlen
  simp only [List.length_append, List.length_cons] at hlen
  obtain ⟨nx, h1, h2, h3⟩ := find_at f x m b hm a (s.fresh + 1) 0 t.next (by omega) hseg ha
  refine ⟨nx, h1, h2, ?_⟩
  unfold remove
  rw [ht]
  simp only
  rw [h3]
  simp only
  have hz : lastKey 0 a = 0 ↔ a = [] := by
    constructor
    · intro h
      by_cases ha' : a = []
      · exact ha'
      · have h5 := lastKey_mem 0 a ha'
        rw [h] at h5
        obtain ⟨e, he, hk⟩ := List.mem_map.1 h5
        exact absurd hk (seg_nz hseg e (List.mem_append_left _ he)).1
    · intro h; rw [h]; rfl
  have hrel : (if lastKey 0 a = 0 then s.heap else set s.heap (lastKey 0 a) ((s.heap (lastKey 0 a)).map fun p => { p with next := nx })) =
      relink s.heap (lastKey 0 a) nx := rfl
  rw [hrel]
  by_cases hmk : t.mark = .item m.key
  · rw [if_pos hmk, if_pos hmk, if_pos hmk]
    by_cases hz' : lastKey 0 a = 0
    · rw [if_pos hz', if_pos (hz.1 hz')]
    · rw [if_neg hz', if_neg (fun h => hz' (hz.2 h))]
  · rw [if_neg hmk, if_neg hmk, if_neg hmk]
    by_cases hz' : lastKey 0 a = 0
    · rw [if_pos hz', if_pos (hz.1 hz')]
    · rw [if_neg hz', if_neg (fun h => hz' (hz.2 h))]

theorem remove_none {s : State} {p : Spec} (r : Rep s p) (f x : Nat)
    (ha : ∀ e ∈ p.list, ¬ (e.func = f ∧ e.arg = x)) :
    remove f x s = some (match s.top with | none => s | some t => settle t.mark s) := by
  unfold remove
  cases ht : s.top with
  | none => rfl
  | some t =>
    simp only
    have hseg := r.seg
    rw [ht] at hseg
    rw [find_none f x p.list _ 0 t.next (by have := r.len; omega) hseg ha]

theorem key_mem {l : List Entry} {e : Entry} (h : e ∈ l) : e.key ∈ keys l := List.mem_map.2 ⟨e, h, rfl⟩

/-- Unlinking keeps the chain. -/
theorem unlink_seg {h : Nat → Option Cell} {n nx : Nat} {a b : List Entry} {m : Entry} (hn : (keys (a ++ m :: b)).Nodup)
    (hs : Seg h n (a ++ m :: b)) (hb : Seg h nx b) (H : Nat → Option Cell)
    (hH : ∀ k, k ≠ m.key → H k = relink h (lastKey 0 a) nx k) :
    Seg H (if a = [] then nx else n) (a ++ b) := by
  have hnot : ∀ e ∈ a ++ b, e.key ≠ m.key := by
    intro e he hk
    have h1 : keys (a ++ m :: b) = keys a ++ m.key :: keys b := by simp [keys]
    rw [h1, List.nodup_append, List.nodup_cons] at hn
    rcases List.mem_append.1 he with h | h
    · exact hn.2.2 e.key (key_mem h) m.key (by simp) hk
    · exact hn.2.1.1 (hk ▸ key_mem h)
  by_cases ha : a = []
  · rw [if_pos ha]
    subst ha
    refine seg_congr (h := h) (fun e he => ?_) hb
    rw [hH _ (hnot e he)]
    unfold lastKey relink
    rw [if_pos rfl]
  · rw [if_neg ha]
    refine seg_congr (fun e he => hH _ (hnot e he)) ?_
    exact relink_last h nx a n 0 m b ha hn hs hb

theorem relink_live (h : Nat → Option Cell) (prev nx k : Nat) (hk : relink h prev nx k ≠ none) : h k ≠ none := by
  unfold relink at hk
  by_cases h0 : prev = 0
  · rw [if_pos h0] at hk; exact hk
  · rw [if_neg h0] at hk
    unfold set at hk
    by_cases h1 : k = prev
    · rw [if_pos h1] at hk
      intro hc
      rw [← h1, hc] at hk
      exact hk rfl
    · rw [if_neg h1] at hk; exact hk

theorem nodup_erase {a b : List Entry} {m : Entry} (hn : (keys (a ++ m :: b)).Nodup) : (keys (a ++ b)).Nodup := by
  have h1 : (a ++ b).Sublist (a ++ m :: b) := List.Sublist.append_left (List.sublist_cons_self m b) a
  exact hn.sublist (h1.map _)

theorem remove_rep {s : State} {p : Spec} (r : Rep s p) (f x : Nat) :
    ∃ s', remove f x s = some s' ∧ Rep s' (specOp (.remove f x) p) := by
  rcases eraseP_split f x p.list with ⟨h1, h2⟩ | ⟨a, m, b, h1, h2, h3, h4⟩
  · refine ⟨_, remove_none r f x h2, ?_⟩
    have hp : specOp (.remove f x) p = p := by simp only [specOp]; rw [h1]
    rw [hp]
    cases ht : s.top with
    | none => exact r
    | some t => exact settle_rep r _
  · cases ht : s.top with
    | none =>
      have := r.seg
      rw [ht] at this
      simp only at this
      rw [this] at h1
      simp at h1
    | some t =>
      obtain ⟨nx, g1, g2, g3⟩ := remove_at r t ht f x a b m h1 h2 h3
      refine ⟨_, g3, settle_rep ?_ _⟩
      have hseg := r.seg
      rw [ht] at hseg
      simp only at hseg
      have hn := r.nodup
      rw [h1] at hseg hn
      refine ⟨r.fresh, r.pos, ?_, ?_, ?_⟩
      · intro k hk
        simp only at hk
        apply r.live
        by_cases hmk : t.mark = .item m.key
        · rw [if_pos hmk] at hk; exact relink_live _ _ _ _ hk
        · rw [if_neg hmk] at hk
          unfold set at hk
          by_cases hkm : k = m.key
          · rw [if_pos hkm] at hk; exact absurd rfl hk
          · rw [if_neg hkm] at hk; exact relink_live _ _ _ _ hk
      · unfold specOp; simp only; rw [h4]; exact nodup_erase hn
      · unfold specOp
        simp only
        rw [h4]
        refine unlink_seg hn hseg g2 _ fun k hk => ?_
        by_cases hmk : t.mark = .item m.key
        · rw [if_pos hmk]
        · rw [if_neg hmk]; unfold set; rw [if_neg hk]

/-- What holds while the callback for `e` runs. -/
structure InCall (e : Entry) (todo : List Entry) (watch : Option Entry) (s : State) (p : Spec) : Prop where
  rep : Rep s p
  ne : e.key ≠ 0
  old : e.key < s.fresh
  olds : ∀ d ∈ todo, d.key < s.fresh
  inv : ∃ (pre suf : List Entry) (nx : Nat) (t : Top),
    s.top = some t ∧ t.busy = true ∧ s.heap e.key = some ⟨e.func, e.arg, nx⟩ ∧ Seg s.heap nx suf ∧
    e.key ∉ keys pre ∧ e.key ∉ keys suf ∧ (∀ d ∈ pre, d ∉ todo) ∧ suf.Sublist todo ∧
    ((p.list = pre ++ e :: suf ∧ t.mark = .item e.key ∧ watch = none) ∨
     (p.list = pre ++ suf ∧ (t.mark = .null ∨ t.mark = .list) ∧ watch = suf.head?))

theorem inCall_add {e : Entry} {todo : List Entry} {watch : Option Entry} {s : State} {p : Spec} (h : InCall e todo watch s p)
    (f x : Nat) : InCall e todo watch (add f x s) (specOp (.add f x) p) := by
  obtain ⟨r, hne, hold, holds, pre, suf, nx, t, ht, hb, hc, hseg, h1, h2, h3, h4, h5⟩ := h
  have hkeep : ∀ k, k < s.fresh → (add f x s).heap k = s.heap k := by
    intro k hk
    simp only [add, set]
    rw [if_neg (by omega)]
  refine ⟨add_rep r f x, hne, by simp [add]; omega, fun d hd => by have := holds d hd; simp [add]; omega, ?_⟩
  refine ⟨⟨s.fresh, f, x⟩ :: pre, suf, nx, { t with next := s.fresh }, by simp [add, ht], hb, ?_, ?_, ?_, h2, ?_, h4, ?_⟩
  · rw [hkeep _ hold]; exact hc
  · refine seg_congr (fun d hd => hkeep _ ?_) hseg
    exact holds d (h4.subset hd)
  · simp only [keys, List.map_cons, List.mem_cons, not_or]
    exact ⟨by omega, h1⟩
  · intro d hd
    rcases List.mem_cons.1 hd with rfl | hd
    · intro hm
      have := holds _ hm
      simp at this
    · exact h3 d hd
  · rcases h5 with ⟨g1, g2, g3⟩ | ⟨g1, g2, g3⟩
    · left; exact ⟨by simp [specOp, g1, r.fresh], g2, g3⟩
    · right; exact ⟨by simp [specOp, g1, r.fresh], g2, g3⟩

theorem settle_keeps (old : Mark) (s : State) (t : Top) (ht : s.top = some t) (hb : t.busy = true) :
    (settle old s).heap = s.heap ∧ (settle old s).fresh = s.fresh ∧
      ∃ t', (settle old s).top = some t' ∧ t'.busy = true ∧ t'.next = t.next ∧
        (t'.mark = t.mark ∨ (t'.mark = .list ∧ t.next = 0 ∧ old = t.mark)) := by
  unfold settle
  rw [ht]
  simp only
  by_cases h : t.next = 0 ∧ old = t.mark
  · rw [if_pos h, if_pos hb]
    exact ⟨rfl, rfl, _, rfl, hb, rfl, Or.inr ⟨rfl, h.1, h.2⟩⟩
  · rw [if_neg h]
    exact ⟨rfl, rfl, t, ht, hb, rfl, Or.inl rfl⟩

theorem follower_eq (e : Entry) (suf : List Entry) : ∀ pre : List Entry, e ∉ pre → follower e (pre ++ e :: suf) = suf.head?
  | [], _ => by simp [follower]
  | a :: pre, h => by
    simp only [List.mem_cons, not_or] at h
    rw [List.cons_append, follower, if_neg (fun hc => h.1 hc.symm)]
    exact follower_eq e suf pre h.2


theorem keys_append (a b : List Entry) : keys (a ++ b) = keys a ++ keys b := List.map_append

theorem relink_prev (h : Nat → Option Cell) (prev nx : Nat) (c : Cell) (h0 : prev ≠ 0) (hc : h prev = some c) :
    relink h prev nx prev = some { c with next := nx } := by
  unfold relink set
  rw [if_neg h0, if_pos rfl, hc]
  rfl

theorem lastKey_cases (a : List Entry) : lastKey 0 a = 0 ∨ lastKey 0 a ∈ keys a := by
  by_cases h : a = []
  · left; rw [h]; rfl
  · right; exact lastKey_mem 0 a h

theorem inCall_remove {e : Entry} {todo : List Entry} {watch : Option Entry} {s : State} {p : Spec} (h : InCall e todo watch s p)
    (f x : Nat) (hw : ∀ d, watch = some d → d ∈ (specOp (.remove f x) p).list) :
    ∃ s', remove f x s = some s' ∧
      InCall e todo (if e ∈ p.list ∧ e ∉ (specOp (.remove f x) p).list then follower e p.list else watch) s' (specOp (.remove f x) p) := by
  obtain ⟨r, hne, hold, holds, pre, suf, nx, t, ht, hb, hc, hseg, h1, h2, h3, h4, h5⟩ := h
  have hnotpre : e ∉ pre := fun hm => h1 (key_mem hm)
  have hnotsuf : e ∉ suf := fun hm => h2 (key_mem hm)
  rcases eraseP_split f x p.list with ⟨e1, e2⟩ | ⟨a, m, b, e1, e2, e3, e4⟩
  · have hp : specOp (.remove f x) p = p := by simp only [specOp]; rw [e1]
    rw [hp] at hw ⊢
    have hrem := remove_none r f x e2
    rw [ht] at hrem
    simp only at hrem
    obtain ⟨k1, k2, t', k3, k4, k5, k6⟩ := settle_keeps t.mark s t ht hb
    refine ⟨_, hrem, settle_rep r _, hne, by rw [k2]; exact hold, fun d hd => by rw [k2]; exact holds d hd, ?_⟩
    rw [if_neg (fun hc => hc.2 hc.1)]
    refine ⟨pre, suf, nx, t', k3, k4, by rw [k1]; exact hc, by rw [k1]; exact hseg, h1, h2, h3, h4, ?_⟩
    rcases h5 with ⟨g1, g2, g3⟩ | ⟨g1, g2, g3⟩
    · left
      refine ⟨g1, ?_, g3⟩
      rcases k6 with k6 | ⟨_, k6, _⟩
      · rw [k6]; exact g2
      · exfalso
        have := r.seg
        rw [ht] at this
        have := (seg_zero this).1 k6
        rw [g1] at this
        simp at this
    · right
      refine ⟨g1, ?_, g3⟩
      rcases k6 with k6 | ⟨k6, _⟩
      · rw [k6]; exact g2
      · right; exact k6
  · have hp : (specOp (.remove f x) p).list = a ++ b := by simp only [specOp]; rw [e4]
    have hn := r.nodup
    rw [e1] at hn
    have hn' : (keys a ++ m.key :: keys b).Nodup := by simpa [keys] using hn
    have hmab : m.key ∉ keys a ∧ m.key ∉ keys b := by
      rw [List.nodup_append, List.nodup_cons] at hn'
      exact ⟨fun hm => hn'.2.2 m.key hm m.key (by simp) rfl, hn'.2.1.1⟩
    have hab : ∀ k, k ∈ keys a → k ∉ keys b := by
      intro k hk hkb
      rw [List.nodup_append] at hn'
      exact hn'.2.2 k hk k (by simp [hkb]) rfl
    obtain ⟨nxm, g1, g2, g3⟩ := remove_at r t ht f x a b m e1 e2 e3
    have hrep := (remove_rep r f x)
    obtain ⟨s', hs', hrep⟩ := hrep
    rw [g3] at hs'
    have hs'' := Option.some.inj hs'
    refine ⟨s', by rw [g3, hs'], ?_⟩
    obtain ⟨k1, k2, t', k3, k4, k5, k6⟩ := settle_keeps t.mark
      { s with
          heap := if t.mark = .item m.key then relink s.heap (lastKey 0 a) nxm else set (relink s.heap (lastKey 0 a) nxm) m.key none
          top := some { busy := t.busy, mark := if t.mark = .item m.key then .null else t.mark,
                        next := if a = [] then nxm else t.next } } _ rfl hb
    rw [hs''] at k1 k2 k3
    simp only at k1 k2 k5 k6
    refine ⟨hrep, hne, by rw [k2]; exact hold, fun d hd => by rw [k2]; exact holds d hd, ?_⟩
    have hH : ∀ k, k ≠ m.key → s'.heap k = relink s.heap (lastKey 0 a) nxm k := by
      intro k hk
      rw [k1]
      by_cases hmk : t.mark = .item m.key
      · rw [if_pos hmk]
      · rw [if_neg hmk]; unfold set; rw [if_neg hk]
    -- cells that are neither `m` nor the one before it
    have hsame : ∀ d : Entry, d.key ≠ 0 → d.key ≠ m.key → d.key ∉ keys a → s'.heap d.key = s.heap d.key := by
      intro d h0 hdm hda
      rw [hH _ hdm, relink_ne]
      intro hk
      rcases lastKey_cases a with hl | hl
      · rw [hl] at hk; exact h0 hk
      · rw [← hk] at hl; exact hda hl
    have hzero : ∀ d ∈ p.list, d.key ≠ 0 := fun d hd => (r.lt d hd).1
    rcases h5 with ⟨q1, q2, q3⟩ | ⟨q1, q2, q3⟩
    · -- `e` is still registered
      have heq : a ++ m :: b = pre ++ e :: suf := by rw [← e1, q1]
      have hmem : e ∈ p.list := by rw [q1]; simp
      -- three places
      have hcases : (m = e ∧ a = pre ∧ b = suf) ∨ (∃ c, pre = a ++ m :: c ∧ b = c ++ e :: suf) ∨
          (∃ c, suf = c ++ m :: b ∧ a = pre ++ e :: c) := by
        rcases List.append_eq_append_iff.1 heq with ⟨c, c1, c2⟩ | ⟨c, c1, c2⟩
        · cases c with
          | nil =>
            simp only [List.nil_append, List.cons.injEq] at c2
            left; exact ⟨c2.1, by simpa using c1.symm, c2.2⟩
          | cons y c =>
            simp only [List.cons_append, List.cons.injEq] at c2
            right; left
            exact ⟨c, by rw [c1, c2.1], c2.2⟩
        · cases c with
          | nil =>
            simp only [List.nil_append, List.cons.injEq] at c2
            left; exact ⟨c2.1.symm, by simpa using c1, c2.2.symm⟩
          | cons y c =>
            simp only [List.cons_append, List.cons.injEq] at c2
            right; right
            exact ⟨c, c2.2, by rw [c1, ← c2.1]⟩
      rcases hcases with ⟨rfl, rfl, rfl⟩ | ⟨c, c1, c2⟩ | ⟨c, c1, c2⟩
      · -- the callback unregisters the one being called
        rw [if_pos ⟨hmem, by
          rw [hp]; intro hm
          rcases List.mem_append.1 hm with hm | hm
          · exact hnotpre hm
          · exact hnotsuf hm⟩, q1, follower_eq _ _ _ hnotpre]
        rw [if_pos q2] at k1
        simp only [q2, if_true] at k6
        refine ⟨a, b, nx, t', k3, k4, ?_, ?_, h1, h2, h3, h4, Or.inr ⟨hp, ?_, rfl⟩⟩
        · rw [k1, relink_ne]
          · exact hc
          · intro hk
            rcases lastKey_cases a with hl | hl
            · rw [hl] at hk; exact hne hk
            · rw [← hk] at hl; exact h1 hl
        · refine seg_congr (fun d hd => ?_) hseg
          exact hsame d (hzero d (by rw [q1]; simp [hd])) (fun hk => h2 (hk ▸ key_mem hd)) (fun hk => hab _ hk (key_mem hd))
        · rcases k6 with k6 | ⟨_, _, k6⟩
          · left; exact k6
          · cases k6
      · -- one before it
        have hem : e.key ≠ m.key := by
          intro hk; apply h1; rw [c1, hk]; simp [keys]
        have hmk : t.mark ≠ .item m.key := by
          rw [q2]; intro hk; exact hem (by injection hk)
        have heb : e ∈ b := by rw [c2]; simp
        rw [if_neg (fun hc => hc.2 (by rw [hp]; exact List.mem_append_right _ heb))]
        rw [if_neg hmk] at k6
        refine ⟨a ++ c, suf, nx, t', k3, k4, ?_, ?_, ?_, h2, ?_, h4, Or.inl ⟨by rw [hp, c2]; simp, ?_, q3⟩⟩
        · rw [hsame e hne hem (fun hk => hab _ hk (key_mem heb))]; exact hc
        · refine seg_congr (fun d hd => ?_) hseg
          have hdb : d ∈ b := by rw [c2]; simp [hd]
          exact hsame d (hzero d (by rw [q1]; simp [hd])) (fun hk => hmab.2 (hk ▸ key_mem hdb)) (fun hk => hab _ hk (key_mem hdb))
        · intro hk; apply h1; rw [c1]
          rw [keys_append] at hk ⊢
          rcases List.mem_append.1 hk with hk | hk
          · exact List.mem_append_left _ hk
          · exact List.mem_append_right _ (by simp [keys] at hk ⊢; exact Or.inr hk)
        · intro d hd
          apply h3; rw [c1]
          rcases List.mem_append.1 hd with hd | hd
          · exact List.mem_append_left _ hd
          · exact List.mem_append_right _ (by simp [hd])
        · rcases k6 with k6 | ⟨_, k6, _⟩
          · rw [k6]; exact q2
          · exfalso
            rw [← k5] at k6
            have := hrep.seg
            rw [k3] at this
            have := (seg_zero this).1 k6
            rw [hp] at this
            have hnil := (List.append_eq_nil_iff.1 this).2
            rw [hnil] at heb; simp at heb
      · -- one behind it
        have hem : e.key ≠ m.key := by
          intro hk; apply h2; rw [c1, hk]; simp [keys]
        have hmk : t.mark ≠ .item m.key := by
          rw [q2]; intro hk; exact hem (by injection hk)
        have hea : e ∈ a := by rw [c2]; simp
        rw [if_neg (fun hc => hc.2 (by rw [hp]; exact List.mem_append_left _ hea))]
        rw [if_neg hmk] at k6
        have hmark : t'.mark = .item e.key := by
          rcases k6 with k6 | ⟨_, k6, _⟩
          · rw [k6]; exact q2
          · exfalso
            rw [← k5] at k6
            have := hrep.seg
            rw [k3] at this
            have := (seg_zero this).1 k6
            rw [hp] at this
            have hnil := (List.append_eq_nil_iff.1 this).1
            rw [hnil] at hea; simp at hea
        have hsub : (c ++ b).Sublist todo :=
          (List.Sublist.append_left (List.sublist_cons_self m b) c).trans (c1 ▸ h4)
        have hnsuf : (keys (c ++ m :: b)).Nodup := by
          have : (c ++ m :: b).Sublist (a ++ m :: b) := by
            rw [c2]
            simp only [List.append_assoc, List.cons_append]
            exact (List.sublist_cons_self _ _).trans (List.sublist_append_right _ _)
          exact hn.sublist (this.map _)
        have hlk : lastKey 0 a = lastKey e.key c := by rw [c2, lastKey_append]; rfl
        have hecb : e.key ∉ keys (c ++ b) := by
          intro hk; apply h2; rw [c1]
          rw [keys_append] at hk ⊢
          rcases List.mem_append.1 hk with hk | hk
          · exact List.mem_append_left _ hk
          · exact List.mem_append_right _ (by simp [keys] at hk ⊢; exact Or.inr hk)
        by_cases hcn : c = []
        · subst hcn
          refine ⟨pre, b, nxm, t', k3, k4, ?_, ?_, h1, hecb, h3, hsub, Or.inl ⟨by rw [hp, c2]; simp, hmark, q3⟩⟩
          · have hlk' : lastKey 0 a = e.key := hlk
            rw [hH _ hem, hlk', relink_prev _ _ _ _ hne hc]
          · refine seg_congr (fun d hd => ?_) g2
            exact hsame d (hzero d (by rw [e1]; simp [hd])) (fun hk => hmab.2 (hk ▸ key_mem hd)) (fun hk => hab _ hk (key_mem hd))
        · refine ⟨pre, c ++ b, nx, t', k3, k4, ?_, ?_, h1, hecb, h3, hsub, Or.inl ⟨by rw [hp, c2]; simp, hmark, q3⟩⟩
          · rw [hH _ hem, relink_ne]
            · exact hc
            · rw [hlk]
              intro hk
              have := lastKey_mem e.key c hcn
              rw [← hk] at this
              exact hecb (by rw [keys_append]; exact List.mem_append_left _ this)
          · have := unlink_seg (H := s'.heap) hnsuf (c1 ▸ hseg) g2 (fun k hk => by rw [hH k hk, hlk, lastKey_ne e.key 0 c hcn])
            rw [if_neg hcn] at this
            exact this
    · -- `e` is no longer registered
      have heq : a ++ m :: b = pre ++ suf := by rw [← e1, q1]
      have henot : e ∉ p.list := by
        rw [q1]; intro hm
        rcases List.mem_append.1 hm with hm | hm
        · exact hnotpre hm
        · exact hnotsuf hm
      rw [if_neg (fun hc => henot hc.1)]
      have hmlist : m ∈ p.list := by rw [e1]; simp
      have hmk : t.mark ≠ .item m.key := by
        rcases q2 with q2 | q2 <;> rw [q2] <;> intro hk <;> cases hk
      rw [if_neg hmk] at k6
      have hmark : t'.mark = .null ∨ t'.mark = .list := by
        rcases k6 with k6 | ⟨k6, _, _⟩
        · rw [k6]; exact q2
        · right; exact k6
      have hem : e.key ≠ m.key := by
        intro hk
        have : m.key ∈ keys (pre ++ suf) := by rw [← heq, keys_append]; simp [keys]
        rw [keys_append, ← hk] at this
        rcases List.mem_append.1 this with hm | hm
        · exact h1 hm
        · exact h2 hm
      have hnothead : suf.head? ≠ some m := by
        intro hh
        have := hw m (by rw [q3, hh])
        rw [hp] at this
        rcases List.mem_append.1 this with hm | hm
        · exact hmab.1 (key_mem hm)
        · exact hmab.2 (key_mem hm)
      have hcases : (∃ c, pre = a ++ m :: c ∧ b = c ++ suf) ∨ (∃ c, c ≠ [] ∧ suf = c ++ m :: b ∧ a = pre ++ c) := by
        rcases List.append_eq_append_iff.1 heq with ⟨c, c1, c2⟩ | ⟨c, c1, c2⟩
        · cases c with
          | nil =>
            exfalso
            simp only [List.nil_append] at c2
            exact hnothead (by rw [← c2]; rfl)
          | cons y c =>
            simp only [List.cons_append, List.cons.injEq] at c2
            left
            exact ⟨c, by rw [c1, c2.1], c2.2⟩
        · cases c with
          | nil =>
            exfalso
            simp only [List.nil_append] at c2
            exact hnothead (by rw [c2]; rfl)
          | cons y c =>
            right
            exact ⟨y :: c, by simp, c2, c1⟩
      have hekey : e.key ∉ keys a := by
        intro hk
        have : e.key ∈ keys (pre ++ suf) := by rw [← heq, keys_append]; exact List.mem_append_left _ hk
        rw [keys_append] at this
        rcases List.mem_append.1 this with hm | hm
        · exact h1 hm
        · exact h2 hm
      rcases hcases with ⟨c, c1, c2⟩ | ⟨c, hcn, c1, c2⟩
      · refine ⟨a ++ c, suf, nx, t', k3, k4, ?_, ?_, ?_, h2, ?_, h4, Or.inr ⟨by rw [hp, c2]; simp, hmark, q3⟩⟩
        · rw [hsame e hne hem hekey]; exact hc
        · refine seg_congr (fun d hd => ?_) hseg
          have hdb : d ∈ b := by rw [c2]; simp [hd]
          exact hsame d (hzero d (by rw [q1]; simp [hd])) (fun hk => hmab.2 (hk ▸ key_mem hdb)) (fun hk => hab _ hk (key_mem hdb))
        · intro hk; apply h1; rw [c1]
          rw [keys_append] at hk ⊢
          rcases List.mem_append.1 hk with hk | hk
          · exact List.mem_append_left _ hk
          · exact List.mem_append_right _ (by simp [keys] at hk ⊢; exact Or.inr hk)
        · intro d hd
          apply h3; rw [c1]
          rcases List.mem_append.1 hd with hd | hd
          · exact List.mem_append_left _ hd
          · exact List.mem_append_right _ (by simp [hd])
      · have hnsuf : (keys (c ++ m :: b)).Nodup := by
          have : (c ++ m :: b).Sublist (a ++ m :: b) := by
            rw [c2]
            simp only [List.append_assoc]
            exact List.sublist_append_right _ _
          exact hn.sublist (this.map _)
        have hlk : lastKey 0 a = lastKey 0 c := by rw [c2, lastKey_append]; exact lastKey_ne _ _ c hcn
        have hecb : e.key ∉ keys (c ++ b) := by
          intro hk; apply h2; rw [c1]
          rw [keys_append] at hk ⊢
          rcases List.mem_append.1 hk with hk | hk
          · exact List.mem_append_left _ hk
          · exact List.mem_append_right _ (by simp [keys] at hk ⊢; exact Or.inr hk)
        refine ⟨pre, c ++ b, nx, t', k3, k4, ?_, ?_, h1, hecb, h3, ?_, Or.inr ⟨by rw [hp, c2]; simp, hmark, ?_⟩⟩
        · rw [hsame e hne hem hekey]; exact hc
        · have := unlink_seg (H := s'.heap) hnsuf (c1 ▸ hseg) g2 (fun k hk => by rw [hH k hk, hlk])
          rw [if_neg hcn] at this
          exact this
        · exact (List.Sublist.append_left (List.sublist_cons_self m b) c).trans (c1 ▸ h4)
        · rw [q3, c1]
          cases c with
          | nil => exact absurd rfl hcn
          | cons y c => rfl


theorem runOps_inCall {e : Entry} {todo : List Entry} : ∀ (ops : List Op) (watch : Option Entry) (s : State) (p : Spec),
    InCall e todo watch s p → careful e watch p ops →
    ∃ s' watch', runOps ops s = some s' ∧ InCall e todo watch' s' (specOps ops p)
  | [], watch, s, p, h, _ => ⟨s, watch, rfl, h⟩
  | .add f x :: ops, watch, s, p, h, hc => by
    have h2 := hc.2
    have hkeep : ¬ (e ∈ p.list ∧ e ∉ (specOp (.add f x) p).list) := by
      intro hh; exact hh.2 (by simp only [specOp]; exact List.mem_cons_of_mem _ hh.1)
    rw [if_neg hkeep] at h2
    exact runOps_inCall ops watch _ _ (inCall_add h f x) h2
  | .remove f x :: ops, watch, s, p, h, hc => by
    obtain ⟨s', h1, h2⟩ := inCall_remove h f x hc.1
    obtain ⟨s'', w, h3, h4⟩ := runOps_inCall ops _ _ _ h2 hc.2
    refine ⟨s'', w, ?_, h4⟩
    rw [runOps, h1]
    exact h3
  | .notify :: ops, watch, s, p, h, hc => by
    have h2 := hc.2
    have hkeep : ¬ (e ∈ p.list ∧ e ∉ (specOp .notify p).list) := fun hh => hh.2 hh.1
    rw [if_neg hkeep] at h2
    exact runOps_inCall ops watch _ _ h h2

/-- What holds between two calls: `n` is the next record to call. -/
structure Between (todo : List Entry) (n : Nat) (s : State) (p : Spec) : Prop where
  rep : Rep s p
  olds : ∀ d ∈ todo, d.key < s.fresh
  once : (keys todo).Nodup
  busy : ∃ t, s.top = some t ∧ t.busy = true
  inv : ∃ pre suf : List Entry, p.list = pre ++ suf ∧ Seg s.heap n suf ∧ (∀ d ∈ pre, d ∉ todo) ∧ suf.Sublist todo

theorem call_step {e : Entry} {rest : List Entry} {n : Nat} {s : State} {p : Spec} (h : Between (e :: rest) n s p) (hmem : e ∈ p.list) :
    n = e.key ∧ e.key ≠ 0 ∧ ∃ t nx, s.top = some t ∧ s.heap e.key = some ⟨e.func, e.arg, nx⟩ ∧
      InCall e rest none { s with top := some { t with mark := .item e.key } } p := by
  obtain ⟨r, holds, honce, ⟨t, ht, hb⟩, pre, suf, hl, hseg, hpre, hsub⟩ := h
  have honce' : e.key ∉ keys rest ∧ (keys rest).Nodup := by
    rw [keys, List.map_cons, List.nodup_cons] at honce; exact honce
  have herest : e ∉ rest := fun hm => honce'.1 (key_mem hm)
  have hesuf : e ∈ suf := by
    have hmem' := hmem
    rw [hl] at hmem'
    rcases List.mem_append.1 hmem' with hm | hm
    · exact absurd (List.mem_cons_self) (hpre e hm)
    · exact hm
  have hsplit : ∃ suf', suf = e :: suf' ∧ suf'.Sublist rest := by
    cases hsub with
    | cons _ h => exact absurd (h.subset hesuf) herest
    | cons_cons _ h => exact ⟨_, rfl, h⟩
  obtain ⟨suf', rfl, hsub'⟩ := hsplit
  obtain ⟨hn, hne, nx, hcell, hseg'⟩ := hseg
  have hnd := r.nodup
  rw [hl, keys_append] at hnd
  refine ⟨hn, hne, t, nx, ht, hcell, ?_, hne, (r.lt e hmem).2, fun d hd => holds d (by simp [hd]), pre, suf', nx, _, rfl, hb, hcell, hseg', ?_, ?_,
    fun d hd hm => hpre d hd (by simp [hm]), hsub', Or.inl ⟨hl, rfl, rfl⟩⟩
  · have := r.seg
    rw [ht] at this
    exact ⟨r.fresh, r.pos, r.live, r.nodup, this⟩
  · intro hk
    rw [List.nodup_append] at hnd
    exact hnd.2.2 _ hk e.key (by simp [keys]) rfl
  · intro hk
    rw [List.nodup_append] at hnd
    have := hnd.2.1
    rw [keys, List.map_cons, List.nodup_cons] at this
    exact this.1 hk

theorem after_call {e : Entry} {rest : List Entry} {w : Option Entry} {s : State} {p : Spec} (h : InCall e rest w s p)
    (herest : e ∉ rest) (honce : (keys rest).Nodup) :
    ∃ t nx, s.top = some t ∧ s.heap e.key = some ⟨e.func, e.arg, nx⟩ ∧
      Between rest nx (if t.mark = .null then { s with heap := set s.heap e.key none } else s) p := by
  obtain ⟨r2, _, hold2, holds2, pre2, suf2, nx2, t2, ht2, hb2, hcell2, hseg2, k1, k2, k3, k4, k5⟩ := h
  refine ⟨t2, nx2, ht2, hcell2, ?_⟩
  by_cases hmk : t2.mark = .null
  · rw [if_pos hmk]
    rcases k5 with ⟨_, q2, _⟩ | ⟨q1, _, _⟩
    · rw [hmk] at q2; cases q2
    · have hkeep : ∀ d ∈ pre2 ++ suf2, set s.heap e.key none d.key = s.heap d.key := by
        intro d hd
        unfold set
        rw [if_neg]
        intro hk
        rcases List.mem_append.1 hd with hd | hd
        · exact k1 (hk ▸ key_mem hd)
        · exact k2 (hk ▸ key_mem hd)
      refine ⟨⟨r2.fresh, r2.pos, ?_, r2.nodup, ?_⟩, holds2, honce, ⟨t2, ht2, hb2⟩, pre2, suf2, q1, ?_, k3, k4⟩
      · intro a ha
        apply r2.live
        simp only [set] at ha
        by_cases hae : a = e.key
        · rw [if_pos hae] at ha; exact absurd rfl ha
        · rw [if_neg hae] at ha; exact ha
      · have := r2.seg
        rw [ht2] at this
        simp only [ht2]
        exact seg_congr (fun d hd => hkeep d (by rw [← q1]; exact hd)) this
      · exact seg_congr (fun d hd => hkeep d (List.mem_append_right _ hd)) hseg2
  · rw [if_neg hmk]
    rcases k5 with ⟨q1, _, _⟩ | ⟨q1, _, _⟩
    · refine ⟨r2, holds2, honce, ⟨t2, ht2, hb2⟩, pre2 ++ [e], suf2, by rw [q1]; simp, hseg2, ?_, k4⟩
      intro d hd
      rcases List.mem_append.1 hd with hd | hd
      · exact k3 d hd
      · simp only [List.mem_singleton] at hd; rw [hd]; exact herest
    · exact ⟨r2, holds2, honce, ⟨t2, ht2, hb2⟩, pre2, suf2, q1, hseg2, k3, k4⟩

theorem skip_step {e : Entry} {rest : List Entry} {n : Nat} {s : State} {p : Spec} (h : Between (e :: rest) n s p) (hmem : e ∉ p.list) :
    Between rest n s p := by
  obtain ⟨r, holds, honce, hb, pre, suf, hl, hseg, hpre, hsub⟩ := h
  have honce' : e.key ∉ keys rest ∧ (keys rest).Nodup := by
    rw [keys, List.map_cons, List.nodup_cons] at honce; exact honce
  have hesuf : e ∉ suf := fun hm => hmem (by rw [hl]; exact List.mem_append_right _ hm)
  have hsub' : suf.Sublist rest := by
    cases hsub with
    | cons _ h => exact h
    | cons_cons _ h => exact absurd List.mem_cons_self hesuf
  exact ⟨r, fun d hd => holds d (by simp [hd]), honce'.2, hb, pre, suf, hl, hseg, fun d hd hm => hpre d hd (by simp [hm]), hsub'⟩

theorem loop_spec (script : List (Nat × Nat) → List Op) : ∀ (todo : List Entry) (fuel n : Nat) (hist : List (Nat × Nat)) (pd : Bool)
    (s : State) (p : Spec), todo.length < fuel → Between todo n s p → carefulCalls script todo p hist →
    ∃ s' pd' t', callLoop script fuel n hist pd s = some (s', (specCalls script todo p hist).2, pd') ∧
      Rep s' (specCalls script todo p hist).1 ∧ s'.top = some t'
  | [], fuel + 1, n, hist, pd, s, p, _, h, _ => by
    obtain ⟨r, _, _, ⟨t, ht, _⟩, pre, suf, _, hseg, _, hsub⟩ := h
    rw [List.eq_nil_of_sublist_nil hsub] at hseg
    have hz : n = 0 := hseg
    exact ⟨s, pd, t, by rw [callLoop, if_pos hz]; rfl, r, ht⟩
  | e :: rest, fuel + 1, n, hist, pd, s, p, hf, h, hc => by
    by_cases hmem : e ∈ p.list
    · rw [carefulCalls, if_pos hmem] at hc
      rw [specCalls, if_pos hmem]
      have honce := h.once
      rw [keys, List.map_cons, List.nodup_cons] at honce
      obtain ⟨rfl, hne, t, nx, ht, hcell, hin⟩ := call_step h hmem
      obtain ⟨s2, w, hrun, hcall⟩ := runOps_inCall (script (hist ++ [(e.func, e.arg)])) none _ _ hin hc.1
      obtain ⟨t2, nx2, ht2, hcell2, hnext⟩ := after_call hcall (fun hm => honce.1 (key_mem hm)) honce.2
      obtain ⟨s', pd', t', g1, g2, g3⟩ := loop_spec script rest fuel nx2 (hist ++ [(e.func, e.arg)]) (pd || t2.mark = .list) _ _
        (by simp at hf; omega) hnext hc.2
      refine ⟨s', pd', t', ?_, g2, g3⟩
      rw [callLoop, if_neg hne, ht, hcell]
      simp only
      rw [hrun]
      simp only
      rw [ht2] at g1
      rw [ht2, hcell2]
      exact g1
    · rw [carefulCalls, if_neg hmem] at hc
      rw [specCalls, if_neg hmem]
      exact loop_spec script rest (fuel + 1) n hist pd s p (by simp at hf; omega) (skip_step h hmem) hc

/-- The record of the one being called leads to one that was released. -/
structure Doomed (e : Entry) (s : State) (p : Spec) : Prop where
  rep : Rep s p
  ne : e.key ≠ 0
  old : e.key < s.fresh
  gone : e.key ∉ keys p.list
  lead : ∃ nx t, s.top = some t ∧ t.busy = true ∧ (t.mark = .null ∨ t.mark = .list) ∧
    s.heap e.key = some ⟨e.func, e.arg, nx⟩ ∧ nx ≠ 0 ∧ nx < s.fresh ∧ s.heap nx = none

theorem doomed_add {e : Entry} {s : State} {p : Spec} (h : Doomed e s p) (f x : Nat) : Doomed e (add f x s) (specOp (.add f x) p) := by
  obtain ⟨r, hne, hold, hgone, nx, t, ht, hb, hm, hc, h0, hlt, hnone⟩ := h
  have hkeep : ∀ k, k < s.fresh → (add f x s).heap k = s.heap k := by
    intro k hk
    simp only [add, set]
    rw [if_neg (by omega)]
  refine ⟨add_rep r f x, hne, by simp [add]; omega, ?_, nx, { t with next := s.fresh }, by simp [add, ht], hb, hm, ?_, h0, by simp [add]; omega, ?_⟩
  · simp only [specOp, keys, List.map_cons, List.mem_cons, not_or]
    exact ⟨by rw [← r.fresh]; omega, hgone⟩
  · rw [hkeep _ hold]; exact hc
  · rw [hkeep _ hlt]; exact hnone

theorem relink_none (h : Nat → Option Cell) (prev nx k : Nat) (hk : h k = none) : relink h prev nx k = none := by
  unfold relink
  by_cases h0 : prev = 0
  · rw [if_pos h0]; exact hk
  · rw [if_neg h0]
    unfold set
    by_cases h1 : k = prev
    · rw [if_pos h1, ← h1, hk]; rfl
    · rw [if_neg h1]; exact hk

theorem doomed_remove {e : Entry} {s : State} {p : Spec} (h : Doomed e s p) (f x : Nat) :
    ∃ s', remove f x s = some s' ∧ Doomed e s' (specOp (.remove f x) p) := by
  obtain ⟨r, hne, hold, hgone, nx, t, ht, hb, hmark, hc, h0, hlt, hnone⟩ := h
  rcases eraseP_split f x p.list with ⟨e1, e2⟩ | ⟨a, m, b, e1, e2, e3, e4⟩
  · have hp : specOp (.remove f x) p = p := by simp only [specOp]; rw [e1]
    have hrem := remove_none r f x e2
    rw [ht] at hrem
    simp only at hrem
    obtain ⟨k1, k2, t', k3, k4, k5, k6⟩ := settle_keeps t.mark s t ht hb
    rw [hp]
    refine ⟨_, hrem, settle_rep r _, hne, by rw [k2]; exact hold, hgone, nx, t', k3, k4, ?_, by rw [k1]; exact hc, h0, by rw [k2]; exact hlt,
      by rw [k1]; exact hnone⟩
    rcases k6 with k6 | ⟨k6, _⟩
    · rw [k6]; exact hmark
    · right; exact k6
  · obtain ⟨nxm, g1, g2, g3⟩ := remove_at r t ht f x a b m e1 e2 e3
    obtain ⟨s', hs', hrep⟩ := remove_rep r f x
    rw [g3] at hs'
    have hs'' := Option.some.inj hs'
    obtain ⟨k1, k2, t', k3, k4, k5, k6⟩ := settle_keeps t.mark
      { s with
          heap := if t.mark = .item m.key then relink s.heap (lastKey 0 a) nxm else set (relink s.heap (lastKey 0 a) nxm) m.key none
          top := some { busy := t.busy, mark := if t.mark = .item m.key then .null else t.mark,
                        next := if a = [] then nxm else t.next } } _ rfl hb
    rw [hs''] at k1 k2 k3
    simp only at k1 k2 k5 k6
    have hmk : t.mark ≠ .item m.key := by
      rcases hmark with q2 | q2 <;> rw [q2] <;> intro hk <;> cases hk
    rw [if_neg hmk] at k1 k6
    have hem : e.key ≠ m.key := by
      intro hk; apply hgone; rw [e1, hk]; simp [keys]
    refine ⟨s', by rw [g3, hs'], hrep, hne, by rw [k2]; exact hold, ?_, nx, t', k3, k4, ?_, ?_, h0, by rw [k2]; exact hlt, ?_⟩
    · simp only [specOp]
      rw [e4]
      intro hk
      apply hgone
      rw [e1, keys_append]
      rw [keys_append] at hk
      rcases List.mem_append.1 hk with hk | hk
      · exact List.mem_append_left _ hk
      · exact List.mem_append_right _ (by simp [keys] at hk ⊢; exact Or.inr hk)
    · rcases k6 with k6 | ⟨k6, _⟩
      · rw [k6]; exact hmark
      · right; exact k6
    · rw [k1]
      unfold set
      rw [if_neg hem, relink_ne]
      · exact hc
      · intro hk
        rcases lastKey_cases a with hl | hl
        · rw [hl] at hk; exact hne hk
        · rw [← hk] at hl
          apply hgone; rw [e1, keys_append]; exact List.mem_append_left _ hl
    · rw [k1]
      unfold set
      by_cases hh : nx = m.key
      · rw [if_pos hh]
      · rw [if_neg hh]; exact relink_none _ _ _ _ hnone

theorem runOps_doomed {e : Entry} : ∀ (ops : List Op) (s : State) (p : Spec), Doomed e s p →
    ∃ s', runOps ops s = some s' ∧ Doomed e s' (specOps ops p)
  | [], s, _, h => ⟨s, rfl, h⟩
  | .add f x :: ops, s, p, h => runOps_doomed ops _ _ (doomed_add h f x)
  | .remove f x :: ops, s, p, h => by
    obtain ⟨s', h1, h2⟩ := doomed_remove h f x
    obtain ⟨s'', h3, h4⟩ := runOps_doomed ops _ _ h2
    exact ⟨s'', by rw [runOps, h1]; exact h3, h4⟩
  | .notify :: ops, s, p, h => runOps_doomed ops _ _ h

/-- Unregistering the one behind dooms. -/
theorem inCall_doomed {e : Entry} {todo : List Entry} {watch : Option Entry} {s : State} {p : Spec} (h : InCall e todo watch s p)
    (f x : Nat) (d : Entry) (hwd : watch = some d) (hw : d ∉ (specOp (.remove f x) p).list) :
    ∃ s', remove f x s = some s' ∧ Doomed e s' (specOp (.remove f x) p) := by
  obtain ⟨r, hne, hold, holds, pre, suf, nx, t, ht, hb, hc, hseg, h1, h2, h3, h4, h5⟩ := h
  rcases h5 with ⟨_, _, q3⟩ | ⟨q1, q2, q3⟩
  · rw [hwd] at q3; cases q3
  rw [hwd] at q3
  cases suf with
  | nil => cases q3
  | cons d' suf' =>
    simp only [List.head?_cons, Option.some.injEq] at q3
    subst q3
    obtain ⟨hnx, hd0, nxd, hdc, hdseg⟩ := hseg
    have hdl : d ∈ p.list := by rw [q1]; simp
    have hdlt := (r.lt d hdl).2
    have hgone0 : e.key ∉ keys p.list := by
      rw [q1, keys_append]; intro hk
      rcases List.mem_append.1 hk with hk | hk
      · exact h1 hk
      · exact h2 hk
    rcases eraseP_split f x p.list with ⟨e1, e2⟩ | ⟨a, m, b, e1, e2, e3, e4⟩
    · exfalso
      apply hw
      simp only [specOp]; rw [e1]; exact hdl
    · have hdm : d = m := by
        have hd2 := hdl
        rw [e1] at hd2
        have hw' : d ∉ a ++ b := by
          simp only [specOp] at hw; rw [e4] at hw; exact hw
        simp only [List.mem_append, List.mem_cons] at hd2 hw'
        rcases hd2 with h | h | h
        · exact absurd (Or.inl h) hw'
        · exact h
        · exact absurd (Or.inr h) hw'
      subst hdm
      obtain ⟨nxm, g1, g2, g3⟩ := remove_at r t ht f x a b d e1 e2 e3
      obtain ⟨s', hs', hrep⟩ := remove_rep r f x
      rw [g3] at hs'
      have hs'' := Option.some.inj hs'
      obtain ⟨k1, k2, t', k3, k4, k5, k6⟩ := settle_keeps t.mark
        { s with
            heap := if t.mark = .item d.key then relink s.heap (lastKey 0 a) nxm else set (relink s.heap (lastKey 0 a) nxm) d.key none
            top := some { busy := t.busy, mark := if t.mark = .item d.key then .null else t.mark,
                          next := if a = [] then nxm else t.next } } _ rfl hb
      rw [hs''] at k1 k2 k3
      simp only at k1 k2 k5 k6
      have hmk : t.mark ≠ .item d.key := by
        rcases q2 with q2 | q2 <;> rw [q2] <;> intro hk <;> cases hk
      rw [if_neg hmk] at k1 k6
      have hem : e.key ≠ d.key := by
        intro hk; apply hgone0; rw [hk]; exact key_mem hdl
      refine ⟨s', by rw [g3, hs'], hrep, hne, by rw [k2]; exact hold, ?_, nx, t', k3, k4, ?_, ?_, by rw [hnx]; exact hd0, by rw [k2, hnx]; exact hdlt, ?_⟩
      · simp only [specOp]
        rw [e4]
        intro hk
        apply hgone0
        rw [e1, keys_append]
        rw [keys_append] at hk
        rcases List.mem_append.1 hk with hk | hk
        · exact List.mem_append_left _ hk
        · exact List.mem_append_right _ (by simp [keys] at hk ⊢; exact Or.inr hk)
      · rcases k6 with k6 | ⟨k6, _⟩
        · rw [k6]; exact q2
        · right; exact k6
      · rw [k1]
        unfold set
        rw [if_neg hem, relink_ne]
        · exact hc
        · intro hk
          rcases lastKey_cases a with hl | hl
          · rw [hl] at hk; exact hne hk
          · rw [← hk] at hl
            apply hgone0; rw [e1, keys_append]; exact List.mem_append_left _ hl
      · rw [k1, hnx]
        unfold set
        rw [if_pos rfl]

theorem inCall_watch {e : Entry} {todo : List Entry} {watch : Option Entry} {s : State} {p : Spec} (h : InCall e todo watch s p) (d : Entry)
    (hd : watch = some d) : d ∈ p.list := by
  obtain ⟨r, hne, hold, holds, pre, suf, nx, t, ht, hb, hc, hseg, h1, h2, h3, h4, h5⟩ := h
  rcases h5 with ⟨_, _, q3⟩ | ⟨q1, q2, q3⟩
  · rw [hd] at q3; cases q3
  · rw [hd] at q3
    rw [q1]
    exact List.mem_append_right _ (List.mem_of_mem_head? q3.symm)

theorem runOps_careless {e : Entry} {todo : List Entry} : ∀ (ops : List Op) (watch : Option Entry) (s : State) (p : Spec),
    InCall e todo watch s p → ¬ careful e watch p ops →
    ∃ s', runOps ops s = some s' ∧ Doomed e s' (specOps ops p)
  | [], _, _, _, _, hc => absurd trivial hc
  | .add f x :: ops, watch, s, p, h, hc => by
    have hkeep : ¬ (e ∈ p.list ∧ e ∉ (specOp (.add f x) p).list) := by
      intro hh; exact hh.2 (by simp only [specOp]; exact List.mem_cons_of_mem _ hh.1)
    refine runOps_careless ops watch _ _ (inCall_add h f x) fun hc' => hc ⟨?_, ?_⟩
    · intro d hd
      simp only [specOp]
      exact List.mem_cons_of_mem _ (inCall_watch h d hd)
    · rw [if_neg hkeep]; exact hc'
  | .remove f x :: ops, watch, s, p, h, hc => by
    by_cases hw : ∀ d, watch = some d → d ∈ (specOp (.remove f x) p).list
    · obtain ⟨s', h1, h2⟩ := inCall_remove h f x hw
      obtain ⟨s'', h3, h4⟩ := runOps_careless ops _ _ _ h2 fun hc' => hc ⟨hw, hc'⟩
      exact ⟨s'', by rw [runOps, h1]; exact h3, h4⟩
    · have : ∃ d, watch = some d ∧ d ∉ (specOp (.remove f x) p).list := by
        cases watch with
        | none => exact absurd (fun d hd => by cases hd) hw
        | some d => exact ⟨d, rfl, fun hm => hw fun d' hd => by cases hd; exact hm⟩
      obtain ⟨d, hd, hnot⟩ := this
      obtain ⟨s', h1, h2⟩ := inCall_doomed h f x d hd hnot
      obtain ⟨s'', h3, h4⟩ := runOps_doomed ops _ _ h2
      exact ⟨s'', by rw [runOps, h1]; exact h3, h4⟩
  | .notify :: ops, watch, s, p, h, hc => by
    have hkeep : ¬ (e ∈ p.list ∧ e ∉ (specOp .notify p).list) := fun hh => hh.2 hh.1
    refine runOps_careless ops watch _ _ h fun hc' => hc ⟨?_, ?_⟩
    · intro d hd; exact inCall_watch h d hd
    · rw [if_neg hkeep]; exact hc'


theorem loop_careless (script : List (Nat × Nat) → List Op) : ∀ (todo : List Entry) (fuel n : Nat) (hist : List (Nat × Nat)) (pd : Bool)
    (s : State) (p : Spec), todo.length < fuel → Between todo n s p → ¬ carefulCalls script todo p hist →
    callLoop script fuel n hist pd s = none
  | [], _, _, _, _, _, _, _, _, hc => absurd trivial hc
  | e :: rest, fuel + 1, n, hist, pd, s, p, hf, h, hc => by
    by_cases hmem : e ∈ p.list
    · rw [carefulCalls, if_pos hmem] at hc
      have honce := h.once
      rw [keys, List.map_cons, List.nodup_cons] at honce
      obtain ⟨rfl, hne, t, nx, ht, hcell, hin⟩ := call_step h hmem
      rw [callLoop, if_neg hne, ht, hcell]
      simp only
      by_cases hc1 : careful e none p (script (hist ++ [(e.func, e.arg)]))
      · obtain ⟨s2, w, hrun, hcall⟩ := runOps_inCall (script (hist ++ [(e.func, e.arg)])) none _ _ hin hc1
        obtain ⟨t2, nx2, ht2, hcell2, hnext⟩ := after_call hcall (fun hm => honce.1 (key_mem hm)) honce.2
        have g1 := loop_careless script rest fuel nx2 (hist ++ [(e.func, e.arg)]) (pd || t2.mark = .list) _ _
          (by simp at hf; omega) hnext (fun hc2 => hc ⟨hc1, hc2⟩)
        rw [hrun]
        simp only
        rw [ht2] at g1
        rw [ht2, hcell2]
        exact g1
      · obtain ⟨s2, hrun, hdoom⟩ := runOps_careless (script (hist ++ [(e.func, e.arg)])) none _ _ hin hc1
        obtain ⟨r2, _, _, _, nx2, t2, ht2, hb2, hmark2, hcell2, h0, hlt, hnone⟩ := hdoom
        rw [hrun]
        simp only
        rw [ht2, hcell2]
        simp only
        cases fuel with
        | zero => rfl
        | succ k =>
          rw [callLoop, if_neg h0]
          have hh : (if t2.mark = .null then { s2 with heap := set s2.heap e.key none, top := some t2 } else s2 : State).heap nx2 = none := by
            by_cases hmk : t2.mark = .null
            · rw [if_pos hmk]
              simp only [set]
              by_cases hx : nx2 = e.key
              · rw [if_pos hx]
              · rw [if_neg hx]; exact hnone
            · rw [if_neg hmk]; exact hnone
          generalize (if t2.mark = .null then { s2 with heap := set s2.heap e.key none, top := some t2 } else s2 : State) = S at hh ⊢
          rw [hh]
          cases S.top <;> rfl
    · rw [carefulCalls, if_neg hmem] at hc
      exact loop_careless script rest (fuel + 1) n hist pd s p (by simp at hf; omega) (skip_step h hmem) hc

end Verif.Notify
