import Verif.Core.Hibernate
/-!
Property C245: memory is freed level by level.
-/
namespace Verif.Hibernate

/-- All of `n` functions were called once, in order, at this level. -/
def IsRound (n : Nat) (level : Int) (calls : List Call) : Prop :=
  calls.map Call.who = List.range n ∧ ∀ c ∈ calls, c.level = level

/-- The answers are those of the functions, called one after the other. -/
inductive Runs {S : Type} (fs : List (Collector S)) : S → List Call → S → Prop
  | done (s : S) : Runs fs s [] s
  | call (s s' : S) (f : Collector S) (c : Call) (r : List Call) (hf : fs[c.who]? = some f) (ha : (f s c.level).2 = c.answer)
      (h : Runs fs (f s c.level).1 r s') : Runs fs s (c :: r) s'

/-- The rounds from a level on: the last one is that in which a function freed something (answer -1), or in which none asked
for a higher level; otherwise the next level is the least higher one asked for. -/
inductive Protocol (n : Nat) : Int → List Call → Bool → Prop
  | found (level : Int) (calls : List Call) (h : IsRound n level calls) (hf : ∃ c ∈ calls, c.answer = -1) : Protocol n level calls true
  | nothing (level : Int) (calls : List Call) (h : IsRound n level calls) (hf : ∀ c ∈ calls, c.answer ≠ -1)
      (hn : ∀ c ∈ calls, ¬ (level < c.answer ∧ c.answer < 2147483647)) : Protocol n level calls false
  | next (level next : Int) (calls rest : List Call) (b : Bool) (h : IsRound n level calls) (hf : ∀ c ∈ calls, c.answer ≠ -1)
      (hl : level < next) (hm : ∃ c ∈ calls, c.answer = next) (hleast : ∀ c ∈ calls, level < c.answer → next ≤ c.answer)
      (hr : Protocol n next rest b) : Protocol n level (calls ++ rest) b

/-! ### Helpers -/

theorem Runs.append {S : Type} {fs : List (Collector S)} {s s' s'' : S} {a b : List Call} (h : Runs fs s a s') (h' : Runs fs s' b s'') :
    Runs fs s (a ++ b) s'' := by
  induction h with
  | done s => exact h'
  | call s s1 f c r hf ha _ ih => exact .call s s'' f c _ hf ha (ih h')

theorem range_drop (n k : Nat) (h : k < n) : (List.range n).drop k = k :: (List.range n).drop (k + 1) := by
  rw [List.drop_eq_getElem_cons (by rw [List.length_range]; exact h), List.getElem_range]

/-- A round from function `k` on. -/
theorem round_spec {S : Type} (fs : List (Collector S)) (level : Int) : ∀ (r : List (Collector S)) (k : Nat) (s : S) (ch : Bool) (nl : Int),
    r = fs.drop k → k ≤ fs.length → nl ≤ intMax → (nl = intMax ∨ level < nl) →
    let y := round level r k s ch nl
    y.calls.map Call.who = (List.range fs.length).drop k ∧ (∀ c ∈ y.calls, c.level = level) ∧ Runs fs s y.calls y.state ∧
      (y.changed = true ↔ ch = true ∨ ∃ c ∈ y.calls, c.answer = -1) ∧
      (y.next ≤ nl) ∧ (y.next = nl ∨ (level < y.next ∧ ∃ c ∈ y.calls, c.answer = y.next)) ∧
      (∀ c ∈ y.calls, c.answer ≠ -1 → level < c.answer → y.next ≤ c.answer) := by
  intro r
  induction r with
  | nil =>
    intro k s ch nl hr hk hnl hlv
    have hk' : k = fs.length := by
      have := congrArg List.length hr
      rw [List.length_drop, List.length_nil] at this
      omega
    refine ⟨?_, fun c h => (by cases h), .done s, ?_, ?_, .inl rfl, fun c h => (by cases h)⟩
    · show [] = _
      rw [List.drop_eq_nil_of_le (by rw [List.length_range]; omega)]
    · constructor
      · exact fun h => .inl h
      · rintro (h | ⟨c, h, _⟩)
        · exact h
        · cases h
    · exact Int.le_refl _
  | cons f r ih =>
    intro k s ch nl hr hk hnl hlv
    have hk' : k < fs.length := by
      have := congrArg List.length hr
      rw [List.length_drop, List.length_cons] at this
      omega
    have hf : fs[k]? = some f := by
      have : (fs.drop k)[0]? = some f := by rw [← hr]; rfl
      rw [List.getElem?_drop] at this
      exact this
    have hr' : r = fs.drop (k + 1) := by
      rw [List.drop_eq_getElem_cons hk'] at hr
      exact (List.cons.inj hr).2
    have key : ∀ (ch' : Bool) (nl' : Int), nl' ≤ nl → (nl' = intMax ∨ level < nl') →
        (ch' = true ↔ ch = true ∨ (f s level).2 = -1) →
        (nl' = nl ∨ (level < nl' ∧ (f s level).2 = nl')) →
        ((f s level).2 ≠ -1 → level < (f s level).2 → nl' ≤ (f s level).2) →
        let y0 := round level r (k + 1) (f s level).1 ch' nl'
        let y : Round S := ⟨y0.state, y0.changed, y0.next, ⟨k, level, (f s level).2⟩ :: y0.calls⟩
        y.calls.map Call.who = (List.range fs.length).drop k ∧ (∀ c ∈ y.calls, c.level = level) ∧ Runs fs s y.calls y.state ∧
          (y.changed = true ↔ ch = true ∨ ∃ c ∈ y.calls, c.answer = -1) ∧
          (y.next ≤ nl) ∧ (y.next = nl ∨ (level < y.next ∧ ∃ c ∈ y.calls, c.answer = y.next)) ∧
          (∀ c ∈ y.calls, c.answer ≠ -1 → level < c.answer → y.next ≤ c.answer) := by
      intro ch' nl' hle hlv' hch hnx hls
      obtain ⟨i1, i2, i3, i4, i5, i6, i7⟩ := ih (k + 1) (f s level).1 ch' nl' hr' hk' (Int.le_trans hle hnl) hlv'
      refine ⟨?_, ?_, ?_, ?_, ?_, ?_, ?_⟩
      · rw [List.map_cons, i1, range_drop _ _ hk']
      · intro c hc
        rcases List.mem_cons.1 hc with he | hc
        · rw [he]
        · exact i2 c hc
      · exact .call s _ f ⟨k, level, (f s level).2⟩ _ hf rfl i3
      · show _ = true ↔ _
        rw [i4, hch]
        constructor
        · rintro ((h | h) | ⟨c, h, ha⟩)
          · exact .inl h
          · exact .inr ⟨_, List.mem_cons_self, h⟩
          · exact .inr ⟨c, List.mem_cons_of_mem _ h, ha⟩
        · rintro (h | ⟨c, h, ha⟩)
          · exact .inl (.inl h)
          · rcases List.mem_cons.1 h with he | h
            · rw [he] at ha; exact .inl (.inr ha)
            · exact .inr ⟨c, h, ha⟩
      · exact Int.le_trans i5 hle
      · rcases i6 with h | ⟨h, c, hc, ha⟩
        · rcases hnx with hx | ⟨hx, hv⟩
          · exact .inl (h.trans hx)
          · refine .inr ⟨?_, _, List.mem_cons_self, ?_⟩
            · show level < (round level r (k + 1) (f s level).1 ch' nl').next
              rw [h]; exact hx
            · exact hv.trans h.symm
        · exact .inr ⟨h, c, List.mem_cons_of_mem _ hc, ha⟩
      · intro c hc h1 h2
        rcases List.mem_cons.1 hc with he | hc
        · rw [he] at h1 h2 ⊢
          exact Int.le_trans i5 (hls h1 h2)
        · exact i7 c hc h1 h2
    simp only [round]
    by_cases h1 : (f s level).2 = -1
    · rw [if_pos h1]
      exact key true nl (Int.le_refl _) hlv (by simp [h1]) (.inl rfl) (fun h => absurd h1 h)
    · rw [if_neg h1]
      by_cases h2 : nl > (f s level).2 ∧ (f s level).2 > level
      · rw [if_pos h2]
        exact key ch _ (by omega) (.inr h2.2) (by simp [h1]) (.inr ⟨h2.2, rfl⟩) (fun _ _ => Int.le_refl _)
      · rw [if_neg h2]
        exact key ch nl (Int.le_refl _) hlv (by simp [h1]) (.inl rfl) (fun _ h => by omega)

theorem levels_spec {S : Type} (fs : List (Collector S)) : ∀ (fuel : Nat) (level : Int) (s : S), level ≤ intMax → intMax - level < fuel →
    ∃ s' b calls, levels fs fuel level s = some (s', b, calls) ∧ Protocol fs.length level calls b ∧ Runs fs s calls s' := by
  intro fuel
  induction fuel with
  | zero => intro level s h1 h2; omega
  | succ fuel ih =>
    intro level s h1 h2
    obtain ⟨i1, i2, i3, i4, i5, i6, i7⟩ := round_spec fs level fs 0 s false intMax rfl (Nat.zero_le _) (Int.le_refl _) (.inl rfl)
    rw [levels]
    generalize round level fs 0 s false intMax = y at *
    have hround : IsRound fs.length level y.calls := ⟨i1, i2⟩
    by_cases hc : y.changed = true
    · have hp : Protocol fs.length level y.calls true := .found level y.calls hround (by simpa using i4.1 hc)
      refine ⟨y.state, true, y.calls, ?_, hp, i3⟩
      split
      · rw [hc]
      · rw [hc]
    · have hno : ∀ c ∈ y.calls, c.answer ≠ -1 := fun c hm ha => hc (i4.2 (.inr ⟨c, hm, ha⟩))
      have hb : y.changed = false := by simpa using hc
      by_cases hn : y.next = intMax
      · refine ⟨y.state, false, y.calls, by rw [if_pos hn, hb], .nothing level y.calls hround hno ?_, i3⟩
        rintro c hm ⟨h3, h4⟩
        have := i7 c hm (hno c hm) h3
        rw [hn] at this
        unfold intMax at this
        omega
      · rcases i6 with h | ⟨h, hex⟩
        · exact absurd h hn
        obtain ⟨s', b, calls, e, hp, hrun⟩ := ih y.next y.state i5 (by omega)
        refine ⟨s', b, y.calls ++ calls, ?_, ?_, i3.append hrun⟩
        · rw [if_neg hn, if_neg hc, e]; rfl
        · refine .next level y.next y.calls calls b hround hno h hex ?_ hp
          intro c hm hl
          exact i7 c hm (hno c hm) hl

/-! ### C245 -/

/-- C245: freeing memory always ends; the functions are called in rounds as described, from level 0 on; when none of them
freed anything, what is unused is cleaned up, and the result tells whether anything was freed. -/
theorem C245_rounds {S : Type} (fs : List (Collector S)) (cleanup : S → S × Bool) (s : S) :
    ∃ s' b calls, Protocol fs.length 0 calls b ∧ Runs fs s calls s' ∧
      hibernate false fs cleanup s = some (if b then (s', true, calls) else ((cleanup s').1, (cleanup s').2, calls)) := by
  obtain ⟨s', b, calls, e, hp, hr⟩ := levels_spec fs 2147483648 0 s (by decide) (by decide)
  refine ⟨s', b, calls, hp, hr, ?_⟩
  unfold hibernate
  rw [if_neg (by decide), e]
  cases b <;> rfl

/-- C245: a call while memory is being freed does nothing. -/
theorem C245_nested {S : Type} (fs : List (Collector S)) (cleanup : S → S × Bool) (s : S) :
    hibernate true fs cleanup s = some (s, false, []) := rfl

theorem protocol_ge {n : Nat} {level : Int} {calls : List Call} {b : Bool} (h : Protocol n level calls b) : ∀ c ∈ calls, level ≤ c.level := by
  induction h with
  | found level calls h _ => exact fun c hc => Int.le_of_eq (h.2 c hc).symm
  | nothing level calls h _ _ => exact fun c hc => Int.le_of_eq (h.2 c hc).symm
  | next level next calls rest b h _ hl _ _ _ ih =>
    intro c hc
    rcases List.mem_append.1 hc with hc | hc
    · exact Int.le_of_eq (h.2 c hc).symm
    · have := ih c hc
      omega

/-- C245: milder levels come first, and once a function freed something no one is asked at a higher level. -/
theorem C245_mildest_first {S : Type} (fs : List (Collector S)) (cleanup : S → S × Bool) (s s' : S) (b : Bool) (calls : List Call)
    (h : hibernate false fs cleanup s = some (s', b, calls)) :
    calls.Pairwise (fun c d => c.level ≤ d.level ∧ (c.answer = -1 → d.level = c.level)) := by
  obtain ⟨s1, b1, calls1, hp, hruns, e⟩ := C245_rounds fs cleanup s
  clear hruns
  rw [e] at h
  have hc : calls1 = calls := by
    cases b1
    · cases h; rfl
    · cases h; rfl
  rw [← hc]
  clear hc h e
  generalize (0 : Int) = level at hp
  have flat : ∀ (level : Int) (l : List Call), (∀ c ∈ l, c.level = level) →
      l.Pairwise (fun c d => c.level ≤ d.level ∧ (c.answer = -1 → d.level = c.level)) := by
    intro level l hl
    induction l with
    | nil => exact .nil
    | cons c l ih =>
      refine .cons (fun d hd => ?_) (ih fun c hc => hl c (List.mem_cons_of_mem _ hc))
      rw [hl c List.mem_cons_self, hl d (List.mem_cons_of_mem _ hd)]
      exact ⟨Int.le_refl _, fun _ => rfl⟩
  induction hp with
  | found level calls h _ => exact flat level calls h.2
  | nothing level calls h _ _ => exact flat level calls h.2
  | next level next calls rest b h hf hl _ _ hr ih =>
    refine List.pairwise_append.2 ⟨flat level calls h.2, ih, fun c hc d hd => ⟨?_, fun ha => absurd ha (hf c hc)⟩⟩
    have := protocol_ge hr d hd
    rw [h.2 c hc]
    omega

/-- C245: when a function freed something the result says so. -/
theorem C245_reported {S : Type} (fs : List (Collector S)) (cleanup : S → S × Bool) (s s' : S) (b : Bool) (calls : List Call)
    (h : hibernate false fs cleanup s = some (s', b, calls)) (c : Call) (hc : c ∈ calls) (ha : c.answer = -1) : b = true := by
  obtain ⟨s1, b1, calls1, hp, _, e⟩ := C245_rounds fs cleanup s
  rw [e] at h
  have key : ∀ (level : Int) (l : List Call) (b1 : Bool), Protocol fs.length level l b1 → c ∈ l → b1 = true := by
    intro level l b1 hp
    induction hp with
    | found => exact fun _ => rfl
    | nothing level calls h hf _ => exact fun hm => absurd ha (hf c hm)
    | next level next calls rest b h hf _ _ _ _ ih =>
      intro hm
      rcases List.mem_append.1 hm with hm | hm
      · exact absurd ha (hf c hm)
      · exact ih hm
  cases b1 with
  | true => cases h; rfl
  | false =>
    cases h
    have := key 0 _ false hp hc
    cases this

/-- Two caches that are dropped at level 100 and 200, a list of those still filled being the state. -/
def someCaches : List (Collector (List Int)) :=
  [fun s l => if 200 ∈ s then if l < 200 then (s, 200) else (s.erase 200, -1) else (s, 0),
   fun s l => if 100 ∈ s then if l < 100 then (s, 100) else (s.erase 100, -1) else (s, 0)]

-- The cache of level 100 is dropped, the other is left.
example : levels someCaches 4 0 [100, 200] = some ([200], true, [⟨0, 0, 200⟩, ⟨1, 0, 100⟩, ⟨0, 100, 200⟩, ⟨1, 100, -1⟩]) := by decide
-- Then the other one, then nothing is left.
example : levels someCaches 4 0 [200] = some ([], true, [⟨0, 0, 200⟩, ⟨1, 0, 0⟩, ⟨0, 200, -1⟩, ⟨1, 200, 0⟩]) ∧
    levels someCaches 4 0 [] = some ([], false, [⟨0, 0, 0⟩, ⟨1, 0, 0⟩]) := by decide

end Verif.Hibernate
