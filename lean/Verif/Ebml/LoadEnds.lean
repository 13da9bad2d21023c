import Verif.Ebml.ScanProgress
/-! Loading ends: every step of the loop over the children moves forward. -/
set_option linter.unusedSimpArgs false
namespace Verif.Ebml.Scan

/-- The outermost context is unlimited. -/
def Open (ctx : List PCtx) : Prop := ∃ pre c, ctx = pre ++ [c] ∧ c.endPos = -1

theorem Open.cons {ctx : List PCtx} (h : Open ctx) (c : PCtx) : Open (c :: ctx) := by
  obtain ⟨pre, d, rfl, hd⟩ := h
  exact ⟨c :: pre, d, rfl, hd⟩

theorem Open.last {ctx : List PCtx} (h : Open ctx) : ∀ c, ctx.getLast? = some c → c.endPos = -1 := by
  obtain ⟨pre, d, rfl, hd⟩ := h
  intro c hc
  simp at hc
  rw [← hc]; exact hd

theorem addChild_len (k : Nat) (f g : Found) (s s' : LSt) (n : Node) (h : addChild k f g s n = some s') :
    s'.data.length ≤ s.data.length := by
  cases n with
  | crc b v =>
    simp only [addChild] at h
    split at h
    · simp only [takeCrc] at h
      split at h
      · split at h
        · split at h
          · cases h
          · split at h
            · injection h with h; subst h; exact Nat.le_refl _
            · cases h
        · split at h
          · injection h with h; subst h; simp only [List.length_take]; omega
          · injection h with h; subst h; exact Nat.le_refl _
      · injection h with h; subst h; exact Nat.le_refl _
    · injection h with h; subst h; exact Nat.le_refl _
  | leaf b v => injection h with h; subst h; exact Nat.le_refl _
  | dummy b v => injection h with h; subst h; exact Nat.le_refl _
  | master b c v => injection h with h; subst h; exact Nat.le_refl _

theorem readFlat_err (S : Schema) (a : Bool) (env : Env) (data : Bytes) (f : Found) (q p : Nat) (ha : Ahead S a data.length q f)
    (h : readFlat S env data f = .err p) : q + 1 ≤ p := by
  have h1 := ha.posData
  have h2 := ha.lt
  unfold readFlat at h
  split at h
  · cases h
  · split at h
    · injection h with h; omega
    · cases h
  · split at h
    · injection h with h; omega
    · cases h
  · split at h
    · injection h with h; omega
    · split at h
      · cases h
      · injection h with h; omega

theorem finish_ok (S : Schema) (f : Found) (s : LSt) (pos : Nat) (n : Node) (p : Nat) (h : finish S f s pos = .ok n p) : p = pos := by
  simp only [finish] at h
  injection h with _ h
  exact h.symm

/-- A result of `next` comes from the end or from the element found. -/
theorem next_ok (S : Schema) (a : Bool) (f : Found) (s : LSt) (data : Bytes) (start : Nat) (ctx : List PCtx) (ho : Open ctx)
    (cont : Found → RRes) (n : Node) (p : Nat)
    (h : next S f s (findNext S a (data.length + 1) data start ctx 0) cont = .ok n p) :
    start ≤ p ∨ ∃ g, Ahead S a data.length start g ∧ cont g = .ok n p := by
  generalize hf : findNext S a (data.length + 1) data start ctx 0 = o at h
  cases o with
  | bad => simp [next] at h
  | fuelOut => simp [next] at h
  | none lv p' =>
    simp only [next] at h
    split at h
    · cases h
    · have := finish_ok S f s _ n p h
      have := findNext_none S a _ data start ctx 0 lv p' hf
      left; omega
  | found g =>
    have hg := findNext_ahead S a _ data start ctx 0 g ho.last hf
    have g1 := hg.pos
    have g2 := hg.stream
    simp only [next] at h
    split at h
    · have := finish_ok S f s _ n p h
      left; omega
    · split at h
      · have := finish_ok S f s _ n p h
        left; omega
      · exact .inr ⟨g, hg, h⟩

theorem turn_ok (S : Schema) (a : Bool) (f : Found) (s : LSt) (ctx : List PCtx) (ho : Open ctx) (cont : LSt → Found → RRes)
    (n : Node) (p : Nat) (h : turn S a f s ctx cont = .ok n p) :
    s.pos ≤ p ∨ ∃ g, Ahead S a s.data.length s.pos g ∧ cont s g = .ok n p := by
  simp only [turn] at h
  split at h
  · left; have := finish_ok S f s _ n p h; omega
  · exact next_ok S a f s s.data s.pos ctx ho _ n p h

theorem skipData_le (S : Schema) (a : Bool) (data : Bytes) (pos : Nat) (ctx : List PCtx) (g : Found) (q : Nat) (ho : Open ctx)
    (h : skipData S a data pos ctx g = some q) : (g.finite = true ∧ q = g.endPos.toNat) ∨ (g.finite = false ∧ pos ≤ q) := by
  unfold skipData at h
  split at h
  · rename_i hf
    left; injection h with h; exact ⟨hf, h.symm⟩
  · rename_i hf
    right
    refine ⟨by simpa using hf, ?_⟩
    generalize hn : findNext S a (data.length + 1) data pos ctx 0 = o at h
    cases o with
    | bad => cases h
    | fuelOut => cases h
    | none l p' =>
      injection h with h
      have := findNext_none S a _ data pos ctx 0 l p' hn
      omega
    | found g' =>
      injection h with h
      have := (findNext_ahead S a _ data pos ctx 0 g' ho.last hn).posData
      omega

theorem readFlat_unknown (S : Schema) (a : Bool) (data : Bytes) (f : Found) (q : Nat) (ha : Ahead S a data.length q f)
    (hf : f.finite = false) : ∃ r, f.kind = .known r ∧ (S.ctx r).cls = .master := by
  have := (ha.unk hf).2.2
  cases hk : f.kind with
  | known r => exact ⟨r, rfl, by rw [hk] at this; exact this⟩
  | dummy i => rw [hk] at this; cases this

/-- Reading never goes back: a master of unknown size ends behind where its data starts. -/
theorem read_forward (S : Schema) (env : Env) (a : Bool) (fuel : Nat) :
    (∀ data mem ctx k f q n p, Open ctx → Ahead S a data.length q f → f.finite = false →
      readElt S env a fuel data mem ctx k f = .ok n p → f.posData ≤ p) ∧
    (∀ data mem ctx k f q p, Ahead S a data.length q f →
      readElt S env a fuel data mem ctx k f = .err p → q + 1 ≤ p) ∧
    (∀ ctx k f s g q n p, Open ctx → Ahead S a s.data.length q g →
      readLoop S env a fuel ctx k f s g = .ok n p → q ≤ p) ∧
    (∀ ctx k f s g p, readLoop S env a fuel ctx k f s g ≠ .err p) := by
  induction fuel with
  | zero =>
    refine ⟨?_, ?_, ?_, ?_⟩
    · intro data mem ctx k f q n p _ _ _ h; simp [readElt] at h
    · intro data mem ctx k f q p _ h; simp [readElt] at h
    · intro ctx k f s g q n p _ _ h; simp [readLoop] at h
    · intro ctx k f s g p h; simp [readLoop] at h
  | succ fuel ih =>
    obtain ⟨ih1, ih2, ih3, ih4⟩ := ih
    have nextErr : ∀ f s data start ctx k' (s' : LSt) p,
        next S f s (findNext S a (data.length + 1) data start ctx 0) (fun g => readLoop S env a fuel ctx k' f s' g) ≠ .err p := by
      intro f s data start ctx k' s' p h
      generalize findNext S a (data.length + 1) data start ctx 0 = o at h
      cases o with
      | bad => simp [next] at h
      | fuelOut => simp [next] at h
      | none lv p' => simp only [next] at h; split at h <;> simp [finish] at h
      | found g =>
        simp only [next] at h
        split at h
        · simp [finish] at h
        · split at h
          · simp [finish] at h
          · exact ih4 _ _ _ _ _ _ h
    have turnErr : ∀ f (s : LSt) ctx k' p, turn S a f s ctx (fun s g => readLoop S env a fuel ctx k' f s g) ≠ .err p := by
      intro f s ctx k' p h
      simp only [turn] at h
      split at h
      · simp [finish] at h
      · exact nextErr f s s.data s.pos ctx k' s p h
    refine ⟨?_, ?_, ?_, ?_⟩
    · intro data mem ctx k f q n p ho ha hf h
      obtain ⟨r, hk, hm⟩ := readFlat_unknown S a data f q ha hf
      rw [readElt, hk] at h
      simp only [hm, if_true, hf] at h
      rw [if_pos (by simp)] at h
      rcases next_ok S a f _ data f.posData _ (ho.cons _) _ n p h with h | ⟨g, hg, h⟩
      · exact h
      · exact ih3 _ _ _ _ _ _ n p (ho.cons _) hg h
    · intro data mem ctx k f q p ha h
      rw [readElt] at h
      split at h
      · exact readFlat_err S a env data f q p ha h
      · simp only [] at h
        split at h
        · split at h
          · exact absurd h (nextErr f _ data f.posData _ k _ p)
          · simp [finish] at h
        · exact readFlat_err S a env data f q p ha h
    · intro ctx k f s g q n p ho ha h
      have hend : g.finite = true → q ≤ g.endPos.toNat := by
        intro hf
        have := (ha.fin hf).2
        have := ha.stream
        omega
      have after : ∀ (s' : LSt), q ≤ s'.pos →
          turn S a f s' ctx (fun s g => readLoop S env a fuel ctx k f s g) = .ok n p → q ≤ p := by
        intro s' hq ht
        rcases turn_ok S a f s' ctx ho _ n p ht with h' | ⟨g', hg', h'⟩
        · omega
        · have := ih3 _ _ _ _ _ _ n p ho hg' h'
          omega
      rw [readLoop] at h
      split at h
      · rename_i hd
        split at h
        · cases h
        · rename_i p' hs
          refine after { s with pos := p' } ?_ h
          rcases skipData_le S a _ _ ctx g p' ho hs with ⟨hf, rfl⟩ | ⟨hf, hle⟩
          · exact hend hf
          · have := ha.stream; simp only; omega
      · split at h
        · cases h
        · cases h
        · rename_i p' he
          have := ih2 _ _ _ _ _ _ _ ha he
          exact after { s with pos := p' } (by simp only; omega) h
        · rename_i n' p' he
          split at h
          · cases h
          · rename_i s' hadd
            split at h
            · cases h
            · rename_i p2 hs
              refine after { s' with pos := p2, maxSize := f.endPos - g.endPos } ?_ h
              rcases skipData_le S a _ _ ctx g p2 ho hs with ⟨hf, rfl⟩ | ⟨hf, hle⟩
              · exact hend hf
              · have := ih1 _ _ _ _ _ _ _ _ ho ha hf he
                have := ha.posData
                simp only; omega
    · intro ctx k f s g p h
      rw [readLoop] at h
      split at h
      · split at h
        · cases h
        · exact turnErr _ _ _ _ _ h
      · split at h
        · cases h
        · cases h
        · exact turnErr _ _ _ _ _ h
        · split at h
          · cases h
          · split at h
            · cases h
            · exact turnErr _ _ _ _ _ h

/-- Two steps per byte ahead are enough. -/
theorem read_ends (S : Schema) (env : Env) (a : Bool) (fuel : Nat) :
    (∀ data mem ctx k f, Open ctx → 2 * (data.length - f.posData) + 1 ≤ fuel → readElt S env a fuel data mem ctx k f ≠ .fuelOut) ∧
    (∀ ctx k f s g q, Open ctx → Ahead S a s.data.length q g → 2 * (s.data.length - q) ≤ fuel →
      readLoop S env a fuel ctx k f s g ≠ .fuelOut) := by
  induction fuel with
  | zero =>
    refine ⟨fun data mem ctx k f _ h => by omega, fun ctx k f s g q _ ha h => ?_⟩
    have := ha.lt
    omega
  | succ fuel ih =>
    obtain ⟨ih1, ih2⟩ := ih
    have flat : ∀ data f, readFlat S env data f ≠ .fuelOut := by
      intro data f h
      unfold readFlat at h
      repeat' split at h
      all_goals cases h
    have nextEnds : ∀ f s data start ctx (cont : Found → RRes), Open ctx → (∀ g, Ahead S a data.length start g → cont g ≠ .fuelOut) →
        next S f s (findNext S a (data.length + 1) data start ctx 0) cont ≠ .fuelOut := by
      intro f s data start ctx cont ho hc h
      have hn := findNext_fuel S a data start ctx 0
      generalize hf : findNext S a (data.length + 1) data start ctx 0 = o at h
      rw [hf] at hn
      cases o with
      | bad => simp [next] at h
      | fuelOut => exact hn rfl
      | none lv p' => simp only [next] at h; split at h <;> simp [finish] at h
      | found g =>
        simp only [next] at h
        split at h
        · simp [finish] at h
        · split at h
          · simp [finish] at h
          · exact hc g (findNext_ahead S a _ data start ctx 0 g ho.last hf) h
    refine ⟨?_, ?_⟩
    · intro data mem ctx k f ho hf h
      rw [readElt] at h
      split at h
      · exact flat _ _ h
      · simp only [] at h
        split at h
        · split at h
          · refine nextEnds f _ data f.posData _ _ (ho.cons _) (fun g hg => ?_) h
            exact ih2 _ _ _ _ _ _ (ho.cons _) hg (by simp only; omega)
          · simp [finish] at h
        · exact flat _ _ h
    · intro ctx k f s g q ho ha hf h
      have hlt := ha.lt
      have hpd := ha.posData
      have hend : g.finite = true → q + 1 ≤ g.endPos.toNat := by
        intro hf
        have := (ha.fin hf).2
        have := ha.stream
        omega
      have after : ∀ (s' : LSt), q + 1 ≤ s'.pos → s'.data.length ≤ s.data.length →
          turn S a f s' ctx (fun s g => readLoop S env a fuel ctx k f s g) ≠ .fuelOut := by
        intro s' hq hl ht
        simp only [turn] at ht
        split at ht
        · simp [finish] at ht
        · refine nextEnds f s' s'.data s'.pos ctx _ ho (fun g' hg' => ?_) ht
          have := hg'.lt
          exact ih2 _ _ _ _ _ _ ho hg' (by omega)
      rw [readLoop] at h
      split at h
      · split at h
        · cases h
        · rename_i p' hs
          refine after { s with pos := p' } ?_ (Nat.le_refl _) h
          rcases skipData_le S a _ _ ctx g p' ho hs with ⟨hf, rfl⟩ | ⟨hf, hle⟩
          · exact hend hf
          · have := ha.stream; simp only; omega
      · split at h
        · cases h
        · rename_i he
          exact ih1 _ _ _ _ _ ho (by omega) he
        · rename_i p' he
          have := (read_forward S env a fuel).2.1 _ _ _ _ _ _ _ ha he
          exact after { s with pos := p' } (by simp only; omega) (Nat.le_refl _) h
        · rename_i n' p' he
          split at h
          · cases h
          · rename_i s' hadd
            have hl := addChild_len k f g s s' n' hadd
            split at h
            · cases h
            · rename_i p2 hs
              refine after { s' with pos := p2, maxSize := f.endPos - g.endPos } ?_ hl h
              rcases skipData_le S a _ _ ctx g p2 ho hs with ⟨hf, rfl⟩ | ⟨hf, hle⟩
              · exact hend hf
              · have := (read_forward S env a fuel).1 _ _ _ _ _ _ _ _ ho ha hf he
                simp only; omega

/-- More steps change nothing. -/
theorem read_stable (S : Schema) (env : Env) (a : Bool) (fuel : Nat) :
    (∀ data mem ctx k f, readElt S env a fuel data mem ctx k f ≠ .fuelOut →
      readElt S env a (fuel + 1) data mem ctx k f = readElt S env a fuel data mem ctx k f) ∧
    (∀ ctx k f s g, readLoop S env a fuel ctx k f s g ≠ .fuelOut →
      readLoop S env a (fuel + 1) ctx k f s g = readLoop S env a fuel ctx k f s g) := by
  induction fuel with
  | zero =>
    exact ⟨fun data mem ctx k f h => absurd (by simp [readElt]) h, fun ctx k f s g h => absurd (by simp [readLoop]) h⟩
  | succ fuel ih =>
    obtain ⟨ih1, ih2⟩ := ih
    have nextS : ∀ (f : Found) (s : LSt) (o : Out) (ctx : List PCtx) (k : Nat) (s' : LSt),
        next S f s o (fun g => readLoop S env a fuel ctx k f s' g) ≠ .fuelOut →
        next S f s o (fun g => readLoop S env a (fuel + 1) ctx k f s' g) = next S f s o (fun g => readLoop S env a fuel ctx k f s' g) := by
      intro f s o ctx k s' h
      cases o with
      | bad => rfl
      | fuelOut => rfl
      | none lv p => rfl
      | found g =>
        simp only [next] at h ⊢
        split
        · rfl
        · split
          · rfl
          · rename_i h1 h2
            rw [if_neg h1, if_neg h2] at h
            exact ih2 _ _ _ _ _ h
    have turnS : ∀ (f : Found) (s : LSt) (ctx : List PCtx) (k : Nat),
        turn S a f s ctx (fun s g => readLoop S env a fuel ctx k f s g) ≠ .fuelOut →
        turn S a f s ctx (fun s g => readLoop S env a (fuel + 1) ctx k f s g) =
          turn S a f s ctx (fun s g => readLoop S env a fuel ctx k f s g) := by
      intro f s ctx k h
      simp only [turn] at h ⊢
      split
      · rfl
      · rename_i h1
        rw [if_neg h1] at h
        exact nextS f s _ ctx k s h
    refine ⟨?_, ?_⟩
    · intro data mem ctx k f h
      rw [readElt] at h
      conv => lhs; rw [readElt]
      conv => rhs; rw [readElt]
      cases hk : f.kind with
      | dummy i => rfl
      | known r =>
        rw [hk] at h
        simp only [] at h ⊢
        by_cases hm : (S.ctx r).cls = .master
        · simp only [if_pos hm] at h ⊢
          by_cases hp : f.dataSize > 0 ∨ (!f.finite) = true
          · simp only [if_pos hp] at h ⊢
            exact nextS f _ _ _ k _ h
          · simp only [if_neg hp]
        · simp only [if_neg hm]
    · intro ctx k f s g h
      rw [readLoop] at h
      conv => lhs; rw [readLoop]
      conv => rhs; rw [readLoop]
      by_cases hd : (!a && g.kind.isDummy S) = true
      · simp only [if_pos hd] at h ⊢
        cases hs : skipData S a s.data g.streamPos.toNat ctx g with
        | none => rfl
        | some p => rw [hs] at h; exact turnS f _ ctx k h
      · simp only [if_neg hd] at h ⊢
        have he : readElt S env a (fuel + 1) s.data s.mem ctx (k - 1) g = readElt S env a fuel s.data s.mem ctx (k - 1) g := by
          apply ih1
          intro hc
          rw [hc] at h
          exact h rfl
        rw [he]
        cases hr : readElt S env a fuel s.data s.mem ctx (k - 1) g with
        | bad => rfl
        | fuelOut => rfl
        | err p => rw [hr] at h; exact turnS f _ ctx k h
        | ok n p =>
          rw [hr] at h
          simp only [] at h ⊢
          cases hadd : addChild k f g s n with
          | none => rfl
          | some s' =>
            rw [hadd] at h
            simp only [] at h ⊢
            cases hs : skipData S a s'.data p ctx g with
            | none => rfl
            | some p2 => rw [hs] at h; exact turnS f _ ctx k h

end Verif.Ebml.Scan
