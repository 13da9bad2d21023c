import Verif.Ebml.LoadEnds
/-! Loading does not crash when no size field is of the unknown kind. -/
set_option linter.unusedSimpArgs false
namespace Verif.Ebml.Scan

/-- Nowhere in the data do bytes read as the unknown size. -/
def NoUnknown (data : Bytes) : Prop :=
  ∀ w, w <:+: data → (readCodedSize w).len ≠ 0 → (readCodedSize w).value ≠ (readCodedSize w).unknown

theorem NoUnknown.sub {data data' : Bytes} (h : NoUnknown data) (hp : data' <:+: data) : NoUnknown data' :=
  fun w hw => h w (hw.trans hp)

theorem idLoop_lim (lim : Int) (idLen : Nat) (rest : Bytes) : ∀ (w : Bytes) (pos : Nat), lim = -1 ∨ (pos : Int) ≤ lim →
    ∀ w' pos' rest' n, idLoop lim idLen w pos rest = .done w' pos' rest' n → lim = -1 ∨ (pos' : Int) ≤ lim := by
  induction rest with
  | nil =>
    intro w pos hl w' pos' rest' n h
    rw [idLoop.eq_def] at h
    split at h
    · injection h with _ h; rw [← h]; exact hl
    · split at h
      · injection h with _ h; rw [← h]; exact hl
      · cases h
  | cons b rest ih =>
    intro w pos hl w' pos' rest' n h
    rw [idLoop.eq_def] at h
    split at h
    · injection h with _ h; rw [← h]; exact hl
    · split at h
      · injection h with _ h; rw [← h]; exact hl
      · rename_i hne
        simp only at h
        generalize (if w.length ≥ 4 then w.drop 1 else w) = v at h
        split at h
        · cases h
        · exact ih _ (pos + 1) (by omega) w' pos' rest' n h

theorem sizeLoop_lim (lim : Int) (idLen : Nat) (rest : Bytes) : ∀ (w : Bytes) (psl pos : Nat), lim = -1 ∨ (pos : Int) ≤ lim →
    ∀ w' pos' rest' n, sizeLoop lim idLen w psl pos rest = .done w' pos' rest' n → lim = -1 ∨ (pos' : Int) ≤ lim := by
  induction rest with
  | nil =>
    intro w psl pos hl w' pos' rest' n h
    rw [sizeLoop.eq_def] at h
    simp only at h
    (repeat' split at h) <;> first | (cases h; exact hl) | cases h
  | cons b rest ih =>
    intro w psl pos hl w' pos' rest' n h
    rw [sizeLoop.eq_def] at h
    simp only at h
    split at h
    · cases h
    · split at h
      · injection h with _ h; rw [← h]; exact hl
      · split at h
        · injection h with _ h; rw [← h]; exact hl
        · split at h
          · injection h with _ h; rw [← h]; exact hl
          · split at h
            · injection h with _ h; rw [← h]; exact hl
            · split at h
              · cases h
              · exact ih _ _ (pos + 1) (by omega) w' pos' rest' n h

/-- Climbing ends in a context that reaches further. -/
theorem contain_climb (a : Bool) (e : Int) : ∀ (ctx : List PCtx) (lv : Int), Open ctx →
    (contain a e ctx lv).2.1 = lv ∨ (limit ctx ≠ -1 ∧ limit ctx < e ∧ (limit (contain a e ctx lv).1 = -1 ∨ e ≤ limit (contain a e ctx lv).1))
  | [], lv, _ => Or.inl rfl
  | c :: up, lv, ho => by
    rw [contain]
    by_cases h : c.endPos ≠ -1 ∧ e > c.endPos
    · rw [if_pos h]
      by_cases h2 : a = true ∨ up = []
      · rw [if_pos h2]; exact Or.inl rfl
      · rw [if_neg h2]
        right
        have hup : up ≠ [] := fun h => h2 (Or.inr h)
        have ho' : Open up := by
          obtain ⟨pre, d, he, hd⟩ := ho
          cases pre with
          | nil => simp at he; exact absurd he.2 hup
          | cons p pre => injection he with _ he; exact ⟨pre, d, he, hd⟩
        refine ⟨h.1, h.2, ?_⟩
        have ih := contain_climb a e up (lv + 1) ho'
        rcases ih with ih | ih
        · -- the next one is not left
          cases up with
          | nil => exact absurd rfl hup
          | cons c' up' =>
            rw [contain] at ih ⊢
            by_cases h' : c'.endPos ≠ -1 ∧ e > c'.endPos
            · rw [if_pos h'] at ih ⊢
              have ha : a = false := by cases a <;> simp_all
              by_cases h3 : a = true ∨ up' = []
              · rcases h3 with h3 | h3
                · rw [ha] at h3; cases h3
                · exfalso
                  subst h3
                  obtain ⟨pre, d, he, hd⟩ := ho'
                  cases pre with
                  | nil => simp at he; rw [he] at h'; exact h'.1 hd
                  | cons p pre => injection he with _ he; simp at he
              · rw [if_neg h3] at ih ⊢
                have := contain_levels a e up' (lv + 1 + 1)
                omega
            · rw [if_neg h']
              simp only [limit]
              omega
        · exact ih.2.2
    · rw [if_neg h]; exact Or.inl rfl
where
  contain_levels (a : Bool) (e : Int) : ∀ (ctx : List PCtx) (lv : Int), lv ≤ (contain a e ctx lv).2.1
    | [], lv => Int.le_refl _
    | c :: up, lv => by
      rw [contain]
      split
      · split
        · exact Int.le_refl _
        · have := contain_levels a e up (lv + 1); omega
      · exact Int.le_refl _

/-- With nothing found, the level is the one at the start. -/
theorem loop_none_level (S : Schema) (a : Bool) (ctx : List PCtx) (lv : Int) (ho : Open ctx) (fuel : Nat) :
    ∀ (idLen : Nat) (w : Bytes) (pos : Nat) (rest : Bytes), (limit ctx = -1 ∨ (pos : Int) ≤ limit ctx) →
      ∀ l p, loop S a ctx lv fuel ctx lv idLen w pos rest = .none l p → l = lv := by
  induction fuel with
  | zero => intro idLen w pos rest _ l p h; simp [loop] at h
  | succ fuel ih =>
    intro idLen w pos rest hl l p h
    rw [loop] at h
    have hl1 := idLoop_lim (limit ctx) idLen rest w pos hl
    generalize hid : idLoop (limit ctx) idLen w pos rest = ir at *
    cases ir with
    | bad => cases h
    | eof p => injection h with h; exact h.symm
    | done w1 pos1 rest1 n =>
      have hl1 := hl1 w1 pos1 rest1 n rfl
      simp only at h
      split at h
      · cases h
      have hl2 := sizeLoop_lim (limit ctx) n rest1 w1 (w1.length - n) pos1 hl1
      generalize hsz : sizeLoop (limit ctx) n w1 (w1.length - n) pos1 rest1 = sr at *
      cases sr with
      | bad => cases h
      | eof p => injection h with h; exact h.symm
      | done w2 pos2 rest2 size =>
        have hl2 := hl2 w2 pos2 rest2 size rfl
        simp only at h
        split at h
        · cases h
        · split at h
          · cases h
          · split at h
            · rename_i hlim
              have hlv : (fit a ctx lv w2 pos2 size).2.1 = lv := by
                cases size with
                | none => rfl
                | some r =>
                  simp only [fit] at hlim ⊢
                  by_cases hu : r.value ≠ r.unknown
                  · rw [if_pos hu] at hlim ⊢
                    rcases contain_climb a ((pos2 : Int) + r.value - w2.length) ctx lv ho with hc | hc
                    · exact hc
                    · exfalso; omega
                  · rw [if_neg hu]
              split at h
              · split at h
                · cases h
                · cases h
              · injection h with h
                rw [← h]; exact hlv
            · split at h
              · exact ih n (w2.drop 1) pos2 rest2 hl2 l p h
              · injection h with h; exact h.symm

/-- The search from inside the innermost context reports no upper level when it finds nothing. -/
theorem findNext_none_level (S : Schema) (a : Bool) (fuel : Nat) (data : Bytes) (start : Nat) (c : PCtx) (up : List PCtx)
    (ho : Open (c :: up)) (hs : c.endPos = -1 ∨ (start : Int) < c.endPos) (l : Int) (p : Nat)
    (h : findNext S a fuel data start (c :: up) 0 = .none l p) : l = 0 := by
  have hadj : adjust start (c :: up) 0 = (c :: up, 0) := by
    cases up with
    | nil => rfl
    | cons c' up => rw [adjust, if_neg (by omega)]
  rw [findNext, hadj] at h
  exact loop_none_level S a (c :: up) 0 ho fuel 0 [] start (data.drop start) (by simp only [limit]; omega) l p h

/-- What is found has a known size. -/
theorem findNext_finite (S : Schema) (a : Bool) (fuel : Nat) (data : Bytes) (start : Nat) (ctx : List PCtx) (ho : Open ctx) (g : Found)
    (hn : NoUnknown data) (h : findNext S a fuel data start ctx 0 = .found g) : g.finite = true := by
  have ha := findNext_ahead S a fuel data start ctx 0 g ho.last h
  obtain ⟨j, hj⟩ := findNext_found S a fuel data start (Nat.le_of_lt ha.lt) ctx 0 g h
  cases hf : g.finite with
  | true => rfl
  | false =>
    obtain ⟨r, hr, _⟩ := readFlat_unknown S a data g start ha hf
    obtain ⟨p, n, _, _, _, _, _, _, v, h1, h2, _, h3, _⟩ := hj.backed r hr
    exact absurd (h3.mp hf) (by rw [← h1] at h2 ⊢; exact hn _ (List.drop_suffix _ _).isInfix h2)

/-- The sizes of leaves are ones they can be read from. -/
theorem readLeaf_valid (env : Env) (p : Bytes) (c : Cls) (hc : c = .uint ∨ c = .sint ∨ c = .date ∨ c = .float ∨ c = .str ∨ c = .bin)
    (h : validateSize true p.length c = true) : readLeaf env p c ≠ none := by
  rcases hc with h' | h' | h' | h' | h' | h' <;> subst h' <;> simp only [validateSize, readLeaf, Bool.true_and] at h ⊢
  · have : ¬ p.length > 8 := by simp at h; omega
    simp [readInt, this]
  · have : ¬ p.length > 8 := by simp at h; omega
    simp [readSignedInt, this]
  · have : ¬ p.length > 8 := by simp only [Bool.or_eq_true, beq_iff_eq] at h; omega
    simp [dateRead, this]
  · simp only [Bool.or_eq_true, beq_iff_eq] at h
    rcases h with h | h <;> simp [readFloat, h]
  · simp
  · simp

/-- Reading fails only at the end of the data, and only if the element reaches behind it. -/
theorem readFlat_cut (S : Schema) (env : Env) (a : Bool) (fuel : Nat) (data : Bytes) (start : Nat) (ctx : List PCtx) (ho : Open ctx) (g : Found)
    (hn : NoUnknown data) (h : findNext S a fuel data start ctx 0 = .found g) (hm : g.kind.cls S ≠ .master) (p : Nat)
    (he : readFlat S env data g = .err p) : p = data.length ∧ (data.length : Int) < g.endPos := by
  have ha := findNext_ahead S a fuel data start ctx 0 g ho.last h
  have hfin := findNext_finite S a fuel data start ctx ho g hn h
  obtain ⟨j, hj⟩ := findNext_found S a fuel data start (Nat.le_of_lt ha.lt) ctx 0 g h
  have hsz := ha.sized hfin
  have hpos := (ha.fin hfin).1
  -- a failing read of the payload
  have cut : readExact data g.posData g.dataSize.toNat = none → (data.length : Int) < g.endPos := by
    intro hr
    unfold readExact at hr
    split at hr
    · cases hr
    · rename_i hlt
      rw [List.length_drop] at hlt
      rcases hsz with h0 | h0
      · rw [h0] at hlt; simp at hlt
      · omega
  cases hk : g.kind with
  | dummy i =>
    have hc : g.kind.cls S = .dummy := by rw [hk]; rfl
    unfold readFlat at he
    rw [hc] at he
    simp only at he
    split at he
    · rename_i hr
      injection he with he
      exact ⟨he.symm, cut hr⟩
    · cases he
  | known r =>
    have hc : g.kind.cls S = (S.ctx r).cls := by rw [hk]; rfl
    obtain ⟨q, n, hq1, hq2, _, _, hq3, _, v, h1, h2, h3, h4, h5, h6, h7, h8⟩ := hj.backed r hk
    rw [hfin] at h8
    have h5 := h5 hfin
    have h6 := h6 hfin
    unfold readFlat at he
    rw [hc] at he hm
    have leaf : ∀ c, (S.ctx r).cls = c → (c = .uint ∨ c = .sint ∨ c = .date ∨ c = .float ∨ c = .str ∨ c = .bin) →
        (match readExact data g.posData g.dataSize.toNat with
          | none => RRes.err data.length
          | some p =>
            match readLeaf env p c with
            | some v => .ok (.leaf (g.base S true) v) (g.posData + p.length)
            | none => .err (g.posData + p.length)) = .err p → p = data.length ∧ (data.length : Int) < g.endPos := by
      intro c hcc hcl he
      split at he
      · rename_i hr
        injection he with he
        exact ⟨he.symm, cut hr⟩
      · rename_i x hr
        split at he
        · cases he
        · rename_i hnone
          exfalso
          refine readLeaf_valid env x c hcl ?_ hnone
          have hx : x.length = v.value := by
            unfold readExact at hr
            split at hr
            · injection hr with hr
              subst hr
              rw [List.length_take]
              omega
            · cases hr
          rw [hx, ← hcc]
          exact h8
    cases hcls : (S.ctx r).cls with
    | master => exact absurd hcls hm
    | void => rw [hcls] at he; cases he
    | crc =>
      rw [hcls] at he h8
      simp only at he
      split at he
      · rename_i hr
        injection he with he
        refine ⟨he.symm, ?_⟩
        unfold readExact at hr
        split at hr
        · cases hr
        · rename_i hlt
          rw [List.length_drop] at hlt
          simp only [validateSize, Bool.true_and, beq_iff_eq] at h8
          omega
      · cases he
    | dummy =>
      rw [hcls] at he
      simp only at he
      split at he
      · rename_i hr
        injection he with he
        exact ⟨he.symm, cut hr⟩
      · cases he
    | uint => rw [hcls] at he; exact leaf _ hcls (by simp) he
    | sint => rw [hcls] at he; exact leaf _ hcls (by simp) he
    | date => rw [hcls] at he; exact leaf _ hcls (by simp) he
    | float => rw [hcls] at he; exact leaf _ hcls (by simp) he
    | str => rw [hcls] at he; exact leaf _ hcls (by simp) he
    | bin => rw [hcls] at he; exact leaf _ hcls (by simp) he

theorem readFlat_notBad (S : Schema) (env : Env) (data : Bytes) (f : Found) : readFlat S env data f ≠ .bad := by
  unfold readFlat
  repeat' split
  all_goals (intro h; cases h)

/-- Masters are always delivered or crash. -/
theorem readMaster_noErr (S : Schema) (env : Env) (a : Bool) (fuel : Nat) :
    (∀ data mem ctx k f p r, f.kind = .known r → (S.ctx r).cls = .master → readElt S env a fuel data mem ctx k f ≠ .err p) ∧
    (∀ ctx k f s g p, readLoop S env a fuel ctx k f s g ≠ .err p) := by
  induction fuel with
  | zero =>
    exact ⟨fun data mem ctx k f p r _ _ h => by simp [readElt] at h, fun ctx k f s g p h => by simp [readLoop] at h⟩
  | succ fuel ih =>
    obtain ⟨ih1, ih2⟩ := ih
    have nextE : ∀ (f : Found) (s : LSt) (o : Out) (cont : Found → RRes) p, (∀ g, cont g ≠ .err p) → next S f s o cont ≠ .err p := by
      intro f s o cont p hc h
      cases o with
      | bad => cases h
      | fuelOut => cases h
      | none lv q =>
        simp only [next] at h
        split at h
        · cases h
        · simp [finish] at h
      | found g =>
        simp only [next] at h
        split at h
        · simp [finish] at h
        · split at h
          · simp [finish] at h
          · exact hc g h
    have turnE : ∀ (f : Found) (s : LSt) ctx k p, turn S a f s ctx (fun s g => readLoop S env a fuel ctx k f s g) ≠ .err p := by
      intro f s ctx k p h
      simp only [turn] at h
      split at h
      · simp [finish] at h
      · exact nextE f s _ _ p (fun g => ih2 ctx k f s g p) h
    refine ⟨?_, ?_⟩
    · intro data mem ctx k f p r hk hm h
      rw [readElt, hk] at h
      simp only [if_pos hm] at h
      split at h
      · exact nextE f _ _ _ p (fun g => ih2 _ k f _ g p) h
      · simp [finish] at h
    · intro ctx k f s g p h
      rw [readLoop] at h
      split at h
      · split at h
        · cases h
        · exact turnE _ _ _ _ _ h
      · split at h
        · cases h
        · cases h
        · exact turnE _ _ _ _ _ h
        · split at h
          · cases h
          · split at h
            · cases h
            · exact turnE _ _ _ _ _ h

/-- Checksums cannot be read past the end: none are checked, or only those of this level and the data
is not in memory yet. -/
def SafeCrc (k : Nat) (mem first : Bool) : Prop := k = 0 ∨ k = 1 ∧ (mem = false ∨ first = false)

theorem addChild_safe (k : Nat) (f g : Found) (s : LSt) (n : Node) (h : SafeCrc k s.mem s.first) :
    ∃ s', addChild k f g s n = some s' ∧ s'.data <+: s.data ∧ SafeCrc k s'.mem s'.first := by
  have plain : ∃ s', some { s with kids := s.kids ++ [n] } = some s' ∧ s'.data <+: s.data ∧ SafeCrc k s'.mem s'.first :=
    ⟨_, rfl, List.prefix_refl _, h⟩
  cases n with
  | crc b v =>
    simp only [addChild]
    split
    · rename_i hc
      simp only [Bool.and_eq_true, bne_iff_ne, ne_eq] at hc
      obtain ⟨⟨hc1, hc2⟩, _⟩ := hc
      have hk : k = 1 ∧ s.mem = false := by
        rcases h with h | ⟨h, h' | h'⟩
        · exact absurd h hc2
        · exact ⟨h, h'⟩
        · rw [h'] at hc1; cases hc1
      simp only [takeCrc, hk.2, Bool.false_eq_true, if_false]
      split
      · split
        · exact ⟨_, rfl, List.take_prefix _ _, Or.inr ⟨hk.1, Or.inr rfl⟩⟩
        · exact ⟨_, rfl, List.prefix_refl _, Or.inr ⟨hk.1, Or.inr rfl⟩⟩
      · exact ⟨_, rfl, List.prefix_refl _, Or.inr ⟨hk.1, Or.inr rfl⟩⟩
    · exact plain
  | _ => exact plain

/-- The main induction: without unknown sizes nothing crashes. `start` and `fl` say where the element was
found. -/
theorem read_safe (S : Schema) (env : Env) (a : Bool) (fuel : Nat) :
    (∀ data mem ctx k g start fl, Open ctx → NoUnknown data → SafeCrc k mem true → findNext S a fl data start ctx 0 = .found g →
      readElt S env a fuel data mem ctx k g ≠ .bad) ∧
    (∀ c ctx k f s g start fl, Open (c :: ctx) → NoUnknown s.data → SafeCrc k s.mem s.first → f.finite = true → c.endPos = f.endPos →
      findNext S a fl s.data start (c :: ctx) 0 = .found g → g.endPos ≤ f.endPos →
      readLoop S env a fuel (c :: ctx) k f s g ≠ .bad) := by
  induction fuel with
  | zero =>
    exact ⟨fun data mem ctx k g start fl _ _ _ _ h => by simp [readElt] at h,
      fun c ctx k f s g start fl _ _ _ _ _ _ _ h => by simp [readLoop] at h⟩
  | succ fuel ih =>
    obtain ⟨ih1, ih2⟩ := ih
    -- the next child, looked for from inside the master
    have nextB : ∀ c ctx k f (s : LSt), Open (c :: ctx) → NoUnknown s.data → SafeCrc k s.mem s.first → f.finite = true →
        c.endPos = f.endPos → (s.pos : Int) < f.endPos →
        next S f s (findNext S a (s.data.length + 1) s.data s.pos (c :: ctx) 0) (fun g => readLoop S env a fuel (c :: ctx) k f s g) ≠ .bad := by
      intro c ctx k f s ho hn hk hf he hp h
      generalize hfn : findNext S a (s.data.length + 1) s.data s.pos (c :: ctx) 0 = o at h
      cases o with
      | bad => exact C25_window_safe S a _ _ _ _ _ hfn
      | fuelOut => cases h
      | none lv q =>
        have := findNext_none_level S a _ s.data s.pos c ctx ho (Or.inr (by omega)) lv q hfn
        simp only [next] at h
        rw [if_neg (by omega)] at h
        simp [finish] at h
      | found g =>
        simp only [next] at h
        split at h
        · simp [finish] at h
        · split at h
          · simp [finish] at h
          · rename_i hle
            simp only [hf, Bool.true_and, decide_eq_true_eq] at hle
            exact ih2 c ctx k f s g s.pos _ ho hn hk hf he hfn (by omega) h
    have turnB : ∀ c ctx k f (s : LSt), Open (c :: ctx) → NoUnknown s.data → SafeCrc k s.mem s.first → f.finite = true →
        c.endPos = f.endPos → ((s.pos : Int) < f.endPos ∨ s.maxSize ≤ 0) →
        turn S a f s (c :: ctx) (fun s g => readLoop S env a fuel (c :: ctx) k f s g) ≠ .bad := by
      intro c ctx k f s ho hn hk hf he hp h
      simp only [turn, hf, Bool.true_and] at h
      split at h
      · simp [finish] at h
      · rename_i hm
        simp only [decide_eq_true_eq] at hm
        exact nextB c ctx k f s ho hn hk hf he (by omega) h
    refine ⟨?_, ?_⟩
    · intro data mem ctx k g start fl ho hn hk hfound h
      have hfin := findNext_finite S a fl data start ctx ho g hn hfound
      have ha := findNext_ahead S a fl data start ctx 0 g ho.last hfound
      rw [readElt] at h
      split at h
      · exact readFlat_notBad S env data g h
      · rename_i r hkind
        split at h
        · split at h
          · rename_i hds
            have hds : g.dataSize > 0 := by simpa [hfin] using hds
            have hs := ha.sized hfin
            exact nextB ⟨r, g.endPos⟩ ctx k g ⟨data, mem, g.posData, true, none, g.dataSize, []⟩ (ho.cons _) hn hk hfin rfl
              (by simp only; omega) h
          · simp [finish] at h
        · exact readFlat_notBad S env data g h
    · intro c ctx k f s g start fl ho hn hk hf he hfound hle h
      have hfin := findNext_finite S a fl s.data start (c :: ctx) ho g hn hfound
      have ha := findNext_ahead S a fl s.data start (c :: ctx) 0 g ho.last hfound
      rw [readLoop] at h
      split at h
      · -- never: the finder does not return dummies when they are not allowed
        rename_i hd
        simp only [Bool.and_eq_true, Bool.not_eq_true'] at hd
        rw [ha.real hd.1] at hd
        simp at hd
      · split at h
        · rename_i hb
          refine ih1 s.data s.mem (c :: ctx) (k - 1) g start fl ho hn ?_ hfound hb
          rcases hk with hk | ⟨hk, _⟩
          · exact Or.inl (by omega)
          · exact Or.inl (by omega)
        · cases h
        · rename_i p herr
          refine turnB c ctx k f { s with pos := p } ho hn hk hf he ?_ h
          left
          have hm : g.kind.cls S ≠ .master := by
            intro hm
            cases hkk : g.kind with
            | dummy i => rw [hkk] at hm; cases hm
            | known r =>
              rw [hkk] at hm
              exact (readMaster_noErr S env a fuel).1 _ _ _ _ _ p r hkk hm herr
          have hflat : readFlat S env s.data g = .err p := by
            cases fuel with
            | zero => simp [readElt] at herr
            | succ fuel =>
              rw [readElt] at herr
              split at herr
              · exact herr
              · rename_i r hkk
                rw [hkk] at hm
                have hm' : ¬ (S.ctx r).cls = .master := hm
                rw [if_neg hm'] at herr
                exact herr
          have := readFlat_cut S env a fl s.data start (c :: ctx) ho g hn hfound hm p hflat
          simp only
          omega
        · rename_i n p hok
          obtain ⟨s', h1, h2, h3⟩ := addChild_safe k f g s n hk
          rw [h1] at h
          simp only [skipData, hfin, if_true] at h
          refine turnB c ctx k f { s' with pos := g.endPos.toNat, maxSize := f.endPos - g.endPos } ho (hn.sub h2.isInfix) h3 hf he ?_ h
          simp only
          have h4 := (ha.fin hfin).2
          have h5 := ha.stream
          omega

end Verif.Ebml.Scan
