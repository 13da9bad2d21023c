import Verif.Ebml.ScanLemmas
/-! Soundness of the element finder: what a returned element tells about the stream. -/
set_option linter.unusedSimpArgs false
namespace Verif.Ebml.Scan

/-- Every context ends inside the one above it (-1: unlimited). -/
def Nested : List PCtx → Prop
  | [] => True
  | [_] => True
  | c :: c' :: up => (c'.endPos = -1 ∨ (c.endPos ≠ -1 ∧ c.endPos ≤ c'.endPos)) ∧ Nested (c' :: up)

theorem Nested.tail {c : PCtx} {up : List PCtx} (h : Nested (c :: up)) : Nested up := by
  cases up with
  | nil => trivial
  | cons c' up => exact h.2

theorem Nested.drop {ctx : List PCtx} (h : Nested ctx) (k : Nat) : Nested (ctx.drop k) := by
  induction k generalizing ctx with
  | zero => exact h
  | succ k ih =>
    cases ctx with
    | nil => trivial
    | cons c up => exact ih h.tail

theorem Nested.le {c : PCtx} {up : List PCtx} (h : Nested (c :: up)) (e : Int) (he : c.endPos = -1 ∨ e ≤ c.endPos) :
    ∀ c' ∈ c :: up, c'.endPos = -1 ∨ e ≤ c'.endPos := by
  induction up generalizing c with
  | nil => intro c' hc; simp at hc; subst hc; exact he
  | cons d up ih =>
    intro c' hc
    rcases List.mem_cons.1 hc with h' | h'
    · subst h'; exact he
    · refine ih h.2 ?_ c' h'
      have := h.1
      omega

theorem adjust_spec (start : Nat) (ctx : List PCtx) (lv : Int) :
    ∃ k : Nat, (adjust start ctx lv).1 = ctx.drop k ∧ (adjust start ctx lv).2 = lv + k := by
  induction ctx generalizing lv with
  | nil => exact ⟨0, rfl, by simp [adjust]⟩
  | cons c up ih =>
    cases up with
    | nil => exact ⟨0, rfl, by simp [adjust]⟩
    | cons c' up =>
      rw [adjust]
      split
      · obtain ⟨k, h1, h2⟩ := ih (lv + 1)
        exact ⟨k + 1, by simpa using h1, by rw [h2]; omega⟩
      · exact ⟨0, rfl, by simp⟩

theorem contain_spec (a : Bool) (e : Int) (ctx : List PCtx) (lv : Int) :
    ∃ k : Nat, (contain a e ctx lv).1 = ctx.drop k ∧ (contain a e ctx lv).2.1 = lv + k ∧
      ((contain a e ctx lv).2.2 = true → limit (contain a e ctx lv).1 = -1 ∨ e ≤ limit (contain a e ctx lv).1) := by
  induction ctx generalizing lv with
  | nil => exact ⟨0, rfl, by simp [contain], by simp [contain, limit]⟩
  | cons c up ih =>
    rw [contain]
    split
    · split
      · exact ⟨0, rfl, by simp, by simp⟩
      · obtain ⟨k, h1, h2, h3⟩ := ih (lv + 1)
        exact ⟨k + 1, by simpa using h1, by rw [h2]; omega, h3⟩
    · rename_i hn
      refine ⟨0, rfl, by simp, ?_⟩
      intro _
      simp only [limit]
      omega

theorem find_mem {S : Schema} {l : List Nat} {id r : Nat} (h : l.find? (fun r => (S.ctx r).id == id) = some r) :
    r ∈ l ∧ (S.ctx r).id = id := by
  refine ⟨List.mem_of_find?_eq_some h, ?_⟩
  have := List.find?_some h
  simpa using this

/-- The level an element of a context is found in. -/
theorem createUsing_spec (S : Schema) (w : Bytes) (n : Nat) (a : Bool) (ctx : List PCtx) (lv : Int) (r : Nat) (ch : Int)
    (h : createUsing S w n a ctx lv = some (.known r, ch)) :
    (S.ctx r).id = idFromBuffer w n ∧
      ((∃ (i : Nat) (c : PCtx) (sem : List Nat), ctx[i]? = some c ∧ ch = lv + i ∧ (S.ctx c.ref).sem = some sem ∧ r ∈ sem) ∨
       (r ∈ S.globals) ∨ (a = true ∧ ∃ c ∈ ctx, c.ref = r)) := by
  induction ctx generalizing lv with
  | nil => simp [createUsing] at h
  | cons c up ih =>
    rw [createUsing.eq_def] at h
    simp only at h
    cases hs : (S.ctx c.ref).sem with
    | none => rw [hs] at h; cases h
    | some sem =>
      rw [hs] at h
      simp only at h
      cases hf : sem.find? (fun r => (S.ctx r).id == idFromBuffer w n) with
      | some r' =>
        rw [hf] at h
        simp only [Option.some.injEq, Prod.mk.injEq, Kind.known.injEq] at h
        obtain ⟨h1, h2⟩ := h
        subst h1
        obtain ⟨m1, m2⟩ := find_mem hf
        exact ⟨m2, Or.inl ⟨0, c, sem, rfl, by omega, hs, m1⟩⟩
      | none =>
        rw [hf] at h
        simp only at h
        cases hg : S.globals.find? (fun r => (S.ctx r).id == idFromBuffer w n) with
        | some r' =>
          rw [hg] at h
          simp only [Option.some.injEq, Prod.mk.injEq, Kind.known.injEq] at h
          obtain ⟨h1, h2⟩ := h
          subst h1
          obtain ⟨m1, m2⟩ := find_mem hg
          exact ⟨m2, Or.inr (Or.inl m1)⟩
        | none =>
          rw [hg] at h
          simp only at h
          cases up with
          | nil =>
            simp only at h
            split at h
            · rename_i ha
              simp only [Option.some.injEq, Prod.mk.injEq] at h
              split at h
              · rename_i hid
                simp only [Kind.known.injEq] at h
                obtain ⟨h1, h2⟩ := h
                subst h1
                refine ⟨hid, Or.inr (Or.inr ⟨?_, c, List.mem_cons_self, rfl⟩)⟩
                cases a <;> simp_all
              · simp at h
            · cases h
          | cons c' up =>
            simp only at h
            obtain ⟨h1, h2⟩ := ih _ h
            refine ⟨h1, ?_⟩
            rcases h2 with ⟨i, d, sem', k1, k2, k3, k4⟩ | h2 | ⟨h2, d, h3, h4⟩
            · exact Or.inl ⟨i + 1, d, sem', k1, by omega, k3, k4⟩
            · exact Or.inr (Or.inl h2)
            · exact Or.inr (Or.inr ⟨h2, d, List.mem_cons_of_mem _ h3, h4⟩)

/-- What is known about a returned element. `levels0` is the level count before the call. -/
structure FoundOk (S : Schema) (a : Bool) (data : Bytes) (orig : List PCtx) (levels0 : Int) (f : Found) (j : Nat) : Prop where
  levels : f.levels = levels0 + j
  inside : Nested orig → f.finite = true → ∀ c ∈ orig.drop j, c.endPos ≠ -1 →
    f.endPos ≤ c.endPos ∨ (f.pos + f.dataSize ≤ c.endPos ∧ f.endPos ≤ c.endPos + 12)
  backed : ∀ r, f.kind = .known r → ∃ (p n : Nat), f.pos = p ∧ f.sizePos = p + n ∧ 1 ≤ n ∧ n ≤ 4 ∧
    p + n ≤ data.length ∧ (S.ctx r).id = beNat ((data.drop p).take n) ∧
    (∃ v, readCodedSize (data.drop (p + n)) = v ∧ v.len ≠ 0 ∧ f.sizeLen = v.len ∧
      (f.finite = false ↔ v.value = v.unknown) ∧ (f.finite = true → f.dataSize = v.value) ∧
      (f.finite = true → f.endPos = p + n + v.len + v.value) ∧ f.streamPos = p + n + v.len ∧
      validateSize f.finite v.value (S.ctx r).cls = true)
  level : ∀ r, f.kind = .known r → (∃ (c : PCtx) (sem : List Nat), orig[j]? = some c ∧ (S.ctx c.ref).sem = some sem ∧ r ∈ sem) ∨
    r ∈ S.globals ∨ (a = true ∧ ∃ c ∈ orig, c.ref = r)

theorem idFromBuffer_take (w : Bytes) (n : Nat) (h1 : 1 ≤ n) (h4 : n ≤ 4) : idFromBuffer w n = beNat (w.take n) := by
  have : n = 1 ∨ n = 2 ∨ n = 3 ∨ n = 4 := by omega
  rcases this with e | e | e | e <;> subst e <;> rfl

theorem build_ok (S : Schema) (a : Bool) (data : Bytes) (orig : List PCtx) (lv0 : Int) (k : Nat) (w : Bytes) (n : Nat)
    (r : CodedSize) (cur : Nat) (rest : Bytes) (f : Found)
    (hw : w ++ rest = data.drop (cur - w.length)) (hcur : w.length ≤ cur) (hcd : cur ≤ data.length) (hw12 : w.length ≤ 12)
    (hn1 : 1 ≤ n) (hn4 : n ≤ 4) (hnw : n ≤ w.length)
    (hr : r = readCodedSize (w.drop n)) (hr0 : r.len ≠ 0)
    (hlim : r.value ≠ r.unknown → limit (orig.drop k) = -1 ∨ (cur : Int) + r.value - w.length ≤ limit (orig.drop k))
    (h : build S a (orig.drop k) (lv0 + k) w n r cur = some f) :
    ∃ j, FoundOk S a data orig lv0 f j := by
  rw [build] at h
  cases hc : createUsing S w n a (orig.drop k) 0 with
  | none => rw [hc] at h; cases h
  | some q =>
    obtain ⟨kd, ch⟩ := q
    rw [hc] at h
    simp only at h
    by_cases hal : (a || !kd.isDummy S) = true
    · rw [if_pos hal] at h
      by_cases hval : validateSize (r.value != r.unknown) r.value (Kind.cls S (if (a && !validateSize (r.value != r.unknown) r.value (kd.cls S) && !kd.isDummy S) = true
              then Kind.dummy (idFromBuffer w n) else kd)) = true
      · rw [if_pos hval] at h
        injection h with h
        have hb := C05_decode_bounded (w.drop n)
        rw [← hr] at hb
        have hlen : r.len ≤ w.length - n := by have := hb.1; simpa using this
        have hread : readCodedSize (data.drop (cur - w.length + n)) = r := by
          have h2 := (hb.2.2.1 hr0).2 ((w.drop n).drop r.len ++ rest)
          rw [← List.append_assoc, List.take_append_drop] at h2
          rw [hr, ← List.drop_drop, ← hw, List.drop_append_of_le_length hnw, h2, ← hr]
        have hfin : ∀ b, (r.value != r.unknown) = b → (b = false ↔ r.value = r.unknown) := by
          rintro b rfl; simp
        refine ⟨k + ch.toNat, ?_, ?_, ?_, ?_⟩
        · subst h; simp only
          split <;> omega
        · intro hnest hf c hcm hce
          subst h
          simp only at hf ⊢
          have hne : r.value ≠ r.unknown := by simpa using hf
          simp only [hf, if_true]
          right
          have hall : ∀ c' ∈ orig.drop k, c'.endPos = -1 ∨ (cur : Int) + r.value - w.length ≤ c'.endPos := by
            have hl := hlim hne
            have hnk := hnest.drop k
            cases hd : orig.drop k with
            | nil => simp
            | cons d up =>
              rw [hd] at hl hnk
              exact hnk.le _ hl
          have hcm' : c ∈ orig.drop k := by
            rw [Nat.add_comm, ← List.drop_drop, List.drop_drop, Nat.add_comm, ← List.drop_drop] at hcm
            exact List.mem_of_mem_drop hcm
          have := hall c hcm'
          omega
        · intro x hx
          have hkd : kd = .known x := by
            subst h
            simp only at hx
            split at hx
            · cases hx
            · exact hx
          subst hkd
          have hkk : (if (a && !validateSize (r.value != r.unknown) r.value (Kind.cls S (.known x)) && !Kind.isDummy S (.known x)) = true
              then Kind.dummy (idFromBuffer w n) else Kind.known x) = .known x := by
            subst h; exact hx
          obtain ⟨s1, s2⟩ := createUsing_spec S w n a _ _ _ _ hc
          refine ⟨cur - w.length, n, ?_, ?_, hn1, hn4, by omega, ?_, r, hread, hr0, ?_, ?_, ?_, ?_, ?_, ?_⟩
          · subst h; simp only; omega
          · subst h; simp only; omega
          · rw [s1, idFromBuffer_take _ _ hn1 hn4, ← hw, List.take_append_of_le_length hnw]
          · subst h; rfl
          · subst h; exact hfin _ rfl
          · subst h; intro hf; simp only at hf ⊢; rw [hf]; rfl
          · subst h; intro hf; simp only at hf ⊢; rw [hf]; simp only [if_true]; omega
          · subst h; simp only; omega
          · subst h
            rw [hkk] at hval
            exact hval
        · intro x hx
          have hkd : kd = .known x := by
            subst h
            simp only at hx
            split at hx
            · cases hx
            · exact hx
          subst hkd
          obtain ⟨s1, s2⟩ := createUsing_spec S w n a _ _ _ _ hc
          rcases s2 with ⟨i, c, sem, t1, t2, t3, t4⟩ | s2 | ⟨s2, c, s3, s4⟩
          · refine Or.inl ⟨c, sem, ?_, t3, t4⟩
            rw [List.getElem?_drop] at t1
            rw [show k + ch.toNat = k + i by omega]; exact t1
          · exact Or.inr (Or.inl s2)
          · exact Or.inr (Or.inr ⟨s2, c, List.mem_of_mem_drop s3, s4⟩)
      · rw [if_neg hval] at h; cases h
    · rw [if_neg hal] at h; cases h

theorem idLoop_bytes (lim : Int) (idLen : Nat) (data rest : Bytes) : ∀ (w : Bytes) (pos : Nat), w.length ≤ pos →
    w ++ rest = data.drop (pos - w.length) →
    ∀ w' pos' rest' n, idLoop lim idLen w pos rest = .done w' pos' rest' n →
      w'.length ≤ pos' ∧ w' ++ rest' = data.drop (pos' - w'.length) := by
  induction rest with
  | nil =>
    intro w pos h1 h2 w' pos' rest' n h
    rw [idLoop] at h
    split at h
    · injection h with e1 e2 e3 e4; subst e1 e2 e3 e4; exact ⟨h1, h2⟩
    · split at h
      · injection h with e1 e2 e3 e4; subst e1 e2 e3 e4; exact ⟨h1, h2⟩
      · cases h
  | cons b rest ih =>
    intro w pos h1 h2 w' pos' rest' n h
    rw [idLoop] at h
    split at h
    · injection h with e1 e2 e3 e4; subst e1 e2 e3 e4; exact ⟨h1, h2⟩
    · split at h
      · injection h with e1 e2 e3 e4; subst e1 e2 e3 e4; exact ⟨h1, h2⟩
      · by_cases hb : (if w.length ≥ 4 then w.drop 1 else w).length ≥ 16
        · rw [if_pos hb] at h; cases h
        · rw [if_neg hb] at h
          refine ih _ _ ?_ ?_ _ _ _ _ h
          · split <;> simp <;> omega
          · split
            · rename_i hge
              simp only [List.length_append, List.length_drop, List.length_singleton, List.append_assoc, List.singleton_append]
              have : pos + 1 - (w.length - 1 + 1) = pos - w.length + 1 := by omega
              rw [this, ← List.drop_drop, ← h2, List.drop_append_of_le_length (by omega)]
            · simp only [List.length_append, List.length_singleton, List.append_assoc, List.singleton_append]
              rw [show pos + 1 - (w.length + 1) = pos - w.length by omega, h2]

theorem sizeLoop_bytes (lim : Int) (idLen : Nat) (data rest : Bytes) : ∀ (w : Bytes) (psl pos : Nat), w.length ≤ pos →
    w ++ rest = data.drop (pos - w.length) →
    ∀ w' pos' rest' r, sizeLoop lim idLen w psl pos rest = .done w' pos' rest' r →
      w'.length ≤ pos' ∧ w' ++ rest' = data.drop (pos' - w'.length) := by
  induction rest with
  | nil =>
    intro w psl pos h1 h2 w' pos' rest' n h
    rw [sizeLoop] at h
    simp only at h
    split at h
    · cases h
    · split at h
      · injection h with e1 e2 e3 e4; subst e1 e2 e3 e4; exact ⟨h1, h2⟩
      · split at h
        · injection h with e1 e2 e3 e4; subst e1 e2 e3 e4; exact ⟨h1, h2⟩
        · split at h
          · injection h with e1 e2 e3 e4; subst e1 e2 e3 e4; exact ⟨h1, h2⟩
          · split at h
            · injection h with e1 e2 e3 e4; subst e1 e2 e3 e4; exact ⟨h1, h2⟩
            · cases h
  | cons b rest ih =>
    intro w psl pos h1 h2 w' pos' rest' n h
    rw [sizeLoop] at h
    simp only at h
    split at h
    · cases h
    · split at h
      · injection h with e1 e2 e3 e4; subst e1 e2 e3 e4; exact ⟨h1, h2⟩
      · split at h
        · injection h with e1 e2 e3 e4; subst e1 e2 e3 e4; exact ⟨h1, h2⟩
        · split at h
          · injection h with e1 e2 e3 e4; subst e1 e2 e3 e4; exact ⟨h1, h2⟩
          · split at h
            · injection h with e1 e2 e3 e4; subst e1 e2 e3 e4; exact ⟨h1, h2⟩
            · split at h
              · cases h
              · refine ih _ _ _ ?_ ?_ _ _ _ _ h
                · simp; omega
                · simp only [List.length_append, List.length_singleton, List.append_assoc, List.singleton_append]
                  rw [show pos + 1 - (w.length + 1) = pos - w.length by omega, h2]

theorem loop_found (S : Schema) (a : Bool) (data : Bytes) (orig : List PCtx) (lv0 : Int) (fuel : Nat) :
    ∀ (k : Nat) (idLen : Nat) (w : Bytes) (pos : Nat) (rest : Bytes),
      idLen ≤ w.length → w.length ≤ 11 → idLen ≤ 4 → (idLen = 0 → w = []) →
      w.length ≤ pos → w ++ rest = data.drop (pos - w.length) → pos ≤ data.length →
      ∀ f, loop S a orig lv0 fuel (orig.drop k) (lv0 + k) idLen w pos rest = .found f →
        ∃ j, FoundOk S a data orig lv0 f j := by
  induction fuel with
  | zero => intro k idLen w pos rest _ _ _ _ _ _ _ f h; simp [loop] at h
  | succ fuel ih =>
    intro k idLen w pos rest h1 h2 h3 h4 h5 h6 h7 f h
    rw [loop] at h
    obtain ⟨a1, a2, a3⟩ := idLoop_inv (limit (orig.drop k)) idLen rest w pos h1 h2 h3
    have abytes := idLoop_bytes (limit (orig.drop k)) idLen data rest w pos h5 h6
    generalize hid : idLoop (limit (orig.drop k)) idLen w pos rest = ir at *
    cases ir with
    | bad => cases h
    | eof p => cases h
    | done w1 pos1 rest1 n =>
      obtain ⟨b1, b2, b3, b4, b5, b6, b7, b8, b8', b9⟩ := a3 w1 pos1 rest1 n rfl
      obtain ⟨e1, e2⟩ := abytes w1 pos1 rest1 n rfl
      simp only at h
      rw [if_neg (by omega)] at h
      obtain ⟨c1, c2, c3⟩ := sizeLoop_inv (limit (orig.drop k)) n rest1 w1 (w1.length - n) pos1 (by omega) (by omega) b2
      have cbytes := sizeLoop_bytes (limit (orig.drop k)) n data rest1 w1 (w1.length - n) pos1 e1 e2
      generalize hsz : sizeLoop (limit (orig.drop k)) n w1 (w1.length - n) pos1 rest1 = sr at *
      cases sr with
      | bad => cases h
      | eof p => cases h
      | done w2 pos2 rest2 size =>
        obtain ⟨d1, d2, d3, d4, d5, d6, d7, d8, d9, d10⟩ := c3 w2 pos2 rest2 size rfl
        obtain ⟨g1, g2⟩ := cbytes w2 pos2 rest2 size rfl
        have hlenrest : rest.length + pos = data.length := by
          have := congrArg List.length h6
          simp at this; omega
        have hpd : pos2 ≤ data.length := by omega
        have hz0 : n = 0 → limit (orig.drop k) = pos1 := by
          rintro rfl
          rcases b9 with h | ⟨h, h', h''⟩
          · have := idMarker_some _ _ h; omega
          · exact h''
        simp only at h
        -- the context after the containment check
        obtain ⟨c, hc⟩ : ∃ c : List PCtx × Int × Bool, c = fit a (orig.drop k) (lv0 + k) w2 pos2 size := ⟨_, rfl⟩
        rw [← hc] at h
        have hcd : ∃ k' : Nat, c.1 = orig.drop k' ∧ c.2.1 = lv0 + k' ∧
            (∀ r, size = some r → c.2.2 = true → r.value ≠ r.unknown →
              limit c.1 = -1 ∨ (pos2 : Int) + r.value - w2.length ≤ limit c.1) := by
          rw [hc]
          cases size with
          | none => exact ⟨k, rfl, rfl, by simp⟩
          | some r =>
            simp only [fit]
            split
            · obtain ⟨k', q1, q2, q3⟩ := contain_spec a ((pos2 : Int) + r.value - w2.length) (orig.drop k) (lv0 + k)
              refine ⟨k + k', by rw [q1, List.drop_drop], by rw [q2]; omega, ?_⟩
              intro r' hr' hb _
              injection hr' with hr'
              subst hr'
              exact q3 hb
            · rename_i hne
              refine ⟨k, rfl, rfl, ?_⟩
              intro r' hr' _ hne'
              injection hr' with hr'
              subst hr'
              exact absurd hne' hne
        obtain ⟨k', hk1, hk2, hk3⟩ := hcd
        by_cases hbad : n = 0 ∧ size.isSome = true ∧ c.2.2 = true
        · rw [if_pos hbad] at h; cases h
        · rw [if_neg hbad] at h
          obtain ⟨elt, helt⟩ : ∃ elt, elt = attempt S a c w2 n pos2 size := ⟨_, rfl⟩
          rw [← helt] at h
          cases elt with
          | some f' =>
            injection h with h
            subst h
            cases size with
            | none => simp [attempt] at helt
            | some r =>
              cases hc2 : c.2.2 with
              | false => simp [attempt, hc2] at helt
              | true =>
                simp only [attempt, hc2, if_true] at helt
                rw [hk1, hk2] at helt
                have h8 := d8 r rfl
                have hn1 : 1 ≤ n := by
                  rw [hc2] at hbad; simp at hbad; omega
                refine build_ok S a data orig lv0 k' w2 n r pos2 rest2 f' g2 g1 hpd d1 hn1 b2 (by omega) h8.1 h8.2 ?_ helt.symm
                intro hne
                rw [← hk1]
                exact hk3 r rfl hc2 hne
          | none =>
            simp only at h
            split at h
            · rename_i hlim
              split at h
              · split at h
                · cases h
                · injection h with h
                  subst h
                  refine ⟨k', hk2, ?_, by simp, by simp⟩
                  intro hnest _ c' hc' hce
                  left
                  simp only
                  rw [hk1] at hlim ⊢
                  have hnk := hnest.drop k'
                  cases hd : orig.drop k' with
                  | nil => rw [hd] at hc'; cases hc'
                  | cons x up =>
                    rw [hd] at hnk hc' hlim
                    simp only [limit] at *
                    have := hnk.le x.endPos (Or.inr (Int.le_refl _)) c' hc'
                    omega
              · cases h
            · rename_i hlim
              split at h
              · have hnp : n < w2.length ∧ 1 ≤ n := by
                  cases hs : size with
                  | none =>
                    rw [hs] at hc
                    simp only [fit] at hc
                    rw [hc] at hlim
                    simp only at hlim
                    have := d9 hs
                    refine ⟨by omega, ?_⟩
                    by_cases h0 : n = 0
                    · have hl := hz0 h0
                      have := (d10 hl).2
                      omega
                    · omega
                  | some r =>
                    have h8 := d8 r hs
                    have hlt : n < w2.length := by
                      by_cases hlt : n < w2.length
                      · exact hlt
                      · exfalso
                        have : w2.drop n = [] := List.drop_eq_nil_of_le (by omega)
                        rw [h8.1, this] at h8
                        exact h8.2 rfl
                    refine ⟨hlt, ?_⟩
                    by_cases h0 : n = 0
                    · exfalso
                      obtain ⟨hw, hp⟩ := d10 (hz0 h0)
                      subst h0
                      rcases b9 with h | ⟨h, h', h''⟩
                      · have := idMarker_some _ _ h; omega
                      · have := readCodedSize_of_idMarker_none w1 h (by rw [h4 h'.symm] at b3; simp at b3; omega)
                        rw [h8.1, hw, List.drop_zero] at h8
                        exact h8.2 this
                    · omega
                have := ih 0 n (w2.drop 1) pos2 rest2 (by simp; omega) (by simp; omega) b2 (by omega) (by simp; omega)
                  (by
                    simp only [List.length_drop]
                    rw [show pos2 - (w2.length - 1) = pos2 - w2.length + 1 by omega, ← List.drop_drop, ← g2,
                      List.drop_append_of_le_length (by omega)]) hpd f
                simp only [List.drop_zero, Int.natCast_zero, Int.add_zero] at this
                exact this h
              · cases h

/-- Soundness of the finder. -/
theorem findNext_found (S : Schema) (a : Bool) (fuel : Nat) (data : Bytes) (start : Nat) (hs : start ≤ data.length)
    (ctx : List PCtx) (lv : Int) (f : Found) (h : findNext S a fuel data start ctx lv = .found f) :
    ∃ j, FoundOk S a data ctx lv f j := by
  simp only [findNext] at h
  obtain ⟨k, h1, h2⟩ := adjust_spec start ctx lv
  rw [h1, h2] at h
  exact loop_found S a data ctx lv fuel k 0 [] start (data.drop start) (by simp) (by simp) (by simp) (by simp) (by simp)
    (by simp) hs f h

end Verif.Ebml.Scan
