import Verif.Mkv.Lzo
/-!
Lemmas on the LZO decompressor.
-/
set_option linter.unusedSimpArgs false
namespace Verif.Lzo

theorem zeros_length : ∀ (m : List Nat) (n : Nat) (m' : List Nat), zeros m = some (n, m') → m'.length + n = m.length
  | [], _, _, h => by cases h
  | b :: bs, n, m', h => by
    rw [zeros] at h
    by_cases hb : b = 0
    · rw [if_pos hb] at h
      cases hz : zeros bs with
      | none => rw [hz] at h; cases h
      | some r =>
        rw [hz, Option.map_some, Option.some.injEq, Prod.mk.injEq] at h
        have := zeros_length bs r.1 r.2 hz
        rw [List.length_cons, ← h.1, ← h.2]; omega
    · rw [if_neg hb, Option.some.injEq, Prod.mk.injEq] at h
      rw [← h.1, ← h.2]; rfl

theorem zeros_guard (x : Nat) (hx : x ≠ 0) (g : List Nat) : ∀ m : List Nat, zeros (m ++ x :: g) ≠ none
  | [], h => by rw [List.nil_append, zeros, if_neg hx] at h; cases h
  | b :: bs, h => by
    rw [List.cons_append, zeros] at h
    by_cases hb : b = 0
    · rw [if_pos hb, Option.map_eq_none_iff] at h
      exact zeros_guard x hx g bs h
    · rw [if_neg hb] at h; cases h

theorem extLen_ok {g rest : List Nat} {base add len : Nat} {rest' : List Nat} (h : extLen g rest base add = .ok len rest') :
    rest'.length ≤ rest.length := by
  unfold extLen at h
  cases hz : zeros (rest ++ g) with
  | none => rw [hz] at h; cases h
  | some r =>
    rw [hz] at h
    simp only at h
    by_cases c1 : r.1 > max255
    · rw [if_pos c1] at h; cases h
    · rw [if_neg c1] at h
      by_cases c2 : r.2.length ≤ g.length
      · rw [if_pos c2] at h; cases h
      · rw [if_neg c2] at h
        injection h with h1 h2
        rw [← h2, List.length_drop]; omega

/-- What every instruction satisfies. -/
def POk (rest : List Nat) : P → Prop
  | .ok (.copy d _ _) rest' => 1 ≤ d ∧ rest'.length ≤ rest.length
  | .ok _ rest' => rest'.length ≤ rest.length
  | _ => True

theorem withLen_ok (g rest : List Nat) (base len add : Nat) (k : Nat → List Nat → P)
    (hk : ∀ n r, r.length ≤ rest.length → POk rest (k n r)) : POk rest (withLen g rest base len add k) := by
  unfold withLen
  by_cases c : len = base
  · rw [if_pos c]
    cases he : extLen g rest len add with
    | over => trivial
    | fail c => trivial
    | ok n r => exact hk n r (extLen_ok he)
  · rw [if_neg c]; exact hk _ _ (Nat.le_refl _)

theorem parse_ok (g : List Nat) (state inst : Nat) (rest : List Nat) : POk rest (parse g state inst rest) := by
  unfold parse
  by_cases c1 : inst &&& 0xC0 ≠ 0
  · rw [if_pos c1]
    cases rest with
    | nil => trivial
    | cons h rest => exact ⟨by omega, by rw [List.length_cons]; omega⟩
  · rw [if_neg c1]
    by_cases c2 : inst &&& 0x20 ≠ 0
    · rw [if_pos c2]
      refine withLen_ok g rest _ _ _ _ fun n r hr => ?_
      match r with
      | [] => trivial
      | [_] => trivial
      | a :: b :: r => exact ⟨by omega, by simp only [List.length_cons] at hr; omega⟩
    · rw [if_neg c2]
      by_cases c3 : inst &&& 0x10 ≠ 0
      · rw [if_pos c3]
        refine withLen_ok g rest _ _ _ _ fun n r hr => ?_
        match r with
        | [] => trivial
        | [_] => trivial
        | a :: b :: r =>
          simp only [List.length_cons] at hr
          rw [le16]
          unfold insM4
          by_cases c : ((inst &&& 8) <<< 11) + ((a + 256 * b) >>> 2) = 0
          · rw [if_pos c]; exact (show r.length ≤ rest.length by omega)
          · rw [if_neg c]; exact ⟨by omega, by omega⟩
      · rw [if_neg c3]
        unfold parseM1
        by_cases c : state = 0
        · rw [if_pos c]
          exact withLen_ok g rest _ _ _ _ fun n r hr => hr
        · rw [if_neg c]
          cases rest with
          | nil => trivial
          | cons h rest =>
            simp only
            by_cases c4 : state ≠ 4
            · rw [if_pos c4]; exact ⟨by omega, by rw [List.length_cons]; omega⟩
            · rw [if_neg c4]; exact ⟨by omega, by rw [List.length_cons]; omega⟩

theorem copyBack_spec (cap dist : Nat) (hd : 1 ≤ dist) : ∀ (n : Nat) (out : List Nat), dist ≤ out.length → out.length + n ≤ cap →
    ∃ w, copyBack cap dist n out = some (out ++ w) ∧ w.length = n
  | 0, out, _, _ => ⟨[], by rw [copyBack, List.append_nil], rfl⟩
  | n + 1, out, h1, h2 => by
    rw [copyBack, if_neg (by omega), store, if_pos (by rw [List.length_singleton]; omega)]
    simp only
    obtain ⟨w, e, hw⟩ := copyBack_spec cap dist hd n (out ++ [out.getD (out.length - dist) 0])
      (by rw [List.length_append]; omega) (by rw [List.length_append, List.length_singleton]; omega)
    exact ⟨out.getD (out.length - dist) 0 :: w, by rw [e, List.append_assoc, List.singleton_append], by rw [List.length_cons, hw]⟩

/-- What may happen: not storing outside, not getting stuck; and reading outside only if `ov`. -/
def ROk (cap : Nat) (ov : Bool) : R → Prop
  | .ret _ out => out.length ≤ cap
  | .over => ov = true
  | _ => False

theorem copyLits_spec (cap : Nat) (out rest : List Nat) (n : Nat) (ho : out.length ≤ cap) (ov : Bool) :
    match copyLits cap out rest n with
    | .inl r => ROk cap ov r
    | .inr (out', rest') => out'.length ≤ cap ∧ out' = out ++ rest.take n ∧ rest' = rest.drop n := by
  unfold copyLits
  by_cases c1 : n > rest.length
  · rw [if_pos c1]; exact ho
  · rw [if_neg c1]
    by_cases c2 : out.length + n > cap
    · rw [if_pos c2]; exact ho
    · rw [if_neg c2, store, if_pos (by rw [List.length_take]; omega)]
      exact ⟨by rw [List.length_append, List.length_take]; omega, rfl, rfl⟩

theorem doCopy_spec (cap : Nat) (out rest : List Nat) (dist len n : Nat) (hd : 1 ≤ dist) (ho : out.length ≤ cap) (ov : Bool) :
    match doCopy cap out rest dist len n with
    | .inl r => ROk cap ov r
    | .inr (out', rest') => out'.length ≤ cap ∧ rest' = rest.drop n ∧ ∃ w, out' = out ++ w := by
  unfold doCopy
  by_cases c0 : dist > out.length
  · rw [if_pos c0]; exact ho
  · rw [if_neg c0]
    by_cases c1 : n > rest.length
    · rw [if_pos c1]; exact ho
    · rw [if_neg c1]
      by_cases c2 : out.length + (len + n) > cap
      · rw [if_pos c2]; exact ho
      · rw [if_neg c2]
        obtain ⟨w, e, hw⟩ := copyBack_spec cap dist hd len out (by omega) (by omega)
        rw [e]
        simp only
        rw [store, if_pos (by rw [List.length_take, List.length_append]; omega)]
        exact ⟨by rw [List.length_append, List.length_append, List.length_take]; omega, rfl, w ++ rest.take n, by rw [List.append_assoc]⟩

/-- A zero run that stays in the memory. -/
def guarded (g : List Nat) : Bool := match g with | x :: _ => x != 0 | [] => false

theorem extLen_guard (g rest : List Nat) (base add : Nat) (hg : guarded g = true) : extLen g rest base add ≠ .over := by
  cases g with
  | nil => cases hg
  | cons x g =>
    intro h
    unfold extLen at h
    cases hz : zeros (rest ++ x :: g) with
    | none => exact zeros_guard x (by simpa [guarded] using hg) g rest hz
    | some r =>
      rw [hz] at h
      simp only at h
      by_cases c1 : r.1 > max255
      · rw [if_pos c1] at h; cases h
      · rw [if_neg c1] at h
        by_cases c2 : r.2.length ≤ (x :: g).length
        · rw [if_pos c2] at h; cases h
        · rw [if_neg c2] at h; cases h

theorem withLen_guard (g rest : List Nat) (base len add : Nat) (k : Nat → List Nat → P) (hg : guarded g = true)
    (hk : ∀ n r, k n r ≠ .over) : withLen g rest base len add k ≠ .over := by
  unfold withLen
  by_cases c : len = base
  · rw [if_pos c]
    cases he : extLen g rest len add with
    | over => exact absurd he (extLen_guard g rest len add hg)
    | fail c => intro h; cases h
    | ok n r => exact hk n r
  · rw [if_neg c]; exact hk _ _

theorem le16_ne (len : Nat) (f : Nat → Nat → Ins) (r : List Nat) : le16 len f r ≠ .over := by
  unfold le16; split <;> exact fun h => by cases h

theorem parse_guard (g : List Nat) (state inst : Nat) (rest : List Nat) (hg : guarded g = true) : parse g state inst rest ≠ .over := by
  unfold parse
  by_cases c1 : inst &&& 0xC0 ≠ 0
  · rw [if_pos c1]
    cases rest with
    | nil => exact fun h => by cases h
    | cons h rest => exact fun h => by cases h
  · rw [if_neg c1]
    by_cases c2 : inst &&& 0x20 ≠ 0
    · rw [if_pos c2]
      exact withLen_guard g rest _ _ _ _ hg fun n r => le16_ne _ _ _
    · rw [if_neg c2]
      by_cases c3 : inst &&& 0x10 ≠ 0
      · rw [if_pos c3]
        exact withLen_guard g rest _ _ _ _ hg fun n r => le16_ne _ _ _
      · rw [if_neg c3]
        unfold parseM1
        by_cases c : state = 0
        · rw [if_pos c]
          exact withLen_guard g rest _ _ _ _ hg fun n r => fun h => by cases h
        · rw [if_neg c]
          cases rest with
          | nil => exact fun h => by cases h
          | cons h rest =>
            simp only
            by_cases c4 : state ≠ 4
            · rw [if_pos c4]; exact fun h => by cases h
            · rw [if_neg c4]; exact fun h => by cases h

theorem run_spec (g : List Nat) (cap : Nat) : ∀ (fuel : Nat) (rest out : List Nat) (state : Nat), rest.length < fuel →
    out.length ≤ cap → ROk cap (!guarded g) (run g cap fuel rest out state)
  | 0, _, _, _, h, _ => absurd h (Nat.not_lt_zero _)
  | _ + 1, [], _, _, _, ho => ho
  | fuel + 1, inst :: rest, out, state, hf, ho => by
    rw [run]
    rw [List.length_cons] at hf
    have hp := parse_ok g state inst rest
    have hg := parse_guard g state inst rest
    cases hc : parse g state inst rest with
    | over =>
      show (!guarded g) = true
      cases hgd : guarded g with
      | true => exact absurd hc (hg hgd)
      | false => rfl
    | fail c => exact ho
    | ok i rest' =>
      rw [hc] at hp
      cases i with
      | eos lblen =>
        simp only [finish]
        split
        · exact ho
        · split <;> exact ho
      | lits len =>
        simp only
        have := copyLits_spec cap out rest' len ho (!guarded g)
        cases hl : copyLits cap out rest' len with
        | inl r => rw [hl] at this; exact this
        | inr p =>
          rw [hl] at this
          simp only
          have hp' : rest'.length ≤ rest.length := hp
          exact run_spec g cap fuel p.2 p.1 4 (by rw [this.2.2, List.length_drop]; omega) this.1
      | copy d l n =>
        simp only
        have hp' : 1 ≤ d ∧ rest'.length ≤ rest.length := hp
        have := doCopy_spec cap out rest' d l n hp'.1 ho (!guarded g)
        cases hl : doCopy cap out rest' d l n with
        | inl r => rw [hl] at this; exact this
        | inr p =>
          rw [hl] at this
          simp only
          exact run_spec g cap fuel p.2 p.1 n (by rw [this.2.1, List.length_drop]; omega) this.1

theorem decompress_spec (g src : List Nat) (cap : Nat) : ROk cap (!guarded g) (decompress g src cap) := by
  have hfrom : ∀ st rest n, ROk cap (!guarded g) (runFrom g cap st (copyLits cap [] rest n)) := fun st rest n => by
    have := copyLits_spec cap [] rest n (Nat.zero_le _) (!guarded g)
    cases hl : copyLits cap [] rest n with
    | inl r => rw [hl] at this; exact this
    | inr p =>
      rw [hl] at this
      exact run_spec g cap _ _ _ _ (Nat.lt_succ_self _) this.1
  unfold decompress
  by_cases c : src.length < 3
  · rw [if_pos c]; exact Nat.zero_le _
  · rw [if_neg c]
    cases src with
    | nil => exact Nat.zero_le _
    | cons b rest =>
      simp only
      by_cases c1 : b ≥ 22
      · rw [if_pos c1]; exact hfrom _ _ _
      · rw [if_neg c1]
        by_cases c2 : b ≥ 18
        · rw [if_pos c2]; exact hfrom _ _ _
        · rw [if_neg c2]
          exact run_spec g cap _ _ _ _ (Nat.lt_succ_self _) (Nat.zero_le _)

end Verif.Lzo
