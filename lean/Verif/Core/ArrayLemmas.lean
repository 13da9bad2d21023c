import Verif.Core.Array
/-!
Lemmas about the array and fifo model.
-/
set_option linter.unusedSimpArgs false
namespace Verif.Core
open Verif

theorem sizeAlign_ge (total align : Nat) : total ≤ sizeAlign total align := by
  unfold sizeAlign
  simp only
  generalize (if align = 0 then autoAlign total else align) - 1 = m
  have := Nat.and_le_right (n := total + m) (m := m)
  omega

theorem fresh_length (junk : Nat → UInt8) (k n : Nat) : (fresh junk k n).length = n - k := by
  simp [fresh]

theorem reAlloc_spec {m : Mem} {a a' : Arr} {n : Nat} (h : reAlloc m a n = some a') :
    (∃ ext, a'.mem = a.mem ++ ext) ∧ a'.used = a.used ∧ n ≤ a'.cap := by
  unfold reAlloc at h
  cases hb : a.blk with
  | none =>
    rw [hb] at h; simp only at h
    by_cases ho : m.ok
    · rw [if_pos ho] at h; cases h
      refine ⟨⟨fresh m.junk 0 n, by simp [Arr.mem, hb]⟩, rfl, ?_⟩
      simp [Arr.cap, Arr.mem, fresh_length]
    · rw [if_neg ho] at h; cases h
  | some b =>
    rw [hb] at h; simp only at h
    by_cases hl : b.length < n
    · rw [if_pos hl] at h
      by_cases ho : m.ok
      · rw [if_pos ho] at h; cases h
        refine ⟨⟨fresh m.junk b.length n, by simp [Arr.mem, hb]⟩, rfl, ?_⟩
        simp [Arr.cap, Arr.mem, fresh_length]; omega
      · rw [if_neg ho] at h; cases h
    · rw [if_neg hl] at h; cases h
      exact ⟨⟨[], by simp⟩, rfl, by simp [Arr.cap, Arr.mem, hb]; omega⟩

theorem reAlloc_none {m : Mem} {a : Arr} {n : Nat} (h : reAlloc m a n = none) : m.ok = false := by
  unfold reAlloc at h
  cases ho : m.ok
  · rfl
  · rw [ho] at h; split at h <;> simp at h
    split at h <;> simp at h

theorem arrAlloc_spec {m : Mem} {a a' : Arr} {n al : Nat} (h : arrAlloc m a n al = some a') :
    (∃ ext, a'.mem = a.mem ++ ext) ∧ a'.used = a.used ∧ n ≤ a'.cap := by
  unfold arrAlloc at h
  cases hr : reAlloc m a (sizeAlign n al) with
  | none => rw [hr] at h; cases h
  | some b =>
    rw [hr] at h; cases h
    obtain ⟨⟨ext, h1⟩, _, h3⟩ := reAlloc_spec hr
    exact ⟨⟨ext, h1⟩, rfl, Nat.le_trans (sizeAlign_ge n al) h3⟩

theorem arrAlloc_none {m : Mem} {a : Arr} {n al : Nat} (h : arrAlloc m a n al = none) : m.ok = false := by
  unfold arrAlloc at h
  cases hr : reAlloc m a (sizeAlign n al) with
  | none => exact reAlloc_none hr
  | some b => rw [hr] at h; cases h

theorem arrRoom_spec {m : Mem} {a a' : Arr} {n al : Nat} (h : arrRoom m a n al = some a') :
    (∃ ext, a'.mem = a.mem ++ ext) ∧ a'.used = a.used ∧ n ≤ a'.cap := by
  unfold arrRoom at h
  by_cases hc : n > a.cap
  · rw [if_pos hc] at h; exact arrAlloc_spec h
  · rw [if_neg hc] at h; cases h
    exact ⟨⟨[], by simp⟩, rfl, by omega⟩

theorem arrRoom_none {m : Mem} {a : Arr} {n al : Nat} (h : arrRoom m a n al = none) :
    m.ok = false ∧ a.cap < n := by
  unfold arrRoom at h
  by_cases hc : n > a.cap
  · rw [if_pos hc] at h; exact ⟨arrAlloc_none h, hc⟩
  · rw [if_neg hc] at h; cases h

theorem put_spec (a : Arr) (ofs : Nat) (bs : Bytes) (h : ofs + bs.length ≤ a.cap) :
    ∃ a', a.put ofs bs = some a' ∧ a'.used = a.used ∧
      a'.mem = a.mem.take ofs ++ bs ++ a.mem.drop (ofs + bs.length) := by
  unfold Arr.put
  rw [if_pos h]
  by_cases h0 : bs.length = 0
  · rw [if_pos h0]
    refine ⟨a, rfl, rfl, ?_⟩
    rw [List.length_eq_zero_iff] at h0
    subst h0; simp
  · rw [if_neg h0]
    exact ⟨_, rfl, rfl, rfl⟩

theorem put_none (a : Arr) (ofs : Nat) (bs : Bytes) (h : ¬ ofs + bs.length ≤ a.cap) :
    a.put ofs bs = none := by
  unfold Arr.put; rw [if_neg h]

theorem move_spec (a : Arr) (dst src len : Nat) (h : src + len ≤ a.cap) (h' : dst + len ≤ a.cap) :
    ∃ a', a.move dst src len = some a' ∧ a'.used = a.used ∧
      a'.mem = a.mem.take dst ++ (a.mem.drop src).take len ++ a.mem.drop (dst + len) := by
  unfold Arr.move
  rw [if_pos h]
  have hl : ((a.mem.drop src).take len).length = len := by
    rw [List.length_take, List.length_drop]
    unfold Arr.cap at h; omega
  obtain ⟨a', h1, h2, h3⟩ := put_spec a dst ((a.mem.drop src).take len) (by omega)
  rw [hl] at h3
  exact ⟨a', h1, h2, h3⟩

/-- The used part lies within the block. -/
def Arr.Wf (a : Arr) : Prop := a.used ≤ a.cap

theorem view_length {a : Arr} (h : a.Wf) : a.view.length = a.used := by
  unfold Arr.view Arr.Wf Arr.cap at *
  rw [List.length_take]; omega

theorem cap_splice (l bs : Bytes) (ofs : Nat) (h : ofs + bs.length ≤ l.length) :
    (l.take ofs ++ bs ++ l.drop (ofs + bs.length)).length = l.length := by
  simp only [List.length_append, List.length_take, List.length_drop]; omega

theorem take_ext (l ext : Bytes) (n : Nat) (h : n ≤ l.length) : (l ++ ext).take n = l.take n := by
  rw [List.take_append_of_le_length h]

/-- Everything about one `ArrayAppend`. -/
theorem arrAppend_spec (m : Mem) (a : Arr) (bs : Bytes) (al : Nat) (hw : a.Wf) :
    (m.ok = false ∧ a.cap < a.used + bs.length ∧ arrAppend m a bs al = some (false, a)) ∨
    ∃ a', arrAppend m a bs al = some (true, a') ∧ a'.view = a.view ++ bs ∧ a'.Wf ∧ a.cap ≤ a'.cap := by
  unfold arrAppend
  cases hr : arrRoom m a (a.used + bs.length) al with
  | none => exact Or.inl ⟨(arrRoom_none hr).1, (arrRoom_none hr).2, rfl⟩
  | some b =>
    right
    obtain ⟨⟨ext, h1⟩, h2, h3⟩ := arrRoom_spec hr
    obtain ⟨c, p1, p2, p3⟩ := put_spec b b.used bs (by omega)
    simp only
    rw [p1]
    have hcap : c.mem.length = b.mem.length := by
      rw [p3]; exact cap_splice _ _ _ (by unfold Arr.cap at h3; omega)
    have hw' : a.used ≤ a.mem.length := hw
    refine ⟨_, rfl, ?_, ?_, ?_⟩
    · show (c.mem.take (c.used + bs.length)) = a.mem.take a.used ++ bs
      rw [p3, p2, h2, h1]
      rw [take_ext _ _ _ hw']
      rw [List.append_assoc, List.take_append, List.take_take, List.length_take,
        Nat.min_eq_left hw', Nat.min_eq_right (by omega), Nat.add_sub_cancel_left,
        List.take_left' rfl]
    · show c.used + bs.length ≤ c.mem.length
      unfold Arr.cap at h3; omega
    · show a.mem.length ≤ c.mem.length
      rw [hcap, h1, List.length_append]; omega

/-- Everything about one `ArrayAppend` without data. -/
theorem arrGap_spec (m : Mem) (a : Arr) (n al : Nat) (hw : a.Wf) :
    (m.ok = false ∧ a.cap < a.used + n ∧ arrGap m a n al = some (false, a)) ∨
    ∃ a', arrGap m a n al = some (true, a') ∧ (∃ g, g.length = n ∧ a'.view = a.view ++ g) ∧ a'.Wf ∧
      a'.used = a.used + n ∧ a.cap ≤ a'.cap := by
  unfold arrGap
  cases hr : arrRoom m a (a.used + n) al with
  | none => exact Or.inl ⟨(arrRoom_none hr).1, (arrRoom_none hr).2, rfl⟩
  | some b =>
    right
    obtain ⟨⟨ext, h1⟩, h2, h3⟩ := arrRoom_spec hr
    have hw' : a.used ≤ a.mem.length := hw
    have h3' : a.used + n ≤ (a.mem ++ ext).length := by rw [← h1]; exact h3
    refine ⟨_, rfl, ⟨((a.mem ++ ext).drop a.used).take n, ?_, ?_⟩, ?_, ?_, ?_⟩
    · rw [List.length_take, List.length_drop]; omega
    · show b.mem.take (b.used + n) = a.mem.take a.used ++ _
      rw [h1, h2, List.take_add, take_ext _ _ _ hw']
    · show b.used + n ≤ b.cap
      omega
    · show b.used + n = a.used + n
      omega
    · show a.mem.length ≤ b.mem.length
      rw [h1, List.length_append]; omega

theorem insert_lists (M : Bytes) (u ofs : Nat) (bs : Bytes) (ho : ofs ≤ u) (hM : u + bs.length ≤ M.length) :
    (((M.take (ofs + bs.length) ++ (M.drop ofs).take (u - ofs) ++ M.drop (ofs + bs.length + (u - ofs))).take ofs
      ++ bs ++ (M.take (ofs + bs.length) ++ (M.drop ofs).take (u - ofs) ++
        M.drop (ofs + bs.length + (u - ofs))).drop (ofs + bs.length)).take (u + bs.length)) =
    (M.take u).take ofs ++ bs ++ (M.take u).drop ofs := by
  have l1 : (M.take (ofs + bs.length)).length = ofs + bs.length := by rw [List.length_take]; omega
  have l2 : ((M.drop ofs).take (u - ofs)).length = u - ofs := by
    rw [List.length_take, List.length_drop]; omega
  have e1 : (M.take (ofs + bs.length) ++ (M.drop ofs).take (u - ofs) ++ M.drop (ofs + bs.length + (u - ofs))).take ofs
      = M.take ofs := by
    rw [List.append_assoc, List.take_append_of_le_length (by omega), List.take_take,
      Nat.min_eq_left (by omega)]
  have e2 : (M.take (ofs + bs.length) ++ (M.drop ofs).take (u - ofs) ++
        M.drop (ofs + bs.length + (u - ofs))).drop (ofs + bs.length) =
      (M.drop ofs).take (u - ofs) ++ M.drop (ofs + bs.length + (u - ofs)) := by
    rw [List.append_assoc, List.drop_left' l1]
  rw [e1, e2, List.take_take, Nat.min_eq_left ho, List.drop_take, ← List.append_assoc]
  refine List.take_left' ?_
  simp only [List.length_append, List.length_take, List.length_drop]; omega

/-- Everything about one `ArrayInsert` within the contents. -/
theorem arrInsert_spec (m : Mem) (a : Arr) (ofs : Nat) (bs : Bytes) (al : Nat) (hw : a.Wf) (ho : ofs ≤ a.used) :
    (m.ok = false ∧ a.cap < a.used + bs.length ∧ arrInsert m a ofs bs al = some (false, a)) ∨
    ∃ a', arrInsert m a ofs bs al = some (true, a') ∧
      a'.view = a.view.take ofs ++ bs ++ a.view.drop ofs ∧ a'.Wf ∧ a.cap ≤ a'.cap := by
  unfold arrInsert
  rcases arrGap_spec m a bs.length al hw with ⟨h1, h2, h3⟩ | ⟨b, h1, ⟨g, hg, hv⟩, hwb, hu, hc⟩
  · left; rw [h3]; exact ⟨h1, h2, rfl⟩
  · right
    rw [h1]
    simp only
    have hwb' : b.used ≤ b.mem.length := hwb
    rw [if_neg (by omega)]
    obtain ⟨c, m1, m2, m3⟩ := move_spec b (ofs + bs.length) ofs (b.used - bs.length - ofs)
      (by unfold Arr.cap; omega) (by unfold Arr.cap; omega)
    rw [m1]
    simp only
    have lc : c.mem.length = b.mem.length := by
      rw [m3]
      simp only [List.length_append, List.length_take, List.length_drop]; omega
    obtain ⟨d, p1, p2, p3⟩ := put_spec c ofs bs (by unfold Arr.cap; omega)
    rw [p1]
    have ld : d.mem.length = c.mem.length := by
      rw [p3]; exact cap_splice _ _ _ (by omega)
    have hbv : b.mem.take a.used = a.view := by
      have hvl := view_length hw
      have : b.view.take a.used = a.view := by rw [hv]; exact List.take_left' hvl
      rw [← this]; unfold Arr.view
      rw [List.take_take, Nat.min_eq_left (by omega)]
    refine ⟨d, rfl, ?_, ?_, ?_⟩
    · have key := insert_lists b.mem a.used ofs bs ho (by omega)
      have hsub : b.used - bs.length - ofs = a.used - ofs := by omega
      show d.mem.take d.used = _
      rw [p3, p2, m2, m3, hsub, hu, key, hbv]
    · show d.used ≤ d.mem.length
      omega
    · show a.mem.length ≤ d.mem.length
      have : a.mem.length ≤ b.mem.length := hc
      omega

theorem arrInsert_bad (m : Mem) (a : Arr) (ofs : Nat) (bs : Bytes) (al : Nat) (hw : a.Wf) (ho : a.used < ofs) :
    (m.ok = false ∧ a.cap < a.used + bs.length) ∨ arrInsert m a ofs bs al = none := by
  unfold arrInsert
  rcases arrGap_spec m a bs.length al hw with ⟨h1, h2, h3⟩ | ⟨b, h1, ⟨g, hg, hv⟩, hwb, hu, hc⟩
  · exact Or.inl ⟨h1, h2⟩
  · right
    rw [h1]; simp only
    rw [if_pos (by omega)]

/-- Everything about one `ArrayDelete` within the contents. -/
theorem arrDelete_spec (a : Arr) (ofs w : Nat) (hw : a.Wf) (h : ofs + w ≤ a.used) :
    ∃ a', arrDelete a ofs w = some a' ∧ a'.view = a.view.take ofs ++ a.view.drop (ofs + w) ∧ a'.Wf ∧
      a'.cap = a.cap := by
  have hw' : a.used ≤ a.mem.length := hw
  unfold arrDelete
  rw [if_neg (by omega)]
  obtain ⟨c, m1, m2, m3⟩ := move_spec a ofs (ofs + w) (a.used - w - ofs)
      (by unfold Arr.cap; omega) (by unfold Arr.cap; omega)
  rw [m1]
  have lc : c.mem.length = a.mem.length := by
    rw [m3]
    simp only [List.length_append, List.length_take, List.length_drop]; omega
  refine ⟨_, rfl, ?_, ?_, lc⟩
  · show c.mem.take (c.used - w) = (a.mem.take a.used).take ofs ++ (a.mem.take a.used).drop (ofs + w)
    rw [m3, m2, List.take_take, Nat.min_eq_left (by omega), List.drop_take,
      show a.used - (ofs + w) = a.used - w - ofs by omega]
    refine List.take_left' ?_
    simp only [List.length_append, List.length_take, List.length_drop]; omega
  · show c.used - w ≤ c.mem.length
    omega

theorem arrShrink_spec (a : Arr) (n : Nat) (hw : a.Wf) :
    (arrShrink a n).view = a.view.take (a.view.length - n) ∧ (arrShrink a n).Wf ∧
    (arrShrink a n).cap = a.cap := by
  have hv := view_length hw
  have hw' : a.used ≤ a.mem.length := hw
  unfold arrShrink
  by_cases h : a.used > n
  · rw [if_pos h, hv]
    refine ⟨?_, ?_, rfl⟩
    · show a.mem.take (a.used - n) = (a.mem.take a.used).take (a.used - n)
      rw [List.take_take, Nat.min_eq_left (by omega)]
    · show a.used - n ≤ a.mem.length
      omega
  · rw [if_neg h, hv, show a.used - n = 0 by omega]
    exact ⟨rfl, Nat.zero_le _, rfl⟩

theorem arrClear_spec (a : Arr) (hw : a.Wf) : (arrClear a).view = [] ∧ (arrClear a).Wf ∧ (arrClear a).cap = 0 := by
  unfold arrClear
  cases hb : a.blk with
  | none =>
    have hm : a.mem = [] := by simp [Arr.mem, hb]
    refine ⟨by simp [Arr.view, hm], hw, by simp [Arr.cap, hm]⟩
  | some b => exact ⟨rfl, Nat.le_refl _, rfl⟩

theorem arrDrop_spec (a : Arr) : (arrDrop a).view = [] ∧ (arrDrop a).Wf ∧ (arrDrop a).cap = a.cap :=
  ⟨rfl, Nat.zero_le _, rfl⟩

theorem arrResize_spec (m : Mem) (a : Arr) (n al : Nat) (hw : a.Wf) :
    (m.ok = false ∧ a.cap < n ∧ arrResize m a n al = (false, a)) ∨
    ∃ a', arrResize m a n al = (true, a') ∧ (∃ g, a'.view = a.view.take n ++ g ∧ g.length = n - a.view.length) ∧
      a'.used = n ∧ a'.Wf ∧ a.cap ≤ a'.cap := by
  have hv := view_length hw
  have hw' : a.used ≤ a.mem.length := hw
  unfold arrResize
  cases hr : arrRoom m a n al with
  | none => exact Or.inl ⟨(arrRoom_none hr).1, (arrRoom_none hr).2, rfl⟩
  | some b =>
    right
    obtain ⟨⟨ext, h1⟩, h2, h3⟩ := arrRoom_spec hr
    have h3' : n ≤ (a.mem ++ ext).length := by rw [← h1]; exact h3
    refine ⟨_, rfl, ?_, rfl, h3, ?_⟩
    · by_cases hn : n ≤ a.used
      · refine ⟨[], ?_, by simp; omega⟩
        show b.mem.take n = (a.mem.take a.used).take n ++ []
        rw [h1, List.take_take, Nat.min_eq_left hn, List.append_nil, take_ext _ _ _ (by omega)]
      · refine ⟨((a.mem ++ ext).drop a.used).take (n - a.used), ?_, ?_⟩
        · show b.mem.take n = (a.mem.take a.used).take n ++ _
          rw [h1, List.take_take, Nat.min_eq_right (by omega)]
          have : (a.mem ++ ext).take (a.used + (n - a.used)) =
            (a.mem ++ ext).take a.used ++ ((a.mem ++ ext).drop a.used).take (n - a.used) := List.take_add ..
          rw [show a.used + (n - a.used) = n by omega, take_ext _ _ a.used hw'] at this
          exact this
        · rw [List.length_take, List.length_drop]; omega
    · show a.mem.length ≤ b.mem.length
      rw [h1, List.length_append]; omega

theorem arrCopy_spec (m : Mem) (a : Arr) (bs : Bytes) (hw : a.Wf) :
    (m.ok = false ∧ a.cap < bs.length ∧ arrCopy m a bs = some (false, a)) ∨
    ∃ a', arrCopy m a bs = some (true, a') ∧ a'.view = bs ∧ a'.Wf ∧ a.cap ≤ a'.cap := by
  unfold arrCopy
  rcases arrResize_spec m a bs.length 0 hw with ⟨h1, h2, h3⟩ | ⟨b, h1, _, hu, hwb, hc⟩
  · left; rw [h3]; exact ⟨h1, h2, rfl⟩
  · right
    rw [h1]
    simp only
    have hwb' : b.used ≤ b.mem.length := hwb
    obtain ⟨d, p1, p2, p3⟩ := put_spec b 0 bs (by unfold Arr.cap; omega)
    rw [p1]
    have ld : d.mem.length = b.mem.length := by
      rw [p3]; exact cap_splice _ _ _ (by omega)
    refine ⟨d, rfl, ?_, ?_, ?_⟩
    · show d.mem.take d.used = bs
      rw [p3, p2, hu, List.take_zero, List.nil_append]
      exact List.take_left' rfl
    · show d.used ≤ d.mem.length
      omega
    · show a.mem.length ≤ d.mem.length
      have : a.mem.length ≤ b.mem.length := hc
      omega

theorem arrZero_spec (a : Arr) (hw : a.Wf) :
    ∃ a', arrZero a = some a' ∧ a'.view = List.replicate a.view.length 0 ∧ a'.Wf ∧ a'.cap = a.cap := by
  have hv := view_length hw
  have hw' : a.used ≤ a.mem.length := hw
  unfold arrZero
  obtain ⟨d, p1, p2, p3⟩ := put_spec a 0 (List.replicate a.used 0) (by rw [List.length_replicate]; unfold Arr.cap; omega)
  have ld : d.mem.length = a.mem.length := by
    rw [p3]; exact cap_splice _ _ _ (by rw [List.length_replicate]; omega)
  refine ⟨d, p1, ?_, ?_, ld⟩
  · show d.mem.take d.used = _
    rw [p3, p2, hv, List.take_zero, List.nil_append]
    exact List.take_left' (List.length_replicate ..)
  · show d.used ≤ d.mem.length
    omega

theorem view_eq_of_ext {a b : Arr} {ext : Bytes} (hw : a.Wf) (h1 : b.mem = a.mem ++ ext) (h2 : b.used = a.used) :
    b.view = a.view := by
  unfold Arr.view; rw [h1, h2, take_ext _ _ _ hw]

end Verif.Core
