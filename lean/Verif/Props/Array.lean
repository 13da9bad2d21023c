import Verif.Core.FifoLemmas
/-!
Properties C45, C46, C51, C76, C77: dynamic arrays and the fifo.
-/
namespace Verif.Core
open Verif

/-! ### C45 -/

/-- What a successful operation does to the contents, as a list operation. The bytes added by
`gap` and by a growing `resize` are unspecified. -/
def Effect : AOp → Bytes → Bytes → Prop
  | .append bs _, v, v' => v' = v ++ bs
  | .gap n _, v, v' => ∃ g, g.length = n ∧ v' = v ++ g
  | .insert ofs bs _, v, v' => v' = v.take ofs ++ bs ++ v.drop ofs
  | .delete ofs w, v, v' => v' = v.take ofs ++ v.drop (ofs + w)
  | .shrink n, v, v' => v' = v.take (v.length - n)
  | .resize n _, v, v' => ∃ g, g.length = n - v.length ∧ v' = v.take n ++ g
  | .copy bs, _, v' => v' = bs
  | .zero, v, v' => v' = List.replicate v.length 0
  | .alloc _ _, v, v' => v' = v
  | .drop, _, v' => v' = []
  | .clear, _, v' => v' = []

/-- Insertion and deletion have to stay within the `n` bytes there are. -/
def InRange : AOp → Nat → Prop
  | .insert ofs _ _, n => ofs ≤ n
  | .delete ofs w, n => ofs + w ≤ n
  | _, _ => True

/-- The contents after a sequence of operations with the given results, where a failed
operation (only after a failed allocation) changes nothing. -/
def Replays : List (AOp × Mem) → List Bool → Bytes → Bytes → Prop
  | [], [], v, v' => v' = v
  | (op, m) :: r, f :: fs, v, v' =>
    ∃ w, (if f then Effect op v w else w = v ∧ m.ok = false) ∧ Replays r fs w v'
  | _, _, _, _ => False

theorem step_spec (m : Mem) (a : Arr) (op : AOp) (hw : a.Wf) (hr : InRange op a.view.length) :
    ∃ f a', arrStep m a op = some (f, a') ∧ a'.Wf ∧
      (if f then Effect op a.view a'.view else a' = a ∧ m.ok = false) := by
  have hv := view_length hw
  cases op with
  | append bs al =>
    rcases arrAppend_spec m a bs al hw with ⟨h1, _, h3⟩ | ⟨a', h1, h2, h3, _⟩
    · exact ⟨_, _, h3, hw, rfl, h1⟩
    · exact ⟨_, _, h1, h3, h2⟩
  | gap n al =>
    rcases arrGap_spec m a n al hw with ⟨h1, _, h3⟩ | ⟨a', h1, h2, h3, _⟩
    · exact ⟨_, _, h3, hw, rfl, h1⟩
    · exact ⟨_, _, h1, h3, h2⟩
  | insert o bs al =>
    rw [hv] at hr
    rcases arrInsert_spec m a o bs al hw hr with ⟨h1, _, h3⟩ | ⟨a', h1, h2, h3, _⟩
    · exact ⟨_, _, h3, hw, rfl, h1⟩
    · exact ⟨_, _, h1, h3, h2⟩
  | delete o w =>
    rw [hv] at hr
    obtain ⟨a', h1, h2, h3, _⟩ := arrDelete_spec a o w hw hr
    refine ⟨true, a', ?_, h3, h2⟩
    show (arrDelete a o w).map _ = _
    rw [h1]; rfl
  | shrink n => exact ⟨_, _, rfl, (arrShrink_spec a n hw).2.1, (arrShrink_spec a n hw).1⟩
  | resize n al =>
    rcases arrResize_spec m a n al hw with ⟨h1, _, h3⟩ | ⟨a', h1, ⟨g, h2, h2'⟩, _, h3, _⟩
    · exact ⟨false, a, by show some _ = _; rw [h3], hw, rfl, h1⟩
    · exact ⟨true, a', by show some _ = _; rw [h1], h3, g, h2', h2⟩
  | copy bs =>
    rcases arrCopy_spec m a bs hw with ⟨h1, _, h3⟩ | ⟨a', h1, h2, h3, _⟩
    · exact ⟨_, _, h3, hw, rfl, h1⟩
    · exact ⟨_, _, h1, h3, h2⟩
  | zero =>
    obtain ⟨a', h1, h2, h3, _⟩ := arrZero_spec a hw
    refine ⟨true, a', ?_, h3, h2⟩
    show (arrZero a).map _ = _
    rw [h1]; rfl
  | alloc n al =>
    cases ha : arrAlloc m a n al with
    | none =>
      refine ⟨false, a, ?_, hw, rfl, arrAlloc_none ha⟩
      show (match arrAlloc m a n al with | none => some (false, a) | some a' => some (true, a')) = _
      rw [ha]
    | some b =>
      obtain ⟨⟨ext, h1⟩, h2, h3⟩ := arrAlloc_spec ha
      refine ⟨true, b, ?_, ?_, view_eq_of_ext hw h1 h2⟩
      · show (match arrAlloc m a n al with | none => some (false, a) | some a' => some (true, a')) = _
        rw [ha]
      · show b.used ≤ b.mem.length
        have : a.used ≤ a.mem.length := hw
        rw [h1, h2, List.length_append]; omega
  | drop => exact ⟨_, _, rfl, (arrDrop_spec a).2.1, (arrDrop_spec a).1⟩
  | clear => exact ⟨_, _, rfl, (arrClear_spec a hw).2.1, (arrClear_spec a hw).1⟩

theorem step_bad (m : Mem) (a : Arr) (op : AOp) (hw : a.Wf) (hr : ¬ InRange op a.view.length) :
    arrStep m a op = none ∨ (m.ok = false ∧ arrStep m a op = some (false, a)) := by
  have hv := view_length hw
  cases op with
  | insert o bs al =>
    have hr' : a.used < o := by
      unfold InRange at hr; omega
    rw [arrStep, arrInsert]
    rcases arrGap_spec m a bs.length al hw with ⟨h1, _, h3⟩ | ⟨b, h1, _, _, hu, _⟩
    · right; rw [h3]; exact ⟨h1, rfl⟩
    · left; rw [h1]; simp only; rw [if_pos (by omega)]
  | delete o w =>
    left
    unfold InRange at hr
    show (arrDelete a o w).map _ = none
    unfold arrDelete
    rw [if_pos (by omega)]; rfl
  | _ => exact absurd trivial hr

theorem run_wf {ops : List (AOp × Mem)} {a a' : Arr} {fs : List Bool} (hw : a.Wf)
    (h : arrRun ops a = some (fs, a')) : a'.Wf ∧ Replays ops fs a.view a'.view := by
  induction ops generalizing a fs with
  | nil => cases h; exact ⟨hw, rfl⟩
  | cons x r ih =>
    obtain ⟨op, m⟩ := x
    unfold arrRun at h
    have hs : ∃ f b, arrStep m a op = some (f, b) ∧ b.Wf ∧
        (if f then Effect op a.view b.view else b = a ∧ m.ok = false) := by
      by_cases hr : InRange op a.view.length
      · exact step_spec m a op hw hr
      · rcases step_bad m a op hw hr with hb | ⟨hb, hb'⟩
        · rw [hb] at h; cases h
        · exact ⟨false, a, hb', hw, rfl, hb⟩
    obtain ⟨f, b, h1, h2, h3⟩ := hs
    rw [h1] at h
    simp only at h
    cases hr : arrRun r b with
    | none => rw [hr] at h; cases h
    | some p =>
      obtain ⟨fs', c⟩ := p
      rw [hr] at h; cases h
      obtain ⟨i1, i2⟩ := ih h2 hr
      refine ⟨i1, b.view, ?_, i2⟩
      cases f
      · exact ⟨by rw [h3.1], h3.2⟩
      · exact h3

/-- C45 without its "every argument": from an empty array, every sequence of operations that
does not leave the block acts on the contents like the list operations do, and an operation
fails only after a failed allocation, leaving the contents unchanged. In every state reached,
an operation whose range lies within the contents stays within the block. -/
theorem C45_array_operations_partial (ops : List (AOp × Mem)) (fs : List Bool) (a : Arr)
    (h : arrRun ops Arr.empty = some (fs, a)) :
    Replays ops fs [] a.view ∧
    ∀ (m : Mem) (op : AOp), InRange op a.view.length → ∃ f a', arrStep m a op = some (f, a') := by
  obtain ⟨h1, h2⟩ := run_wf (show Arr.empty.Wf from Nat.le_refl _) h
  refine ⟨h2, fun m op hr => ?_⟩
  obtain ⟨f, a', h3, _⟩ := step_spec m a op h1 hr
  exact ⟨f, a', h3⟩

/-- The exact limit of `C45_array_operations_partial`: an insertion or deletion beyond the
contents leaves the block, unless it already failed for lack of memory. -/
theorem C45_out_of_range (ops : List (AOp × Mem)) (fs : List Bool) (a : Arr)
    (h : arrRun ops Arr.empty = some (fs, a)) (m : Mem) (op : AOp) (hr : ¬ InRange op a.view.length) :
    arrStep m a op = none ∨ (m.ok = false ∧ arrStep m a op = some (false, a)) :=
  step_bad m a op (run_wf (show Arr.empty.Wf from Nat.le_refl _) h).1 hr

def memOk : Mem := ⟨true, fun _ => 0xCD⟩
def memFail : Mem := ⟨false, fun _ => 0xCD⟩

/-- C45 is false for every argument: deleting two bytes of a one-byte array copies 2^64 - 1
bytes. -/
theorem C45_counterexample :
    arrRun [(.append [7] 0, memOk), (.delete 0 2, memOk)] Arr.empty = none := by decide +kernel

/-- Two arrays compare as equal exactly when their contents are equal. -/
theorem C45_equality (a b : Arr) (ha : a.Wf) (hb : b.Wf) : arrEq a b = true ↔ a.view = b.view := by
  have h1 := view_length ha
  have h2 := view_length hb
  unfold arrEq
  simp only [Bool.and_eq_true, Bool.or_eq_true, beq_iff_eq]
  constructor
  · rintro ⟨e, h | h⟩
    · rw [List.length_eq_zero_iff.1 (h1.trans h), List.length_eq_zero_iff.1 (h2.trans (e ▸ h))]
    · exact h
  · intro e
    exact ⟨by rw [← h1, ← h2, e], Or.inr e⟩

/-- A history with an insertion in the middle, a deletion, and a failed append that changes
nothing. -/
example : (arrRun [(.append [1, 2, 3] 0, memOk), (.insert 1 [9, 8] 0, memOk), (.delete 0 1, memOk),
      (.append (List.replicate 20 5) 0, memFail), (.shrink 1, memOk)] Arr.empty).map
        (fun r => (r.1, r.2.view)) =
    some ([true, true, true, false, true], [9, 8, 2]) := by decide +kernel

/-! ### C46 -/

/-- C46. In every state reached the capacity covers the contents; no operation but clearing
makes it smaller; and reserving memory gives at least what was asked for. -/
theorem C46_capacity (ops : List (AOp × Mem)) (fs : List Bool) (a : Arr)
    (h : arrRun ops Arr.empty = some (fs, a)) :
    a.used ≤ a.cap ∧ a.view.length = a.used ∧
    (∀ m op f a', arrStep m a op = some (f, a') → op ≠ .clear → a.cap ≤ a'.cap) ∧
    (∀ m n al a', arrStep m a (.alloc n al) = some (true, a') → n ≤ a'.cap) := by
  obtain ⟨hw, -⟩ := run_wf (show Arr.empty.Wf from Nat.le_refl _) h
  have hv := view_length hw
  refine ⟨hw, hv, ?_, ?_⟩
  · intro m op f a' hs hc
    by_cases hr : InRange op a.view.length
    · cases op with
      | append bs al =>
        rcases arrAppend_spec m a bs al hw with ⟨h1, _, h3⟩ | ⟨b, h1, h2, h3, h4⟩
        · rw [arrStep, h3] at hs; cases hs; exact Nat.le_refl _
        · rw [arrStep, h1] at hs; cases hs; exact h4
      | gap n al =>
        rcases arrGap_spec m a n al hw with ⟨h1, _, h3⟩ | ⟨b, h1, h2, h3, _, h4⟩
        · rw [arrStep, h3] at hs; cases hs; exact Nat.le_refl _
        · rw [arrStep, h1] at hs; cases hs; exact h4
      | insert o bs al =>
        rw [hv] at hr
        rcases arrInsert_spec m a o bs al hw hr with ⟨h1, _, h3⟩ | ⟨b, h1, h2, h3, h4⟩
        · rw [arrStep, h3] at hs; cases hs; exact Nat.le_refl _
        · rw [arrStep, h1] at hs; cases hs; exact h4
      | delete o w =>
        rw [hv] at hr
        obtain ⟨b, h1, h2, h3, h4⟩ := arrDelete_spec a o w hw hr
        rw [arrStep, h1] at hs; cases hs; exact Nat.le_of_eq h4.symm
      | shrink n => cases hs; exact Nat.le_of_eq (arrShrink_spec a n hw).2.2.symm
      | resize n al =>
        rcases arrResize_spec m a n al hw with ⟨h1, _, h3⟩ | ⟨b, h1, _, _, h3, h4⟩
        · rw [arrStep, h3] at hs; cases hs; exact Nat.le_refl _
        · rw [arrStep, h1] at hs; cases hs; exact h4
      | copy bs =>
        rcases arrCopy_spec m a bs hw with ⟨h1, _, h3⟩ | ⟨b, h1, h2, h3, h4⟩
        · rw [arrStep, h3] at hs; cases hs; exact Nat.le_refl _
        · rw [arrStep, h1] at hs; cases hs; exact h4
      | zero =>
        obtain ⟨b, h1, h2, h3, h4⟩ := arrZero_spec a hw
        rw [arrStep, h1] at hs; cases hs; exact Nat.le_of_eq h4.symm
      | alloc n al =>
        rw [arrStep] at hs
        cases ha : arrAlloc m a n al with
        | none => rw [ha] at hs; cases hs; exact Nat.le_refl _
        | some b =>
          rw [ha] at hs; cases hs
          obtain ⟨⟨ext, h1⟩, h2, h3⟩ := arrAlloc_spec ha
          show a.mem.length ≤ a'.mem.length
          rw [h1, List.length_append]; omega
      | drop => cases hs; exact Nat.le_refl _
      | clear => exact absurd rfl hc
    · rcases step_bad m a op hw hr with hb | ⟨_, hb⟩
      · rw [hb] at hs; cases hs
      · rw [hb] at hs; cases hs; exact Nat.le_refl _
  · intro m n al a' hs
    rw [arrStep] at hs
    cases ha : arrAlloc m a n al with
    | none => rw [ha] at hs; cases hs
    | some b => rw [ha] at hs; cases hs; exact (arrAlloc_spec ha).2.2

/-- The capacity is rounded up to the alignment, 16 for a small array. -/
example : (arrRun [(.append (List.replicate 17 1) 0, memOk), (.shrink 17, memOk)] Arr.empty).map
    (fun r => (r.2.used, r.2.cap)) = some (0, 32) := by decide +kernel

/-! ### C76 -/

/-- C76 without its failure case: in every state reached, a successful string append leaves the
contents followed by the string and its NUL, where merging first takes off a NUL at the end;
merging an empty string changes nothing. When memory runs out it fails, and changes nothing
unless it is merging after a NUL. -/
theorem C76_append_string_partial (ops : List (AOp × Mem)) (fs : List Bool) (a : Arr)
    (h : arrRun ops Arr.empty = some (fs, a)) (m : Mem) (s : Bytes) (merge : Bool) (al : Nat) :
    ∃ f a', arrAppendStr m a s merge al = some (f, a') ∧
      (f = true → a'.view =
        if s = [] ∧ merge = true then a.view
        else if merge = true ∧ a.view.getLast? = some 0 then a.view.dropLast ++ s ++ [0]
        else a.view ++ s ++ [0]) ∧
      (f = false → m.ok = false ∧
        (¬ (merge = true ∧ a.view.getLast? = some 0) → a' = a)) := by
  obtain ⟨hw, -⟩ := run_wf (show Arr.empty.Wf from Nat.le_refl _) h
  have hv := view_length hw
  have hw' : a.used ≤ a.mem.length := hw
  unfold arrAppendStr
  by_cases h0 : s ≠ [] ∨ merge = false
  · rw [if_pos h0]
    have h0' : ¬ (s = [] ∧ merge = true) := by
      rintro ⟨e1, e2⟩
      rcases h0 with h0 | h0
      · exact h0 e1
      · rw [e2] at h0; cases h0
    rw [if_neg h0']
    by_cases h1 : merge = true ∧ a.used ≠ 0
    · rw [if_pos h1]
      have hlast : a.mem[a.used - 1]? = a.view.getLast? := by
        rw [List.getLast?_eq_getElem?, hv]
        unfold Arr.view
        rw [List.getElem?_take, if_pos (by omega)]
      have hlt : a.used - 1 < a.mem.length := by omega
      rw [List.getElem?_eq_getElem hlt]
      simp only
      rw [← hlast, List.getElem?_eq_getElem hlt]
      by_cases hc : a.mem[a.used - 1] = 0
      · rw [if_pos hc]
        obtain ⟨s1, s2, s3⟩ := arrShrink_spec a 1 hw
        rw [if_pos ⟨h1.1, by rw [hc]⟩]
        rcases arrAppend_spec m (arrShrink a 1) (s ++ [0]) al s2 with ⟨e1, _, e3⟩ | ⟨a', e1, e2, e3, _⟩
        · refine ⟨_, _, e3, by simp, fun _ => ⟨e1, fun hn => ?_⟩⟩
          exact absurd ⟨h1.1, by rw [hc]⟩ hn
        · refine ⟨_, _, e1, fun _ => ?_, by simp⟩
          rw [e2, s1, List.append_assoc]
          congr 1
          rw [List.dropLast_eq_take]
      · rw [if_neg hc]
        have hne : ¬ (merge = true ∧ some a.mem[a.used - 1] = some 0) := by
          rintro ⟨_, e⟩; exact hc (Option.some.inj e)
        rw [if_neg hne]
        rcases arrAppend_spec m a (s ++ [0]) al hw with ⟨e1, _, e3⟩ | ⟨a', e1, e2, e3, _⟩
        · exact ⟨_, _, e3, by simp, fun _ => ⟨e1, fun _ => rfl⟩⟩
        · exact ⟨_, _, e1, fun _ => by rw [e2, List.append_assoc], by simp⟩
    · rw [if_neg h1]
      have hne : ¬ (merge = true ∧ a.view.getLast? = some 0) := by
        rintro ⟨e1, e2⟩
        apply h1
        refine ⟨e1, fun e => ?_⟩
        rw [List.length_eq_zero_iff.1 (hv.trans e)] at e2
        cases e2
      rw [if_neg hne]
      rcases arrAppend_spec m a (s ++ [0]) al hw with ⟨e1, _, e3⟩ | ⟨a', e1, e2, e3, _⟩
      · exact ⟨_, _, e3, by simp, fun _ => ⟨e1, fun _ => rfl⟩⟩
      · exact ⟨_, _, e1, fun _ => by rw [e2, List.append_assoc], by simp⟩
  · rw [if_neg h0]
    have h0' : s = [] ∧ merge = true := by
      constructor
      · exact Decidable.byContradiction fun e => h0 (Or.inl e)
      · cases hm : merge
        · exact absurd (Or.inr hm) h0
        · rfl
    rw [if_pos h0']
    exact ⟨_, _, rfl, fun _ => rfl, by simp⟩

/-- A 16-byte string in its 16-byte block. -/
def strArr : Arr := ⟨some [65, 66, 67, 68, 69, 70, 71, 72, 73, 74, 75, 76, 77, 78, 79, 0], 16⟩

/-- C76 is false for failures: a merging append that runs out of memory has already taken off
the terminator of the string. -/
theorem C76_counterexample :
    arrRun [(.append [65, 66, 67, 68, 69, 70, 71, 72, 73, 74, 75, 76, 77, 78, 79, 0] 0, memOk)] Arr.empty =
      some ([true], strArr) ∧
    (arrAppendStr memFail strArr [80] true 0).map (fun r => (r.1, r.2.view)) =
      some (false, [65, 66, 67, 68, 69, 70, 71, 72, 73, 74, 75, 76, 77, 78, 79]) := by decide +kernel

example : (arrRun [(.append [65, 0] 0, memOk)] Arr.empty).bind
    (fun r => (arrAppendStr memOk r.2 [66, 67] true 0).map fun q => (q.1, q.2.view)) =
    some (true, [65, 66, 67, 0]) := by decide +kernel

/-! ### C51 and C77 -/

/-- A queue of bytes: what an operation with the given result takes out, and what is left. -/
def queueStep : FOp → Bool → Bytes → Bytes × Bytes
  | .write bs _, true, q => ([], q ++ bs)
  | .write _ _, false, q => ([], q)
  | .readed n, _, q => (q.take n, q.drop n)
  | .alloc _ _, _, q => ([], q)
  | .drop, _, _ => ([], [])
  | .clear, _, _ => ([], [])

/-- A sequence of operations on a queue of bytes. -/
def queueRun : List FOp → List Bool → Bytes → List Bytes × Bytes
  | op :: ops, f :: fs, q =>
    let r := queueStep op f q
    let rest := queueRun ops fs r.2
    (r.1 :: rest.1, rest.2)
  | _, _, q => ([], q)

theorem fifoStep_spec (m : Mem) (f : Fifo) (op : FOp) (hw : f.Wf) :
    (∃ k out f', fifoStep m f op = some (k, out, f') ∧ f'.Wf ∧ (out, f'.content) = queueStep op k f.content ∧
      (k = false → m.ok = false) ∧
      (∀ bs al, op = .write bs al → k = true → f'.base.used + 256 ≤ f'.base.cap)) ∨
    (∃ n, op = .readed n ∧ f.content.length < n ∧ fifoStep m f op = none) := by
  cases op with
  | write bs al =>
    left
    rcases fifoWrite_spec m f bs al hw with ⟨f', h0, h1, h2, h3, _⟩ | ⟨f', h1, h2, h3, h4, _⟩
    · refine ⟨false, [], f', ?_, h2, ?_, fun _ => h0, by simp⟩
      · show (fifoWrite m f bs al).map _ = _
        rw [h1]; rfl
      · rw [h3]; rfl
    · refine ⟨true, [], f', ?_, h2, ?_, by simp, fun _ _ _ _ => h4⟩
      · show (fifoWrite m f bs al).map _ = _
        rw [h1]; rfl
      · rw [h3]; rfl
  | readed n =>
    rcases fifoRead_spec f n hw with ⟨h0, f', h1, h2, h3, _⟩ | ⟨h0, h1⟩
    · left
      refine ⟨true, f.content.take n, f', ?_, h2, ?_, by simp, by simp⟩
      · show (fifoRead f n).map _ = _
        rw [h1]; rfl
      · rw [h3]; rfl
    · right
      refine ⟨n, rfl, h0, ?_⟩
      show (fifoRead f n).map _ = _
      rw [h1]; rfl
  | alloc n al =>
    left
    obtain ⟨h1, h2, h3, h4⟩ := fifoAlloc_spec m f n al hw
    exact ⟨_, _, _, rfl, h1, by rw [h2]; rfl, fun h => (h3 h).1, by simp⟩
  | drop =>
    left
    exact ⟨_, _, _, rfl, ⟨Nat.zero_le _, Nat.le_refl _⟩, rfl, by simp, by simp⟩
  | clear =>
    left
    obtain ⟨h1, h2, h3⟩ := arrClear_spec f.base hw.1
    refine ⟨_, _, _, rfl, ⟨h2, Nat.zero_le _⟩, ?_, by simp, by simp⟩
    show ([], (arrClear f.base).view.drop 0) = _
    rw [h1]; rfl

theorem fifoRun_wf {ops : List (FOp × Mem)} {f f' : Fifo} {os : List (Bool × Bytes)} (hw : f.Wf)
    (h : fifoRun ops f = some (os, f')) :
    f'.Wf ∧ queueRun (ops.map (·.1)) (os.map (·.1)) f.content = (os.map (·.2), f'.content) := by
  induction ops generalizing f os with
  | nil => cases h; exact ⟨hw, rfl⟩
  | cons x r ih =>
    obtain ⟨op, m⟩ := x
    unfold fifoRun at h
    rcases fifoStep_spec m f op hw with ⟨k, out, g, h1, h2, h3, _⟩ | ⟨n, _, _, h1⟩
    · rw [h1] at h
      simp only at h
      cases hr : fifoRun r g with
      | none => rw [hr] at h; cases h
      | some p =>
        obtain ⟨os', c⟩ := p
        rw [hr] at h; cases h
        obtain ⟨i1, i2⟩ := ih h2 hr
        refine ⟨i1, ?_⟩
        simp only [List.map_cons, queueRun]
        rw [← h3]
        simp only
        rw [i2]
    · rw [h1] at h; cases h

/-- C51. For every sequence of operations on a fifo, the bytes that come out of each and the
bytes left at the end are those of a queue. The only operation that leaves the contents is to
take out more bytes than there are. -/
theorem C51_fifo_is_a_queue (ops : List (FOp × Mem)) (os : List (Bool × Bytes)) (f : Fifo)
    (h : fifoRun ops Fifo.empty = some (os, f)) :
    queueRun (ops.map (·.1)) (os.map (·.1)) [] = (os.map (·.2), f.content) ∧
    ∀ m op, (∀ n, op = .readed n → n ≤ f.content.length) → ∃ k out f', fifoStep m f op = some (k, out, f') ∧
      (k = false → m.ok = false) := by
  have hw0 : Fifo.empty.Wf := ⟨Nat.le_refl _, Nat.le_refl _⟩
  obtain ⟨h1, h2⟩ := fifoRun_wf hw0 h
  refine ⟨h2, fun m op hn => ?_⟩
  rcases fifoStep_spec m f op h1 with ⟨k, out, g, e1, _, _, e4, _⟩ | ⟨n, e1, e2, _⟩
  · exact ⟨k, out, g, e1, e4⟩
  · have := hn n e1; omega

/-- The bytes put in by the successful writes of a history. -/
def putIn : List FOp → List Bool → Bytes
  | .write bs _ :: ops, true :: fs => bs ++ putIn ops fs
  | _ :: ops, _ :: fs => putIn ops fs
  | _, _ => []

/-- No operation that throws the contents away. -/
def Keeps (op : FOp) : Prop := op ≠ .drop ∧ op ≠ .clear

theorem queue_conserves (ops : List FOp) (fs : List Bool) (q : Bytes) (hl : fs.length = ops.length)
    (hk : ∀ op ∈ ops, Keeps op) :
    q ++ putIn ops fs = (queueRun ops fs q).1.flatten ++ (queueRun ops fs q).2 := by
  induction ops generalizing fs q with
  | nil => simp [putIn, queueRun]
  | cons op r ih =>
    cases fs with
    | nil => cases hl
    | cons k fs =>
      have hk' := fun o ho => hk o (List.mem_cons_of_mem _ ho)
      have hl' : fs.length = r.length := by simpa using hl
      simp only [queueRun, List.flatten_cons, List.append_assoc]
      rw [← ih fs _ hl' hk']
      cases op with
      | write bs al => cases k <;> simp [queueStep, putIn]
      | readed n =>
        cases k <;> simp only [queueStep, putIn] <;> rw [← List.append_assoc, List.take_append_drop]
      | alloc n al => cases k <;> simp [queueStep, putIn]
      | drop => exact absurd rfl (hk .drop (List.mem_cons_self)).1
      | clear => exact absurd rfl (hk .clear (List.mem_cons_self)).2

theorem fifoRun_length {ops : List (FOp × Mem)} {f f' : Fifo} {os : List (Bool × Bytes)}
    (h : fifoRun ops f = some (os, f')) : os.length = ops.length := by
  induction ops generalizing f os with
  | nil => cases h; rfl
  | cons x r ih =>
    obtain ⟨op, m⟩ := x
    unfold fifoRun at h
    cases hs : fifoStep m f op with
    | none => rw [hs] at h; cases h
    | some p =>
      obtain ⟨k, out, g⟩ := p
      rw [hs] at h
      simp only at h
      cases hr : fifoRun r g with
      | none => rw [hr] at h; cases h
      | some p =>
        obtain ⟨os', c⟩ := p
        rw [hr] at h; cases h
        simp [ih hr]

/-- C51, as a conservation law: without drop and clear, what was put in is what came out, in
order, followed by what is still in the fifo. -/
theorem C51_fifo_conserves (ops : List (FOp × Mem)) (os : List (Bool × Bytes)) (f : Fifo)
    (h : fifoRun ops Fifo.empty = some (os, f)) (hk : ∀ op ∈ ops.map (·.1), Keeps op) :
    putIn (ops.map (·.1)) (os.map (·.1)) = (os.map (·.2)).flatten ++ f.content := by
  have h1 := (C51_fifo_is_a_queue ops os f h).1
  have h2 := queue_conserves (ops.map (·.1)) (os.map (·.1)) []
    (by rw [List.length_map, List.length_map, fifoRun_length h]) hk
  rw [h1] at h2
  exact h2

/-- A history in which the third write moves the contents down. -/
example : (fifoRun [(.write (List.replicate 100 1) 0, memOk), (.readed 90, memOk), (.write (List.replicate 150 2) 0, memOk),
      (.readed 15, memOk), (.write (List.replicate 100 3) 0, memFail)] Fifo.empty).map
        (fun r => (r.1.map (fun o => (o.1, o.2.length)), r.2.rd, r.2.content.length, r.2.content.take 2)) =
    some ([(true, 0), (true, 90), (true, 0), (true, 15), (false, 0)], 0, 145, [2, 2]) := by decide +kernel

/-- C77. After a successful write to a fifo the block goes on for at least 256 bytes after the
end of the contents. -/
theorem C77_fifo_tail (ops : List (FOp × Mem)) (os : List (Bool × Bytes)) (f : Fifo)
    (h : fifoRun ops Fifo.empty = some (os, f)) (m : Mem) (bs : Bytes) (al : Nat) (f' : Fifo)
    (hs : fifoWrite m f bs al = some (true, f')) : f'.base.used + 256 ≤ f'.base.cap := by
  have hw0 : Fifo.empty.Wf := ⟨Nat.le_refl _, Nat.le_refl _⟩
  obtain ⟨h1, -⟩ := fifoRun_wf hw0 h
  rcases fifoWrite_spec m f bs al h1 with ⟨g, _, e1, _⟩ | ⟨g, e1, _, _, e4, _⟩
  · rw [hs] at e1; cases e1
  · rw [hs] at e1; cases e1; exact e4

example : (fifoWrite memOk Fifo.empty [1, 2, 3] 0).map (fun r => (r.1, r.2.base.used, r.2.base.cap)) =
    some (true, 3, 320) := by decide +kernel

end Verif.Core
