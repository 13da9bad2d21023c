import Verif.Core.ArrayLemmas
/-!
Lemmas about the fifo model.
-/
namespace Verif.Core
open Verif

/-- The read position lies within the contents, the contents within the block. -/
def Fifo.Wf (f : Fifo) : Prop := f.base.Wf ∧ f.rd ≤ f.base.used

theorem content_length {f : Fifo} (h : f.Wf) : f.content.length = f.base.used - f.rd := by
  unfold Fifo.content; rw [List.length_drop, view_length h.1]

/-- The second half of `Fifo_Write`: make room, store. -/
def fifoStore (m : Mem) (total : Nat) (f1 : Fifo) (end1 : Nat) (bs : Bytes) (align : Nat) : Option (Bool × Fifo) :=
  match (if end1 > total then arrAlloc m f1.base end1 align else some f1.base) with
  | none => some (false, f1)
  | some b1 =>
    match ({ b1 with used := b1.used + bs.length } : Arr).put b1.used bs with
    | none => none
    | some b2 => some (true, ⟨b2, f1.rd⟩)

theorem fifoStore_spec (m : Mem) (total : Nat) (f1 : Fifo) (end1 : Nat) (bs : Bytes) (align : Nat)
    (hw : f1.Wf) (ht : f1.base.cap = total) (he : end1 = f1.base.used + bs.length + 256) :
    (m.ok = false ∧ fifoStore m total f1 end1 bs align = some (false, f1)) ∨
    ∃ f', fifoStore m total f1 end1 bs align = some (true, f') ∧ f'.Wf ∧ f'.content = f1.content ++ bs ∧
      f'.base.used + 256 ≤ f'.base.cap ∧ f1.base.cap ≤ f'.base.cap := by
  unfold fifoStore
  have hw' : f1.base.used ≤ f1.base.mem.length := hw.1
  have hr := hw.2
  have key : ∀ b1 : Arr, (∃ ext, b1.mem = f1.base.mem ++ ext) → b1.used = f1.base.used → end1 ≤ b1.cap →
      ∃ f', (match ({ b1 with used := b1.used + bs.length } : Arr).put b1.used bs with
        | none => none
        | some b2 => some (true, (⟨b2, f1.rd⟩ : Fifo))) = some (true, f') ∧ f'.Wf ∧
        f'.content = f1.content ++ bs ∧ f'.base.used + 256 ≤ f'.base.cap ∧ f1.base.cap ≤ f'.base.cap := by
    rintro b1 ⟨ext, h1⟩ h2 h3
    have h3' : end1 ≤ b1.mem.length := h3
    obtain ⟨b2, p1, p2, p3⟩ := put_spec ({ b1 with used := b1.used + bs.length } : Arr) b1.used bs
      (show b1.used + bs.length ≤ b1.mem.length by omega)
    have p3' : b2.mem = b1.mem.take b1.used ++ bs ++ b1.mem.drop (b1.used + bs.length) := p3
    have p2' : b2.used = b1.used + bs.length := p2
    rw [p1]
    have lb : b2.mem.length = b1.mem.length := by
      rw [p3']; exact cap_splice _ _ _ (by omega)
    refine ⟨⟨b2, f1.rd⟩, rfl, ⟨?_, ?_⟩, ?_, ?_, ?_⟩
    · show b2.used ≤ b2.mem.length
      omega
    · show f1.rd ≤ b2.used
      omega
    · show (b2.mem.take b2.used).drop f1.rd = (f1.base.mem.take f1.base.used).drop f1.rd ++ bs
      have : b2.mem.take b2.used = f1.base.mem.take f1.base.used ++ bs := by
        rw [p3', p2', h2, h1, take_ext _ _ _ hw']
        refine List.take_left' ?_
        rw [List.length_append, List.length_take]; omega
      rw [this, List.drop_append_of_le_length (by rw [List.length_take]; omega)]
    · show b2.used + 256 ≤ b2.mem.length
      omega
    · show f1.base.mem.length ≤ b2.mem.length
      rw [lb, h1, List.length_append]; omega
  by_cases hc : end1 > total
  · rw [if_pos hc]
    cases ha : arrAlloc m f1.base end1 align with
    | none => exact Or.inl ⟨arrAlloc_none ha, rfl⟩
    | some b1 =>
      obtain ⟨h1, h2, h3⟩ := arrAlloc_spec ha
      exact Or.inr (key b1 h1 h2 h3)
  · rw [if_neg hc]
    exact Or.inr (key f1.base ⟨[], by simp⟩ rfl (by omega))

/-- Everything about one `Fifo_Write`. -/
theorem fifoWrite_spec (m : Mem) (f : Fifo) (bs : Bytes) (al : Nat) (hw : f.Wf) :
    (∃ f', m.ok = false ∧ fifoWrite m f bs al = some (false, f') ∧ f'.Wf ∧ f'.content = f.content ∧
      f'.base.cap = f.base.cap) ∨
    ∃ f', fifoWrite m f bs al = some (true, f') ∧ f'.Wf ∧ f'.content = f.content ++ bs ∧
      f'.base.used + 256 ≤ f'.base.cap ∧ f.base.cap ≤ f'.base.cap := by
  have hw' : f.base.used ≤ f.base.mem.length := hw.1
  have hr := hw.2
  by_cases hc : f.base.used + bs.length + 256 > f.base.cap ∧ f.rd > 0
  · obtain ⟨b, m1, m2, m3⟩ := move_spec f.base 0 f.rd (f.base.used - f.rd)
      (by unfold Arr.cap; omega) (by unfold Arr.cap; omega)
    have hE : fifoWrite m f bs al = fifoStore m f.base.cap ⟨{ b with used := b.used - f.rd }, 0⟩
        (f.base.used + bs.length + 256 - f.rd) bs al := by
      unfold fifoWrite fifoStore
      simp only
      rw [if_pos hc, m1]
      rfl
    have lb : b.mem.length = f.base.mem.length := by
      rw [m3]; simp only [List.length_append, List.length_take, List.length_drop]; omega
    have hw1 : Fifo.Wf ⟨{ b with used := b.used - f.rd }, 0⟩ := by
      refine ⟨?_, Nat.zero_le _⟩
      show b.used - f.rd ≤ b.mem.length
      omega
    have hcont : Fifo.content ⟨{ b with used := b.used - f.rd }, 0⟩ = f.content := by
      show (b.mem.take (b.used - f.rd)).drop 0 = (f.base.mem.take f.base.used).drop f.rd
      rw [List.drop_zero, m3, m2, List.drop_take, List.take_zero, List.nil_append]
      refine List.take_left' ?_
      rw [List.length_take, List.length_drop]; omega
    have hcap : (⟨{ b with used := b.used - f.rd }, 0⟩ : Fifo).base.cap = f.base.cap := lb
    rw [hE]
    rcases fifoStore_spec m f.base.cap ⟨{ b with used := b.used - f.rd }, 0⟩ _ bs al hw1 hcap
      (show f.base.used + bs.length + 256 - f.rd = b.used - f.rd + bs.length + 256 by omega) with
      ⟨h1, h2⟩ | ⟨f', h1, h2, h3, h4, h5⟩
    · exact Or.inl ⟨_, h1, h2, hw1, hcont, hcap⟩
    · exact Or.inr ⟨f', h1, h2, by rw [h3, hcont], h4, by rw [← hcap]; exact h5⟩
  · have hE : fifoWrite m f bs al = fifoStore m f.base.cap f (f.base.used + bs.length + 256) bs al := by
      unfold fifoWrite fifoStore
      simp only
      rw [if_neg hc]
      rfl
    rw [hE]
    rcases fifoStore_spec m f.base.cap f _ bs al hw rfl rfl with ⟨h1, h2⟩ | ⟨f', h1, h2, h3, h4, h5⟩
    · exact Or.inl ⟨f, h1, h2, hw, rfl, rfl⟩
    · exact Or.inr ⟨f', h1, h2, h3, h4, h5⟩

theorem fifoRead_spec (f : Fifo) (n : Nat) (hw : f.Wf) :
    (n ≤ f.content.length ∧ ∃ f', fifoRead f n = some (f.content.take n, f') ∧ f'.Wf ∧
      f'.content = f.content.drop n ∧ f'.base = f.base) ∨
    (f.content.length < n ∧ fifoRead f n = none) := by
  have hl := content_length hw
  have hr := hw.2
  unfold fifoRead
  by_cases h : f.rd + n ≤ f.base.used
  · left
    rw [if_pos h]
    refine ⟨by omega, ⟨f.base, f.rd + n⟩, ?_, ⟨hw.1, h⟩, ?_, rfl⟩
    · unfold Fifo.content Arr.view
      rw [List.drop_take, List.take_take, Nat.min_eq_left (by omega)]
    · show f.base.view.drop (f.rd + n) = (f.base.view.drop f.rd).drop n
      rw [List.drop_drop]
  · right
    rw [if_neg h]
    exact ⟨by omega, rfl⟩

theorem fifoAlloc_spec (m : Mem) (f : Fifo) (n al : Nat) (hw : f.Wf) :
    (fifoAlloc m f n al).2.Wf ∧ (fifoAlloc m f n al).2.content = f.content ∧
    ((fifoAlloc m f n al).1 = false → m.ok = false ∧ (fifoAlloc m f n al).2 = f) ∧
    ((fifoAlloc m f n al).1 = true → n ≤ (fifoAlloc m f n al).2.base.cap) := by
  unfold fifoAlloc
  cases ha : arrAlloc m f.base n al with
  | none => exact ⟨hw, rfl, fun _ => ⟨arrAlloc_none ha, rfl⟩, by simp⟩
  | some b =>
    obtain ⟨⟨ext, h1⟩, h2, h3⟩ := arrAlloc_spec ha
    have hv := view_eq_of_ext hw.1 h1 h2
    have hw' : f.base.used ≤ f.base.mem.length := hw.1
    refine ⟨⟨?_, ?_⟩, ?_, by simp, fun _ => h3⟩
    · show b.used ≤ b.mem.length
      rw [h2, h1, List.length_append]; omega
    · show f.rd ≤ b.used
      rw [h2]; exact hw.2
    · show b.view.drop f.rd = f.base.view.drop f.rd
      rw [hv]

end Verif.Core
