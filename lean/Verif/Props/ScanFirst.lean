import Verif.Mkparts.SplitLemmas
/-!
Property theorem C195: what the element finder finds when it has to look for it.
-/
namespace Verif.Ebml.Scan
open EbmlDoc

/-- C195. Without dummies and in a context without limit the finder returns the first head in the stream: at the place it returns
is the head of what it returns, and there is none between the start and it. -/
theorem C195_first (S : Schema) (c : Nat) (levels : Int) (data : Bytes) (start : Nat) (hs : start ≤ data.length) (fuel : Nat) (f : Found)
    (h : findNext S false fuel data start [⟨c, -1⟩] levels = .found f) :
    ∃ p : Nat, f.pos = p ∧ start ≤ p ∧ HeadAt S c levels data p f ∧ ∀ q, start ≤ q → q < p → ∀ g, ¬ HeadAt S c levels data q g :=
  (Mkparts.findNext_first S c levels data start hs fuel).1 f h

/-- C195, the other way around: the first head in the stream is found, whatever bytes are in front of it, if it does not begin in
the last 11 bytes. -/
theorem C195_found_partial (S : Schema) (c : Nat) (levels : Int) (data : Bytes) (start : Nat) (fuel : Nat) (hf : data.length - start < fuel)
    (p : Nat) (f : Found) (hp : start ≤ p) (hl : p + 12 ≤ data.length) (h : HeadAt S c levels data p f)
    (hno : ∀ q, start ≤ q → q < p → ∀ g, ¬ HeadAt S c levels data q g) :
    findNext S false fuel data start [⟨c, -1⟩] levels = .found f := by
  obtain ⟨f1, f2⟩ := Mkparts.findNext_first S c levels data start (by omega) fuel
  obtain ⟨out, h1, h2, _⟩ := C27_terminates S false data start (by omega) [⟨c, -1⟩] levels
  have hbad := C25_window_safe S false fuel data start [⟨c, -1⟩] levels
  rw [h2 fuel hf] at f1 f2 hbad ⊢
  cases out with
  | bad => exact absurd rfl hbad
  | fuelOut => exact absurd rfl h1
  | none l p' => exact absurd h (f2 l p' rfl p hp hl f)
  | found g =>
    obtain ⟨p', e1, e2, e3, e4⟩ := f1 g rfl
    have : p' = p := by
      rcases Nat.lt_trichotomy p p' with h' | h' | h'
      · exact absurd h (e4 p hp h' f)
      · exact h'.symm
      · exact absurd e3 (hno p' e2 h' g)
    subst this
    rw [e3.unique h]

/-- C195 as hoped for: the first complete head is found wherever it is. -/
def FindsFirst : Prop :=
  ∀ (S : Schema) (c : Nat) (data : Bytes) (start fuel p : Nat) (f : Found), data.length - start < fuel → start ≤ p →
    HeadAt S c 0 data p f → (∀ q, start ≤ q → q < p → ∀ g, ¬ HeadAt S c 0 data q g) →
    findNext S false fuel data start [⟨c, -1⟩] 0 = .found f

/-- C195 fails at the end of the stream: behind a byte below 16 the finder waits for four bytes, so an empty Void that ends the
stream is not found. -/
theorem C195_tail_counterexample : ¬ FindsFirst := by
  intro h
  have := h demo 1 [0x0F, 0xEC, 0x80] 0 10 1 ⟨.known 4, 1, 2, 1, 0, 3, true, 0, 3⟩ (by decide) (by decide)
    ⟨1, 4, 0xEC, [2, 3], by decide, by decide, by decide, by decide, by decide, by decide, by decide, by decide, by decide, by decide, by decide,
      by decide, by decide, by decide, by decide, by decide, by decide, by decide, by decide, by decide⟩
    (by
      intro q hq1 hq2 g hg
      obtain ⟨b, e1, e2⟩ := headAt_low hg
      have : q = 0 := by omega
      subst this
      simp at e1
      subst e1
      revert e2
      decide)
  revert this
  decide

/-- A stray byte, a size that is none, and then a Void. -/
example : findNext demo false 20 ([0x42, 0x86, 0x00, 0x07] ++ [0xEC, 0x8A, 0, 0, 0, 0, 0, 0, 0, 0, 0, 0]) 0 [⟨1, -1⟩] 0 =
    .found ⟨.known 4, 4, 5, 1, 10, 16, true, 0, 6⟩ := by decide

end Verif.Ebml.Scan
